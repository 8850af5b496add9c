import Verif.Props.SimpleModels
import Verif.Props.RsHash
import Verif.Props.RelativeEntropy
import Mathlib.Algebra.Order.Ring.Rat

/-! Property C51: higher scores mean more anomalous (`pysad/core/base_model.py` l.22-33). -/

namespace Pysad

open Spec

/-! ### `ExactStorm` -/

/-- **C51, the full statement for `ExactStorm`**: an instance that is at least as far from every
older retained instance gets at least as high a score. -/
def C51_storm_statement : Prop :=
  ∀ (w : ℕ) (r : ℚ) (cs : List (Call ℚ Unit)) (x x' a a' : ℚ),
    let d := exactStorm (β := Unit) fun p q : ℚ => |p - q|
    let s := (calls d (StormState.new w r) cs).2
    (∀ o ∈ (lastN w (fitted cs)).dropLast, |o - x| ≤ |o - x'|) →
      (d.scorePartial s x).out = .ok a → (d.scorePartial s x').out = .ok a' → a ≤ a'

/-- **C51 is false of `ExactStorm`**: after 0 and 0, radius 1, instance 0 scores 1 and
instance 5 scores 0. -/
theorem C51_storm_refuted : ¬ C51_storm_statement := by
  intro h
  have h1 := h 3 1 [.fit 0 none, .fit 0 none] 0 5 1 0 (by decide +kernel) (by decide +kernel)
    (by decide +kernel)
  revert h1
  norm_num

/-- **C51, partial: the reverse for `ExactStorm`.** For every history and distance, an instance
that is at least as far from every older retained instance gets at most as high a score. -/
theorem C51_storm_reversed_partial {α β K : Type*} [Field K] [LinearOrder K]
    [IsStrictOrderedRing K] (dist : α → α → K) (w : ℕ) (r : K) (cs : List (Call α β)) (x x' : α)
    (h : ∀ o ∈ (lastN w (fitted cs)).dropLast, dist o x ≤ dist o x') :
    let d := exactStorm (β := β) dist
    let s := (calls d (StormState.new w r) cs).2
    ∃ a a', (d.scorePartial s x).out = .ok a ∧ (d.scorePartial s x').out = .ok a' ∧ a' ≤ a := by
  intro d s
  refine ⟨_, _, by rw [C50_storm_score]; rfl, by rw [C50_storm_score]; rfl, ?_⟩
  unfold nearFraction
  split
  · exact le_rfl
  · apply div_le_div_of_nonneg_right _ (by positivity)
    have : (lastN w (fitted cs)).dropLast.countP (fun o => decide (dist o x' < r))
        ≤ (lastN w (fitted cs)).dropLast.countP (fun o => decide (dist o x < r)) := by
      apply List.countP_mono_left
      intro o ho hlt
      simp only [decide_eq_true_eq] at hlt ⊢
      exact (h o ho).trans_lt hlt
    exact_mod_cast this

/-! ### `RSHash` -/

/-- **C51, the full statement for `RSHash`**: of two instances fitted after the same earlier
ones, one whose cells are rarer in every component gets at least as high a score. -/
def C51_rshash_statement : Prop :=
  ∀ (dim : ℕ) (comps : List (RsComponent ℝ dim)), comps ≠ [] → ∀ (sp : ℕ) (decay : ℝ) (nh : ℕ),
    1 ≤ nh → ∀ (earlier : List (Fin dim → ℝ)) (x x' : Fin dim → ℝ) (a a' : ℝ),
    let d := RsHash.detector (β := Unit) realPow2 Real.log
    let after z := (calls d (RsHash.new comps sp decay nh)
      ((earlier ++ [z]).map fun z => .fit z none)).2
    (∀ c ∈ comps, decayedCount realPow2 decay c earlier x' ≤ decayedCount realPow2 decay c earlier x) →
      (d.scorePartial (after x) x).out = .ok (some a) →
      (d.scorePartial (after x') x').out = .ok (some a') → a ≤ a'

theorem fitted_fits {α β : Type*} (X : List α) :
    fitted (X.map fun z => (.fit z none : Call α β)) = X := by
  induction X with
  | nil => rfl
  | cons a X ih => rw [List.map_cons, fitted, ih]

theorem decayedCount_nonneg {dim : ℕ} (decay : ℝ) (c : RsComponent ℝ dim)
    (earlier : List (Fin dim → ℝ)) (x : Fin dim → ℝ) :
    0 ≤ decayedCount realPow2 decay c earlier x := by
  unfold decayedCount
  apply List.sum_nonneg
  intro a ha
  obtain ⟨p, -, rfl⟩ := List.mem_map.1 ha
  exact (Real.rpow_pos_of_pos (by norm_num) _).le

/-- **C51, partial: the reverse for `RSHash`**, for any two histories: the instance whose cells
are rarer in every component gets at most as high a score. -/
theorem C51_rshash_reversed_partial {β : Type*} {dim : ℕ} (comps : List (RsComponent ℝ dim))
    (hm : comps ≠ []) (sp : ℕ) (decay : ℝ) (nh : ℕ) (hnh : 1 ≤ nh)
    (cs cs' : List (Call (Fin dim → ℝ) β)) (earlier earlier' : List (Fin dim → ℝ))
    (x x' z z' : Fin dim → ℝ) (hx : fitted cs = earlier ++ [x])
    (hx' : fitted cs' = earlier' ++ [x'])
    (h : ∀ c ∈ comps,
      decayedCount realPow2 decay c earlier' x' ≤ decayedCount realPow2 decay c earlier x) :
    let d := RsHash.detector (β := β) realPow2 Real.log
    let s0 := RsHash.new comps sp decay nh
    ∃ a a', (d.scorePartial (calls d s0 cs).2 z).out = .ok (some a) ∧
      (d.scorePartial (calls d s0 cs').2 z').out = .ok (some a') ∧ a' ≤ a := by
  intro d s0
  refine ⟨_, _, by rw [C72_rshash_score comps hm sp decay nh hnh cs earlier x z hx]; rfl,
    by rw [C72_rshash_score comps hm sp decay nh hnh cs' earlier' x' z' hx']; rfl, ?_⟩
  unfold rsScore
  apply div_le_div_of_nonneg_right _ (by positivity)
  apply List.sum_le_sum
  intro c hc
  apply Real.log_le_log
  · linarith [decayedCount_nonneg decay c earlier' x']
  · linarith [h c hc]

/-- **C51 is false of `RSHash`**: one feature, cells of width 1, no decay: after 0, another 0
scores `log 2` and 5 scores 0. -/
theorem C51_rshash_refuted : ¬ C51_rshash_statement := by
  intro h
  let c : RsComponent ℝ 1 := ⟨[(0, 0)], 1⟩
  have key : ∀ x : Fin 1 → ℝ, (calls (RsHash.detector (β := Unit) realPow2 Real.log)
      (RsHash.new [c] 1 0 1) (([fun _ => 0] ++ [x]).map fun z => .fit z none)).2.lastScore =
        some (rsScore realPow2 Real.log 0 [c] [fun _ => 0] x) := by
    intro x
    have := C72_rshash_score (β := Unit) [c] (by simp) 1 0 1 le_rfl
      (([fun _ => 0] ++ [x]).map fun z => .fit z none) [fun _ => 0] x x (fitted_fits _)
    simpa [RsHash.detector] using this
  have h0 : decayedCount realPow2 0 c [fun _ => 0] (fun _ => 0) = 1 := by
    simp [decayedCount, SameCell, c, realPow2]
  have h5 : decayedCount realPow2 0 c [fun _ => 0] (fun _ => 5) = 0 := by
    simp [decayedCount, SameCell, c, List.filter_cons]
  have h1 := h 1 [c] (by simp) 1 0 1 le_rfl [fun _ => 0] (fun _ => 0) (fun _ => 5) _ _ (by
    intro c' hc'
    rw [List.mem_singleton] at hc'
    rw [hc', h0, h5]; norm_num)
    (by simp only [RsHash.detector, Res.out_ok]; rw [← key]; rfl)
    (by simp only [RsHash.detector, Res.out_ok]; rw [← key]; rfl)
  unfold rsScore at h1
  simp only [List.map_cons, List.map_nil, List.sum_cons, List.sum_nil, h0, h5] at h1
  have h2 : 0 < Real.log 2 := Real.log_pos (by norm_num)
  norm_num at h1
  linarith

/-! ### `RelativeEntropy` -/

section
variable {K β : Type*} [Field K] [LinearOrder K] [IsStrictOrderedRing K] [FloorRing K]

/-- The last `W` values agree with the first `W`: the statistic of their histograms is below
the threshold (and a number or `-inf`). -/
def Spec.Agrees (entropy : List (Num K) → List (Num K) → Num K) (isf : ℤ → Num K) (lo hi : K)
    (n W : ℕ) (X : List K) : Prop :=
  let freq := frequencies lo ((hi - lo) / n) n
  let statistic := scaled (2 * (W : K)) (entropy (freq (lastN W X)) (freq (X.take W)))
  Below statistic (isf ((n : ℤ) - 1)) ∧ Below statistic .posInf

/-- **C51, the full statement for `RelativeEntropy`**: with full windows, a history whose last
window disagrees with the baseline scores at least as high as one whose last window agrees. -/
def C51_relent_statement : Prop :=
  ∀ (entropy : List (Num ℚ) → List (Num ℚ) → Num ℚ) (isf : ℤ → Num ℚ) (lo hi : ℚ), lo ≠ hi →
    ∀ (n W : ℕ), 1 ≤ n → 1 ≤ W → ∀ (s0 : RelEntState ℚ), RelEnt.new isf lo hi n W = .ok s0 →
    ∀ (cs cs' : List (Call ℚ Unit)) (x x' : ℚ) (v v' : ℤ),
    let d := RelEnt.detector (β := Unit) entropy
    W ≤ (fitted cs).length → W ≤ (fitted cs').length →
      Agrees entropy isf lo hi n W (fitted cs) → ¬ Agrees entropy isf lo hi n W (fitted cs') →
      (d.scorePartial (calls d s0 cs).2 x).out = .ok v →
      (d.scorePartial (calls d s0 cs').2 x').out = .ok v' → v ≤ v'

/-- **C51, partial: the reverse for `RelativeEntropy`.** Agreement scores 0, disagreement -1. -/
theorem C51_relent_reversed_partial (entropy : List (Num K) → List (Num K) → Num K)
    (isf : ℤ → Num K) (lo hi : K) (hne : lo ≠ hi) (n W : ℕ) (hn : 1 ≤ n) (hW : 1 ≤ W)
    (s0 : RelEntState K) (h0 : RelEnt.new isf lo hi n W = .ok s0) (cs : List (Call K β)) (x : K)
    (hl : W ≤ (fitted cs).length) :
    let d := RelEnt.detector (β := β) entropy
    (Agrees entropy isf lo hi n W (fitted cs) →
      (d.scorePartial (calls d s0 cs).2 x).out = .ok 0) ∧
    (¬ Agrees entropy isf lo hi n W (fitted cs) →
      (d.scorePartial (calls d s0 cs).2 x).out = .ok (-1)) := by
  intro d
  have h := C69_relent_score (β := β) entropy isf lo hi hne n W hn hW s0 h0 cs x
  simp only at h
  rw [h, if_neg (by omega)]
  constructor
  · intro ha
    have ha' := ha
    unfold Agrees at ha'
    rw [if_pos ha']; rfl
  · intro ha
    have ha' := ha
    unfold Agrees at ha'
    rw [if_neg ha']; rfl

/-- A stand-in for the relative entropy: 0 for equal histograms, 10 otherwise. -/
def exampleEntropy (p q : List (Num ℚ)) : Num ℚ := if p = q then .fin 0 else .fin 10

/-- **C51 is false of `RelativeEntropy`**: 3 bins, range (0, 3), window 1. After 1/2, 1/2 the
score is 0, after 1/2, 3/2 it is -1. -/
theorem C51_relent_refuted : ¬ C51_relent_statement := by
  intro h
  have hd : ∀ X : List ℚ, Decidable (Agrees exampleEntropy (fun _ => .fin 1) 0 3 3 1 X) := fun X => by
    unfold Agrees; infer_instance
  obtain ⟨s0, h0⟩ : ∃ s0, RelEnt.new (fun _ => .fin (1 : ℚ)) 0 3 3 1 = .ok s0 := ⟨_, rfl⟩
  have ha : Agrees exampleEntropy (fun _ => .fin 1) 0 3 3 1
      (fitted ([.fit (1 / 2) none, .fit (1 / 2) none] : List (Call ℚ Unit))) := by
    simp only [Agrees]; decide +kernel
  have hb : ¬ Agrees exampleEntropy (fun _ => .fin 1) 0 3 3 1
      (fitted ([.fit (1 / 2) none, .fit (3 / 2) none] : List (Call ℚ Unit))) := by
    simp only [Agrees]; decide +kernel
  have h1 := C51_relent_reversed_partial (β := Unit) exampleEntropy (fun _ => .fin 1) 0 3
    (by norm_num) 3 1 (by norm_num) le_rfl s0 h0 [.fit (1 / 2) none, .fit (1 / 2) none] 0
    (by simp [fitted])
  have h2 := C51_relent_reversed_partial (β := Unit) exampleEntropy (fun _ => .fin 1) 0 3
    (by norm_num) 3 1 (by norm_num) le_rfl s0 h0 [.fit (1 / 2) none, .fit (3 / 2) none] 0
    (by simp [fitted])
  have h3 := h exampleEntropy (fun _ => .fin 1) 0 3 (by norm_num) 3 1 (by norm_num) le_rfl s0 h0
    _ _ 0 0 0 (-1) (by simp [fitted]) (by simp [fitted]) ha hb (h1.1 ha) (h2.2 hb)
  revert h3
  norm_num

end

end Pysad
