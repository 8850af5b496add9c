import Verif.Props.RsHash
import Verif.Model.KnnCad
import Verif.Model.RelativeEntropy

/-! C110: whether `score_partial(x)` is about `x`. -/

namespace Pysad
open Spec

/-- Does the score depend on the instance to be scored: is there a history after which two
instances are answered differently? -/
def Spec.Attends {σ α β S : Type*} (d : Detector σ α β S) (s : σ) : Prop :=
  ∃ (cs : List (Call α β)) (x x' : α),
    (call d (calls d s cs).2 (.score x)).1 ≠ (call d (calls d s cs).2 (.score x')).1

/-- Does the score of `fit_score_partial` depend on its instance? -/
def Spec.AttendsFitted {σ α β S : Type*} (d : Detector σ α β S) (s : σ) : Prop :=
  ∃ (cs : List (Call α β)) (x x' : α),
    (d.fitScorePartial (calls d s cs).2 x none).out ≠
      (d.fitScorePartial (calls d s cs).2 x' none).out

/-- The full claim of **C110** for `RSHash`. -/
def C110_rshash_statement : Prop :=
  ∀ (dim : ℕ) (comps : List (RsComponent ℝ dim)), comps ≠ [] →
    (∀ c ∈ comps, 0 < c.f ∧ c.dims ≠ []) → ∀ (sp : ℕ) (decay : ℝ) (nh : ℕ), 1 ≤ nh →
    Attends (RsHash.detector (β := ℕ) realPow2 Real.log) (RsHash.new comps sp decay nh)

/-- The full claim of **C110** for `RelativeEntropy`, for some entropy function and some
parameters. -/
def C110_relent_statement : Prop :=
  ∃ (entropy : List (Num ℚ) → List (Num ℚ) → Num ℚ) (isf : ℤ → Num ℚ) (lo hi : ℚ) (n W : ℕ)
    (s : RelEntState ℚ), RelEnt.new isf lo hi n W = .ok s ∧
    Attends (RelEnt.detector (β := ℕ) entropy) s

/-- The full claim of **C110** for `KNNCAD`, for some probationary period and some inversion. -/
def C110_knncad_statement : Prop :=
  ∃ (inv : List (List ℚ) → Option (List (List ℚ))) (P : ℕ),
    Attends (KnnCad.detector (β := ℕ) inv) (KnnCad.new P)

/-- A detector that does not look at its argument does not attend to it. -/
theorem not_attends {σ α β S : Type*} {d : Detector σ α β S} (s0 : σ)
    (h : ∀ s x x', d.scorePartial s x = d.scorePartial s x') : ¬ Attends d s0 := by
  rintro ⟨cs, x, x', hne⟩
  apply hne
  simp only [call, h _ x x']

/-- **C110 is false** for `RSHash`. -/
theorem C110_rshash_refuted : ¬ C110_rshash_statement := by
  intro h
  exact not_attends _ (fun _ _ _ => rfl)
    (h 1 [⟨[(0, 0)], 1⟩] (by simp) (by simp) 1000 (1 / 100) 1 le_rfl)

/-- **C110 is false** for `RelativeEntropy`. -/
theorem C110_relent_refuted : ¬ C110_relent_statement := by
  rintro ⟨_, _, _, _, _, _, s, -, h⟩
  exact not_attends s (fun _ _ _ => rfl) h

/-- **C110 is false** for `KNNCAD`. -/
theorem C110_knncad_refuted : ¬ C110_knncad_statement := by
  rintro ⟨_, _, h⟩
  exact not_attends _ (fun _ _ _ => rfl) h

variable {dim : ℕ}

/-- **C110, what holds** for `RSHash`: `fit_score_partial` scores its instance. Already after one
fit, and for all parameters, a repeated instance and one that is far away are told apart.
(Missing: `score_partial`, see `C110_rshash_refuted`.) -/
theorem C110_rshash_partial (comps : List (RsComponent ℝ dim)) (hm : comps ≠ [])
    (hc : ∀ c ∈ comps, 0 < c.f ∧ c.dims ≠ []) (sp : ℕ) (decay : ℝ) (nh : ℕ) (hnh : 1 ≤ nh) :
    AttendsFitted (RsHash.detector (β := ℕ) realPow2 Real.log) (RsHash.new comps sp decay nh) := by
  -- a distance greater than every width
  obtain ⟨T, hT⟩ : ∃ T : ℝ, ∀ c ∈ comps, c.f ≤ T := by
    clear hm hc
    induction comps with
    | nil => exact ⟨0, by simp⟩
    | cons c cs ih =>
      obtain ⟨T, hT⟩ := ih
      refine ⟨max c.f T, ?_⟩
      intro c' hc'
      rcases List.mem_cons.1 hc' with rfl | hc'
      · exact le_max_left _ _
      · exact (hT c' hc').trans (le_max_right _ _)
  refine ⟨[.fit (fun _ => 0) none], fun _ => 0, fun _ => T, ?_⟩
  have hscore : ∀ x : Fin dim → ℝ, ((RsHash.detector (β := ℕ) realPow2 Real.log).fitScorePartial
      (calls (RsHash.detector realPow2 Real.log) (RsHash.new comps sp decay nh)
        [(.fit (fun _ => 0) none : Call (Fin dim → ℝ) ℕ)]).2 x none).out
      = .ok (some (rsScore realPow2 Real.log decay comps [fun _ => 0] x)) := by
    intro x
    have hpow : ∀ a b : ℝ, realPow2 (a + b) = realPow2 a * realPow2 b :=
      fun a b => Real.rpow_add (by norm_num : (0 : ℝ) < 2) a b
    obtain ⟨s', h1, h2⟩ := RsHash.fit_inv (log := Real.log) hpow comps hm decay _ _ _
      (RsHash.inv (β := ℕ) (log := Real.log) hpow comps hm sp decay nh hnh
        [.fit (fun _ => 0) none]) x
    have h3 := h2.2.2.2.2.2
    have h4 : (RsHash.detector (β := ℕ) realPow2 Real.log).fitPartial
        (calls (RsHash.detector realPow2 Real.log) (RsHash.new comps sp decay nh)
          [(.fit (fun _ => 0) none : Call (Fin dim → ℝ) ℕ)]).2 x none = .ok () s' := h1
    rw [Detector.fitScorePartial, h4]
    simp only [Res.bind_ok, RsHash.detector, Res.out_ok, h3]
    simp [fitted]
  rw [hscore, hscore]
  intro h
  have h1 : rsScore realPow2 Real.log decay comps [fun _ => 0] (fun _ => T) = 0 := by
    refine (C72_rshash_nonneg comps decay _ _).2 ?_
    intro c hcm y hy hs
    rw [List.mem_singleton] at hy
    subst hy
    obtain ⟨hf, hd⟩ := hc c hcm
    obtain ⟨p, hp⟩ := List.exists_mem_of_ne_nil _ hd
    have h2 := hs p hp
    have h3 : (0 + p.2) / c.f + 1 ≤ (T + p.2) / c.f := by
      rw [div_add_one hf.ne']
      exact div_le_div_of_nonneg_right (by linarith [hT c hcm]) hf.le
    have h4 := Int.floor_le_floor h3
    rw [Int.floor_add_one] at h4
    simp only at h2
    omega
  have h2 : 0 < rsScore realPow2 Real.log decay comps [fun _ => 0] (fun _ => (0 : ℝ)) := by
    unfold rsScore
    have hpos : ∀ c ∈ comps, 0 < Real.log (1 + decayedCount realPow2 decay c [fun _ => 0]
        (fun _ => (0 : ℝ))) := by
      intro c _
      apply Real.log_pos
      have : SameCell c (fun _ => (0 : ℝ)) (fun _ => 0) := fun p _ => rfl
      have : 0 < decayedCount realPow2 decay c [fun _ => 0] (fun _ => (0 : ℝ)) := by
        unfold decayedCount
        simp only [List.zipIdx_cons, List.zipIdx_nil, List.filter_cons, this, decide_true, if_true,
          List.filter_nil, List.map_cons, List.map_nil, List.sum_cons, List.sum_nil, add_zero]
        exact Real.rpow_pos_of_pos (by norm_num) _
      linarith
    have hlen : 0 < comps.length := List.length_pos_iff.2 hm
    refine div_pos ?_ (by exact_mod_cast hlen)
    apply List.sum_pos
    · intro a ha
      obtain ⟨c, hc', rfl⟩ := List.mem_map.1 ha
      exact hpos c hc'
    · simpa using hm
  simp only [Except.ok.injEq, Option.some.injEq] at h
  rw [h, h1] at h2
  exact lt_irrefl _ h2

/-- **C110, what holds** for `RelativeEntropy`: `fit_score_partial` can tell instances apart. -/
theorem C110_relent_partial :
    ∃ (entropy : List (Num ℚ) → List (Num ℚ) → Num ℚ) (isf : ℤ → Num ℚ) (s : RelEntState ℚ),
      RelEnt.new isf 0 10 5 2 = .ok s ∧
      AttendsFitted (RelEnt.detector (β := ℕ) entropy) s := by
  refine ⟨fun p q => if p = q then .fin 0 else .posInf, fun _ => .fin 1, _, rfl,
    [.fit 1 none, .fit 1 none], 1, 9, ?_⟩
  decide +kernel

end Pysad
