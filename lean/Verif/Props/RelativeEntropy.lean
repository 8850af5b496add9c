import Verif.Model.RelativeEntropy
import Verif.Spec.NumOrder
import Verif.Proofs.Lists
import Verif.Proofs.Calls
import Mathlib.Data.Rat.Floor

/-! Properties C69 and C70: `RelativeEntropy`. -/

namespace Pysad

open Spec

theorem Num.lt_iff_below {K : Type*} [LT K] [DecidableLT K] (a b : Num K) :
    Num.lt a b = true ↔ Below a b := by
  constructor
  · intro h
    cases a <;> cases b <;> simp only [Num.lt, decide_eq_true_eq, Bool.false_eq_true] at h
    · exact .numbers h
    · exact .infinity _
    · exact .minusInfinity _
    · exact .infinities
  · intro h
    cases h with
    | numbers h => simpa [Num.lt] using h
    | infinity => rfl
    | minusInfinity => rfl
    | infinities => rfl

section
variable {K β : Type*} [Field K] [LinearOrder K] [IsStrictOrderedRing K] [FloorRing K]

/-- The number of values that the detector puts into bin `i` of `n`: the values are
rounded up to whole steps, bin `i` is `[i, i + 1)`, and the last bin also takes `n`. -/
def Spec.binned (lo step : K) (n : ℕ) (vs : List K) (i : ℕ) : ℕ :=
  vs.countP fun v => decide ((i : ℤ) ≤ ⌈(v - lo) / step⌉ ∧
    (⌈(v - lo) / step⌉ < i + 1 ∨ (i + 1 = n ∧ ⌈(v - lo) / step⌉ = n)))

/-- The relative frequencies of the bins. -/
def Spec.frequencies (lo step : K) (n : ℕ) (vs : List K) : List (Num K) :=
  (List.range n).map fun i =>
    npDiv (binned lo step n vs i : K) ((((List.range n).map (binned lo step n vs)).sum : ℕ) : K)

theorem mapM_quantize (lo step : K) (hs : step ≠ 0) (vs : List K) :
    vs.mapM (RelEnt.quantize lo step) = .ok (vs.map fun v => ⌈(v - lo) / step⌉) := by
  induction vs with
  | nil => rfl
  | cons v vs ih =>
    rw [List.mapM_cons, ih]
    simp only [RelEnt.quantize, if_neg hs]
    rfl

theorem histogram_eq (lo step : K) (n : ℕ) (vs : List K) :
    RelEnt.histogram n (vs.map fun v => ⌈(v - lo) / step⌉) = frequencies lo step n vs := by
  have : RelEnt.binCount n (vs.map fun v => ⌈(v - lo) / step⌉) = binned lo step n vs := by
    funext i
    simp only [RelEnt.binCount, binned, List.countP_map]
    rfl
  simp only [RelEnt.histogram, frequencies, this, List.map_map]
  rfl

/-- The state after the stream `X`. -/
def RelEntInv (isf : ℤ → Num K) (lo hi : K) (n W : ℕ) (X : List K) (s : RelEntState K) : Prop :=
  s.minVal = lo ∧ s.util = X ∧ s.nBins = n ∧ s.W = W ∧ s.T = isf ((n : ℤ) - 1) ∧
  s.stepSize = (hi - lo) / n ∧
  (X.length < W → s.m = 0 ∧ s.P = [] ∧ s.c = [] ∧ s.pHat = none) ∧
  (W ≤ X.length → s.m = 1 ∧ s.P = [frequencies lo ((hi - lo) / n) n (X.take W)] ∧ s.c = [1] ∧
    s.pHat = some (frequencies lo ((hi - lo) / n) n (lastN W X)))

theorem relEnt_fit (isf : ℤ → Num K) (lo hi : K) (hne : lo ≠ hi) (n W : ℕ) (hn : 1 ≤ n) (hW : 1 ≤ W)
    (X : List K) (s : RelEntState K) (h : RelEntInv isf lo hi n W X s) (x : K) :
    ∃ s', RelEnt.fitPartial s x = .ok () s' ∧ RelEntInv isf lo hi n W (X ++ [x]) s' := by
  obtain ⟨h1, h2, h3, h4, h5, h6, h7, h8⟩ := h
  have hstep : (hi - lo) / (n : K) ≠ 0 := by
    have : (n : K) ≠ 0 := by positivity
    exact div_ne_zero (sub_ne_zero.2 hne.symm) this
  have hlen : (X ++ [x]).length = X.length + 1 := by simp
  unfold RelEnt.fitPartial
  simp only [h1, h2, h3, h4, h6, hlen]
  by_cases hc : W ≤ X.length + 1
  · rw [if_pos hc, mapM_quantize _ _ hstep]
    simp only [histogram_eq]
    have hcur : RelEnt.current W (X ++ [x]) = lastN W (X ++ [x]) := by
      unfold RelEnt.current; rw [if_neg (by omega)]; rfl
    simp only [hcur]
    rcases Nat.lt_or_ge X.length W with hlt | hge
    · obtain ⟨g1, g2, g3, -⟩ := h7 hlt
      rw [if_pos g1]
      refine ⟨_, rfl, rfl, rfl, rfl, rfl, h5, rfl, fun h => absurd h (by omega), fun _ => ?_⟩
      refine ⟨rfl, ?_, by simp [g3], rfl⟩
      simp only [g2, List.nil_append]
      rw [lastN_of_le (by omega), List.take_of_length_le (by omega)]
    · obtain ⟨g1, g2, g3, -⟩ := h8 hge
      rw [if_neg (by omega)]
      refine ⟨_, rfl, rfl, rfl, rfl, rfl, h5, rfl, fun h => absurd h (by omega), fun _ => ?_⟩
      refine ⟨g1, ?_, g3, rfl⟩
      rw [List.take_append_of_le_length hge]; exact g2
  · rw [if_neg hc]
    obtain ⟨g1, g2, g3, g4⟩ := h7 (by omega)
    exact ⟨_, rfl, rfl, rfl, rfl, rfl, h5, rfl, fun _ => ⟨g1, g2, g3, g4⟩, fun h => by omega⟩

variable (entropy : List (Num K) → List (Num K) → Num K)

theorem relEnt_score_state (s : RelEntState K) : (RelEnt.scorePartial entropy s).state = s := by
  unfold RelEnt.scorePartial
  split
  · split
    · rfl
    · cases RelEnt.agreement entropy s _ <;> rfl
  · rfl

theorem relEnt_inv (isf : ℤ → Num K) (lo hi : K) (hne : lo ≠ hi) (n W : ℕ) (hn : 1 ≤ n) (hW : 1 ≤ W)
    (s0 : RelEntState K) (h0 : RelEnt.new isf lo hi n W = .ok s0) (cs : List (Call K β)) :
    RelEntInv isf lo hi n W (fitted cs) (calls (RelEnt.detector entropy) s0 cs).2 := by
  refine calls_inv (d := RelEnt.detector (β := β) entropy)
    (P := fun cs (s : RelEntState K) => RelEntInv isf lo hi n W (fitted cs) s) ?_ _ ?_ cs
  · intro cs s c h
    rw [fitted_append]
    cases c with
    | fit x y =>
      obtain ⟨s', g1, g2⟩ := relEnt_fit isf lo hi hne n W hn hW _ s h x
      simp only [call, RelEnt.detector, g1]
      exact g2
    | score x =>
      have : (call (RelEnt.detector (β := β) entropy) s (.score x)).2 = s := by
        have := relEnt_score_state entropy s
        simp only [call, RelEnt.detector]
        cases hx : RelEnt.scorePartial entropy s <;> simpa [hx] using this
      rw [this]
      simpa [fitted] using h
  · unfold RelEnt.new at h0
    rw [if_neg (by omega)] at h0
    simp only [Except.ok.injEq] at h0
    subst h0
    exact ⟨rfl, rfl, rfl, rfl, rfl, rfl, fun _ => ⟨rfl, rfl, rfl, rfl⟩,
      fun h => by simp [fitted] at h; omega⟩

/-- **C69.** At every time the stored null hypotheses are: none until `W` values were
fitted, and afterwards the frequencies of the first `W` values. -/
theorem C69_relent_hypothesis (isf : ℤ → Num K) (lo hi : K) (hne : lo ≠ hi) (n W : ℕ) (hn : 1 ≤ n)
    (hW : 1 ≤ W) (s0 : RelEntState K) (h0 : RelEnt.new isf lo hi n W = .ok s0)
    (cs : List (Call K β)) :
    (calls (RelEnt.detector entropy) s0 cs).2.P =
      if (fitted cs).length < W then []
      else [frequencies lo ((hi - lo) / n) n ((fitted cs).take W)] := by
  obtain ⟨-, -, -, -, -, -, h7, h8⟩ := relEnt_inv (β := β) entropy isf lo hi hne n W hn hW s0 h0 cs
  split
  · rename_i h; exact (h7 h).2.1
  · rename_i h; exact (h8 (by omega)).2.1

theorem Num.smul_eq_scaled {c : K} (hc : 0 < c) (a : Num K) : Num.smul c a = scaled c a := by
  cases a <;> simp [Num.smul, scaled, hc]

theorem two_mul_pos {W : ℕ} (hW : 1 ≤ W) : (0 : K) < 2 * (W : K) := by
  have : (0 : K) < W := by exact_mod_cast hW
  linarith

/-- **C69.** The score is 0 until `W` values were fitted. Then it is 0 if the test statistic
of the last `W` values against the first `W` is below the threshold, and -1 if not. -/
theorem C69_relent_score (isf : ℤ → Num K) (lo hi : K) (hne : lo ≠ hi) (n W : ℕ) (hn : 1 ≤ n)
    (hW : 1 ≤ W) (s0 : RelEntState K) (h0 : RelEnt.new isf lo hi n W = .ok s0)
    (cs : List (Call K β)) (x : K) :
    let s := (calls (RelEnt.detector entropy) s0 cs).2
    let X := fitted cs
    let freq := frequencies lo ((hi - lo) / n) n
    let statistic := scaled (2 * (W : K)) (entropy (freq (lastN W X)) (freq (X.take W)))
    (RelEnt.detector (β := β) entropy).scorePartial s x =
      .ok (if X.length < W then 0
        else if Below statistic (isf ((n : ℤ) - 1)) ∧ Below statistic .posInf then 0 else -1) s := by
  intro s X freq statistic
  obtain ⟨h1, h2, h3, h4, h5, h6, h7, h8⟩ :=
    relEnt_inv (β := β) entropy isf lo hi hne n W hn hW s0 h0 cs
  have hs : s = (calls (RelEnt.detector entropy) s0 cs).2 := rfl
  have hX : X = fitted cs := rfl
  rw [← hs] at h1 h2 h3 h4 h5 h6 h7 h8
  rw [← hX] at h2 h7 h8
  show RelEnt.scorePartial entropy s = _
  unfold RelEnt.scorePartial
  rw [h4, h2]
  by_cases hc : X.length < W
  · rw [if_neg (by rw [(h7 hc).1]; omega), if_pos hc]
  · obtain ⟨g1, g2, -, g4⟩ := h8 (by omega)
    rw [if_pos ⟨by omega, by rw [g1]; omega⟩, if_neg hc, g4]
    simp only [RelEnt.agreement, g1, List.range_succ, List.range_zero, List.nil_append,
      List.foldlM_cons, List.foldlM_nil, RelEnt.agreeStep, g2, h4, h5]
    have hsc : Num.smul (2 * (W : K)) (entropy (freq (lastN W X)) (freq (X.take W))) = statistic :=
      Num.smul_eq_scaled (two_mul_pos hW) _
    show Res.ofExcept (Except.map Prod.fst (Except.bind
      (if ((Num.smul (2 * (W : K)) (entropy (freq (lastN W X)) (freq (X.take W)))).lt
          (isf ((n : ℤ) - 1)) &&
        (Num.smul (2 * (W : K)) (entropy (freq (lastN W X)) (freq (X.take W)))).lt .posInf) = true
        then Except.ok (((0 : ℕ) : ℤ),
          Num.smul (2 * (W : K)) (entropy (freq (lastN W X)) (freq (X.take W))))
        else Except.ok (-1, Num.posInf)) fun a => Except.ok a)) s = _
    rw [hsc]
    have hiff : (statistic.lt (isf ((n : ℤ) - 1)) && statistic.lt .posInf) = true ↔
        Below statistic (isf ((n : ℤ) - 1)) ∧ Below statistic .posInf := by
      rw [Bool.and_eq_true, Num.lt_iff_below, Num.lt_iff_below]
    by_cases hl : Below statistic (isf ((n : ℤ) - 1)) ∧ Below statistic .posInf
    · rw [if_pos (hiff.2 hl), if_pos hl]; rfl
    · rw [if_neg (mt hiff.1 hl), if_neg hl]; rfl

/-- **C69.** So every score is 0 or -1, and 0 until `W` values were fitted. -/
theorem C69_relent_values (isf : ℤ → Num K) (lo hi : K) (hne : lo ≠ hi) (n W : ℕ) (hn : 1 ≤ n)
    (hW : 1 ≤ W) (s0 : RelEntState K) (h0 : RelEnt.new isf lo hi n W = .ok s0)
    (cs : List (Call K β)) (x : K) :
    ∃ v, ((RelEnt.detector (β := β) entropy).scorePartial
        (calls (RelEnt.detector entropy) s0 cs).2 x).out = .ok v ∧ (v = 0 ∨ v = -1) ∧
      ((fitted cs).length < W → v = 0) := by
  have h := C69_relent_score (β := β) entropy isf lo hi hne n W hn hW s0 h0 cs x
  simp only at h
  rw [h]
  refine ⟨_, rfl, ?_, fun hlt => by rw [if_pos hlt]⟩
  split
  · exact Or.inl rfl
  · split
    · exact Or.inl rfl
    · exact Or.inr rfl

/-- **C69.** With `min_val = max_val`, the fit that completes the first window raises
`ZeroDivisionError`, and so do all later ones. -/
theorem C69_relent_empty_range (isf : ℤ → Num K) (lo : K) (n W : ℕ) (hn : 1 ≤ n) (hW : 1 ≤ W)
    (s0 : RelEntState K) (h0 : RelEnt.new isf lo lo n W = .ok s0) (cs : List (Call K β)) (x : K)
    (hl : W ≤ (fitted cs).length + 1) :
    ((RelEnt.detector (β := β) entropy).fitPartial
      (calls (RelEnt.detector entropy) s0 cs).2 x none).out = .error .zeroDivision := by
  have hfit : ∀ (s : RelEntState K) x, s.stepSize = 0 → 1 ≤ s.W →
      RelEnt.fitPartial s x = if s.W ≤ s.util.length + 1
        then .err .zeroDivision { s with util := s.util ++ [x] }
        else .ok () { s with util := s.util ++ [x] } := by
    intro s x h1 h2
    unfold RelEnt.fitPartial
    simp only [List.length_append, List.length_singleton]
    split
    · rename_i hc
      have hcur : ∃ a l, RelEnt.current s.W (s.util ++ [x]) = a :: l := by
        unfold RelEnt.current
        rw [if_neg (by omega)]
        rcases hd : List.drop ((s.util ++ [x]).length - s.W) (s.util ++ [x]) with _ | ⟨a, l⟩
        · have := congrArg List.length hd
          simp at this; omega
        · exact ⟨a, l, rfl⟩
      obtain ⟨a, l, hal⟩ := hcur
      rw [hal, List.mapM_cons]
      simp only [RelEnt.quantize, h1]
      rfl
    · rfl
  have hinv : ∀ cs : List (Call K β), (calls (RelEnt.detector (β := β) entropy) s0 cs).2.util = fitted cs ∧
      (calls (RelEnt.detector (β := β) entropy) s0 cs).2.stepSize = 0 ∧
      (calls (RelEnt.detector (β := β) entropy) s0 cs).2.W = W := by
    refine calls_inv (d := RelEnt.detector (β := β) entropy)
      (P := fun cs (s : RelEntState K) => s.util = fitted cs ∧ s.stepSize = 0 ∧ s.W = W) ?_ _ ?_
    · rintro cs s c ⟨g1, g2, g3⟩
      rw [fitted_append]
      cases c with
      | fit z y =>
        simp only [call, RelEnt.detector, hfit s z g2 (by omega)]
        split
        · rename_i heq
          split at heq
          · simp at heq
          · simp only [Res.ok.injEq, true_and] at heq
            subst heq
            exact ⟨by simp [g1, fitted], g2, g3⟩
        · rename_i heq
          split at heq
          · simp only [Res.err.injEq] at heq
            rw [← heq.2]
            exact ⟨by simp [g1, fitted], g2, g3⟩
          · simp at heq
      | score z =>
        have : (call (RelEnt.detector (β := β) entropy) s (.score z)).2 = s := by
          have := relEnt_score_state entropy s
          simp only [call, RelEnt.detector]
          cases hx : RelEnt.scorePartial entropy s <;> simpa [hx] using this
        rw [this]
        simpa [fitted] using And.intro g1 (And.intro g2 g3)
    · unfold RelEnt.new at h0
      rw [if_neg (by omega)] at h0
      simp only [Except.ok.injEq] at h0
      subst h0
      exact ⟨rfl, by simp, rfl⟩
  obtain ⟨g1, g2, g3⟩ := hinv cs
  show (RelEnt.fitPartial _ x).out = _
  rw [hfit _ x g2 (by omega), g1, g3, if_pos hl]
  rfl

/-! ### C70 -/

/-- The number of values in the `i`-th of `n` equal parts of `(lo, hi]`. -/
def Spec.inPart (lo hi : K) (n : ℕ) (vs : List K) (i : ℕ) : ℕ :=
  vs.countP fun v => decide (lo + (hi - lo) / n * i < v ∧ v ≤ lo + (hi - lo) / n * (i + 1))

end

/-- **C70, as one would expect it**: when the window lies in `(lo, hi]`, the current
frequencies are those of the `n` equal parts of the range. -/
def C70_relent_bins_statement : Prop :=
  ∀ (isf : ℤ → Num ℚ) (entropy : List (Num ℚ) → List (Num ℚ) → Num ℚ) (lo hi : ℚ), lo < hi →
  ∀ n W : ℕ, 1 ≤ n → 1 ≤ W → ∀ s0, RelEnt.new isf lo hi n W = .ok s0 →
  ∀ X : List ℚ, X.length = W → (∀ v ∈ X, lo < v ∧ v ≤ hi) →
  (calls (RelEnt.detector (β := Unit) entropy) s0 (X.map fun x => .fit x none)).2.pHat =
    some ((List.range n).map fun i => .fin ((inPart lo hi n X i : ℚ) / (W : ℚ)))

/-- **C70 is false**: range `(0, 2]` with two bins, the value 1. -/
theorem C70_relent_bins_refuted : ¬ C70_relent_bins_statement := by
  intro h
  have := h (fun _ => .nan) (fun _ _ => .nan) 0 2 (by norm_num) 2 1 (by norm_num) le_rfl _ rfl [1] rfl
    (by simp)
  revert this
  decide +kernel

section
variable {K β : Type*} [Field K] [LinearOrder K] [IsStrictOrderedRing K] [FloorRing K]
  (entropy : List (Num K) → List (Num K) → Num K)

theorem fitted_map_fit (X : List K) :
    fitted (X.map fun x => (Call.fit x none : Call K β)) = X := by
  induction X with
  | nil => rfl
  | cons x X ih => simp [fitted, ih]

/-- Rounding up picks the part of the range. -/
theorem ceil_part (lo hi : K) (hlt : lo < hi) (n : ℕ) (hn : 1 ≤ n) (v : K) (i : ℕ) :
    (lo + (hi - lo) / n * i < v ∧ v ≤ lo + (hi - lo) / n * (i + 1)) ↔
      ⌈(v - lo) / ((hi - lo) / n)⌉ = (i : ℤ) + 1 := by
  have hn' : (0 : K) < n := by exact_mod_cast hn
  have hstep : 0 < (hi - lo) / (n : K) := div_pos (sub_pos.2 hlt) hn'
  rw [Int.ceil_eq_iff]
  push_cast
  rw [lt_div_iff₀ hstep, div_le_iff₀ hstep]
  constructor
  · rintro ⟨h1, h2⟩
    constructor <;> nlinarith
  · rintro ⟨h1, h2⟩
    constructor <;> nlinarith

/-- **C70 (partial).** What holds instead, for a window in `(lo, hi]` and `n ≥ 2` bins: the
first frequency is 0, frequency `i` is that of part `i - 1` of the range, except that the
last one is that of the last two parts together. -/
theorem C70_relent_bins_partial (isf : ℤ → Num K) (lo hi : K) (hlt : lo < hi) (n W : ℕ)
    (hn : 2 ≤ n) (hW : 1 ≤ W) (s0 : RelEntState K) (h0 : RelEnt.new isf lo hi n W = .ok s0)
    (X : List K) (hX : X.length = W) (hr : ∀ v ∈ X, lo < v ∧ v ≤ hi) :
    (calls (RelEnt.detector (β := β) entropy) s0 (X.map fun x => .fit x none)).2.pHat =
      some ((List.range n).map fun i => .fin ((
        (if i = 0 then 0
         else if i + 1 = n then inPart lo hi n X (n - 2) + inPart lo hi n X (n - 1)
         else inPart lo hi n X (i - 1) : ℕ) : K) / (W : K))) := by
  obtain ⟨-, -, -, -, -, -, -, h8⟩ :=
    relEnt_inv (β := β) entropy isf lo hi hlt.ne n W (by omega) hW s0 h0 (X.map fun x => .fit x none)
  rw [fitted_map_fit] at h8
  obtain ⟨-, -, -, hp⟩ := h8 (by omega)
  rw [hp, lastN_of_le (by omega)]
  have hstep : 0 < (hi - lo) / (n : K) :=
    div_pos (sub_pos.2 hlt) (by exact_mod_cast (show 0 < n by omega))
  -- the rounded values
  have hb : ∀ v ∈ X, 1 ≤ ⌈(v - lo) / ((hi - lo) / n)⌉ ∧ ⌈(v - lo) / ((hi - lo) / n)⌉ ≤ n := by
    intro v hv
    obtain ⟨g1, g2⟩ := hr v hv
    constructor
    · rw [Int.one_le_ceil_iff]
      exact div_pos (sub_pos.2 g1) hstep
    · rw [Int.ceil_le, div_le_iff₀ hstep]
      have hn' : (n : K) ≠ 0 := by positivity
      have : ((n : ℤ) : K) * ((hi - lo) / n) = hi - lo := by push_cast; field_simp
      rw [this]; linarith
  -- each bin
  have hbin : ∀ i, i < n → binned lo ((hi - lo) / n) n X i =
      (if i = 0 then 0
         else if i + 1 = n then inPart lo hi n X (n - 2) + inPart lo hi n X (n - 1)
         else inPart lo hi n X (i - 1)) := by
    intro i hi'
    split
    · rename_i h; subst h
      unfold binned
      rw [List.countP_eq_zero]
      intro v hv
      have := hb v hv
      simp only [decide_eq_true_eq]
      push_cast
      omega
    · rename_i hne
      split
      · rename_i hlast
        unfold binned inPart
        have hsplit : ∀ l : List K, (∀ v ∈ l, v ∈ X) →
            l.countP (fun v => decide ((i : ℤ) ≤ ⌈(v - lo) / ((hi - lo) / n)⌉ ∧
              (⌈(v - lo) / ((hi - lo) / n)⌉ < i + 1 ∨ (i + 1 = n ∧ ⌈(v - lo) / ((hi - lo) / n)⌉ = n))))
            = l.countP (fun v => decide (lo + (hi - lo) / n * ((n - 2 : ℕ) : K) < v ∧ v ≤ lo + (hi - lo) / n * (((n - 2 : ℕ) : K) + 1)))
              + l.countP (fun v => decide (lo + (hi - lo) / n * ((n - 1 : ℕ) : K) < v ∧ v ≤ lo + (hi - lo) / n * (((n - 1 : ℕ) : K) + 1))) := by
          intro l
          induction l with
          | nil => intro _; rfl
          | cons v l ih =>
            intro hl
            have ih' := ih fun v hv => hl v (by simp [hv])
            have hbv := hb v (hl v (by simp))
            rw [List.countP_cons, List.countP_cons, List.countP_cons, ih']
            simp only [ceil_part lo hi hlt n (by omega), decide_eq_true_eq]
            have e1 : ((n - 2 : ℕ) : ℤ) + 1 = i := by omega
            have e2 : ((n - 1 : ℕ) : ℤ) + 1 = n := by omega
            rw [e1, e2]
            generalize ⌈(v - lo) / ((hi - lo) / n)⌉ = b at hbv ⊢
            by_cases b1 : b = n
            · rw [if_pos ⟨by omega, Or.inr ⟨hlast, b1⟩⟩, if_neg (by omega), if_pos b1]; omega
            · by_cases b2 : b = i
              · rw [if_pos ⟨by omega, Or.inl (by omega)⟩, if_pos b2, if_neg b1]; omega
              · rw [if_neg (by omega), if_neg b2, if_neg b1]; omega
        exact hsplit X fun v hv => hv
      · rename_i hlast
        unfold binned inPart
        apply List.countP_congr
        intro v hv
        have hbv := hb v hv
        simp only [ceil_part lo hi hlt n (by omega), decide_eq_true_eq]
        generalize ⌈(v - lo) / ((hi - lo) / n)⌉ = b at hbv ⊢
        have e1 : ((i - 1 : ℕ) : ℤ) + 1 = i := by omega
        rw [e1]
        constructor
        · rintro ⟨h1, h2 | h2⟩ <;> omega
        · rintro h; exact ⟨by omega, Or.inl (by omega)⟩
  -- every value is counted once
  have htotal : ((List.range n).map (binned lo ((hi - lo) / n) n X)).sum = W := by
    rw [← hX]
    have hgen : ∀ l : List K, (∀ v ∈ l, v ∈ X) →
        ((List.range n).map (binned lo ((hi - lo) / n) n l)).sum = l.length := by
      intro l
      induction l with
      | nil =>
        intro _
        rw [List.length_nil, List.sum_eq_zero_iff]
        intro k hk
        obtain ⟨i, -, rfl⟩ := List.mem_map.1 hk
        rfl
      | cons v l ih =>
        intro hl
        have ih' := ih fun v hv => hl v (by simp [hv])
        have hbv := hb v (hl v (by simp))
        have : (List.range n).map (binned lo ((hi - lo) / n) n (v :: l)) =
            (List.range n).map (fun i => binned lo ((hi - lo) / n) n l i +
              if i = (⌈(v - lo) / ((hi - lo) / n)⌉ - (if ⌈(v - lo) / ((hi - lo) / n)⌉ = n then 1 else 0)).toNat
                then 1 else 0) := by
          apply List.map_congr_left
          intro i hi'
          rw [List.mem_range] at hi'
          unfold binned
          rw [List.countP_cons]
          congr 1
          generalize ⌈(v - lo) / ((hi - lo) / n)⌉ = b at hbv ⊢
          simp only [decide_eq_true_eq]
          by_cases b1 : b = n
          · rw [if_pos b1]
            by_cases b2 : i = (b - 1).toNat
            · rw [if_pos b2, if_pos ⟨by omega, Or.inr ⟨by omega, b1⟩⟩]
            · rw [if_neg b2, if_neg (by omega)]
          · rw [if_neg b1]
            by_cases b2 : i = (b - 0).toNat
            · rw [if_pos b2, if_pos ⟨by omega, Or.inl (by omega)⟩]
            · rw [if_neg b2, if_neg (by omega)]
        rw [this]
        have hsum : ∀ (f g : ℕ → ℕ) (l : List ℕ),
            (l.map fun i => f i + g i).sum = (l.map f).sum + (l.map g).sum := by
          intro f g l
          induction l with
          | nil => rfl
          | cons a l ih => simp only [List.map_cons, List.sum_cons, ih]; omega
        rw [hsum, ih', List.length_cons]
        congr 1
        have hone : ∀ (m k : ℕ), k < m → ((List.range m).map fun i => if i = k then 1 else 0).sum = 1 := by
          intro m
          induction m with
          | zero => intro k hk; omega
          | succ m ih =>
            intro k hk
            rw [List.range_succ, List.map_append, List.sum_append]
            by_cases h : k = m
            · subst h
              have hz : ((List.range k).map fun i => if i = k then 1 else 0).sum = 0 := by
                rw [List.sum_eq_zero_iff]
                intro x hx
                simp only [List.mem_map, List.mem_range] at hx
                obtain ⟨i, hi', rfl⟩ := hx
                rw [if_neg (by omega)]
              rw [hz]; simp
            · rw [ih k (by omega)]
              have hmk : ¬ m = k := fun h' => h h'.symm
              simp [hmk]
        apply hone
        split <;> omega
    exact hgen X fun v hv => hv
  unfold frequencies
  rw [htotal]
  congr 1
  apply List.map_congr_left
  intro i hi'
  rw [List.mem_range] at hi'
  rw [hbin i hi']
  have hW' : (W : K) ≠ 0 := by positivity
  unfold npDiv
  rw [if_neg hW']

/-- The hypotheses of C69 and C70 in a concrete case: range `(0, 4]`, four bins, windows of
two values. -/
example : (match RelEnt.new (fun _ => Num.fin (1 : ℚ)) 0 4 4 2 with
    | .ok s0 => (calls (RelEnt.detector (β := Unit) (fun p q => if p = q then .fin 0 else .posInf)) s0
        [.score 0, .fit 1 none, .score 0, .fit (5 / 2) none, .score 0, .fit 3 none, .score 0, .fit 1 none,
          .score 0]).1.filterMap fun a => match a with
            | .value v => some v
            | _ => none
    | .error _ => []) = [0, 0, 0, -1, 0] := by
  decide +kernel

end

end Pysad
