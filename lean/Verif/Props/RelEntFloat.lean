import Verif.Model.RelativeEntropyF64
import Verif.Props.RelativeEntropy
import Verif.Proofs.Division

/-! Property C147: `RelativeEntropy` counts every value that lies in its range. -/

namespace Pysad

open Spec

/-- The frequencies `p` are those of `W` values distributed over `n` bins: each is a count
divided (with `div`) by `W`, and the counts add up to `W`. -/
def Spec.AllCounted {K : Type*} (div : ℕ → ℕ → K) (n W : ℕ) (p : Option (List (Num K))) : Prop :=
  ∃ counts : List ℕ, counts.length = n ∧ counts.sum = W ∧
    p = some (counts.map fun k => .fin (div k W))

/-- One of the numbers below `n` is `j`. -/
theorem sum_range_indicator (n j : ℕ) (h : j < n) :
    ((List.range n).map fun i => if i = j then 1 else 0).sum = 1 := by
  induction n with
  | zero => omega
  | succ n ih =>
    rw [List.range_succ, List.map_append, List.sum_append]
    rcases Nat.lt_or_ge j n with hj | hj
    · rw [ih hj]; simp; omega
    · have : ((List.range n).map fun i => if i = j then 1 else 0).sum = 0 := by
        rw [List.sum_eq_zero_iff]
        intro k hk
        obtain ⟨i, hi, rfl⟩ := List.mem_map.1 hk
        rw [List.mem_range] at hi
        rw [if_neg (by omega)]
      rw [this]
      have : j = n := by omega
      simp [this]

/-- Integers from `0` to `n` are all counted by the histogram. -/
theorem binCount_total (n : ℕ) (hn : 1 ≤ n) (bs : List ℤ) (h : ∀ b ∈ bs, 0 ≤ b ∧ b ≤ n) :
    ((List.range n).map (RelEnt.binCount n bs)).sum = bs.length := by
  induction bs with
  | nil =>
    rw [List.length_nil, List.sum_eq_zero_iff]
    intro k hk
    obtain ⟨i, -, rfl⟩ := List.mem_map.1 hk
    rfl
  | cons b bs ih =>
    have hb := h b (by simp)
    have ih' := ih fun b hb => h b (by simp [hb])
    have : (List.range n).map (RelEnt.binCount n (b :: bs)) =
        (List.range n).map fun i => RelEnt.binCount n bs i +
          if i = (if b = n then n - 1 else b.toNat) then 1 else 0 := by
      apply List.map_congr_left
      intro i hi
      rw [List.mem_range] at hi
      unfold RelEnt.binCount
      rw [List.countP_cons]
      congr 1
      simp only [decide_eq_true_eq]
      by_cases b1 : b = n
      · rw [if_pos b1]
        split_ifs <;> omega
      · rw [if_neg b1]
        split_ifs <;> omega
    rw [this, List.sum_map_add, ih', sum_range_indicator n _ (by split_ifs <;> omega), List.length_cons]

section
variable {K β : Type*} [Field K] [LinearOrder K] [IsStrictOrderedRing K] [FloorRing K]
  (entropy : List (Num K) → List (Num K) → Num K)

/-- **C147 in exact arithmetic.** As soon as `W` values are fitted, and whenever the last
`W` of them lie between `lo` and `hi`, the frequencies are those of `W` counted values. -/
theorem C147_relent_exact (isf : ℤ → Num K) (lo hi : K) (hlt : lo < hi) (n W : ℕ) (hn : 1 ≤ n)
    (hW : 1 ≤ W) (s0 : RelEntState K) (h0 : RelEnt.new isf lo hi n W = .ok s0)
    (cs : List (Call K β)) (hl : W ≤ (fitted cs).length)
    (hr : ∀ v ∈ lastN W (fitted cs), lo ≤ v ∧ v ≤ hi) :
    AllCounted (fun k m => (k : K) / m) n W (calls (RelEnt.detector entropy) s0 cs).2.pHat := by
  obtain ⟨-, -, -, -, -, -, -, h8⟩ := relEnt_inv (β := β) entropy isf lo hi hlt.ne n W hn hW s0 h0 cs
  obtain ⟨-, -, -, hp⟩ := h8 hl
  have hn' : (0 : K) < n := by exact_mod_cast hn
  have hstep : 0 < (hi - lo) / (n : K) := div_pos (sub_pos.2 hlt) hn'
  have hlen : (lastN W (fitted cs)).length = W := by unfold lastN; simp; omega
  have htot := binCount_total n hn ((lastN W (fitted cs)).map fun v => ⌈(v - lo) / ((hi - lo) / n)⌉)
    (by
      intro b hb
      obtain ⟨v, hv, rfl⟩ := List.mem_map.1 hb
      obtain ⟨g1, g2⟩ := hr v hv
      constructor
      · rw [← Int.ceil_zero (R := K)]
        exact Int.ceil_mono (div_nonneg (sub_nonneg.2 g1) hstep.le)
      · rw [Int.ceil_le, div_le_iff₀ hstep]
        have : ((n : ℤ) : K) * ((hi - lo) / n) = hi - lo := by push_cast; field_simp
        rw [this]; linarith)
  rw [List.length_map, hlen] at htot
  refine ⟨(List.range n).map (RelEnt.binCount n ((lastN W (fitted cs)).map fun v =>
    ⌈(v - lo) / ((hi - lo) / n)⌉)), by simp, htot, ?_⟩
  have hW' : (W : K) ≠ 0 := by positivity
  rw [hp, ← histogram_eq]
  simp only [RelEnt.histogram, htot, List.map_map]
  congr 1
  apply List.map_congr_left
  intro i _
  simp only [Function.comp, npDiv, if_neg hW']

end

/-! ### In doubles -/

section
variable {β : Type*} (entropy : List (Num F64) → List (Num F64) → Num F64)

theorem mapM_quantizeF64 (lo step : F64) (hs : step.val ≠ 0) (vs : List F64) :
    vs.mapM (RelEnt.quantizeF64 lo step) = .ok (vs.map fun v => ⌈((v - lo) / step).val⌉) := by
  induction vs with
  | nil => rfl
  | cons v vs ih =>
    rw [List.mapM_cons, ih]
    simp only [RelEnt.quantizeF64, if_neg hs]
    rfl

/-- The state after the stream `X`. -/
def RelEntF64Inv (lo hi : F64) (n W : ℕ) (X : List F64) (s : RelEntState F64) : Prop :=
  s.minVal = lo ∧ s.util = X ∧ s.nBins = n ∧ s.W = W ∧ s.stepSize = (hi - lo) / (n : F64) ∧
  (W ≤ X.length → s.pHat = some (RelEnt.histogramF64 n
    ((lastN W X).map fun v => ⌈((v - lo) / ((hi - lo) / (n : F64))).val⌉)))

theorem relEntF64_score_state (s : RelEntState F64) :
    (RelEnt.scorePartialF64 entropy s).state = s := by
  unfold RelEnt.scorePartialF64
  split
  · split
    · rfl
    · rename_i h _
      cases ((List.range s.m).foldlM (RelEnt.agreeStepF64 entropy s h) ((-1 : ℤ), Num.posInf)).map
        Prod.fst <;> rfl
  · rfl

theorem relEntF64_inv (isf : ℤ → Num F64) (lo hi : F64) (n W : ℕ) (hn : 1 ≤ n) (hW : 1 ≤ W)
    (hs : ((hi - lo) / (n : F64)).val ≠ 0)
    (s0 : RelEntState F64) (h0 : RelEnt.newF64 isf lo hi n W = .ok s0) (cs : List (Call F64 β)) :
    RelEntF64Inv lo hi n W (fitted cs) (calls (RelEnt.detectorF64 entropy) s0 cs).2 := by
  refine calls_inv (d := RelEnt.detectorF64 (β := β) entropy)
    (P := fun cs (s : RelEntState F64) => RelEntF64Inv lo hi n W (fitted cs) s) ?_ _ ?_ cs
  · intro cs s c h
    rw [fitted_append]
    cases c with
    | fit x y =>
      obtain ⟨h1, h2, h3, h4, h5, h6⟩ := h
      have hfit : ∃ s', RelEnt.fitPartialF64 s x = .ok () s' ∧
          RelEntF64Inv lo hi n W (fitted cs ++ [x]) s' := by
        unfold RelEnt.fitPartialF64
        have hlen : (fitted cs ++ [x]).length = (fitted cs).length + 1 := by simp
        simp only [h1, h2, h3, h4, h5, hlen]
        by_cases hc : W ≤ (fitted cs).length + 1
        · rw [if_pos hc, mapM_quantizeF64 _ _ hs]
          have hcur : RelEnt.currentF64 W (fitted cs ++ [x]) = lastN W (fitted cs ++ [x]) := by
            unfold RelEnt.currentF64; rw [if_neg (by omega)]; rfl
          simp only [hcur]
          split
          · exact ⟨_, rfl, rfl, rfl, rfl, rfl, rfl, fun _ => rfl⟩
          · exact ⟨_, rfl, rfl, rfl, rfl, rfl, rfl, fun _ => rfl⟩
        · rw [if_neg hc]
          exact ⟨_, rfl, rfl, rfl, rfl, rfl, rfl, fun h => by simp at h; omega⟩
      obtain ⟨s', g1, g2⟩ := hfit
      simp only [call, RelEnt.detectorF64, g1]
      exact g2
    | score x =>
      have : (call (RelEnt.detectorF64 (β := β) entropy) s (.score x)).2 = s := by
        have := relEntF64_score_state entropy s
        simp only [call, RelEnt.detectorF64]
        cases hx : RelEnt.scorePartialF64 entropy s <;> simpa [hx] using this
      rw [this]
      simpa [fitted] using h
  · unfold RelEnt.newF64 at h0
    rw [if_neg (by omega)] at h0
    simp only [Except.ok.injEq] at h0
    subst h0
    exact ⟨rfl, rfl, rfl, rfl, rfl, fun h => by simp [fitted] at h; omega⟩

/-- If every value of the window is put between `0` and `n`, all are counted. -/
theorem relEntF64_counted (isf : ℤ → Num F64) (lo hi : F64) (n W : ℕ) (hn : 1 ≤ n) (hW : 1 ≤ W)
    (hs : ((hi - lo) / (n : F64)).val ≠ 0)
    (s0 : RelEntState F64) (h0 : RelEnt.newF64 isf lo hi n W = .ok s0)
    (cs : List (Call F64 β)) (hl : W ≤ (fitted cs).length)
    (hr : ∀ v ∈ lastN W (fitted cs), 0 ≤ ((v - lo) / ((hi - lo) / (n : F64))).val ∧
      ((v - lo) / ((hi - lo) / (n : F64))).val ≤ n) :
    AllCounted (fun k m => (k : F64) / (m : F64)) n W
      (calls (RelEnt.detectorF64 entropy) s0 cs).2.pHat := by
  obtain ⟨-, -, -, -, -, h6⟩ := relEntF64_inv (β := β) entropy isf lo hi n W hn hW hs s0 h0 cs
  have hlen : (lastN W (fitted cs)).length = W := by unfold lastN; simp; omega
  have htot := binCount_total n hn ((lastN W (fitted cs)).map fun v =>
    ⌈((v - lo) / ((hi - lo) / (n : F64))).val⌉)
    (by
      intro b hb
      obtain ⟨v, hv, rfl⟩ := List.mem_map.1 hb
      obtain ⟨g1, g2⟩ := hr v hv
      constructor
      · rw [← Int.ceil_zero (R := ℚ)]
        exact Int.ceil_mono g1
      · rw [Int.ceil_le]; exact_mod_cast g2)
  rw [List.length_map, hlen] at htot
  refine ⟨(List.range n).map (RelEnt.binCount n ((lastN W (fitted cs)).map fun v =>
    ⌈((v - lo) / ((hi - lo) / (n : F64))).val⌉)), by simp, htot, ?_⟩
  have hW' : (W : F64) ≠ 0 := by
    intro h
    have h1 : ((W : F64)).val = 0 := by rw [h]; rfl
    have h2 : (1 : ℚ) ≤ roundF64 W :=
      le_roundF64 (by simpa using isDouble_int (n := 1) (by norm_num)) (by exact_mod_cast hW)
    have h3 : ((W : F64)).val = roundF64 W := rfl
    linarith
  rw [h6 hl]
  simp only [RelEnt.histogramF64, htot, List.map_map]
  congr 1
  apply List.map_congr_left
  intro i _
  simp only [Function.comp, npDiv, if_neg hW']

end

/-- **C147 in doubles, as one would expect it.** -/
def C147_relent_statement : Prop :=
  ∀ (isf : ℤ → Num F64) (entropy : List (Num F64) → List (Num F64) → Num F64) (lo hi : F64),
  IsDouble lo.val → IsDouble hi.val → lo.val < hi.val →
  ∀ n W : ℕ, 1 ≤ n → n < 2 ^ 53 → 1 ≤ W → ∀ s0, RelEnt.newF64 isf lo hi n W = .ok s0 →
  ∀ cs : List (Call F64 Unit), W ≤ (fitted cs).length →
  (∀ v ∈ lastN W (fitted cs), IsDouble v.val ∧ lo.val ≤ v.val ∧ v.val ≤ hi.val) →
  AllCounted (fun k m => (k : F64) / (m : F64)) n W
    (calls (RelEnt.detectorF64 entropy) s0 cs).2.pHat

/-- With seven bins over `[0, 17]` the value 17 is put into the eighth and not counted:
`17 / (17 / 7)` is more than 7 in doubles. A window of 17s has no frequencies at all. -/
theorem C147_relent_refuted : ¬ C147_relent_statement := by
  intro h
  obtain ⟨counts, h1, -, h3⟩ := h (fun _ => .nan) (fun _ _ => .nan) ⟨0⟩ ⟨17⟩
    (by simpa using isDouble_int (n := 0) (by norm_num))
    (by simpa using isDouble_int (n := 17) (by norm_num)) (by norm_num) 7 1 (by norm_num)
    (by norm_num) le_rfl _ rfl [.fit ⟨17⟩ none] (by decide)
    (by
      intro v hv
      have : v = ⟨17⟩ := by
        have h : lastN 1 (fitted [(Call.fit ⟨17⟩ none : Call F64 Unit)]) = [⟨17⟩] := by
          decide +kernel
        rw [h] at hv; simpa using hv
      subst this
      exact ⟨by simpa using isDouble_int (n := 17) (by norm_num), by norm_num, by norm_num⟩)
  have h4 : (calls (RelEnt.detectorF64 (β := Unit) fun _ _ => .nan)
      (⟨⟨0⟩, ⟨17⟩, [], 7, 1, .nan, 0, (⟨17⟩ - ⟨0⟩) / ((7 : ℕ) : F64), [], [], none⟩)
      [.fit ⟨17⟩ none]).2.pHat = some (List.replicate 7 .nan) := by decide +kernel
  rw [h4] at h3
  rcases counts with _ | ⟨k, counts⟩
  · simp at h1
  · simp [List.replicate] at h3

section
variable {β : Type*} (entropy : List (Num F64) → List (Num F64) → Num F64)

/-- The step is positive. -/
theorem relEnt_step_pos (lo hi : F64) (hlt : lo.val < hi.val) (n : ℕ) (hn : 1 ≤ n)
    (hn2 : n < 2 ^ 53) : 0 < (hi - lo).val ∧ 0 < ((hi - lo) / (n : F64)).val := by
  have hpos : ∀ q : ℚ, 0 < q → 0 < roundF64 q := fun q hq =>
    lt_of_lt_of_le (by positivity) (roundF64_bounds hq).1
  have h1 : 0 < (hi - lo).val := hpos _ (sub_pos.2 hlt)
  refine ⟨h1, hpos _ (div_pos h1 ?_)⟩
  rw [F64.natCast_val n hn2.le]
  exact_mod_cast hn

/-- **C147 in doubles (partial).** If the number of bins is a power of two or the sum of two
powers of two, as the default 5 is, every value of the range is counted, for every range
of doubles. -/
theorem C147_relent_partial (isf : ℤ → Num F64) (lo hi : F64) (hlt : lo.val < hi.val)
    (n W a b : ℕ) (hn : n = 2 ^ a ∨ n = 2 ^ a + 2 ^ b) (hn2 : n < 2 ^ 52) (hW : 1 ≤ W)
    (s0 : RelEntState F64) (h0 : RelEnt.newF64 isf lo hi n W = .ok s0)
    (cs : List (Call F64 β)) (hl : W ≤ (fitted cs).length)
    (hr : ∀ v ∈ lastN W (fitted cs), lo.val ≤ v.val ∧ v.val ≤ hi.val) :
    AllCounted (fun k m => (k : F64) / (m : F64)) n W
      (calls (RelEnt.detectorF64 entropy) s0 cs).2.pHat := by
  -- the greater power first
  obtain ⟨e, he, hne⟩ : ∃ e < 52, n = 2 ^ e ∨ ∃ j < e, n = 2 ^ e + 2 ^ j := by
    have hlt52 : ∀ e, 2 ^ e ≤ n → e < 52 := fun e h =>
      (Nat.pow_lt_pow_iff_right (by norm_num)).1 (lt_of_le_of_lt h hn2)
    rcases hn with h | h
    · exact ⟨a, hlt52 a h.ge, .inl h⟩
    · rcases lt_trichotomy a b with hab | rfl | hab
      · exact ⟨b, hlt52 b (h ▸ Nat.le_add_left _ _), .inr ⟨a, hab, by omega⟩⟩
      · exact ⟨a + 1, hlt52 _ (by rw [pow_succ]; omega), .inl (by rw [pow_succ]; omega)⟩
      · exact ⟨a, hlt52 a (h ▸ Nat.le_add_right _ _), .inr ⟨b, hab, h⟩⟩
  have hn1 : 1 ≤ n := by
    have : 0 < n := by rcases hne with h | ⟨j, -, h⟩ <;> rw [h] <;> positivity
    omega
  obtain ⟨hd, hs⟩ := relEnt_step_pos lo hi hlt n hn1 (by omega)
  refine relEntF64_counted entropy isf lo hi n W hn1 hW hs.ne' s0 h0 cs hl fun v hv => ?_
  obtain ⟨g1, g2⟩ := hr v hv
  have hv0 : 0 ≤ (v - lo).val := roundF64_nonneg (sub_nonneg.2 g1)
  have hv1 : (v - lo).val ≤ (hi - lo).val := roundF64_mono (by linarith)
  refine ⟨roundF64_nonneg (div_nonneg hv0 hs.le), ?_⟩
  calc ((v - lo) / ((hi - lo) / (n : F64))).val
      ≤ roundF64 ((hi - lo).val / ((hi - lo) / (n : F64)).val) :=
        roundF64_mono (div_le_div_of_nonneg_right hv1 hs.le)
    _ = roundF64 ((hi - lo).val / roundF64 ((hi - lo).val / n)) := by
        rw [F64.div_val, F64.natCast_val n (by omega)]
    _ ≤ n := div_div_le hd (isDouble_roundF64 _) he hne

/-- **C147 in doubles (partial).** For any number of bins, every value is counted that stays
away from the upper end by two parts in `2^52` of the range. -/
theorem C147_relent_interior_partial (isf : ℤ → Num F64) (lo hi : F64) (hlt : lo.val < hi.val)
    (n W : ℕ) (hn : 1 ≤ n) (hn2 : n < 2 ^ 53) (hW : 1 ≤ W)
    (s0 : RelEntState F64) (h0 : RelEnt.newF64 isf lo hi n W = .ok s0)
    (cs : List (Call F64 β)) (hl : W ≤ (fitted cs).length)
    (hr : ∀ v ∈ lastN W (fitted cs), lo.val ≤ v.val ∧
      v.val ≤ hi.val - (hi.val - lo.val) / 2 ^ 51) :
    AllCounted (fun k m => (k : F64) / (m : F64)) n W
      (calls (RelEnt.detectorF64 entropy) s0 cs).2.pHat := by
  obtain ⟨hd, hs⟩ := relEnt_step_pos lo hi hlt n hn hn2
  refine relEntF64_counted entropy isf lo hi n W hn hW hs.ne' s0 h0 cs hl fun v hv => ?_
  obtain ⟨g1, g2⟩ := hr v hv
  have hv0 : 0 ≤ (v - lo).val := roundF64_nonneg (sub_nonneg.2 g1)
  refine ⟨roundF64_nonneg (div_nonneg hv0 hs.le), ?_⟩
  have hn0 : (0 : ℚ) < n := by exact_mod_cast hn
  have hR : 0 < hi.val - lo.val := sub_pos.2 hlt
  have hq : ((hi - lo) / (n : F64)).val = roundF64 ((hi - lo).val / n) := by
    rw [F64.div_val, F64.natCast_val n hn2.le]
  have e1 := (abs_le.1 (roundF64_error (v.val - lo.val))).2
  have e2 := (abs_le.1 (roundF64_error (hi.val - lo.val))).1
  have e3 := (abs_le.1 (roundF64_error ((hi - lo).val / n))).1
  rw [abs_of_nonneg (sub_nonneg.2 g1)] at e1
  rw [abs_of_pos hR] at e2
  rw [abs_of_pos (div_pos hd hn0), ← hq] at e3
  have c1 : (v - lo).val = roundF64 (v.val - lo.val) := rfl
  have c2 : (hi - lo).val = roundF64 (hi.val - lo.val) := rfl
  rw [← c1] at e1
  rw [← c2] at e2
  have hu : unitRoundoff = 1 / 2 ^ 53 := by rfl
  rw [F64.div_val]
  refine roundF64_le (by simpa using isDouble_int (n := n) (by rw [abs_of_nonneg (by positivity)]; exact_mod_cast hn2.le)) ?_
  rw [div_le_iff₀ hs]
  have h1 : (v - lo).val ≤ (1 + unitRoundoff) * ((1 - 1 / 2 ^ 51) * (hi.val - lo.val)) := by
    have : (1 + unitRoundoff) * (v.val - lo.val) ≤
        (1 + unitRoundoff) * ((1 - 1 / 2 ^ 51) * (hi.val - lo.val)) := by
      refine mul_le_mul_of_nonneg_left ?_ (by rw [hu]; norm_num)
      linarith
    linarith
  have h2 : (1 - unitRoundoff) * (hi.val - lo.val) ≤ (hi - lo).val := by linarith
  have h3 : (1 - unitRoundoff) * (hi - lo).val ≤ n * ((hi - lo) / (n : F64)).val := by
    have : (1 - unitRoundoff) * ((hi - lo).val / n) ≤ ((hi - lo) / (n : F64)).val := by linarith
    calc (1 - unitRoundoff) * (hi - lo).val = n * ((1 - unitRoundoff) * ((hi - lo).val / n)) := by
          field_simp
      _ ≤ _ := mul_le_mul_of_nonneg_left this hn0.le
  have h4 : (1 + unitRoundoff) * ((1 - 1 / 2 ^ 51) * (hi.val - lo.val)) ≤
      (1 - unitRoundoff) * ((1 - unitRoundoff) * (hi.val - lo.val)) := by
    rw [← mul_assoc, ← mul_assoc]
    refine mul_le_mul_of_nonneg_right ?_ hR.le
    rw [hu]; norm_num
  have h5 : (1 - unitRoundoff) * ((1 - unitRoundoff) * (hi.val - lo.val)) ≤
      (1 - unitRoundoff) * (hi - lo).val :=
    mul_le_mul_of_nonneg_left h2 (by rw [hu]; norm_num)
  linarith

end

/-- The hypotheses of C147 are met: the default five bins over `[0, 17]`, and a window that
contains both ends. -/
example : ∃ (lo hi : F64) (s0 : RelEntState F64) (cs : List (Call F64 Unit)),
    lo.val < hi.val ∧ 5 = 2 ^ 2 + 2 ^ 0 ∧ RelEnt.newF64 (fun _ => .nan) lo hi 5 3 = .ok s0 ∧
    3 ≤ (fitted cs).length ∧ (∀ v ∈ lastN 3 (fitted cs), lo.val ≤ v.val ∧ v.val ≤ hi.val) ∧
    (calls (RelEnt.detectorF64 fun _ _ => .nan) s0 cs).2.pHat =
      some ([1, 0, 1, 0, 1].map fun k => .fin ((k : ℕ) / ((3 : ℕ) : F64) : F64)) :=
  ⟨⟨0⟩, ⟨17⟩, _, [.fit ⟨0⟩ none, .score ⟨1⟩, .fit ⟨5⟩ none, .fit ⟨17⟩ none], by norm_num, by norm_num,
    rfl, by decide, by
      have h : lastN 3 (fitted [(Call.fit ⟨0⟩ none : Call F64 Unit), .score ⟨1⟩, .fit ⟨5⟩ none,
        .fit ⟨17⟩ none]) = [⟨0⟩, ⟨5⟩, ⟨17⟩] := by decide +kernel
      rw [h]; norm_num, by decide +kernel⟩

end Pysad
