import Verif.Props.Postprocessors
import Verif.Props.Calibration
import Verif.Props.Deviation
import Verif.Proofs.Grubbs

/-! Property C162: a score that is standardised against a sample it belongs to has a ceiling. -/

namespace Pysad

open Spec

/-- No member of a sample of `n` values is further than `√(n - 1)` standard deviations from the
mean. -/
theorem within_sample (l : List ℝ) (v : ℝ) (hv : v ∈ l) :
    |v - meanOf (l : Multiset ℝ)| ≤ √((l.length : ℝ) - 1) * √(varianceOf (l : Multiset ℝ)) := by
  have hlen : 1 ≤ l.length := List.length_pos_of_mem hv
  have hp : (1 : ℝ) ≤ l.length := by exact_mod_cast hlen
  have hvar := varianceOf_nonneg (K := ℝ) (l : Multiset ℝ)
  rw [← Real.sqrt_mul (by linarith), ← Real.sqrt_sq_eq_abs]
  apply Real.sqrt_le_sqrt
  have hm : meanOf (l : Multiset ℝ) = Grubbs.mean l := by
    simp [meanOf, Grubbs.mean]
  have hq : varianceOf (l : Multiset ℝ)
      = (l.map fun x => (x - Grubbs.mean l) ^ 2).sum / l.length := by
    simp [varianceOf, hm]
  rw [hq, hm, mul_div_assoc', le_div_iff₀ (by linarith), mul_comm]
  exact Grubbs.samuelson l v hv

/-- **C162.** `ZScorePostprocessor`: the absolute value of the `i`-th result (counting from 0) is
at most `√i`. -/
theorem C162_zscore (xs : List ℝ) :
    ∃ out, (zscorePlain.fitTransform zscorePlain.init xs).out = .ok out ∧ out.length = xs.length ∧
      ∀ (i : ℕ) (q : ℝ), out[i]? = some (.fin q) → |q| ≤ √(i : ℝ) := by
  obtain ⟨out, s, h1, h2, h3⟩ := C36_zscore xs
  refine ⟨out, by rw [h1]; rfl, h2, fun i q hq => ?_⟩
  have hi : i < xs.length := h2 ▸ (List.getElem?_eq_some_iff.1 hq).1
  rw [h3 i hi] at hq
  unfold zscore at hq
  split at hq
  · cases hq
  · rename_i hv
    simp only [Option.some.injEq, Num.fin.injEq] at hq
    have hv0 : 0 < varianceOf (K := ℝ) (xs.take (i + 1) : List ℝ) :=
      lt_of_le_of_ne (varianceOf_nonneg _) (Ne.symm hv)
    have := within_sample (xs.take (i + 1)) xs[i] (by
      rw [List.mem_take_iff_getElem]; exact ⟨i, by omega, rfl⟩)
    rw [List.length_take, min_eq_left (by omega)] at this
    push_cast at this
    rw [add_sub_cancel_right] at this
    rw [← hq, abs_div, abs_of_pos (Real.sqrt_pos.2 hv0), div_le_iff₀ (Real.sqrt_pos.2 hv0)]
    exact this

/-- **C162.** `RunningZScorePostprocessor(w)`: at most `√(n - 1)`, with `n` the number of scores in
the window. -/
theorem C162_running_zscore (w : ℕ) (hw : 1 ≤ w) (xs : List ℝ) :
    ∃ out, ((zscoreRunning w).fitTransform (zscoreRunning.init w) xs).out = .ok out ∧
      out.length = xs.length ∧
      ∀ (i : ℕ) (q : ℝ), out[i]? = some (.fin q) → |q| ≤ √((min w (i + 1) : ℕ) - 1 : ℝ) := by
  obtain ⟨out, s, h1, h2, h3⟩ := C36_running_zscore w hw xs
  refine ⟨out, by rw [h1]; rfl, h2, fun i q hq => ?_⟩
  have hi : i < xs.length := h2 ▸ (List.getElem?_eq_some_iff.1 hq).1
  rw [h3 i hi] at hq
  unfold zscore at hq
  split at hq
  · cases hq
  · rename_i hv
    simp only [Option.some.injEq, Num.fin.injEq] at hq
    have hv0 : 0 < varianceOf (K := ℝ) (lastN w (xs.take (i + 1)) : List ℝ) :=
      lt_of_le_of_ne (varianceOf_nonneg _) (Ne.symm hv)
    have hsn : xs.take (i + 1) = xs.take i ++ [xs[i]] := by
      rw [List.take_succ_eq_append_getElem hi]
    have := within_sample (lastN w (xs.take (i + 1))) xs[i] (by
      rw [hsn]; exact mem_lastN_snoc hw _ _)
    rw [lastN_length, List.length_take, min_eq_left (a := i + 1) (by omega)] at this
    rw [← hq, abs_div, abs_of_pos (Real.sqrt_pos.2 hv0), div_le_iff₀ (Real.sqrt_pos.2 hv0)]
    exact this

/-- **C162.** `StandardAbsoluteDeviation("mean")`: an instance that has been fitted, in particular
one given to `fit_score_partial`, scores at most `√(n - 1)`, with `n` the number of instances
fitted. -/
theorem C162_sad {β : Type*} (absolute : Bool) (cs : List (Call (List ℝ) β)) (x : ℝ)
    (hx : x ∈ univariate (fitted cs)) :
    ∃ q : ℝ, ((standardAbsoluteDeviation (β := β) Real.sqrt (averageMeter ℝ)).scorePartial
        (calls (standardAbsoluteDeviation Real.sqrt (averageMeter ℝ))
          (SadState.new (averageMeter ℝ) absolute) cs).2 [x]).out = .ok [.fin q] ∧
      |q| ≤ √(((univariate (fitted cs)).length : ℝ) - 1) := by
  have h := C68_sad_mean absolute cs (List.ne_nil_of_mem hx) [x]
  refine ⟨_, by rw [h]; rfl, ?_⟩
  have hs := within_sample _ x hx
  have hpos : 0 < √(varianceOf (K := ℝ) (univariate (fitted cs) : Multiset ℝ)) + 1 / 10 ^ 10 := by
    have := Real.sqrt_nonneg (varianceOf (K := ℝ) (univariate (fitted cs) : Multiset ℝ))
    positivity
  have key : |(x - meanOf (K := ℝ) (univariate (fitted cs))) /
      (√(varianceOf (K := ℝ) (univariate (fitted cs))) + 1 / 10 ^ 10)|
      ≤ √(((univariate (fitted cs)).length : ℝ) - 1) := by
    rw [abs_div, abs_of_pos hpos, div_le_iff₀ hpos]
    have h0 := Real.sqrt_nonneg (((univariate (fitted cs)).length : ℝ) - 1)
    nlinarith [mul_nonneg h0 (show (0 : ℝ) ≤ 1 / 10 ^ 10 by positivity)]
  simp only
  split
  · rw [abs_abs]; exact key
  · exact key

/-- If at least half of the values of a sample with mean 0 are at least `d`, the mean square is at
least `d²`. -/
private theorem half_above (y : List ℝ) (d : ℝ) (hd : 0 ≤ d) (h0 : y.sum = 0)
    (hc : y.length ≤ 2 * y.countP (d ≤ ·)) : y.length * d ^ 2 ≤ (y.map fun v => v ^ 2).sum := by
  have h1 : ∀ z : List ℝ, (4 * d ^ 2) * (z.countP (d ≤ ·) : ℝ) ≤ (z.map fun v => (v - -d) ^ 2).sum := by
    intro z
    induction z with
    | nil => simp
    | cons a z ih =>
      rw [List.countP_cons, List.map_cons, List.sum_cons]
      split
      · rename_i h
        have h : d ≤ a := by simpa using h
        push_cast
        nlinarith
      · have := sq_nonneg (a - -d)
        push_cast
        linarith
  have h2 := h1 y
  rw [Grubbs.sum_sq, h0] at h2
  have h3 : (y.length : ℝ) ≤ 2 * (y.countP (d ≤ ·) : ℝ) := by exact_mod_cast hc
  nlinarith [mul_le_mul_of_nonneg_left h3 (sq_nonneg d)]

/-- The median of a sample is within one standard deviation of the mean. -/
theorem median_near_mean (l : List ℝ) (m : ℝ) (hm : medianOf (l : Multiset ℝ) = some m) :
    |m - meanOf (l : Multiset ℝ)| ≤ √(varianceOf (l : Multiset ℝ)) := by
  have hne : l ≠ [] := by
    rintro rfl
    simp [medianOf] at hm
  have hp : (0 : ℝ) < l.length := by exact_mod_cast List.length_pos_iff.2 hne
  have hmu : meanOf (l : Multiset ℝ) = Grubbs.mean l := by simp [meanOf, Grubbs.mean]
  have hq : varianceOf (l : Multiset ℝ)
      = (l.map fun x => (x - Grubbs.mean l) ^ 2).sum / l.length := by
    simp [varianceOf, hmu]
  have hs0 : (l.map fun x => x - Grubbs.mean l).sum = 0 := by
    rw [Grubbs.sum_sub, Grubbs.mean]
    field_simp
    ring
  -- half of the values beyond `b`, on the side given by the sign `s`
  have key : ∀ (s d : ℝ), s ^ 2 = 1 → 0 ≤ d →
      l.length ≤ 2 * (l.countP fun x => d ≤ s * (x - Grubbs.mean l)) →
      d ≤ √(varianceOf (l : Multiset ℝ)) := by
    intro s d hs hd hc
    apply Real.le_sqrt_of_sq_le
    have := half_above (l.map fun x => s * (x - Grubbs.mean l)) d hd
      (by rw [List.sum_map_mul_left, hs0, mul_zero])
      (by rw [List.length_map, List.countP_map]; exact hc)
    rw [List.length_map, List.map_map] at this
    rw [hq, le_div_iff₀ hp, mul_comm]
    refine this.trans (le_of_eq ?_)
    congr 1
    apply List.map_congr_left
    intro x _
    simp only [Function.comp_apply]
    rw [mul_pow, hs, one_mul]
  have hcompl : ∀ (p : ℝ → Bool), l.countP p + l.countP (fun x => !p x) = l.length := fun p => by
    have := List.length_eq_countP_add_countP p (l := l)
    simpa using this.symm
  rw [hmu, abs_sub_le_iff]
  constructor
  · refine le_of_forall_lt_imp_le_of_dense fun d hd => ?_
    rcases lt_or_ge d 0 with h | h
    · exact h.le.trans (Real.sqrt_nonneg _)
    refine key 1 d (by norm_num) h ?_
    have hn : ¬ Mostly (· ≤ Grubbs.mean l + d) (l : Multiset ℝ) := fun hh => by
      have := medianOf_le_of_mostly hh hm
      linarith
    unfold Mostly at hn
    rw [Multiset.coe_countP, Multiset.coe_card] at hn
    have h1 := hcompl fun x => decide (x ≤ Grubbs.mean l + d)
    have h2 : l.countP (fun x => !decide (x ≤ Grubbs.mean l + d))
        ≤ l.countP fun x => d ≤ 1 * (x - Grubbs.mean l) := by
      apply List.countP_mono_left
      intro x _ hx
      simp only [Bool.not_eq_true', decide_eq_false_iff_not, not_le, decide_eq_true_eq] at hx ⊢
      linarith
    omega
  · refine le_of_forall_lt_imp_le_of_dense fun d hd => ?_
    rcases lt_or_ge d 0 with h | h
    · exact h.le.trans (Real.sqrt_nonneg _)
    refine key (-1) d (by norm_num) h ?_
    have hn : ¬ Mostly (Grubbs.mean l - d ≤ ·) (l : Multiset ℝ) := fun hh => by
      have := le_medianOf_of_mostly hh hm
      linarith
    unfold Mostly at hn
    rw [Multiset.coe_countP, Multiset.coe_card] at hn
    have h1 := hcompl fun x => decide (Grubbs.mean l - d ≤ x)
    have h2 : l.countP (fun x => !decide (Grubbs.mean l - d ≤ x))
        ≤ l.countP fun x => d ≤ -1 * (x - Grubbs.mean l) := by
      apply List.countP_mono_left
      intro x _ hx
      simp only [Bool.not_eq_true', decide_eq_false_iff_not, not_le, decide_eq_true_eq] at hx ⊢
      linarith
    omega

/-- **C162.** `StandardAbsoluteDeviation("median")`: a fitted instance scores at most
`√(n - 1) + 1`, with `n` the number of instances fitted. -/
theorem C162_sad_median {β : Type*} (absolute : Bool) (cs : List (Call (List ℝ) β)) (x : ℝ)
    (hx : x ∈ univariate (fitted cs)) :
    ∃ q : ℝ, ((standardAbsoluteDeviation (β := β) Real.sqrt (medianMeter ℝ)).scorePartial
        (calls (standardAbsoluteDeviation Real.sqrt (medianMeter ℝ))
          (SadState.new (medianMeter ℝ) absolute) cs).2 [x]).out = .ok [.fin q] ∧
      |q| ≤ √(((univariate (fitted cs)).length : ℝ) - 1) + 1 := by
  obtain ⟨m, hm, h⟩ := C68_sad_median absolute cs (List.ne_nil_of_mem hx) [x]
  refine ⟨_, by rw [h]; rfl, ?_⟩
  have hs := within_sample _ x hx
  have hmed := median_near_mean _ m hm
  have hpos : 0 < √(varianceOf (K := ℝ) (univariate (fitted cs) : Multiset ℝ)) + 1 / 10 ^ 10 := by
    have := Real.sqrt_nonneg (varianceOf (K := ℝ) (univariate (fitted cs) : Multiset ℝ))
    positivity
  have key : |(x - m) / (√(varianceOf (K := ℝ) (univariate (fitted cs))) + 1 / 10 ^ 10)|
      ≤ √(((univariate (fitted cs)).length : ℝ) - 1) + 1 := by
    rw [abs_div, abs_of_pos hpos, div_le_iff₀ hpos]
    have h0 := Real.sqrt_nonneg (((univariate (fitted cs)).length : ℝ) - 1)
    have h1 := abs_sub_le x (meanOf (K := ℝ) (univariate (fitted cs))) m
    rw [abs_sub_comm (meanOf (K := ℝ) (univariate (fitted cs))) m] at h1
    nlinarith [mul_nonneg h0 (show (0 : ℝ) ≤ 1 / 10 ^ 10 by positivity)]
  simp only
  split
  · rw [abs_abs]; exact key
  · exact key

/-- **C162.** `GaussianTailProbabilityCalibrator(running_statistics=True, window_size=w)`: the
probability reported for a score that is in the window is at most that of `√(n - 1)` standard
deviations, with `n` the number of scores in the window; so it stays away from 1. -/
theorem C162_gaussian (erfc : ℝ → ℝ) (he : ErfcLike erfc) (w : ℕ) (hw : 1 ≤ w) (xs : List ℝ)
    (y : ℝ) (hy : y ∈ lastN w xs) :
    ∃ s p, (gaussianTailRunning Real.sqrt erfc w).fit (gaussianTailRunning.init w) xs = .ok () s ∧
      ((gaussianTailRunning Real.sqrt erfc w).transformPartial s y).out = .ok p ∧
      p ≤ 1 - 1 / 2 * erfc (√((min w xs.length : ℕ) - 1 : ℝ) / √2) := by
  have hne : lastN w xs ≠ [] := List.ne_nil_of_mem hy
  obtain ⟨s, h1, h2⟩ := gauss_fit erfc ((average_refines (K := ℝ)).runningMeter w)
    ((variance_refines (K := ℝ)).runningMeter w) xs
  refine ⟨s, _, h1, gauss_transform erfc _ _ h2 hne hne y, ?_⟩
  have hs := within_sample _ y hy
  rw [lastN_length] at hs
  have hle : (y - meanOf (lastN w xs : List ℝ)) /
      (if 0 < varianceOf (K := ℝ) (lastN w xs : List ℝ) then
        √(varianceOf (K := ℝ) (lastN w xs : List ℝ)) else 1) / √2
      ≤ √((min w xs.length : ℕ) - 1 : ℝ) / √2 := by
    apply div_le_div_of_nonneg_right _ (Real.sqrt_nonneg _)
    split
    · rename_i hv
      rw [div_le_iff₀ (Real.sqrt_pos.2 hv)]
      exact (le_abs_self _).trans hs
    · rename_i hv
      have hv0 : varianceOf (K := ℝ) (lastN w xs : List ℝ) = 0 :=
        le_antisymm (not_lt.1 hv) (varianceOf_nonneg _)
      rw [hv0, Real.sqrt_zero, mul_zero] at hs
      rw [div_one]
      exact ((le_abs_self _).trans hs).trans (Real.sqrt_nonneg _)
  have := he.antitone hle
  linarith

/-- **C162.** The ceiling is attained: a one after `i ≥ 1` zeros has the standard score `√i`. -/
theorem C162_zscore_attained (i : ℕ) (hi : 1 ≤ i) :
    ∃ out, (zscorePlain.fitTransform zscorePlain.init (List.replicate i 0 ++ [1])).out = .ok out ∧
      out[i]? = some (.fin √(i : ℝ)) := by
  obtain ⟨out, s, h1, h2, h3⟩ := C36_zscore (List.replicate i (0 : ℝ) ++ [1])
  refine ⟨out, by rw [h1]; rfl, ?_⟩
  rw [h3 i (by simp)]
  have hi0 : (0 : ℝ) < i := by exact_mod_cast hi
  have ht : (List.replicate i (0 : ℝ) ++ [1]).take (i + 1) = List.replicate i 0 ++ [1] :=
    List.take_of_length_le (by simp)
  have hx : (List.replicate i (0 : ℝ) ++ [1])[i]'(by simp) = 1 := by simp
  have hm : meanOf ((List.replicate i (0 : ℝ) ++ [1] : List ℝ) : Multiset ℝ) = 1 / (i + 1) := by
    simp [meanOf]
  have hv : varianceOf ((List.replicate i (0 : ℝ) ++ [1] : List ℝ) : Multiset ℝ)
      = i / (i + 1) ^ 2 := by
    unfold varianceOf
    rw [hm]
    simp [List.map_append, List.map_replicate, List.sum_append, List.sum_replicate]
    field_simp
    ring
  rw [ht, hx]
  unfold zscore
  rw [hv, hm, if_neg (by positivity), Real.sqrt_div hi0.le, Real.sqrt_sq (by positivity)]
  congr 2
  have hs : 0 < √(i : ℝ) := Real.sqrt_pos.2 hi0
  rw [div_div_eq_mul_div, div_eq_iff hs.ne', Real.mul_self_sqrt hi0.le]
  field_simp
  ring

end Pysad
