import Verif.Props.Familiarity
import Verif.Props.Postprocessors

/-! C146: how many of the fitted instances a threshold can flag. -/

namespace Pysad

open Spec

/-- How many of the values `X` get a score of at least `k` from the detector in state `s`. -/
def Spec.flagged {σ β K : Type*} [LinearOrder K] (d : Detector σ (List K) β (List (Num K))) (s : σ)
    (k : K) (X : List K) : ℕ :=
  X.countP fun x => match (call d s (.score [x])).1 with
    | .value [.fin v] => decide (k ≤ v)
    | _ => false

/-! ### Chebyshev's and Cantelli's inequality for a list of values -/

theorem markov_count (X : List ℝ) (f : ℝ → ℝ) (p : ℝ → Bool) (c : ℝ) (h0 : ∀ x ∈ X, 0 ≤ f x)
    (hp : ∀ x ∈ X, p x = true → c ≤ f x) : (X.countP p : ℝ) * c ≤ (X.map f).sum := by
  induction X with
  | nil => simp
  | cons a X ih =>
    have ih := ih (fun x hx => h0 x (by simp [hx])) fun x hx => hp x (by simp [hx])
    have ha := h0 a (by simp)
    rw [List.countP_cons, List.map_cons, List.sum_cons]
    by_cases h : p a = true
    · have := hp a (by simp) h
      rw [if_pos h]
      push_cast
      linarith
    · rw [if_neg h]
      push_cast
      linarith

/-- The sum of the squared distances from any number. -/
theorem sum_sq_about (X : List ℝ) (hX : X ≠ []) (c : ℝ) :
    (X.map fun x => (x - c) ^ 2).sum =
      X.length * (varianceOf (K := ℝ) X + (meanOf (K := ℝ) X - c) ^ 2) := by
  have hm : (X : Multiset ℝ) ≠ 0 := by simpa using hX
  have hn : (X.length : ℝ) ≠ 0 := by
    have := List.length_pos_iff.2 hX
    positivity
  have h := sum_sq_dev (X : Multiset ℝ) c
  rw [Multiset.map_coe, Multiset.sum_coe, Multiset.coe_card] at h
  rw [h, variance_formula hm, meanOf, Multiset.coe_card]
  field_simp
  ring

theorem cantelli_count (X : List ℝ) (hX : X ≠ []) (e : ℝ) (he : e ^ 2 = 1) (k t : ℝ) (ht : 0 < t)
    (hk : k ^ 2 * varianceOf (K := ℝ) X ≤ t ^ 2) (p : ℝ → Bool)
    (hp : ∀ x ∈ X, p x = true → t ≤ e * (x - meanOf (K := ℝ) X)) :
    (X.countP p : ℝ) * (1 + k ^ 2) ≤ X.length := by
  have hv0 := varianceOf_nonneg (X : Multiset ℝ)
  set v := varianceOf (K := ℝ) X with hv
  set μ := meanOf (K := ℝ) X with hμ
  have hcount : (X.countP p : ℝ) * (t + v / t) ^ 2 ≤ X.length * (v + (v / t) ^ 2) := by
    have h := markov_count X (fun x => (x - (μ - e * (v / t))) ^ 2) p ((t + v / t) ^ 2)
      (fun x _ => sq_nonneg _) (fun x hx h => by
        have h1 := hp x hx h
        have h2 : (x - (μ - e * (v / t))) ^ 2 = (e * (x - μ) + v / t) ^ 2 := by
          linear_combination ((v / t) ^ 2 - (x - μ) ^ 2) * he
        rw [h2]
        have : 0 ≤ v / t := by positivity
        apply pow_le_pow_left₀ (by positivity)
        linarith)
    rw [sum_sq_about X hX] at h
    have e1 : (meanOf (K := ℝ) X - (μ - e * (v / t))) ^ 2 = (v / t) ^ 2 := by
      rw [← hμ]
      linear_combination (v / t) ^ 2 * he
    rw [e1] at h
    exact h
  have hc0 : (0 : ℝ) ≤ X.countP p := by positivity
  have hn0 : (0 : ℝ) ≤ X.length := by positivity
  rcases hv0.eq_or_lt with h0 | hpos
  · rw [← h0] at hcount
    simp only [zero_div, add_zero, ne_eq, OfNat.ofNat_ne_zero, not_false_eq_true, zero_pow,
      mul_zero] at hcount
    have : (X.countP p : ℝ) = 0 := by
      by_contra hne
      have : 0 < (X.countP p : ℝ) * t ^ 2 := by positivity
      linarith
    rw [this, zero_mul]
    exact hn0
  · have h1 : (X.countP p : ℝ) * (t ^ 2 + v) ≤ X.length * v := by
      have h2 : (t + v / t) ^ 2 = (t ^ 2 + v) * ((t ^ 2 + v) / t ^ 2) := by field_simp
      have h3 : v + (v / t) ^ 2 = v * ((t ^ 2 + v) / t ^ 2) := by field_simp
      rw [h2, h3, ← mul_assoc, ← mul_assoc] at hcount
      exact le_of_mul_le_mul_right hcount (by positivity)
    have h4 : (X.countP p : ℝ) * (1 + k ^ 2) * v ≤ X.length * v := by
      refine le_trans ?_ h1
      have := mul_le_mul_of_nonneg_left hk hc0
      linarith
    exact le_of_mul_le_mul_right h4 hpos

theorem chebyshev_count (X : List ℝ) (hX : X ≠ []) (c B k t : ℝ) (ht : 0 < t)
    (hB : (meanOf (K := ℝ) X - c) ^ 2 ≤ (B - 1) * varianceOf (K := ℝ) X) (hB0 : 0 ≤ B)
    (hk : k ^ 2 * varianceOf (K := ℝ) X ≤ t ^ 2) (p : ℝ → Bool)
    (hp : ∀ x ∈ X, p x = true → t ≤ |x - c|) :
    (X.countP p : ℝ) * k ^ 2 ≤ B * X.length := by
  have hv0 := varianceOf_nonneg (X : Multiset ℝ)
  set v := varianceOf (K := ℝ) X with hv
  have hc0 : (0 : ℝ) ≤ X.countP p := by positivity
  have hn0 : (0 : ℝ) ≤ X.length := by positivity
  have hcount : (X.countP p : ℝ) * t ^ 2 ≤ X.length * (B * v) := by
    have h := markov_count X (fun x => (x - c) ^ 2) p (t ^ 2) (fun x _ => sq_nonneg _)
      (fun x hx h => by
        rw [← sq_abs (x - c)]
        exact pow_le_pow_left₀ ht.le (hp x hx h) 2)
    rw [sum_sq_about X hX] at h
    refine h.trans (mul_le_mul_of_nonneg_left ?_ hn0)
    linarith
  rcases hv0.eq_or_lt with h0 | hpos
  · rw [← h0] at hcount
    have : (X.countP p : ℝ) = 0 := by
      by_contra hne
      have : 0 < (X.countP p : ℝ) * t ^ 2 := by positivity
      linarith
    rw [this, zero_mul]
    positivity
  · have h4 : (X.countP p : ℝ) * k ^ 2 * v ≤ B * X.length * v := by
      have := mul_le_mul_of_nonneg_left hk hc0
      linarith
    exact le_of_mul_le_mul_right h4 hpos

/-- Mean and median differ by at most the standard deviation. -/
theorem sq_mean_sub_median_le {X : List ℝ} {m : ℝ} (hX : X ≠ [])
    (hm : medianOf (X : Multiset ℝ) = some m) :
    (meanOf (K := ℝ) X - m) ^ 2 ≤ varianceOf (K := ℝ) X := by
  by_contra hlt
  rw [not_le] at hlt
  have hv0 := varianceOf_nonneg (X : Multiset ℝ)
  set v := varianceOf (K := ℝ) X with hv
  set μ := meanOf (K := ℝ) X with hμ
  obtain ⟨h1, h2⟩ := C09_median_halves _ _ hm
  have hn : (0 : ℝ) < X.length := by exact_mod_cast List.length_pos_iff.2 hX
  have hne : μ - m ≠ 0 := by
    intro h; rw [h] at hlt; norm_num at hlt; linarith
  -- some `k` with `k > 1` and `k² v ≤ (μ - m)²`
  obtain ⟨k2, hk1, hk2⟩ : ∃ k2 : ℝ, 1 < k2 ∧ k2 * v ≤ (μ - m) ^ 2 := by
    rcases hv0.eq_or_lt with h0 | hpos
    · exact ⟨2, by norm_num, by rw [← h0]; nlinarith [sq_nonneg (μ - m)]⟩
    · exact ⟨(μ - m) ^ 2 / v, (one_lt_div hpos).2 hlt, by rw [div_mul_cancel₀ _ hpos.ne']⟩
  have hsq : Real.sqrt k2 ^ 2 = k2 := Real.sq_sqrt (by linarith)
  have half : ∀ p : ℝ → Bool, X.length ≤ 2 * X.countP p →
      ¬ (X.countP p : ℝ) * (1 + Real.sqrt k2 ^ 2) ≤ X.length := by
    intro p hp hc
    rw [hsq] at hc
    have hp' : (X.length : ℝ) ≤ 2 * X.countP p := by exact_mod_cast hp
    have : (0 : ℝ) < X.countP p := by linarith
    nlinarith
  rcases lt_or_gt_of_ne hne with hneg | hpos
  · refine half (fun x => decide (m ≤ x)) ?_ (cantelli_count X hX 1 (by norm_num) (Real.sqrt k2)
      (m - μ) (by linarith) (by rw [hsq, ← hv]; nlinarith) _ fun x _ hx => ?_)
    · rw [Multiset.filter_coe, Multiset.coe_card, Multiset.coe_card] at h2
      rwa [List.countP_eq_length_filter]
    · have : m ≤ x := by simpa using hx
      rw [← hμ]; linarith
  · refine half (fun x => decide (x ≤ m)) ?_ (cantelli_count X hX (-1) (by norm_num) (Real.sqrt k2)
      (μ - m) (by linarith) (by rw [hsq, ← hv]; nlinarith) _ fun x _ hx => ?_)
    · rw [Multiset.filter_coe, Multiset.coe_card, Multiset.coe_card] at h1
      rwa [List.countP_eq_length_filter]
    · have : x ≤ m := by simpa using hx
      rw [← hμ]; linarith

/-! ### StandardAbsoluteDeviation -/

section
variable {β : Type*}

theorem scale_bounds (v k : ℝ) (hv : 0 ≤ v) (hk : 0 < k) :
    0 < k * (√v + 1 / 10 ^ 10) ∧ k ^ 2 * v ≤ (k * (√v + 1 / 10 ^ 10)) ^ 2 := by
  have h0 := Real.sqrt_nonneg v
  refine ⟨by positivity, ?_⟩
  rw [mul_pow]
  refine mul_le_mul_of_nonneg_left ?_ (sq_nonneg k)
  calc v = √v ^ 2 := (Real.sq_sqrt hv).symm
    _ ≤ _ := pow_le_pow_left₀ h0 (by linarith [show (0 : ℝ) < 1 / 10 ^ 10 by positivity]) 2

/-- **C146, StandardAbsoluteDeviation with the mean.** After any history at most one in `k²` of
the fitted values has a score of `k` or more. -/
theorem C146_sad_mean (cs : List (Call (List ℝ) β)) (k : ℝ) (hk : 0 < k) :
    (flagged (β := β) (standardAbsoluteDeviation Real.sqrt (averageMeter ℝ))
      (calls (standardAbsoluteDeviation Real.sqrt (averageMeter ℝ))
        (SadState.new (averageMeter ℝ) true) cs).2 k (univariate (fitted cs)) : ℝ) * k ^ 2
      ≤ (univariate (fitted cs)).length := by
  by_cases hne : univariate (fitted cs) = []
  · rw [hne]; simp [flagged]
  obtain ⟨h1, h2⟩ := scale_bounds _ k (varianceOf_nonneg (univariate (fitted cs) : Multiset ℝ)) hk
  refine le_of_le_of_eq (chebyshev_count (univariate (fitted cs)) hne
    (meanOf (K := ℝ) (univariate (fitted cs))) 1 k _ h1 (by simp) (by norm_num) h2 _
    fun x _ hx => ?_) (one_mul _)
  rw [call_score_value (C68_sad_mean (β := β) true cs hne [x])] at hx
  simp only [if_true, List.map_cons, List.map_nil, decide_eq_true_eq] at hx
  have hp : 0 < √(varianceOf (K := ℝ) (univariate (fitted cs))) + 1 / 10 ^ 10 := by positivity
  rw [abs_div, abs_of_pos hp, le_div_iff₀ hp] at hx
  exact hx

/-- **C146, StandardAbsoluteDeviation with the mean, signed.** If scores are not made positive, at
most one in `1 + k²`. -/
theorem C146_sad_mean_signed (cs : List (Call (List ℝ) β)) (k : ℝ) (hk : 0 < k) :
    (flagged (β := β) (standardAbsoluteDeviation Real.sqrt (averageMeter ℝ))
      (calls (standardAbsoluteDeviation Real.sqrt (averageMeter ℝ))
        (SadState.new (averageMeter ℝ) false) cs).2 k (univariate (fitted cs)) : ℝ) * (1 + k ^ 2)
      ≤ (univariate (fitted cs)).length := by
  by_cases hne : univariate (fitted cs) = []
  · rw [hne]; simp [flagged]
  obtain ⟨h1, h2⟩ := scale_bounds _ k (varianceOf_nonneg (univariate (fitted cs) : Multiset ℝ)) hk
  exact cantelli_count (univariate (fitted cs)) hne 1 (by norm_num) k _ h1 h2 _ (fun x _ hx => by
    have e := call_score_value (C68_sad_mean (β := β) false cs hne [x])
    rw [e] at hx
    simp only [Bool.false_eq_true, if_false, List.map_cons, List.map_nil, decide_eq_true_eq] at hx
    have hp : 0 < √(varianceOf (K := ℝ) (univariate (fitted cs))) + 1 / 10 ^ 10 := by positivity
    rw [le_div_iff₀ hp] at hx
    linarith)

/-- The statement for StandardAbsoluteDeviation with the median: at most one in `k²`. -/
def C146_sad_median_statement : Prop :=
  ∀ (cs : List (Call (List ℝ) Unit)) (k : ℝ), 0 < k →
    (flagged (β := Unit) (standardAbsoluteDeviation Real.sqrt (medianMeter ℝ))
      (calls (standardAbsoluteDeviation Real.sqrt (medianMeter ℝ))
        (SadState.new (medianMeter ℝ) true) cs).2 k (univariate (fitted cs)) : ℝ) * k ^ 2
      ≤ (univariate (fitted cs)).length

/-- **C146 (partial), StandardAbsoluteDeviation with the median.** At most two in `k²`. -/
theorem C146_sad_median_partial (cs : List (Call (List ℝ) β)) (k : ℝ) (hk : 0 < k) :
    (flagged (β := β) (standardAbsoluteDeviation Real.sqrt (medianMeter ℝ))
      (calls (standardAbsoluteDeviation Real.sqrt (medianMeter ℝ))
        (SadState.new (medianMeter ℝ) true) cs).2 k (univariate (fitted cs)) : ℝ) * k ^ 2
      ≤ 2 * (univariate (fitted cs)).length := by
  by_cases hne : univariate (fitted cs) = []
  · rw [hne]; simp [flagged]
  obtain ⟨h1, h2⟩ := scale_bounds _ k (varianceOf_nonneg (univariate (fitted cs) : Multiset ℝ)) hk
  obtain ⟨m, hm, _⟩ := C68_sad_median (β := β) true cs hne []
  exact chebyshev_count (univariate (fitted cs)) hne m 2 k _ h1
    (by linarith [sq_mean_sub_median_le hne hm]) (by norm_num) h2 _ (fun x _ hx => by
      obtain ⟨m', hm', e⟩ := C68_sad_median (β := β) true cs hne [x]
      obtain rfl : m' = m := Option.some.inj (hm'.symm.trans hm)
      rw [call_score_value e] at hx
      simp only [if_true, List.map_cons, List.map_nil, decide_eq_true_eq] at hx
      have hp : 0 < √(varianceOf (K := ℝ) (univariate (fitted cs))) + 1 / 10 ^ 10 := by
        positivity
      rw [abs_div, abs_of_pos hp, le_div_iff₀ hp] at hx
      exact hx)

/-- **C146 (refuted), StandardAbsoluteDeviation with the median.** After 0, 0, 1 the value 1 has a
score above 2, and 2² is more than 3. -/
theorem C146_sad_median_refuted : ¬ C146_sad_median_statement := by
  intro h
  have h := h [.fit [0] none, .fit [0] none, .fit [1] none] 2 (by norm_num)
  have u : univariate (fitted [(Call.fit [0] none : Call (List ℝ) Unit), .fit [0] none,
      .fit [1] none]) = [0, 0, 1] := rfl
  obtain ⟨m, a1, a2⟩ := C68_sad_median (β := Unit) true [.fit [0] none, .fit [0] none,
    .fit [1] none] (by rw [u]; simp) [1]
  rw [u] at a1 a2 h
  have hm : m = 0 := by
    have hs : ((([0, 0, 1] : List ℝ) : Multiset ℝ)).sort (· ≤ ·) = [0, 0, 1] := by
      rw [Multiset.coe_sort]
      exact List.mergeSort_eq_self _ (by simp)
    simp only [medianOf, hs] at a1
    simpa using a1.symm
  subst hm
  have hv : varianceOf (K := ℝ) ([0, 0, 1] : List ℝ) = 2 / 9 := by
    norm_num [varianceOf, meanOf]
  rw [hv] at a2
  have e := call_score_value a2
  simp only [if_true, List.map_cons, List.map_nil] at e
  have hs : √(2 / 9 : ℝ) < 48 / 100 := by
    rw [Real.sqrt_lt' (by norm_num)]; norm_num
  have hs0 := Real.sqrt_nonneg (2 / 9 : ℝ)
  have hge : 2 ≤ |(1 - 0) / (√(2 / 9 : ℝ) + 1 / 10 ^ 10)| := by
    rw [abs_of_nonneg (by positivity), le_div_iff₀ (by positivity)]
    linarith [show (1 : ℝ) / 10 ^ 10 < 1 / 100 by norm_num]
  have hcount : 1 ≤ flagged (β := Unit) (standardAbsoluteDeviation Real.sqrt (medianMeter ℝ))
      (calls (β := Unit) (standardAbsoluteDeviation Real.sqrt (medianMeter ℝ))
        (SadState.new (medianMeter ℝ) true) [.fit [0] none, .fit [0] none, .fit [1] none]).2 2
        [0, 0, 1] := by
    unfold flagged
    rw [Nat.one_le_iff_ne_zero, ne_eq, List.countP_eq_zero]
    intro hall
    have := hall 1 (by simp)
    rw [e] at this
    simp only [decide_eq_true_eq] at this
    exact this hge
  have : (1 : ℝ) ≤ flagged (β := Unit) (standardAbsoluteDeviation Real.sqrt (medianMeter ℝ))
      (calls (β := Unit) (standardAbsoluteDeviation Real.sqrt (medianMeter ℝ))
        (SadState.new (medianMeter ℝ) true) [.fit [0] none, .fit [0] none, .fit [1] none]).2 2
        [0, 0, 1] := by exact_mod_cast hcount
  simp only [List.length_cons, List.length_nil] at h
  norm_num at h
  linarith

end

/-! ### MedianAbsoluteDeviation -/

/-- The statement for MedianAbsoluteDeviation: at most half of the fitted values have a score
above the reciprocal of the consistency factor. -/
def C146_mad_statement : Prop :=
  ∀ (b : ℚ), 0 < b → ∀ (cs : List (Call (List ℚ) Unit)) (k : ℚ), 1 / b < k →
    2 * flagged (β := Unit) medianAbsoluteDeviation
      (calls medianAbsoluteDeviation (MadState.new true b) cs).2 k (univariate (fitted cs))
      ≤ (univariate (fitted cs)).length

/-- **C146 (refuted), MedianAbsoluteDeviation.** After 0, 0, 5, 6, 4 four of the five values are
flagged, by any threshold up to 10¹⁰: the distances kept are those to the medians of the time. -/
theorem C146_mad_refuted : ¬ C146_mad_statement := by
  intro h
  have := h 1 one_pos [.fit [0] none, .fit [0] none, .fit [5] none, .fit [6] none, .fit [4] none]
    (10 ^ 10) (by norm_num)
  revert this
  decide +kernel

/-- **C146 (partial), MedianAbsoluteDeviation.** At most half, and those values that are farther
from the median of all values than from the median at the time they were fitted. -/
theorem C146_mad_partial {K β : Type*} [Field K] [LinearOrder K] [IsStrictOrderedRing K] (b : K)
    (hb : 0 < b) (cs : List (Call (List K) β)) (k : K) (hk : 1 / b < k)
    (hne : univariate (fitted cs) ≠ []) :
    ∃ m ds, medianOf (univariate (fitted cs) : Multiset K) = some m ∧
      RunningDeviations (univariate (fitted cs)) ds ∧
      2 * flagged (β := β) medianAbsoluteDeviation
        (calls medianAbsoluteDeviation (MadState.new true b) cs).2 k (univariate (fitted cs))
      ≤ (univariate (fitted cs)).length +
        2 * ((univariate (fitted cs)).zip ds).countP fun p => decide (p.2 < |p.1 - m|) := by
  obtain ⟨m, ds, mad, hm, hds, hmad, _⟩ := C67_mad_score (β := β) b hb.le true cs hne []
  refine ⟨m, ds, hm, hds, ?_⟩
  have hmad0 : 0 ≤ mad := by
    refine medianOf_nonneg hmad fun y hy => ?_
    obtain ⟨i, hi, rfl⟩ := List.mem_iff_getElem.1 (show y ∈ ds by simpa using hy)
    obtain ⟨m', _, h⟩ := hds.2 i _ (List.getElem?_eq_getElem (hds.1 ▸ hi))
    rw [List.getElem?_eq_getElem hi] at h
    rw [Option.some.inj h]
    exact abs_nonneg _
  have hflag : flagged (β := β) medianAbsoluteDeviation
      (calls medianAbsoluteDeviation (MadState.new true b) cs).2 k (univariate (fitted cs))
      ≤ (univariate (fitted cs)).countP fun x => decide (mad < |x - m|) := by
    refine List.countP_mono_left fun x _ hx => ?_
    obtain ⟨m', ds', mad', h1, h2, h3, e⟩ := C67_mad_score (β := β) b hb.le true cs hne [x]
    obtain rfl : m' = m := Option.some.inj (h1.symm.trans hm)
    obtain rfl := runningDeviations_unique h2 hds
    obtain rfl : mad' = mad := Option.some.inj (h3.symm.trans hmad)
    rw [call_score_value e] at hx
    simp only [if_true, List.map_cons, List.map_nil, decide_eq_true_eq] at hx
    have hp : 0 < b * mad' + 1 / 10 ^ 10 := by positivity
    rw [abs_div, abs_of_pos hp, le_div_iff₀ hp] at hx
    rw [decide_eq_true_eq]
    have h4 : 1 / b * (b * mad') = mad' := by field_simp
    have h5 : 1 / b * (b * mad' + 1 / 10 ^ 10) ≤ k * (b * mad' + 1 / 10 ^ 10) :=
      mul_le_mul_of_nonneg_right hk.le hp.le
    rw [mul_add, h4] at h5
    have h6 : 0 < 1 / b * (1 / 10 ^ 10) := by positivity
    linarith
  have hhalf : 2 * ds.countP (fun d => decide (mad < d)) ≤ ds.length := by
    obtain ⟨h1, -⟩ := C09_median_halves _ _ hmad
    rw [Multiset.filter_coe, Multiset.coe_card, Multiset.coe_card,
      ← List.countP_eq_length_filter] at h1
    have h2 := List.length_eq_countP_add_countP (fun d => decide (d ≤ mad)) (l := ds)
    have h3 : ds.countP (fun d => decide (mad < d))
        = ds.countP fun d => decide ¬ decide (d ≤ mad) = true :=
      List.countP_congr fun d _ => by simp
    rw [h3]
    omega
  have hzip : (univariate (fitted cs)).countP (fun x => decide (mad < |x - m|))
      ≤ ds.countP (fun d => decide (mad < d)) +
        ((univariate (fitted cs)).zip ds).countP fun p => decide (p.2 < |p.1 - m|) := by
    have hlen := hds.1
    clear hflag hhalf hds hne hm hmad
    generalize univariate (fitted cs) = X at *
    induction X generalizing ds with
    | nil => simp
    | cons x X ih =>
      cases ds with
      | nil => simp at hlen
      | cons d ds =>
        have := ih ds (by simpa using hlen)
        simp only [List.zip_cons_cons, List.countP_cons, decide_eq_true_eq]
        by_cases h1 : mad < |x - m|
        · by_cases h2 : mad < d
          · simp only [h1, h2, if_true]; omega
          · have h3 : d < |x - m| := lt_of_le_of_lt (not_lt.1 h2) h1
            simp only [h1, h3, if_true]; omega
        · simp only [h1, if_false]; omega
  have := hds.1
  omega

/-! ### Z-scores -/

/-- **C146, z-scores.** After any scores, at most one in `1 + k²` of the scores in the window has a
z-score of `k` or more. -/
theorem C146_zscore (w : ℕ) (hw : 1 ≤ w) (xs : List ℝ) (hxs : xs ≠ []) (k : ℝ) (hk : 0 < k) :
    ∃ s, (zscoreRunning w).fit (zscoreRunning.init w) xs = .ok () s ∧
      (((lastN w xs).countP fun y => match ((zscoreRunning w).transformPartial s y).out with
        | .ok (.fin z) => decide (k ≤ z)
        | .ok .posInf => true
        | _ => false : ℕ) : ℝ) * (1 + k ^ 2) ≤ (lastN w xs).length := by
  obtain ⟨s, _, hs, _⟩ := C36_transform w hw xs hxs 0
  refine ⟨s, hs, ?_⟩
  have hne := lastN_ne_nil hw hxs
  have hv0 := varianceOf_nonneg (lastN w xs : Multiset ℝ)
  have hz : ∀ y, ((zscoreRunning w).transformPartial s y).out =
      .ok (npDiv (y - meanOf (lastN w xs : List ℝ)) √(varianceOf (lastN w xs : List ℝ))) := by
    intro y
    obtain ⟨s2, s', e1, e2⟩ := C36_transform w hw xs hxs y
    rw [hs] at e1
    cases e1
    rw [e2]; rfl
  rcases hv0.eq_or_lt with h0 | hpos
  · have hzero : ∀ y ∈ lastN w xs, y - meanOf (lastN w xs : List ℝ) = 0 := by
      intro y hy
      have h := sum_sq_about (lastN w xs) hne (meanOf (K := ℝ) (lastN w xs))
      rw [← h0] at h
      simp only [sub_self, ne_eq, OfNat.ofNat_ne_zero, not_false_eq_true, zero_pow, add_zero,
        mul_zero] at h
      have h2 := List.single_le_sum (l := (lastN w xs).map fun x =>
        (x - meanOf (lastN w xs : List ℝ)) ^ 2) (by simpa using fun a _ => sq_nonneg _) _
        (List.mem_map.2 ⟨y, hy, rfl⟩)
      rw [h] at h2
      exact pow_eq_zero_iff (n := 2) (by norm_num) |>.1 (le_antisymm h2 (sq_nonneg _))
    have : ((lastN w xs).countP fun y => match ((zscoreRunning w).transformPartial s y).out with
        | .ok (.fin z) => decide (k ≤ z)
        | .ok .posInf => true
        | _ => false : ℕ) = 0 := by
      rw [List.countP_eq_zero]
      intro y hy
      rw [hz, hzero y hy, ← h0]
      simp [npDiv]
    rw [this]
    simp
  · have hsd : 0 < √(varianceOf (K := ℝ) (lastN w xs)) := Real.sqrt_pos.2 hpos
    refine cantelli_count (lastN w xs) hne 1 (by norm_num) k
      (k * √(varianceOf (K := ℝ) (lastN w xs))) (by positivity)
      (by rw [mul_pow, Real.sq_sqrt hpos.le]) _ (fun y _ hy => ?_)
    rw [hz] at hy
    simp only [npDiv, hsd.ne', if_false, decide_eq_true_eq] at hy
    rw [le_div_iff₀ hsd] at hy
    linarith

/-! Concrete cases. -/

/-- A steady stream: half of the values are flagged and no more. -/
example : flagged (β := Unit) medianAbsoluteDeviation
    (calls (β := Unit) medianAbsoluteDeviation (MadState.new true (1 : ℚ)) (([0, 1, -1, 3, -3] : List ℚ).map
      fun x => .fit [x] none)).2 (3 / 2) [0, 1, -1, 3, -3] = 2 := by decide +kernel

end Pysad
