import Verif.Props.Statistics
import Verif.Props.Extreme
import Verif.Proofs.Majority

/-! Property C190, and C115 for the median: the mean and the median are at most one standard
deviation apart. -/

namespace Pysad

open Spec

namespace MeanMedian

section
variable {K : Type*} [Field K] [LinearOrder K] [IsStrictOrderedRing K]

/-- At least half of the values are not below the median. -/
theorem half_above {m : Multiset K} {r : K} (hr : medianOf m = some r) :
    m.card ≤ 2 * m.countP (r ≤ ·) := by
  by_contra h
  push Not at h
  have hc := m.card_eq_countP_add_countP (r ≤ ·)
  have hpos : 0 < m.countP fun x => ¬ r ≤ x := by omega
  obtain ⟨x0, hx0, hlt0⟩ := Multiset.countP_pos.1 hpos
  let S := (m.filter fun x => ¬ r ≤ x).toFinset
  have hS : S.Nonempty := ⟨x0, by simp [S, hx0, not_le.1 hlt0]⟩
  have hb := S.max'_mem hS
  have hb' : ¬ r ≤ S.max' hS := by
    have : S.max' hS ∈ m.filter fun x => ¬ r ≤ x := Multiset.mem_toFinset.1 hb
    exact (Multiset.mem_filter.1 this).2
  refine hb' (medianOf_le_of_mostly (b := S.max' hS) ?_ hr)
  have hm : Mostly (fun x => ¬ r ≤ x) m := by unfold Mostly; omega
  exact hm.mono fun x hx hxr => S.le_max' x (by simp [S, hx, not_le.1 hxr])

/-- At least half of the values are not above the median. -/
theorem half_below {m : Multiset K} {r : K} (hr : medianOf m = some r) :
    m.card ≤ 2 * m.countP (· ≤ r) := by
  by_contra h
  push Not at h
  have hc := m.card_eq_countP_add_countP (· ≤ r)
  have hpos : 0 < m.countP fun x => ¬ x ≤ r := by omega
  obtain ⟨x0, hx0, hlt0⟩ := Multiset.countP_pos.1 hpos
  let S := (m.filter fun x => ¬ x ≤ r).toFinset
  have hS : S.Nonempty := ⟨x0, by simp [S, hx0, not_le.1 hlt0]⟩
  have hb := S.min'_mem hS
  have hb' : ¬ S.min' hS ≤ r := by
    have : S.min' hS ∈ m.filter fun x => ¬ x ≤ r := Multiset.mem_toFinset.1 hb
    exact (Multiset.mem_filter.1 this).2
  refine hb' (le_medianOf_of_mostly (a := S.min' hS) ?_ hr)
  have hm : Mostly (fun x => ¬ x ≤ r) m := by unfold Mostly; omega
  exact hm.mono fun x hx hxr => S.min'_le x (by simp [S, hx, not_le.1 hxr])

/-- A sum in which some terms are at least `3 e` and all at least `-e`. -/
private theorem sum_ge (f : K → K) (p : K → Prop) [DecidablePred p] (e : K)
    (h1 : ∀ x, p x → 3 * e ≤ f x) (h2 : ∀ x, -e ≤ f x) (m : Multiset K) :
    e * (4 * (m.countP p : K) - m.card) ≤ (m.map f).sum := by
  induction m using Multiset.induction_on with
  | empty => simp
  | cons a m ih =>
    rw [Multiset.map_cons, Multiset.sum_cons, Multiset.card_cons, Multiset.countP_cons]
    by_cases ha : p a
    · rw [if_pos ha]
      push_cast
      have := h1 a ha
      linarith
    · rw [if_neg ha]
      push_cast
      have := h2 a
      linarith

private theorem sum_dev {m : Multiset K} (hm : m ≠ 0) (c : K) :
    (m.map fun x => (x - meanOf m) ^ 2 + c * (x - meanOf m)).sum = m.card * varianceOf m := by
  have hpos : (m.card : K) ≠ 0 := by simpa using hm
  rw [Multiset.sum_map_add, Multiset.sum_map_mul_left, Multiset.sum_map_sub, Multiset.map_id']
  simp only [Multiset.map_const', Multiset.sum_replicate, nsmul_eq_mul]
  have : m.sum - m.card * meanOf m = 0 := by unfold meanOf; field_simp; ring
  rw [this, mul_zero, add_zero]
  unfold varianceOf
  field_simp

/-- The squared distance between mean and median is at most the variance. -/
theorem mean_median {m : Multiset K} {r : K} (hr : medianOf m = some r) :
    (meanOf m - r) ^ 2 ≤ varianceOf m := by
  have hm : m ≠ 0 := by rintro rfl; simp [medianOf_zero] at hr
  have hpos : (0 : K) < m.card := by
    exact_mod_cast Multiset.card_pos.2 hm
  have key : ∀ (p : K → Prop) [DecidablePred p] (c : K), m.card ≤ 2 * m.countP p →
      (∀ x, p x → 3 * (meanOf m - r) ^ 2 ≤ (x - meanOf m) ^ 2 + c * (x - meanOf m)) →
      (∀ x, -(meanOf m - r) ^ 2 ≤ (x - meanOf m) ^ 2 + c * (x - meanOf m)) →
      (meanOf m - r) ^ 2 ≤ varianceOf m := by
    intro p _ c hp h1 h2
    have h := sum_ge _ p _ h1 h2 m
    rw [sum_dev hm] at h
    have hp' : (m.card : K) ≤ 2 * m.countP p := by exact_mod_cast hp
    have h3 : (m.card : K) * (meanOf m - r) ^ 2 ≤ m.card * varianceOf m := by
      refine le_trans ?_ h
      have := sq_nonneg (meanOf m - r)
      nlinarith
    exact le_of_mul_le_mul_left h3 hpos
  rcases le_total (meanOf m) r with h | h
  · refine key (r ≤ ·) (2 * (r - meanOf m)) (half_above hr) ?_ ?_
    · intro x hx
      nlinarith [mul_nonneg (sub_nonneg.2 h) (sub_nonneg.2 hx), sq_nonneg (x - r)]
    · intro x
      nlinarith [sq_nonneg (x - meanOf m + (r - meanOf m))]
  · refine key (· ≤ r) (-(2 * (meanOf m - r))) (half_below hr) ?_ ?_
    · intro x hx
      nlinarith [mul_nonneg (sub_nonneg.2 h) (sub_nonneg.2 hx), sq_nonneg (x - r)]
    · intro x
      nlinarith [sq_nonneg (x - meanOf m - (meanOf m - r))]

end

end MeanMedian

/-! ### C190: the meters -/

section
variable {K : Type*} [Field K] [LinearOrder K] [IsStrictOrderedRing K]

/-- **C190.** Given the same values, in whatever amount and order, `AverageMeter` and
`MedianMeter` read numbers whose distance is at most the square root of what `VarianceMeter`
reads. -/
theorem C190_meters (xs : List K) (hne : xs ≠ []) :
    ∃ a q v : K,
      ((averageMeter K).get ((averageMeter K).updates (averageMeter K).init xs)).out = .ok a ∧
      ((medianMeter K).get ((medianMeter K).updates (medianMeter K).init xs)).out = .ok q ∧
      ((varianceMeter K).get ((varianceMeter K).updates (varianceMeter K).init xs)).out = .ok v ∧
      (a - q) ^ 2 ≤ v := by
  have ha := average_refines.updates xs 0 _ average_refines.init
  have hq := median_refines.updates xs 0 _ median_refines.init
  have hv := variance_refines.updates xs 0 _ variance_refines.init
  rw [zero_add] at ha hq hv
  obtain ⟨q, h1, h2⟩ := medianValue_ok (median_refines.get_out hq) hne
  exact ⟨_, q, _, meanValue_ok (average_refines.get_out ha) hne, h1,
    varianceValue_ok (variance_refines.get_out hv) hne, MeanMedian.mean_median h2⟩

/-- **C190.** The same of the three meters over a window of at least one value. -/
theorem C190_windowed (w : ℕ) (hw : 1 ≤ w) (xs : List K) (hne : xs ≠ []) :
    ∃ a q v : K,
      ((RunningStatistic.updates (averageMeter K) (RunningStatistic.new (averageMeter K) w) xs).bind
        fun _ s => RunningStatistic.get (averageMeter K) s).out = .ok a ∧
      ((RunningStatistic.updates (medianMeter K) (RunningStatistic.new (medianMeter K) w) xs).bind
        fun _ s => RunningStatistic.get (medianMeter K) s).out = .ok q ∧
      ((RunningStatistic.updates (varianceMeter K) (RunningStatistic.new (varianceMeter K) w)
        xs).bind fun _ s => RunningStatistic.get (varianceMeter K) s).out = .ok v ∧
      (a - q) ^ 2 ≤ v := by
  have hl : lastN w xs ≠ [] := by
    intro h
    have h1 := congrArg List.length h
    have h2 := List.length_pos_iff.2 hne
    simp [lastN] at h1
    omega
  obtain ⟨a, q, v, h1, h2, h3, h4⟩ := C190_meters (lastN w xs) hl
  obtain ⟨-, -, -, ca, cv, -, -, cq⟩ := C12_running_is_windowed (K := K)
  obtain ⟨sa, ea, -, ga⟩ := ca w xs
  obtain ⟨sq, eq, -, gq⟩ := cq w xs
  obtain ⟨sv, ev, -, gv⟩ := cv w xs
  refine ⟨a, q, v, ?_, ?_, ?_, h4⟩
  · rw [ea]; exact ga.trans h1
  · rw [eq]; exact gq.trans h2
  · rw [ev]; exact gv.trans h3

/-- Two of three values are 0: mean 3, median 0, variance 18. -/
example : ((averageMeter ℚ).get ((averageMeter ℚ).updates (averageMeter ℚ).init [0, 9, 0])).out
      = .ok 3 ∧
    ((medianMeter ℚ).get ((medianMeter ℚ).updates (medianMeter ℚ).init [0, 9, 0])).out = .ok 0 ∧
    ((varianceMeter ℚ).get ((varianceMeter ℚ).updates (varianceMeter ℚ).init [0, 9, 0])).out
      = .ok 18 := by
  decide +kernel

/-- Equal values: the bound is reached. -/
example : ((averageMeter ℚ).get ((averageMeter ℚ).updates (averageMeter ℚ).init [5, 5])).out
      = .ok 5 ∧
    ((medianMeter ℚ).get ((medianMeter ℚ).updates (medianMeter ℚ).init [5, 5])).out = .ok 5 ∧
    ((varianceMeter ℚ).get ((varianceMeter ℚ).updates (varianceMeter ℚ).init [5, 5])).out
      = .ok 0 := by
  decide +kernel

end

/-! ### C190 and C115: `StandardAbsoluteDeviation` -/

section
variable {β : Type*}

private theorem abs_mean_median {m : Multiset ℝ} {r : ℝ} (hr : medianOf m = some r) :
    |meanOf m - r| ≤ √(varianceOf m) :=
  Real.abs_le_sqrt (MeanMedian.mean_median hr)

/-- **C190.** After the same calls, `StandardAbsoluteDeviation` with the mean and with the median
give every instance scores that are less than 1 apart. -/
theorem C190_sad (absolute : Bool) (cs : List (Call (List ℝ) β))
    (hne : univariate (fitted cs) ≠ []) (x : ℝ) :
    ∃ a q : ℝ,
      ((standardAbsoluteDeviation (β := β) Real.sqrt (averageMeter ℝ)).scorePartial
        (calls (standardAbsoluteDeviation Real.sqrt (averageMeter ℝ))
          (SadState.new (averageMeter ℝ) absolute) cs).2 [x]).out = .ok [.fin a] ∧
      ((standardAbsoluteDeviation (β := β) Real.sqrt (medianMeter ℝ)).scorePartial
        (calls (standardAbsoluteDeviation Real.sqrt (medianMeter ℝ))
          (SadState.new (medianMeter ℝ) absolute) cs).2 [x]).out = .ok [.fin q] ∧
      |a - q| < 1 := by
  obtain ⟨r, hr, hq⟩ := C68_sad_median absolute cs hne [x]
  refine ⟨_, _, C68_sad_mean absolute cs hne [x], hq, ?_⟩
  have hd := abs_mean_median hr
  generalize meanOf (univariate (fitted cs) : Multiset ℝ) = μ at hd ⊢
  generalize √(varianceOf (univariate (fitted cs) : Multiset ℝ)) = sd at hd ⊢
  have h0 : 0 ≤ sd := (abs_nonneg _).trans hd
  have hp : (0 : ℝ) < 1 / 10 ^ 10 := by positivity
  have key : |(x - μ) / (sd + 1 / 10 ^ 10) - (x - r) / (sd + 1 / 10 ^ 10)| < 1 := by
    rw [← sub_div, abs_div, abs_of_pos (by linarith : 0 < sd + 1 / 10 ^ 10),
      div_lt_one (by linarith)]
    rw [show x - μ - (x - r) = -(μ - r) by ring, abs_neg]
    linarith
  cases absolute
  · exact key
  · exact (abs_abs_sub_abs_le_abs_sub _ _).trans_lt key

/-- After 0, 9, 0 both score the value 9, and the scores are less than 1 apart. -/
example : ∃ a q : ℝ,
    ((standardAbsoluteDeviation (β := Unit) Real.sqrt (averageMeter ℝ)).scorePartial
      (calls (standardAbsoluteDeviation Real.sqrt (averageMeter ℝ))
        (SadState.new (averageMeter ℝ) true)
        [.fit [0] (none : Option Unit), .fit [9] none, .fit [0] none]).2 [9]).out
      = .ok [.fin a] ∧
    ((standardAbsoluteDeviation (β := Unit) Real.sqrt (medianMeter ℝ)).scorePartial
      (calls (standardAbsoluteDeviation Real.sqrt (medianMeter ℝ))
        (SadState.new (medianMeter ℝ) true)
        [.fit [0] (none : Option Unit), .fit [9] none, .fit [0] none]).2 [9]).out
      = .ok [.fin q] ∧ |a - q| < 1 :=
  C190_sad true _ (by simp [univariate, fitted]) 9

/-- **C115, what holds** of `StandardAbsoluteDeviation` with the median: with `n` earlier values
`fit_score_partial` never returns more than `√n + 1`. (Missing: higher scores.) -/
theorem C115_sad_median_partial (absolute : Bool) (cs : List (Call (List ℝ) β)) (y : ℝ) :
    ∃ v, ((standardAbsoluteDeviation (β := β) Real.sqrt (medianMeter ℝ)).fitScorePartial
      (calls (standardAbsoluteDeviation Real.sqrt (medianMeter ℝ))
        (SadState.new (medianMeter ℝ) absolute) cs).2 [y] none).out = .ok [.fin v] ∧
      |v| ≤ √((univariate (fitted cs)).length : ℝ) + 1 := by
  obtain ⟨a, q, h1, h2, h3⟩ := C190_sad absolute (cs ++ [.fit [y] none])
    (by rw [univariate_snoc]; simp) y
  obtain ⟨a', h4, h5⟩ := C115_sad_partial absolute cs y
  rw [sad_fit_score, h1] at h4
  cases h4
  refine ⟨q, by rw [sad_fit_score]; exact h2, ?_⟩
  have := abs_sub_abs_le_abs_sub q a
  rw [abs_sub_comm] at this
  linarith

/-- **C115 is false** of `StandardAbsoluteDeviation` with the median as well: after one value no
score is above 3. -/
theorem C115_sad_median_refuted : ¬ ∀ (cs : List (Call (List ℝ) Unit)) (B : ℝ),
    univariate (fitted cs) ≠ [] →
    ∃ y v, ((standardAbsoluteDeviation (β := Unit) Real.sqrt (medianMeter ℝ)).fitScorePartial
      (calls (standardAbsoluteDeviation Real.sqrt (medianMeter ℝ))
        (SadState.new (medianMeter ℝ) true) cs).2 [y] none).out = .ok [.fin v] ∧ B < v := by
  intro h
  obtain ⟨y, v, h1, h2⟩ := h [.fit [0] none] 3 (by simp [univariate, fitted])
  obtain ⟨v', h1', h2'⟩ := C115_sad_median_partial true [.fit [0] (none : Option Unit)] y
  rw [h1] at h1'
  cases h1'
  simp [univariate, fitted] at h2'
  linarith [le_abs_self v]

end

end Pysad
