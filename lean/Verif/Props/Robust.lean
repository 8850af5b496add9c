import Verif.Proofs.Majority
import Verif.Props.Deviation
import Verif.Props.Ensemblers
import Verif.Props.Postprocessors

/-! Properties C134, C135: a minority of outliers. -/

namespace Pysad

open Spec

/-! ### C134 -/

/-- What is expected of a smoothed stream: whenever more than half of the scores it is computed from
(`part` of the scores so far) lie between `lo` and `hi`, so does the reported value. -/
def Spec.Withstands {K : Type*} [LinearOrder K] (part : List K → List K)
    (smooth : List K → Except PyErr (List K)) : Prop :=
  ∀ xs : List K, ∃ out, smooth xs = .ok out ∧ out.length = xs.length ∧
    ∀ (i : ℕ) (v lo hi : K), out[i]? = some v →
      MostlyWithin lo hi (part (xs.take (i + 1)) : Multiset K) → lo ≤ v ∧ v ≤ hi

/-- The same of an ensembler: whenever more than half of the detectors give a score between `lo`
and `hi`, so does the ensemble. -/
def Spec.EnsembleWithstands {K : Type*} [Field K] [LinearOrder K]
    (combine : List K → Except PyErr K) : Prop :=
  ∀ (scores : List K) (lo hi : K), MostlyWithin lo hi (scores : Multiset K) →
    ∃ v, (scoreEnsembler combine).transformPartial () scores = .ok v () ∧ lo ≤ v ∧ v ≤ hi

/-- The claim of **C134**: smoothing by averages and by medians, over the whole stream or a window,
and ensembles by average and median withstand a minority of outliers. -/
def C134_statement : Prop :=
  (Withstands (K := ℚ) id fun xs =>
    ((averagePostprocessor ℚ).fitTransform (AveragePostprocessor.new ℚ) xs).out) ∧
  (∀ w, 1 ≤ w → Withstands (K := ℚ) (lastN w) fun xs =>
    ((runningAveragePostprocessor ℚ w).fitTransform (RunningAveragePostprocessor.new ℚ w) xs).out) ∧
  (Withstands (K := ℚ) id fun xs =>
    ((medianPostprocessor ℚ).fitTransform (MedianPostprocessor.new ℚ) xs).out) ∧
  (∀ w, 1 ≤ w → Withstands (K := ℚ) (lastN w) fun xs =>
    ((runningMedianPostprocessor ℚ w).fitTransform (RunningMedianPostprocessor.new ℚ w) xs).out) ∧
  EnsembleWithstands (K := ℚ) (pyodAverage none) ∧ EnsembleWithstands (K := ℚ) pyodMedian

/-- **C134 is false of averages**, over the whole stream and over a window, and of the average
ensemble: one score of three is enough. -/
theorem C134_average_refuted : ¬ C134_statement ∧
    (¬ Withstands (K := ℚ) id fun xs =>
      ((averagePostprocessor ℚ).fitTransform (AveragePostprocessor.new ℚ) xs).out) ∧
    (¬ Withstands (K := ℚ) (lastN 3) fun xs => ((runningAveragePostprocessor ℚ 3).fitTransform
      (RunningAveragePostprocessor.new ℚ 3) xs).out) ∧
    ¬ EnsembleWithstands (K := ℚ) (pyodAverage none) := by
  have h1 : ¬ Withstands (K := ℚ) id fun xs =>
      ((averagePostprocessor ℚ).fitTransform (AveragePostprocessor.new ℚ) xs).out := by
    intro h
    obtain ⟨out, h1, -, h3⟩ := h [0, 0, 300]
    have e : ((averagePostprocessor ℚ).fitTransform (AveragePostprocessor.new ℚ) [0, 0, 300]).out =
      .ok [0, 0, 100] := by decide +kernel
    simp only [e, Except.ok.injEq] at h1
    subst h1
    have := h3 2 100 0 0 rfl (by decide +kernel)
    norm_num at this
  refine ⟨fun h => h1 h.1, h1, ?_, ?_⟩
  · intro h
    obtain ⟨out, h1, -, h3⟩ := h [0, 0, 300]
    have e : ((runningAveragePostprocessor ℚ 3).fitTransform
        (RunningAveragePostprocessor.new ℚ 3) [0, 0, 300]).out = .ok [0, 0, 100] := by
      decide +kernel
    simp only [e, Except.ok.injEq] at h1
    subst h1
    have := h3 2 100 0 0 rfl (by decide +kernel)
    norm_num at this
  · intro h
    obtain ⟨v, h1, h2, h3⟩ := h [0, 0, 300] 0 0 (by decide +kernel)
    have e : (scoreEnsembler (K := ℚ) (pyodAverage none)).transformPartial () [0, 0, 300] =
      .ok 100 () := by decide +kernel
    rw [e] at h1
    cases h1
    norm_num at h3

section
variable {K : Type*} [Field K] [LinearOrder K] [IsStrictOrderedRing K]

/-- **C134**, partial: medians of the whole stream. -/
theorem C134_median_partial : Withstands (K := K) id fun xs =>
    ((medianPostprocessor K).fitTransform (MedianPostprocessor.new K) xs).out := by
  intro xs
  obtain ⟨out, s, h1, h2, h3⟩ := C34_median xs
  refine ⟨out, by simp [h1], h2, ?_⟩
  intro i v lo hi hv hm
  have hi' : i < xs.length := h2 ▸ (List.getElem?_eq_some_iff.1 hv).1
  obtain ⟨b, hb, hb2⟩ := h3 i hi'
  rw [hv] at hb
  cases hb
  exact medianOf_mostlyWithin hm hb2

/-- **C134**, partial: medians of a window; what left the window does not matter. -/
theorem C134_running_median_partial (w : ℕ) (hw : 1 ≤ w) : Withstands (K := K) (lastN w) fun xs =>
    ((runningMedianPostprocessor K w).fitTransform (RunningMedianPostprocessor.new K w) xs).out := by
  intro xs
  obtain ⟨out, s, h1, h2, h3⟩ := C35_median w hw xs
  refine ⟨out, by simp [h1], h2, ?_⟩
  intro i v lo hi hv hm
  have hi' : i < xs.length := h2 ▸ (List.getElem?_eq_some_iff.1 hv).1
  obtain ⟨b, hb, hb2⟩ := h3 i hi'
  rw [hv] at hb
  cases hb
  exact medianOf_mostlyWithin hm hb2

/-- **C134**, partial: the median ensemble. -/
theorem C134_ensemble_partial : EnsembleWithstands (K := K) pyodMedian := by
  intro scores lo hi hm
  have hne : scores ≠ [] := by
    rintro rfl
    simp [MostlyWithin, Mostly] at hm
  obtain ⟨r, hr⟩ := pyodMedian_ok hne
  refine ⟨r, by simp [scoreEnsembler, hr, Res.ofExcept], ?_⟩
  rw [pyodMedian_eq] at hr
  split at hr
  · rename_i b hb
    cases hr
    exact medianOf_mostlyWithin hm hb
  · simp at hr

end

/-- More than half is needed: of two scores one is half, and the median is carried away. -/
example : ((medianPostprocessor ℚ).fitTransform (MedianPostprocessor.new ℚ) [0, 300, 0]).out =
    .ok [0, 150, 0] ∧ MostlyWithin (0 : ℚ) 0 ([0, 300, 0] : List ℚ) ∧
    ¬ MostlyWithin (0 : ℚ) 0 ([0, 300] : List ℚ) := by decide +kernel

/-! ### C135 -/

/-- The score that a deviation detector configured with `absolute=True` gives to the value `x`. -/
def Spec.ScoresAs {σ β K : Type*} (d : Detector σ (List K) β (List (Num K))) (s : σ) (x v : K) : Prop :=
  (d.scorePartial s [x]).out = .ok [.fin v]

/-- What is expected of a deviation detector: if more than half of the values fitted lie between
`lo` and `hi`, then a value farther from that range than the range is wide gets a higher score than
every value within. -/
def Spec.Unmasked {σ β K : Type*} [Field K] [LinearOrder K]
    (d : Detector σ (List K) β (List (Num K))) (init : σ) : Prop :=
  ∀ (cs : List (Call (List K) β)) (lo hi : K),
    MostlyWithin lo hi (univariate (fitted cs) : Multiset K) →
    ∀ x y : K, lo ≤ x → x ≤ hi → (hi + (hi - lo) < y ∨ y < lo - (hi - lo)) →
    ∃ v w, ScoresAs d (calls d init cs).2 x v ∧ ScoresAs d (calls d init cs).2 y w ∧ v < w

/-- The claim of **C135** about the order of the scores: a minority of outliers among the fitted
values does not hide outliers from the deviation detectors. -/
def C135_order_statement : Prop :=
  (∀ b : ℝ, 0 ≤ b → Unmasked (β := Unit) medianAbsoluteDeviation (MadState.new true b)) ∧
  Unmasked (β := Unit) (standardAbsoluteDeviation Real.sqrt (medianMeter ℝ))
    (SadState.new (medianMeter ℝ) true) ∧
  Unmasked (β := Unit) (standardAbsoluteDeviation Real.sqrt (averageMeter ℝ))
    (SadState.new (averageMeter ℝ) true)

theorem univariate_fit_ne_nil {K : Type*} [LinearOrder K] {xs : List K} {lo hi : K}
    (h : MostlyWithin lo hi (xs : Multiset K)) : xs ≠ [] := by
  rintro rfl
  simp [MostlyWithin, Mostly] at h

/-- Distances to a point of the range. -/
theorem abs_sub_lt_of_far {K : Type*} [Field K] [LinearOrder K] [IsStrictOrderedRing K]
    {lo hi m x y : K} (hm : lo ≤ m ∧ m ≤ hi) (h1 : lo ≤ x) (h2 : x ≤ hi)
    (hy : hi + (hi - lo) < y ∨ y < lo - (hi - lo)) : |x - m| < |y - m| := by
  have hx : |x - m| ≤ hi - lo := abs_le.2 ⟨by linarith [hm.2], by linarith [hm.1]⟩
  refine hx.trans_lt ?_
  rcases hy with hy | hy
  · exact lt_of_lt_of_le (by linarith [hm.2]) (le_abs_self _)
  · exact lt_of_lt_of_le (by linarith [hm.1]) (neg_le_abs _)

/-- **C135**, partial: `MedianAbsoluteDeviation`, over every ordered field. -/
theorem C135_mad_order_partial {K β : Type*} [Field K] [LinearOrder K] [IsStrictOrderedRing K]
    (b : K) (hb : 0 ≤ b) : Unmasked (β := β) medianAbsoluteDeviation (MadState.new true b) := by
  intro cs lo hi hm x y h1 h2 hy
  have hne := univariate_fit_ne_nil hm
  obtain ⟨m, ds, mad, e1, e2, e3, e4⟩ := C67_mad_score (β := β) b hb true cs hne [x]
  obtain ⟨m', ds', mad', e1', e2', e3', e4'⟩ := C67_mad_score (β := β) b hb true cs hne [y]
  rw [e1] at e1'
  cases e1'
  have hds : ds = ds' := by
    apply List.ext_getElem?
    intro i
    by_cases hi : i < (univariate (fitted cs)).length
    · obtain ⟨p, q1, q2⟩ := e2.2 i _ (List.getElem?_eq_getElem hi)
      obtain ⟨p', q1', q2'⟩ := e2'.2 i _ (List.getElem?_eq_getElem hi)
      rw [q1] at q1'
      cases q1'
      rw [q2, q2']
    · rw [List.getElem?_eq_none (by rw [e2.1]; omega), List.getElem?_eq_none (by rw [e2'.1]; omega)]
  subst hds
  rw [e3] at e3'
  cases e3'
  have hmad : 0 ≤ mad := by
    refine medianOf_nonneg e3 ?_
    intro z hz
    obtain ⟨i, hi, rfl⟩ := List.mem_iff_getElem.1 (show z ∈ ds by simpa using hz)
    have hi' : i < (univariate (fitted cs)).length := e2.1 ▸ hi
    obtain ⟨p, -, q⟩ := e2.2 i _ (List.getElem?_eq_getElem hi')
    rw [List.getElem?_eq_getElem hi] at q
    simp only [Option.some.injEq] at q
    rw [q]; exact abs_nonneg _
  have hden : 0 < b * mad + 1 / 10 ^ 10 := by positivity
  simp only [if_true, List.map_cons, List.map_nil] at e4 e4'
  refine ⟨_, _, e4, e4', ?_⟩
  rw [abs_div, abs_div]
  exact div_lt_div_of_pos_right (abs_sub_lt_of_far (medianOf_mostlyWithin hm e1) h1 h2 hy)
    (abs_pos.2 hden.ne')

/-- **C135**, partial: `StandardAbsoluteDeviation` with the median subtracted. -/
theorem C135_sad_order_partial {β : Type*} :
    Unmasked (β := β) (standardAbsoluteDeviation Real.sqrt (medianMeter ℝ))
      (SadState.new (medianMeter ℝ) true) := by
  intro cs lo hi hm x y h1 h2 hy
  have hne := univariate_fit_ne_nil hm
  obtain ⟨m, e1, e4⟩ := C68_sad_median (β := β) true cs hne [x]
  obtain ⟨m', e1', e4'⟩ := C68_sad_median (β := β) true cs hne [y]
  rw [e1] at e1'
  cases e1'
  have hden : 0 < √(varianceOf (K := ℝ) (univariate (fitted cs))) + 1 / 10 ^ 10 := by positivity
  simp only [if_true, List.map_cons, List.map_nil] at e4 e4'
  refine ⟨_, _, e4, e4', ?_⟩
  rw [abs_div, abs_div]
  exact div_lt_div_of_pos_right (abs_sub_lt_of_far (medianOf_mostlyWithin hm e1) h1 h2 hy)
    (abs_pos.2 hden.ne')

/-- **C135 is false of `StandardAbsoluteDeviation` with the mean subtracted**, the default: after
0, 0, 300 the value 100 gets a lower score than 0. -/
theorem C135_order_refuted : ¬ C135_order_statement := by
  rintro ⟨-, -, h⟩
  have hm : MostlyWithin (0 : ℝ) 0 (univariate (fitted
      [(Call.fit [0] none : Call (List ℝ) Unit), .fit [0] none, .fit [300] none]) : Multiset ℝ) := by
    simp only [MostlyWithin, Mostly, fitted, univariate, List.filterMap_cons, List.filterMap_nil]
    rw [Multiset.coe_card, Multiset.coe_countP]
    simp only [List.countP_cons, List.countP_nil, List.length_cons, List.length_nil]
    norm_num
  obtain ⟨v, w, h1, h2, h3⟩ := h [.fit [0] none, .fit [0] none, .fit [300] none] 0 0 hm 0 100 le_rfl
    le_rfl (Or.inl (by norm_num))
  have hne := univariate_fit_ne_nil hm
  have e1 := C68_sad_mean (β := Unit) true
    [.fit [0] none, .fit [0] none, .fit [300] none] hne [0]
  have e2 := C68_sad_mean (β := Unit) true
    [.fit [0] none, .fit [0] none, .fit [300] none] hne [100]
  unfold ScoresAs at h1 h2
  rw [e1] at h1
  rw [e2] at h2
  have hmean : meanOf (K := ℝ) (univariate (fitted
      [(Call.fit [0] none : Call (List ℝ) Unit), .fit [0] none, .fit [300] none])) = 100 := by
    simp only [meanOf, fitted, univariate, List.filterMap_cons, List.filterMap_nil]
    rw [Multiset.sum_coe, Multiset.coe_card]
    norm_num
  simp only [hmean, if_true, List.map_cons, List.map_nil, Except.ok.injEq, List.cons.injEq,
    Num.fin.injEq, and_true] at h1 h2
  rw [← h1, ← h2] at h3
  simp only [sub_self, zero_div, abs_zero] at h3
  exact absurd h3 (not_lt.2 (abs_nonneg _))

/-- The claim of **C135** about the size of the scores: if more than half of the values fitted lie
between `lo` and `hi`, `MedianAbsoluteDeviation` gives a value at distance `d` from that range at
least the score `d / (b * (hi - lo) + 1e-10)`. -/
def C135_size_statement : Prop :=
  ∀ (b : ℚ), 0 ≤ b → ∀ (cs : List (Call (List ℚ) Unit)) (lo hi : ℚ),
    MostlyWithin lo hi (univariate (fitted cs) : Multiset ℚ) → ∀ y d : ℚ, 0 ≤ d →
    (hi + d ≤ y ∨ y ≤ lo - d) →
    ∃ v, ScoresAs (β := Unit) medianAbsoluteDeviation
      (calls medianAbsoluteDeviation (MadState.new true b) cs).2 y v ∧
      d / (b * (hi - lo) + 1 / 10 ^ 10) ≤ v

/-- **C135, size, is false**: the distance of a value to the median is taken when the value is
fitted and never again, so outliers at the beginning, when they are no minority, inflate the
scale for ever. -/
theorem C135_size_refuted : ¬ C135_size_statement := by
  intro h
  obtain ⟨v, h1, h2⟩ := h 1 (by norm_num) [.fit [100] none, .fit [300] none, .fit [0] none,
    .fit [0] none, .fit [0] none] 0 0 (by decide +kernel) 1 1 (by norm_num) (Or.inl (by norm_num))
  have e : ((medianAbsoluteDeviation (K := ℚ) (β := Unit)).scorePartial
      (calls (medianAbsoluteDeviation (β := Unit)) (MadState.new true (1 : ℚ)) [.fit [100] none, .fit [300] none,
        .fit [0] none, .fit [0] none, .fit [0] none]).2 [1]).out =
      .ok [.fin (1 / (50 + 1 / 10 ^ 10))] := by decide +kernel
  unfold ScoresAs at h1
  rw [e] at h1
  simp only [Except.ok.injEq, List.cons.injEq, Num.fin.injEq, and_true] at h1
  rw [← h1] at h2
  norm_num at h2

/-- **C135**, partial: the claim about the size holds if at every time more than half of the values
fitted so far lay between `lo` and `hi`. -/
theorem C135_size_partial {K β : Type*} [Field K] [LinearOrder K] [IsStrictOrderedRing K] (b : K)
    (hb : 0 ≤ b) (cs : List (Call (List K) β)) (hne : univariate (fitted cs) ≠ []) (lo hi : K)
    (hm : ∀ i, i < (univariate (fitted cs)).length →
      MostlyWithin lo hi ((univariate (fitted cs)).take (i + 1) : Multiset K))
    (y d : K) (hd : 0 ≤ d) (hy : hi + d ≤ y ∨ y ≤ lo - d) :
    ∃ v, ScoresAs (β := β) medianAbsoluteDeviation
      (calls medianAbsoluteDeviation (MadState.new true b) cs).2 y v ∧
      d / (b * (hi - lo) + 1 / 10 ^ 10) ≤ v := by
  set xs := univariate (fitted cs) with hxs
  have hlen : 0 < xs.length := List.length_pos_iff.2 hne
  have hall : MostlyWithin lo hi (xs : Multiset K) := by
    have := hm (xs.length - 1) (by omega)
    rwa [List.take_of_length_le (by omega)] at this
  obtain ⟨m, ds, mad, e1, e2, e3, e4⟩ := C67_mad_score (β := β) b hb true cs hne [y]
  simp only [if_true, List.map_cons, List.map_nil] at e4
  refine ⟨_, e4, ?_⟩
  -- most distances are at most the width of the range
  have hgood : ∀ (i : ℕ) (x : K), xs[i]? = some x → lo ≤ x → x ≤ hi → ∃ z, ds[i]? = some z ∧ z ≤ hi - lo := by
    intro i x hx h1 h2
    obtain ⟨p, q1, q2⟩ := e2.2 i x hx
    have hp := medianOf_mostlyWithin (hm i (List.getElem?_eq_some_iff.1 hx).1) q1
    exact ⟨_, q2, abs_le.2 ⟨by linarith [hp.2], by linarith [hp.1]⟩⟩
  have hcount : ∀ (l es : List K), es.length = l.length →
      (∀ (i : ℕ) (x : K), l[i]? = some x → lo ≤ x → x ≤ hi → ∃ z, es[i]? = some z ∧ z ≤ hi - lo) →
      l.countP (fun x => decide (lo ≤ x ∧ x ≤ hi)) ≤ es.countP (· ≤ hi - lo) := by
    intro l
    induction l with
    | nil => intro es _ _; simp
    | cons a l ih =>
      intro es hes h
      match es with
      | [] => simp at hes
      | e :: es =>
        have h1 := ih es (by simpa using hes) fun i x hx => by
          have := h (i + 1) x (by simpa using hx)
          simpa using this
        rw [List.countP_cons, List.countP_cons]
        by_cases ha : lo ≤ a ∧ a ≤ hi
        · obtain ⟨z, hz1, hz2⟩ := h 0 a rfl ha.1 ha.2
          simp only [List.getElem?_cons_zero, Option.some.injEq] at hz1
          subst hz1
          simp only [ha, and_self, decide_true, if_true, hz2]
          omega
        · simp only [ha, decide_false, Bool.false_eq_true, if_false]
          omega
  have hmostly : Mostly (· ≤ hi - lo) (ds : Multiset K) := by
    have h1 := hcount xs ds e2.1 hgood
    have h2 := hall
    unfold MostlyWithin Mostly at h2
    unfold Mostly
    rw [Multiset.coe_card, Multiset.coe_countP] at *
    rw [e2.1, ← hxs]
    omega
  have hmad := medianOf_le_of_mostly hmostly e3
  have hmad0 : 0 ≤ mad := by
    refine medianOf_nonneg e3 ?_
    intro z hz
    obtain ⟨i, hi, rfl⟩ := List.mem_iff_getElem.1 (show z ∈ ds by simpa using hz)
    have hi' : i < xs.length := e2.1 ▸ hi
    obtain ⟨p, -, q⟩ := e2.2 i _ (List.getElem?_eq_getElem hi')
    rw [List.getElem?_eq_getElem hi] at q
    simp only [Option.some.injEq] at q
    rw [q]; exact abs_nonneg _
  have hmed := medianOf_mostlyWithin hall e1
  have hden : 0 < b * mad + 1 / 10 ^ 10 := by positivity
  rw [abs_div, abs_of_pos hden]
  have hnum : d ≤ |y - m| := by
    rcases hy with hy | hy
    · exact le_trans (by linarith [hmed.2]) (le_abs_self _)
    · exact le_trans (by linarith [hmed.1]) (neg_le_abs _)
  have hle : b * mad + 1 / 10 ^ 10 ≤ b * (hi - lo) + 1 / 10 ^ 10 := by
    have := mul_le_mul_of_nonneg_left hmad hb
    linarith
  exact div_le_div₀ (abs_nonneg _) hnum hden hle

/-- A run that meets the hypotheses: two of five values are outliers, never half of them. -/
example : ∀ i, i < 5 → MostlyWithin (0 : ℚ) 2 (([1, 0, 500, 2, -700] : List ℚ).take (i + 1) : List ℚ) := by
  decide +kernel

end Pysad
