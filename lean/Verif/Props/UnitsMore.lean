import Verif.Props.Units
import Verif.Props.Smoothing

/-! Property C105 again: how much the unit matters to the deviation models. -/

namespace Pysad

open Spec

section
variable {K : Type*} [Field K] [LinearOrder K] [IsStrictOrderedRing K]

/-- The factor by which a score changes with the unit: at most the factor of the unit. -/
private theorem unit_factor {a S e : K} (ha : 0 < a) (hS : 0 ≤ S) (he : 0 < e) :
    0 < a * S + e ∧ min 1 a ≤ a * (S + e) / (a * S + e) ∧ a * (S + e) / (a * S + e) ≤ max 1 a := by
  have hp : 0 < a * S + e := by positivity
  refine ⟨hp, ?_, ?_⟩
  · rw [le_div_iff₀ hp]
    rcases le_total 1 a with h | h
    · rw [min_eq_left h]; nlinarith
    · rw [min_eq_right h]
      have : a * S ≤ S := by nlinarith
      nlinarith
  · rw [div_le_iff₀ hp]
    rcases le_total 1 a with h | h
    · rw [max_eq_right h]
      have : S ≤ a * S := by nlinarith
      nlinarith
    · rw [max_eq_left h]; nlinarith

omit [IsStrictOrderedRing K] in
private theorem runningDeviations_nonneg [IsStrictOrderedRing K] {xs ds : List K}
    (h : RunningDeviations xs ds) : ∀ y ∈ ds, 0 ≤ y := by
  intro y hy
  obtain ⟨i, hi, rfl⟩ := List.mem_iff_getElem.1 hy
  have hi' : i < xs.length := h.1 ▸ hi
  obtain ⟨q, -, h⟩ := h.2 i _ (List.getElem?_eq_getElem hi')
  rw [List.getElem?_eq_getElem hi] at h
  rw [Option.some.inj h]
  exact abs_nonneg _

private theorem runningDeviations_affine {xs ds : List K} (a b : K) (ha : 0 < a)
    (h : RunningDeviations xs ds) :
    RunningDeviations (xs.map fun v => a * v + b) (ds.map fun v => a * v + 0) := by
  refine ⟨by simpa using h.1, fun i x hx => ?_⟩
  rw [List.getElem?_map] at hx
  obtain ⟨v, hv, rfl⟩ := Option.map_eq_some_iff.1 hx
  obtain ⟨m, h1, h2⟩ := h.2 i v hv
  refine ⟨a * m + b, ?_, ?_⟩
  · rw [← List.map_take, ← Multiset.map_coe, Smoothing.medianOf_affine a b ha, h1]
    rfl
  · rw [List.getElem?_map, h2]
    simp only [Option.map_some, add_zero]
    rw [show a * v + b - (a * m + b) = a * (v - m) by ring, abs_mul, abs_of_pos ha]

private theorem score_factor {a S e x m b : K} (ha : 0 < a) (hS : 0 ≤ S) (he : 0 < e) :
    (a * x + b - (a * m + b)) / (a * S + e) = a * (S + e) / (a * S + e) * ((x - m) / (S + e)) := by
  have h1 : a * S + e ≠ 0 := by positivity
  have h2 : S + e ≠ 0 := by positivity
  field_simp
  ring

private theorem abs_factor {absolute : Bool} {c q : K} (hc : 0 < c) :
    (if absolute then |c * q| else c * q) = c * if absolute then |q| else q := by
  cases absolute
  · rfl
  · simp only [if_true]
    rw [abs_mul, abs_of_pos hc]

/-- **C105, partial for MedianAbsoluteDeviation.** In another unit (factor `a`, shift `b`) all scores
are multiplied by one and the same factor between 1 and `a`, so the ranking of the instances is the
same. Missing: that the factor is 1, which is false (`C105_mad_refuted`). -/
theorem C105_mad_unit_partial {β : Type*} (k : K) (hk : 0 ≤ k) (absolute : Bool) (a b : K)
    (ha : 0 < a) (cs : List (Call (List K) β)) (hne : univariate (fitted cs) ≠ []) :
    let d := medianAbsoluteDeviation (β := β) (K := K)
    let unit := List.map fun v : K => a * v + b
    ∃ c, min 1 a ≤ c ∧ c ≤ max 1 a ∧ ∀ X, ∃ vs : List K,
      (d.scorePartial (calls d (MadState.new absolute k) cs).2 X).out = .ok (vs.map .fin) ∧
      (d.scorePartial (calls d (MadState.new absolute k) (cs.map (Call.on unit))).2 (unit X)).out =
        .ok (vs.map fun v => .fin (c * v)) := by
  intro d unit
  have hu : univariate (fitted (cs.map (Call.on unit))) =
      (univariate (fitted cs)).map fun v => a * v + b := by rw [fitted_on, univariate_map]
  have hne' : univariate (fitted (cs.map (Call.on unit))) ≠ [] := by rw [hu]; simpa using hne
  obtain ⟨m, ds, mad, h1, h2, h3, -⟩ := C67_mad_score k hk absolute cs hne []
  have hmad : 0 ≤ mad := medianOf_nonneg h3 fun y hy =>
    runningDeviations_nonneg h2 y (by simpa using hy)
  have hS : 0 ≤ k * mad := by positivity
  have he : (0 : K) < 1 / 10 ^ 10 := by positivity
  obtain ⟨f0, f1, f2⟩ := unit_factor ha hS he
  refine ⟨_, f1, f2, fun X => ?_⟩
  obtain ⟨n, es, nad, e1, e2, e3, e4⟩ := C67_mad_score k hk absolute cs hne X
  obtain rfl : m = n := Option.some.inj (h1.symm.trans e1)
  obtain rfl : ds = es := runningDeviations_unique h2 e2
  obtain rfl : mad = nad := Option.some.inj (h3.symm.trans e3)
  obtain ⟨m', ds', mad', h1', h2', h3', h4'⟩ := C67_mad_score k hk absolute _ hne' (unit X)
  rw [hu, ← Multiset.map_coe, Smoothing.medianOf_affine a b ha, h1] at h1'
  obtain rfl : a * m + b = m' := Option.some.inj h1'
  rw [hu] at h2'
  obtain rfl := runningDeviations_unique (runningDeviations_affine a b ha h2) h2'
  rw [← Multiset.map_coe, Smoothing.medianOf_affine a 0 ha, h3] at h3'
  obtain rfl : a * mad + 0 = mad' := Option.some.inj h3'
  refine ⟨X.map fun x => if absolute then |(x - m) / (k * mad + 1 / 10 ^ 10)|
    else (x - m) / (k * mad + 1 / 10 ^ 10), by rw [e4, List.map_map]; rfl, ?_⟩
  rw [h4', List.map_map]
  simp only [List.map_map, Function.comp_def]
  congr 1
  apply List.map_congr_left
  intro x _
  congr 1
  rw [show k * (a * mad + 0) + 1 / 10 ^ 10 = a * (k * mad) + 1 / 10 ^ 10 by ring,
    score_factor ha hS he, abs_factor (div_pos (mul_pos ha (add_pos_of_nonneg_of_pos hS he)) f0)]

end

section
variable {β : Type*}

private theorem sad_unit (absolute : Bool) (a b : ℝ) (ha : 0 < a) (V m : ℝ) (X : List ℝ) :
    let e : ℝ := 1 / 10 ^ 10
    (X.map fun x => a * x + b).map (fun x => (Num.fin (
      let q := (x - (a * m + b)) / (Real.sqrt (a ^ 2 * V) + 1 / 10 ^ 10)
      if absolute then |q| else q) : Num ℝ)) =
    (X.map fun x => (
      let q := (x - m) / (Real.sqrt V + 1 / 10 ^ 10)
      if absolute then |q| else q)).map fun v =>
        .fin (a * (Real.sqrt V + e) / (a * Real.sqrt V + e) * v) := by
  intro e
  have hS := Real.sqrt_nonneg V
  have he : (0 : ℝ) < e := by simp only [e]; positivity
  simp only [List.map_map, Function.comp_def]
  apply List.map_congr_left
  intro x _
  congr 1
  rw [Real.sqrt_mul (by positivity), Real.sqrt_sq ha.le, show (1 / 10 ^ 10 : ℝ) = e from rfl,
    score_factor ha hS he, abs_factor (div_pos (mul_pos ha (add_pos_of_nonneg_of_pos hS he))
      (unit_factor ha hS he).1)]

/-- **C105, partial for StandardAbsoluteDeviation.** The same, with the mean ... -/
theorem C105_sad_mean_unit_partial (absolute : Bool) (a b : ℝ) (ha : 0 < a)
    (cs : List (Call (List ℝ) β)) (hne : univariate (fitted cs) ≠ []) :
    let d := standardAbsoluteDeviation (β := β) Real.sqrt (averageMeter ℝ)
    let unit := List.map fun v : ℝ => a * v + b
    ∃ c, min 1 a ≤ c ∧ c ≤ max 1 a ∧ ∀ X, ∃ vs : List ℝ,
      (d.scorePartial (calls d (SadState.new (averageMeter ℝ) absolute) cs).2 X).out =
        .ok (vs.map .fin) ∧
      (d.scorePartial (calls d (SadState.new (averageMeter ℝ) absolute) (cs.map (Call.on unit))).2
        (unit X)).out = .ok (vs.map fun v => .fin (c * v)) := by
  intro d unit
  have hu : univariate (fitted (cs.map (Call.on unit))) =
      (univariate (fitted cs)).map fun v => a * v + b := by rw [fitted_on, univariate_map]
  have hne' : univariate (fitted (cs.map (Call.on unit))) ≠ [] := by rw [hu]; simpa using hne
  have hm : ((univariate (fitted cs) : List ℝ) : Multiset ℝ) ≠ 0 := by simpa using hne
  obtain ⟨-, f1, f2⟩ := unit_factor ha
    (Real.sqrt_nonneg (varianceOf (K := ℝ) (univariate (fitted cs))))
    (by positivity : (0 : ℝ) < 1 / 10 ^ 10)
  refine ⟨_, f1, f2, fun X => ⟨X.map fun x => (
      let q := (x - meanOf (K := ℝ) (univariate (fitted cs))) /
        (Real.sqrt (varianceOf (K := ℝ) (univariate (fitted cs))) + 1 / 10 ^ 10)
      if absolute then |q| else q), ?_, ?_⟩⟩
  · rw [C68_sad_mean absolute cs hne X, List.map_map]
    rfl
  · rw [C68_sad_mean absolute _ hne' (unit X), hu, ← Multiset.map_coe, meanOf_affine hm,
      varianceOf_affine hm]
    exact congrArg _ (sad_unit absolute a b ha _ _ X)

/-- ... and with the median. -/
theorem C105_sad_median_unit_partial (absolute : Bool) (a b : ℝ) (ha : 0 < a)
    (cs : List (Call (List ℝ) β)) (hne : univariate (fitted cs) ≠ []) :
    let d := standardAbsoluteDeviation (β := β) Real.sqrt (medianMeter ℝ)
    let unit := List.map fun v : ℝ => a * v + b
    ∃ c, min 1 a ≤ c ∧ c ≤ max 1 a ∧ ∀ X, ∃ vs : List ℝ,
      (d.scorePartial (calls d (SadState.new (medianMeter ℝ) absolute) cs).2 X).out =
        .ok (vs.map .fin) ∧
      (d.scorePartial (calls d (SadState.new (medianMeter ℝ) absolute) (cs.map (Call.on unit))).2
        (unit X)).out = .ok (vs.map fun v => .fin (c * v)) := by
  intro d unit
  have hu : univariate (fitted (cs.map (Call.on unit))) =
      (univariate (fitted cs)).map fun v => a * v + b := by rw [fitted_on, univariate_map]
  have hne' : univariate (fitted (cs.map (Call.on unit))) ≠ [] := by rw [hu]; simpa using hne
  have hm : ((univariate (fitted cs) : List ℝ) : Multiset ℝ) ≠ 0 := by simpa using hne
  obtain ⟨-, f1, f2⟩ := unit_factor ha
    (Real.sqrt_nonneg (varianceOf (K := ℝ) (univariate (fitted cs))))
    (by positivity : (0 : ℝ) < 1 / 10 ^ 10)
  refine ⟨_, f1, f2, fun X => ?_⟩
  obtain ⟨m, h1, h2⟩ := C68_sad_median absolute cs hne X
  obtain ⟨m', h1', h2'⟩ := C68_sad_median absolute _ hne' (unit X)
  rw [hu, ← Multiset.map_coe, Smoothing.medianOf_affine a b ha, h1] at h1'
  obtain rfl : a * m + b = m' := Option.some.inj h1'
  refine ⟨X.map fun x => (
      let q := (x - m) / (Real.sqrt (varianceOf (K := ℝ) (univariate (fitted cs))) + 1 / 10 ^ 10)
      if absolute then |q| else q), ?_, ?_⟩
  · rw [h2, List.map_map]
    rfl
  · rw [h2', hu, ← Multiset.map_coe, varianceOf_affine hm]
    exact congrArg _ (sad_unit absolute a b ha _ _ X)

end

/-- A history that meets the hypothesis. -/
example : univariate (fitted [.fit [0] none, .fit [2] none, (.fit [4] none : Call (List ℚ) Unit)]) ≠
    [] := by decide

end Pysad
