import Verif.Proofs.Meters
import Verif.Proofs.Moments
import Verif.Spec.Scores

/-! Properties C34-C36: `pysad/transform/postprocessing`. -/

namespace Pysad

open Spec

section Exact
variable {K : Type*} [Field K] [LinearOrder K] [IsStrictOrderedRing K]

/-- **C34**, average: `AveragePostprocessor().fit_transform(scores)[i]` is the
mean of `scores[0..i]`. -/
theorem C34_average (xs : List K) :
    ∃ out s, (averagePostprocessor K).fitTransform (AveragePostprocessor.new K) xs = .ok out s ∧
      out.length = xs.length ∧
      ∀ i, i < xs.length → out[i]? = some (meanOf (xs.take (i + 1) : List K)) := by
  obtain ⟨out, s, h1, h2, h3⟩ := meterPostprocessor_spec (average_refines (K := K)).plain
    (fun m b => b = meanOf m) (fun l r h hl => ⟨_, meanValue_ok h hl, rfl⟩) xs
  exact ⟨out, s, h1, h2, fun i hi => by obtain ⟨b, hb, rfl⟩ := h3 i hi; exact hb⟩

/-- **C34**, maximum. -/
theorem C34_max {α : Type*} [Field α] [LinearOrder α] (xs : List α) :
    ∃ out s, (maxPostprocessor α).fitTransform (MaxPostprocessor.new α) xs = .ok out s ∧
      out.length = xs.length ∧
      ∀ i, i < xs.length → ∃ g, out[i]? = some (some g) ∧
        IsGreatestOf (xs.take (i + 1) : List α) (some g) := by
  obtain ⟨out, s, h1, h2, h3⟩ := meterPostprocessor_spec (max_refines (α := α)).plain
    (fun m b => ∃ g, b = some g ∧ IsGreatestOf m (some g)) (fun l r h hl => maxValue_ok h hl) xs
  exact ⟨out, s, h1, h2, fun i hi => by obtain ⟨b, hb, g, rfl, hg⟩ := h3 i hi; exact ⟨g, hb, hg⟩⟩

/-- **C34**, median. -/
theorem C34_median (xs : List K) :
    ∃ out s, (medianPostprocessor K).fitTransform (MedianPostprocessor.new K) xs = .ok out s ∧
      out.length = xs.length ∧
      ∀ i, i < xs.length → ∃ b, out[i]? = some b ∧
        medianOf (xs.take (i + 1) : List K) = some b := by
  obtain ⟨out, s, h1, h2, h3⟩ := meterPostprocessor_spec (median_refines (K := K)).plain
    (fun m b => medianOf m = some b) (fun l r h hl => medianValue_ok h hl) xs
  exact ⟨out, s, h1, h2, h3⟩

/-- **C35**, average: `RunningAveragePostprocessor(w).fit_transform(scores)[i]` is
the mean of the last `w` of `scores[0..i]`. -/
theorem C35_average (w : ℕ) (hw : 1 ≤ w) (xs : List K) :
    ∃ out s, (runningAveragePostprocessor K w).fitTransform
        (RunningAveragePostprocessor.new K w) xs = .ok out s ∧ out.length = xs.length ∧
      ∀ i, i < xs.length → out[i]? = some (meanOf (lastN w (xs.take (i + 1)) : List K)) := by
  obtain ⟨out, s, h1, h2, h3⟩ := meterPostprocessor_spec
    ((average_refines (K := K)).runningMeter w) (fun m b => b = meanOf m)
    (fun l r h hl => ⟨_, meanValue_ok h (lastN_ne_nil hw hl), rfl⟩) xs
  exact ⟨out, s, h1, h2, fun i hi => by obtain ⟨b, hb, rfl⟩ := h3 i hi; exact hb⟩

/-- **C35**, maximum. -/
theorem C35_max {α : Type*} [Field α] [LinearOrder α] (w : ℕ) (hw : 1 ≤ w) (xs : List α) :
    ∃ out s, (runningMaxPostprocessor α w).fitTransform
        (RunningMaxPostprocessor.new α w) xs = .ok out s ∧ out.length = xs.length ∧
      ∀ i, i < xs.length → ∃ g, out[i]? = some (some g) ∧
        IsGreatestOf (lastN w (xs.take (i + 1)) : List α) (some g) := by
  obtain ⟨out, s, h1, h2, h3⟩ := meterPostprocessor_spec ((max_refines (α := α)).runningMeter w)
    (fun m b => ∃ g, b = some g ∧ IsGreatestOf m (some g))
    (fun l r h hl => maxValue_ok h (lastN_ne_nil hw hl)) xs
  exact ⟨out, s, h1, h2, fun i hi => by obtain ⟨b, hb, g, rfl, hg⟩ := h3 i hi; exact ⟨g, hb, hg⟩⟩

/-- **C35**, median. -/
theorem C35_median (w : ℕ) (hw : 1 ≤ w) (xs : List K) :
    ∃ out s, (runningMedianPostprocessor K w).fitTransform
        (RunningMedianPostprocessor.new K w) xs = .ok out s ∧ out.length = xs.length ∧
      ∀ i, i < xs.length → ∃ b, out[i]? = some b ∧
        medianOf (lastN w (xs.take (i + 1)) : List K) = some b := by
  obtain ⟨out, s, h1, h2, h3⟩ := meterPostprocessor_spec
    ((median_refines (K := K)).runningMeter w) (fun m b => medianOf m = some b)
    (fun l r h hl => medianValue_ok h (lastN_ne_nil hw hl)) xs
  exact ⟨out, s, h1, h2, h3⟩

end Exact

example : ((averagePostprocessor ℚ).fitTransform (AveragePostprocessor.new ℚ) [1, 2, 6]).out =
    .ok [1, 3/2, 3] := by decide +kernel
example : ((runningMedianPostprocessor ℚ 2).fitTransform
    (RunningMedianPostprocessor.new ℚ 2) [1, 9, 5, 0]).out = .ok [1, 5, 7, 5/2] := by
  decide +kernel
example : ((runningMaxPostprocessor ℚ 2).fitTransform
    (RunningMaxPostprocessor.new ℚ 2) [1, 9, 5, 0]).out =
    .ok [some 1, some 9, some 9, some 5] := by decide +kernel

/-! ### Z-scores -/

/-- `ZScorePostprocessor()`. -/
noncomputable abbrev zscorePlain :=
  zscorePostprocessor Real.sqrt (Meter.plain (varianceMeter ℝ)) (Meter.plain (averageMeter ℝ))
/-- Its initial state. -/
noncomputable abbrev zscorePlain.init :=
  ZScorePostprocessor.new ℝ
/-- `RunningZScorePostprocessor(w)`. -/
noncomputable abbrev zscoreRunning (w : ℕ) :=
  zscorePostprocessor Real.sqrt (Meter.running (varianceMeter ℝ) w)
    (Meter.running (averageMeter ℝ) w)
/-- Its initial state. -/
noncomputable abbrev zscoreRunning.init (w : ℕ) :=
  RunningZScorePostprocessor.new ℝ w

section
variable {σv σa : Type} {var : Meter σv ℝ ℝ} {avg : Meter σa ℝ ℝ} {keep : List ℝ → List ℝ}

/-- The invariant of a z-score postprocessor. -/
def zInv (hv : MeterSpec var keep VarianceValue) (ha : MeterSpec avg keep MeanValue)
    (l : List ℝ) (s : ZScoreState σv σa) : Prop := hv.R l s.varianceMeter ∧ ha.R l s.averageMeter

theorem z_fit (hv : MeterSpec var keep VarianceValue) (ha : MeterSpec avg keep MeanValue)
    {l : List ℝ} {s : ZScoreState σv σa} (h : zInv hv ha l s) (x : ℝ) :
    ∃ s', (zscorePostprocessor Real.sqrt var avg).fitPartial s x = .ok () s' ∧
      zInv hv ha (l ++ [x]) s' := by
  obtain ⟨v', hv1, hv2⟩ := hv.update h.1 x
  obtain ⟨a', ha1, ha2⟩ := ha.update h.2 x
  exact ⟨⟨v', a'⟩, by simp [zscorePostprocessor, hv1, ha1], hv2, ha2⟩

theorem z_transform (hv : MeterSpec var keep VarianceValue) (ha : MeterSpec avg keep MeanValue)
    {l : List ℝ} {s : ZScoreState σv σa} (h : zInv hv ha l s) (hk : keep l ≠ []) (x : ℝ) :
    ∃ s', (zscorePostprocessor Real.sqrt var avg).transformPartial s x =
      .ok (npDiv (x - meanOf (keep l : List ℝ)) √(varianceOf (keep l : List ℝ))) s' ∧
      zInv hv ha l s' := by
  have hvo := varianceValue_ok (hv.get_out h.1) hk
  have hvs := hv.get_state h.1
  have hao := meanValue_ok (ha.get_out h.2) hk
  have has := ha.get_state h.2
  cases hgv : var.get s.varianceMeter with
  | err e t => rw [hgv] at hvo; simp at hvo
  | ok v t =>
  cases hga : avg.get s.averageMeter with
  | err e u => rw [hga] at hao; simp at hao
  | ok a u =>
  rw [hgv] at hvo hvs
  rw [hga] at hao has
  simp only [Res.out_ok, Except.ok.injEq] at hvo hao
  subst hvo hao
  exact ⟨⟨t, u⟩, by simp [zscorePostprocessor, hgv, hga], hvs, has⟩

theorem npDiv_zscore {m : Multiset ℝ} {x : ℝ} (hx : x ∈ m) :
    npDiv (x - meanOf m) √(varianceOf m) = zscore m x := by
  unfold npDiv zscore
  by_cases hz : varianceOf m = 0
  · rw [if_pos (by rw [hz]; simp), if_pos hz, ← eq_mean_of_variance_zero hz hx]; simp
  · rw [if_neg (by rwa [Real.sqrt_eq_zero (varianceOf_nonneg m)]), if_neg hz]

theorem z_spec (hv : MeterSpec var keep VarianceValue) (ha : MeterSpec avg keep MeanValue)
    (hk : ∀ l x, x ∈ keep (l ++ [x])) (xs : List ℝ) :
    ∃ out s, (zscorePostprocessor Real.sqrt var avg).fitTransform (ZScoreState.init var avg) xs =
        .ok out s ∧ out.length = xs.length ∧
      ∀ i (hi : i < xs.length), out[i]? = some (zscore (keep (xs.take (i + 1)) : List ℝ) xs[i]) := by
  rw [Postprocessor.fitTransform_eq]
  obtain ⟨out, s, h1, -, h3, h4⟩ := inOrder_inv
    (f := (zscorePostprocessor Real.sqrt var avg).fitTransformPartial) (P := zInv hv ha)
    (Q := fun l b => ∀ x ∈ l.getLast?, b = zscore (keep l : List ℝ) x) (by
      intro seen s x h
      obtain ⟨s', hf, h'⟩ := z_fit hv ha h x
      have hmem := hk seen x
      obtain ⟨s'', ht, h''⟩ := z_transform hv ha h' (List.ne_nil_of_mem hmem) x
      refine ⟨npDiv (x - meanOf (keep (seen ++ [x]) : List ℝ))
        √(varianceOf (keep (seen ++ [x]) : List ℝ)), s'',
        by simp only [Postprocessor.fitTransformPartial, hf, ht, Res.bind_ok], h'', ?_⟩
      intro y hy
      simp at hy
      subst hy
      exact npDiv_zscore (by simpa using hmem)) xs [] (ZScoreState.init var avg) ⟨hv.init, ha.init⟩
  refine ⟨out, s, h1, h3, fun i hi => ?_⟩
  obtain ⟨b, hb, hq⟩ := h4 i hi
  rw [hb, hq xs[i] (by simp [List.getLast?_take, List.getElem?_eq_getElem hi])]
  simp

end

/-- **C36.** `ZScorePostprocessor().fit_transform(scores)[i]` is the standard score of
`scores[i]` against `scores[0..i]`. -/
theorem C36_zscore (xs : List ℝ) :
    ∃ out s, zscorePlain.fitTransform zscorePlain.init xs = .ok out s ∧ out.length = xs.length ∧
      ∀ i (hi : i < xs.length), out[i]? = some (zscore (xs.take (i + 1) : List ℝ) xs[i]) :=
  z_spec (variance_refines (K := ℝ)).plain (average_refines (K := ℝ)).plain (by simp) xs

/-- **C36**, running: against the last `w` of `scores[0..i]`. -/
theorem C36_running_zscore (w : ℕ) (hw : 1 ≤ w) (xs : List ℝ) :
    ∃ out s, (zscoreRunning w).fitTransform (zscoreRunning.init w) xs = .ok out s ∧
      out.length = xs.length ∧
      ∀ i (hi : i < xs.length), out[i]? = some (zscore (lastN w (xs.take (i + 1)) : List ℝ) xs[i]) :=
  z_spec ((variance_refines (K := ℝ)).runningMeter w) ((average_refines (K := ℝ)).runningMeter w)
    (mem_lastN_snoc hw) xs

/-- **C36**: after fitting any scores, `transform_partial(y)` of any score `y` is
`(y - mean)/std` when the fitted scores vary; if they do not, numpy's division by
zero gives `nan`, `inf` or `-inf` by the sign of `y - mean`. -/
theorem C36_transform (w : ℕ) (hw : 1 ≤ w) (xs : List ℝ) (hxs : xs ≠ []) (y : ℝ) :
    ∃ s s', (zscoreRunning w).fit (zscoreRunning.init w) xs = .ok () s ∧
      (zscoreRunning w).transformPartial s y =
        .ok (npDiv (y - meanOf (lastN w xs : List ℝ)) √(varianceOf (lastN w xs : List ℝ))) s' := by
  have hv := (variance_refines (K := ℝ)).runningMeter w
  have ha := (average_refines (K := ℝ)).runningMeter w
  obtain ⟨s, h1, h2⟩ := (zscoreRunning w).fit_inv (P := zInv hv ha)
    (fun seen s x h => z_fit hv ha h x) xs (zscoreRunning.init w) ⟨hv.init, ha.init⟩
  obtain ⟨s', h3, -⟩ := z_transform hv ha h2 (lastN_ne_nil hw hxs) y
  exact ⟨s, s', h1, h3⟩

/-- **C36**, case by case: `(y - mean)/std` if the fitted scores vary; if they do not, `nan` for
their common value, `inf` above it and `-inf` below it. -/
theorem C36_transform_cases (w : ℕ) (hw : 1 ≤ w) (xs : List ℝ) (hxs : xs ≠ []) (y : ℝ) :
    ∃ s s' r, (zscoreRunning w).fit (zscoreRunning.init w) xs = .ok () s ∧
      (zscoreRunning w).transformPartial s y = .ok r s' ∧
      ((0 : ℝ) < varianceOf ((lastN w xs : List ℝ) : Multiset ℝ) → r = .fin ((y - meanOf (lastN w xs : List ℝ)) /
        √(varianceOf (lastN w xs : List ℝ)))) ∧
      (varianceOf ((lastN w xs : List ℝ) : Multiset ℝ) = (0 : ℝ) →
        (y = meanOf (lastN w xs : List ℝ) → r = .nan) ∧
        (meanOf (lastN w xs : List ℝ) < y → r = .posInf) ∧
        (y < meanOf (lastN w xs : List ℝ) → r = .negInf)) := by
  obtain ⟨s, s', h1, h2⟩ := C36_transform w hw xs hxs y
  refine ⟨s, s', _, h1, h2, fun hv => ?_, fun hv => ⟨fun h => ?_, fun h => ?_, fun h => ?_⟩⟩
  · rw [npDiv, if_neg (Real.sqrt_pos.2 hv).ne']
  · rw [npDiv, if_pos (by rw [hv, Real.sqrt_zero]), if_neg (by rw [h, sub_self]; exact lt_irrefl _),
      if_neg (by rw [h, sub_self]; exact lt_irrefl _)]
  · rw [npDiv, if_pos (by rw [hv, Real.sqrt_zero]), if_pos (sub_pos.2 h)]
  · rw [npDiv, if_pos (by rw [hv, Real.sqrt_zero]), if_neg (not_lt.2 (sub_neg.2 h).le),
      if_pos (sub_neg.2 h)]

theorem zscore_affine {m : Multiset ℝ} (hm : m ≠ 0) {a : ℝ} (ha : 0 < a) (b x : ℝ) :
    zscore (m.map fun y => a * y + b) (a * x + b) = zscore m x := by
  unfold zscore
  rw [meanOf_affine hm, varianceOf_affine hm, Real.sqrt_mul (sq_nonneg a), Real.sqrt_sq ha.le]
  have h1 : a ^ 2 * varianceOf m = 0 ↔ varianceOf m = 0 := by simp [ha.ne']
  by_cases hz : varianceOf m = 0
  · rw [if_pos (h1.2 hz), if_pos hz]
  · rw [if_neg (mt h1.1 hz), if_neg hz]
    congr 1
    have : √(varianceOf m) ≠ 0 := by rwa [ne_eq, Real.sqrt_eq_zero (varianceOf_nonneg m)]
    field_simp
    ring

theorem out_eq_of_getElem? {α : Type*} {l l' : List α} (h : l.length = l'.length)
    (hi : ∀ i, i < l.length → l[i]? = l'[i]?) : l = l' := by
  apply List.ext_getElem? fun i => ?_
  by_cases h' : i < l.length
  · exact hi i h'
  · rw [List.getElem?_eq_none (by omega), List.getElem?_eq_none (by omega)]

theorem lastN_map {α β : Type*} (f : α → β) (w : ℕ) (l : List α) :
    lastN w (l.map f) = (lastN w l).map f := by simp [lastN]

/-- **C36**: mapping all scores by an increasing affine map changes nothing
(cumulative). -/
theorem C36_affine (xs : List ℝ) (a b : ℝ) (ha : 0 < a) :
    (zscorePlain.fitTransform zscorePlain.init (xs.map fun x => a * x + b)).out =
      (zscorePlain.fitTransform zscorePlain.init xs).out := by
  obtain ⟨o, s, h1, h2, h3⟩ := C36_zscore xs
  obtain ⟨o', s', h1', h2', h3'⟩ := C36_zscore (xs.map fun x => a * x + b)
  rw [h1, h1']
  simp only [Res.out_ok, Except.ok.injEq]
  refine out_eq_of_getElem? (by simp [h2, h2']) fun i hi => ?_
  have hi' : i < xs.length := by simpa [h2'] using hi
  rw [h3 i hi', h3' i (by simpa using hi')]
  have hne : ((xs.take (i + 1) : List ℝ) : Multiset ℝ) ≠ 0 := by
    simp; exact List.ne_nil_of_length_pos (by omega)
  rw [← zscore_affine hne ha b]
  simp [List.map_take]

/-- **C36**: the same for the running postprocessor. -/
theorem C36_running_affine (w : ℕ) (hw : 1 ≤ w) (xs : List ℝ) (a b : ℝ) (ha : 0 < a) :
    ((zscoreRunning w).fitTransform (zscoreRunning.init w) (xs.map fun x => a * x + b)).out =
      ((zscoreRunning w).fitTransform (zscoreRunning.init w) xs).out := by
  obtain ⟨o, s, h1, h2, h3⟩ := C36_running_zscore w hw xs
  obtain ⟨o', s', h1', h2', h3'⟩ := C36_running_zscore w hw (xs.map fun x => a * x + b)
  rw [h1, h1']
  simp only [Res.out_ok, Except.ok.injEq]
  refine out_eq_of_getElem? (by simp [h2, h2']) fun i hi => ?_
  have hi' : i < xs.length := by simpa [h2'] using hi
  rw [h3 i hi', h3' i (by simpa using hi')]
  have hne : ((lastN w (xs.take (i + 1)) : List ℝ) : Multiset ℝ) ≠ 0 := by
    simpa using lastN_ne_nil hw (l := xs.take (i + 1)) (List.ne_nil_of_length_pos (by simp; omega))
  rw [← zscore_affine hne ha b]
  simp [← List.map_take, lastN_map]

/-! The first output is always `nan`; with `[1, 3]` the second one is `1`. -/
example : zscore ((([1, 3] : List ℝ).take 1 : List ℝ) : Multiset ℝ) 1 = .nan := by
  simp [zscore, varianceOf, meanOf]
example : zscore (([1, 3] : List ℝ) : Multiset ℝ) 3 = .fin 1 := by
  norm_num [zscore, varianceOf, meanOf]

end Pysad
