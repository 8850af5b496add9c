import Verif.Props.Postprocessors
import Verif.Props.Calibration
import Verif.Proofs.Calls

/-! C179: postprocessors and calibrators whose `fit_partial` and `transform_partial` calls are mixed
in any way. -/

namespace Pysad

open Spec

namespace Spec

/-- The calls on a postprocessor: `.fit x` is `fit_partial(x)` and `.score y` is
`transform_partial(y)`. -/
def transforming {σ S T : Type*} (p : Postprocessor σ S T) : Detector σ S Unit T :=
  ⟨fun s x _ => p.fitPartial s x, p.transformPartial⟩

/-- After every history of calls, `fit_partial` succeeds and `transform_partial(y)` is answered as
`Q` says of the scores fitted so far and of `y`. -/
def AnswersBy {σ S T : Type*} (p : Postprocessor σ S T) (s0 : σ)
    (Q : List S → S → Answer T → Prop) : Prop :=
  ∀ cs : List (Call S Unit),
    (∀ x u, (call (transforming p) (calls (transforming p) s0 cs).2 (.fit x u)).1 = .done) ∧
    ∀ y, Q (fitted cs) y (call (transforming p) (calls (transforming p) s0 cs).2 (.score y)).1

/-- C179: after every history of calls, `transform_partial` is answered with a number; `number`
tells which values of the result type are numbers. -/
def AlwaysNumber {σ S T : Type*} (p : Postprocessor σ S T) (s0 : σ) (number : T → Prop) : Prop :=
  ∀ (cs : List (Call S Unit)) (y : S), ∃ v, number v ∧
    (call (transforming p) (calls (transforming p) s0 cs).2 (.score y)).1 = .value v

end Spec

namespace MixedCalls

theorem answersBy {σ S T : Type*} {p : Postprocessor σ S T} {s0 : σ}
    {Q : List S → S → Answer T → Prop} (P : List S → σ → Prop) (h0 : P [] s0)
    (hfit : ∀ l s x, P l s → ∃ s', p.fitPartial s x = .ok () s' ∧ P (l ++ [x]) s')
    (hask : ∀ l s y, P l s → Q l y (call (transforming p) s (.score y)).1 ∧
      P l (call (transforming p) s (.score y)).2) : AnswersBy p s0 Q := by
  intro cs
  have hinv : P (fitted cs) (calls (transforming p) s0 cs).2 := by
    refine calls_inv (P := fun cs s => P (fitted cs) s) ?_ s0 h0 cs
    intro cs s c h
    rw [fitted_append]
    cases c with
    | fit x u =>
      obtain ⟨s', h1, h2⟩ := hfit _ _ x h
      simpa [call, transforming, h1, fitted] using h2
    | score y => simpa [fitted] using (hask _ _ y h).2
  refine ⟨fun x u => ?_, fun y => (hask _ _ y hinv).1⟩
  obtain ⟨s', h1, -⟩ := hfit _ _ x hinv
  generalize (calls (transforming p) s0 cs).2 = s at h1
  simp [call, transforming, h1]

/-- What the caller sees of a reading. -/
def seen {T : Type*} : Except PyErr T → Answer T
  | .ok v => .value v
  | .error e => .raised e

theorem seen_out {σ T : Type*} (r : Res σ T) :
    (match r with
      | .ok v s => ((.value v : Answer T), s)
      | .err e s => (.raised e, s)) = (seen r.out, r.state) := by
  cases r <;> rfl

theorem call_score {σ S T : Type*} (p : Postprocessor σ S T) (s : σ) (y : S) :
    call (transforming p) s (.score y) =
      (seen (p.transformPartial s y).out, (p.transformPartial s y).state) := by
  simp only [call, transforming]
  exact seen_out _

theorem meter {σ α β : Type*} {m : Meter σ α β} {keep : List α → List α}
    {V : Multiset α → Except PyErr β → Prop} (hm : MeterSpec m keep V)
    {Q : List α → α → Answer β → Prop}
    (hQ : ∀ l y r, V (keep l : List α) r → Q l y (seen r)) :
    AnswersBy (meterPostprocessor m) m.init Q := by
  refine answersBy hm.R hm.init (fun l s x h => hm.update h x) fun l s y h => ?_
  rw [call_score]
  exact ⟨hQ _ _ _ (hm.get_out h), hm.get_state h⟩

theorem refute {σ S T : Type*} {p : Postprocessor σ S T} {s0 : σ}
    {Q : List S → S → Answer T → Prop} (h : AnswersBy p s0 Q) {number : T → Prop} (y : S)
    (hQ : ∀ v, number v → ¬ Q [] y (.value v)) : ¬ AlwaysNumber p s0 number := by
  intro hn
  obtain ⟨v, hv, he⟩ := hn [] y
  have := (h []).2 y
  rw [he] at this
  exact hQ v hv this

theorem seen_mean {K : Type*} [Field K] {l : List K} {r : Except PyErr K}
    (h : MeanValue (l : Multiset K) r) :
    (l = [] → seen r = .raised .zeroDivision) ∧ (l ≠ [] → seen r = .value (meanOf (l : Multiset K))) := by
  rcases h with ⟨h0, rfl⟩ | ⟨h0, rfl⟩
  · exact ⟨fun _ => rfl, fun h => absurd (by simpa using h0) h⟩
  · exact ⟨fun h => absurd (by simpa using h) h0, fun _ => rfl⟩

theorem seen_median {K : Type*} [Field K] [LinearOrder K] {l : List K} {r : Except PyErr K}
    (h : MedianValue (l : Multiset K) r) :
    (l = [] → seen r = .raised .indexError) ∧
      (l ≠ [] → ∃ b, medianOf (l : Multiset K) = some b ∧ seen r = .value b) := by
  refine ⟨?_, fun hl => ?_⟩
  · rintro rfl
    rcases h with ⟨h0, rfl⟩ | ⟨b, hb, rfl⟩
    · rfl
    · simp [medianOf] at hb
  · obtain ⟨b, rfl, hb⟩ := medianValue_ok h hl
    exact ⟨b, hb, rfl⟩

theorem seen_max {α : Type*} [LinearOrder α] {l : List α} {r : Except PyErr (Option α)}
    (h : MaxValue (l : Multiset α) r) :
    (l = [] → seen r = .value none) ∧
      (l ≠ [] → ∃ g, IsGreatestOf (l : Multiset α) (some g) ∧ seen r = .value (some g)) := by
  refine ⟨?_, fun hl => ?_⟩
  · rintro rfl
    obtain ⟨g, hg, rfl⟩ := h
    cases g with
    | none => rfl
    | some g => simp [IsGreatestOf] at hg
  · obtain ⟨b, rfl, g, rfl, hg⟩ := maxValue_ok h hl
    exact ⟨g, hg, rfl⟩

end MixedCalls

open MixedCalls

section Statistics
variable {K : Type*} [Field K] [LinearOrder K] [IsStrictOrderedRing K]

/-- **C179, `AveragePostprocessor`.** The mean of the scores fitted so far, if there are any. -/
theorem C179_average_partial :
    AnswersBy (averagePostprocessor K) (AveragePostprocessor.new K) fun l _ a =>
      (l = [] → a = .raised .zeroDivision) ∧ (l ≠ [] → a = .value (meanOf (l : Multiset K))) :=
  meter (average_refines (K := K)).plain fun _ _ _ h => seen_mean h

/-- **C179, `RunningAveragePostprocessor`.** The mean of the last `w` scores fitted so far. -/
theorem C179_running_average_partial (w : ℕ) :
    AnswersBy (runningAveragePostprocessor K w) (RunningAveragePostprocessor.new K w) fun l _ a =>
      (lastN w l = [] → a = .raised .zeroDivision) ∧
      (lastN w l ≠ [] → a = .value (meanOf (lastN w l : Multiset K))) :=
  meter ((average_refines (K := K)).runningMeter w) fun _ _ _ h => seen_mean h

/-- **C179, `MedianPostprocessor`.** -/
theorem C179_median_partial :
    AnswersBy (medianPostprocessor K) (MedianPostprocessor.new K) fun l _ a =>
      (l = [] → a = .raised .indexError) ∧
      (l ≠ [] → ∃ b, medianOf (l : Multiset K) = some b ∧ a = .value b) :=
  meter (median_refines (K := K)).plain fun _ _ _ h => seen_median h

/-- **C179, `RunningMedianPostprocessor`.** -/
theorem C179_running_median_partial (w : ℕ) :
    AnswersBy (runningMedianPostprocessor K w) (RunningMedianPostprocessor.new K w) fun l _ a =>
      (lastN w l = [] → a = .raised .indexError) ∧
      (lastN w l ≠ [] → ∃ b, medianOf (lastN w l : Multiset K) = some b ∧ a = .value b) :=
  meter ((median_refines (K := K)).runningMeter w) fun _ _ _ h => seen_median h

omit [Field K] [IsStrictOrderedRing K] in
/-- **C179, `MaxPostprocessor`.** The maximum; `none`, which stands for `-inf`, if there are no scores. -/
theorem C179_max_partial :
    AnswersBy (maxPostprocessor K) (MaxPostprocessor.new K) fun l _ a =>
      (l = [] → a = .value none) ∧
      (l ≠ [] → ∃ g, IsGreatestOf (l : Multiset K) (some g) ∧ a = .value (some g)) :=
  meter (max_refines (α := K)).plain fun _ _ _ h => seen_max h

omit [Field K] [IsStrictOrderedRing K] in
/-- **C179, `RunningMaxPostprocessor`.** -/
theorem C179_running_max_partial (w : ℕ) :
    AnswersBy (runningMaxPostprocessor K w) (RunningMaxPostprocessor.new K w) fun l _ a =>
      (lastN w l = [] → a = .value none) ∧
      (lastN w l ≠ [] → ∃ g, IsGreatestOf (lastN w l : Multiset K) (some g) ∧ a = .value (some g)) :=
  meter ((max_refines (α := K)).runningMeter w) fun _ _ _ h => seen_max h

/-- **C179 is false** of the postprocessors that report a statistic, whatever counts as a number
(other than `-inf` for the maximum). -/
theorem C179_statistics_refuted (w : ℕ) :
    ¬ AlwaysNumber (averagePostprocessor K) (AveragePostprocessor.new K) (fun _ => True) ∧
    ¬ AlwaysNumber (runningAveragePostprocessor K w) (RunningAveragePostprocessor.new K w)
        (fun _ => True) ∧
    ¬ AlwaysNumber (medianPostprocessor K) (MedianPostprocessor.new K) (fun _ => True) ∧
    ¬ AlwaysNumber (runningMedianPostprocessor K w) (RunningMedianPostprocessor.new K w)
        (fun _ => True) ∧
    ¬ AlwaysNumber (maxPostprocessor K) (MaxPostprocessor.new K) (fun v => v ≠ none) ∧
    ¬ AlwaysNumber (runningMaxPostprocessor K w) (RunningMaxPostprocessor.new K w)
        (fun v => v ≠ none) := by
  refine ⟨refute C179_average_partial 0 ?_, refute (C179_running_average_partial w) 0 ?_,
    refute C179_median_partial 0 ?_, refute (C179_running_median_partial w) 0 ?_,
    refute C179_max_partial 0 ?_, refute (C179_running_max_partial w) 0 ?_⟩ <;>
  · intro v hv h
    have := h.1 (by simp)
    simp_all

end Statistics

/-- Fit, ask, fit, ask: the mean of one score, then of two. -/
example : (calls (transforming (averagePostprocessor ℚ)) (AveragePostprocessor.new ℚ)
    [.score 9, .fit 1 none, .score 9, .fit 4 none, .score 9]).1 =
    [.raised .zeroDivision, .done, .value 1, .done, .value (5 / 2)] := by decide +kernel

/-! ### Standard scores -/

namespace MixedCalls

theorem varianceOf_const {m : Multiset ℝ} {c : ℝ} (h : ∀ x ∈ m, x = c) : varianceOf m = (0 : ℝ) := by
  obtain ⟨n, rfl⟩ : ∃ n, m = Multiset.replicate n c :=
    ⟨m.card, Multiset.eq_replicate.2 ⟨rfl, h⟩⟩
  rcases Nat.eq_zero_or_pos n with rfl | hn
  · simp [varianceOf, meanOf]
  · have hn' : (n : ℝ) ≠ 0 := by positivity
    simp [varianceOf, meanOf, hn']

theorem sqrt_variance {m : Multiset ℝ} :
    √(varianceOf m) = 0 ↔ ∀ u ∈ m, ∀ v ∈ m, u = v := by
  rw [Real.sqrt_eq_zero (varianceOf_nonneg m)]
  constructor
  · intro h u hu v hv
    rw [eq_mean_of_variance_zero h hu, eq_mean_of_variance_zero h hv]
  · intro h
    rcases m.empty_or_exists_mem with rfl | ⟨c, hc⟩
    · simp [varianceOf, meanOf]
    · exact varianceOf_const (c := c) fun x hx => h x hx c hc

section
variable {σv σa : Type} {var : Meter σv ℝ ℝ} {avg : Meter σa ℝ ℝ} {keep : List ℝ → List ℝ}

theorem zAnswers (hv : MeterSpec var keep VarianceValue) (ha : MeterSpec avg keep MeanValue) :
    AnswersBy (zscorePostprocessor Real.sqrt var avg) (ZScoreState.init var avg) fun l y a =>
      (keep l = [] → a = .raised .zeroDivision) ∧
      (keep l ≠ [] → a = .value
        (npDiv (y - meanOf (keep l : List ℝ)) √(varianceOf (keep l : List ℝ)))) := by
  refine answersBy (zInv hv ha) ⟨hv.init, ha.init⟩ (fun l s x h => z_fit hv ha h x) fun l s y h => ?_
  rw [call_score]
  by_cases hk : keep l = []
  · have hao := ha.get_out h.2
    have has := ha.get_state h.2
    rw [hk] at hao
    cases hga : avg.get s.averageMeter with
    | ok a u => rw [hga] at hao; simp [MeanValue, ReadsNonempty] at hao
    | err e u =>
      rw [hga] at hao has
      simp [MeanValue, ReadsNonempty] at hao
      refine ⟨⟨fun _ => ?_, fun hn => absurd hk hn⟩, ?_⟩
      · simp [zscorePostprocessor, hga, Res.mapState, Res.bind, seen, hao]
      · simpa [zscorePostprocessor, hga, Res.mapState, Res.bind, zInv] using ⟨h.1, has⟩
  · obtain ⟨s', h1, h2⟩ := z_transform hv ha h hk y
    rw [h1]
    exact ⟨⟨fun hn => absurd hn hk, fun _ => rfl⟩, h2⟩

end

/-- A standard score is a finite number exactly if two of the scores differ. -/
theorem zNumber {l : List ℝ} {y : ℝ} {a : Answer (Num ℝ)}
    (h : (l = [] → a = .raised .zeroDivision) ∧
      (l ≠ [] → a = .value (npDiv (y - meanOf (l : Multiset ℝ)) √(varianceOf (l : Multiset ℝ))))) :
    (∃ r, a = .value (.fin r)) ↔ ∃ u ∈ l, ∃ v ∈ l, u ≠ v := by
  by_cases hl : l = []
  · rw [h.1 hl]; simp [hl]
  · rw [h.2 hl, npDiv]
    split
    · rename_i hz
      have := sqrt_variance.1 hz
      simp only [Multiset.mem_coe] at this
      constructor
      · rintro ⟨r, hr⟩
        split_ifs at hr <;> simp at hr
      · rintro ⟨u, hu, v, hv, hne⟩
        exact absurd (this u hu v hv) hne
    · rename_i hz
      refine ⟨fun _ => ?_, fun _ => ⟨_, rfl⟩⟩
      by_contra hcon
      push Not at hcon
      exact hz (sqrt_variance.2 (by simpa using hcon))

end MixedCalls

/-- **C179, `ZScorePostprocessor`.** A number exactly if two of the scores fitted so far differ, and
then the standard score of `y`; an exception if there are no scores. -/
theorem C179_zscore_partial :
    AnswersBy zscorePlain zscorePlain.init fun l y a =>
      (l = [] → a = .raised .zeroDivision) ∧
      (l ≠ [] → a = .value (npDiv (y - meanOf (l : Multiset ℝ)) √(varianceOf (l : Multiset ℝ)))) ∧
      ((∃ r, a = .value (.fin r)) ↔ ∃ u ∈ l, ∃ v ∈ l, u ≠ v) := by
  intro cs
  have h := zAnswers (variance_refines (K := ℝ)).plain (average_refines (K := ℝ)).plain cs
  exact ⟨h.1, fun y => ⟨(h.2 y).1, (h.2 y).2, zNumber (h.2 y)⟩⟩

/-- **C179, `RunningZScorePostprocessor`.** ... of the last `w` scores. -/
theorem C179_running_zscore_partial (w : ℕ) :
    AnswersBy (zscoreRunning w) (zscoreRunning.init w) fun l y a =>
      (lastN w l = [] → a = .raised .zeroDivision) ∧
      (lastN w l ≠ [] → a = .value
        (npDiv (y - meanOf (lastN w l : Multiset ℝ)) √(varianceOf (lastN w l : Multiset ℝ)))) ∧
      ((∃ r, a = .value (.fin r)) ↔ ∃ u ∈ lastN w l, ∃ v ∈ lastN w l, u ≠ v) := by
  intro cs
  have h := zAnswers ((variance_refines (K := ℝ)).runningMeter w)
    ((average_refines (K := ℝ)).runningMeter w) cs
  exact ⟨h.1, fun y => ⟨(h.2 y).1, (h.2 y).2, zNumber (h.2 y)⟩⟩

/-- **C179 is false** of the z-score postprocessors. -/
theorem C179_zscore_refuted (w : ℕ) :
    ¬ AlwaysNumber zscorePlain zscorePlain.init (fun v => ∃ r, v = .fin r) ∧
    ¬ AlwaysNumber (zscoreRunning w) (zscoreRunning.init w) (fun v => ∃ r, v = .fin r) := by
  refine ⟨refute C179_zscore_partial 0 ?_, refute (C179_running_zscore_partial w) 0 ?_⟩ <;>
  · intro v hv h
    have := h.1 (by simp)
    simp_all

/-! ### Calibrators -/

namespace MixedCalls

/-- The scores in the window of a conformal calibrator that has seen `l`. -/
def Holds {α : Type*} (windowed : Bool) (w : ℕ) (l : List α) (s : ConformalState α) : Prop :=
  s = if windowed then .windowed ((Window.new w).updates l)
    else .unlimited ((UnlimitedWindow.new).updates l)

theorem holds_contents {α : Type*} {windowed : Bool} {w : ℕ} {l : List α} {s : ConformalState α}
    (h : Holds windowed w l s) : Conformal.contents s = retained windowed w l := by
  cases windowed <;> simp only [Holds, if_true, if_false, Bool.false_eq_true] at h <;> subst h
  · exact C02_unlimited_all l
  · exact C01_window_last w l

end MixedCalls

/-- **C179, `ConformalProbabilityCalibrator`.** The fraction of the retained scores above `y`; `nan`
if there are no retained scores. -/
theorem C179_conformal_partial {α : Type*} [LinearOrder α] {K : Type*} [Field K] [LinearOrder K]
    [IsStrictOrderedRing K] (windowed : Bool) (w : ℕ) :
    AnswersBy (Conformal.postprocessor (α := α) K) (Conformal.new windowed w) fun l y a =>
      (retained windowed w l = [] → a = .value .nan) ∧
      (retained windowed w l ≠ [] → a = .value (.fin (tailFraction K (retained windowed w l) y))) := by
  refine answersBy (Holds windowed w) (by cases windowed <;> rfl) (fun l s x h => ⟨_, rfl, ?_⟩)
    fun l s y h => ⟨?_, h⟩
  · cases windowed <;> simp only [Holds, if_true, if_false, Bool.false_eq_true] at h ⊢ <;> subst h <;>
      simp [Conformal.fitPartial, Window.updates, UnlimitedWindow.updates]
  · simp only [call, transforming, Conformal.postprocessor, Conformal.transformPartial,
      holds_contents h]
    refine ⟨fun hn => by simp [hn, npDiv], fun hn => ?_⟩
    have hlen : ((retained windowed w l).length : K) ≠ 0 := by
      have := List.length_pos_iff.2 hn
      exact_mod_cast this.ne'
    simp only [npDiv, if_neg hlen, tailFraction, List.countP_eq_length_filter]

/-- **C179 is false** of the conformal calibrator. -/
theorem C179_conformal_refuted {α : Type*} [LinearOrder α] [Inhabited α] {K : Type*} [Field K]
    [LinearOrder K] [IsStrictOrderedRing K] (windowed : Bool) (w : ℕ) :
    ¬ AlwaysNumber (Conformal.postprocessor (α := α) K) (Conformal.new windowed w)
      (fun v => v ≠ .nan) := by
  refine refute (C179_conformal_partial windowed w) default fun v hv h => ?_
  have := h.1 (by cases windowed <;> simp [retained])
  simp_all

namespace MixedCalls
section
variable {σa σv : Type} {avg : Meter σa ℝ ℝ} {var : Meter σv ℝ ℝ} {keepA keepV : List ℝ → List ℝ}

theorem gaussAnswers (erfc : ℝ → ℝ) (ha : MeterSpec avg keepA MeanValue)
    (hv : MeterSpec var keepV VarianceValue) (hk : ∀ l, keepA l = [] ↔ keepV l = []) :
    AnswersBy (gaussianTail Real.sqrt erfc avg var) ⟨avg.init, var.init⟩ fun l y a =>
      (keepA l = [] → a = .raised .zeroDivision) ∧
      (keepA l ≠ [] → a = .value (1 - 1 / 2 * erfc ((y - meanOf (keepA l : List ℝ)) /
        (if 0 < varianceOf (K := ℝ) (keepV l : List ℝ) then
          √(varianceOf (K := ℝ) (keepV l : List ℝ)) else 1) / √2))) := by
  refine answersBy (fun l s => ha.R l s.avgMeter ∧ hv.R l s.varMeter) ⟨ha.init, hv.init⟩ ?_ ?_
  · intro l s x h
    obtain ⟨a', ha1, ha2⟩ := ha.update h.1 x
    obtain ⟨v', hv1, hv2⟩ := hv.update h.2 x
    exact ⟨⟨a', v'⟩, by simp [gaussianTail, hv1, ha1], ha2, hv2⟩
  · intro l s y h
    rw [call_score]
    have has := ha.get_state h.1
    have hvs := hv.get_state h.2
    by_cases hl : keepA l = []
    · have hao := ha.get_out h.1
      rw [hl] at hao
      cases hga : avg.get s.avgMeter with
      | ok a u => rw [hga] at hao; simp [MeanValue, ReadsNonempty] at hao
      | err e u =>
        rw [hga] at hao has
        simp [MeanValue, ReadsNonempty] at hao
        refine ⟨⟨fun _ => ?_, fun hn => absurd hl hn⟩, ?_⟩
        · simp [gaussianTail, hga, Res.mapState, Res.bind, seen, hao]
        · simpa [gaussianTail, hga, Res.mapState, Res.bind] using ⟨has, h.2⟩
    · have hl' : keepV l ≠ [] := fun hn => hl ((hk l).2 hn)
      refine ⟨⟨fun hn => absurd hn hl, fun _ => ?_⟩, ?_⟩
      · rw [gauss_transform erfc ha hv h hl hl' y]
        rfl
      · have hvo := varianceValue_ok (hv.get_out h.2) hl'
        have hao := meanValue_ok (ha.get_out h.1) hl
        cases hgv : var.get s.varMeter with
        | err e t => rw [hgv] at hvo; simp at hvo
        | ok v t =>
        cases hga : avg.get s.avgMeter with
        | err e u => rw [hga] at hao; simp at hao
        | ok a u =>
        rw [hgv] at hvs
        rw [hga] at has
        simpa [gaussianTail, hgv, hga] using ⟨has, hvs⟩

end
end MixedCalls

/-- **C179, `GaussianTailProbabilityCalibrator` with running statistics.** The Gaussian tail at the
mean and the deviation (1 if it is 0) of the last `w` scores. -/
theorem C179_gauss_partial (erfc : ℝ → ℝ) (w : ℕ) :
    AnswersBy (gaussianTailRunning Real.sqrt erfc w) (gaussianTailRunning.init w) fun l y a =>
      (lastN w l = [] → a = .raised .zeroDivision) ∧
      (lastN w l ≠ [] → a = .value (1 - 1 / 2 * erfc ((y - meanOf (lastN w l : Multiset ℝ)) /
        (if 0 < varianceOf (K := ℝ) (lastN w l : Multiset ℝ) then
          √(varianceOf (K := ℝ) (lastN w l : Multiset ℝ)) else 1) / √2))) :=
  gaussAnswers erfc ((average_refines (K := ℝ)).runningMeter w)
    ((variance_refines (K := ℝ)).runningMeter w) fun _ => Iff.rfl

/-- **C179, `GaussianTailProbabilityCalibrator` without.** The mean of all scores, but the deviation
of the last `w`. -/
theorem C179_gauss_plain_partial (erfc : ℝ → ℝ) (w : ℕ) (hw : 1 ≤ w) :
    AnswersBy (gaussianTailPlain Real.sqrt erfc w) (gaussianTailPlain.init w) fun l y a =>
      (l = [] → a = .raised .zeroDivision) ∧
      (l ≠ [] → a = .value (1 - 1 / 2 * erfc ((y - meanOf (l : Multiset ℝ)) /
        (if 0 < varianceOf (K := ℝ) (lastN w l : Multiset ℝ) then
          √(varianceOf (K := ℝ) (lastN w l : Multiset ℝ)) else 1) / √2))) :=
  gaussAnswers erfc (average_refines (K := ℝ)).plain ((variance_refines (K := ℝ)).runningMeter w)
    fun l => ⟨fun h => by rw [show l = [] from h]; simp, fun h => by
      by_contra hn
      exact lastN_ne_nil hw hn h⟩

/-- **C179 is false** of the Gaussian-tail calibrator. -/
theorem C179_gauss_refuted (erfc : ℝ → ℝ) (w : ℕ) :
    ¬ AlwaysNumber (gaussianTailRunning Real.sqrt erfc w) (gaussianTailRunning.init w)
      (fun _ => True) ∧
    (1 ≤ w → ¬ AlwaysNumber (gaussianTailPlain Real.sqrt erfc w) (gaussianTailPlain.init w)
      (fun _ => True)) := by
  refine ⟨refute (C179_gauss_partial erfc w) 0 ?_, fun hw =>
    refute (C179_gauss_plain_partial erfc w hw) 0 ?_⟩ <;>
  · intro v hv h
    have := h.1 (by simp)
    simp_all

/-- A calibrator asked before the first fit, and after two. -/
example : (calls (transforming (Conformal.postprocessor (α := ℤ) ℚ)) (Conformal.new true 2)
    [.score 9, .fit 1 none, .fit 4 none, .score 3]).1 =
    [.value .nan, .done, .done, .value (.fin (1 / 2))] := by decide +kernel

end Pysad
