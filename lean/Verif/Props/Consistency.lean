import Mathlib.Probability.StrongLaw
import Mathlib.Probability.HasLawExists
import Mathlib.Probability.Moments.Variance
import Mathlib.Probability.Distributions.Gaussian.Real
import Verif.Props.Deviation
import Verif.Props.Postprocessors
import Verif.Props.Calibration
import Verif.Props.Statistics

/-! Property C194: what is computed from the whole stream converges to what it estimates. -/

namespace Pysad

open Spec MeasureTheory ProbabilityTheory Filter
open scoped Topology

namespace Spec
variable {Ω : Type*} [MeasurableSpace Ω]

/-- The first `n` values of a random stream. -/
def observed {Ω : Type*} (X : ℕ → Ω → ℝ) (ω : Ω) (n : ℕ) : List ℝ := (List.range n).map fun i => X i ω

/-- The values of the stream are drawn independently of each other from one distribution. -/
structure IndependentDraws (P : Measure Ω) (X : ℕ → Ω → ℝ) : Prop where
  independent : Pairwise fun i j => IndepFun (X i) (X j) P
  identical : ∀ i, IdentDistrib (X i) (X 0) P P

/-- From some point on the answers are numbers (written as `wrap` does), and they converge to `a`. -/
def AnswersConverge {ρ : Type*} (wrap : ℝ → ρ) (f : ℕ → Except PyErr ρ) (a : ℝ) : Prop :=
  ∃ g : ℕ → ℝ, (∀ᶠ n in atTop, f n = .ok (wrap (g n))) ∧ Tendsto g atTop (𝓝 a)

/-- `m` is the only median of the random variable `Y`: less than half lies at or below any smaller number,
less than half at or above any greater one. -/
def OnlyMedian (P : Measure Ω) (Y : Ω → ℝ) (m : ℝ) : Prop :=
  (∀ a < m, P.real {ω | Y ω ≤ a} < 1 / 2) ∧ ∀ b > m, P.real {ω | b ≤ Y ω} < 1 / 2

end Spec

section
variable {Ω : Type*} [MeasurableSpace Ω] {P : Measure Ω} {X : ℕ → Ω → ℝ}

omit [MeasurableSpace Ω] in
theorem observed_length (X : ℕ → Ω → ℝ) (ω : Ω) (n : ℕ) : (observed X ω n).length = n := by simp [observed]

omit [MeasurableSpace Ω] in
theorem observed_ne_nil (X : ℕ → Ω → ℝ) (ω : Ω) {n : ℕ} (hn : 1 ≤ n) : observed X ω n ≠ [] := by
  rw [← List.length_pos_iff, observed_length]
  exact hn

omit [MeasurableSpace Ω] in
theorem observed_sum (X : ℕ → Ω → ℝ) (ω : Ω) (n : ℕ) (f : ℝ → ℝ) :
    ((observed X ω n).map f).sum = ∑ i ∈ Finset.range n, f (X i ω) := by
  induction n with
  | zero => simp [observed]
  | succ n ih =>
    rw [Finset.sum_range_succ, ← ih]
    simp [observed, List.range_succ]

omit [MeasurableSpace Ω] in
theorem observed_countP (X : ℕ → Ω → ℝ) (ω : Ω) (n : ℕ) (p : ℝ → Prop) [DecidablePred p] :
    ((observed X ω n).countP fun x => decide (p x) : ℝ) = ∑ i ∈ Finset.range n, if p (X i ω) then (1 : ℝ) else 0 := by
  induction n with
  | zero => simp [observed]
  | succ n ih =>
    rw [Finset.sum_range_succ, ← ih]
    simp [observed, List.range_succ, List.countP_singleton]

/-- The strong law for a function of the values. -/
theorem law_comp (h : IndependentDraws P X) {f : ℝ → ℝ} (hf : Measurable f)
    (hint : Integrable (fun ω => f (X 0 ω)) P) :
    ∀ᵐ ω ∂P, Tendsto (fun n : ℕ => (∑ i ∈ Finset.range n, f (X i ω)) / n) atTop (𝓝 (∫ ω, f (X 0 ω) ∂P)) :=
  strong_law_ae_real (fun i ω => f (X i ω)) hint
    (fun _ _ hij => (h.independent hij).comp hf hf) fun i => (h.identical i).comp hf

/-- The strong law for a frequency. -/
theorem law_frequency [IsProbabilityMeasure P] (h : IndependentDraws P X) (p : ℝ → Prop) [DecidablePred p]
    (hp : MeasurableSet {x | p x}) :
    ∀ᵐ ω ∂P, Tendsto (fun n : ℕ => ((observed X ω n).countP fun x => decide (p x) : ℝ) / n) atTop
      (𝓝 (P.real {ω | p (X 0 ω)})) := by
  have hm : Measurable fun x => if p x then (1 : ℝ) else 0 := Measurable.ite hp measurable_const measurable_const
  have hX : AEMeasurable (X 0) P := (h.identical 0).aemeasurable_fst
  have hN : NullMeasurableSet {ω | p (X 0 ω)} P := hX.nullMeasurable hp
  have hi : Integrable (fun ω => if p (X 0 ω) then (1 : ℝ) else 0) P := by
    refine Integrable.of_bound (hm.comp_aemeasurable hX).aestronglyMeasurable 1 (Eventually.of_forall fun ω => ?_)
    split <;> simp
  have hv : ∫ ω, (if p (X 0 ω) then (1 : ℝ) else 0) ∂P = P.real {ω | p (X 0 ω)} := by
    have : (fun ω => if p (X 0 ω) then (1 : ℝ) else 0) = Set.indicator {ω | p (X 0 ω)} fun _ => 1 := by
      funext ω
      simp [Set.indicator]
    rw [this, integral_indicator₀ hN]
    simp [Measure.real]
  filter_upwards [law_comp h hm hi] with ω hω
  rw [hv] at hω
  simpa only [observed_countP] using hω

/-! ### Mean and variance -/

theorem mean_converges (h : IndependentDraws P X) (hint : Integrable (X 0) P) :
    ∀ᵐ ω ∂P, Tendsto (fun n => meanOf (observed X ω n : Multiset ℝ)) atTop (𝓝 (∫ ω, X 0 ω ∂P)) := by
  filter_upwards [law_comp h measurable_id hint] with ω hω
  refine hω.congr fun n => ?_
  have := observed_sum X ω n id
  rw [List.map_id] at this
  simp only [meanOf, Multiset.sum_coe, Multiset.coe_card, observed_length, this]

theorem variance_converges [IsProbabilityMeasure P] (h : IndependentDraws P X) (h2 : MemLp (X 0) 2 P) :
    ∀ᵐ ω ∂P, Tendsto (fun n => varianceOf (observed X ω n : Multiset ℝ)) atTop (𝓝 (Var[X 0; P])) := by
  have hi : Integrable (X 0) P := h2.integrable (by norm_num)
  filter_upwards [law_comp h measurable_id hi, law_comp h (measurable_id.pow_const 2) h2.integrable_sq] with ω h1 h2'
  rw [variance_eq_sub h2]
  have hlim := h2'.sub (h1.pow 2)
  refine Tendsto.congr' ?_ hlim
  filter_upwards [eventually_ge_atTop 1] with n hn
  have hne : (observed X ω n : Multiset ℝ) ≠ 0 := by
    simpa using observed_ne_nil X ω hn
  have hs := observed_sum X ω n id
  rw [List.map_id] at hs
  rw [variance_formula hne, Multiset.map_coe, Multiset.sum_coe, Multiset.sum_coe, Multiset.coe_card,
    observed_length, observed_sum X ω n (· ^ 2), hs]
  have : (n : ℝ) ≠ 0 := by positivity
  simp only [id]
  field_simp

/-- **C194.** The reading of `AverageMeter` converges, almost surely, to the expectation of the values. -/
theorem C194_average (h : IndependentDraws P X) (hint : Integrable (X 0) P) :
    ∀ᵐ ω ∂P, AnswersConverge id (fun n => ((averageMeter ℝ).get ((averageMeter ℝ).updates (averageMeter ℝ).init
      (observed X ω n))).out) (∫ ω, X 0 ω ∂P) := by
  filter_upwards [mean_converges h hint] with ω hω
  refine ⟨_, ?_, hω⟩
  filter_upwards [eventually_ge_atTop 1] with n hn
  have hr := average_refines.updates (observed X ω n) 0 _ (average_refines (K := ℝ)).init
  rw [zero_add] at hr
  exact meanValue_ok (average_refines.get_out hr) (observed_ne_nil X ω hn)

/-- **C194.** The reading of `VarianceMeter` converges, almost surely, to the variance. -/
theorem C194_variance [IsProbabilityMeasure P] (h : IndependentDraws P X) (h2 : MemLp (X 0) 2 P) :
    ∀ᵐ ω ∂P, AnswersConverge id (fun n => ((varianceMeter ℝ).get ((varianceMeter ℝ).updates (varianceMeter ℝ).init
      (observed X ω n))).out) (Var[X 0; P]) := by
  filter_upwards [variance_converges h h2] with ω hω
  refine ⟨_, ?_, hω⟩
  filter_upwards [eventually_ge_atTop 1] with n hn
  have hr := variance_refines.updates (observed X ω n) 0 _ (variance_refines (K := ℝ)).init
  rw [zero_add] at hr
  exact varianceValue_ok (variance_refines.get_out hr) (observed_ne_nil X ω hn)

/-- **C194.** `ZScorePostprocessor` converges, almost surely, to the standard score. -/
theorem C194_zscore [IsProbabilityMeasure P] (h : IndependentDraws P X) (h2 : MemLp (X 0) 2 P)
    (hv : Var[X 0; P] ≠ 0) (y : ℝ) :
    ∀ᵐ ω ∂P, AnswersConverge Num.fin (fun n => (zscorePlain.transformPartial
      (zscorePlain.fit zscorePlain.init (observed X ω n)).state y).out)
      ((y - ∫ ω, X 0 ω ∂P) / √(Var[X 0; P])) := by
  have hpos : 0 < Var[X 0; P] := lt_of_le_of_ne (variance_nonneg _ _) hv.symm
  filter_upwards [mean_converges h (h2.integrable (by norm_num)), variance_converges h h2] with ω hm hs
  refine ⟨fun n => (y - meanOf (observed X ω n : Multiset ℝ)) / √(varianceOf (observed X ω n : Multiset ℝ)), ?_,
    (tendsto_const_nhds.sub hm).div ((Real.continuous_sqrt.tendsto _).comp hs) (Real.sqrt_pos.2 hpos).ne'⟩
  filter_upwards [eventually_ge_atTop 1, hs.eventually (lt_mem_nhds hpos)] with n hn hvn
  have rv := (variance_refines (K := ℝ)).plain
  have ra := (average_refines (K := ℝ)).plain
  obtain ⟨s, h1, h2⟩ := zscorePlain.fit_inv (P := zInv rv ra)
    (fun seen s x h => z_fit rv ra h x) (observed X ω n) zscorePlain.init ⟨rv.init, ra.init⟩
  obtain ⟨s', h3, -⟩ := z_transform rv ra h2 (observed_ne_nil X ω hn) y
  simp only [id] at h3
  rw [h1, Res.state_ok, h3, Res.out_ok, npDiv, if_neg (Real.sqrt_pos.2 hvn).ne']

/-- **C194.** `ConformalProbabilityCalibrator(windowed=False)` converges, almost surely, to the probability of
a greater score. -/
theorem C194_conformal [IsProbabilityMeasure P] (h : IndependentDraws P X) (w : ℕ) (y : ℝ) :
    ∀ᵐ ω ∂P, AnswersConverge Num.fin (fun n => ((Conformal.postprocessor ℝ).transformPartial
      ((Conformal.postprocessor ℝ).fit (Conformal.new false w) (observed X ω n)).state y).out)
      (P.real {ω | y < X 0 ω}) := by
  filter_upwards [law_frequency h (fun x => y < x) measurableSet_Ioi] with ω hω
  refine ⟨_, ?_, hω⟩
  filter_upwards [eventually_ge_atTop 1] with n hn
  obtain ⟨s, h1, h2⟩ := C37_conformal (K := ℝ) false w (observed X ω n) (by simpa [retained] using observed_ne_nil X ω hn)
  rw [h1, Res.state_ok, h2 y, Res.out_ok]
  simp [tailFraction, retained, observed_length]

/-! ### Medians -/

/-- Medians converge when the frequencies on both sides are less than one half. -/
theorem median_tendsto {l : ℕ → List ℝ} {g : ℕ → ℝ} {m : ℝ}
    (hg : ∀ᶠ n in atTop, medianOf (l n : Multiset ℝ) = some (g n))
    (hlo : ∀ a < m, ∀ᶠ n in atTop, 2 * (l n).countP (fun x => decide (x ≤ a)) < (l n).length)
    (hhi : ∀ b > m, ∀ᶠ n in atTop, 2 * (l n).countP (fun x => decide (b ≤ x)) < (l n).length) :
    Tendsto g atTop (𝓝 m) := by
  refine tendsto_order.2 ⟨fun a ha => ?_, fun b hb => ?_⟩
  · filter_upwards [hg, hlo a ha] with n h1 h2
    by_contra hc
    have h3 := (C09_median_halves _ _ h1).1
    rw [Multiset.coe_card, Multiset.filter_coe, Multiset.coe_card, ← List.countP_eq_length_filter] at h3
    have h4 : (l n).countP (fun x => decide (x ≤ g n)) ≤ (l n).countP (fun x => decide (x ≤ a)) :=
      List.countP_mono_left fun x _ hx => by
        simp only [decide_eq_true_eq] at hx ⊢
        exact hx.trans (not_lt.1 hc)
    omega
  · filter_upwards [hg, hhi b hb] with n h1 h2
    by_contra hc
    have h3 := (C09_median_halves _ _ h1).2
    rw [Multiset.coe_card, Multiset.filter_coe, Multiset.coe_card, ← List.countP_eq_length_filter] at h3
    have h4 : (l n).countP (fun x => decide (g n ≤ x)) ≤ (l n).countP (fun x => decide (b ≤ x)) :=
      List.countP_mono_left fun x _ hx => by
        simp only [decide_eq_true_eq] at hx ⊢
        exact (not_lt.1 hc).trans hx
    omega

private theorem frequency_lt {c : ℕ → ℕ} {p : ℝ} (h : Tendsto (fun n => (c n : ℝ) / n) atTop (𝓝 p)) (hp : p < 1 / 2)
    (N : ℕ) : ∀ᶠ n in atTop, 2 * (N + c n) < n := by
  obtain ⟨q, hq1, hq2⟩ := exists_between hp
  obtain ⟨M, hM⟩ := exists_nat_gt (N / (1 / 2 - q))
  filter_upwards [h.eventually (gt_mem_nhds hq1), eventually_ge_atTop (M + 1)] with n h1 h2
  have hn : (0 : ℝ) < n := by
    have : 0 < n := by omega
    exact_mod_cast this
  rw [div_lt_iff₀ hn] at h1
  have h3 : (M : ℝ) ≤ n := by
    have : M ≤ n := by omega
    exact_mod_cast this
  have h4 : (N : ℝ) < n * (1 / 2 - q) := by
    rw [div_lt_iff₀ (by linarith)] at hM
    nlinarith
  have : (2 * (N + c n) : ℝ) < n := by linarith
  exact_mod_cast this

/-- For a random variable with only one median, all frequencies needed are eventually less than one half. -/
theorem frequencies [IsProbabilityMeasure P] (h : IndependentDraws P X) {f : ℝ → ℝ} (hf : Measurable f) {m : ℝ}
    (hm : OnlyMedian P (fun ω => f (X 0 ω)) m) :
    ∀ᵐ ω ∂P, (∀ a < m, ∀ N, ∀ᶠ n in atTop, 2 * (N + (observed X ω n).countP (fun x => decide (f x ≤ a))) < n) ∧
      ∀ b > m, ∀ N, ∀ᶠ n in atTop, 2 * (N + (observed X ω n).countP (fun x => decide (b ≤ f x))) < n := by
  have h1 : ∀ k : ℕ, ∀ᵐ ω ∂P, Tendsto (fun n : ℕ => ((observed X ω n).countP
      (fun x => decide (f x ≤ m - 1 / (k + 1))) : ℝ) / n) atTop (𝓝 (P.real {ω | f (X 0 ω) ≤ m - 1 / (k + 1)})) := fun k =>
    law_frequency h (fun x => f x ≤ m - 1 / (k + 1)) (hf measurableSet_Iic)
  have h2 : ∀ k : ℕ, ∀ᵐ ω ∂P, Tendsto (fun n : ℕ => ((observed X ω n).countP
      (fun x => decide (m + 1 / (k + 1) ≤ f x)) : ℝ) / n) atTop (𝓝 (P.real {ω | m + 1 / (k + 1) ≤ f (X 0 ω)})) := fun k =>
    law_frequency h (fun x => m + 1 / (k + 1) ≤ f x) (hf measurableSet_Ici)
  filter_upwards [ae_all_iff.2 h1, ae_all_iff.2 h2] with ω h1 h2
  refine ⟨fun a ha N => ?_, fun b hb N => ?_⟩
  · obtain ⟨k, hk⟩ := exists_nat_one_div_lt (sub_pos.2 ha)
    have hpos : (0 : ℝ) < 1 / (k + 1) := by positivity
    filter_upwards [frequency_lt (h1 k) (hm.1 _ (by linarith)) N] with n hn
    have : (observed X ω n).countP (fun x => decide (f x ≤ a)) ≤
        (observed X ω n).countP (fun x => decide (f x ≤ m - 1 / (k + 1))) :=
      List.countP_mono_left fun x _ hx => by
        simp only [decide_eq_true_eq] at hx ⊢
        linarith
    omega
  · obtain ⟨k, hk⟩ := exists_nat_one_div_lt (sub_pos.2 hb)
    have hpos : (0 : ℝ) < 1 / (k + 1) := by positivity
    filter_upwards [frequency_lt (h2 k) (hm.2 _ (by linarith)) N] with n hn
    have : (observed X ω n).countP (fun x => decide (b ≤ f x)) ≤
        (observed X ω n).countP (fun x => decide (m + 1 / (k + 1) ≤ f x)) :=
      List.countP_mono_left fun x _ hx => by
        simp only [decide_eq_true_eq] at hx ⊢
        linarith
    omega

theorem median_converges [IsProbabilityMeasure P] (h : IndependentDraws P X) {m : ℝ} (hm : OnlyMedian P (X 0) m) :
    ∀ᵐ ω ∂P, ∀ g : ℕ → ℝ, (∀ᶠ n in atTop, medianOf (observed X ω n : Multiset ℝ) = some (g n)) →
      Tendsto g atTop (𝓝 m) := by
  filter_upwards [frequencies h measurable_id hm] with ω hω g hg
  refine median_tendsto hg (fun a ha => ?_) fun b hb => ?_
  · filter_upwards [hω.1 a ha 0] with n hn
    rw [observed_length]
    simpa using hn
  · filter_upwards [hω.2 b hb 0] with n hn
    rw [observed_length]
    simpa using hn

/-- **C194.** The reading of `MedianMeter` converges, almost surely, to the median, if there is only one. -/
theorem C194_median [IsProbabilityMeasure P] (h : IndependentDraws P X) {m : ℝ} (hm : OnlyMedian P (X 0) m) :
    ∀ᵐ ω ∂P, AnswersConverge id (fun n => ((medianMeter ℝ).get ((medianMeter ℝ).updates (medianMeter ℝ).init
      (observed X ω n))).out) m := by
  filter_upwards [median_converges h hm] with ω hω
  have key : ∀ n, ∃ b, 1 ≤ n → medianOf (observed X ω n : Multiset ℝ) = some b ∧
      ((medianMeter ℝ).get ((medianMeter ℝ).updates (medianMeter ℝ).init (observed X ω n))).out = .ok b := by
    intro n
    by_cases hn : 1 ≤ n
    · have hr := median_refines.updates (observed X ω n) 0 _ (median_refines (K := ℝ)).init
      rw [zero_add] at hr
      rcases median_refines.get_out hr with ⟨h0, _⟩ | ⟨b, h1, h2⟩
      · exact absurd (by simpa using h0) (observed_ne_nil X ω hn)
      · exact ⟨b, fun _ => ⟨h1, h2⟩⟩
    · exact ⟨0, fun h => absurd h hn⟩
  choose g hg using key
  refine ⟨g, ?_, hω g ?_⟩
  · filter_upwards [eventually_ge_atTop 1] with n hn
    exact (hg n hn).2
  · filter_upwards [eventually_ge_atTop 1] with n hn
    exact (hg n hn).1

/-! ### The deviation detectors -/

/-- Fits of the first `n` values, one instance with one feature each. -/
def Spec.fitsOf {β : Type*} (X : ℕ → Ω → ℝ) (ω : Ω) (n : ℕ) : List (Call (List ℝ) β) :=
  (observed X ω n).map fun x => .fit [x] none

omit [MeasurableSpace Ω] in
theorem univariate_fits {β : Type*} (X : ℕ → Ω → ℝ) (ω : Ω) (n : ℕ) :
    univariate (fitted (fitsOf (β := β) X ω n)) = observed X ω n := by
  unfold fitsOf
  induction observed X ω n with
  | nil => rfl
  | cons x l ih =>
    rw [List.map_cons, fitted]
    simp only [univariate, List.filterMap_cons] at ih ⊢
    rw [ih]

/-- **C194.** The score of `StandardAbsoluteDeviation` with the mean converges, almost surely, to the number of
standard deviations by which the instance differs from the expectation. -/
theorem C194_deviation_mean {β : Type*} [IsProbabilityMeasure P] (h : IndependentDraws P X) (h2 : MemLp (X 0) 2 P)
    (x : ℝ) :
    ∀ᵐ ω ∂P, AnswersConverge (fun r => [Num.fin r]) (fun n =>
      ((standardAbsoluteDeviation (β := β) Real.sqrt (averageMeter ℝ)).scorePartial
        (calls (standardAbsoluteDeviation Real.sqrt (averageMeter ℝ)) (SadState.new (averageMeter ℝ) true)
          (fitsOf (β := β) X ω n)).2 [x]).out)
      |(x - ∫ ω, X 0 ω ∂P) / (√(Var[X 0; P]) + 1 / 10 ^ 10)| := by
  filter_upwards [mean_converges h (h2.integrable (by norm_num)), variance_converges h h2] with ω hm hs
  refine ⟨_, ?_, ((tendsto_const_nhds.sub hm).div (((Real.continuous_sqrt.tendsto _).comp hs).add tendsto_const_nhds)
    (by positivity)).abs⟩
  filter_upwards [eventually_ge_atTop 1] with n hn
  rw [C68_sad_mean true _ (by rw [univariate_fits]; exact observed_ne_nil X ω hn), univariate_fits]
  rfl

/-- **C194.** The same with the median. -/
theorem C194_deviation_median {β : Type*} [IsProbabilityMeasure P] (h : IndependentDraws P X) (h2 : MemLp (X 0) 2 P)
    {m : ℝ} (hm : OnlyMedian P (X 0) m) (x : ℝ) :
    ∀ᵐ ω ∂P, AnswersConverge (fun r => [Num.fin r]) (fun n =>
      ((standardAbsoluteDeviation (β := β) Real.sqrt (medianMeter ℝ)).scorePartial
        (calls (standardAbsoluteDeviation Real.sqrt (medianMeter ℝ)) (SadState.new (medianMeter ℝ) true)
          (fitsOf (β := β) X ω n)).2 [x]).out)
      |(x - m) / (√(Var[X 0; P]) + 1 / 10 ^ 10)| := by
  filter_upwards [median_converges h hm, variance_converges h h2] with ω hm hs
  have key : ∀ n, ∃ b, 1 ≤ n → medianOf (observed X ω n : Multiset ℝ) = some b ∧
      ((standardAbsoluteDeviation (β := β) Real.sqrt (medianMeter ℝ)).scorePartial
        (calls (standardAbsoluteDeviation Real.sqrt (medianMeter ℝ)) (SadState.new (medianMeter ℝ) true)
          (fitsOf (β := β) X ω n)).2 [x]).out = .ok [.fin |(x - b) / (√(varianceOf (observed X ω n : Multiset ℝ)) + 1 / 10 ^ 10)|] := by
    intro n
    by_cases hn : 1 ≤ n
    · obtain ⟨b, h1, h2⟩ := C68_sad_median (β := β) true (fitsOf X ω n)
        (by rw [univariate_fits]; exact observed_ne_nil X ω hn) [x]
      rw [univariate_fits] at h1 h2
      exact ⟨b, fun _ => ⟨h1, h2⟩⟩
    · exact ⟨0, fun h => absurd h hn⟩
  choose g hg using key
  have hgm : Tendsto g atTop (𝓝 m) := hm g (by
    filter_upwards [eventually_ge_atTop 1] with n hn
    exact (hg n hn).1)
  refine ⟨_, ?_, ((tendsto_const_nhds.sub hgm).div (((Real.continuous_sqrt.tendsto _).comp hs).add tendsto_const_nhds)
    (by positivity)).abs⟩
  filter_upwards [eventually_ge_atTop 1] with n hn
  exact (hg n hn).2

/-! `MedianAbsoluteDeviation` measures each deviation from the median at the time; in the limit that makes no
difference. -/

private theorem countP_range (d : ℕ → ℝ) (p : ℝ → Bool) (n : ℕ) :
    ((List.range n).map d).countP p = ((List.range n).filter fun i => p (d i)).length := by
  rw [List.countP_map, List.countP_eq_length_filter]
  rfl

private theorem countP_late (e d : ℕ → ℝ) (p q : ℝ → Bool) (N : ℕ) (h : ∀ i, N ≤ i → p (e i) = true → q (d i) = true) (n : ℕ) :
    ((List.range n).map e).countP p ≤ N + ((List.range n).map d).countP q := by
  induction n with
  | zero => simp
  | succ n ih =>
    rw [List.range_succ, List.map_append, List.map_append, List.countP_append, List.countP_append]
    simp only [List.map_cons, List.map_nil, List.countP_singleton]
    by_cases hn : N ≤ n
    · by_cases hp : p (e n) = true
      · rw [if_pos hp, if_pos (h n hn hp)]
        omega
      · rw [if_neg hp]
        omega
    · have h1 : ((List.range n).map e).countP p ≤ n := by
        have := List.countP_le_length (p := p) (l := (List.range n).map e)
        simpa using this
      split <;> omega

/-- The deviations from the running medians. -/
theorem deviations_converge {x : ℕ → ℝ} {m d : ℝ}
    (hmed : ∀ g : ℕ → ℝ, (∀ᶠ n in atTop, medianOf (((List.range n).map x : List ℝ) : Multiset ℝ) = some (g n)) →
      Tendsto g atTop (𝓝 m))
    (hlo : ∀ a < d, ∀ N, ∀ᶠ n in atTop, 2 * (N + ((List.range n).map x).countP (fun x => decide (|x - m| ≤ a))) < n)
    (hhi : ∀ b > d, ∀ N, ∀ᶠ n in atTop, 2 * (N + ((List.range n).map x).countP (fun x => decide (b ≤ |x - m|))) < n)
    {ds : ℕ → List ℝ} {g : ℕ → ℝ}
    (hds : ∀ᶠ n in atTop, RunningDeviations ((List.range n).map x) (ds n) ∧ medianOf (ds n : Multiset ℝ) = some (g n)) :
    Tendsto g atTop (𝓝 d) := by
  have key : ∀ n, ∃ b, medianOf (((List.range (n + 1)).map x : List ℝ) : Multiset ℝ) = some b := fun n =>
    C09_median_exists _ (by simp)
  choose r hr using key
  have hr' : Tendsto (fun n => r (n - 1)) atTop (𝓝 m) := hmed _ (by
    filter_upwards [eventually_ge_atTop 1] with n hn
    have := hr (n - 1)
    rwa [Nat.sub_add_cancel hn] at this)
  have hr0 : Tendsto r atTop (𝓝 m) := by
    have := hr'.comp (tendsto_add_atTop_nat 1)
    exact this
  have hform : ∀ᶠ n in atTop, ds n = (List.range n).map (fun i => |x i - r i|) ∧ medianOf (ds n : Multiset ℝ) = some (g n) := by
    filter_upwards [hds] with n hn
    obtain ⟨⟨h1, h2⟩, h3⟩ := hn
    refine ⟨List.ext_getElem? fun i => ?_, h3⟩
    rw [List.length_map, List.length_range] at h1
    by_cases hi : i < n
    · obtain ⟨b, h4, h5⟩ := h2 i (x i) (by simp [hi])
      rw [← List.map_take, List.take_range, min_eq_left (by omega), hr i] at h4
      cases h4
      rw [h5]
      simp [hi]
    · rw [List.getElem?_eq_none (by omega), List.getElem?_eq_none (by simp; omega)]
  have hlate : ∀ ε > 0, ∃ N, ∀ i, N ≤ i → |r i - m| < ε := fun ε hε => by
    obtain ⟨N, hN⟩ := (Metric.tendsto_atTop.1 hr0) ε hε
    exact ⟨N, fun i hi => by have := hN i hi; rwa [Real.dist_eq] at this⟩
  refine median_tendsto (l := ds) (hform.mono fun n hn => hn.2) (fun a ha => ?_) fun b hb => ?_
  · obtain ⟨c, hc1, hc2⟩ := exists_between ha
    obtain ⟨N, hN⟩ := hlate (c - a) (by linarith)
    filter_upwards [hform, hlo c hc2 N] with n h1 h2
    rw [h1.1, List.length_map, List.length_range]
    refine lt_of_le_of_lt (Nat.mul_le_mul_left 2 (countP_late (fun i => |x i - r i|) x _
      (fun y => decide (|y - m| ≤ c)) N (fun i hi hp => ?_) n)) h2
    simp only [decide_eq_true_eq] at hp ⊢
    have h3 := hN i hi
    have h4 : |x i - m| ≤ |x i - r i| + |r i - m| := abs_sub_le _ _ _
    linarith
  · obtain ⟨c, hc1, hc2⟩ := exists_between hb
    obtain ⟨N, hN⟩ := hlate (b - c) (by linarith)
    filter_upwards [hform, hhi c hc1 N] with n h1 h2
    rw [h1.1, List.length_map, List.length_range]
    refine lt_of_le_of_lt (Nat.mul_le_mul_left 2 (countP_late (fun i => |x i - r i|) x _
      (fun y => decide (c ≤ |y - m|)) N (fun i hi hp => ?_) n)) h2
    simp only [decide_eq_true_eq] at hp ⊢
    have h3 := hN i hi
    have h4 : |x i - r i| ≤ |x i - m| + |m - r i| := abs_sub_le _ _ _
    rw [abs_sub_comm m] at h4
    linarith

/-- **C194.** The score of `MedianAbsoluteDeviation` converges, almost surely, to the distance from the median in
units of the median absolute deviation of the distribution, if both are unique. -/
theorem C194_mad {β : Type*} [IsProbabilityMeasure P] (h : IndependentDraws P X) {m d : ℝ} (hm : OnlyMedian P (X 0) m)
    (hd : OnlyMedian P (fun ω => |X 0 ω - m|) d) {b : ℝ} (hb : 0 ≤ b) (x : ℝ) :
    ∀ᵐ ω ∂P, AnswersConverge (fun r => [Num.fin r]) (fun n =>
      ((medianAbsoluteDeviation (β := β)).scorePartial
        (calls medianAbsoluteDeviation (MadState.new true b) (fitsOf (β := β) X ω n)).2 [x]).out)
      |(x - m) / (b * d + 1 / 10 ^ 10)| := by
  have hpos : 0 ≤ d := by
    by_contra hc
    have := hd.2 0 (not_le.1 hc)
    simp only [abs_nonneg, Set.ofPred_true, probReal_univ] at this
    norm_num at this
  have hmeas : Measurable fun x : ℝ => |x - m| := (continuous_abs.comp (continuous_id.sub continuous_const)).measurable
  filter_upwards [median_converges h hm, frequencies h hmeas hd] with ω hmed hfr
  have key : ∀ n, ∃ c mad ds, 1 ≤ n → medianOf (observed X ω n : Multiset ℝ) = some c ∧
      RunningDeviations (observed X ω n) ds ∧ medianOf (ds : Multiset ℝ) = some mad ∧
      ((medianAbsoluteDeviation (β := β)).scorePartial
        (calls medianAbsoluteDeviation (MadState.new true b) (fitsOf (β := β) X ω n)).2 [x]).out =
        .ok [.fin |(x - c) / (b * mad + 1 / 10 ^ 10)|] := by
    intro n
    by_cases hn : 1 ≤ n
    · obtain ⟨c, ds, mad, h1, h2, h3, h4⟩ := C67_mad_score (β := β) b hb true (fitsOf X ω n)
        (by rw [univariate_fits]; exact observed_ne_nil X ω hn) [x]
      rw [univariate_fits] at h1 h2
      exact ⟨c, mad, ds, fun _ => ⟨h1, h2, h3, h4⟩⟩
    · exact ⟨0, 0, [], fun h => absurd h hn⟩
  choose c mad ds hk using key
  have hc : Tendsto c atTop (𝓝 m) := hmed c (by
    filter_upwards [eventually_ge_atTop 1] with n hn
    exact (hk n hn).1)
  have hmad : Tendsto mad atTop (𝓝 d) := by
    refine deviations_converge (x := fun i => X i ω) (ds := ds) hmed hfr.1 hfr.2 ?_
    filter_upwards [eventually_ge_atTop 1] with n hn
    exact ⟨(hk n hn).2.1, (hk n hn).2.2.1⟩
  refine ⟨_, ?_, ((tendsto_const_nhds.sub hc).div ((hmad.const_mul b).add tendsto_const_nhds) (by positivity)).abs⟩
  filter_upwards [eventually_ge_atTop 1] with n hn
  exact (hk n hn).2.2.2

/-! ### The example -/

/-- **C194.** After `n` values the reading of `AverageMeter` is off by `e` or more with a chance of at most
`variance / (n e²)`. -/
theorem C194_average_bound [IsProbabilityMeasure P] (h : IndependentDraws P X) (h2 : MemLp (X 0) 2 P) {n : ℕ}
    (hn : 1 ≤ n) {e : ℝ} (he : 0 < e) :
    P.real {ω | ∃ r, ((averageMeter ℝ).get ((averageMeter ℝ).updates (averageMeter ℝ).init (observed X ω n))).out = .ok r ∧
      e ≤ |r - ∫ ω, X 0 ω ∂P|} ≤ Var[X 0; P] / (n * e ^ 2) := by
  have hn0 : (0 : ℝ) < n := by exact_mod_cast hn
  have hL : ∀ i, MemLp (X i) 2 P := fun i => (h.identical i).memLp_iff.2 h2
  have hsum : MemLp (∑ i ∈ Finset.range n, X i) 2 P := memLp_finsetSum' _ fun i _ => hL i
  have hvar : Var[∑ i ∈ Finset.range n, X i; P] = n * Var[X 0; P] := by
    rw [IndepFun.variance_sum (fun i _ => hL i) fun i _ j _ hij => h.independent hij,
      Finset.sum_congr rfl fun i _ => (h.identical i).variance_eq]
    simp
  have hexp : ∫ ω, (∑ i ∈ Finset.range n, X i) ω ∂P = n * ∫ ω, X 0 ω ∂P := by
    simp only [Finset.sum_apply]
    rw [integral_finsetSum _ fun i _ => (hL i).integrable (by norm_num),
      Finset.sum_congr rfl fun i _ => (h.identical i).integral_eq]
    simp
  have hset : {ω | ∃ r, ((averageMeter ℝ).get ((averageMeter ℝ).updates (averageMeter ℝ).init
      (observed X ω n))).out = .ok r ∧ e ≤ |r - ∫ ω, X 0 ω ∂P|} =
      {ω | n * e ≤ |(∑ i ∈ Finset.range n, X i) ω - ∫ ω, (∑ i ∈ Finset.range n, X i) ω ∂P|} := by
    ext ω
    have hr := average_refines.updates (observed X ω n) 0 _ (average_refines (K := ℝ)).init
    rw [zero_add] at hr
    have ho := meanValue_ok (average_refines.get_out hr) (observed_ne_nil X ω hn)
    have hs := observed_sum X ω n id
    rw [List.map_id] at hs
    simp only [id] at hs
    have hval : |meanOf (observed X ω n : Multiset ℝ) - ∫ ω, X 0 ω ∂P| =
        |∑ i ∈ Finset.range n, X i ω - n * ∫ ω, X 0 ω ∂P| / n := by
      rw [meanOf, Multiset.sum_coe, Multiset.coe_card, observed_length, hs, ← abs_of_pos hn0, ← abs_div,
        abs_of_pos hn0]
      congr 1
      field_simp
    have hexp' := hexp
    simp only [Finset.sum_apply] at hexp'
    simp only [Set.mem_ofPred_eq, Finset.sum_apply, hexp', ho]
    constructor
    · rintro ⟨r, hr, hle⟩
      cases hr
      rw [hval, le_div_iff₀ hn0] at hle
      linarith
    · intro hle
      refine ⟨_, rfl, ?_⟩
      rw [hval, le_div_iff₀ hn0]
      linarith
  rw [hset]
  have hc := meas_ge_le_variance_div_sq hsum (mul_pos hn0 he)
  rw [hvar] at hc
  have h0 : 0 ≤ Var[X 0; P] := variance_nonneg _ _
  refine (ENNReal.toReal_le_of_le_ofReal (by positivity) hc).trans (le_of_eq ?_)
  field_simp

omit [MeasurableSpace Ω] in
/-- Draws from one law. -/
theorem draws_of_law {_ : MeasurableSpace Ω} {P : Measure Ω} {μ : Measure ℝ} {X : ℕ → Ω → ℝ} (hX : ∀ i, HasLaw (X i) μ P)
    (hi : iIndepFun X P) : IndependentDraws P X :=
  ⟨fun _ _ hij => hi.indepFun hij,
    fun i => ⟨(hX i).aemeasurable, (hX 0).aemeasurable, (hX i).map_eq.trans (hX 0).map_eq.symm⟩⟩

/-- **C194**, `examples/example_statistics.py`: of values drawn from a normal distribution the average converges,
almost surely, to its mean and the square root of the variance to its standard deviation; after the 1000 values
of the example (mean 0, standard deviation 1) the average is off by 1/10 with a chance of at most 1/10. -/
theorem C194_example {P : Measure Ω} {μ : ℝ} {v : NNReal} (hX : ∀ i, HasLaw (X i) (gaussianReal μ v) P)
    (hi : iIndepFun X P) :
    (∀ᵐ ω ∂P, AnswersConverge id (fun n => ((averageMeter ℝ).get ((averageMeter ℝ).updates (averageMeter ℝ).init
        (observed X ω n))).out) μ ∧
      ∃ g : ℕ → ℝ, (∀ᶠ n in atTop, ((varianceMeter ℝ).get ((varianceMeter ℝ).updates (varianceMeter ℝ).init
        (observed X ω n))).out = .ok (g n)) ∧ Tendsto (fun n => √(g n)) atTop (𝓝 √v)) ∧
    (v = 1 → P.real {ω | ∃ r, ((averageMeter ℝ).get ((averageMeter ℝ).updates (averageMeter ℝ).init
      (observed X ω 1000))).out = .ok r ∧ 1 / 10 ≤ |r - μ|} ≤ 1 / 10) := by
  have : IsProbabilityMeasure P := (hX 0).isProbabilityMeasure
  have h := draws_of_law hX hi
  have hL : MemLp (X 0) 2 P := by
    have := memLp_id_gaussianReal' (μ := μ) (v := v) 2 (by norm_num)
    rw [← (hX 0).map_eq] at this
    exact (memLp_map_measure_iff aestronglyMeasurable_id (hX 0).aemeasurable).1 this
  have hE : ∫ ω, X 0 ω ∂P = μ := by
    have := (hX 0).integral_eq
    rw [integral_id_gaussianReal] at this
    exact this
  have hV : Var[X 0; P] = v := by
    rw [(hX 0).variance_eq, variance_id_gaussianReal]
  constructor
  · filter_upwards [C194_average h (hL.integrable (by norm_num)), C194_variance h hL] with ω h1 h2
    rw [hE] at h1
    rw [hV] at h2
    obtain ⟨g, h3, h4⟩ := h2
    exact ⟨h1, g, h3, (Real.continuous_sqrt.tendsto _).comp h4⟩
  · rintro rfl
    have := C194_average_bound h hL (n := 1000) (by norm_num) (e := 1 / 10) (by norm_num)
    rw [hE, hV] at this
    refine this.trans ?_
    norm_num

end

/-! ### The hypotheses can be met -/

/-- A normal distribution has only one median. -/
theorem normal_median {Ω : Type*} [MeasurableSpace Ω] {P : Measure Ω} {Y : Ω → ℝ} (hY : HasLaw Y (gaussianReal 0 1) P) :
    OnlyMedian P Y 0 := by
  have key : ∀ a < (0 : ℝ), (gaussianReal 0 1).real (Set.Iic a) < 1 / 2 ∧ (gaussianReal 0 1).real (Set.Ici (-a)) < 1 / 2 := by
    intro a ha
    have hsym : (gaussianReal 0 1).real (Set.Ici (-a)) = (gaussianReal 0 1).real (Set.Iic a) := by
      have := gaussianReal_map_neg (μ := 0) (v := 1)
      rw [neg_zero] at this
      conv_lhs => rw [← this]
      rw [map_measureReal_apply measurable_neg measurableSet_Ici]
      congr 1
      ext x
      simp
    have hpos : 0 < (gaussianReal 0 1).real (Set.Ioo a (-a)) := by
      refine ENNReal.toReal_pos (fun h0 => ?_) (measure_ne_top _ _)
      have := gaussianReal_absolutelyContinuous' 0 (one_ne_zero (α := NNReal)) h0
      rw [Real.volume_Ioo] at this
      simp at this
      linarith
    have hone : (gaussianReal 0 1).real (Set.Iic a) + (gaussianReal 0 1).real (Set.Ioo a (-a)) +
        (gaussianReal 0 1).real (Set.Ici (-a)) = 1 := by
      rw [← measureReal_union (by
          rw [Set.disjoint_left]
          intro x h1 h2
          exact absurd h2.1 (not_lt.2 h1)) measurableSet_Ioo,
        ← measureReal_union (by
          rw [Set.disjoint_left]
          rintro x (h1 | h1) h2
          · have h1 : x ≤ a := h1
            have h2 : -a ≤ x := h2
            linarith
          · exact absurd h1.2 (not_lt.2 h2)) measurableSet_Ici, ← probReal_univ (μ := gaussianReal 0 1)]
      congr 1
      ext x
      simp only [Set.mem_union, Set.mem_Iic, Set.mem_Ioo, Set.mem_Ici, Set.mem_univ, iff_true]
      by_cases h1 : x ≤ a
      · exact Or.inl (Or.inl h1)
      · by_cases h2 : x < -a
        · exact Or.inl (Or.inr ⟨not_le.1 h1, h2⟩)
        · exact Or.inr (not_lt.1 h2)
    rw [hsym] at hone ⊢
    constructor <;> linarith
  constructor
  · intro a ha
    rw [hY.measureReal_eq (p := fun y => y ≤ a) measurableSet_Iic]
    exact (key a ha).1
  · intro b hb
    rw [hY.measureReal_eq (p := fun y => b ≤ y) measurableSet_Ici]
    have := (key (-b) (by linarith)).2
    rwa [neg_neg] at this

/-- There is such a stream: independent draws from the standard normal distribution, which has a unique median
and a variance. -/
example : ∃ (Ω : Type) (_ : MeasurableSpace Ω) (P : Measure Ω) (X : ℕ → Ω → ℝ), IsProbabilityMeasure P ∧
    IndependentDraws P X ∧ (∀ i, HasLaw (X i) (gaussianReal 0 1) P) ∧ iIndepFun X P ∧ OnlyMedian P (X 0) 0 ∧
    Var[X 0; P] ≠ 0 := by
  obtain ⟨Ω, m, P, X, -, h1, h2, h3⟩ := exists_iid ℕ (gaussianReal 0 1)
  refine ⟨Ω, m, P, X, h3, draws_of_law h1 h2, h1, h2, normal_median (h1 0), ?_⟩
  rw [(h1 0).variance_eq, variance_id_gaussianReal]
  simp

/-- The uniform distribution on -1, 0 and 1. -/
noncomputable def threePoints : Measure ℝ := (3 : ENNReal)⁻¹ • (Measure.dirac (-1) + Measure.dirac 0 + Measure.dirac 1)

theorem threePoints_real (s : Set ℝ) (hs : MeasurableSet s) : threePoints.real s =
    1 / 3 * (s.indicator (fun _ => 1) (-1) + s.indicator (fun _ => 1) 0 + s.indicator (fun _ => 1) 1) := by
  classical
  simp only [threePoints, Measure.real, Measure.smul_apply, Measure.add_apply, Measure.dirac_apply' _ hs, smul_eq_mul,
    Set.indicator, Pi.one_apply]
  split_ifs <;> simp [ENNReal.toReal_add]

instance : IsProbabilityMeasure threePoints := by
  constructor
  have := threePoints_real Set.univ MeasurableSet.univ
  simp only [Set.indicator_univ] at this
  norm_num [Measure.real] at this
  exact (ENNReal.toReal_eq_one_iff _).1 this

/-- There is a stream for which `MedianAbsoluteDeviation` has the limit described. -/
example : ∃ (Ω : Type) (_ : MeasurableSpace Ω) (P : Measure Ω) (X : ℕ → Ω → ℝ), IsProbabilityMeasure P ∧
    IndependentDraws P X ∧ OnlyMedian P (X 0) 0 ∧ OnlyMedian P (fun ω => |X 0 ω - 0|) 1 := by
  obtain ⟨Ω, m, P, X, -, h1, h2, h3⟩ := exists_iid ℕ threePoints
  refine ⟨Ω, m, P, X, h3, draws_of_law h1 h2, ⟨fun a ha => ?_, fun b hb => ?_⟩, fun a ha => ?_, fun b hb => ?_⟩
  · rw [(h1 0).measureReal_eq (p := fun y => y ≤ a) measurableSet_Iic,
      threePoints_real {y | y ≤ a} measurableSet_Iic]
    have h4 : ¬ (0 : ℝ) ≤ a := not_le.2 ha
    have h5 : ¬ (1 : ℝ) ≤ a := by linarith
    simp only [Set.indicator, Set.mem_ofPred_eq, h4, h5, if_false]
    split_ifs <;> norm_num
  · rw [(h1 0).measureReal_eq (p := fun y => b ≤ y) measurableSet_Ici,
      threePoints_real {y | b ≤ y} measurableSet_Ici]
    have h4 : ¬ b ≤ (0 : ℝ) := not_le.2 hb
    have h5 : ¬ b ≤ (-1 : ℝ) := by linarith
    simp only [Set.indicator, Set.mem_ofPred_eq, h4, h5, if_false]
    split_ifs <;> norm_num
  · have hm : MeasurableSet {y : ℝ | |y - 0| ≤ a} := by
      simp only [sub_zero]
      exact measurableSet_le continuous_abs.measurable measurable_const
    rw [(h1 0).measureReal_eq (p := fun y => |y - 0| ≤ a) hm, threePoints_real _ hm]
    have h4 : ¬ (1 : ℝ) ≤ a := not_le.2 ha
    simp only [Set.indicator, Set.mem_ofPred_eq, sub_zero, abs_neg, abs_one, h4, if_false]
    split_ifs <;> norm_num
  · have hm : MeasurableSet {y : ℝ | b ≤ |y - 0|} := by
      simp only [sub_zero]
      exact measurableSet_le measurable_const continuous_abs.measurable
    rw [(h1 0).measureReal_eq (p := fun y => b ≤ |y - 0|) hm, threePoints_real _ hm]
    have h4 : ¬ b ≤ (1 : ℝ) := not_le.2 hb
    have h5 : ¬ b ≤ (0 : ℝ) := by linarith
    simp only [Set.indicator, Set.mem_ofPred_eq, sub_zero, abs_neg, abs_one, abs_zero, h4, h5, if_false]
    norm_num

end Pysad
