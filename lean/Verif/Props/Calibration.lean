import Verif.Model.Calibration
import Verif.Proofs.Meters
import Verif.Proofs.Moments
import Verif.Props.Window
import Verif.Spec.Erfc

/-! Properties C37-C39: `pysad/transform/probability_calibration`. -/

namespace Pysad

open Spec

/-! ### Specification -/

/-- The fraction of values strictly above `y`. -/
def Spec.tailFraction {α : Type*} [LinearOrder α] (K : Type*) [Field K] (l : List α) (y : α) : K :=
  (l.countP (fun x => decide (y < x)) : K) / (l.length : K)

/-- The scores a calibrator remembers. -/
def Spec.retained {α : Type*} (windowed : Bool) (w : ℕ) (l : List α) : List α :=
  if windowed then lastN w l else l

theorem conformal_contents {α : Type*} [LinearOrder α] {K : Type*} [Zero K] [NatCast K] [Div K]
    [LT K] [DecidableLT K] [DecidableEq K] (windowed : Bool) (w : ℕ) (xs : List α) :
    ∃ s, (Conformal.postprocessor K).fit (Conformal.new windowed w) xs = .ok () s ∧
      Conformal.contents s = retained windowed w xs := by
  cases windowed with
  | true =>
    obtain ⟨s, h1, h2⟩ := (Conformal.postprocessor (α := α) K).fit_inv
      (P := fun l s => s = .windowed ((Window.new w).updates l))
      (by
        rintro seen s x rfl
        exact ⟨_, rfl, by simp [Conformal.fitPartial, Window.updates]⟩) xs
      (Conformal.new true w) rfl
    exact ⟨s, h1, by rw [h2]; exact C01_window_last w xs⟩
  | false =>
    obtain ⟨s, h1, h2⟩ := (Conformal.postprocessor (α := α) K).fit_inv
      (P := fun l s => s = .unlimited ((UnlimitedWindow.new).updates l))
      (by
        rintro seen s x rfl
        exact ⟨_, rfl, by simp [Conformal.fitPartial, UnlimitedWindow.updates]⟩) xs
      (Conformal.new false w) rfl
    exact ⟨s, h1, by rw [h2]; exact C02_unlimited_all xs⟩

section Conformal
variable {α : Type*} [LinearOrder α] {K : Type*} [Field K] [LinearOrder K] [IsStrictOrderedRing K]

/-- **C37.** After fitting scores of which at least one is retained,
`transform_partial(y)` is the fraction of retained scores strictly above `y`, and
the calibrator is unchanged. -/
theorem C37_conformal (windowed : Bool) (w : ℕ) (xs : List α) (h : retained windowed w xs ≠ []) :
    ∃ s, (Conformal.postprocessor K).fit (Conformal.new windowed w) xs = .ok () s ∧
      ∀ y, (Conformal.postprocessor K).transformPartial s y =
        .ok (.fin (tailFraction K (retained windowed w xs) y)) s := by
  obtain ⟨s, h1, h2⟩ := conformal_contents (K := K) windowed w xs
  refine ⟨s, h1, fun y => ?_⟩
  have hlen : ((retained windowed w xs).length : K) ≠ 0 := by
    have := List.length_pos_iff.2 h
    exact_mod_cast this.ne'
  simp only [Conformal.postprocessor, Conformal.transformPartial, h2, npDiv, if_neg hlen,
    tailFraction, List.countP_eq_length_filter]

/-- **C37**: the tail fraction is a probability ... -/
theorem C37_probability (l : List α) (y : α) :
    (0 : K) ≤ tailFraction K l y ∧ tailFraction K l y ≤ (1 : K) := by
  unfold tailFraction
  refine ⟨by positivity, ?_⟩
  apply div_le_one_of_le₀ _ (by positivity)
  exact_mod_cast List.countP_le_length

/-- **C37**: ... that does not increase with the score. -/
theorem C37_antitone (l : List α) {y z : α} (h : y ≤ z) :
    tailFraction K l z ≤ tailFraction K l y := by
  unfold tailFraction
  gcongr
  refine List.countP_mono_left fun x _ hx => ?_
  simp only [decide_eq_true_eq] at hx ⊢
  exact lt_of_le_of_lt h hx

/-- **C37**: nothing fitted yet (or `window_size=0`): `nan`. -/
theorem C37_empty (windowed : Bool) (w : ℕ) (xs : List α) (h : retained windowed w xs = []) :
    ∃ s, (Conformal.postprocessor K).fit (Conformal.new windowed w) xs = .ok () s ∧
      ∀ y, (Conformal.postprocessor K).transformPartial s y = .ok .nan s := by
  obtain ⟨s, h1, h2⟩ := conformal_contents (K := K) windowed w xs
  exact ⟨s, h1, fun y => by
    simp [Conformal.postprocessor, Conformal.transformPartial, h2, h, npDiv]⟩

end Conformal

example : retained true 3 [5, 1, 2, 8] ≠ [] := by decide
example : Spec.tailFraction ℚ (retained true 3 [5, 1, 2, 8]) (1 : ℤ) = 2 / 3 := by decide +kernel

/-! ### Gaussian tail -/

section Gaussian
variable {σa σv : Type} {avg : Meter σa ℝ ℝ} {var : Meter σv ℝ ℝ} {keepA keepV : List ℝ → List ℝ}

theorem gauss_fit (erfc : ℝ → ℝ) (ha : MeterSpec avg keepA MeanValue)
    (hv : MeterSpec var keepV VarianceValue) (xs : List ℝ) :
    ∃ s, (gaussianTail Real.sqrt erfc avg var).fit ⟨avg.init, var.init⟩ xs = .ok () s ∧
      ha.R xs s.avgMeter ∧ hv.R xs s.varMeter := by
  exact (gaussianTail Real.sqrt erfc avg var).fit_inv
    (P := fun l s => ha.R l s.avgMeter ∧ hv.R l s.varMeter) (by
      intro seen s x h
      obtain ⟨a', ha1, ha2⟩ := ha.update h.1 x
      obtain ⟨v', hv1, hv2⟩ := hv.update h.2 x
      exact ⟨⟨a', v'⟩, by simp [gaussianTail, hv1, ha1], ha2, hv2⟩) xs _ ⟨ha.init, hv.init⟩

theorem gauss_transform (erfc : ℝ → ℝ) (ha : MeterSpec avg keepA MeanValue)
    (hv : MeterSpec var keepV VarianceValue) {xs : List ℝ} {s : GaussianTailState σa σv}
    (h : ha.R xs s.avgMeter ∧ hv.R xs s.varMeter) (hka : keepA xs ≠ []) (hkv : keepV xs ≠ [])
    (y : ℝ) : ((gaussianTail Real.sqrt erfc avg var).transformPartial s y).out =
      .ok (1 - 1 / 2 * erfc ((y - meanOf (keepA xs : List ℝ)) /
        (if 0 < varianceOf (K := ℝ) (keepV xs : List ℝ) then √(varianceOf (K := ℝ) (keepV xs : List ℝ)) else 1) /
          √2)) := by
  have hvo := varianceValue_ok (hv.get_out h.2) hkv
  have hao := meanValue_ok (ha.get_out h.1) hka
  cases hgv : var.get s.varMeter with
  | err e t => rw [hgv] at hvo; simp at hvo
  | ok v t =>
  cases hga : avg.get s.avgMeter with
  | err e u => rw [hga] at hao; simp at hao
  | ok a u =>
  rw [hgv] at hvo
  rw [hga] at hao
  simp only [Res.out_ok, Except.ok.injEq] at hvo hao
  subst hvo hao
  simp [gaussianTail, hgv, hga]

end Gaussian

/-- What the Gaussian tail calibrator should compute from the mean `μ` and the
variance `v` of the retained scores. -/
structure Spec.TailProbability (μ : ℝ) (p : ℝ → ℝ) : Prop where
  nonneg : ∀ y, 0 ≤ p y
  le_one : ∀ y, p y ≤ 1
  mono : Monotone p
  at_mean : p μ = 1 / 2

theorem tailProbability_of (erfc : ℝ → ℝ) (he : ErfcLike erfc) (μ d : ℝ) (hd : 0 < d) :
    TailProbability μ fun y => 1 - 1 / 2 * erfc ((y - μ) / d / √2) where
  nonneg y := by have := he.le_two ((y - μ) / d / √2); linarith
  le_one y := by have := he.nonneg ((y - μ) / d / √2); linarith
  mono y z h := by
    have : (y - μ) / d / √2 ≤ (z - μ) / d / √2 := by gcongr
    have := he.antitone this
    simp only; linarith
  at_mean := by simp only [sub_self, zero_div, he.zero]; norm_num

theorem std_pos (v : ℝ) : 0 < if 0 < v then √v else 1 := by
  split
  · exact Real.sqrt_pos.2 ‹_›
  · exact one_pos

/-- **C38**, `running_statistics=True`: after fitting scores, `transform_partial`
is a nondecreasing probability that is 1/2 at the mean of the last `w` scores. -/
theorem C38_running (erfc : ℝ → ℝ) (he : ErfcLike erfc) (w : ℕ) (hw : 1 ≤ w) (xs : List ℝ)
    (hxs : xs ≠ []) :
    ∃ s p, (gaussianTailRunning Real.sqrt erfc w).fit (gaussianTailRunning.init w) xs = .ok () s ∧
      (∀ y, ((gaussianTailRunning Real.sqrt erfc w).transformPartial s y).out = .ok (p y)) ∧
      TailProbability (meanOf (lastN w xs : List ℝ)) p := by
  obtain ⟨s, h1, h2⟩ := gauss_fit erfc ((average_refines (K := ℝ)).runningMeter w)
    ((variance_refines (K := ℝ)).runningMeter w) xs
  refine ⟨s, _, h1, fun y => gauss_transform erfc _ _ h2 (lastN_ne_nil hw hxs)
    (lastN_ne_nil hw hxs) y, tailProbability_of erfc he _ _ (std_pos _)⟩

/-- **C38**, `running_statistics=False`: the same with the mean of all scores. -/
theorem C38_plain (erfc : ℝ → ℝ) (he : ErfcLike erfc) (w : ℕ) (hw : 1 ≤ w) (xs : List ℝ)
    (hxs : xs ≠ []) :
    ∃ s p, (gaussianTailPlain Real.sqrt erfc w).fit (gaussianTailPlain.init w) xs = .ok () s ∧
      (∀ y, ((gaussianTailPlain Real.sqrt erfc w).transformPartial s y).out = .ok (p y)) ∧
      TailProbability (meanOf (xs : Multiset ℝ)) p := by
  obtain ⟨s, h1, h2⟩ := gauss_fit erfc (average_refines (K := ℝ)).plain
    ((variance_refines (K := ℝ)).runningMeter w) xs
  refine ⟨s, _, h1, fun y => gauss_transform erfc _ _ h2 hxs
    (lastN_ne_nil hw hxs) y, tailProbability_of erfc he _ _ (std_pos _)⟩

/-- **C38** for the actual complementary error function, with the value: the
Gaussian tail of `y` at the mean and standard deviation of the last `w` scores. -/
theorem C38_value (w : ℕ) (hw : 1 ≤ w) (xs : List ℝ) (hxs : xs ≠ [])
    (hvar : varianceOf (K := ℝ) (lastN w xs : List ℝ) ≠ 0) :
    ∃ s, (gaussianTailRunning Real.sqrt Spec.erfc w).fit (gaussianTailRunning.init w) xs =
        .ok () s ∧
      ∀ y, ((gaussianTailRunning Real.sqrt Spec.erfc w).transformPartial s y).out =
        .ok (1 - 1 / 2 * Spec.erfc ((y - meanOf (lastN w xs : List ℝ)) /
          √(varianceOf (K := ℝ) (lastN w xs : List ℝ)) / √2)) := by
  obtain ⟨s, h1, h2⟩ := gauss_fit Spec.erfc ((average_refines (K := ℝ)).runningMeter w)
    ((variance_refines (K := ℝ)).runningMeter w) xs
  refine ⟨s, h1, fun y => ?_⟩
  have := gauss_transform Spec.erfc _ _ h2 (lastN_ne_nil hw hxs) (lastN_ne_nil hw hxs) y
  rwa [if_pos (lt_of_le_of_ne (varianceOf_nonneg _) hvar.symm)] at this

/-- The hypotheses on `erfc` hold of the real function. -/
example : ErfcLike Spec.erfc := erfc_erfcLike
example : varianceOf (K := ℝ) (lastN 2 [5, 1, 3] : List ℝ) ≠ 0 := by
  norm_num [lastN, varianceOf, meanOf]

/-! ### The window size of the non-running calibrator -/

/-- The full statement of **C39**: with `running_statistics=False` the results do
not depend on `window_size`. -/
def WindowSizeIgnored (erfc : ℝ → ℝ) : Prop :=
  ∀ (w w' : ℕ) (xs : List ℝ) (s s' : GaussianTailState (AverageState ℝ)
      (RunningState (VarianceState ℝ) ℝ)) (y : ℝ), 1 ≤ w → 1 ≤ w' →
    (gaussianTailPlain Real.sqrt erfc w).fit (gaussianTailPlain.init w) xs = .ok () s →
    (gaussianTailPlain Real.sqrt erfc w').fit (gaussianTailPlain.init w') xs = .ok () s' →
    ((gaussianTailPlain Real.sqrt erfc w).transformPartial s y).out =
      ((gaussianTailPlain Real.sqrt erfc w').transformPartial s' y).out

/-- **C39 is false.** The variance is computed over the last `window_size` scores:
after the scores 0, 4, window sizes 1 and 2 calibrate the score 3 differently. -/
theorem C39_window_size_ignored_refuted : ¬ WindowSizeIgnored Spec.erfc := by
  intro h
  obtain ⟨s, h1, h2⟩ := gauss_fit Spec.erfc (average_refines (K := ℝ)).plain
    ((variance_refines (K := ℝ)).runningMeter 1) [0, 4]
  obtain ⟨s', h1', h2'⟩ := gauss_fit Spec.erfc (average_refines (K := ℝ)).plain
    ((variance_refines (K := ℝ)).runningMeter 2) [0, 4]
  have := h 1 2 [0, 4] s s' 3 le_rfl (by norm_num) h1 h1'
  rw [show ((gaussianTailPlain Real.sqrt Spec.erfc 1).transformPartial s 3).out = _ from
      gauss_transform Spec.erfc _ _ h2 (by simp) (lastN_ne_nil le_rfl (by simp)) 3,
    show ((gaussianTailPlain Real.sqrt Spec.erfc 2).transformPartial s' 3).out = _ from
      gauss_transform Spec.erfc _ _ h2' (by simp) (lastN_ne_nil (by norm_num) (by simp)) 3] at this
  simp only [Except.ok.injEq] at this
  have he := erfc_strictAnti.injective (by linarith :
    Spec.erfc ((3 - meanOf ((id [0, 4] : List ℝ) : Multiset ℝ)) /
        (if 0 < varianceOf (K := ℝ) (lastN 1 [0, 4] : List ℝ) then √(varianceOf (K := ℝ) (lastN 1 [0, 4] : List ℝ))
          else 1) / √2) =
      Spec.erfc ((3 - meanOf ((id [0, 4] : List ℝ) : Multiset ℝ)) /
        (if 0 < varianceOf (K := ℝ) (lastN 2 [0, 4] : List ℝ) then √(varianceOf (K := ℝ) (lastN 2 [0, 4] : List ℝ))
          else 1) / √2))
  have hv1 : varianceOf (K := ℝ) (lastN 1 [0, 4] : List ℝ) = 0 := by norm_num [lastN, varianceOf, meanOf]
  have hv2 : varianceOf (K := ℝ) (lastN 2 [0, 4] : List ℝ) = 2 ^ 2 := by
    norm_num [lastN, varianceOf, meanOf]
  have hm : meanOf ((id [0, 4] : List ℝ) : Multiset ℝ) = 2 := by norm_num [meanOf]
  rw [hv1, hv2, hm, if_neg (lt_irrefl _), if_pos (by norm_num), Real.sqrt_sq (by norm_num)] at he
  have h2 : √2 ≠ 0 := by positivity
  field_simp at he
  norm_num at he

/-- **C39**, partial: what the result is. The mean is that of all scores, but the deviation is that of the last
`window_size` of them (1 if these do not vary). -/
theorem C39_value_partial (erfc : ℝ → ℝ) (w : ℕ) (hw : 1 ≤ w) (xs : List ℝ) (hxs : xs ≠ []) :
    ∃ s, (gaussianTailPlain Real.sqrt erfc w).fit (gaussianTailPlain.init w) xs = .ok () s ∧
      ∀ y, ((gaussianTailPlain Real.sqrt erfc w).transformPartial s y).out =
        .ok (1 - 1 / 2 * erfc ((y - meanOf (xs : Multiset ℝ)) /
          (if 0 < varianceOf (K := ℝ) (lastN w xs : List ℝ) then √(varianceOf (K := ℝ) (lastN w xs : List ℝ)) else 1) /
          √2)) := by
  obtain ⟨s, h1, h2⟩ := gauss_fit erfc (average_refines (K := ℝ)).plain
    ((variance_refines (K := ℝ)).runningMeter w) xs
  exact ⟨s, h1, fun y => gauss_transform erfc _ _ h2 hxs (lastN_ne_nil hw hxs) y⟩

/-- **C39**, partial: two window sizes give the same results exactly if the two deviations agree. -/
theorem C39_agree_iff_partial (w w' : ℕ) (hw : 1 ≤ w) (hw' : 1 ≤ w') (xs : List ℝ) (hxs : xs ≠ []) :
    let deviation (w : ℕ) : ℝ :=
      if 0 < varianceOf (K := ℝ) (lastN w xs : List ℝ) then √(varianceOf (K := ℝ) (lastN w xs : List ℝ)) else 1
    ∃ s s', (gaussianTailPlain Real.sqrt Spec.erfc w).fit (gaussianTailPlain.init w) xs = .ok () s ∧
      (gaussianTailPlain Real.sqrt Spec.erfc w').fit (gaussianTailPlain.init w') xs = .ok () s' ∧
      ((∀ y, ((gaussianTailPlain Real.sqrt Spec.erfc w).transformPartial s y).out =
        ((gaussianTailPlain Real.sqrt Spec.erfc w').transformPartial s' y).out) ↔ deviation w = deviation w') := by
  intro deviation
  obtain ⟨s, h1, h2⟩ := C39_value_partial Spec.erfc w hw xs hxs
  obtain ⟨s', h1', h2'⟩ := C39_value_partial Spec.erfc w' hw' xs hxs
  refine ⟨s, s', h1, h1', fun h => ?_, fun h y => ?_⟩
  · have hy := h (meanOf (xs : Multiset ℝ) + 1)
    rw [h2, h2'] at hy
    simp only [Except.ok.injEq] at hy
    have he := erfc_strictAnti.injective (show Spec.erfc ((meanOf (xs : Multiset ℝ) + 1 - meanOf (xs : Multiset ℝ)) /
      deviation w / √2) = Spec.erfc ((meanOf (xs : Multiset ℝ) + 1 - meanOf (xs : Multiset ℝ)) /
      deviation w' / √2) by linarith)
    have h2 : (√2 : ℝ) ≠ 0 := by positivity
    rw [add_sub_cancel_left, div_left_inj' h2, one_div, one_div] at he
    exact inv_injective he
  · rw [h2, h2']
    have : deviation w = deviation w' := h
    simp only [deviation] at this
    rw [this]

/-- **C39**, partial: the results agree as long as no more scores have been fitted than
either window holds (and the mean never depends on the window, `C38_plain`).
Missing: longer histories, where the full statement is false. -/
theorem C39_window_size_ignored_partial (erfc : ℝ → ℝ) (w w' : ℕ) (xs : List ℝ)
    (hxs : xs ≠ []) (hw : xs.length ≤ w) (hw' : xs.length ≤ w') :
    ∃ s s', (gaussianTailPlain Real.sqrt erfc w).fit (gaussianTailPlain.init w) xs = .ok () s ∧
      (gaussianTailPlain Real.sqrt erfc w').fit (gaussianTailPlain.init w') xs = .ok () s' ∧
      ∀ y, ((gaussianTailPlain Real.sqrt erfc w).transformPartial s y).out =
        ((gaussianTailPlain Real.sqrt erfc w').transformPartial s' y).out := by
  obtain ⟨s, h1, h2⟩ := gauss_fit erfc (average_refines (K := ℝ)).plain
    ((variance_refines (K := ℝ)).runningMeter w) xs
  obtain ⟨s', h1', h2'⟩ := gauss_fit erfc (average_refines (K := ℝ)).plain
    ((variance_refines (K := ℝ)).runningMeter w') xs
  refine ⟨s, s', h1, h1', fun y => ?_⟩
  have e := lastN_of_le hw
  have e' := lastN_of_le hw'
  have := gauss_transform erfc _ _ h2 hxs (by rwa [e]) y
  have := gauss_transform erfc _ _ h2' hxs (by rwa [e']) y
  simp_all [gaussianTailPlain]

end Pysad
