import Verif.Props.Inqmad
import Mathlib.Probability.Distributions.Gaussian.Real
import Mathlib.Probability.Moments.SubGaussian
import Mathlib.Probability.Independence.Basic
import Mathlib.MeasureTheory.Integral.Pi
import Mathlib.MeasureTheory.Integral.Prod
import Mathlib.Probability.ConditionalProbability
import Mathlib.Analysis.SpecialFunctions.Integrals.Basic

/-! Property C143: the random features of `Inqmad` approximate a Gaussian kernel. -/

namespace Pysad

open Spec MeasureTheory ProbabilityTheory
open scoped NNReal

variable {n d : ℕ}

/-- What `RBFSampler(gamma).fit` draws for one of its components: a weight for each feature,
normal with mean 0 and variance `2 * gamma`, and an offset uniform between 0 and `2 * pi`, all
independent. -/
noncomputable def Spec.rbfComponent (gamma : ℝ≥0) (n : ℕ) : Measure ((Fin n → ℝ) × ℝ) :=
  (Measure.pi fun _ => gaussianReal 0 (2 * gamma)).prod
    (cond volume (Set.Icc 0 (2 * Real.pi)))

/-- What it draws for `d` components: independent draws. -/
noncomputable def Spec.rbfSampler (gamma : ℝ≥0) (n d : ℕ) :
    Measure (Fin d → (Fin n → ℝ) × ℝ) :=
  Measure.pi fun _ => rbfComponent gamma n

/-- The random features made from what was drawn. -/
noncomputable def Spec.rbfEnv (ω : Fin d → (Fin n → ℝ) × ℝ) : InqEnv ℝ n d :=
  realInqEnv (fun i k => (ω k).1 i) (fun k => (ω k).2)

/-- The Gaussian kernel. -/
noncomputable def Spec.gaussianKernel (gamma : ℝ≥0) (x y : Fin n → ℝ) : ℝ :=
  Real.exp (-(gamma * ∑ i, (x i - y i) ^ 2))

/-- The inner product of the vectors `compute` returns for two instances. -/
noncomputable def Spec.rbfProduct (ω : Fin d → (Fin n → ℝ) × ℝ) (x y : Fin n → ℝ) : ℝ :=
  ∑ k, Inqmad.compute (rbfEnv ω) x k * Inqmad.compute (rbfEnv ω) y k

namespace Rbf

theorem offset_prob : IsProbabilityMeasure (cond (volume : Measure ℝ) (Set.Icc 0 (2 * Real.pi))) := by
  apply cond_isProbabilityMeasure_of_finite
  · rw [Real.volume_Icc]; simp [Real.pi_pos]
  · rw [Real.volume_Icc]; exact ENNReal.ofReal_ne_top

instance : IsProbabilityMeasure (cond (volume : Measure ℝ) (Set.Icc 0 (2 * Real.pi))) :=
  offset_prob

instance (gamma : ℝ≥0) : IsProbabilityMeasure (rbfComponent gamma n) := by
  unfold rbfComponent; infer_instance

instance (gamma : ℝ≥0) : IsProbabilityMeasure (rbfSampler gamma n d) := by
  unfold rbfSampler; infer_instance

/-- A full turn averages out. -/
theorem offset_integral (a : ℝ) :
    ∫ b, Real.cos (a + 2 * b) ∂(cond volume (Set.Icc 0 (2 * Real.pi))) = 0 := by
  rw [ProbabilityTheory.cond, integral_smul_measure, integral_Icc_eq_integral_Ioc,
    ← intervalIntegral.integral_of_le (by positivity)]
  have : ∫ b in (0:ℝ)..(2 * Real.pi), Real.cos (a + 2 * b) = 0 := by
    have h := intervalIntegral.integral_comp_add_mul (a := 0) (b := 2 * Real.pi) (c := 2)
      Real.cos (by norm_num) a
    rw [h, integral_cos]
    have : a + 2 * (2 * Real.pi) = a + 2 * 0 + 2 * Real.pi + 2 * Real.pi := by ring
    rw [this, Real.sin_add_two_pi, Real.sin_add_two_pi]
    simp
  rw [this, smul_zero]

/-- The mean cosine of a combination of normal weights. -/
theorem weights_integral (gamma : ℝ≥0) (z : Fin n → ℝ) :
    ∫ w, Real.cos (∑ i, z i * w i) ∂(Measure.pi fun _ : Fin n => gaussianReal 0 (2 * gamma))
      = Real.exp (-(gamma * ∑ i, z i ^ 2)) := by
  have h1 : ∫ w, (∏ i, Complex.exp (z i * (w i : ℝ) * Complex.I))
      ∂(Measure.pi fun _ : Fin n => gaussianReal 0 (2 * gamma))
      = ∏ i, ∫ t : ℝ, Complex.exp (z i * (t : ℝ) * Complex.I) ∂(gaussianReal 0 (2 * gamma)) :=
    integral_fintype_prod_eq_prod fun i (t : ℝ) => Complex.exp (z i * (t : ℝ) * Complex.I)
  have h2 : ∀ i, ∫ t : ℝ, Complex.exp (z i * (t : ℝ) * Complex.I) ∂(gaussianReal 0 (2 * gamma))
      = (Real.exp (-(gamma * z i ^ 2)) : ℝ) := by
    intro i
    have := charFun_gaussianReal (μ := 0) (v := 2 * gamma) (z i)
    rw [charFun_apply_real] at this
    rw [this]
    push_cast
    congr 1
    ring
  have hint : Integrable (fun w : Fin n → ℝ => ∏ i, Complex.exp (z i * (w i : ℝ) * Complex.I))
      (Measure.pi fun _ : Fin n => gaussianReal 0 (2 * gamma)) := by
    apply Integrable.of_bound (C := 1)
    · exact (by fun_prop : Measurable _).aestronglyMeasurable
    · filter_upwards with w
      rw [norm_prod]
      apply Finset.prod_le_one (fun i _ => norm_nonneg _)
      intro i _
      rw [← Complex.ofReal_mul, Complex.norm_exp_ofReal_mul_I]
  have h3 : ∀ w : Fin n → ℝ, Real.cos (∑ i, z i * w i)
      = (∏ i, Complex.exp (z i * (w i : ℝ) * Complex.I)).re := by
    intro w
    rw [← Complex.exp_sum, ← Finset.sum_mul, ← Complex.exp_ofReal_mul_I_re]
    push_cast
    rfl
  simp_rw [h3]
  have h4 := integral_re hint
  simp only [RCLike.re_to_complex] at h4
  rw [h4, h1]
  simp_rw [h2]
  rw [← Complex.ofReal_prod, Complex.ofReal_re, ← Real.exp_sum, Finset.mul_sum,
    Finset.sum_neg_distrib]

/-- One component's share of the inner product. -/
noncomputable def share (x y : Fin n → ℝ) (p : (Fin n → ℝ) × ℝ) : ℝ :=
  2 * (Real.cos ((∑ i, x i * p.1 i) + p.2) * Real.cos ((∑ i, y i * p.1 i) + p.2))

theorem share_measurable (x y : Fin n → ℝ) : Measurable (share x y) := by
  unfold share; fun_prop

theorem share_mem (x y : Fin n → ℝ) (p : (Fin n → ℝ) × ℝ) : share x y p ∈ Set.Icc (-2) 2 := by
  have : |share x y p| ≤ 2 := by
    unfold share
    rw [abs_mul, abs_mul, abs_two]
    have h1 := Real.abs_cos_le_one ((∑ i, x i * p.1 i) + p.2)
    have h2 := Real.abs_cos_le_one ((∑ i, y i * p.1 i) + p.2)
    nlinarith [abs_nonneg (Real.cos ((∑ i, x i * p.1 i) + p.2)),
      abs_nonneg (Real.cos ((∑ i, y i * p.1 i) + p.2))]
  exact abs_le.1 this

theorem share_integral (gamma : ℝ≥0) (x y : Fin n → ℝ) :
    ∫ p, share x y p ∂(rbfComponent gamma n) = gaussianKernel gamma x y := by
  unfold rbfComponent
  rw [integral_prod _ (Integrable.of_mem_Icc (-2) 2 (share_measurable x y).aemeasurable
    (Filter.Eventually.of_forall (share_mem x y)))]
  have h : ∀ w : Fin n → ℝ, ∫ b, share x y (w, b) ∂(cond volume (Set.Icc 0 (2 * Real.pi)))
      = Real.cos (∑ i, (x i - y i) * w i) := by
    intro w
    have e : ∀ b, share x y (w, b) = Real.cos (∑ i, (x i - y i) * w i)
        + Real.cos (((∑ i, x i * w i) + ∑ i, y i * w i) + 2 * b) := by
      intro b
      simp only [share, sub_mul, Finset.sum_sub_distrib]
      generalize (∑ i, x i * w i) = a
      generalize (∑ i, y i * w i) = c
      rw [← mul_assoc, Real.two_mul_cos_mul_cos]
      congr 1 <;> congr 1 <;> ring
    simp_rw [e]
    rw [integral_add (integrable_const _), offset_integral, integral_const]
    · simp
    · apply Integrable.of_mem_Icc (-1) 1
      · exact (by fun_prop : Measurable _).aemeasurable
      · exact Filter.Eventually.of_forall fun b => ⟨Real.neg_one_le_cos _, Real.cos_le_one _⟩
  simp_rw [h]
  exact weights_integral gamma fun i => x i - y i

theorem rbfProduct_eq (hd : 0 < d) (ω : Fin d → (Fin n → ℝ) × ℝ) (x y : Fin n → ℝ) :
    rbfProduct ω x y = (∑ k, share x y (ω k)) / d := by
  unfold rbfProduct Inqmad.compute share rbfEnv realInqEnv
  rw [Finset.sum_div]
  apply Finset.sum_congr rfl
  intro k _
  have h2 : Real.sqrt 2 * Real.sqrt 2 = 2 := Real.mul_self_sqrt (by norm_num)
  have h3 : Real.sqrt d * Real.sqrt d = d := Real.mul_self_sqrt (by positivity)
  have h4 : (0:ℝ) < Real.sqrt d := Real.sqrt_pos.2 (by exact_mod_cast hd)
  dsimp only
  generalize Real.cos ((∑ i, x i * (ω k).1 i) + (ω k).2) = a
  generalize Real.cos ((∑ i, y i * (ω k).1 i) + (ω k).2) = c
  calc a * (Real.sqrt 2 / Real.sqrt d) * (c * (Real.sqrt 2 / Real.sqrt d))
      = (Real.sqrt 2 * Real.sqrt 2) * (a * c) / (Real.sqrt d * Real.sqrt d) := by
        field_simp
    _ = 2 * (a * c) / d := by rw [h2, h3]

theorem share_eval (gamma : ℝ≥0) (x y : Fin n → ℝ) (k : Fin d) :
    ∫ ω, share x y (ω k) ∂(rbfSampler gamma n d) = gaussianKernel gamma x y := by
  rw [← share_integral gamma x y]
  have := (measurePreserving_eval (fun _ : Fin d => rbfComponent gamma n) k)
  have h := integral_map (μ := rbfSampler gamma n d) (φ := Function.eval k)
    (f := share x y) this.measurable.aemeasurable
    (share_measurable x y).aestronglyMeasurable
  unfold rbfSampler at h ⊢
  rw [this.map_eq] at h
  exact h.symm

theorem share_eval_measurable (x y : Fin n → ℝ) (k : Fin d) :
    Measurable fun ω : Fin d → (Fin n → ℝ) × ℝ => share x y (ω k) :=
  (share_measurable x y).comp (measurable_pi_apply k)

theorem share_eval_integrable (gamma : ℝ≥0) (x y : Fin n → ℝ) (k : Fin d) :
    Integrable (fun ω => share x y (ω k)) (rbfSampler gamma n d) :=
  Integrable.of_mem_Icc (-2) 2 (share_eval_measurable x y k).aemeasurable
    (Filter.Eventually.of_forall fun ω => share_mem x y (ω k))

/-- One half of the concentration. -/
theorem upper (gamma : ℝ≥0) (hd : 0 < d) (s : ℝ) (hs : s = 1 ∨ s = -1) (x y : Fin n → ℝ) (ε : ℝ)
    (hε : 0 ≤ ε) :
    (rbfSampler gamma n d).real
        {ω | ε ≤ s * (rbfProduct ω x y - gaussianKernel gamma x y)}
      ≤ Real.exp (-(d * ε ^ 2 / 8)) := by
  have hind : iIndepFun (fun (k : Fin d) (ω : Fin d → (Fin n → ℝ) × ℝ) =>
      s * (share x y (ω k) - gaussianKernel gamma x y)) (rbfSampler gamma n d) :=
    iIndepFun_pi (X := fun (_ : Fin d) (p : (Fin n → ℝ) × ℝ) =>
      s * (share x y p - gaussianKernel gamma x y))
      fun _ => (((share_measurable x y).sub_const _).const_mul _).aemeasurable
  have hsub : ∀ k ∈ (Finset.univ : Finset (Fin d)), HasSubgaussianMGF
      (fun ω => s * (share x y (ω k) - gaussianKernel gamma x y)) 4 (rbfSampler gamma n d) := by
    intro k _
    have h := hasSubgaussianMGF_of_mem_Icc (μ := rbfSampler gamma n d) (a := -2) (b := 2)
      (share_eval_measurable x y k).aemeasurable
      (Filter.Eventually.of_forall fun ω => share_mem x y (ω k))
    rw [share_eval] at h
    have h4 : (‖(2:ℝ) - -2‖₊ / 2) ^ 2 = 4 := by
      rw [← NNReal.coe_inj]
      push_cast
      norm_num
    rw [h4] at h
    rcases hs with rfl | rfl
    · simpa using h
    · have := h.neg
      apply this.congr
      filter_upwards with ω
      simp
  have h := HasSubgaussianMGF.measure_sum_ge_le_of_iIndepFun hind hsub
    (ε := d * ε) (by positivity)
  have hd' : (0:ℝ) < d := by exact_mod_cast hd
  have e : {ω | ε ≤ s * (rbfProduct ω x y - gaussianKernel gamma x y)}
      = {ω | (d:ℝ) * ε ≤ ∑ k : Fin d, s * (share x y (ω k) - gaussianKernel gamma x y)} := by
    ext ω
    simp only [Set.mem_ofPred_eq]
    rw [rbfProduct_eq hd, ← Finset.mul_sum, Finset.sum_sub_distrib, Finset.sum_const,
      Finset.card_univ, Fintype.card_fin, nsmul_eq_mul]
    have : s * ((∑ k, share x y (ω k)) / d - gaussianKernel gamma x y)
        = (s * (∑ k, share x y (ω k) - d * gaussianKernel gamma x y)) / d := by
      field_simp
    rw [this, le_div_iff₀ hd', mul_comm]
  rw [e]
  refine h.trans_eq ?_
  congr 1
  simp only [Finset.sum_const, Finset.card_univ, Fintype.card_fin, nsmul_eq_mul]
  push_cast
  field_simp
  norm_num
  ring

theorem product_measurable (hd : 0 < d) (x y : Fin n → ℝ) :
    Measurable fun ω : Fin d → (Fin n → ℝ) × ℝ => rbfProduct ω x y := by
  simp_rw [rbfProduct_eq hd]
  exact (Finset.measurable_sum _ fun k _ => share_eval_measurable x y k).div_const _

end Rbf

/-- **C143, on average.** The inner product of the vectors computed for two instances is, on
average over what the sampler draws, the Gaussian kernel of the two. -/
theorem C143_kernel_average (gamma : ℝ≥0) (hd : 0 < d) (x y : Fin n → ℝ) :
    ∫ ω, rbfProduct ω x y ∂(rbfSampler gamma n d) = gaussianKernel gamma x y := by
  simp_rw [Rbf.rbfProduct_eq hd]
  rw [integral_div, integral_finsetSum _ fun k _ => Rbf.share_eval_integrable gamma x y k]
  simp_rw [Rbf.share_eval]
  have hd' : (d:ℝ) ≠ 0 := by positivity
  simp [hd']

/-- **C143, how close.** With `d` components, it is off by `ε` or more with probability at most
`2 exp(-d ε² / 8)`. -/
theorem C143_kernel_close (gamma : ℝ≥0) (hd : 0 < d) (x y : Fin n → ℝ) (ε : ℝ) (hε : 0 ≤ ε) :
    (rbfSampler gamma n d).real {ω | ε ≤ |rbfProduct ω x y - gaussianKernel gamma x y|}
      ≤ 2 * Real.exp (-(d * ε ^ 2 / 8)) := by
  have h1 := Rbf.upper gamma hd 1 (Or.inl rfl) x y ε hε
  have h2 := Rbf.upper gamma hd (-1) (Or.inr rfl) x y ε hε
  have hsub : {ω : Fin d → (Fin n → ℝ) × ℝ | ε ≤ |rbfProduct ω x y - gaussianKernel gamma x y|}
      ⊆ {ω | ε ≤ 1 * (rbfProduct ω x y - gaussianKernel gamma x y)}
        ∪ {ω | ε ≤ -1 * (rbfProduct ω x y - gaussianKernel gamma x y)} := by
    intro ω hω
    simp only [Set.mem_ofPred_eq, Set.mem_union, one_mul, neg_mul] at hω ⊢
    exact le_abs.1 hω
  calc _ ≤ _ := measureReal_mono hsub (measure_ne_top _ _)
    _ ≤ _ := measureReal_union_le _ _
    _ ≤ _ := by linarith

namespace Rbf

theorem kernel_self (gamma : ℝ≥0) (x : Fin n → ℝ) : gaussianKernel gamma x x = 1 := by
  simp [gaussianKernel]

theorem kernel_mem (gamma : ℝ≥0) (x y : Fin n → ℝ) :
    0 < gaussianKernel gamma x y ∧ gaussianKernel gamma x y ≤ 1 := by
  refine ⟨Real.exp_pos _, ?_⟩
  rw [gaussianKernel, Real.exp_le_one_iff, neg_nonpos]
  exact mul_nonneg gamma.2 (Finset.sum_nonneg fun i _ => sq_nonneg _)

theorem kernel_sq (gamma : ℝ≥0) (x y : Fin n → ℝ) :
    gaussianKernel gamma x y ^ 2 = gaussianKernel (2 * gamma) x y := by
  rw [gaussianKernel, gaussianKernel, ← Real.exp_nat_mul]
  push_cast
  congr 1
  ring

/-- The cosine of the angle between two feature vectors. -/
theorem feature_product (ω : Fin d → (Fin n → ℝ) × ℝ) (x y : Fin n → ℝ) :
    (∑ k, Inqmad.feature (rbfEnv ω) x k * Inqmad.feature (rbfEnv ω) y k) ^ 2
      = rbfProduct ω x y ^ 2 / (rbfProduct ω x x * rbfProduct ω y y) := by
  have h : ∀ u : Fin n → ℝ, ∑ j, Inqmad.compute (rbfEnv ω) u j ^ 2 = rbfProduct ω u u := by
    intro u
    exact Finset.sum_congr rfl fun k _ => sq _
  have hn : ∀ u : Fin n → ℝ, 0 ≤ rbfProduct ω u u := fun u => by
    rw [← h u]; exact Finset.sum_nonneg fun k _ => sq_nonneg _
  have e : ∑ k, Inqmad.feature (rbfEnv ω) x k * Inqmad.feature (rbfEnv ω) y k
      = rbfProduct ω x y / (Real.sqrt (rbfProduct ω x x) * Real.sqrt (rbfProduct ω y y)) := by
    unfold Inqmad.feature
    rw [h x, h y]
    conv_rhs => rw [rbfProduct.eq_def ω x y]
    rw [Finset.sum_div]
    apply Finset.sum_congr rfl
    intro k _
    exact div_mul_div_comm _ _ _ _
  rw [e, div_pow, mul_pow, Real.sq_sqrt (hn x), Real.sq_sqrt (hn y)]

/-- Close products give a close cosine. -/
theorem ratio_close (a p q κ ε : ℝ) (hκ : 0 < κ) (hκ' : κ ≤ 1) (hε : 0 < ε) (hε' : ε ≤ 1 / 2)
    (ha : |a - κ| < ε) (hp : |p - 1| < ε) (hq : |q - 1| < ε) :
    |a ^ 2 / (p * q) - κ ^ 2| < 20 * ε := by
  rw [abs_lt] at ha hp hq
  have hpq : (1 - ε) * (1 - ε) < p * q := by nlinarith
  have hpq' : p * q < (1 + ε) * (1 + ε) := by nlinarith
  have h4 : 1 / 4 < p * q := by nlinarith
  have hpos : 0 < p * q := by linarith
  have e : a ^ 2 / (p * q) - κ ^ 2 = (a ^ 2 - κ ^ 2 * (p * q)) / (p * q) := by
    rw [sub_div, mul_div_cancel_right₀ _ hpos.ne']
  rw [e, abs_div, abs_of_pos hpos, div_lt_iff₀ hpos]
  have h5 : |a ^ 2 - κ ^ 2 * (p * q)| < 5 * ε := by
    have ha2 : a ^ 2 - κ ^ 2 = (a - κ) * (a - κ) + 2 * κ * (a - κ) := by ring
    have hs : (a - κ) * (a - κ) ≤ ε * ε := by nlinarith
    have hs0 : 0 ≤ (a - κ) * (a - κ) := mul_self_nonneg _
    have hk2 : 0 ≤ κ ^ 2 := sq_nonneg _
    have hk21 : κ ^ 2 ≤ 1 := by nlinarith
    have hlin : |2 * κ * (a - κ)| ≤ 2 * ε := by
      rw [abs_mul, abs_of_pos (by positivity : (0:ℝ) < 2 * κ)]
      have : |a - κ| ≤ ε := abs_le.2 ⟨by linarith, by linarith⟩
      nlinarith [abs_nonneg (a - κ)]
    have hlin' := abs_le.1 hlin
    rw [abs_lt]
    constructor <;> nlinarith
  nlinarith

end Rbf

/-- **C143.** In every history in which something was fitted: let `z` be the instance scores are
measured against (C85: the last one fitted before the first score) and `N` the number fitted by
then. Then `N²` times the score of `x` is within `20 ε` of the Gaussian kernel
`exp(-2 gamma ‖x - z‖²)`, except with probability at most `6 exp(-d ε² / 8)` over what the
sampler draws. -/
theorem C143_score_close {β : Type*} (gamma : ℝ≥0) (hd : 0 < d) (b : ℕ) (hb : b ≠ 0)
    (h : List (Call (Fin n → ℝ) β)) (z x : Fin n → ℝ)
    (hz : (fittedAtFirstScore [] h).getLast? = some z) (ε : ℝ) (hε : 0 < ε) (hε' : ε ≤ 1 / 2) :
    (rbfSampler gamma n d).real {ω | ¬ ∃ v,
        (Inqmad.scorePartial (rbfEnv ω)
          (calls (Inqmad.detector (rbfEnv ω)) (Inqmad.new b) h).2 x).out = .ok v ∧
        |((fittedAtFirstScore [] h).length : ℝ) ^ 2 * v - gaussianKernel (2 * gamma) x z|
          < 20 * ε}
      ≤ 6 * Real.exp (-(d * ε ^ 2 / 8)) := by
  have h1 := C143_kernel_close gamma hd x z ε hε.le
  have h2 := C143_kernel_close gamma hd x x ε hε.le
  have h3 := C143_kernel_close gamma hd z z ε hε.le
  rw [Rbf.kernel_self] at h2 h3
  have hlen : ((fittedAtFirstScore [] h).length : ℝ) ≠ 0 := by
    have : fittedAtFirstScore [] h ≠ [] := by
      intro e
      rw [e] at hz
      cases hz
    simpa using this
  have hsub : {ω : Fin d → (Fin n → ℝ) × ℝ | ¬ ∃ v,
        (Inqmad.scorePartial (rbfEnv ω)
          (calls (Inqmad.detector (rbfEnv ω)) (Inqmad.new b) h).2 x).out = .ok v ∧
        |((fittedAtFirstScore [] h).length : ℝ) ^ 2 * v - gaussianKernel (2 * gamma) x z|
          < 20 * ε}
      ⊆ {ω | ε ≤ |rbfProduct ω x z - gaussianKernel gamma x z|}
        ∪ ({ω | ε ≤ |rbfProduct ω x x - 1|} ∪ {ω | ε ≤ |rbfProduct ω z z - 1|}) := by
    intro ω hω
    by_contra hno
    simp only [Set.mem_union, Set.mem_ofPred_eq, not_or, not_le] at hno
    obtain ⟨n1, n2, n3⟩ := hno
    apply hω
    have hnz : ∀ u : Fin n → ℝ, |rbfProduct ω u u - 1| < ε →
        ∃ k, Inqmad.compute (rbfEnv ω) u k ≠ 0 := by
      intro u hu
      by_contra hall
      push Not at hall
      have : rbfProduct ω u u = 0 := Finset.sum_eq_zero fun k _ => by rw [hall k, mul_zero]
      rw [this] at hu
      norm_num at hu
      linarith
    refine ⟨lastMeasure (rbfEnv ω) (fittedAtFirstScore [] h) z x, ?_, ?_⟩
    · rw [C85_inqmad_scores_partial (rbfEnv ω) b hb h x, hz]
    · have hdir := (C89_inqmad_direction_partial (fun i k => (ω k).1 i) (fun k => (ω k).2)
        (fittedAtFirstScore [] h) z x (hnz z n3) (hnz x n2)).1
      change lastMeasure (rbfEnv ω) _ z x = _ at hdir
      rw [hdir, mul_div_cancel₀ _ (pow_ne_zero 2 hlen)]
      change |(∑ k, Inqmad.feature (rbfEnv ω) x k * Inqmad.feature (rbfEnv ω) z k) ^ 2 - _| < _
      rw [Rbf.feature_product, ← Rbf.kernel_sq]
      obtain ⟨k1, k2⟩ := Rbf.kernel_mem gamma x z
      exact Rbf.ratio_close _ _ _ _ ε k1 k2 hε hε' n1 n2 n3
  calc _ ≤ _ := measureReal_mono hsub (measure_ne_top _ _)
    _ ≤ _ := measureReal_union_le _ _
    _ ≤ _ := add_le_add le_rfl (measureReal_union_le _ _)
    _ ≤ _ := by linarith

/-- **C143, more components, better scores.** For every tolerance `δ`, the probability that
`N²` times the score is not within `δ` of the kernel vanishes as the number of components
grows. -/
theorem C143_score_converges {β : Type*} (gamma : ℝ≥0) (b : ℕ) (hb : b ≠ 0)
    (h : List (Call (Fin n → ℝ) β)) (z x : Fin n → ℝ)
    (hz : (fittedAtFirstScore [] h).getLast? = some z) (δ : ℝ) (hδ : 0 < δ) :
    Filter.Tendsto (fun d => (rbfSampler gamma n d).real {ω | ¬ ∃ v,
        (Inqmad.scorePartial (rbfEnv ω)
          (calls (Inqmad.detector (rbfEnv ω)) (Inqmad.new b) h).2 x).out = .ok v ∧
        |((fittedAtFirstScore [] h).length : ℝ) ^ 2 * v - gaussianKernel (2 * gamma) x z|
          < δ})
      Filter.atTop (nhds 0) := by
  obtain ⟨ε, hε, hε', hεδ⟩ : ∃ ε : ℝ, 0 < ε ∧ ε ≤ 1 / 2 ∧ 20 * ε ≤ δ :=
    ⟨min (1 / 2) (δ / 20), by positivity, min_le_left _ _, by
      have := min_le_right (1 / 2) (δ / 20); linarith⟩
  have hlim : Filter.Tendsto (fun d : ℕ => 6 * Real.exp (-(d * ε ^ 2 / 8))) Filter.atTop
      (nhds 0) := by
    have h1 : Filter.Tendsto (fun d : ℕ => (d : ℝ) * (ε ^ 2 / 8)) Filter.atTop Filter.atTop :=
      tendsto_natCast_atTop_atTop.atTop_mul_const (by positivity)
    have h2 := (Real.tendsto_exp_neg_atTop_nhds_zero.comp h1).const_mul 6
    simp only [mul_zero, Function.comp_def] at h2
    refine h2.congr fun d => ?_
    rw [mul_div_assoc]
  refine squeeze_zero' (Filter.Eventually.of_forall fun _ => measureReal_nonneg) ?_ hlim
  filter_upwards [Filter.eventually_gt_atTop 0] with d hd
  refine le_trans (measureReal_mono ?_ (measure_ne_top _ _))
    (C143_score_close gamma hd b hb h z x hz ε hε hε')
  intro ω hω hno
  obtain ⟨v, hv, hc⟩ := hno
  exact hω ⟨v, hv, hc.trans_le hεδ⟩

/-! The hypotheses are met: two instances are fitted, then scores are asked for. -/
example : (fittedAtFirstScore []
    [(.fit (fun _ => 1) none : Call (Fin 3 → ℝ) Unit), .fit (fun _ => 2) none,
      .score fun _ => 0, .fit (fun _ => 5) none]).getLast? = some fun _ => 2 := rfl

end Pysad
