import Verif.Prelude
import Mathlib.Analysis.SpecialFunctions.Gaussian.GaussianIntegral

/-! The complementary error function. -/

namespace Pysad.Spec

open MeasureTheory Set

/-- What is used of `math.erfc`. -/
structure ErfcLike (erfc : ℝ → ℝ) : Prop where
  antitone : Antitone erfc
  nonneg : ∀ z, 0 ≤ erfc z
  le_two : ∀ z, erfc z ≤ 2
  zero : erfc 0 = 1

/-- The complementary error function `2/√π ∫_z^∞ exp(-t²) dt`. -/
noncomputable def erfc (z : ℝ) : ℝ := 2 / √Real.pi * ∫ t in Ioi z, Real.exp (-1 * t ^ 2)

theorem integrable_gauss : Integrable fun t : ℝ => Real.exp (-1 * t ^ 2) :=
  integrable_exp_neg_mul_sq one_pos

theorem erfc_strictAnti : StrictAnti erfc := by
  intro a b hab
  have hpi : 0 < 2 / √Real.pi := by positivity
  refine mul_lt_mul_of_pos_left ?_ hpi
  have hsplit : Ioi a = Ioc a b ∪ Ioi b := (Ioc_union_Ioi_eq_Ioi hab.le).symm
  rw [hsplit, setIntegral_union (by
      rw [Set.disjoint_left]; intro x hx hx'; exact absurd hx.2 (not_le.2 hx'))
    measurableSet_Ioi integrable_gauss.integrableOn integrable_gauss.integrableOn]
  rw [← intervalIntegral.integral_of_le hab.le]
  have := intervalIntegral.intervalIntegral_pos_of_pos (f := fun t : ℝ => Real.exp (-1 * t ^ 2))
    integrable_gauss.intervalIntegrable (fun _ => Real.exp_pos _) hab
  linarith

theorem erfc_erfcLike : ErfcLike erfc where
  antitone := erfc_strictAnti.antitone
  nonneg z := mul_nonneg (by positivity) (setIntegral_nonneg measurableSet_Ioi fun _ _ =>
    (Real.exp_pos _).le)
  le_two z := by
    have h : (∫ t in Ioi z, Real.exp (-1 * t ^ 2)) ≤ ∫ t, Real.exp (-1 * t ^ 2) :=
      setIntegral_le_integral integrable_gauss (ae_of_all _ fun _ => (Real.exp_pos _).le)
    rw [integral_gaussian, div_one] at h
    have hpi : 0 < √Real.pi := Real.sqrt_pos.2 Real.pi_pos
    calc erfc z ≤ 2 / √Real.pi * √Real.pi := mul_le_mul_of_nonneg_left h (by positivity)
      _ = 2 := by field_simp
  zero := by
    unfold erfc
    rw [integral_gaussian_Ioi, div_one]
    have hpi : 0 < √Real.pi := Real.sqrt_pos.2 Real.pi_pos
    field_simp

end Pysad.Spec
