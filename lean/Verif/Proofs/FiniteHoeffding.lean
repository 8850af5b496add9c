import Verif.Proofs.Expectation
import Mathlib.Probability.Moments.SubGaussian
import Mathlib.Probability.ProbabilityMassFunction.Integrals
import Mathlib.Probability.Distributions.Uniform

/-! Hoeffding's inequality for independent uniform draws from a finite set. -/

namespace Pysad

open Spec MeasureTheory ProbabilityTheory

namespace Expect
variable {Ω : Type*} [Fintype Ω] [Nonempty Ω]

/-- Hoeffding's lemma. -/
theorem exp_le (F : Ω → ℝ) (a b : ℝ) (hab : ∀ v, a ≤ F v ∧ F v ≤ b) (s : ℝ) :
    (expectation fun v => Real.exp (s * (F v - expectation F))) ≤
      Real.exp (s ^ 2 * (b - a) ^ 2 / 8) := by
  let _ : MeasurableSpace Ω := ⊤
  have _ : MeasurableSingletonClass Ω := ⟨fun _ => trivial⟩
  set μ := (PMF.uniformOfFintype Ω).toMeasure with hμ
  have hint : ∀ f : Ω → ℝ, ∫ v, f v ∂μ = expectation f := by
    intro f
    rw [hμ, PMF.integral_eq_sum]
    unfold expectation
    simp only [PMF.uniformOfFintype_apply, ENNReal.toReal_inv, ENNReal.toReal_natCast, smul_eq_mul]
    rw [← Finset.mul_sum, div_eq_inv_mul]
  have h := (hasSubgaussianMGF_of_mem_Icc (μ := μ) (X := F) (a := a) (b := b)
    (measurable_from_top.aemeasurable) (ae_of_all _ hab)).mgf_le s
  unfold mgf at h
  rw [hint F, hint] at h
  refine h.trans (le_of_eq ?_)
  congr 1
  push_cast
  rw [Real.norm_eq_abs, div_pow, sq_abs]
  ring

omit [Nonempty Ω] in
/-- Independent draws. -/
theorem prod (g : Ω → ℝ) (T : ℕ) :
    (expectation fun ω : Fin T → Ω => ∏ t, g (ω t)) = expectation g ^ T := by
  classical
  unfold expectation
  rw [div_pow, Fintype.sum_pow, Fintype.card_fun, Fintype.card_fin]
  push_cast
  rfl

/-- Markov's inequality for the exponential. -/
theorem markov (f : Ω → ℝ) : fraction (fun v => 0 ≤ f v) ≤ expectation fun v => Real.exp (f v) := by
  classical
  unfold fraction expectation
  apply div_le_div_of_nonneg_right _ (by positivity)
  rw [← Finset.sum_boole]
  refine le_trans (le_of_eq (by congr! )) (Finset.sum_le_sum (f := fun v => if 0 ≤ f v then (1 : ℝ) else 0) fun v _ => ?_)
  split_ifs with h
  · exact Real.one_le_exp h
  · exact (Real.exp_pos _).le

/-- Hoeffding's inequality, upper tail. -/
theorem hoeffding_above (F : Ω → ℝ) (a b : ℝ) (hab : ∀ v, a ≤ F v ∧ F v ≤ b) (T : ℕ) (hT : 0 < T)
    (ε : ℝ) (hε : 0 ≤ ε) :
    fraction (fun ω : Fin T → Ω => ε ≤ (∑ t, F (ω t)) / T - expectation F) ≤
      Real.exp (-(2 * T * ε ^ 2 / (b - a) ^ 2)) := by
  have hT' : (0 : ℝ) < T := by exact_mod_cast hT
  rcases eq_or_ne (b - a) 0 with h0 | h0
  · have hle : ∀ {p : (Fin T → Ω) → Prop}, fraction p ≤ 1 := by
      intro p
      classical
      unfold fraction
      rw [div_le_one (by positivity)]
      exact_mod_cast Finset.card_le_univ _
    rw [h0]
    simpa using hle
  set s : ℝ := 4 * ε / (b - a) ^ 2 with hs
  have hs0 : 0 ≤ s := by positivity
  have hb : 0 < (b - a) ^ 2 := by positivity
  calc fraction (fun ω : Fin T → Ω => ε ≤ (∑ t, F (ω t)) / T - expectation F)
      ≤ fraction (fun ω : Fin T → Ω => 0 ≤ s * ((∑ t, (F (ω t) - expectation F)) - T * ε)) := by
        classical
        unfold fraction
        apply div_le_div_of_nonneg_right _ (by positivity)
        norm_cast
        apply Finset.card_le_card
        intro ω hω
        rw [Finset.mem_filter] at hω ⊢
        refine ⟨hω.1, mul_nonneg hs0 ?_⟩
        have := hω.2
        rw [le_sub_iff_add_le, le_div_iff₀ hT'] at this
        rw [Finset.sum_sub_distrib, Finset.sum_const, Finset.card_univ, Fintype.card_fin, nsmul_eq_mul]
        linarith
    _ ≤ expectation fun ω : Fin T → Ω =>
          Real.exp (s * ((∑ t, (F (ω t) - expectation F)) - T * ε)) := markov _
    _ = (expectation fun ω : Fin T → Ω => ∏ t, Real.exp (s * (F (ω t) - expectation F)))
          * Real.exp (-(s * (T * ε))) := by
        rw [← Expect.mul_right]
        apply Expect.congr
        intro ω
        rw [← Real.exp_sum, ← Real.exp_add, ← Finset.mul_sum]
        congr 1
        ring
    _ = (expectation fun v => Real.exp (s * (F v - expectation F))) ^ T
          * Real.exp (-(s * (T * ε))) := by
        rw [Expect.prod fun v => Real.exp (s * (F v - expectation F))]
    _ ≤ Real.exp (s ^ 2 * (b - a) ^ 2 / 8) ^ T * Real.exp (-(s * (T * ε))) := by
        apply mul_le_mul_of_nonneg_right _ (Real.exp_pos _).le
        refine pow_le_pow_left₀ ?_ (exp_le F a b hab s) T
        unfold expectation
        exact div_nonneg (Finset.sum_nonneg fun v _ => (Real.exp_pos _).le) (by positivity)
    _ = Real.exp (-(2 * T * ε ^ 2 / (b - a) ^ 2)) := by
        rw [← Real.exp_nat_mul, ← Real.exp_add]
        congr 1
        rw [hs]
        field_simp
        ring

/-- Hoeffding's inequality. -/
theorem hoeffding (F : Ω → ℝ) (a b : ℝ) (hab : ∀ v, a ≤ F v ∧ F v ≤ b) (T : ℕ) (hT : 0 < T)
    (ε : ℝ) (hε : 0 ≤ ε) :
    fraction (fun ω : Fin T → Ω => ε ≤ |(∑ t, F (ω t)) / T - expectation F|) ≤
      2 * Real.exp (-(2 * T * ε ^ 2 / (b - a) ^ 2)) := by
  have h1 := hoeffding_above F a b hab T hT ε hε
  have h2 := hoeffding_above (fun v => -F v) (-b) (-a)
    (fun v => ⟨neg_le_neg (hab v).2, neg_le_neg (hab v).1⟩) T hT ε hε
  have e1 : (-a - -b) ^ 2 = (b - a) ^ 2 := by ring
  rw [e1] at h2
  have e2 : (expectation fun v => -F v) = -expectation F := by
    have := Expect.mul_left (-1) F
    simpa using this
  rw [e2] at h2
  refine le_trans ?_ ((add_le_add h1 h2).trans (le_of_eq (two_mul _).symm))
  classical
  unfold fraction
  rw [← add_div]
  apply div_le_div_of_nonneg_right _ (by positivity)
  norm_cast
  refine (Finset.card_le_card ?_).trans (Finset.card_union_le _ _)
  intro ω hω
  rw [Finset.mem_union, Finset.mem_filter, Finset.mem_filter]
  rcases le_abs.1 (Finset.mem_filter.1 hω).2 with h | h
  · exact .inl ⟨Finset.mem_univ _, h⟩
  · refine .inr ⟨Finset.mem_univ _, ?_⟩
    rw [Finset.sum_neg_distrib, neg_div]
    linarith

end Expect

end Pysad
