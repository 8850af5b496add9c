import Verif.Proofs.Shifts
import Mathlib.Probability.Moments.SubGaussian
import Mathlib.Probability.ProductMeasure

/-! Means of independent bounded numbers are close to their average. -/

namespace Pysad

open Spec MeasureTheory ProbabilityTheory

namespace Shifts
variable {m : ℕ} {κ : Type*} [Fintype κ]

instance : IsProbabilityMeasure (volume.restrict (Set.Ico (0 : ℝ) 1)) :=
  ⟨by simp⟩

instance probability (ι : Type*) [Fintype ι] : IsProbabilityMeasure (uniformDraws ι) := by
  unfold uniformDraws; infer_instance

/-- Drawing all numbers is drawing the blocks of numbers independently. -/
theorem map_curry : (uniformDraws (Fin m × κ)).map (MeasurableEquiv.curry (Fin m) κ ℝ) =
    Measure.pi fun _ : Fin m => uniformDraws κ := by
  unfold uniformDraws
  simp only [← Measure.infinitePi_eq_pi]
  exact Measure.infinitePi_map_curry fun (_ : Fin m) (_ : κ) => volume.restrict (Set.Ico (0 : ℝ) 1)

theorem independent (X : Fin m → (κ → ℝ) → ℝ) (hX : ∀ r, Measurable (X r)) :
    iIndepFun (fun (r : Fin m) (u : Fin m × κ → ℝ) => X r fun d => u (r, d))
      (uniformDraws (Fin m × κ)) := by
  have h := iIndepFun_pi (μ := fun _ : Fin m => uniformDraws κ) (X := X)
    fun r => (hX r).aemeasurable
  rw [← map_curry] at h
  rw [iIndepFun_iff_measure_inter_preimage_eq_mul] at h ⊢
  intro S sets hs
  have h' := h S hs
  have hpre : ∀ i ∈ S, MeasurableSet ((fun ω : Fin m → κ → ℝ => X i (ω i)) ⁻¹' sets i) :=
    fun i hi => ((hX i).comp (measurable_pi_apply i)) (hs i hi)
  rw [Measure.map_apply (by fun_prop) (Finset.measurableSet_biInter S hpre)] at h'
  rw [Finset.prod_congr rfl fun i hi => Measure.map_apply (by fun_prop) (hpre i hi)] at h'
  simp only [Set.preimage_iInter] at h'
  exact h'

theorem measurable_block {X : (κ → ℝ) → ℝ} (hX : Measurable X) (r : Fin m) :
    Measurable fun u : Fin m × κ → ℝ => X fun d => u (r, d) :=
  hX.comp (by fun_prop)

/-- Hoeffding's inequality, upper tail. -/
theorem hoeffding_above (hm : 0 < m) (X : Fin m → (κ → ℝ) → ℝ) (hX : ∀ r, Measurable (X r))
    (a b : ℝ) (hab : ∀ r v, a ≤ X r v ∧ X r v ≤ b) (ε : ℝ) (hε : 0 ≤ ε) :
    chanceOf {u : Fin m × κ → ℝ | ε ≤ (∑ r, X r fun d => u (r, d)) / m -
      average fun u : Fin m × κ → ℝ => (∑ r, X r fun d => u (r, d)) / m} ≤
      Real.exp (-(2 * m * ε ^ 2 / (b - a) ^ 2)) := by
  have hm' : (0 : ℝ) < m := by exact_mod_cast hm
  set μ := uniformDraws (Fin m × κ) with hμ
  set Y : Fin m → (Fin m × κ → ℝ) → ℝ := fun r u => X r fun d => u (r, d) with hY
  have hYm : ∀ r, Measurable (Y r) := fun r => measurable_block (hX r) r
  have hYb : ∀ r u, Y r u ∈ Set.Icc a b := fun r u => hab r _
  have hint : ∀ r, Integrable (Y r) μ := fun r =>
    Integrable.of_mem_Icc a b (hYm r).aemeasurable (ae_of_all _ (hYb r))
  have hsub : ∀ r ∈ (Finset.univ : Finset (Fin m)),
      HasSubgaussianMGF (fun u => Y r u - ∫ u, Y r u ∂μ) ((‖b - a‖₊ / 2) ^ 2) μ := fun r _ =>
    hasSubgaussianMGF_of_mem_Icc (hYm r).aemeasurable (ae_of_all _ (hYb r))
  have hind : iIndepFun (fun r u => Y r u - ∫ u, Y r u ∂μ) μ := by
    have := (independent X hX).comp (fun r v => v - ∫ u, Y r u ∂μ) fun r => by fun_prop
    exact this
  have h := HasSubgaussianMGF.measure_sum_ge_le_of_iIndepFun hind hsub (ε := m * ε) (by positivity)
  have hav : (average fun u : Fin m × κ → ℝ => (∑ r, Y r u) / m) =
      (∑ r, ∫ u, Y r u ∂μ) / m := by
    unfold Spec.average
    rw [integral_div, integral_finset_sum _ fun r _ => hint r]
  have hset : {u : Fin m × κ → ℝ | ε ≤ (∑ r, Y r u) / m -
      average fun u : Fin m × κ → ℝ => (∑ r, Y r u) / m} =
      {u | (m : ℝ) * ε ≤ ∑ r, (Y r u - ∫ u, Y r u ∂μ)} := by
    ext u
    simp only [Set.mem_setOf_eq]
    rw [hav, Finset.sum_sub_distrib, ← sub_div, le_div_iff₀ hm', mul_comm]
  show (μ {u | ε ≤ (∑ r, Y r u) / m - average fun u => (∑ r, Y r u) / m}).toReal ≤ _
  rw [hset]
  refine h.trans (le_of_eq ?_)
  congr 1
  simp only [Finset.sum_const, Finset.card_univ, Fintype.card_fin, nsmul_eq_mul]
  push_cast
  rw [Real.norm_eq_abs, div_pow, sq_abs]
  by_cases h0 : (b - a) = 0
  · simp [h0]
  · field_simp

/-- Hoeffding's inequality, lower tail. -/
theorem hoeffding_below (hm : 0 < m) (X : Fin m → (κ → ℝ) → ℝ) (hX : ∀ r, Measurable (X r))
    (a b : ℝ) (hab : ∀ r v, a ≤ X r v ∧ X r v ≤ b) (ε : ℝ) (hε : 0 ≤ ε) :
    chanceOf {u : Fin m × κ → ℝ | (∑ r, X r fun d => u (r, d)) / m -
      (average fun u : Fin m × κ → ℝ => (∑ r, X r fun d => u (r, d)) / m) ≤ -ε} ≤
      Real.exp (-(2 * m * ε ^ 2 / (b - a) ^ 2)) := by
  have h := hoeffding_above hm (fun r v => -X r v) (fun r => (hX r).neg) (-b) (-a)
    (fun r v => ⟨neg_le_neg (hab r v).2, neg_le_neg (hab r v).1⟩) ε hε
  have e1 : (-a - -b) ^ 2 = (b - a) ^ 2 := by ring
  rw [e1] at h
  refine le_trans (le_of_eq ?_) h
  congr 1
  ext u
  simp only [Set.mem_setOf_eq, Finset.sum_neg_distrib, neg_div]
  unfold Spec.average
  rw [integral_neg]
  constructor <;> intro h <;> linarith

/-- Hoeffding's inequality. -/
theorem hoeffding (hm : 0 < m) (X : Fin m → (κ → ℝ) → ℝ) (hX : ∀ r, Measurable (X r))
    (a b : ℝ) (hab : ∀ r v, a ≤ X r v ∧ X r v ≤ b) (ε : ℝ) (hε : 0 ≤ ε) :
    chanceOf {u : Fin m × κ → ℝ | ε ≤ |(∑ r, X r fun d => u (r, d)) / m -
      average fun u : Fin m × κ → ℝ => (∑ r, X r fun d => u (r, d)) / m|} ≤
      2 * Real.exp (-(2 * m * ε ^ 2 / (b - a) ^ 2)) := by
  have h1 := hoeffding_above hm X hX a b hab ε hε
  have h2 := hoeffding_below hm X hX a b hab ε hε
  refine le_trans ?_ ((add_le_add h1 h2).trans (le_of_eq (two_mul _).symm))
  unfold chanceOf
  rw [← ENNReal.toReal_add (measure_ne_top _ _) (measure_ne_top _ _)]
  refine ENNReal.toReal_mono (by finiteness) ((measure_mono ?_).trans (measure_union_le _ _))
  intro u hu
  rcases le_abs.1 (Set.mem_setOf_eq ▸ hu) with h | h
  · exact .inl h
  · exact .inr (by simp only [Set.mem_setOf_eq]; linarith)

end Shifts

end Pysad
