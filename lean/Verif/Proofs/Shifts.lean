import Verif.Spec.Shifts
import Mathlib.MeasureTheory.Integral.Bochner.Set
import Mathlib.MeasureTheory.Function.Floor
import Mathlib.Analysis.SpecialFunctions.Log.Basic
import Mathlib.MeasureTheory.Function.SpecialFunctions.Basic

/-! Facts about uniform shifts. -/

namespace Pysad

open Spec MeasureTheory

namespace Shifts

theorem measurable_same (a b : ℝ) : MeasurableSet {u : ℝ | ⌊a + u⌋ = ⌊b + u⌋} :=
  measurableSet_eq_fun (Int.measurable_floor.comp (measurable_const.add measurable_id))
    (Int.measurable_floor.comp (measurable_const.add measurable_id))

/-- The chance that a uniform shift puts two numbers between the same integers. -/
theorem same_le (a b : ℝ) (h : a ≤ b) :
    (volume.restrict (Set.Ico (0 : ℝ) 1)) {u | ⌊a + u⌋ = ⌊b + u⌋} = ENNReal.ofReal (1 - (b - a)) := by
  rw [Measure.restrict_apply (measurable_same a b)]
  set n := ⌊a⌋ with hn
  have h1 : (n : ℝ) ≤ a := Int.floor_le a
  have h2 : a < n + 1 := Int.lt_floor_add_one a
  have fa : ∀ u, 0 ≤ u → u < 1 → (⌊a + u⌋ = n ∧ a + u < n + 1 ∨ ⌊a + u⌋ = n + 1 ∧ (n + 1 : ℝ) ≤ a + u) := by
    intro u hu0 hu1
    rcases lt_or_ge (a + u) (n + 1) with h | h
    · exact Or.inl ⟨Int.floor_eq_iff.2 ⟨by linarith, h⟩, h⟩
    · refine Or.inr ⟨Int.floor_eq_iff.2 ⟨by push_cast; linarith, by push_cast; linarith⟩, h⟩
  rcases le_or_gt 1 (b - a) with hd | hd
  · rw [ENNReal.ofReal_of_nonpos (by linarith)]
    convert measure_empty (μ := (volume : Measure ℝ)) using 2
    ext u
    simp only [Set.mem_inter_iff, Set.mem_setOf_eq, Set.mem_Ico, Set.mem_empty_iff_false, iff_false]
    rintro ⟨he, -⟩
    have h3 := Int.lt_floor_add_one (a + u)
    have h4 := Int.floor_le (b + u)
    have : (⌊a + u⌋ : ℝ) + 1 ≤ b + u := by
      have := Int.floor_le (a + u)
      linarith
    have h5 : ⌊a + u⌋ + 1 ≤ ⌊b + u⌋ := Int.le_floor.2 (by push_cast; exact this)
    omega
  · rcases lt_or_ge b (n + 1) with hb | hb
    · -- the next integer is above both
      have hset : {u : ℝ | ⌊a + u⌋ = ⌊b + u⌋} ∩ Set.Ico 0 1 =
          Set.Ico 0 (n + 1 - b) ∪ Set.Ico (n + 1 - a) 1 := by
        ext u
        simp only [Set.mem_inter_iff, Set.mem_setOf_eq, Set.mem_Ico, Set.mem_union]
        constructor
        · rintro ⟨he, hu0, hu1⟩
          rcases fa u hu0 hu1 with ⟨e, h⟩ | ⟨e, h⟩
          · left
            rw [e] at he
            have := Int.lt_floor_add_one (b + u)
            rw [← he] at this
            exact ⟨hu0, by linarith⟩
          · right; exact ⟨by linarith, hu1⟩
        · rintro (⟨hu0, hu1⟩ | ⟨hu0, hu1⟩)
          · refine ⟨?_, hu0, by linarith⟩
            rw [Int.floor_eq_iff.2 (⟨by linarith, by linarith⟩ : (n : ℝ) ≤ a + u ∧ a + u < n + 1),
              Int.floor_eq_iff.2 (⟨by linarith, by linarith⟩ : (n : ℝ) ≤ b + u ∧ b + u < n + 1)]
          · refine ⟨?_, by linarith, hu1⟩
            rw [Int.floor_eq_iff.2 (⟨by push_cast; linarith, by push_cast; linarith⟩ :
                ((n + 1 : ℤ) : ℝ) ≤ a + u ∧ a + u < ((n + 1 : ℤ) : ℝ) + 1),
              Int.floor_eq_iff.2 (⟨by push_cast; linarith, by push_cast; linarith⟩ :
                ((n + 1 : ℤ) : ℝ) ≤ b + u ∧ b + u < ((n + 1 : ℤ) : ℝ) + 1)]
      rw [hset, measure_union _ measurableSet_Ico, Real.volume_Ico, Real.volume_Ico,
        ← ENNReal.ofReal_add (by linarith) (by linarith)]
      · congr 1; ring
      · rw [Set.disjoint_left]
        rintro u ⟨-, h1⟩ ⟨h2, -⟩
        linarith
    · -- the next integer is between them
      have hset : {u : ℝ | ⌊a + u⌋ = ⌊b + u⌋} ∩ Set.Ico 0 1 = Set.Ico (n + 1 - a) (n + 2 - b) := by
        ext u
        simp only [Set.mem_inter_iff, Set.mem_setOf_eq, Set.mem_Ico]
        constructor
        · rintro ⟨he, hu0, hu1⟩
          rcases fa u hu0 hu1 with ⟨e, h⟩ | ⟨e, h⟩
          · exfalso
            have : n + 1 ≤ ⌊b + u⌋ := Int.le_floor.2 (by push_cast; linarith)
            omega
          · rw [e] at he
            have := Int.lt_floor_add_one (b + u)
            rw [← he] at this
            push_cast at this
            exact ⟨by linarith, by linarith⟩
        · rintro ⟨hu0, hu1⟩
          refine ⟨?_, by linarith, by linarith⟩
          rw [Int.floor_eq_iff.2 (⟨by push_cast; linarith, by push_cast; linarith⟩ :
              ((n + 1 : ℤ) : ℝ) ≤ a + u ∧ a + u < ((n + 1 : ℤ) : ℝ) + 1),
            Int.floor_eq_iff.2 (⟨by push_cast; linarith, by push_cast; linarith⟩ :
              ((n + 1 : ℤ) : ℝ) ≤ b + u ∧ b + u < ((n + 1 : ℤ) : ℝ) + 1)]
      rw [hset, Real.volume_Ico]
      congr 1; ring

theorem same (a b : ℝ) :
    (volume.restrict (Set.Ico (0 : ℝ) 1)) {u | ⌊a + u⌋ = ⌊b + u⌋} = ENNReal.ofReal (tent (a - b)) := by
  have key : ENNReal.ofReal (tent (a - b)) = ENNReal.ofReal (1 - |a - b|) := by
    unfold tent
    rcases le_total 0 (1 - |a - b|) with h | h
    · rw [max_eq_right h]
    · rw [max_eq_left h, ENNReal.ofReal_zero, ENNReal.ofReal_of_nonpos h]
  rw [key]
  rcases le_total a b with h | h
  · rw [same_le a b h, abs_of_nonpos (by linarith)]
    congr 1; ring
  · have : {u : ℝ | ⌊a + u⌋ = ⌊b + u⌋} = {u | ⌊b + u⌋ = ⌊a + u⌋} := by
      ext u; exact eq_comm
    rw [this, same_le b a h, abs_of_nonneg (by linarith)]

variable {ι : Type*} [Fintype ι]

instance : IsProbabilityMeasure (volume.restrict (Set.Ico (0 : ℝ) 1)) :=
  ⟨by rw [Measure.restrict_apply_univ, Real.volume_Ico]; simp⟩

instance : IsProbabilityMeasure (uniformDraws ι) := by
  unfold uniformDraws; infer_instance

theorem tent_nonneg (t : ℝ) : 0 ≤ tent t := le_max_left _ _

theorem tent_le_one (t : ℝ) : tent t ≤ 1 := max_le zero_le_one (by linarith [abs_nonneg t])

/-- The event that the coordinates in `J` put the pairs of numbers between the same integers. -/
theorem measurable_box (J : Finset ι) (a b : ι → ℝ) :
    MeasurableSet {u : ι → ℝ | ∀ i ∈ J, ⌊a i + u i⌋ = ⌊b i + u i⌋} := by
  rw [show {u : ι → ℝ | ∀ i ∈ J, ⌊a i + u i⌋ = ⌊b i + u i⌋} =
    ⋂ i ∈ J, (fun u : ι → ℝ => u i) ⁻¹' {v | ⌊a i + v⌋ = ⌊b i + v⌋} by ext; simp]
  exact Finset.measurableSet_biInter J fun i _ => (measurable_same _ _).preimage (measurable_pi_apply i)

/-- Its chance is a product of tents. -/
theorem chance_box (J : Finset ι) (a b : ι → ℝ) :
    chanceOf {u : ι → ℝ | ∀ i ∈ J, ⌊a i + u i⌋ = ⌊b i + u i⌋} = ∏ i ∈ J, tent (a i - b i) := by
  classical
  unfold chanceOf uniformDraws
  rw [show {u : ι → ℝ | ∀ i ∈ J, ⌊a i + u i⌋ = ⌊b i + u i⌋} =
    Set.univ.pi fun i => if i ∈ J then {v | ⌊a i + v⌋ = ⌊b i + v⌋} else Set.univ by
      ext u
      simp only [Set.mem_setOf_eq, Set.mem_pi, Set.mem_univ, true_implies]
      refine forall_congr' fun i => ?_
      by_cases h : i ∈ J <;> simp [h]]
  rw [Measure.pi_pi, ENNReal.toReal_prod]
  rw [← Finset.prod_subset (Finset.subset_univ J)]
  · refine Finset.prod_congr rfl fun i hi => ?_
    rw [if_pos hi, same, ENNReal.toReal_ofReal (tent_nonneg _)]
  · intro i _ hi
    rw [if_neg hi, measure_univ, ENNReal.toReal_one]

/-- The average of a sum of weights of events. -/
theorem average_sum {γ : Type*} (L : List γ) (A : γ → Set (ι → ℝ)) (hA : ∀ g ∈ L, MeasurableSet (A g))
    (w : γ → ℝ) [∀ g, DecidablePred (· ∈ A g)] :
    Integrable (fun u => (L.map fun g => if u ∈ A g then w g else 0).sum) (uniformDraws ι) ∧
    average (fun u => (L.map fun g => if u ∈ A g then w g else 0).sum) =
      (L.map fun g => w g * chanceOf (A g)).sum := by
  induction L with
  | nil => simp [average]
  | cons g L ih =>
    obtain ⟨h1, h2⟩ := ih fun g hg => hA g (by simp [hg])
    have hg := hA g (by simp)
    have e : (fun u => if u ∈ A g then w g else 0) = (A g).indicator fun _ => w g := by
      ext u; simp [Set.indicator]
    have h3 : Integrable (fun u => if u ∈ A g then w g else 0) (uniformDraws ι) := by
      rw [e]; exact (integrable_const _).indicator hg
    simp only [List.map_cons, List.sum_cons]
    refine ⟨h3.add h1, ?_⟩
    unfold average at h2 ⊢
    rw [integral_add h3 h1, h2, e, integral_indicator_const _ hg]
    simp [chanceOf, Measure.real, mul_comm]

/-- Jensen's inequality for the logarithm. -/
theorem average_log_le (X : (ι → ℝ) → ℝ) (h0 : ∀ u, 0 ≤ X u) (hi : Integrable X (uniformDraws ι)) :
    average (fun u => Real.log (1 + X u)) ≤ Real.log (1 + average X) := by
  have hm : 0 ≤ average X := integral_nonneg h0
  set m := average X with hmdef
  have hb : ∀ u, Real.log (1 + X u) ≤ Real.log (1 + m) + (X u - m) / (1 + m) := by
    intro u
    have h1 : 0 < 1 + X u := by linarith [h0 u]
    have h2 : 0 < 1 + m := by linarith
    have := Real.log_le_sub_one_of_pos (div_pos h1 h2)
    rw [Real.log_div h1.ne' h2.ne'] at this
    have e : (1 + X u) / (1 + m) - 1 = (X u - m) / (1 + m) := by field_simp; ring
    linarith
  have hs : Integrable (fun u => (X u - m) / (1 + m)) (uniformDraws ι) :=
    (hi.sub (integrable_const _)).div_const _
  have hint : Integrable (fun u => Real.log (1 + m) + (X u - m) / (1 + m)) (uniformDraws ι) :=
    (integrable_const _).add hs
  have hval : ∫ u, (Real.log (1 + m) + (X u - m) / (1 + m)) ∂uniformDraws ι = Real.log (1 + m) := by
    rw [integral_add (integrable_const _) hs, integral_div, integral_sub hi (integrable_const _)]
    simp only [integral_const, probReal_univ, smul_eq_mul, one_mul]
    rw [show ∫ u, X u ∂uniformDraws ι = m from rfl]
    simp
  unfold average
  rw [← hval]
  exact integral_mono_of_nonneg (ae_of_all _ fun u => Real.log_nonneg (by linarith [h0 u])) hint
    (ae_of_all _ hb)

theorem integrable_log (X : (ι → ℝ) → ℝ) (h0 : ∀ u, 0 ≤ X u) (hi : Integrable X (uniformDraws ι)) :
    Integrable (fun u => Real.log (1 + X u)) (uniformDraws ι) := by
  refine hi.mono' (Real.measurable_log.comp_aemeasurable
    (aemeasurable_const.add hi.aemeasurable)).aestronglyMeasurable (ae_of_all _ fun u => ?_)
  rw [Real.norm_of_nonneg (Real.log_nonneg (by linarith [h0 u]))]
  have := Real.log_le_sub_one_of_pos (show 0 < 1 + X u by linarith [h0 u])
  linarith

/-- The average of a sum. -/
theorem average_list {γ : Type*} (L : List γ) (X : γ → (ι → ℝ) → ℝ)
    (hX : ∀ g ∈ L, Integrable (X g) (uniformDraws ι)) :
    Integrable (fun u => (L.map fun g => X g u).sum) (uniformDraws ι) ∧
    average (fun u => (L.map fun g => X g u).sum) = (L.map fun g => average (X g)).sum := by
  induction L with
  | nil => simp [average]
  | cons g L ih =>
    obtain ⟨h1, h2⟩ := ih fun g hg => hX g (by simp [hg])
    have hg := hX g (by simp)
    simp only [List.map_cons, List.sum_cons]
    refine ⟨hg.add h1, ?_⟩
    unfold average at h2 ⊢
    rw [integral_add hg h1, h2]

theorem average_div (X : (ι → ℝ) → ℝ) (c : ℝ) : average (fun u => X u / c) = average X / c :=
  integral_div c X

end Shifts

end Pysad
