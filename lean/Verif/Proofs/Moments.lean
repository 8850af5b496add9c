import Verif.Spec.Basic

/-! Facts about means and variances of bags. -/

namespace Pysad

open Spec

variable {K : Type*} [Field K] [LinearOrder K] [IsStrictOrderedRing K]

theorem card_pos_of_ne {m : Multiset K} (h : m ≠ 0) : (0 : K) < (m.card : K) := by
  exact_mod_cast Multiset.card_pos.2 h

theorem varianceOf_nonneg (m : Multiset K) : 0 ≤ varianceOf m := by
  refine div_nonneg (Multiset.sum_nonneg ?_) (by positivity)
  intro y hy
  obtain ⟨x, _, rfl⟩ := Multiset.mem_map.1 hy
  exact sq_nonneg _

/-- Zero variance: every value is the mean. -/
theorem eq_mean_of_variance_zero {m : Multiset K} (hz : varianceOf m = 0) {x : K} (hx : x ∈ m) :
    x = meanOf m := by
  have hne : m ≠ 0 := by rintro rfl; simp at hx
  have hnn : ∀ y ∈ m.map (fun x => (x - meanOf m) ^ 2), 0 ≤ y := by
    intro y hy
    obtain ⟨x, _, rfl⟩ := Multiset.mem_map.1 hy
    exact sq_nonneg _
  unfold varianceOf at hz
  rw [div_eq_zero_iff, or_iff_left (card_pos_of_ne hne).ne'] at hz
  have hle : (x - meanOf m) ^ 2 ≤ (m.map (fun x => (x - meanOf m) ^ 2)).sum :=
    Multiset.single_le_sum hnn _ (Multiset.mem_map_of_mem _ hx)
  rw [hz] at hle
  exact sub_eq_zero.1 ((pow_eq_zero_iff two_ne_zero).1 (le_antisymm hle (sq_nonneg _)))

omit [LinearOrder K] [IsStrictOrderedRing K] in
theorem sum_map_affine (m : Multiset K) (a b : K) :
    (m.map fun x => a * x + b).sum = a * m.sum + m.card * b := by
  rw [Multiset.sum_map_add, Multiset.sum_map_mul_left]
  simp [Multiset.map_const', Multiset.sum_replicate, nsmul_eq_mul]

theorem meanOf_affine {m : Multiset K} (hm : m ≠ 0) (a b : K) :
    meanOf (m.map fun x => a * x + b) = a * meanOf m + b := by
  have := (card_pos_of_ne hm).ne'
  unfold meanOf
  rw [sum_map_affine, Multiset.card_map]
  field_simp

theorem varianceOf_affine {m : Multiset K} (hm : m ≠ 0) (a b : K) :
    varianceOf (m.map fun x => a * x + b) = a ^ 2 * varianceOf m := by
  unfold varianceOf
  rw [Multiset.map_map, Multiset.card_map, meanOf_affine hm]
  have : ∀ x, ((fun y => (y - (a * meanOf m + b)) ^ 2) ∘ fun x => a * x + b) x
      = a ^ 2 * (x - meanOf m) ^ 2 := by intro x; simp only [Function.comp]; ring
  rw [Multiset.map_congr rfl fun x _ => this x, Multiset.sum_map_mul_left, mul_div_assoc]

/-- The mean lies between the bounds of the values. -/
theorem meanOf_le {m : Multiset K} (hm : m ≠ 0) {c : K} (h : ∀ x ∈ m, x ≤ c) : meanOf m ≤ c := by
  unfold meanOf
  rw [div_le_iff₀ (card_pos_of_ne hm)]
  have := Multiset.sum_le_card_nsmul m c h
  rwa [nsmul_eq_mul, mul_comm] at this

theorem le_meanOf {m : Multiset K} (hm : m ≠ 0) {c : K} (h : ∀ x ∈ m, c ≤ x) : c ≤ meanOf m := by
  unfold meanOf
  rw [le_div_iff₀ (card_pos_of_ne hm)]
  have := Multiset.card_nsmul_le_sum (s := m) (a := c) h
  rwa [nsmul_eq_mul, mul_comm] at this

end Pysad
