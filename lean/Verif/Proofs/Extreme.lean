import Verif.Proofs.Moments
import Verif.Spec.Scores
import Mathlib.Algebra.Order.Chebyshev

/-! The standard score of a value that is itself among the values it is compared to. -/

namespace Pysad
open Spec

/-- `n` times the sum of squares minus the square of the sum: `n^2` times the variance. -/
def spread (m : Multiset ℝ) : ℝ := m.card * (m.map fun x => x ^ 2).sum - m.sum ^ 2

theorem card_sq_mul_variance {m : Multiset ℝ} (hm : m ≠ 0) :
    (m.card : ℝ) ^ 2 * varianceOf m = spread m := by
  have hn : (m.card : ℝ) ≠ 0 := (card_pos_of_ne hm).ne'
  have h1 : ∀ (c : ℝ) (m : Multiset ℝ), (m.map fun x => (x - c) ^ 2).sum =
      (m.map fun x => x ^ 2).sum - 2 * c * m.sum + m.card * c ^ 2 := by
    intro c m
    induction m using Multiset.induction_on with
    | empty => simp
    | cons a m ih => simp only [Multiset.map_cons, Multiset.sum_cons, Multiset.card_cons, ih]; push_cast; ring
  unfold varianceOf spread
  rw [h1]
  unfold meanOf
  field_simp
  ring

theorem spread_nonneg (m : Multiset ℝ) : 0 ≤ spread m := by
  rcases eq_or_ne m 0 with rfl | hm
  · simp [spread]
  · rw [← card_sq_mul_variance hm]
    exact mul_nonneg (sq_nonneg _) (varianceOf_nonneg m)

/-- The deviation of `y` from the other values, times their number. -/
def lead (m : Multiset ℝ) (y : ℝ) : ℝ := m.card * y - m.sum

theorem spread_cons (m : Multiset ℝ) (y : ℝ) :
    m.card * spread (y ::ₘ m) = lead m y ^ 2 + (m.card + 1) * spread m := by
  simp only [spread, lead, Multiset.map_cons, Multiset.sum_cons, Multiset.card_cons]
  push_cast
  ring

theorem sub_mean_cons (m : Multiset ℝ) (y : ℝ) :
    y - meanOf (y ::ₘ m) = lead m y / (m.card + 1) := by
  simp only [meanOf, lead, Multiset.sum_cons, Multiset.card_cons]
  have : (m.card : ℝ) + 1 ≠ 0 := by positivity
  push_cast
  field_simp
  ring

/-- What the standard score is, in terms of the other values. -/
theorem zscore_cons {m : Multiset ℝ} (hm : m ≠ 0) (y : ℝ) :
    zscore (y ::ₘ m) y =
      if lead m y ^ 2 + (m.card + 1) * spread m = 0 then .nan
      else .fin (√(m.card : ℝ) * (lead m y / √(lead m y ^ 2 + (m.card + 1) * spread m))) := by
  have hn : (0 : ℝ) < m.card := card_pos_of_ne hm
  have hc : y ::ₘ m ≠ 0 := by simp
  have hs := card_sq_mul_variance hc
  have h2 := spread_cons m y
  rw [← hs] at h2
  simp only [Multiset.card_cons] at h2
  push_cast at h2
  have hn1 : (0 : ℝ) < (m.card : ℝ) + 1 := by positivity
  unfold zscore
  rw [sub_mean_cons]
  by_cases h0 : varianceOf (y ::ₘ m) = 0
  · rw [if_pos h0, if_pos (by rw [← h2, h0]; simp)]
  · rw [if_neg h0, if_neg (by rw [← h2]; positivity)]
    congr 1
    rw [← h2, Real.sqrt_mul hn.le, Real.sqrt_mul (by positivity), Real.sqrt_sq hn1.le]
    have hv : 0 < varianceOf (y ::ₘ m) := lt_of_le_of_ne (varianceOf_nonneg _) (Ne.symm h0)
    have h5 : √(varianceOf (y ::ₘ m)) ≠ 0 := (Real.sqrt_pos.2 hv).ne'
    have h6 : √(m.card : ℝ) ≠ 0 := (Real.sqrt_pos.2 hn).ne'
    field_simp

/-- `u / √(u² + c)` grows with `u`. -/
theorem ratio_mono {u v c : ℝ} (hc : 0 ≤ c) (huv : u ≤ v) (hu : u ^ 2 + c ≠ 0)
    (hv : v ^ 2 + c ≠ 0) : u / √(u ^ 2 + c) ≤ v / √(v ^ 2 + c) := by
  have pu : 0 < √(u ^ 2 + c) := Real.sqrt_pos.2 (lt_of_le_of_ne (by positivity) (Ne.symm hu))
  have pv : 0 < √(v ^ 2 + c) := Real.sqrt_pos.2 (lt_of_le_of_ne (by positivity) (Ne.symm hv))
  rw [div_le_div_iff₀ pu pv]
  have su := Real.sq_sqrt (show 0 ≤ u ^ 2 + c by positivity)
  have sv := Real.sq_sqrt (show 0 ≤ v ^ 2 + c by positivity)
  rcases le_total 0 u with h0 | h0
  · have hv0 : 0 ≤ v := h0.trans huv
    apply le_of_pow_le_pow_left₀ two_ne_zero (by positivity)
    rw [mul_pow, mul_pow, su, sv]
    nlinarith [mul_le_mul_of_nonneg_right (pow_le_pow_left₀ h0 huv 2) hc]
  · rcases le_total 0 v with h1 | h1
    · exact (mul_nonpos_of_nonpos_of_nonneg h0 pv.le).trans (by positivity)
    · have : (-v) * √(u ^ 2 + c) ≤ (-u) * √(v ^ 2 + c) := by
        apply le_of_pow_le_pow_left₀ two_ne_zero (mul_nonneg (by linarith) pv.le)
        rw [mul_pow, mul_pow, su, sv]
        nlinarith [mul_le_mul_of_nonneg_right
          (pow_le_pow_left₀ (show 0 ≤ -v by linarith) (neg_le_neg huv) 2) hc]
      linarith

theorem ratio_abs_le {u c : ℝ} (hc : 0 ≤ c) : |u / √(u ^ 2 + c)| ≤ 1 := by
  rw [abs_div, abs_of_nonneg (Real.sqrt_nonneg _)]
  apply div_le_one_of_le₀ _ (Real.sqrt_nonneg _)
  rw [← Real.sqrt_sq_eq_abs]
  exact Real.sqrt_le_sqrt (by linarith)

/-- Any ratio below 1 is exceeded. -/
theorem ratio_reaches {c t : ℝ} (hc : 0 ≤ c) (ht : t < 1) :
    ∃ u, 0 < u ∧ t < u / √(u ^ 2 + c) := by
  wlog h0 : 0 ≤ t generalizing t
  · obtain ⟨u, h1, h2⟩ := this one_half_lt_one (by norm_num)
    exact ⟨u, h1, by linarith⟩
  have hq : 0 < 1 - t ^ 2 := by nlinarith
  refine ⟨1 + t ^ 2 * c / (1 - t ^ 2), by positivity, ?_⟩
  set u := 1 + t ^ 2 * c / (1 - t ^ 2) with hu
  have hu1 : 1 ≤ u := by rw [hu]; linarith [show 0 ≤ t ^ 2 * c / (1 - t ^ 2) by positivity]
  rw [lt_div_iff₀ (Real.sqrt_pos.2 (by positivity))]
  apply lt_of_pow_lt_pow_left₀ 2 (by positivity)
  rw [mul_pow, Real.sq_sqrt (by positivity)]
  have h3 : t ^ 2 * c = (u - 1) * (1 - t ^ 2) := by rw [hu]; field_simp; ring
  nlinarith [mul_pos hq (show 0 < u * u - (u - 1) by nlinarith)]

end Pysad
