import Verif.Model.F64
import Mathlib.Algebra.Order.Floor.Ring
import Mathlib.Algebra.Order.Field.Power
import Mathlib.Tactic.Linarith
import Mathlib.Tactic.Positivity
import Mathlib.Tactic.FieldSimp
import Mathlib.Tactic.Ring

/-! Facts about rounding to 53 bits. -/

namespace Pysad

theorem pow2_eq (e : ℤ) : pow2 e = (2 : ℚ) ^ e := by
  unfold pow2
  split
  · rename_i h
    conv_rhs => rw [← Int.toNat_of_nonneg h]
    rw [zpow_natCast]; simp
  · rename_i h
    have h' : 0 ≤ -e := by omega
    have : e = -((-e).toNat : ℤ) := by rw [Int.toNat_of_nonneg h']; ring
    conv_rhs => rw [this]
    rw [zpow_neg, zpow_natCast]; simp

theorem pow2_pos (e : ℤ) : 0 < pow2 e := by rw [pow2_eq]; positivity

/-- `ilog2` is the binary exponent. -/
theorem ilog2_spec {q : ℚ} (hq : 0 < q) :
    (2 : ℚ) ^ ilog2 q ≤ q ∧ q < 2 ^ (ilog2 q + 1) := by
  have hnum : q.num.natAbs ≠ 0 := by
    have := Rat.num_pos.2 hq
    omega
  have hden : q.den ≠ 0 := q.den_nz
  have e : q = (q.num.natAbs : ℚ) / (q.den : ℚ) := by
    rw [Nat.cast_natAbs, abs_of_pos (Rat.num_pos.2 hq), Rat.num_div_den]
  have a1 : (2 : ℚ) ^ Nat.log2 q.num.natAbs ≤ q.num.natAbs := by
    exact_mod_cast Nat.log2_self_le hnum
  have a2 : (q.num.natAbs : ℚ) < 2 ^ (Nat.log2 q.num.natAbs + 1) := by
    exact_mod_cast Nat.lt_log2_self
  have b1 : (2 : ℚ) ^ Nat.log2 q.den ≤ q.den := by
    exact_mod_cast Nat.log2_self_le hden
  have b2 : (q.den : ℚ) < 2 ^ (Nat.log2 q.den + 1) := by
    exact_mod_cast Nat.lt_log2_self
  have hd : (0 : ℚ) < q.den := by positivity
  unfold ilog2
  generalize Nat.log2 q.num.natAbs = a at *
  generalize Nat.log2 q.den = b at *
  have up : q < 2 ^ ((a : ℤ) - b + 1) := by
    rw [e, div_lt_iff₀ hd]
    calc (q.num.natAbs : ℚ) < 2 ^ (a + 1) := a2
      _ = 2 ^ ((a : ℤ) - b + 1) * 2 ^ b := by
        rw [← zpow_natCast, ← zpow_natCast, ← zpow_add₀ (by norm_num)]; congr 1; push_cast; ring
      _ ≤ 2 ^ ((a : ℤ) - b + 1) * q.den := by
        apply mul_le_mul_of_nonneg_left b1; positivity
  have lo : 2 ^ ((a : ℤ) - b - 1) < q := by
    rw [e, lt_div_iff₀ hd]
    calc (2 : ℚ) ^ ((a : ℤ) - b - 1) * q.den < 2 ^ ((a : ℤ) - b - 1) * 2 ^ (b + 1) := by
          apply mul_lt_mul_of_pos_left b2; positivity
      _ = 2 ^ a := by
        rw [← zpow_natCast, ← zpow_natCast, ← zpow_add₀ (by norm_num)]; congr 1; push_cast; ring
      _ ≤ _ := a1
  simp only [pow2_eq]
  split
  · rename_i h
    exact ⟨lo.le, by simpa using h⟩
  · rename_i h
    exact ⟨not_lt.1 h, up⟩

/-- The nearest integer is at most one half away. -/
theorem roundEven_error (q : ℚ) : |(roundEven q : ℚ) - q| ≤ 1 / 2 := by
  have h1 : (q.floor : ℚ) ≤ q := Rat.floor_le q
  have h2 : q < q.floor + 1 := by exact_mod_cast Rat.lt_floor_add_one q
  unfold roundEven
  simp only
  rw [abs_le]
  split
  · constructor <;> push_cast <;> linarith
  · split
    · constructor <;> push_cast <;> linarith
    · split <;> constructor <;> push_cast <;> linarith

/-- Rounding does not cross an integer from below. -/
theorem roundEven_le {q : ℚ} {m : ℤ} (h : q ≤ m) : roundEven q ≤ m := by
  by_contra hc
  have hc : m + 1 ≤ roundEven q := by omega
  have hc' : (m : ℚ) + 1 ≤ roundEven q := by exact_mod_cast hc
  have := (abs_le.1 (roundEven_error q)).2
  linarith

/-- Rounding does not cross an integer from above. -/
theorem le_roundEven {q : ℚ} {m : ℤ} (h : (m : ℚ) ≤ q) : m ≤ roundEven q := by
  by_contra hc
  have hc : roundEven q + 1 ≤ m := by omega
  have hc' : (roundEven q : ℚ) + 1 ≤ m := by exact_mod_cast hc
  have := (abs_le.1 (roundEven_error q)).1
  linarith

/-- Half a unit in the last place, relative to the number: `2^-53`. -/
def unitRoundoff : ℚ := 1 / 2 ^ 53

/-- **Relative error.** Rounding to a double changes a number by at most `2^-53` of it. -/
theorem roundF64_error (q : ℚ) : |roundF64 q - q| ≤ unitRoundoff * |q| := by
  unfold roundF64
  by_cases h0 : q = 0
  · simp [h0, unitRoundoff]
  simp only [h0, if_false]
  have habs : (if q < 0 then -q else q) = |q| := by
    split
    · rename_i h; rw [abs_of_neg h]
    · rename_i h; rw [abs_of_nonneg (not_lt.1 h)]
  rw [habs]
  have hpos : 0 < |q| := abs_pos.2 h0
  have hk := (ilog2_spec hpos).1
  have hp := pow2_pos (ilog2 |q| - 52)
  have herr := roundEven_error (q / pow2 (ilog2 |q| - 52))
  have e : (roundEven (q / pow2 (ilog2 |q| - 52)) : ℚ) * pow2 (ilog2 |q| - 52) - q
      = (roundEven (q / pow2 (ilog2 |q| - 52)) - q / pow2 (ilog2 |q| - 52)) *
        pow2 (ilog2 |q| - 52) := by
    rw [sub_mul, div_mul_cancel₀ _ hp.ne']
  rw [e, abs_mul, abs_of_pos hp]
  have hp2 : pow2 (ilog2 |q| - 52) = 2 ^ ilog2 |q| / 2 ^ 52 := by
    rw [pow2_eq, zpow_sub₀ (by norm_num)]; norm_num
  calc |(roundEven (q / pow2 (ilog2 |q| - 52)) : ℚ) - q / pow2 (ilog2 |q| - 52)| *
        pow2 (ilog2 |q| - 52) ≤ 1 / 2 * pow2 (ilog2 |q| - 52) :=
        mul_le_mul_of_nonneg_right herr hp.le
    _ = unitRoundoff * 2 ^ ilog2 |q| := by rw [hp2, unitRoundoff]; ring
    _ ≤ unitRoundoff * |q| := mul_le_mul_of_nonneg_left hk (by norm_num [unitRoundoff])

/-- Rounding keeps the sign. -/
theorem roundF64_nonneg {q : ℚ} (h : 0 ≤ q) : 0 ≤ roundF64 q := by
  have := (abs_le.1 (roundF64_error q)).1
  rw [abs_of_nonneg h] at this
  have h2 : unitRoundoff * q ≤ 1 * q := mul_le_mul_of_nonneg_right (by norm_num [unitRoundoff]) h
  linarith

/-- Rounding does not cross an integer of at most 53 bits from below. -/
theorem roundF64_le_int {q : ℚ} {n : ℤ} (h : q ≤ n) (h0 : 0 ≤ q) (hn : n ≤ 2 ^ 53) :
    roundF64 q ≤ n := by
  unfold roundF64
  rcases h0.eq_or_lt with h0 | h0
  · subst h0; simpa using h
  simp only [h0.ne', if_false, not_lt.2 h0.le]
  have hk := (ilog2_spec h0).1
  have hp := pow2_pos (ilog2 q - 52)
  have hle : ilog2 q ≤ 53 := by
    by_contra hc
    have : (2 : ℚ) ^ (54 : ℤ) ≤ 2 ^ ilog2 q := zpow_le_zpow_right₀ (by norm_num) (by omega)
    have h2 : (n : ℚ) ≤ 2 ^ 53 := by exact_mod_cast hn
    have h3 : (2 : ℚ) ^ (54 : ℤ) = 2 ^ 53 * 2 := by norm_num
    linarith [show (0 : ℚ) < 2 ^ 53 by norm_num]
  obtain ⟨m, hm⟩ : ∃ m : ℤ, (n : ℚ) = m * pow2 (ilog2 q - 52) := by
    rcases hle.lt_or_eq with hlt | heq
    · obtain ⟨j, hj⟩ : ∃ j : ℕ, ilog2 q - 52 = -(j : ℤ) := ⟨(52 - ilog2 q).toNat, by omega⟩
      refine ⟨n * 2 ^ j, ?_⟩
      rw [hj, pow2_eq, zpow_neg, zpow_natCast]
      push_cast; field_simp
    · have h2 : (n : ℚ) ≤ 2 ^ 53 := by exact_mod_cast hn
      rw [heq] at hk
      have h3 : (2 : ℚ) ^ (53 : ℤ) = 2 ^ 53 := by norm_num
      have h4 : (n : ℚ) = 2 ^ 53 := by linarith
      refine ⟨2 ^ 52, ?_⟩
      rw [h4, heq, pow2_eq]; norm_num
  rw [hm]
  apply mul_le_mul_of_nonneg_right _ hp.le
  have : q / pow2 (ilog2 q - 52) ≤ m := by rw [div_le_iff₀ hp, ← hm]; exact h
  exact_mod_cast roundEven_le this

/-- One rounded operation: if `a` approximates `t`, then the rounded `a + y` approximates
`t + y`. -/
theorem roundF64_step {a t y B : ℚ} {n : ℕ}
    (h : |a - t| ≤ B * ((1 + unitRoundoff) ^ n - 1)) (hB : |t + y| ≤ B) :
    |roundF64 (a + y) - (t + y)| ≤ B * ((1 + unitRoundoff) ^ (n + 1) - 1) := by
  have h1 := roundF64_error (a + y)
  have hu : (0 : ℚ) ≤ unitRoundoff := by norm_num [unitRoundoff]
  have h2 : |a + y| ≤ B + B * ((1 + unitRoundoff) ^ n - 1) := by
    have e : a + y = (t + y) + (a - t) := by ring
    rw [e]
    exact (abs_add_le _ _).trans (add_le_add hB h)
  have h3 : |roundF64 (a + y) - (t + y)| ≤ |roundF64 (a + y) - (a + y)| + |a - t| := by
    have e : roundF64 (a + y) - (t + y) = (roundF64 (a + y) - (a + y)) + (a - t) := by ring
    rw [e]
    exact abs_add_le _ _
  have h4 := mul_le_mul_of_nonneg_left h2 hu
  calc |roundF64 (a + y) - (t + y)|
      ≤ unitRoundoff * (B + B * ((1 + unitRoundoff) ^ n - 1))
        + B * ((1 + unitRoundoff) ^ n - 1) := by linarith
    _ = B * ((1 + unitRoundoff) ^ (n + 1) - 1) := by ring

end Pysad
