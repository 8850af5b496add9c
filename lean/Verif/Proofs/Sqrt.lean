import Verif.Model.ScalersF64
import Verif.Proofs.Division

/-! The correctly rounded square root. -/

namespace Pysad

/-- Half a unit in the last place. -/
theorem roundF64_half_ulp {q : ℚ} (h : 0 < q) : |roundF64 q - q| ≤ 2 ^ (ilog2 q - 53) := by
  rw [roundF64_eq h.ne', abs_of_pos h]
  have hp : (0 : ℚ) < 2 ^ (ilog2 q - 52) := by positivity
  have h1 := roundEven_error (q / 2 ^ (ilog2 q - 52))
  have e : (2 : ℚ) ^ (ilog2 q - 53) = 1 / 2 * 2 ^ (ilog2 q - 52) := by
    rw [show ilog2 q - 53 = (ilog2 q - 52) - 1 by ring, zpow_sub_one₀ (by norm_num)]; ring
  rw [e]
  calc |(roundEven (q / 2 ^ (ilog2 q - 52)) : ℚ) * 2 ^ (ilog2 q - 52) - q|
      = |(roundEven (q / 2 ^ (ilog2 q - 52)) : ℚ) - q / 2 ^ (ilog2 q - 52)| * 2 ^ (ilog2 q - 52) := by
        rw [← abs_of_pos hp, ← abs_mul, abs_of_pos hp, sub_mul, div_mul_cancel₀ _ hp.ne']
    _ ≤ _ := mul_le_mul_of_nonneg_right h1 hp.le

/-- The root as a whole number of units `2 ^ k`. -/
theorem sqrtF64_spec {q : ℚ} (h : 0 < q) : ∃ (k : ℤ) (N : ℕ), sqrtF64 q = N * 2 ^ k ∧
    2 ^ 104 * 2 ^ (2 * k) ≤ q ∧ q < 2 ^ 106 * 2 ^ (2 * k) ∧
    ((N : ℚ) - 1 / 2) ^ 2 * 2 ^ (2 * k) ≤ q ∧ q ≤ ((N : ℚ) + 1 / 2) ^ 2 * 2 ^ (2 * k) ∧
    2 ^ 52 ≤ N ∧ N ≤ 2 ^ 53 := by
  obtain ⟨h1, h2⟩ := ilog2_spec h
  set k : ℤ := ilog2 q / 2 - 52 with hk
  have hp : (0 : ℚ) < 2 ^ (2 * k) := by positivity
  have hlo : 2 ^ 104 * 2 ^ (2 * k) ≤ q := by
    refine le_trans ?_ h1
    rw [show (2 : ℚ) ^ 104 = 2 ^ (104 : ℤ) by norm_cast, ← zpow_add₀ (by norm_num)]
    exact zpow_le_zpow_right₀ (by norm_num) (by omega)
  have hhi : q < 2 ^ 106 * 2 ^ (2 * k) := by
    refine lt_of_lt_of_le h2 ?_
    rw [show (2 : ℚ) ^ 106 = 2 ^ (106 : ℤ) by norm_cast, ← zpow_add₀ (by norm_num)]
    exact zpow_le_zpow_right₀ (by norm_num) (by omega)
  set t := q / 2 ^ (2 * k) with ht
  have hq : q = t * 2 ^ (2 * k) := by rw [ht, div_mul_cancel₀ _ hp.ne']
  have ht1 : (2 : ℚ) ^ 104 ≤ t := by rwa [ht, le_div_iff₀ hp]
  have ht2 : t < 2 ^ 106 := by rwa [ht, div_lt_iff₀ hp]
  have hf1 : (t.floor : ℚ) ≤ t := Rat.floor_le t
  have hf2 : t < t.floor + 1 := by exact_mod_cast Rat.lt_floor_add_one t
  have hf0 : (2 : ℤ) ^ 104 ≤ t.floor := by
    have : (2 : ℚ) ^ 104 < t.floor + 1 := lt_of_le_of_lt ht1 hf2
    have : ((2 ^ 104 : ℤ) : ℚ) < ((t.floor + 1 : ℤ) : ℚ) := by push_cast; exact this
    have := Int.cast_lt.1 this
    omega
  have hf3 : t.floor < 2 ^ 106 := by
    have : ((t.floor : ℤ) : ℚ) < ((2 ^ 106 : ℤ) : ℚ) := by push_cast; linarith
    exact Int.cast_lt.1 this
  obtain ⟨f, hf⟩ := Int.eq_ofNat_of_zero_le (show (0 : ℤ) ≤ t.floor by omega)
  rw [hf] at hf0 hf3 hf1 hf2
  have hf0' : 2 ^ 104 ≤ f := by exact_mod_cast hf0
  have hf3' : f < 2 ^ 106 := by exact_mod_cast hf3
  set r := Nat.sqrt f with hr
  have hr1 : r * r ≤ f := Nat.sqrt_le f
  have hr2 : f < (r + 1) * (r + 1) := Nat.lt_succ_sqrt f
  have hr3 : 2 ^ 52 ≤ r := by
    rw [hr, Nat.le_sqrt]; exact le_trans (by norm_num) hf0'
  have hr4 : r < 2 ^ 53 := by
    rw [hr, Nat.sqrt_lt]; exact lt_of_lt_of_le hf3' (by norm_num)
  have g1 : (r : ℚ) ^ 2 ≤ t := by
    refine le_trans ?_ hf1
    have : ((r * r : ℕ) : ℚ) ≤ f := by exact_mod_cast hr1
    push_cast at this ⊢; nlinarith
  have g2 : t ≤ ((r : ℚ) + 1) ^ 2 := by
    refine hf2.le.trans ?_
    have : ((f + 1 : ℕ) : ℚ) ≤ ((r + 1) * (r + 1) : ℕ) := by exact_mod_cast hr2
    push_cast at this ⊢; nlinarith
  have hr0 : (1 : ℚ) ≤ r := by
    have : 1 ≤ r := le_trans (by norm_num) hr3
    exact_mod_cast this
  have hval : sqrtF64 q =
      ((if t < (r : ℚ) ^ 2 + r + 1 / 4 then r else r + 1 : ℕ) : ℚ) * 2 ^ k := by
    unfold sqrtF64
    rw [if_neg (not_le.2 h)]
    simp only [← hk, pow2_eq, ← ht, hf, Int.ofNat_eq_natCast, Int.toNat_natCast, ← hr]
  refine ⟨k, _, hval, hlo, hhi, ?_⟩
  split
  · rename_i hlt
    refine ⟨?_, ?_, hr3, by omega⟩
    · rw [hq]
      refine mul_le_mul_of_nonneg_right ?_ hp.le
      nlinarith
    · rw [hq]
      refine mul_le_mul_of_nonneg_right ?_ hp.le
      nlinarith
  · rename_i hlt
    push Not at hlt
    refine ⟨?_, ?_, by omega, by omega⟩
    · rw [hq]
      refine mul_le_mul_of_nonneg_right ?_ hp.le
      push_cast; nlinarith
    · rw [hq]
      refine mul_le_mul_of_nonneg_right ?_ hp.le
      push_cast; nlinarith

theorem isDouble_sqrtF64 (q : ℚ) : IsDouble (sqrtF64 q) := by
  by_cases h : 0 < q
  · obtain ⟨k, N, e, -, -, -, -, -, hN⟩ := sqrtF64_spec h
    exact ⟨N, k, by rw [abs_of_nonneg (by positivity)]; exact_mod_cast hN, by rw [e]; simp⟩
  · rw [sqrtF64, if_pos (not_lt.1 h)]
    exact ⟨0, 0, by simp, by simp⟩

theorem sqrtF64_pos {q : ℚ} (h : 0 < q) : 0 < sqrtF64 q := by
  obtain ⟨k, N, e, -, -, -, -, hN, -⟩ := sqrtF64_spec h
  rw [e]
  have : 0 < N := lt_of_lt_of_le (by norm_num) hN
  positivity

/-- The relative error of the root. -/
theorem sqrtF64_error {q : ℚ} (h : 0 < q) :
    ((1 - unitRoundoff) ^ 2) * q ≤ sqrtF64 q ^ 2 ∧ sqrtF64 q ^ 2 ≤ (1 + unitRoundoff) ^ 2 * q := by
  obtain ⟨k, N, e, h1, -, h3, h4, h5, -⟩ := sqrtF64_spec h
  have hp : (0 : ℚ) < 2 ^ (2 * k) := by positivity
  have hsq : sqrtF64 q ^ 2 = (N : ℚ) ^ 2 * 2 ^ (2 * k) := by
    rw [e, mul_pow, ← zpow_natCast ((2 : ℚ) ^ k) 2, ← zpow_mul]
    congr 2
    push_cast; ring
  have hN : (2 : ℚ) ^ 52 ≤ N := by exact_mod_cast h5
  have hu : unitRoundoff * 2 ^ 52 = 1 / 2 := by norm_num [unitRoundoff]
  have hu0 : (0 : ℚ) < unitRoundoff := by norm_num [unitRoundoff]
  have hu1 : unitRoundoff < 1 := by norm_num [unitRoundoff]
  constructor
  · rw [hsq]
    have key : (1 - unitRoundoff) * ((N : ℚ) + 1 / 2) ≤ N := by nlinarith
    have key2 : ((1 - unitRoundoff) * ((N : ℚ) + 1 / 2)) ^ 2 ≤ (N : ℚ) ^ 2 :=
      pow_le_pow_left₀ (by have : (0 : ℚ) ≤ N := by positivity
                           nlinarith) key 2
    calc (1 - unitRoundoff) ^ 2 * q ≤ (1 - unitRoundoff) ^ 2 * (((N : ℚ) + 1 / 2) ^ 2 * 2 ^ (2 * k)) :=
          mul_le_mul_of_nonneg_left h4 (sq_nonneg _)
      _ = ((1 - unitRoundoff) * ((N : ℚ) + 1 / 2)) ^ 2 * 2 ^ (2 * k) := by ring
      _ ≤ _ := mul_le_mul_of_nonneg_right key2 hp.le
  · rw [hsq]
    rcases h5.eq_or_lt with h6 | h6
    · rw [← h6]
      calc ((2 ^ 52 : ℕ) : ℚ) ^ 2 * 2 ^ (2 * k) = 2 ^ 104 * 2 ^ (2 * k) := by norm_num
        _ ≤ q := h1
        _ ≤ (1 + unitRoundoff) ^ 2 * q := le_mul_of_one_le_left h.le (one_le_pow₀ (by linarith))
    · have hN' : (2 : ℚ) ^ 52 + 1 ≤ N := by exact_mod_cast h6
      have key : (N : ℚ) ≤ (1 + unitRoundoff) * ((N : ℚ) - 1 / 2) := by nlinarith
      have key2 : (N : ℚ) ^ 2 ≤ ((1 + unitRoundoff) * ((N : ℚ) - 1 / 2)) ^ 2 :=
        pow_le_pow_left₀ (by positivity) key 2
      calc (N : ℚ) ^ 2 * 2 ^ (2 * k) ≤ ((1 + unitRoundoff) * ((N : ℚ) - 1 / 2)) ^ 2 * 2 ^ (2 * k) :=
            mul_le_mul_of_nonneg_right key2 hp.le
        _ = (1 + unitRoundoff) ^ 2 * (((N : ℚ) - 1 / 2) ^ 2 * 2 ^ (2 * k)) := by ring
        _ ≤ _ := mul_le_mul_of_nonneg_left h3 (sq_nonneg _)

/-- The rounded root of the rounded square of a double is not less than the double. -/
theorem le_sqrtF64 {x S : ℚ} (hx : 0 < x) (hd : IsDouble x) (hS : roundF64 (x * x) ≤ S) :
    x ≤ sqrtF64 S := by
  obtain ⟨M, hM⟩ := double_mantissa hx hd
  obtain ⟨i1, i2⟩ := ilog2_spec hx
  set j := ilog2 x - 52 with hj
  have hp : (0 : ℚ) < 2 ^ j := by positivity
  have hp2 : (0 : ℚ) < 2 ^ (2 * j) := by positivity
  have hjj : (2 : ℚ) ^ (2 * j) = 2 ^ j * 2 ^ j := by rw [two_mul, zpow_add₀ (by norm_num)]
  have hM1 : (2 : ℤ) ^ 52 ≤ M := by
    have h := i1
    rw [zpow_scale52, ← hj] at h
    have h := h.trans_eq hM
    exact_mod_cast (mul_le_mul_iff_of_pos_right hp).1 h
  have hM2 : M < 2 ^ 53 := by
    have h := i2
    rw [zpow_scale53, ← hj] at h
    have h := hM.symm.trans_lt h
    exact_mod_cast (mul_lt_mul_iff_of_pos_right hp).1 h
  have hM1' : (2 : ℚ) ^ 52 ≤ M := by exact_mod_cast hM1
  have hM2' : (M : ℚ) < 2 ^ 53 := by exact_mod_cast hM2
  have hxx : x * x = (M : ℚ) ^ 2 * 2 ^ (2 * j) := by
    calc x * x = (M * 2 ^ j) * (M * 2 ^ j) := congrArg₂ (· * ·) hM hM
      _ = _ := by rw [hjj]; ring
  have hxx0 : 0 < x * x := by positivity
  -- the power of two below
  have hpow : (2 : ℚ) ^ 104 * 2 ^ (2 * j) = 2 ^ (104 + 2 * j) := by
    rw [zpow_add₀ (by norm_num)]; norm_cast
  have hPlo : (2 : ℚ) ^ 104 * 2 ^ (2 * j) ≤ roundF64 (x * x) := by
    refine le_roundF64 ⟨1, 104 + 2 * j, by norm_num, by rw [hpow]; simp⟩ ?_
    rw [hxx]
    refine mul_le_mul_of_nonneg_right ?_ hp2.le
    nlinarith
  have hS0 : 0 < S := lt_of_lt_of_le (by positivity) (hPlo.trans hS)
  obtain ⟨k, N, e, h1, h2, h3, h4, h5, h6⟩ := sqrtF64_spec hS0
  have hN5 : (2 : ℚ) ^ 52 ≤ N := by exact_mod_cast h5
  have hjk : j ≤ k := by
    by_contra hc
    push Not at hc
    have : (2 : ℚ) ^ 106 * 2 ^ (2 * k) ≤ 2 ^ 104 * 2 ^ (2 * j) := by
      rw [hpow, show (2 : ℚ) ^ 106 = 2 ^ (106 : ℤ) by norm_cast, ← zpow_add₀ (by norm_num)]
      exact zpow_le_zpow_right₀ (by norm_num) (by omega)
    linarith
  rw [e]
  rcases hjk.eq_or_lt with rfl | hlt
  · -- the same scale
    rw [hM]
    refine mul_le_mul_of_nonneg_right ?_ hp.le
    by_contra hc
    push Not at hc
    have hc' : (N : ℚ) + 1 ≤ M := by
      have : (N : ℤ) < M := by exact_mod_cast hc
      exact_mod_cast this
    rcases hM1.eq_or_lt with hM3 | hM3
    · rw [← hM3] at hc'
      push_cast at hc'
      linarith
    · have hM3' : (2 : ℚ) ^ 52 + 1 ≤ M := by exact_mod_cast hM3
      have herr := roundF64_half_ulp hxx0
      have hil : ilog2 (x * x) ≤ 105 + 2 * j := by
        by_contra hc2
        push Not at hc2
        have g1 := (ilog2_spec hxx0).1
        have g2 : (2 : ℚ) ^ (106 + 2 * j) ≤ 2 ^ ilog2 (x * x) :=
          zpow_le_zpow_right₀ (by norm_num) (by omega)
        have g3 : x * x < 2 ^ (106 + 2 * j) := by
          rw [hxx, zpow_add₀ (by norm_num)]
          refine mul_lt_mul_of_pos_right ?_ hp2
          rw [show (2 : ℚ) ^ (106 : ℤ) = (2 ^ 53) ^ 2 by norm_cast]
          exact pow_lt_pow_left₀ hM2' (by linarith) (by norm_num)
        linarith
      have herr2 : (2 : ℚ) ^ (ilog2 (x * x) - 53) ≤ 2 ^ 52 * 2 ^ (2 * j) := by
        rw [show (2 : ℚ) ^ 52 = 2 ^ (52 : ℤ) by norm_cast, ← zpow_add₀ (by norm_num)]
        exact zpow_le_zpow_right₀ (by norm_num) (by omega)
      have hlow := (abs_le.1 (herr.trans herr2)).1
      have hfin : (((M : ℚ) ^ 2 - 2 ^ 52)) * 2 ^ (2 * j) ≤ ((N : ℚ) + 1 / 2) ^ 2 * 2 ^ (2 * j) := by
        rw [sub_mul, ← hxx]; linarith
      have := (mul_le_mul_iff_of_pos_right hp2).1 hfin
      have hsq : ((N : ℚ) + 1 / 2) ^ 2 ≤ ((M : ℚ) - 1 / 2) ^ 2 :=
        pow_le_pow_left₀ (by linarith) (by linarith) 2
      nlinarith
  · have hstep : (2 : ℚ) ^ j * 2 ≤ 2 ^ k := by
      rw [← zpow_add_one₀ (by norm_num)]
      exact zpow_le_zpow_right₀ (by norm_num) (by omega)
    have hk0 : (0 : ℚ) < 2 ^ k := by positivity
    calc x = M * 2 ^ j := hM
      _ ≤ 2 ^ 53 * 2 ^ j := mul_le_mul_of_nonneg_right hM2'.le hp.le
      _ = 2 ^ 52 * (2 ^ j * 2) := by ring
      _ ≤ 2 ^ 52 * 2 ^ k := mul_le_mul_of_nonneg_left hstep (by norm_num)
      _ ≤ N * 2 ^ k := mul_le_mul_of_nonneg_right hN5 hk0.le

end Pysad
