import Verif.Proofs.RoundingMono
import Verif.Props.FloatOrder

/-! Dividing a double by a whole number and then by the rounded quotient: for sums of at
most two powers of two the result is not above the number (a theorem of Kahan's). -/

namespace Pysad

/-- A positive double is a whole multiple of its last place. -/
theorem double_mantissa {D : ℚ} (h0 : 0 < D) (hd : IsDouble D) :
    ∃ M : ℤ, D = M * 2 ^ (ilog2 D - 52) := by
  have := roundF64_double hd
  rw [roundF64_eq h0.ne', abs_of_pos h0] at this
  exact ⟨_, this.symm⟩

/-- `n` plus half a unit in its last place is rounded to `n`. -/
theorem roundF64_tie {n e : ℕ} (h1 : 2 ^ e ≤ n) (h2 : n < 2 ^ (e + 1)) (he : e < 52) :
    roundF64 ((n : ℚ) + 2 ^ ((e : ℤ) - 53)) = n := by
  have hp : (0 : ℚ) < 2 ^ ((e : ℤ) - 53) := by positivity
  have hn0 : (0 : ℚ) ≤ n := by positivity
  have hpos : (0 : ℚ) < (n : ℚ) + 2 ^ ((e : ℤ) - 53) := by linarith
  have h1' : (2 : ℚ) ^ (e : ℤ) ≤ n := by
    rw [zpow_natCast]; exact_mod_cast h1
  have h2' : (n : ℚ) + 1 ≤ 2 ^ ((e : ℤ) + 1) := by
    have : n + 1 ≤ 2 ^ (e + 1) := h2
    have h3 : ((e : ℤ) + 1) = ((e + 1 : ℕ) : ℤ) := by push_cast; rfl
    rw [h3, zpow_natCast]; exact_mod_cast this
  have hlt1 : (2 : ℚ) ^ ((e : ℤ) - 53) < 1 := by
    rw [show (1 : ℚ) = 2 ^ (0 : ℤ) by simp]
    exact zpow_lt_zpow_right₀ (by norm_num) (by omega)
  have hlog : ilog2 ((n : ℚ) + 2 ^ ((e : ℤ) - 53)) = e :=
    ilog2_unique hpos (by linarith) (by linarith)
  rw [roundF64_eq hpos.ne', abs_of_pos hpos, hlog]
  obtain ⟨j, hj⟩ : ∃ j : ℕ, 52 = e + j + 1 := ⟨51 - e, by omega⟩
  have hq : (2 : ℚ) ^ ((e : ℤ) - 52) = 1 / 2 ^ (j + 1) := by
    rw [show (e : ℤ) - 52 = -((j + 1 : ℕ) : ℤ) by push_cast; omega, zpow_neg, zpow_natCast, one_div]
  have hq' : (2 : ℚ) ^ ((e : ℤ) - 53) = 1 / 2 ^ (j + 1) / 2 := by
    rw [← hq, show (e : ℤ) - 52 = (e : ℤ) - 53 + 1 by ring, zpow_add₀ (by norm_num)]
    norm_num
  have hval : ((n : ℚ) + 2 ^ ((e : ℤ) - 53)) / 2 ^ ((e : ℤ) - 52) =
      ((2 * (n * 2 ^ j) : ℕ) : ℚ) + 1 / 2 := by
    rw [hq, hq']
    push_cast
    field_simp
    ring
  have hr : roundEven (((2 * (n * 2 ^ j) : ℕ) : ℚ) + 1 / 2) = ((2 * (n * 2 ^ j) : ℕ) : ℤ) := by
    have hf : (((2 * (n * 2 ^ j) : ℕ) : ℚ) + 1 / 2).floor = ((2 * (n * 2 ^ j) : ℕ) : ℤ) := by
      set q := ((2 * (n * 2 ^ j) : ℕ) : ℚ) + 1 / 2 with hqd
      have q1 : (q.floor : ℚ) ≤ q := Rat.floor_le q
      have q2 : q < q.floor + 1 := by exact_mod_cast Rat.lt_floor_add_one q
      have h3 : (q.floor : ℚ) < ((2 * (n * 2 ^ j) : ℕ) : ℤ) + 1 := by push_cast at hqd ⊢; linarith
      have h4 : (((2 * (n * 2 ^ j) : ℕ) : ℤ) : ℚ) < q.floor + 1 := by push_cast at hqd ⊢; linarith
      have h5 : q.floor < ((2 * (n * 2 ^ j) : ℕ) : ℤ) + 1 := by exact_mod_cast h3
      have h6 : ((2 * (n * 2 ^ j) : ℕ) : ℤ) < q.floor + 1 := by exact_mod_cast h4
      omega
    unfold roundEven
    simp only [hf]
    rw [if_neg (by push_cast; linarith), if_neg (by push_cast; linarith), if_pos (by push_cast; omega)]
  rw [hval, hr, hq]
  push_cast
  field_simp
  ring

/-- If `n` is a power of two or a sum of two, then `D / (D / n)`, computed in doubles, is at
most `n`. -/
theorem div_div_le {D : ℚ} (h0 : 0 < D) (hd : IsDouble D) {n e : ℕ} (he : e < 52)
    (hn : n = 2 ^ e ∨ ∃ j < e, n = 2 ^ e + 2 ^ j) :
    roundF64 (D / roundF64 (D / n)) ≤ n := by
  have h1 : 2 ^ e ≤ n := by
    rcases hn with rfl | ⟨j, -, rfl⟩
    · exact le_rfl
    · exact Nat.le_add_right _ _
  have h2 : n < 2 ^ (e + 1) := by
    have hp : 2 ^ (e + 1) = 2 ^ e + 2 ^ e := by ring
    rcases hn with rfl | ⟨j, hj, rfl⟩
    · have : 0 < 2 ^ e := by positivity
      omega
    · have : 2 ^ j < 2 ^ e := Nat.pow_lt_pow_right (by norm_num) hj
      omega
  have hn1 : (0 : ℚ) < n := by
    have : 0 < 2 ^ e := by positivity
    exact_mod_cast (by omega : 0 < n)
  have hq : 0 < D / n := div_pos h0 hn1
  obtain ⟨M, hM⟩ := double_mantissa h0 hd
  set L := ilog2 (D / n) with hL
  obtain ⟨l1, l2⟩ := ilog2_spec hq
  rw [← hL] at l1 l2
  obtain ⟨d1, d2⟩ := ilog2_spec h0
  -- the exponent of the quotient
  have hexp : L + e ≤ ilog2 D := by
    by_contra hc
    have h3 : (2 : ℚ) ^ (ilog2 D + 1) ≤ 2 ^ (L + e) := zpow_le_zpow_right₀ (by norm_num) (by omega)
    have h4 : (2 : ℚ) ^ (L + e) ≤ D := by
      rw [zpow_add₀ (by norm_num), zpow_natCast]
      calc (2 : ℚ) ^ L * 2 ^ e ≤ D / n * n := by
            refine mul_le_mul l1 (by exact_mod_cast h1) (by positivity) hq.le
        _ = D := by field_simp
    linarith
  obtain ⟨k, hk⟩ : ∃ k : ℕ, ilog2 D = L + e + (k : ℤ) := ⟨(ilog2 D - (L + e)).toNat, by omega⟩
  -- the rounded quotient
  have hb : (0 : ℚ) < 2 ^ (L - 52) := by positivity
  set S := roundEven (D / n / 2 ^ (L - 52)) with hS
  have hs : roundF64 (D / n) = S * 2 ^ (L - 52) := by
    rw [roundF64_eq hq.ne', abs_of_pos hq]
  have hSlow : (2 : ℤ) ^ 52 ≤ S := by
    apply le_roundEven
    rw [le_div_iff₀ hb]
    rw [← zpow_scale52 L]
    exact l1
  have hSpos : (0 : ℚ) < S := by
    have : (0 : ℤ) < S := lt_of_lt_of_le (by norm_num) hSlow
    exact_mod_cast this
  have hSlow' : (2 : ℚ) ^ 52 ≤ S := by exact_mod_cast hSlow
  have herr := (abs_le.1 (roundEven_error (D / n / 2 ^ (L - 52)))).1
  rw [← hS] at herr
  -- the remainder
  set r : ℤ := M * 2 ^ (e + k) - n * S with hr
  have hD : D = (n * S + r : ℤ) * 2 ^ (L - 52) := by
    rw [hr]
    conv_lhs => rw [hM, hk]
    rw [show L + (e : ℤ) + (k : ℤ) - 52 = ((e + k : ℕ) : ℤ) + (L - 52) by push_cast; ring,
      zpow_add₀ (by norm_num), zpow_natCast]
    push_cast; ring
  have hr2 : 2 * r ≤ n := by
    have e1 : D / n / 2 ^ (L - 52) = S + r / n := by
      rw [hD]; push_cast; field_simp
    rw [e1] at herr
    have : (r : ℚ) / n ≤ 1 / 2 := by linarith
    rw [div_le_iff₀ hn1] at this
    have : (2 : ℚ) * r ≤ n := by linarith
    exact_mod_cast this
  have hr3 : 2 * r ≤ 2 ^ e := by
    rcases hn with h | ⟨j, hj, h⟩
    · rw [h] at hr2; exact_mod_cast hr2
    · obtain ⟨i, rfl⟩ : ∃ i, e = j + i + 1 := ⟨e - j - 1, by omega⟩
      have hpj : (0 : ℤ) < 2 ^ j := by positivity
      obtain ⟨t, ht⟩ : ∃ t : ℤ, r = 2 ^ j * t := by
        refine ⟨M * 2 ^ (i + 1 + k) - (2 ^ (i + 1) + 1) * S, ?_⟩
        rw [hr, h]; push_cast; ring
      rw [ht, h] at hr2
      have h5 : (2 : ℤ) ^ j * (2 * t) ≤ 2 ^ j * (2 * 2 ^ i + 1) := by
        calc (2 : ℤ) ^ j * (2 * t) = 2 * (2 ^ j * t) := by ring
          _ ≤ _ := hr2
          _ = _ := by push_cast; ring
      have h6 := le_of_mul_le_mul_left h5 hpj
      have h7 : t ≤ 2 ^ i := by omega
      rw [ht]
      calc 2 * ((2 : ℤ) ^ j * t) ≤ 2 * (2 ^ j * 2 ^ i) := by
            have := mul_le_mul_of_nonneg_left h7 hpj.le
            omega
        _ = 2 ^ (j + i + 1) := by ring
  -- the second quotient
  have hquot : D / roundF64 (D / n) = n + r / S := by
    rw [hs, hD]
    push_cast
    field_simp
  have hle : D / roundF64 (D / n) ≤ (n : ℚ) + 2 ^ ((e : ℤ) - 53) := by
    rw [hquot]
    have h8 : (r : ℚ) / S ≤ 2 ^ ((e : ℤ) - 53) := by
      rw [div_le_iff₀ hSpos]
      have h9 : (2 : ℚ) ^ ((e : ℤ) - 53) * 2 ^ 52 = 2 ^ e / 2 := by
        rw [show (e : ℤ) - 53 = (e : ℤ) + (-53) by ring, zpow_add₀ (by norm_num), zpow_natCast]
        norm_num
        ring
      have h10 : (2 : ℚ) ^ ((e : ℤ) - 53) * 2 ^ 52 ≤ 2 ^ ((e : ℤ) - 53) * S :=
        mul_le_mul_of_nonneg_left hSlow' (by positivity)
      have h11 : (2 : ℚ) * r ≤ 2 ^ e := by exact_mod_cast hr3
      linarith
    linarith
  calc roundF64 (D / roundF64 (D / n)) ≤ roundF64 ((n : ℚ) + 2 ^ ((e : ℤ) - 53)) := roundF64_mono hle
    _ = n := roundF64_tie h1 h2 he

end Pysad
