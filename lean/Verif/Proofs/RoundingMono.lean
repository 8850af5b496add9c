import Verif.Proofs.Rounding

/-! Rounding to doubles is monotone, and doubles are fixed by it. -/

namespace Pysad

theorem roundEven_mono {q r : ℚ} (h : q ≤ r) : roundEven q ≤ roundEven r := by
  have q1 : (q.floor : ℚ) ≤ q := Rat.floor_le q
  have q2 : q < q.floor + 1 := by exact_mod_cast Rat.lt_floor_add_one q
  have r1 : (r.floor : ℚ) ≤ r := Rat.floor_le r
  have r2 : r < r.floor + 1 := by exact_mod_cast Rat.lt_floor_add_one r
  rcases lt_trichotomy q.floor r.floor with hlt | heq | hgt
  · have h1 : roundEven q ≤ q.floor + 1 := roundEven_le (by push_cast; linarith)
    have h2 : r.floor ≤ roundEven r := le_roundEven r1
    omega
  · unfold roundEven
    simp only [heq]
    rw [heq] at q1 q2
    split_ifs <;> first | omega | (exfalso; linarith)
  · exfalso
    have : (r.floor : ℚ) + 1 ≤ q.floor := by exact_mod_cast hgt
    linarith

/-- Rounding of a nonzero number, with the exponent made explicit. -/
theorem roundF64_eq {q : ℚ} (h : q ≠ 0) :
    roundF64 q = (roundEven (q / 2 ^ (ilog2 |q| - 52)) : ℚ) * 2 ^ (ilog2 |q| - 52) := by
  unfold roundF64
  have habs : (if q < 0 then -q else q) = |q| := by
    split
    · rename_i h; rw [abs_of_neg h]
    · rename_i h; rw [abs_of_nonneg (not_lt.1 h)]
  simp only [h, if_false, habs, pow2_eq]

theorem roundEven_neg (q : ℚ) : roundEven (-q) = -roundEven q := by
  have q1 : (q.floor : ℚ) ≤ q := Rat.floor_le q
  have q2 : q < q.floor + 1 := by exact_mod_cast Rat.lt_floor_add_one q
  have n1 : ((-q).floor : ℚ) ≤ -q := Rat.floor_le (-q)
  have n2 : -q < (-q).floor + 1 := by exact_mod_cast Rat.lt_floor_add_one (-q)
  have hcase : (-q).floor = -q.floor ∨ (-q).floor = -q.floor - 1 := by
    have h1 : (-q).floor < -q.floor + 1 := by
      have : ((-q).floor : ℚ) < -q.floor + 1 := by linarith
      exact_mod_cast this
    have h2 : -q.floor - 2 < (-q).floor := by
      have : (-q.floor : ℚ) - 2 < (-q).floor := by linarith
      exact_mod_cast this
    omega
  rcases hcase with hc | hc
  · -- `q` is an integer
    have hq : q = q.floor := by
      rw [hc] at n1; push_cast at n1; linarith
    unfold roundEven
    simp only [hc]
    have e1 : q - (q.floor : ℚ) = 0 := by linarith
    have e2 : -q - ((-q.floor : ℤ) : ℚ) = 0 := by push_cast; linarith
    rw [e1, e2]; norm_num
  · unfold roundEven
    simp only [hc]
    have e2 : -q - ((-q.floor - 1 : ℤ) : ℚ) = 1 - (q - q.floor) := by push_cast; ring
    rw [e2]
    split_ifs <;> first | omega | (exfalso; linarith)

theorem roundF64_neg (q : ℚ) : roundF64 (-q) = -roundF64 q := by
  by_cases h : q = 0
  · subst h; simp [roundF64]
  rw [roundF64_eq (neg_ne_zero.2 h), roundF64_eq h, abs_neg, neg_div, roundEven_neg]
  push_cast; ring

theorem zpow_scale52 (L : ℤ) : (2 : ℚ) ^ L = ((2 ^ 52 : ℤ) : ℚ) * 2 ^ (L - 52) := by
  rw [zpow_sub₀ (by norm_num)]; norm_num; ring

theorem zpow_scale53 (L : ℤ) : (2 : ℚ) ^ (L + 1) = ((2 ^ 53 : ℤ) : ℚ) * 2 ^ (L - 52) := by
  rw [zpow_sub₀ (by norm_num), zpow_add₀ (by norm_num)]; norm_num; ring

/-- The bounds of the rounded number given by the binary exponent. -/
theorem roundF64_bounds {q : ℚ} (h : 0 < q) :
    2 ^ ilog2 q ≤ roundF64 q ∧ roundF64 q ≤ 2 ^ (ilog2 q + 1) := by
  obtain ⟨h1, h2⟩ := ilog2_spec h
  have hp : (0 : ℚ) < 2 ^ (ilog2 q - 52) := by positivity
  rw [roundF64_eq h.ne', abs_of_pos h]
  have e1 : (2 : ℚ) ^ ilog2 q = ((2 ^ 52 : ℤ) : ℚ) * 2 ^ (ilog2 q - 52) := zpow_scale52 _
  have e2 : (2 : ℚ) ^ (ilog2 q + 1) = ((2 ^ 53 : ℤ) : ℚ) * 2 ^ (ilog2 q - 52) := zpow_scale53 _
  constructor
  · rw [e1]
    apply mul_le_mul_of_nonneg_right _ hp.le
    have : ((2 ^ 52 : ℤ) : ℚ) ≤ q / 2 ^ (ilog2 q - 52) := by
      rw [le_div_iff₀ hp, ← e1]; exact h1
    exact_mod_cast le_roundEven this
  · rw [e2]
    apply mul_le_mul_of_nonneg_right _ hp.le
    have : q / 2 ^ (ilog2 q - 52) ≤ ((2 ^ 53 : ℤ) : ℚ) := by
      rw [div_le_iff₀ hp, ← e2]; exact h2.le
    exact_mod_cast roundEven_le this

theorem roundF64_mono_pos {q r : ℚ} (hq : 0 < q) (h : q ≤ r) : roundF64 q ≤ roundF64 r := by
  have hr : 0 < r := hq.trans_le h
  obtain ⟨q1, q2⟩ := ilog2_spec hq
  obtain ⟨r1, r2⟩ := ilog2_spec hr
  rcases lt_trichotomy (ilog2 q) (ilog2 r) with hlt | heq | hgt
  · calc roundF64 q ≤ 2 ^ (ilog2 q + 1) := (roundF64_bounds hq).2
      _ ≤ 2 ^ ilog2 r := zpow_le_zpow_right₀ (by norm_num) (by omega)
      _ ≤ roundF64 r := (roundF64_bounds hr).1
  · rw [roundF64_eq hq.ne', roundF64_eq hr.ne', abs_of_pos hq, abs_of_pos hr, heq]
    have hp : (0 : ℚ) < 2 ^ (ilog2 r - 52) := by positivity
    apply mul_le_mul_of_nonneg_right _ hp.le
    exact_mod_cast roundEven_mono (div_le_div_of_nonneg_right h hp.le)
  · exfalso
    have : (2 : ℚ) ^ (ilog2 r + 1) ≤ 2 ^ ilog2 q := zpow_le_zpow_right₀ (by norm_num) (by omega)
    linarith

/-- **Rounding is monotone.** -/
theorem roundF64_mono {q r : ℚ} (h : q ≤ r) : roundF64 q ≤ roundF64 r := by
  rcases lt_trichotomy q 0 with hq | hq | hq
  · rcases lt_or_ge r 0 with hr | hr
    · have := roundF64_mono_pos (q := -r) (r := -q) (by linarith) (by linarith)
      rw [roundF64_neg, roundF64_neg] at this
      linarith
    · have h1 := roundF64_nonneg (q := -q) (by linarith)
      rw [roundF64_neg] at h1
      linarith [roundF64_nonneg hr]
  · subst hq
    have := roundF64_nonneg h
    simpa [roundF64] using this
  · exact roundF64_mono_pos hq h

/-- A number with a mantissa of at most 53 bits. -/
def IsDouble (q : ℚ) : Prop := ∃ (m e : ℤ), |m| ≤ 2 ^ 53 ∧ q = m * 2 ^ e

theorem roundEven_int (n : ℤ) : roundEven (n : ℚ) = n := by
  simp [roundEven, Rat.floor_intCast]

theorem IsDouble.neg {q : ℚ} (h : IsDouble q) : IsDouble (-q) := by
  obtain ⟨m, e, h1, rfl⟩ := h
  exact ⟨-m, e, by rwa [abs_neg], by push_cast; ring⟩

theorem roundF64_double_pos {q : ℚ} (hq : 0 < q) (h : IsDouble q) : roundF64 q = q := by
  obtain ⟨m, e, hm, rfl⟩ := h
  have he : (0 : ℚ) < 2 ^ e := by positivity
  have hm0 : 0 < m := by
    have : (0 : ℚ) < m := (pos_iff_pos_of_mul_pos hq).2 he
    exact_mod_cast this
  rw [abs_of_pos hm0] at hm
  set L := ilog2 ((m : ℚ) * 2 ^ e) with hL
  obtain ⟨h1, h2⟩ := ilog2_spec hq
  rw [← hL] at h1 h2
  have hp : (0 : ℚ) < 2 ^ (L - 52) := by positivity
  obtain ⟨k, hk⟩ : ∃ k : ℤ, (m : ℚ) * 2 ^ e = k * 2 ^ (L - 52) := by
    by_cases hc : L - 52 ≤ e
    · obtain ⟨j, hj⟩ : ∃ j : ℕ, e = L - 52 + (j : ℤ) := ⟨(e - (L - 52)).toNat, by omega⟩
      refine ⟨m * 2 ^ j, ?_⟩
      rw [hj, zpow_add₀ (by norm_num), zpow_natCast]
      push_cast; ring
    · have hmq : (m : ℚ) ≤ 2 ^ (53 : ℤ) := by
        have : (m : ℚ) ≤ ((2 ^ 53 : ℤ) : ℚ) := by exact_mod_cast hm
        calc (m : ℚ) ≤ ((2 ^ 53 : ℤ) : ℚ) := this
          _ = 2 ^ (53 : ℤ) := by norm_num
      have hLe : L ≤ e + 53 := by
        by_contra hc'
        have h3 : (2 : ℚ) ^ (e + 53 + 1) ≤ 2 ^ L := zpow_le_zpow_right₀ (by norm_num) (by omega)
        have h4 : (m : ℚ) * 2 ^ e ≤ 2 ^ (e + 53) := by
          rw [zpow_add₀ (by norm_num), mul_comm]
          exact mul_le_mul_of_nonneg_left hmq he.le
        have h5 : (2 : ℚ) ^ (e + 53) < 2 ^ (e + 53 + 1) :=
          zpow_lt_zpow_right₀ (by norm_num) (by omega)
        linarith
      have hLe' : L = e + 53 := by omega
      refine ⟨2 ^ 52, ?_⟩
      have h6 : (m : ℚ) * 2 ^ e ≤ 2 ^ L := by
        rw [hLe', zpow_add₀ (by norm_num), mul_comm]
        exact mul_le_mul_of_nonneg_left hmq he.le
      rw [le_antisymm h6 h1]
      exact zpow_scale52 _
  rw [roundF64_eq hq.ne', abs_of_pos hq, ← hL]
  rw [hk, mul_div_cancel_right₀ _ hp.ne', roundEven_int]

/-- Doubles are fixed by rounding. -/
theorem roundF64_double {q : ℚ} (h : IsDouble q) : roundF64 q = q := by
  rcases lt_trichotomy q 0 with hq | hq | hq
  · have := roundF64_double_pos (q := -q) (by linarith) h.neg
    rw [roundF64_neg] at this
    linarith
  · subst hq; simp [roundF64]
  · exact roundF64_double_pos hq h

/-- Rounding yields doubles. -/
theorem isDouble_roundF64 (q : ℚ) : IsDouble (roundF64 q) := by
  suffices hpos : ∀ q : ℚ, 0 < q → IsDouble (roundF64 q) by
    rcases lt_trichotomy q 0 with hq | hq | hq
    · have := (hpos (-q) (by linarith)).neg
      rwa [roundF64_neg, neg_neg] at this
    · subst hq; exact ⟨0, 0, by norm_num, by simp [roundF64]⟩
    · exact hpos q hq
  intro q hq
  have hb := roundF64_bounds hq
  rw [roundF64_eq hq.ne', abs_of_pos hq] at hb ⊢
  have hp : (0 : ℚ) < 2 ^ (ilog2 q - 52) := by positivity
  refine ⟨_, _, ?_, rfl⟩
  have e2 : (2 : ℚ) ^ (ilog2 q + 1) = ((2 ^ 53 : ℤ) : ℚ) * 2 ^ (ilog2 q - 52) := zpow_scale53 _
  have h1 := hb.1
  have h2 := hb.2
  rw [e2] at h2
  have h3 : (roundEven (q / 2 ^ (ilog2 q - 52)) : ℚ) ≤ ((2 ^ 53 : ℤ) : ℚ) :=
    le_of_mul_le_mul_right h2 hp
  have h4 : (0 : ℚ) ≤ (roundEven (q / 2 ^ (ilog2 q - 52)) : ℚ) := by
    have : (0 : ℚ) ≤ (roundEven (q / 2 ^ (ilog2 q - 52)) : ℚ) * 2 ^ (ilog2 q - 52) :=
      le_trans (by positivity) h1
    exact nonneg_of_mul_nonneg_left this hp
  have h5 : 0 ≤ roundEven (q / 2 ^ (ilog2 q - 52)) := by exact_mod_cast h4
  rw [abs_of_nonneg h5]
  exact_mod_cast h3

/-- Rounding does not cross a double. -/
theorem roundF64_le {q d : ℚ} (hd : IsDouble d) (h : q ≤ d) : roundF64 q ≤ d := by
  have := roundF64_mono h
  rwa [roundF64_double hd] at this

/-- Rounding does not cross a double. -/
theorem le_roundF64 {q d : ℚ} (hd : IsDouble d) (h : d ≤ q) : d ≤ roundF64 q := by
  have := roundF64_mono h
  rwa [roundF64_double hd] at this

theorem isDouble_int {n : ℤ} (h : |n| ≤ 2 ^ 53) : IsDouble n := ⟨n, 0, h, by simp⟩

theorem isDouble_two_mul {q : ℚ} (h : IsDouble q) : IsDouble (2 * q) := by
  obtain ⟨m, e, h1, rfl⟩ := h
  exact ⟨m, e + 1, h1, by rw [zpow_add₀ (by norm_num)]; ring⟩

theorem isDouble_half {q : ℚ} (h : IsDouble q) : IsDouble (q / 2) := by
  obtain ⟨m, e, h1, rfl⟩ := h
  exact ⟨m, e - 1, h1, by rw [zpow_sub₀ (by norm_num)]; ring⟩

end Pysad
