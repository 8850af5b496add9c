import Verif.Proofs.RoundingMono
import Verif.Props.Float

/-! A calculus of rounding errors: `Approx a b B k` says that `a` is the number `b` of absolute
value at most `B` after `k` roundings. -/

namespace Pysad

/-- `a` approximates `b`, which is at most `B`, as `k` successive roundings do. -/
def Approx (a b B : ℚ) (k : ℕ) : Prop :=
  |b| ≤ B ∧ |a - b| ≤ B * ((1 + unitRoundoff) ^ k - 1)

namespace Approx
variable {a b a' b' B B' : ℚ} {k k' : ℕ}

theorem u_nonneg : (0 : ℚ) ≤ unitRoundoff := by norm_num [unitRoundoff]

theorem one_le_growth (k : ℕ) : (1 : ℚ) ≤ (1 + unitRoundoff) ^ k :=
  one_le_pow₀ (by linarith [u_nonneg])

theorem bound_nonneg (h : Approx a b B k) : 0 ≤ B := (abs_nonneg _).trans h.1

theorem exact (h : |b| ≤ B) : Approx b b B 0 := ⟨h, by simp⟩

theorem mono_k (h : Approx a b B k) (hk : k ≤ k') : Approx a b B k' := by
  refine ⟨h.1, h.2.trans ?_⟩
  apply mul_le_mul_of_nonneg_left _ h.bound_nonneg
  have : (1 + unitRoundoff) ^ k ≤ (1 + unitRoundoff) ^ k' :=
    pow_le_pow_right₀ (by linarith [u_nonneg]) hk
  linarith

theorem mono_B (h : Approx a b B k) (hB : B ≤ B') : Approx a b B' k := by
  refine ⟨h.1.trans hB, h.2.trans ?_⟩
  apply mul_le_mul_of_nonneg_right hB
  linarith [one_le_growth k]

theorem abs_le (h : Approx a b B k) : |a| ≤ B * (1 + unitRoundoff) ^ k := by
  calc |a| = |b + (a - b)| := by ring_nf
    _ ≤ |b| + |a - b| := abs_add_le _ _
    _ ≤ B + B * ((1 + unitRoundoff) ^ k - 1) := by linarith [h.1, h.2]
    _ = _ := by ring

theorem round (h : Approx a b B k) : Approx (roundF64 a) b B (k + 1) := by
  refine ⟨h.1, ?_⟩
  have h1 := roundF64_error a
  have h2 := mul_le_mul_of_nonneg_left h.abs_le u_nonneg
  calc |roundF64 a - b| = |(roundF64 a - a) + (a - b)| := by ring_nf
    _ ≤ |roundF64 a - a| + |a - b| := abs_add_le _ _
    _ ≤ unitRoundoff * (B * (1 + unitRoundoff) ^ k) + B * ((1 + unitRoundoff) ^ k - 1) := by
        linarith [h.2]
    _ = _ := by rw [pow_succ]; ring

theorem add (h : Approx a b B k) (h' : Approx a' b' B' k) : Approx (a + a') (b + b') (B + B') k := by
  refine ⟨(abs_add_le _ _).trans (add_le_add h.1 h'.1), ?_⟩
  calc |a + a' - (b + b')| = |(a - b) + (a' - b')| := by ring_nf
    _ ≤ |a - b| + |a' - b'| := abs_add_le _ _
    _ ≤ B * ((1 + unitRoundoff) ^ k - 1) + B' * ((1 + unitRoundoff) ^ k - 1) :=
        add_le_add h.2 h'.2
    _ = _ := by ring

theorem neg (h : Approx a b B k) : Approx (-a) (-b) B k := by
  refine ⟨by rw [abs_neg]; exact h.1, ?_⟩
  rw [show -a - -b = -(a - b) by ring, abs_neg]
  exact h.2

theorem sub (h : Approx a b B k) (h' : Approx a' b' B' k) : Approx (a - a') (b - b') (B + B') k := by
  rw [sub_eq_add_neg, sub_eq_add_neg]
  exact h.add h'.neg

theorem mul (h : Approx a b B k) (h' : Approx a' b' B' k') :
    Approx (a * a') (b * b') (B * B') (k + k') := by
  have hB := h.bound_nonneg
  have hB' := h'.bound_nonneg
  refine ⟨by rw [abs_mul]; exact mul_le_mul h.1 h'.1 (abs_nonneg _) hB, ?_⟩
  calc |a * a' - b * b'| = |(a - b) * a' + b * (a' - b')| := by ring_nf
    _ ≤ |(a - b) * a'| + |b * (a' - b')| := abs_add_le _ _
    _ = |a - b| * |a'| + |b| * |a' - b'| := by rw [abs_mul, abs_mul]
    _ ≤ B * ((1 + unitRoundoff) ^ k - 1) * (B' * (1 + unitRoundoff) ^ k') +
          B * (B' * ((1 + unitRoundoff) ^ k' - 1)) := by
        apply add_le_add
        · apply mul_le_mul h.2 h'.abs_le (abs_nonneg _)
          exact mul_nonneg hB (by linarith [one_le_growth k])
        · exact mul_le_mul h.1 h'.2 (abs_nonneg _) hB
    _ = _ := by rw [pow_add]; ring

theorem div_pos {n : ℚ} (hn : 0 < n) (h : Approx a b B k) : Approx (a / n) (b / n) (B / n) k := by
  refine ⟨by rw [abs_div, abs_of_pos hn]; exact div_le_div_of_nonneg_right h.1 hn.le, ?_⟩
  rw [← sub_div, abs_div, abs_of_pos hn, div_mul_eq_mul_div]
  exact div_le_div_of_nonneg_right h.2 hn.le

end Approx

end Pysad
