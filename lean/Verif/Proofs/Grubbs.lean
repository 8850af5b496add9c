import Verif.Proofs.Majority
import Mathlib.Analysis.Real.Sqrt
import Mathlib.Tactic.FieldSimp
import Mathlib.Tactic.Positivity

/-! One outlier in a sample: its distance from the mean in units of the standard deviation. -/

namespace Pysad.Grubbs

theorem sum_sub (l : List ℝ) (a : ℝ) : (l.map fun x => x - a).sum = l.sum - l.length * a := by
  induction l with
  | nil => simp
  | cons x l ih => simp only [List.map_cons, List.sum_cons, ih, List.length_cons]; push_cast; ring

theorem sum_sq (l : List ℝ) (a : ℝ) : (l.map fun x => (x - a) ^ 2).sum =
    (l.map fun x => x ^ 2).sum - 2 * a * l.sum + l.length * a ^ 2 := by
  induction l with
  | nil => simp
  | cons x l ih => simp only [List.map_cons, List.sum_cons, ih, List.length_cons]; push_cast; ring

theorem sum_sq_le (l : List ℝ) (c b : ℝ) (h : ∀ x ∈ l, |x - c| ≤ b) :
    (l.map fun x => (x - c) ^ 2).sum ≤ l.length * b ^ 2 := by
  induction l with
  | nil => simp
  | cons x l ih =>
    simp only [List.map_cons, List.sum_cons, List.length_cons]
    have h1 := sq_le_sq' (abs_le.1 (h x (by simp))).1 (abs_le.1 (h x (by simp))).2
    have h2 := ih fun y hy => h y (by simp [hy])
    push_cast
    linarith

theorem abs_sum_le (l : List ℝ) (c b : ℝ) (h : ∀ x ∈ l, |x - c| ≤ b) :
    |(l.map fun x => x - c).sum| ≤ l.length * b := by
  induction l with
  | nil => simp
  | cons x l ih =>
    simp only [List.map_cons, List.sum_cons, List.length_cons]
    have h1 := h x (by simp)
    have h2 := ih fun y hy => h y (by simp [hy])
    refine (abs_add_le _ _).trans ?_
    push_cast
    linarith

section
variable (others : List ℝ) (z c b : ℝ)

/-- Mean of the sample. -/
noncomputable def mean (l : List ℝ) : ℝ := l.sum / l.length

/-- Standard deviation of the sample (divisor one less than its size). -/
noncomputable def std (l : List ℝ) : ℝ :=
  √((l.map fun v => (v - mean l) ^ 2).sum / (l.length - 1))

variable {others z c b} (hk : 3 ≤ others.length) (h : ∀ x ∈ others, |x - c| ≤ b)

include hk in
theorem z_sub_mean : z - mean (others ++ [z]) =
    (others.length * z - others.sum) / (others.length + 1) := by
  have : (0 : ℝ) < others.length := by exact_mod_cast (by omega : 0 < others.length)
  unfold mean
  simp only [List.sum_append, List.sum_singleton, List.length_append, List.length_singleton]
  push_cast
  field_simp
  ring

include h in
theorem abs_w (hD : b ≤ |z - c|) :
    others.length * (|z - c| - b) ≤ |others.length * z - others.sum| := by
  have h1 := abs_sum_le others c b h
  rw [sum_sub] at h1
  have e : (others.length : ℝ) * z - others.sum
      = others.length * (z - c) - (others.sum - others.length * c) := by ring
  have h2 := abs_sub_abs_le_abs_sub ((others.length : ℝ) * (z - c)) (others.sum - others.length * c)
  rw [abs_mul, abs_of_nonneg (Nat.cast_nonneg others.length : (0 : ℝ) ≤ _)] at h2
  rw [e]
  linarith

include hk in
/-- The sum of squares about the mean: that of the others about their mean, and a part due to
the outlier. -/
theorem sum_sq_eq : ((others ++ [z]).map fun v => (v - mean (others ++ [z])) ^ 2).sum =
    ((others.map fun x => x ^ 2).sum - others.sum ^ 2 / others.length) +
      (others.length * z - others.sum) ^ 2 / (others.length * (others.length + 1)) := by
  have : (0 : ℝ) < others.length := by exact_mod_cast (by omega : 0 < others.length)
  rw [sum_sq]
  unfold mean
  simp only [List.map_append, List.map_singleton, List.sum_append, List.sum_singleton,
    List.length_append, List.length_singleton]
  push_cast
  field_simp
  ring

include hk h in
theorem spread_le : (others.map fun x => x ^ 2).sum - others.sum ^ 2 / others.length
    ≤ others.length * b ^ 2 := by
  have hp : (0 : ℝ) < others.length := by exact_mod_cast (by omega : 0 < others.length)
  have h1 := sum_sq_le others c b h
  rw [sum_sq] at h1
  have h2 : others.sum ^ 2 / others.length - 2 * c * others.sum + others.length * c ^ 2
      = (others.sum - others.length * c) ^ 2 / others.length := by
    field_simp
    ring
  have h3 : 0 ≤ (others.sum - others.length * c) ^ 2 / others.length := by positivity
  linarith

include hk in
theorem spread_nonneg : 0 ≤ (others.map fun x => x ^ 2).sum - others.sum ^ 2 / others.length := by
  have hp : (0 : ℝ) < others.length := by exact_mod_cast (by omega : 0 < others.length)
  have h1 : (0 : ℝ) ≤ (others.map fun x => (x - others.sum / others.length) ^ 2).sum :=
    List.sum_nonneg (by
      intro y hy
      obtain ⟨x, -, rfl⟩ := List.mem_map.1 hy
      positivity)
  rw [sum_sq] at h1
  have e : -2 * (others.sum / others.length) * others.sum
      + others.length * (others.sum / others.length) ^ 2 = - (others.sum ^ 2 / others.length) := by
    field_simp
    ring
  linarith

include hk h in
/-- The outlier is further from the mean than every other value. -/
theorem farthest (hD : 5 * b < |z - c|) (x : ℝ) (hx : x ∈ others) :
    |x - mean (others ++ [z])| < |z - mean (others ++ [z])| := by
  have hb : 0 ≤ b := (abs_nonneg _).trans (h x hx)
  have hp : (3 : ℝ) ≤ others.length := by exact_mod_cast hk
  have hw := abs_w h (z := z) (by linarith)
  set w := (others.length : ℝ) * z - others.sum with hwdef
  rw [z_sub_mean hk]
  rw [← hwdef, abs_div, abs_of_pos (show (0 : ℝ) < others.length + 1 by positivity)]
  -- distance of the others' mean
  have hm : mean (others ++ [z]) = others.sum / others.length
      + w / (others.length * (others.length + 1)) := by
    unfold mean
    simp only [List.sum_append, List.sum_singleton, List.length_append, List.length_singleton, hwdef]
    push_cast
    field_simp
    ring
  have h1 : |x - others.sum / others.length| ≤ 2 * b := by
    have h2 := abs_sum_le others c b h
    rw [sum_sub] at h2
    have h3 : |others.sum / others.length - c| ≤ b := by
      have e : others.sum / others.length - c = (others.sum - others.length * c) / others.length := by
        field_simp
      rw [e, abs_div, abs_of_pos (show (0 : ℝ) < others.length by linarith),
        div_le_iff₀ (by linarith)]
      linarith
    have h4 := abs_sub_le x c (others.sum / others.length)
    rw [abs_sub_comm c] at h4
    linarith [h x hx]
  have h5 : |x - mean (others ++ [z])| ≤ 2 * b + |w| / (others.length * (others.length + 1)) := by
    rw [hm, ← sub_sub]
    refine (abs_sub _ _).trans ?_
    rw [abs_div, abs_of_pos (show (0 : ℝ) < others.length * (others.length + 1) by positivity)]
    linarith
  refine h5.trans_lt ?_
  have h6 : |w| / (others.length + 1) - |w| / (others.length * (others.length + 1))
      = |w| * (others.length - 1) / (others.length * (others.length + 1)) := by
    field_simp
  have h7 : 2 * b < |w| * (others.length - 1) / (others.length * (others.length + 1)) := by
    rw [lt_div_iff₀ (by positivity)]
    have h8 : others.length * (4 * b) < |w| := by
      refine lt_of_lt_of_le ?_ hw
      apply mul_lt_mul_of_pos_left (by linarith) (by linarith)
    nlinarith [mul_nonneg hb (show (0 : ℝ) ≤ others.length by linarith)]
  linarith

include hk h in
/-- The scale is not tiny. -/
theorem std_large (hD : b ≤ |z - c|) (ε : ℝ) (hε : 0 ≤ ε)
    (hL : ε ^ 2 * (others.length + 1) < (|z - c| - b) ^ 2) :
    ε < std (others ++ [z]) := by
  have hp : (3 : ℝ) ≤ others.length := by exact_mod_cast hk
  have hw := abs_w h hD
  unfold std
  rw [Real.lt_sqrt hε, sum_sq_eq hk, List.length_append, List.length_singleton]
  push_cast
  rw [add_sub_cancel_right, lt_div_iff₀ (by linarith)]
  have h1 := spread_nonneg hk
  have h2 : (others.length * (|z - c| - b)) ^ 2 ≤ (others.length * z - others.sum) ^ 2 := by
    rw [← sq_abs (_ - others.sum)]
    exact pow_le_pow_left₀ (mul_nonneg (by linarith) (by linarith)) hw 2
  have h3 : ε ^ 2 * others.length < (others.length * z - others.sum) ^ 2
      / (others.length * (others.length + 1)) := by
    rw [lt_div_iff₀ (by positivity)]
    nlinarith [mul_lt_mul_of_pos_left hL (show (0 : ℝ) < others.length ^ 2 by positivity)]
  linarith

include hk h in
/-- The deviation of the outlier exceeds the critical value, whatever the quantile `t`. -/
theorem exceeds (hD : b ≤ |z - c|) (t : ℝ) (hstd : 0 < std (others ++ [z]))
    (hL : (others.length + 1) * t ^ 2 * b ^ 2 < (others.length - 1) * (|z - c| - b) ^ 2) :
    (others.length * t) / √((others.length - 1 + t ^ 2) * (others.length + 1))
      < |z - mean (others ++ [z])| / std (others ++ [z]) := by
  have hp : (3 : ℝ) ≤ others.length := by exact_mod_cast hk
  have hw := abs_w h hD
  have hstd2 : (0 : ℝ) < ((others ++ [z]).map fun v => (v - mean (others ++ [z])) ^ 2).sum
      / ((others ++ [z]).length - 1) := Real.sqrt_pos.1 hstd
  have hpos : (0 : ℝ) < (others.length - 1 + t ^ 2) * (others.length + 1) := by
    have := sq_nonneg t
    apply mul_pos <;> linarith
  refine lt_of_abs_lt (abs_lt_of_sq_lt_sq ?_ (by positivity))
  rw [div_pow, div_pow, Real.sq_sqrt hpos.le, std, Real.sq_sqrt hstd2.le, sq_abs,
    z_sub_mean hk, div_pow, div_lt_div_iff₀ hpos hstd2, sum_sq_eq hk, List.length_append,
    List.length_singleton]
  push_cast
  rw [add_sub_cancel_right]
  have h1 := spread_le hk h
  have h2 : (others.length * (|z - c| - b)) ^ 2 ≤ (others.length * z - others.sum) ^ 2 := by
    rw [← sq_abs (_ - others.sum)]
    exact pow_le_pow_left₀ (mul_nonneg (by linarith) (by linarith)) hw 2
  generalize (others.map fun x => x ^ 2).sum - others.sum ^ 2 / others.length = V at *
  generalize (others.length * z - others.sum) ^ 2 = w2 at *
  generalize (others.length : ℝ) = k at *
  have hk0 : k ≠ 0 := by linarith
  have hk1 : k + 1 ≠ 0 := by linarith
  have e1 : (k * t) ^ 2 * ((V + w2 / (k * (k + 1))) / k)
      = (k * (k + 1) * t ^ 2 * V + t ^ 2 * w2) / (k + 1) := by
    field_simp
  have e2 : w2 / (k + 1) ^ 2 * ((k - 1 + t ^ 2) * (k + 1)) = w2 * (k - 1 + t ^ 2) / (k + 1) := by
    field_simp
  rw [e1, e2]
  apply div_lt_div_of_pos_right _ (by linarith)
  have h3 : k * (k + 1) * t ^ 2 * V ≤ k * (k + 1) * t ^ 2 * (k * b ^ 2) :=
    mul_le_mul_of_nonneg_left h1 (by positivity)
  have h4 : (k - 1) * (k * (|z - c| - b)) ^ 2 ≤ (k - 1) * w2 :=
    mul_le_mul_of_nonneg_left h2 (by linarith)
  have h5 := mul_lt_mul_of_pos_left hL (show (0 : ℝ) < k ^ 2 by positivity)
  nlinarith

end

/-- Samuelson's inequality. -/
theorem samuelson (l : List ℝ) (v : ℝ) (hv : v ∈ l) :
    l.length * (v - mean l) ^ 2 ≤ (l.length - 1) * (l.map fun x => (x - mean l) ^ 2).sum := by
  have hp : (1 : ℝ) ≤ l.length := by exact_mod_cast List.length_pos_of_mem hv
  obtain ⟨l₁, l₂, rfl⟩ := List.append_of_mem hv
  -- the deviations sum to zero
  set μ := mean (l₁ ++ v :: l₂) with hμ
  have h0 : ((l₁ ++ v :: l₂).map fun x => x - μ).sum = 0 := by
    rw [sum_sub, hμ, mean, mul_div_cancel₀ _ (by linarith), sub_self]
  have hcs : ∀ l : List ℝ, (l.map fun x => x - μ).sum ^ 2
      ≤ l.length * (l.map fun x => (x - μ) ^ 2).sum := by
    intro l
    rcases l.eq_nil_or_concat with rfl | ⟨_, _, rfl⟩
    · simp
    · rename_i l x
      set m := l.concat x
      have hm : (0 : ℝ) < m.length := by simp [m]; positivity
      have h1 : (0 : ℝ) ≤ (m.map fun x => (x - m.sum / m.length) ^ 2).sum :=
        List.sum_nonneg (by
          intro y hy
          obtain ⟨x, -, rfl⟩ := List.mem_map.1 hy
          positivity)
      rw [sum_sq] at h1
      rw [sum_sub, sum_sq]
      have e : (m.length : ℝ) * ((m.map fun x => x ^ 2).sum - 2 * (m.sum / m.length) * m.sum
          + m.length * (m.sum / m.length) ^ 2)
          = m.length * (m.map fun x => x ^ 2).sum - m.sum ^ 2 := by
        field_simp
        ring
      have h2 := mul_nonneg hm.le h1
      rw [e] at h2
      nlinarith
  have h1 := hcs (l₁ ++ l₂)
  simp only [List.map_append, List.sum_append, List.map_cons, List.sum_cons, List.length_append,
    List.length_cons] at h0 h1 hp ⊢
  push_cast at h1 hp ⊢
  have h2 : (l₁.map fun x => x - μ).sum + (l₂.map fun x => x - μ).sum = -(v - μ) := by linarith
  rw [h2] at h1
  nlinarith

/-- No value is further from the mean than `(n - 1) / √n` standard deviations. -/
theorem ceiling (l : List ℝ) (hl : 2 ≤ l.length) (v : ℝ) (hv : v ∈ l) (hstd : 0 < std l) :
    |v - mean l| / std l ≤ (l.length - 1) / √l.length := by
  have hp : (2 : ℝ) ≤ l.length := by exact_mod_cast hl
  have hstd2 : (0 : ℝ) < (l.map fun v => (v - mean l) ^ 2).sum / (l.length - 1) := Real.sqrt_pos.1 hstd
  refine abs_le_of_sq_le_sq' ?_ (div_nonneg (by linarith) (Real.sqrt_nonneg _)) |>.2
  rw [div_pow, div_pow, sq_abs, std, Real.sq_sqrt hstd2.le, Real.sq_sqrt (by linarith),
    div_le_div_iff₀ hstd2 (by linarith), mul_div_assoc', le_div_iff₀ (by linarith)]
  have := samuelson l v hv
  nlinarith

end Pysad.Grubbs
