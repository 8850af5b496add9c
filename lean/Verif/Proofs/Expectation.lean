import Verif.Spec.Expectation
import Mathlib.Data.Fin.Tuple.Basic
import Mathlib.Algebra.BigOperators.Fin
import Mathlib.Algebra.Order.BigOperators.Group.Finset
import Mathlib.Algebra.BigOperators.Field
import Mathlib.Tactic.Linarith
import Mathlib.Tactic.Ring
import Mathlib.Tactic.Positivity
import Mathlib.Tactic.FieldSimp
import Mathlib.Tactic.LinearCombination

/-! Averages over independent draws: moments of sums, Chebyshev's inequality. -/

namespace Pysad

open Spec

namespace Expect
variable {Ω : Type*} [Fintype Ω]

theorem add (f g : Ω → ℝ) :
    expectation (fun v => f v + g v) = expectation f + expectation g := by
  unfold expectation
  rw [Finset.sum_add_distrib, add_div]

theorem mul_left (c : ℝ) (f : Ω → ℝ) :
    expectation (fun v => c * f v) = c * expectation f := by
  unfold expectation
  rw [← Finset.mul_sum, mul_div_assoc]

theorem mul_right (c : ℝ) (f : Ω → ℝ) :
    expectation (fun v => f v * c) = expectation f * c := by
  rw [mul_comm, ← mul_left]
  simp only [mul_comm]

theorem const [Nonempty Ω] (c : ℝ) : expectation (fun _ : Ω => c) = c := by
  unfold expectation
  rw [Finset.sum_const, nsmul_eq_mul, Finset.card_univ, mul_comm, mul_div_assoc, div_self, mul_one]
  exact_mod_cast Fintype.card_ne_zero

theorem mono {f g : Ω → ℝ} (h : ∀ v, f v ≤ g v) : expectation f ≤ expectation g := by
  unfold expectation
  exact div_le_div_of_nonneg_right (Finset.sum_le_sum fun v _ => h v) (by positivity)

theorem congr {f g : Ω → ℝ} (h : ∀ v, f v = g v) : expectation f = expectation g :=
  congrArg expectation (funext h)

/-- Chebyshev's inequality. -/
theorem chebyshev (f : Ω → ℝ) (c ε : ℝ) (hε : 0 < ε) :
    fraction (fun v => ε ≤ |f v - c|) ≤ expectation (fun v => (f v - c) ^ 2) / ε ^ 2 := by
  classical
  unfold fraction expectation
  rw [div_right_comm]
  apply div_le_div_of_nonneg_right _ (by positivity)
  rw [le_div_iff₀ (by positivity)]
  have h : ∀ v ∈ Finset.univ.filter (fun v => ε ≤ |f v - c|), ε ^ 2 ≤ (f v - c) ^ 2 := by
    intro v hv
    have := (Finset.mem_filter.1 hv).2
    rw [← sq_abs (f v - c)]
    exact pow_le_pow_left₀ hε.le this 2
  have h2 := Finset.card_nsmul_le_sum _ _ _ h
  rw [nsmul_eq_mul] at h2
  have h3 : (Finset.univ.filter (fun v => ε ≤ |f v - c|)).card * ε ^ 2
      ≤ ∑ v, (f v - c) ^ 2 := by
    refine h2.trans (Finset.sum_le_sum_of_subset_of_nonneg (Finset.subset_univ _) ?_)
    intros; positivity
  convert h3 using 2

/-- Drawing `m + 1` times is drawing once and then `m` times. -/
theorem cons {α : Type*} [Fintype α] (m : ℕ) (f : (Fin (m + 1) → α) → ℝ) :
    expectation f
      = expectation fun a => expectation fun v : Fin m → α => f (Fin.cons a v) := by
  unfold expectation
  rw [← (Fin.consEquiv fun _ : Fin (m + 1) => α).sum_comp, Fintype.sum_prod_type]
  simp only [Fin.consEquiv, Equiv.coe_fn_mk]
  rw [← Finset.sum_div, div_div]
  congr 1
  rw [Fintype.card_fun, Fintype.card_fun, Fintype.card_fin, Fintype.card_fin]
  push_cast
  ring

variable {α : Type*} [Fintype α] [Nonempty α]

/-- The mean of a weighted sum of independent draws. -/
theorem sum_mean (r : α → ℝ) (μ : ℝ) (h1 : expectation r = μ) : ∀ (m : ℕ) (x : Fin m → ℝ),
    expectation (fun v : Fin m → α => ∑ i, x i * r (v i)) = μ * ∑ i, x i := by
  intro m
  induction m with
  | zero => intro x; simp [const]
  | succ m ih =>
    intro x
    rw [cons]
    simp only [Fin.sum_univ_succ, Fin.cons_zero, Fin.cons_succ]
    simp only [add, const, ih (fun i => x i.succ), mul_left, h1]
    ring

/-- The mean square of a weighted sum of independent draws. -/
theorem sum_sq (r : α → ℝ) (μ q : ℝ) (h1 : expectation r = μ)
    (h2 : expectation (fun a => r a ^ 2) = q) : ∀ (m : ℕ) (x : Fin m → ℝ),
    expectation (fun v : Fin m → α => (∑ i, x i * r (v i)) ^ 2)
      = q * ∑ i, x i ^ 2 + μ ^ 2 * ((∑ i, x i) ^ 2 - ∑ i, x i ^ 2) := by
  intro m
  induction m with
  | zero => intro x; simp [const]
  | succ m ih =>
    intro x
    rw [cons]
    simp only [Fin.sum_univ_succ, Fin.cons_zero, Fin.cons_succ]
    have e : ∀ a, (expectation fun v : Fin m → α => (x 0 * r a + ∑ i : Fin m, x (Fin.succ i) * r (v i)) ^ 2)
        = x 0 ^ 2 * r a ^ 2 + (2 * x 0 * (μ * ∑ i : Fin m, x (Fin.succ i))) * r a
          + (q * ∑ i : Fin m, x (Fin.succ i) ^ 2 + μ ^ 2 * ((∑ i : Fin m, x (Fin.succ i)) ^ 2 - ∑ i : Fin m, x (Fin.succ i) ^ 2)) := by
      intro a
      rw [← ih (fun i => x i.succ), ← sum_mean r μ h1 m (fun i => x i.succ),
        congr (g := fun v => x 0 ^ 2 * r a ^ 2
          + (2 * x 0 * r a * (∑ i : Fin m, x (Fin.succ i) * r (v i)) + (∑ i : Fin m, x (Fin.succ i) * r (v i)) ^ 2))
          (fun v => by ring), add, add, const, mul_left]
      ring
    simp only [e]
    rw [add, add, const, mul_left, mul_left, h1, h2]
    ring

/-- The fourth moment of a weighted sum of independent symmetric draws. -/
theorem sum_fourth (r : α → ℝ) (q κ C : ℝ) (h1 : expectation r = 0)
    (h2 : expectation (fun a => r a ^ 2) = q) (h3 : expectation (fun a => r a ^ 3) = 0)
    (h4 : expectation (fun a => r a ^ 4) = κ) (hq : 3 * q ^ 2 ≤ C) (hκ : κ ≤ C) :
    ∀ (m : ℕ) (x : Fin m → ℝ),
    expectation (fun v : Fin m → α => (∑ i, x i * r (v i)) ^ 4) ≤ C * (∑ i, x i ^ 2) ^ 2 := by
  intro m
  induction m with
  | zero => intro x; simp [const]
  | succ m ih =>
    intro x
    rw [cons]
    simp only [Fin.sum_univ_succ, Fin.cons_zero, Fin.cons_succ]
    have e : ∀ a, (expectation fun v : Fin m → α => (x 0 * r a + ∑ i : Fin m, x (Fin.succ i) * r (v i)) ^ 4)
        = x 0 ^ 4 * r a ^ 4 + (6 * x 0 ^ 2 * (q * ∑ i : Fin m, x (Fin.succ i) ^ 2)) * r a ^ 2
          + (4 * x 0 * expectation (fun v : Fin m → α => (∑ i : Fin m, x (Fin.succ i) * r (v i)) ^ 3)) * r a
          + expectation (fun v : Fin m → α => (∑ i : Fin m, x (Fin.succ i) * r (v i)) ^ 4) := by
      intro a
      have s2 := sum_sq r 0 q h1 h2 m (fun i => x i.succ)
      have s1 := sum_mean r 0 h1 m (fun i => x i.succ)
      rw [congr (g := fun v => x 0 ^ 4 * r a ^ 4
          + (4 * x 0 ^ 3 * r a ^ 3 * (∑ i : Fin m, x (Fin.succ i) * r (v i))
          + (6 * x 0 ^ 2 * r a ^ 2 * (∑ i : Fin m, x (Fin.succ i) * r (v i)) ^ 2
          + (4 * x 0 * r a * (∑ i : Fin m, x (Fin.succ i) * r (v i)) ^ 3
          + (∑ i : Fin m, x (Fin.succ i) * r (v i)) ^ 4))))
          (fun v => by ring), add, add, add, add, const, mul_left, mul_left, mul_left, s1, s2]
      ring
    simp only [e]
    rw [add, add, add, const, mul_left, mul_left, mul_left, h1, h2, h4]
    have hi := ih (fun i => x i.succ)
    have hA : 0 ≤ ∑ i : Fin m, x i.succ ^ 2 := Finset.sum_nonneg fun i _ => sq_nonneg _
    have hx : 0 ≤ x 0 ^ 2 := sq_nonneg _
    have p1 := mul_nonneg (mul_nonneg hx hA) (sub_nonneg.2 hq)
    have p2 := mul_nonneg (mul_nonneg hx hx) (sub_nonneg.2 hκ)
    nlinarith [hi, p1, p2]

/-- The variance of a sum of independent draws. -/
theorem sum_var (f : α → ℝ) (μ w : ℝ) (h1 : expectation f = μ)
    (h2 : expectation (fun a => f a ^ 2) = w) (n : ℕ) (c : ℝ) :
    expectation (fun v : Fin n → α => ((∑ k, f (v k)) - c) ^ 2)
      = n * (w - μ ^ 2) + (n * μ - c) ^ 2 := by
  have e1 := sum_mean f μ h1 n (fun _ => 1)
  have e2 := sum_sq f μ w h1 h2 n (fun _ => 1)
  simp only [one_mul, one_pow, Finset.sum_const, Finset.card_univ, Fintype.card_fin,
    nsmul_eq_mul, mul_one] at e1 e2
  rw [congr (g := fun v => (∑ k, f (v k)) ^ 2 + ((-2 * c) * (∑ k, f (v k)) + c ^ 2))
    (fun v => by ring), add, add, const, mul_left, e1, e2]
  ring

end Expect

end Pysad
