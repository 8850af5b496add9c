import Verif.Props.StuckWindow
import Verif.Props.SameWindow
import Mathlib.Algebra.Order.Ring.Pow
import Mathlib.Analysis.Convex.SpecificFunctions.Basic
import Mathlib.Data.Fintype.BigOperators
import Mathlib.Data.Fintype.Pi

/-! Property C215: how often `RelativeEntropy` reports a change of a stream that does not change. -/

namespace Pysad

open Spec

/-- The calls that fit two windows of `W` values, drawn from the values `val`. -/
def Spec.twoWindows {A : Type*} (val : A → ℝ) {W : ℕ} (ω : (Fin W → A) × (Fin W → A)) : List (Call ℝ Unit) :=
  (List.ofFn (fun k => val (ω.1 k)) ++ List.ofFn (fun k => val (ω.2 k))).map fun v => Call.fit v none

open Classical in
/-- The probability that the second of two windows is reported, if all values are drawn independently from `val`, every
`a : A` with the same probability. -/
noncomputable def Spec.alarmRate {A : Type*} [Fintype A] (val : A → ℝ) (s0 : RelEntState ℝ) (W : ℕ) : ℝ :=
  ((Finset.univ.filter fun ω : (Fin W → A) × (Fin W → A) => relEntAnswer s0 (twoWindows val ω) 0 = .ok (-1)).card : ℝ) /
    (Fintype.card ((Fin W → A) × (Fin W → A)) : ℝ)

/-- **C215, as the threshold suggests**: it is the point that a chi-squared variable exceeds in one case of a hundred, so
that a stream that does not change is reported in at most one case of a hundred. -/
def C215_statement : Prop :=
  ∀ isf : ℤ → Num ℝ, ChiSquaredTail isf → ∀ lo hi : ℝ, lo < hi → ∀ n W : ℕ, 2 ≤ n → 1 ≤ W →
    ∀ s0 : RelEntState ℝ, RelEnt.new isf lo hi n W = .ok s0 →
    ∀ (k : ℕ) (val : Fin (k + 1) → ℝ), (∀ a, lo < val a ∧ val a ≤ hi) → alarmRate val s0 W ≤ 1 / 100

namespace FalseAlarms

open NewValues

theorem fitted_two {A : Type*} (val : A → ℝ) {W : ℕ} (ω : (Fin W → A) × (Fin W → A)) :
    fitted (twoWindows val ω) = List.ofFn (fun k => val (ω.1 k)) ++ List.ofFn (fun k => val (ω.2 k)) := by
  unfold twoWindows
  rw [fitted_map_fit]

theorem take_two {A : Type*} (val : A → ℝ) {W : ℕ} (ω : (Fin W → A) × (Fin W → A)) :
    (fitted (twoWindows val ω)).take W = List.ofFn (fun k => val (ω.1 k)) := by
  rw [fitted_two, List.take_left' (List.length_ofFn)]

theorem last_two {A : Type*} (val : A → ℝ) {W : ℕ} (ω : (Fin W → A) × (Fin W → A)) :
    lastN W (fitted (twoWindows val ω)) = List.ofFn (fun k => val (ω.2 k)) := by
  rw [fitted_two]
  unfold lastN
  rw [List.drop_left']
  simp

theorem length_two {A : Type*} (val : A → ℝ) {W : ℕ} (ω : (Fin W → A) × (Fin W → A)) :
    W ≤ (fitted (twoWindows val ω)).length := by
  rw [fitted_two]; simp

/-- The probability that none of `W` draws is a given one of `W` things is between a quarter and three quarters. -/
theorem pow_bounds {W : ℕ} (hW : 2 ≤ W) :
    (1 : ℝ) / 4 ≤ (((W : ℝ) - 1) / W) ^ W ∧ (((W : ℝ) - 1) / W) ^ W ≤ 3 / 4 := by
  have hr : (2 : ℝ) ≤ W := by exact_mod_cast hW
  have e : ((W : ℝ) - 1) / W = 1 + -(1 / W) := by field_simp; ring
  have hs : (0 : ℝ) ≤ 1 + -(1 / (W : ℝ)) := by
    rw [← e]; exact div_nonneg (by linarith) (by linarith)
  constructor
  · have h := one_add_mul_self_le_rpow_one_add (s := -(1 / (W : ℝ))) (by linarith) (p := (W : ℝ) / 2) (by linarith)
    have e2 : 1 + (W : ℝ) / 2 * -(1 / W) = 1 / 2 := by field_simp; norm_num
    rw [e2] at h
    have e3 : ((1 + -(1 / (W : ℝ))) ^ ((W : ℝ) / 2)) ^ 2 = (1 + -(1 / (W : ℝ))) ^ W := by
      rw [← Real.rpow_natCast, ← Real.rpow_mul hs, ← Real.rpow_natCast]
      congr 1
      push_cast
      ring
    rw [e, ← e3]
    nlinarith
  · have hp : (0 : ℝ) < (W : ℝ) - 1 := by linarith
    have h := one_add_mul_le_pow (a := 1 / ((W : ℝ) - 1)) (by have : 0 < 1 / ((W : ℝ) - 1) := by positivity
                                                              linarith) W
    have e2 : 1 + 1 / ((W : ℝ) - 1) = W / (W - 1) := by field_simp; ring
    have e3 : (2 : ℝ) ≤ 1 + W * (1 / ((W : ℝ) - 1)) := by
      have : 1 ≤ W * (1 / ((W : ℝ) - 1)) := by rw [mul_one_div, le_div_iff₀ hp]; linarith
      linarith
    rw [e2] at h
    have h2 : (2 : ℝ) ≤ ((W : ℝ) / (W - 1)) ^ W := e3.trans h
    have e4 : (((W : ℝ) - 1) / W) ^ W = (((W : ℝ) / (W - 1)) ^ W)⁻¹ := by rw [← inv_pow, inv_div]
    rw [e4]
    have := inv_anti₀ (by norm_num) h2
    linarith

/-- The windows that do not hit a given element. -/
theorem card_miss {W : ℕ} (a : Fin W) :
    (Finset.univ.filter fun f : Fin W → Fin W => ∀ k, f k ≠ a).card = (W - 1) ^ W := by
  have e : (Finset.univ.filter fun f : Fin W → Fin W => ∀ k, f k ≠ a) =
      Fintype.piFinset fun _ : Fin W => Finset.univ.erase a := by
    ext f
    simp [Fintype.mem_piFinset]
  rw [e, Fintype.card_piFinset]
  simp

end FalseAlarms

open NewValues FalseAlarms

/-- **C215 fails** for every window of at least two values, every number of bins of at least three and every threshold:
there is a stream that does not change and is reported in more than 18 cases of a hundred. -/
theorem C215_alarms_refuted (isf : ℤ → Num ℝ) (lo hi : ℝ) (hlt : lo < hi) (n W : ℕ) (hn : 3 ≤ n) (hW : 2 ≤ W)
    (s0 : RelEntState ℝ) (h0 : RelEnt.new isf lo hi n W = .ok s0) :
    ∃ val : Fin W → ℝ, (∀ a, lo < val a ∧ val a ≤ hi) ∧ 3 / 16 ≤ alarmRate val s0 W := by
  classical
  have hn' : (3 : ℝ) ≤ n := by exact_mod_cast hn
  have hstep : 0 < (hi - lo) / (n : ℝ) := div_pos (sub_pos.2 hlt) (by linarith)
  have hfull : (hi - lo) / (n : ℝ) * n = hi - lo := by field_simp
  let a0 : Fin W := ⟨0, by omega⟩
  refine ⟨fun a => if a = a0 then lo + (hi - lo) / n else hi, fun a => ?_, ?_⟩
  · dsimp only
    split_ifs
    · constructor <;> nlinarith
    · exact ⟨hlt, le_rfl⟩
  set val : Fin W → ℝ := fun a => if a = a0 then lo + (hi - lo) / n else hi with hval
  set M := Finset.univ.filter fun f : Fin W → Fin W => ∀ k, f k ≠ a0 with hM
  have hsub : M ×ˢ Mᶜ ⊆
      Finset.univ.filter fun ω : (Fin W → Fin W) × (Fin W → Fin W) => relEntAnswer s0 (twoWindows val ω) 0 = .ok (-1) := by
    rintro ⟨f, g⟩ h
    rw [Finset.mem_product, Finset.mem_compl, hM, Finset.mem_filter, Finset.mem_filter] at h
    obtain ⟨⟨-, hf⟩, hg⟩ := h
    simp only [Finset.mem_univ, true_and, not_forall, not_not] at hg
    obtain ⟨k, hk⟩ := hg
    rw [Finset.mem_filter]
    refine ⟨Finset.mem_univ _, ?_⟩
    refine C210_new_partial isf lo hi hlt n W (by omega) (by omega) s0 h0 _ 0 (length_two _ _) 0 (by omega) ?_ ?_ (by omega)
    · rw [last_two]
      refine ⟨val (g k), List.mem_ofFn.2 ⟨k, rfl⟩, ?_⟩
      simp only [hval]
      rw [if_pos hk]
      constructor <;> push_cast <;> linarith
    · rw [take_two]
      intro u hu
      obtain ⟨j, rfl⟩ := List.mem_ofFn.1 hu
      simp only [hval]
      rw [if_neg (hf j)]
      rintro ⟨-, h2⟩
      push_cast at h2
      nlinarith
  have hcard := Finset.card_le_card hsub
  have hMc : M.card = (W - 1) ^ W := card_miss a0
  have hall : Fintype.card (Fin W → Fin W) = W ^ W := by simp
  rw [Finset.card_product, Finset.card_compl, hMc, hall] at hcard
  have hle : (W - 1) ^ W ≤ W ^ W := Nat.pow_le_pow_left (by omega) W
  have hcard' : ((W : ℝ) - 1) ^ W * ((W : ℝ) ^ W - ((W : ℝ) - 1) ^ W) ≤ ((Finset.univ.filter fun ω :
      (Fin W → Fin W) × (Fin W → Fin W) => relEntAnswer s0 (twoWindows val ω) 0 = .ok (-1)).card : ℝ) := by
    have := (Nat.cast_le (α := ℝ)).2 hcard
    rw [Nat.cast_mul, Nat.cast_sub hle, Nat.cast_pow, Nat.cast_pow, Nat.cast_sub (by omega), Nat.cast_one] at this
    exact this
  unfold alarmRate
  have hWp : (0 : ℝ) < (W : ℝ) ^ W := by positivity
  rw [Fintype.card_prod, hall, Nat.cast_mul, Nat.cast_pow, le_div_iff₀ (by positivity)]
  refine le_trans ?_ hcard'
  obtain ⟨b1, b2⟩ := pow_bounds hW
  rw [div_pow] at b1 b2
  rw [le_div_iff₀ hWp] at b1
  rw [div_le_iff₀ hWp] at b2
  nlinarith [mul_nonneg (sub_nonneg.2 b1) (sub_nonneg.2 b2)]

/-- **C215**, what holds: a stream whose values all lie in one part is never reported. -/
theorem C215_one_part_partial (isf : ℤ → Num ℝ) (hisf : ChiSquaredTail isf) (lo hi : ℝ) (hlt : lo < hi) (n W : ℕ)
    (hn : 2 ≤ n) (hW : 1 ≤ W) (s0 : RelEntState ℝ) (h0 : RelEnt.new isf lo hi n W = .ok s0)
    {A : Type*} [Fintype A] (val : A → ℝ) (i : ℕ) (hi' : i < n) (hval : ∀ a, InPart lo hi n i (val a)) :
    alarmRate val s0 W = 0 := by
  classical
  obtain ⟨t, ht, hT⟩ := hisf.positive ((n : ℤ) - 1) (by omega)
  unfold alarmRate
  rw [div_eq_zero_iff]
  left
  rw [Nat.cast_eq_zero, Finset.card_eq_zero, Finset.filter_eq_empty_iff]
  intro ω _
  rw [C211_steady isf lo hi hlt n W hn hW (by rw [hT]; exact .numbers ht) s0 h0 _ 0 (length_two _ _) i hi' ?_ ?_]
  · simp
  · rw [take_two]
    intro u hu
    obtain ⟨j, rfl⟩ := List.mem_ofFn.1 hu
    exact hval _
  · rw [last_two]
    intro u hu
    obtain ⟨j, rfl⟩ := List.mem_ofFn.1 hu
    exact hval _

/-- The hypotheses of `C215_one_part_partial` in a concrete case: two values in the first of five parts of `(0, 10]`. -/
example (isf : ℤ → Num ℝ) (hisf : ChiSquaredTail isf) (s0 : RelEntState ℝ) (h0 : RelEnt.new isf 0 10 5 52 = .ok s0) :
    alarmRate ![(1 : ℝ), 2] s0 52 = 0 := by
  refine C215_one_part_partial isf hisf 0 10 (by norm_num) 5 52 (by norm_num) (by norm_num) s0 h0 _ 0 (by norm_num) ?_
  intro a
  fin_cases a <;> norm_num [InPart]

/-- **C215 is false** with the default arguments. -/
theorem C215_refuted : ¬ C215_statement := by
  intro h
  have hisf : ChiSquaredTail fun k => if k = 0 then Num.nan else Num.fin (1 : ℝ) :=
    ⟨by simp, fun k hk => ⟨1, one_pos, by rw [if_neg (by omega)]⟩⟩
  obtain ⟨val, hv, hr⟩ := C215_alarms_refuted (fun k => if k = 0 then Num.nan else Num.fin (1 : ℝ)) 0 1 one_pos 5 52
    (by norm_num) (by norm_num) _ rfl
  have := h _ hisf 0 1 one_pos 5 52 (by norm_num) (by norm_num) _ rfl 51 val hv
  linarith

end Pysad
