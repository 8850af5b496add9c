import Verif.Props.DecomposerInfluence
import Mathlib.Tactic.FieldSimp
import Mathlib.Tactic.FinCases
import Mathlib.Tactic.LinearCombination
import Mathlib.Tactic.Ring

/-! Property C209: what `SeasonalTrendDecomposer` returns on a season with a linear drift. -/

namespace Pysad

open Spec

/-- A season of length `s` on top of a linear drift: one season later, feature `i` is `s * a i` higher. -/
def Spec.SeasonAndDrift {K : Type*} [Field K] {d : ℕ} (s : ℕ) (a : Fin d → K) (x : ℕ → Fin d → K) : Prop :=
  ∀ n i, x (n + s) i = x n i + s * a i

namespace SeasonDrift

variable {K : Type*} [Field K]

section
variable {s : ℕ} {f : ℕ → K} {a : K} (hf : ∀ n, f (n + s) = f n + s * a)

include hf in
theorem level (n q : ℕ) : f (n + q * s) - (n + q * s : ℕ) * a = f n - n * a := by
  induction q with
  | zero => simp
  | succ q ih =>
    rw [← ih, show n + (q + 1) * s = n + q * s + s by ring, hf]
    push_cast
    ring

include hf in
theorem level_mod (n : ℕ) : f n - n * a = f (n % s) - (n % s : ℕ) * a := by
  have h := level hf (n % s) (n / s)
  rwa [show n % s + n / s * s = n from by rw [Nat.mul_comm]; exact Nat.mod_add_div n s] at h

include hf in
theorem window_sum (q m : ℕ) : ∑ j ∈ Finset.range (q * s), f (m + j) =
    ∑ j ∈ Finset.range (q * s), f j + (q * s : ℕ) * (m * a) := by
  have h := sum_window (f := fun n => f n - n * a) (w := q * s) (fun n => level hf n q) m
  rw [Finset.sum_sub_distrib, Finset.sum_sub_distrib, sub_eq_iff_eq_add] at h
  rw [h]
  simp only [Nat.cast_add, add_mul, Finset.sum_add_distrib, Finset.sum_const, Finset.card_range, nsmul_eq_mul]
  ring

/-- The mean of the first `w` values, drifted back by `w`. -/
def base (f : ℕ → K) (a : K) (w : ℕ) : K := (∑ j ∈ Finset.range w, f j) / w - w * a

include hf in
theorem trend [CharZero K] {q k : ℕ} (hw : 0 < q * s) (hk : q * s ≤ k) :
    trendAfter (q * s) ((List.range k).map f) = base f a (q * s) + k * a := by
  unfold trendAfter
  rw [lastN_range_map f hk, Decomposition.meanOrZero_eq, List.length_map, List.length_range, if_neg (by omega)]
  have e : ((List.range (q * s)).map fun j => f (k - q * s + j)).sum =
      ∑ j ∈ Finset.range (q * s), f (k - q * s + j) := rfl
  have hw' : ((q * s : ℕ) : K) ≠ 0 := by exact_mod_cast hw.ne'
  rw [e, window_sum hf, base, Nat.cast_sub hk]
  field_simp
  ring

/-- The deviation that is seen in phase `p`. -/
def deviation (f : ℕ → K) (a : K) (w p : ℕ) : K := f p - p * a - base f a w - a

include hf in
theorem deviations_eq [CharZero K] {q : ℕ} (hw : 0 < q * s) (n p : ℕ) :
    deviations s (q * s) ((List.range n).map f) p =
      List.replicate (DecomposerInfluence.recorded s (q * s) n p).card (deviation f a (q * s) p) := by
  rw [List.eq_replicate_iff]
  constructor
  · rw [DecomposerInfluence.length_deviations, List.length_map, List.length_range]
  · intro y hy
    unfold deviations at hy
    obtain ⟨t, ht, rfl⟩ := List.mem_map.1 hy
    rw [List.mem_filter, List.length_map, List.length_range, List.mem_range] at ht
    obtain ⟨htn, ht⟩ := ht
    have ht' : t % s = p ∧ q * s ≤ t + 1 := by simpa using ht
    have e1 : ((List.range n).map f).getD t 0 = f t := by simp [htn]
    have e2 : ((List.range n).map f).take (t + 1) = (List.range (t + 1)).map f := by
      rw [← List.map_take, List.take_range, min_eq_left (by omega)]
    rw [e1, e2, trend hf hw ht'.2, deviation, ← ht'.1]
    have := level_mod hf t
    push_cast
    linear_combination this

end

/-- How often the phase of time `N` was seen with a full window. -/
theorem recorded_eq {s w : ℕ} (hs : 0 < s) (hw : 0 < w) (N : ℕ) :
    (DecomposerInfluence.recorded s w N (N % s)).card = (N + 1 - w) / s := by
  refine le_antisymm ?_ (DecomposerInfluence.recorded_card hs hw N)
  have hsub : DecomposerInfluence.recorded s w N (N % s) ⊆
      (Finset.range ((N + 1 - w) / s)).image fun k => N - s * (k + 1) := by
    intro t ht
    obtain ⟨h1, h2, h3⟩ := Finset.mem_filter.1 ht
    have h1 := Finset.mem_range.1 h1
    have hd : s ∣ N - t := by
      exact Nat.dvd_of_mod_eq_zero (Nat.sub_mod_eq_zero_of_mod_eq h2.symm)
    obtain ⟨m, hm⟩ := hd
    have hm0 : 0 < m := by
      rcases Nat.eq_zero_or_pos m with rfl | h
      · omega
      · exact h
    refine Finset.mem_image.2 ⟨m - 1, Finset.mem_range.2 ?_, ?_⟩
    · have : m ≤ (N + 1 - w) / s := (Nat.le_div_iff_mul_le hs).2 (by rw [Nat.mul_comm, ← hm]; omega)
      omega
    · show N - s * (m - 1 + 1) = t
      rw [Nat.sub_add_cancel hm0, ← hm]
      omega
  exact (Finset.card_le_card hsub).trans (Finset.card_image_le.trans (by rw [Finset.card_range]))

omit [Field K] in
theorem column_range {d : ℕ} (x : ℕ → Fin d → K) (n : ℕ) (i : Fin d) :
    column ((List.range n).map x) i = (List.range n).map fun t => x t i := by
  simp [column, Function.comp_def]

end SeasonDrift

open SeasonDrift

section
variable {K : Type*} [Field K] [DecidableEq K] [CharZero K] {d s q : ℕ} (hs : 0 < s) (hq : 0 < q)
  {s0 : DecomposerState K d} (h0 : Decomposer.new (s : ℤ) (some (q * s : ℕ)) = .ok s0)
  {a : Fin d → K} {x : ℕ → Fin d → K} (hx : SeasonAndDrift s a x)
  {cs : List (TransCall (Fin d → K))} {n : ℕ} (hcs : transFitted cs = (List.range n).map x)

include hs hq h0 hx hcs in
/-- **C209.** If the instances fitted so far are the first `n` of a season with a linear drift, with a trend window
of whole seasons that has been full for a season, then `transform_partial` returns how far its argument is from
the next instance of the stream, plus the drift per instance. -/
theorem C209_transform (hn : q * s + s ≤ n + 1) (z : Fin d → K) :
    ((seasonalTrendDecomposer K d).transformPartial
      (afterTrans (seasonalTrendDecomposer K d) s0 cs) z).out = .ok fun i => z i - x n i + a i := by
  have hw : 0 < q * s := Nat.mul_pos hq hs
  rw [C168_transform hs hw h0 cs z, hcs]
  congr 1
  funext i
  have hf : ∀ n, x (n + s) i = x n i + s * a i := fun n => hx n i
  rw [column_range, trend (f := fun t => x t i) hf hw (by omega), seasonAt, List.length_map, List.length_range,
    deviations_eq (f := fun t => x t i) hf hw, recorded_eq hs hw, Decomposition.meanOrZero_eq, List.length_replicate]
  have hk : 0 < (n + 1 - q * s) / s := Nat.div_pos (by omega) hs
  have hk' : (((n + 1 - q * s) / s : ℕ) : K) ≠ 0 := by exact_mod_cast hk.ne'
  rw [if_neg (by omega), List.sum_replicate, nsmul_eq_mul, mul_div_cancel_left₀ _ hk', deviation]
  have := level_mod (f := fun t => x t i) hf n
  linear_combination this

include hs hq h0 hx hcs in
/-- **C209.** ... and `fit_transform_partial`, from the moment the trend window is full, returns the deviation `e` from
the stream times `(1 - 1/w) (1 - 1/k)`, if the instance is the `k`-th in its phase since then. -/
theorem C209_fit_transform (hn : q * s ≤ n + 1) (e : Fin d → K) :
    ((seasonalTrendDecomposer K d).fitTransformPartial
      (afterTrans (seasonalTrendDecomposer K d) s0 cs) fun i => x n i + e i).out =
      .ok fun i => (1 - 1 / ((q * s : ℕ) : K)) * (1 - 1 / (((n + 1 - q * s) / s + 1 : ℕ) : K)) * e i := by
  have hw : 0 < q * s := Nat.mul_pos hq hs
  rw [C168_fit_transform hs hw h0 cs, hcs]
  congr 1
  funext i
  have hf : ∀ n, x (n + s) i = x n i + s * a i := fun n => hx n i
  set v := (List.range n).map fun t => x t i with hv
  have hc : column ((List.range n).map x ++ [fun i => x n i + e i]) i = v ++ [x n i + e i] := by
    rw [hv, ← column_range]; simp [column]
  have hvl : v.length = n := by simp [hv]
  have htr : trendAfter (q * s) (v ++ [x n i + e i]) =
      base (fun t => x t i) (a i) (q * s) + (n + 1 : ℕ) * a i + e i / (q * s : ℕ) := by
    rw [← trend (f := fun t => x t i) hf hw hn, List.range_succ, List.map_append, ← hv]
    rw [DecomposerInfluence.trendAfter_full hw (by simp [hvl]; omega),
      DecomposerInfluence.trendAfter_full hw (by simp [hvl]; omega)]
    rw [List.take_append_of_le_length (by simp [hvl]; omega), List.take_append_of_le_length (by simp [hvl]; omega)]
    simp only [List.sum_append, List.length_append, List.map_cons, List.map_nil, List.length_singleton,
      List.sum_singleton]
    ring
  rw [hc, htr, seasonAt, List.length_map, List.length_range, Decomposition.deviations_snoc, hvl, if_pos ⟨rfl, hn⟩, htr,
    hv, deviations_eq (f := fun t => x t i) hf hw, recorded_eq hs hw, Decomposition.meanOrZero_eq]
  simp only [List.length_append, List.length_replicate, List.length_singleton, List.sum_append, List.sum_replicate,
    nsmul_eq_mul, List.sum_singleton]
  rw [if_neg (Nat.succ_ne_zero _)]
  have hlev := level_mod (f := fun t => x t i) hf n
  have hD : x n i = deviation (fun t => x t i) (a i) (q * s) (n % s) + base (fun t => x t i) (a i) (q * s) +
      (n + 1 : ℕ) * a i := by
    rw [deviation]
    push_cast
    linear_combination hlev
  have hk : ((((n + 1 - q * s) / s + 1 : ℕ)) : K) ≠ 0 := by exact_mod_cast Nat.succ_ne_zero ((n + 1 - q * s) / s)
  have hw' : ((q * s : ℕ) : K) ≠ 0 := by exact_mod_cast hw.ne'
  rw [hD]
  generalize deviation (fun t => x t i) (a i) (q * s) (n % s) = D
  generalize base (fun t => x t i) (a i) (q * s) = B
  push_cast at hk ⊢
  push_cast at hw'
  field_simp
  ring

include hs hq h0 hx hcs in
/-- **C209 (blind season).** During the first season in which the trend window is full, `fit_transform_partial`
returns 0 whatever the instance is; later, and with a window of at least 2, only instances that follow the stream
get 0. -/
theorem C209_blind (hn : q * s ≤ n + 1) (hw : 2 ≤ q * s) (z : Fin d → K) :
    ∃ y : Fin d → K, ((seasonalTrendDecomposer K d).fitTransformPartial
      (afterTrans (seasonalTrendDecomposer K d) s0 cs) z).out = .ok y ∧
      ∀ i, y i = 0 ↔ n + 1 < q * s + s ∨ z i = x n i := by
  have h := C209_fit_transform hs hq h0 hx hcs hn fun i => z i - x n i
  simp only [add_sub_cancel] at h
  refine ⟨_, h, fun i => ?_⟩
  have h1 : (1 - 1 / ((q * s : ℕ) : K)) ≠ 0 := by
    rw [sub_ne_zero, ne_comm, Ne, div_eq_one_iff_eq (by exact_mod_cast (by omega : q * s ≠ 0))]
    exact_mod_cast (by omega : 1 ≠ q * s)
  have h2 : (1 - 1 / (((n + 1 - q * s) / s + 1 : ℕ) : K)) = 0 ↔ n + 1 < q * s + s := by
    rw [sub_eq_zero, eq_comm, div_eq_one_iff_eq (by exact_mod_cast Nat.succ_ne_zero ((n + 1 - q * s) / s)), eq_comm]
    have e : (((n + 1 - q * s) / s + 1 : ℕ) : K) = 1 ↔ (n + 1 - q * s) / s = 0 := by
      rw [show (1 : K) = ((1 : ℕ) : K) by simp, Nat.cast_inj]; omega
    rw [e, Nat.div_eq_zero_iff]
    omega
  rw [mul_eq_zero, mul_eq_zero, h2, or_iff_right h1, sub_eq_zero]

end

/-- Seasons of two with a slope of 3 per instance. -/
private def stream (t : ℕ) : Fin 1 → ℚ := fun _ => if t % 2 = 0 then 3 * (t : ℚ) else 3 * t + 10

private theorem stream_drifts : SeasonAndDrift 2 (fun _ => (3 : ℚ)) stream := by
  intro n i
  have h : (n + 2) % 2 = n % 2 := by omega
  simp only [stream, h]
  push_cast
  split_ifs <;> ring

/-- After its instances 0, 13 and 6 the next one is 19: 21 is transformed to `21 - 19 + 3`, 19 fitted with the result
0 and 23 with `4 (1 - 1/2) (1 - 1/2)`. -/
example : let d := seasonalTrendDecomposer ℚ 1
    let cs : List (TransCall (Fin 1 → ℚ)) :=
      [.fit (.row fun _ => 0), .transform fun _ => 7, .fit (.row fun _ => 13), .fitTransform fun _ => 6]
    let after := afterTrans d ⟨2, 2, [], none, 0⟩ cs
    (d.transformPartial after fun _ => 21).out = .ok (fun _ => 5) ∧
      (d.fitTransformPartial after fun _ => 19).out = .ok (fun _ => 0) ∧
      (d.fitTransformPartial after fun _ => 23).out = .ok (fun _ => 1) := by
  intro d cs after
  have h0 : Decomposer.new (K := ℚ) (d := 1) ((2 : ℕ) : ℤ) (some ((1 * 2 : ℕ) : ℤ)) = .ok ⟨2, 2, [], none, 0⟩ := rfl
  have hcs : transFitted cs = (List.range 3).map stream := by
    have e0 : stream 0 = fun _ => 0 := by funext i; norm_num [stream]
    have e1 : stream 1 = fun _ => 13 := by funext i; norm_num [stream]
    have e2 : stream 2 = fun _ => 6 := by funext i; norm_num [stream]
    simp [cs, transFitted, List.range_succ, e0, e1, e2]
  have e3 : stream 3 = fun _ => 19 := by funext i; norm_num [stream]
  have h1 := C209_transform two_pos one_pos h0 stream_drifts hcs (by norm_num) fun _ => 21
  have h2 := C209_fit_transform two_pos one_pos h0 stream_drifts hcs (by norm_num) fun _ => 0
  have h3 := C209_fit_transform two_pos one_pos h0 stream_drifts hcs (by norm_num) fun _ => 4
  rw [e3] at h1 h2 h3
  norm_num at h1 h2 h3
  exact ⟨h1, h2, h3⟩

end Pysad
