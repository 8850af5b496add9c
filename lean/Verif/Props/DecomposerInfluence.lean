import Verif.Props.Decomposition
import Mathlib.Algebra.BigOperators.Group.Finset.Basic
import Mathlib.Algebra.Order.Archimedean.Basic
import Mathlib.Tactic.Linarith

/-! Property C207: how one extraordinary instance fades from what `SeasonalTrendDecomposer` returns. -/

namespace Pysad

open Spec

namespace DecomposerInfluence

variable {K : Type*} [Field K]

/-- The times below `N` whose deviation is recorded in phase `p`. -/
def recorded (s w N p : ℕ) : Finset ℕ := (Finset.range N).filter fun t => t % s = p ∧ w ≤ t + 1

theorem length_deviations (s w : ℕ) (v : List K) (p : ℕ) :
    (deviations s w v p).length = (recorded s w v.length p).card := by
  unfold deviations recorded
  rw [List.length_map]
  rfl

theorem sum_deviations (s w : ℕ) (v : List K) (p : ℕ) :
    (deviations s w v p).sum = ∑ t ∈ recorded s w v.length p,
      (v.getD t 0 - trendAfter w (v.take (t + 1))) := by
  unfold deviations recorded
  rfl

theorem sum_take (A B : List K) (a a' : K) (k : ℕ) :
    ((A ++ a :: B).take k).sum - ((A ++ a' :: B).take k).sum =
      if A.length < k then a - a' else 0 := by
  split_ifs with h
  · obtain ⟨m, rfl⟩ : ∃ m, k = A.length + (m + 1) := ⟨k - A.length - 1, by omega⟩
    rw [List.take_length_add_append, List.take_length_add_append]
    simp
  · rw [List.take_append_of_le_length (by omega), List.take_append_of_le_length (by omega), sub_self]

theorem getD_sub (A B : List K) (a a' : K) (t : ℕ) :
    (A ++ a :: B).getD t 0 - (A ++ a' :: B).getD t 0 = if t = A.length then a - a' else 0 := by
  split_ifs with h
  · subst h; simp
  · rcases Nat.lt_or_gt_of_ne h with h | h
    · simp [List.getD_eq_getElem?_getD, List.getElem?_append_left h]
    · obtain ⟨m, rfl⟩ : ∃ m, t = A.length + (m + 1) := ⟨t - A.length - 1, by omega⟩
      simp [List.getD_eq_getElem?_getD, List.getElem?_append_right]

theorem trendAfter_full {w : ℕ} (hw : 0 < w) {v : List K} (hv : w ≤ v.length) :
    trendAfter w v = (v.sum - (v.take (v.length - w)).sum) / w := by
  have hl : (lastN w v).length = w := by simp [lastN]; omega
  unfold trendAfter
  rw [Decomposition.meanOrZero_eq, hl, if_neg (by omega)]
  congr 1
  rw [eq_sub_iff_add_eq, add_comm]
  unfold lastN
  rw [← List.sum_append, List.take_append_drop]

theorem trend_sub {w : ℕ} (hw : 0 < w) (A B : List K) (a a' : K) {t : ℕ} (h1 : w ≤ t + 1)
    (h2 : t < (A ++ a :: B).length) :
    trendAfter w ((A ++ a :: B).take (t + 1)) - trendAfter w ((A ++ a' :: B).take (t + 1)) =
      if A.length ≤ t ∧ t < A.length + w then (a - a') / w else 0 := by
  have h2' : t < (A ++ a' :: B).length := by simpa using h2
  have e1 : ((A ++ a :: B).take (t + 1)).length = t + 1 := by rw [List.length_take]; omega
  have e2 : ((A ++ a' :: B).take (t + 1)).length = t + 1 := by rw [List.length_take]; omega
  rw [trendAfter_full hw (by rw [e1]; exact h1), trendAfter_full hw (by rw [e2]; exact h1), e1, e2,
    List.take_take, List.take_take, min_eq_left (by omega), ← sub_div, sub_sub_sub_comm,
    sum_take, sum_take]
  by_cases c1 : A.length ≤ t
  · by_cases c2 : t < A.length + w
    · rw [if_pos (by omega), if_neg (by omega), if_pos ⟨c1, c2⟩, sub_zero]
    · rw [if_pos (by omega), if_pos (by omega), if_neg (by omega), sub_self, zero_div]
  · rw [if_neg (by omega), if_neg (by omega), if_neg (by omega), sub_self, zero_div]

/-- The times in the window after `j` that are recorded in phase `p`. -/
def touched (s w N p j : ℕ) : Finset ℕ := (recorded s w N p).filter fun t => j ≤ t ∧ t < j + w

theorem sum_sub {s w : ℕ} (hw : 0 < w) (A B : List K) (a a' : K) (p : ℕ) :
    (deviations s w (A ++ a :: B) p).sum - (deviations s w (A ++ a' :: B) p).sum =
      (a - a') * ((if A.length ∈ recorded s w (A ++ a :: B).length p then 1 else 0) -
        ((touched s w (A ++ a :: B).length p A.length).card : K) / w) := by
  have hlen : (A ++ a' :: B).length = (A ++ a :: B).length := by simp
  rw [sum_deviations, sum_deviations, hlen, ← Finset.sum_sub_distrib]
  have : ∀ t ∈ recorded s w (A ++ a :: B).length p,
      ((A ++ a :: B).getD t 0 - trendAfter w ((A ++ a :: B).take (t + 1))) -
        ((A ++ a' :: B).getD t 0 - trendAfter w ((A ++ a' :: B).take (t + 1))) =
      (if t = A.length then a - a' else 0) -
        (if A.length ≤ t ∧ t < A.length + w then (a - a') / w else 0) := by
    intro t ht
    have ht := Finset.mem_filter.1 ht
    rw [sub_sub_sub_comm, getD_sub, trend_sub hw A B a a' ht.2.2 (Finset.mem_range.1 ht.1)]
  rw [Finset.sum_congr rfl this, Finset.sum_sub_distrib, Finset.sum_ite_eq', ← Finset.sum_filter,
    Finset.sum_const, nsmul_eq_mul]
  unfold touched
  split_ifs <;> ring

theorem touched_card {s w N p j : ℕ} (hw : 0 < w) :
    (touched s w N p j).card ≤ w ∧
      (j ∈ recorded s w N p → 1 ≤ (touched s w N p j).card) ∧
      (j ∉ recorded s w N p → (touched s w N p j).card + 1 ≤ w) := by
  refine ⟨?_, fun h => ?_, fun h => ?_⟩
  · calc (touched s w N p j).card ≤ (Finset.Ico j (j + w)).card := by
          refine Finset.card_le_card fun t ht => ?_
          exact Finset.mem_Ico.2 (Finset.mem_filter.1 ht).2
      _ = w := by simp
  · exact Finset.card_pos.2 ⟨j, Finset.mem_filter.2 ⟨h, by omega⟩⟩
  · have : (touched s w N p j).card ≤ (Finset.Ico (j + 1) (j + w)).card := by
      refine Finset.card_le_card fun t ht => ?_
      have ht := Finset.mem_filter.1 ht
      have : t ≠ j := fun e => h (e ▸ ht.1)
      rw [Finset.mem_Ico]
      omega
    rw [Nat.card_Ico] at this
    omega

theorem recorded_card {s w : ℕ} (hs : 0 < s) (hw : 0 < w) (N : ℕ) :
    (N + 1 - w) / s ≤ (recorded s w N (N % s)).card := by
  have hinj : Function.Injective fun k => s * (k + 1) := fun a b h => by
    have : s * (a + 1) = s * (b + 1) := h
    have := Nat.eq_of_mul_eq_mul_left hs this
    omega
  have hle : ∀ k < (N + 1 - w) / s, s * (k + 1) ≤ N + 1 - w := fun k hk => by
    have := Nat.mul_div_le (N + 1 - w) s
    exact (Nat.mul_le_mul_left s hk).trans this
  have hpos : ∀ k, 0 < s * (k + 1) := fun k => Nat.mul_pos hs (by omega)
  calc (N + 1 - w) / s = ((Finset.range ((N + 1 - w) / s)).image fun k => N - s * (k + 1)).card := by
        rw [Finset.card_image_of_injOn, Finset.card_range]
        intro a ha b hb h
        have h1 := hle a (Finset.mem_range.1 ha)
        have h2 := hle b (Finset.mem_range.1 hb)
        apply hinj
        show s * (a + 1) = s * (b + 1)
        have : N - s * (a + 1) = N - s * (b + 1) := h
        omega
    _ ≤ _ := by
        refine Finset.card_le_card fun t ht => ?_
        obtain ⟨k, hk, rfl⟩ := Finset.mem_image.1 ht
        have h1 := hle k (Finset.mem_range.1 hk)
        have h2 := hpos k
        refine Finset.mem_filter.2 ⟨Finset.mem_range.2 (by omega), ?_, by omega⟩
        rw [Nat.sub_mul_mod]
        omega

section
variable [LinearOrder K] [IsStrictOrderedRing K]

theorem sum_sub_abs {s w : ℕ} (hw : 0 < w) (A B : List K) (a a' : K) (p : ℕ) :
    |(deviations s w (A ++ a :: B) p).sum - (deviations s w (A ++ a' :: B) p).sum| ≤
      (1 - 1 / (w : K)) * |a - a'| := by
  rw [sum_sub hw, abs_mul, mul_comm]
  refine mul_le_mul_of_nonneg_right ?_ (abs_nonneg _)
  obtain ⟨h1, h2, h3⟩ := touched_card (s := s) (N := (A ++ a :: B).length) (p := p) (j := A.length) hw
  set m := (touched s w (A ++ a :: B).length p A.length).card
  have hw' : (0 : K) < w := by exact_mod_cast hw
  have hm : (0 : K) ≤ (m : K) / w := by positivity
  have hm1 : (m : K) / w ≤ 1 := by
    rw [div_le_one hw']
    exact_mod_cast h1
  rw [abs_le]
  split_ifs with h
  · have : (1 : K) / w ≤ (m : K) / w := by
      gcongr
      exact_mod_cast h2 h
    constructor <;> linarith
  · have : (m : K) / w + 1 / w ≤ 1 := by
      rw [← add_div, div_le_one hw']
      exact_mod_cast h3 h
    constructor <;> linarith

theorem season_sub {s w : ℕ} (hw : 0 < w) (A B : List K) (a a' : K) (p : ℕ) :
    |seasonAt s w (A ++ a :: B) p - seasonAt s w (A ++ a' :: B) p| *
        ((recorded s w (A ++ a :: B).length p).card : K) ≤ (1 - 1 / (w : K)) * |a - a'| ∧
      |seasonAt s w (A ++ a :: B) p - seasonAt s w (A ++ a' :: B) p| ≤ (1 - 1 / (w : K)) * |a - a'| := by
  have hlen : (A ++ a' :: B).length = (A ++ a :: B).length := by simp
  have hw' : (1 : K) ≤ w := by exact_mod_cast hw
  have h0 : 0 ≤ (1 - 1 / (w : K)) * |a - a'| := by
    refine mul_nonneg ?_ (abs_nonneg _)
    rw [sub_nonneg, div_le_one (by linarith)]
    exact hw'
  unfold seasonAt
  rw [Decomposition.meanOrZero_eq, Decomposition.meanOrZero_eq, length_deviations, length_deviations, hlen]
  split_ifs with h
  · rw [h]; simpa using h0
  · have hc : (1 : K) ≤ ((recorded s w (A ++ a :: B).length p).card : K) := by
      exact_mod_cast Nat.one_le_iff_ne_zero.2 h
    have hs := sum_sub_abs (s := s) hw A B a a' p
    have e : |(deviations s w (A ++ a :: B) p).sum / ((recorded s w (A ++ a :: B).length p).card : K) -
        (deviations s w (A ++ a' :: B) p).sum / ((recorded s w (A ++ a :: B).length p).card : K)| *
        ((recorded s w (A ++ a :: B).length p).card : K) =
        |(deviations s w (A ++ a :: B) p).sum - (deviations s w (A ++ a' :: B) p).sum| := by
      rw [← sub_div, abs_div,
        abs_of_pos (show (0 : K) < ((recorded s w (A ++ a :: B).length p).card : K) by linarith),
        div_mul_cancel₀ _ (by linarith)]
    rw [e]
    refine ⟨hs, le_trans ?_ (e ▸ hs)⟩
    exact le_mul_of_one_le_right (abs_nonneg _) hc

omit [LinearOrder K] [IsStrictOrderedRing K] in
theorem trend_same {w : ℕ} (hw : 0 < w) (A B : List K) (a a' : K) (hB : w ≤ B.length) :
    trendAfter w (A ++ a :: B) = trendAfter w (A ++ a' :: B) := by
  have h := trend_sub hw A B a a' (t := A.length + B.length) (by omega) (by simp)
  rw [if_neg (by omega), List.take_of_length_le (by simp; omega), List.take_of_length_le (by simp; omega)] at h
  exact sub_eq_zero.1 h

end

end DecomposerInfluence

open DecomposerInfluence

section
variable {K : Type*} [Field K] [LinearOrder K] [IsStrictOrderedRing K] {d : ℕ}

/-- Two histories that fitted the same instances except for one, `a` or `a'`, which was followed by
the instances `B`. -/
def Spec.ApartFrom {α : Type*} (cs cs' : List (TransCall α)) (a a' : α) (B : List α) : Prop :=
  ∃ A, transFitted cs = A ++ a :: B ∧ transFitted cs' = A ++ a' :: B

variable {s w : ℕ} (hs : 0 < s) (hw : 0 < w) {s0 : DecomposerState K d}
  (h0 : Decomposer.new (s : ℤ) (some (w : ℤ)) = .ok s0)
include hs hw h0

/-- **C207.** Once `w` further instances were fitted, an instance `a` in place of `a'` changes what
`transform_partial` returns in feature `i` by `(1 - 1/w) |a i - a' i|` at most, and by that over `n` at most
after `n` whole seasons with a full trend window. -/
theorem C207_transform {cs cs' : List (TransCall (Fin d → K))} {a a' : Fin d → K} {B : List (Fin d → K)}
    (h : ApartFrom cs cs' a a' B) (hB : w ≤ B.length) (x : Fin d → K) :
    ∃ y y' : Fin d → K,
      ((seasonalTrendDecomposer K d).transformPartial
        (afterTrans (seasonalTrendDecomposer K d) s0 cs) x).out = .ok y ∧
      ((seasonalTrendDecomposer K d).transformPartial
        (afterTrans (seasonalTrendDecomposer K d) s0 cs') x).out = .ok y' ∧
      ∀ i, |y i - y' i| ≤ (1 - 1 / (w : K)) * |a i - a' i| ∧
        ∀ n : ℕ, n * s + w ≤ (transFitted cs).length + 1 →
          |y i - y' i| * n ≤ (1 - 1 / (w : K)) * |a i - a' i| := by
  obtain ⟨A, h1, h2⟩ := h
  refine ⟨_, _, C168_transform hs hw h0 cs x, C168_transform hs hw h0 cs' x, fun i => ?_⟩
  have hlen : (transFitted cs').length = (transFitted cs).length := by rw [h1, h2]; simp
  have c1 : column (transFitted cs) i = column A i ++ a i :: column B i := by rw [h1]; simp [column]
  have c2 : column (transFitted cs') i = column A i ++ a' i :: column B i := by rw [h2]; simp [column]
  have hl : (column A i ++ a i :: column B i).length = (transFitted cs).length := by rw [← c1]; simp [column]
  rw [hlen, c1, c2, trend_same hw (column A i) (column B i) (a i) (a' i) (by simpa [column] using hB)]
  obtain ⟨k1, k2⟩ := season_sub (s := s) hw (column A i) (column B i) (a i) (a' i)
    ((transFitted cs).length % s)
  rw [sub_sub_sub_cancel_left, abs_sub_comm]
  refine ⟨k2, fun n hn => le_trans ?_ k1⟩
  refine mul_le_mul_of_nonneg_left ?_ (abs_nonneg _)
  rw [hl]
  have := recorded_card hs hw (transFitted cs).length
  exact_mod_cast ((Nat.le_div_iff_mul_le hs).2 (by omega)).trans this

/-- **C207.** The same of `fit_transform_partial`. -/
theorem C207_fit_transform {cs cs' : List (TransCall (Fin d → K))} {a a' : Fin d → K}
    {B : List (Fin d → K)} (h : ApartFrom cs cs' a a' B) (hB : w ≤ B.length + 1) (x : Fin d → K) :
    ∃ y y' : Fin d → K,
      ((seasonalTrendDecomposer K d).fitTransformPartial
        (afterTrans (seasonalTrendDecomposer K d) s0 cs) x).out = .ok y ∧
      ((seasonalTrendDecomposer K d).fitTransformPartial
        (afterTrans (seasonalTrendDecomposer K d) s0 cs') x).out = .ok y' ∧
      ∀ i, |y i - y' i| ≤ (1 - 1 / (w : K)) * |a i - a' i| ∧
        ∀ n : ℕ, n * s + w ≤ (transFitted cs).length + 1 →
          |y i - y' i| * (n + 1) ≤ (1 - 1 / (w : K)) * |a i - a' i| := by
  obtain ⟨A, h1, h2⟩ := h
  refine ⟨_, _, C168_fit_transform hs hw h0 cs x, C168_fit_transform hs hw h0 cs' x, fun i => ?_⟩
  have hlen : (transFitted cs').length = (transFitted cs).length := by rw [h1, h2]; simp
  have c1 : column (transFitted cs ++ [x]) i = column A i ++ a i :: column (B ++ [x]) i := by
    rw [h1]; simp [column]
  have c2 : column (transFitted cs' ++ [x]) i = column A i ++ a' i :: column (B ++ [x]) i := by
    rw [h2]; simp [column]
  have hl : (column A i ++ a i :: column (B ++ [x]) i).length = (transFitted cs).length + 1 := by
    rw [← c1]; simp [column]
  rw [hlen, c1, c2, trend_same hw (column A i) (column (B ++ [x]) i) (a i) (a' i)
    (by simpa [column] using hB)]
  obtain ⟨k1, k2⟩ := season_sub (s := s) hw (column A i) (column (B ++ [x]) i) (a i) (a' i)
    ((transFitted cs).length % s)
  rw [sub_sub_sub_cancel_left, abs_sub_comm]
  refine ⟨k2, fun n hn => le_trans ?_ k1⟩
  refine mul_le_mul_of_nonneg_left ?_ (abs_nonneg _)
  rw [hl]
  set N := (transFitted cs).length
  have e : recorded s w (N + 1) (N % s) = insert N (recorded s w N (N % s)) := by
    ext t
    simp only [recorded, Finset.mem_insert, Finset.mem_filter, Finset.mem_range]
    constructor
    · rintro ⟨h3, h4, h5⟩
      by_cases ht : t = N
      · exact Or.inl ht
      · exact Or.inr ⟨by omega, h4, h5⟩
    · rintro (rfl | ⟨h3, h4, h5⟩)
      · exact ⟨by omega, rfl, by omega⟩
      · exact ⟨by omega, h4, h5⟩
  rw [e, Finset.card_insert_of_notMem (by simp [recorded])]
  have := recorded_card hs hw N
  exact_mod_cast Nat.succ_le_succ (((Nat.le_div_iff_mul_le hs).2 (by omega)).trans this)

/-- **C207.** So an extraordinary instance fades: for every `ε > 0` there is a number of further instances
after which it changes what `transform_partial` returns by at most `ε` times its extraordinary part. -/
theorem C207_fades [Archimedean K] {ε : K} (hε : 0 < ε) :
    ∃ M : ℕ, ∀ (cs cs' : List (TransCall (Fin d → K))) (a a' : Fin d → K) (B : List (Fin d → K)),
      ApartFrom cs cs' a a' B → M ≤ B.length → ∀ x, ∃ y y' : Fin d → K,
        ((seasonalTrendDecomposer K d).transformPartial
          (afterTrans (seasonalTrendDecomposer K d) s0 cs) x).out = .ok y ∧
        ((seasonalTrendDecomposer K d).transformPartial
          (afterTrans (seasonalTrendDecomposer K d) s0 cs') x).out = .ok y' ∧
        ∀ i, |y i - y' i| ≤ ε * |a i - a' i| := by
  obtain ⟨n, hn⟩ := exists_nat_gt (1 / ε)
  have hn0 : (0 : K) < n := lt_trans (by positivity) hn
  refine ⟨n * s + w, fun cs cs' a a' B h hB x => ?_⟩
  obtain ⟨y, y', h1, h2, h3⟩ := C207_transform hs hw h0 h (by omega) x
  refine ⟨y, y', h1, h2, fun i => ?_⟩
  obtain ⟨A, e, -⟩ := h
  have h4 := (h3 i).2 n (by rw [e]; simp; omega)
  have hw' : (0 : K) < w := by exact_mod_cast hw
  have h5 : (1 - 1 / (w : K)) * |a i - a' i| ≤ |a i - a' i| := by
    refine mul_le_of_le_one_left (abs_nonneg _) ?_
    have : (0 : K) < 1 / w := by positivity
    linarith
  have h6 : 1 ≤ ε * n := by
    rw [div_lt_iff₀ hε] at hn
    linarith [mul_comm ε (n : K)]
  have h7 : |y i - y' i| * n ≤ (ε * |a i - a' i|) * n := by
    calc |y i - y' i| * n ≤ |a i - a' i| := h4.trans h5
      _ ≤ (ε * n) * |a i - a' i| := le_mul_of_one_le_left (abs_nonneg _) h6
      _ = (ε * |a i - a' i|) * n := by ring
  exact le_of_mul_le_mul_right h7 hn0

omit hs hw h0 in
/-- **C207 (features).** What is returned in a feature in which `a` and `a'` agree does not change, and with a
trend window of 1 nothing changes at all. -/
theorem C207_untouched {s w : ℕ} (hs : 0 < s) (hw : 0 < w) {s0 : DecomposerState K d}
    (h0 : Decomposer.new (s : ℤ) (some (w : ℤ)) = .ok s0)
    {cs cs' : List (TransCall (Fin d → K))} {a a' : Fin d → K} {B : List (Fin d → K)}
    (h : ApartFrom cs cs' a a' B) (hB : w ≤ B.length) (x : Fin d → K) :
    ∃ y y' : Fin d → K,
      ((seasonalTrendDecomposer K d).transformPartial
        (afterTrans (seasonalTrendDecomposer K d) s0 cs) x).out = .ok y ∧
      ((seasonalTrendDecomposer K d).transformPartial
        (afterTrans (seasonalTrendDecomposer K d) s0 cs') x).out = .ok y' ∧
      ∀ i, w = 1 ∨ a i = a' i → y i = y' i := by
  obtain ⟨y, y', h1, h2, h3⟩ := C207_transform hs hw h0 h hB x
  refine ⟨y, y', h1, h2, fun i hi => ?_⟩
  have := (h3 i).1
  have h0 : (1 - 1 / (w : K)) * |a i - a' i| = 0 := by
    rcases hi with rfl | hi
    · simp
    · simp [hi]
  rw [h0] at this
  exact sub_eq_zero.1 (abs_eq_zero.1 (le_antisymm this (abs_nonneg _)))

omit hs hw h0 in
/-- **C207 (never forgotten).** With the default trend window, an instance that was fitted when the trend
window was full, and any number of whole seasons ago, is never forgotten entirely if a season has two
instances at least: what `transform_partial` returns still tells `a` from `a'`. -/
theorem C207_never_forgotten {s : ℕ} (hs : 2 ≤ s) {s0 : DecomposerState K d}
    (h0 : Decomposer.new (s : ℤ) none = .ok s0)
    {cs cs' : List (TransCall (Fin d → K))} {a a' : Fin d → K} {B : List (Fin d → K)}
    (h : ApartFrom cs cs' a a' B) (hB : s ≤ B.length) (hp : (B.length + 1) % s = 0)
    (hA : s + B.length ≤ (transFitted cs).length) (x : Fin d → K) :
    ∃ y y' : Fin d → K,
      ((seasonalTrendDecomposer K d).transformPartial
        (afterTrans (seasonalTrendDecomposer K d) s0 cs) x).out = .ok y ∧
      ((seasonalTrendDecomposer K d).transformPartial
        (afterTrans (seasonalTrendDecomposer K d) s0 cs') x).out = .ok y' ∧
      ∀ i, y i = y' i ↔ a i = a' i := by
  rw [C168_default] at h0
  have hw : 0 < s := by omega
  obtain ⟨A, h1, h2⟩ := h
  refine ⟨_, _, C168_transform hw hw h0 cs x, C168_transform hw hw h0 cs' x, fun i => ?_⟩
  have hlen : (transFitted cs').length = (transFitted cs).length := by rw [h1, h2]; simp
  have c1 : column (transFitted cs) i = column A i ++ a i :: column B i := by rw [h1]; simp [column]
  have c2 : column (transFitted cs') i = column A i ++ a' i :: column B i := by rw [h2]; simp [column]
  have hl : (column A i ++ a i :: column B i).length = (transFitted cs).length := by rw [← c1]; simp [column]
  have hl' : (column A i ++ a' i :: column B i).length = (transFitted cs).length := by
    rw [← hl]; simp
  have hN : (transFitted cs).length = A.length + (B.length + 1) := by rw [h1]; simp
  have hph : (transFitted cs).length % s = A.length % s := by
    rw [hN, Nat.add_mod, hp, add_zero, Nat.mod_mod]
  have hmem : A.length ∈ recorded s s (transFitted cs).length (A.length % s) :=
    Finset.mem_filter.2 ⟨Finset.mem_range.2 (by omega), rfl, by omega⟩
  have htouch : touched s s (transFitted cs).length (A.length % s) A.length = {A.length} := by
    ext t
    simp only [touched, Finset.mem_filter, Finset.mem_singleton]
    constructor
    · rintro ⟨h3, h4, h5⟩
      have h6 : t % s = A.length % s := (Finset.mem_filter.1 h3).2.1
      have h7 : (t - A.length) % s = 0 := Nat.sub_mod_eq_zero_of_mod_eq h6
      rw [Nat.mod_eq_of_lt (by omega)] at h7
      omega
    · rintro rfl
      exact ⟨hmem, le_rfl, by omega⟩
  have hcl : (column A i).length = A.length := by simp [column]
  have hsum := sum_sub (s := s) hw (column A i) (column B i) (a i) (a' i) (A.length % s)
  rw [hl, hcl, if_pos hmem, htouch, Finset.card_singleton] at hsum
  have hc : ((recorded s s (transFitted cs).length (A.length % s)).card : K) ≠ 0 := by
    exact_mod_cast Finset.card_ne_zero_of_mem hmem
  have hc' : ¬ (recorded s s (transFitted cs).length (A.length % s)).card = 0 := by exact_mod_cast hc
  rw [hlen, c1, c2, trend_same hw (column A i) (column B i) (a i) (a' i) (by simpa [column] using hB), hph,
    sub_right_inj]
  unfold seasonAt
  rw [Decomposition.meanOrZero_eq, Decomposition.meanOrZero_eq, length_deviations, length_deviations, hl, hl',
    if_neg hc', if_neg hc', div_left_inj' hc, ← sub_eq_zero, hsum, mul_eq_zero, sub_eq_zero]
  constructor
  · rintro (h | h)
    · exact h
    · exfalso
      have : (2 : K) ≤ s := by exact_mod_cast hs
      have h8 : ((1 : ℕ) : K) / s < 1 := by
        rw [div_lt_one (by linarith)]
        push_cast
        linarith
      linarith
  · exact Or.inl

end

/-- Two histories that meet the hypotheses of all these theorems, of five instances with two features and
seasons of two: the first feature of the second instance differs. -/
example (x : Fin 2 → ℚ) : ∃ s0 : DecomposerState ℚ 2, Decomposer.new 2 none = .ok s0 ∧ ∃ y y' : Fin 2 → ℚ,
    ((seasonalTrendDecomposer ℚ 2).transformPartial (afterTrans (seasonalTrendDecomposer ℚ 2) s0
      [.fit (.row ![1, 2]), .fitTransform ![3, 4], .fit (.pair ![5, 6]), .transform ![7, 8],
        .fitTransform ![9, 10], .fit (.row ![1, 1])]) x).out = .ok y ∧
    ((seasonalTrendDecomposer ℚ 2).transformPartial (afterTrans (seasonalTrendDecomposer ℚ 2) s0
      [.fitTransform ![1, 2], .fit (.row ![30, 4]), .transform ![0, 0], .fit (.row ![5, 6]),
        .fit (.row ![9, 10]), .fit (.row ![1, 1])]) x).out = .ok y' ∧
    y 0 ≠ y' 0 ∧ y 1 = y' 1 := by
  refine ⟨⟨2, 2, [], none, 0⟩, rfl, ?_⟩
  obtain ⟨y, y', h1, h2, h3⟩ := C207_never_forgotten (K := ℚ) (d := 2) (s := 2) le_rfl
    (s0 := ⟨2, 2, [], none, 0⟩) rfl (a := ![3, 4]) (a' := ![30, 4]) (B := [![5, 6], ![9, 10], ![1, 1]])
    (cs := [.fit (.row ![1, 2]), .fitTransform ![3, 4], .fit (.pair ![5, 6]), .transform ![7, 8],
        .fitTransform ![9, 10], .fit (.row ![1, 1])])
    (cs' := [.fitTransform ![1, 2], .fit (.row ![30, 4]), .transform ![0, 0], .fit (.row ![5, 6]),
        .fit (.row ![9, 10]), .fit (.row ![1, 1])])
    ⟨[![1, 2]], rfl, rfl⟩ (by simp) (by simp) (by simp [transFitted]) x
  exact ⟨y, y', h1, h2, fun h => absurd ((h3 0).1 h) (by simp), (h3 1).2 (by simp)⟩

end Pysad
