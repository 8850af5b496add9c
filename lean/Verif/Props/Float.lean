import Verif.Model.F64
import Verif.Proofs.Rounding
import Verif.Props.Statistics

/-! Properties C15 and C16: the meters in double arithmetic. -/

namespace Pysad

open Spec

/-- Sanity checks of the rounding: 0.1 + 0.2 is not 0.3 but the next double. -/
example : F64.of (1/10) + F64.of (2/10) ≠ F64.of (3/10) := by decide +kernel
example : (F64.of (1/10)).val = 3602879701896397 / 36028797018963968 := by decide +kernel
example : F64.of (10^16) + F64.of 1 = F64.of (10^16) := by decide +kernel
example : F64.of (10^16 + 3) = F64.of (10^16 + 4) := by decide +kernel

/-! ### C15 -/

/-- The full claim of **C15** for sums: the windowed sum depends only on the
window. -/
def WindowedSumDependsOnWindowOnly : Prop :=
  ∀ (w : ℕ) (xs ys : List F64), lastN w xs = lastN w ys →
    ((RunningStatistic.updates (sumMeter F64) (RunningStatistic.new (sumMeter F64) w) xs).bind
      fun _ s => RunningStatistic.get (sumMeter F64) s).out =
    ((RunningStatistic.updates (sumMeter F64) (RunningStatistic.new (sumMeter F64) w) ys).bind
      fun _ s => RunningStatistic.get (sumMeter F64) s).out

/-- **C15 is false**: with window 1, after `1e16, 1` the windowed sum is 0, not
1. -/
theorem C15_drift_refuted : ¬ WindowedSumDependsOnWindowOnly := by
  intro h
  have := h 1 [F64.of (10^16), F64.of 1] [F64.of 1] (by decide +kernel)
  revert this
  decide +kernel

/-- The wrong value itself: the average of the window `[1]` is reported as 0. -/
theorem C15_drift_witness :
    ((RunningStatistic.updates (averageMeter F64) (RunningStatistic.new (averageMeter F64) 1)
      [F64.of (10^16), F64.of 1]).bind
      fun _ s => RunningStatistic.get (averageMeter F64) s).out = .ok (F64.of 0) := by
  decide +kernel

theorem pow2_natCast (k : ℕ) : pow2 (k : ℤ) = 2 ^ k := by simp [pow2]

theorem pow2_neg_natCast (k : ℕ) : pow2 (-(k : ℤ)) = 1 / 2 ^ k := by
  rcases Nat.eq_zero_or_pos k with rfl | h
  · simp [pow2]
  · have : ¬ (0 ≤ -(k : ℤ)) := by omega
    have hk : k ≠ 0 := by omega
    simp [pow2, hk]

theorem roundEven_intCast (n : ℤ) : roundEven (n : ℚ) = n := by
  simp [roundEven, Rat.floor_intCast]

/-- Integers up to `2^53` are doubles. -/
theorem roundF64_int (n : ℤ) (h : n.natAbs ≤ 2 ^ 53) : roundF64 (n : ℚ) = n := by
  unfold roundF64
  by_cases h0 : n = 0
  · simp [h0]
  have h0' : (n : ℚ) ≠ 0 := by exact_mod_cast h0
  simp only [h0', if_false]
  have habs : (if (n : ℚ) < 0 then -(n : ℚ) else (n : ℚ)) = (n.natAbs : ℚ) := by
    split
    · rename_i hn
      have : n < 0 := by exact_mod_cast hn
      have e : ((n.natAbs : ℤ) : ℚ) = -(n : ℚ) := by
        rw [Int.ofNat_natAbs_of_nonpos this.le]; simp
      rw [← e]; simp
    · rename_i hn
      have : 0 ≤ n := by exact_mod_cast (not_lt.1 hn)
      have e : ((n.natAbs : ℤ) : ℚ) = (n : ℚ) := by rw [Int.natAbs_of_nonneg this]
      rw [← e]; simp
  rw [habs]
  have hne : n.natAbs ≠ 0 := by simpa using h0
  have hlog : ilog2 (n.natAbs : ℚ) = (Nat.log2 n.natAbs : ℤ) := by
    have hl1 : Nat.log2 1 = 0 := by decide
    have hle : ¬ ((n.natAbs : ℚ) < 2 ^ Nat.log2 n.natAbs) := by
      rw [not_lt]
      exact_mod_cast Nat.log2_self_le hne
    simp only [ilog2, Rat.num_natCast, Rat.den_natCast, Int.natAbs_natCast, hl1]
    simp only [Nat.cast_zero, sub_zero, pow2_natCast, hle, if_false]
  rw [hlog]
  rcases Nat.lt_or_ge (Nat.log2 n.natAbs) 53 with hk | hk
  · obtain ⟨j, hj⟩ : ∃ j : ℕ, (Nat.log2 n.natAbs : ℤ) - 52 = -(j : ℤ) :=
      ⟨52 - Nat.log2 n.natAbs, by omega⟩
    rw [hj, pow2_neg_natCast]
    have e : (n : ℚ) / (1 / 2 ^ j) = ((n * 2 ^ j : ℤ) : ℚ) := by push_cast; field_simp
    rw [e, roundEven_intCast]
    push_cast; field_simp
  · have h53 : 2 ^ 53 ≤ n.natAbs := (Nat.pow_le_pow_right (by norm_num) hk).trans
      (Nat.log2_self_le hne)
    have heq : n.natAbs = 2 ^ 53 := le_antisymm h h53
    have hlg : Nat.log2 n.natAbs = 53 := by rw [heq]; exact Nat.log2_two_pow
    rw [hlg]
    have : ((53 : ℕ) : ℤ) - 52 = ((1 : ℕ) : ℤ) := by norm_num
    rw [this, pow2_natCast]
    have e : (n : ℚ) / 2 ^ 1 = ((n / 2 : ℤ) : ℚ) := by
      have hdvd : (2 : ℤ) ∣ n := by
        rw [← Int.natAbs_dvd_natAbs, heq]; exact ⟨2 ^ 52, by norm_num⟩
      obtain ⟨c, rfl⟩ := hdvd
      rw [Int.mul_ediv_cancel_left _ (by norm_num)]
      push_cast; field_simp
    rw [e, roundEven_intCast, ← e]
    ring

/-- The double with an integer value. -/
def F64.int (n : ℤ) : F64 := ⟨n⟩

theorem F64.int_add (a b : ℤ) (h : (a + b).natAbs ≤ 2 ^ 53) :
    F64.int a + F64.int b = F64.int (a + b) := by
  show F64.of _ = _
  unfold F64.of F64.int
  congr 1
  have := roundF64_int (a + b) h
  push_cast at this
  simpa using this

theorem F64.int_sub (a b : ℤ) (h : (a - b).natAbs ≤ 2 ^ 53) :
    F64.int a - F64.int b = F64.int (a - b) := by
  show F64.of _ = _
  unfold F64.of F64.int
  congr 1
  have := roundF64_int (a - b) h
  push_cast at this
  simpa using this

theorem natAbs_sum_le (B : ℕ) (l : List ℤ) (h : ∀ x ∈ l, x.natAbs ≤ B) :
    l.sum.natAbs ≤ l.length * B := by
  induction l with
  | nil => simp
  | cons a l ih =>
    have h1 := h a (by simp)
    have h2 := ih fun x hx => h x (by simp [hx])
    have h3 := Int.natAbs_add_le a l.sum
    simp only [List.sum_cons, List.length_cons]
    calc (a + l.sum).natAbs ≤ a.natAbs + l.sum.natAbs := h3
      _ ≤ B + l.length * B := by omega
      _ = (l.length + 1) * B := by ring

/-- **C15, what holds.** On a stream of integers bounded by `B` with
`(w + 1) * B ≤ 2^53`, the windowed sum in doubles is exactly the sum of the last
`w` values at every point of the stream. (Missing: nothing of the kind holds
for general doubles, see `C15_drift_refuted`.) -/
theorem C15_no_drift_partial (w B : ℕ) (hB : (w + 1) * B ≤ 2 ^ 53) (xs : List ℤ)
    (hx : ∀ x ∈ xs, x.natAbs ≤ B) :
    ((RunningStatistic.updates (sumMeter F64) (RunningStatistic.new (sumMeter F64) w)
      (xs.map F64.int)).bind fun _ s => RunningStatistic.get (sumMeter F64) s).out =
      .ok (F64.int (lastN w xs).sum) := by
  suffices h : ∃ s, RunningStatistic.updates (sumMeter F64) (RunningStatistic.new (sumMeter F64) w)
      (xs.map F64.int) = .ok () s ∧ s.windowSize = w ∧ s.window = (lastN w xs).map F64.int ∧
      s.statistic.sum = F64.int (lastN w xs).sum by
    obtain ⟨s, h1, _, _, h2⟩ := h
    rw [h1]
    simp [RunningStatistic.get, sumMeter, h2]
  induction xs using List.reverseRecOn with
  | nil => exact ⟨_, rfl, rfl, by simp [RunningStatistic.new], by
      simp only [RunningStatistic.new, sumMeter, lastN_nil, List.sum_nil]; rfl⟩
  | append_singleton xs x ih =>
    obtain ⟨s, h1, h2, h3, h4⟩ := ih fun y hy => hx y (by simp [hy])
    have hsub : ∀ y ∈ lastN w xs, y.natAbs ≤ B := fun y hy =>
      hx y (by simp [(lastN_suffix w xs).subset hy])
    have hxB : x.natAbs ≤ B := hx x (by simp)
    have hlen := lastN_length w xs
    have hall : ∀ y ∈ lastN w xs ++ [x], y.natAbs ≤ B := by
      intro y hy
      rcases List.mem_append.1 hy with hy | hy
      · exact hsub y hy
      · simp at hy; rw [hy]; exact hxB
    have hs1 : ((lastN w xs).sum + x).natAbs ≤ 2 ^ 53 := by
      have := natAbs_sum_le B (lastN w xs ++ [x]) hall
      rw [List.sum_append, List.sum_singleton] at this
      refine this.trans (le_trans ?_ hB)
      refine Nat.mul_le_mul_right B ?_
      simp [hlen]
    have hadd := F64.int_add _ _ hs1
    rw [List.map_append, RunningStatistic.updates_append, h1]
    simp only [Res.bind_ok, List.map_cons, List.map_nil, RunningStatistic.updates]
    rw [lastN_snoc]
    have hw' : s.window ++ [F64.int x] = (lastN w xs ++ [x]).map F64.int := by simp [h3]
    unfold RunningStatistic.update
    simp only [hw', List.length_map, h2]
    split
    · rename_i hgt
      cases hl : lastN w xs ++ [x] with
      | nil => simp at hl
      | cons o rest =>
        simp only [List.map_cons, sumMeter, Res.mapState_ok, Res.bind_ok]
        refine ⟨_, rfl, rfl, rfl, ?_⟩
        have hsum : (lastN w xs).sum + x = o + rest.sum := by
          have := congrArg List.sum hl
          simpa using this
        have hrest : (o + rest.sum - o).natAbs ≤ 2 ^ 53 := by
          have hr : ∀ y ∈ rest, y.natAbs ≤ B := fun y hy => hall y (by rw [hl]; simp [hy])
          have hlr : rest.length ≤ w := by
            have := congrArg List.length hl
            simp [hlen] at this; omega
          have := natAbs_sum_le B rest hr
          have h' : rest.length * B ≤ (w + 1) * B := Nat.mul_le_mul_right B (by omega)
          have e : o + rest.sum - o = rest.sum := by ring
          rw [e]; omega
        rw [h4, hadd, hsum, F64.int_sub _ _ hrest]
        congr 1
        simp
    · refine ⟨_, rfl, rfl, rfl, ?_⟩
      simp only [sumMeter]
      rw [h4, hadd]
      simp

example : ((RunningStatistic.updates (sumMeter F64) (RunningStatistic.new (sumMeter F64) 2)
      ([1000, -7, 5, 3].map F64.int)).bind fun _ s => RunningStatistic.get (sumMeter F64) s).out =
      .ok (F64.int 8) :=
  C15_no_drift_partial 2 1000 (by norm_num) [1000, -7, 5, 3] (by decide)

theorem abs_sum_val_le (M : ℚ) (l : List F64) (h : ∀ x ∈ l, |x.val| ≤ M) :
    |(l.map F64.val).sum| ≤ l.length * M := by
  induction l with
  | nil => simp
  | cons a l ih =>
    have h1 := h a (by simp)
    have h2 := ih fun x hx => h x (by simp [hx])
    simp only [List.map_cons, List.sum_cons, List.length_cons]
    refine (abs_add_le _ _).trans ?_
    push_cast
    linarith

/-- **C15, how large the drift can be.** For every stream of doubles of absolute value at most
`M` and every window size `w`, the windowed sum is a number whose distance to the exact sum of
the last `w` values is at most `(w + 1) * M * ((1 + 2^-53)^(2T) - 1)`, where `T` is the length of
the stream: about `2^-52 * T * (w + 1) * M`. (Missing: exactness, which is false, see
`C15_drift_refuted`.) -/
theorem C15_drift_bound_partial (w : ℕ) (M : ℚ) (xs : List F64) (hx : ∀ x ∈ xs, |x.val| ≤ M) :
    ∃ v : F64, ((RunningStatistic.updates (sumMeter F64) (RunningStatistic.new (sumMeter F64) w)
      xs).bind fun _ s => RunningStatistic.get (sumMeter F64) s).out = .ok v ∧
      |v.val - ((lastN w xs).map F64.val).sum| ≤
        ((w : ℚ) + 1) * M * ((1 + 1 / 2 ^ 53) ^ (2 * xs.length) - 1) := by
  suffices h : ∃ s, RunningStatistic.updates (sumMeter F64) (RunningStatistic.new (sumMeter F64) w)
      xs = .ok () s ∧ s.windowSize = w ∧ s.window = lastN w xs ∧
      |s.statistic.sum.val - ((lastN w xs).map F64.val).sum| ≤
        ((w : ℚ) + 1) * M * ((1 + unitRoundoff) ^ (2 * xs.length) - 1) by
    obtain ⟨s, h1, _, _, h2⟩ := h
    rw [h1]
    exact ⟨s.statistic.sum, rfl, h2⟩
  induction xs using List.reverseRecOn with
  | nil => exact ⟨_, rfl, rfl, by simp [RunningStatistic.new], by
      simp only [RunningStatistic.new, sumMeter, lastN_nil, List.map_nil, List.sum_nil,
        List.length_nil]
      show |(0 : ℚ) - 0| ≤ _
      simp⟩
  | append_singleton xs x ih =>
    obtain ⟨s, h1, h2, h3, h4⟩ := ih fun y hy => hx y (by simp [hy])
    have hsub : ∀ y ∈ lastN w xs, |y.val| ≤ M := fun y hy =>
      hx y (by simp [(lastN_suffix w xs).subset hy])
    have hxB : |x.val| ≤ M := hx x (by simp)
    have hM : 0 ≤ M := (abs_nonneg _).trans hxB
    have hlen := lastN_length w xs
    have hall : ∀ y ∈ lastN w xs ++ [x], |y.val| ≤ M := by
      intro y hy
      rcases List.mem_append.1 hy with hy | hy
      · exact hsub y hy
      · simp at hy; rw [hy]; exact hxB
    have hs1 : |((lastN w xs).map F64.val).sum + x.val| ≤ ((w : ℚ) + 1) * M := by
      have := abs_sum_val_le M (lastN w xs ++ [x]) hall
      rw [List.map_append, List.sum_append, List.map_singleton, List.sum_singleton] at this
      refine this.trans (mul_le_mul_of_nonneg_right ?_ hM)
      have : (lastN w xs ++ [x]).length ≤ w + 1 := by simp [hlen]
      exact_mod_cast this
    have hadd := roundF64_step h4 hs1
    rw [RunningStatistic.updates_append, h1]
    simp only [Res.bind_ok, RunningStatistic.updates]
    rw [lastN_snoc]
    unfold RunningStatistic.update
    simp only [h3, h2]
    have hB : 0 ≤ ((w : ℚ) + 1) * M := by positivity
    split
    · rename_i hgt
      cases hl : lastN w xs ++ [x] with
      | nil => simp at hl
      | cons o rest =>
        simp only [sumMeter, Res.mapState_ok, Res.bind_ok]
        refine ⟨_, rfl, rfl, rfl, ?_⟩
        have hsum : ((lastN w xs).map F64.val).sum + x.val = o.val + (rest.map F64.val).sum := by
          have := congrArg (fun l => (l.map F64.val).sum) hl
          simpa using this
        rw [hsum] at hadd
        have hrest : |o.val + (rest.map F64.val).sum + -o.val| ≤ ((w : ℚ) + 1) * M := by
          have hr : ∀ y ∈ rest, |y.val| ≤ M := fun y hy => hall y (by rw [hl]; simp [hy])
          have hlr : rest.length ≤ w := by
            have := congrArg List.length hl
            simp [hlen] at this; omega
          have e : o.val + (rest.map F64.val).sum + -o.val = (rest.map F64.val).sum := by ring
          rw [e]
          refine (abs_sum_val_le M rest hr).trans (mul_le_mul_of_nonneg_right ?_ hM)
          have : (rest.length : ℚ) ≤ w := by exact_mod_cast hlr
          linarith
        have hrem := roundF64_step hadd hrest
        have e : o.val + (rest.map F64.val).sum + -o.val = (rest.map F64.val).sum := by ring
        rw [e] at hrem
        have hl2 : 2 * (xs ++ [x]).length = 2 * xs.length + 1 + 1 := by simp; ring
        rw [hl2]
        rw [← sub_eq_add_neg] at hrem
        exact hrem
    · refine ⟨_, rfl, rfl, rfl, ?_⟩
      have hl2 : 2 * (xs ++ [x]).length = 2 * xs.length + 1 + 1 := by simp; ring
      rw [hl2]
      have hmono : ((w : ℚ) + 1) * M * ((1 + unitRoundoff) ^ (2 * xs.length + 1) - 1) ≤
          ((w : ℚ) + 1) * M * ((1 + unitRoundoff) ^ (2 * xs.length + 1 + 1) - 1) := by
        apply mul_le_mul_of_nonneg_left _ hB
        apply sub_le_sub_right
        apply pow_le_pow_right₀ _ (by omega)
        norm_num [unitRoundoff]
      refine le_trans ?_ hmono
      rw [List.map_append, List.sum_append, List.map_singleton, List.sum_singleton]
      exact hadd

/-- The refuting stream obeys the bound: the error is 1, the bound more than 4. -/
example : (((1 : ℕ) : ℚ) + 1) * 10 ^ 16 * ((1 + 1 / 2 ^ 53) ^ (2 * 2) - 1) > 4 := by norm_num

/-! ### C16 -/

/-- The full claim of **C16**: the variance read after any stream of doubles is
not negative. -/
def VarianceNonnegInDoubles : Prop :=
  ∀ (xs : List F64) (v : F64),
    ((varianceMeter F64).get ((varianceMeter F64).updates (varianceMeter F64).init xs)).out = .ok v →
    0 ≤ v.val

/-- **C16 is false**: three times `0.1` has a negative variance, so its square
root is NaN. -/
theorem C16_variance_refuted : ¬ VarianceNonnegInDoubles := by
  intro h
  have h1 := h [F64.of (1/10), F64.of (1/10), F64.of (1/10)] ⟨-6004799503160661/5192296858534827628530496329220096⟩
  exact absurd (h1 (by decide +kernel)) (by decide +kernel)

/-- **C16, what holds.** In exact arithmetic the variance of every nonempty
stream exists and is nonnegative, for every linearly ordered field. (Missing:
double arithmetic, where it is false.) -/
theorem C16_variance_partial {K : Type*} [Field K] [LinearOrder K] [IsStrictOrderedRing K]
    (xs : List K) (hne : xs ≠ []) :
    ∃ v, ((varianceMeter K).get ((varianceMeter K).updates (varianceMeter K).init xs)).out = .ok v ∧
      0 ≤ v := by
  have hafter : ∀ (xs : List K) (s : VarianceState K),
      (varianceMeter K).after s (xs.map Op.update) = (varianceMeter K).updates s xs := by
    intro xs
    induction xs with
    | nil => intro s; rfl
    | cons x xs ih => intro s; exact ih _
  have hlive : ∀ (xs : List K) (m : Multiset K), Legal m (xs.map Op.update) ∧
      m.card + xs.length = (live m (xs.map Op.update)).card := by
    intro xs
    induction xs with
    | nil => intro m; simp [Legal, live]
    | cons x xs ih =>
      intro m
      obtain ⟨h1, h2⟩ := ih (x ::ₘ m)
      refine ⟨h1, ?_⟩
      simp only [List.map_cons, live, ← h2, List.length_cons, Multiset.card_cons]; omega
  obtain ⟨h1, h2⟩ := hlive xs 0
  have hpos : live (0 : Multiset K) (xs.map Op.update) ≠ 0 := by
    intro h0
    rw [h0] at h2
    simp at h2
    exact hne h2
  obtain ⟨v, s, hg, hv, _⟩ := C06_variance_nonneg (xs.map Op.update) h1 hpos
  rw [hafter] at hg
  exact ⟨v, by rw [hg]; rfl, hv⟩

theorem F64.int_mul (a b : ℤ) (h : (a * b).natAbs ≤ 2 ^ 53) :
    F64.int a * F64.int b = F64.int (a * b) := by
  show F64.of _ = _
  unfold F64.of F64.int
  congr 1
  have := roundF64_int (a * b) h
  push_cast at this
  simpa using this

/-- The meter's fields after a stream of integers whose sums are at most `2^53`. -/
theorem variance_ints (B : ℕ) (xs : List ℤ) (hx : ∀ x ∈ xs, x.natAbs ≤ B)
    (hB : xs.length * B ≤ 2 ^ 53) (hB2 : xs.length * (B * B) ≤ 2 ^ 53) :
    let s := (varianceMeter F64).updates (varianceMeter F64).init (xs.map F64.int)
    s.sumMeter.sum = F64.int xs.sum ∧ s.sumSquaresMeter.sum = F64.int (xs.map fun x => x * x).sum ∧
      s.countMeter = xs.length := by
  induction xs using List.reverseRecOn with
  | nil => exact ⟨rfl, rfl, rfl⟩
  | append_singleton xs x ih =>
    have hl : (xs ++ [x]).length = xs.length + 1 := by simp
    rw [hl] at hB hB2
    have m1 : xs.length * B ≤ (xs.length + 1) * B := Nat.mul_le_mul_right _ (by omega)
    have m2 : xs.length * (B * B) ≤ (xs.length + 1) * (B * B) := Nat.mul_le_mul_right _ (by omega)
    obtain ⟨h1, h2, h3⟩ := ih (fun y hy => hx y (by simp [hy])) (m1.trans hB) (m2.trans hB2)
    have hsum : (xs.sum + x).natAbs ≤ 2 ^ 53 := by
      have := natAbs_sum_le B (xs ++ [x]) hx
      rw [List.sum_append, List.sum_singleton, hl] at this
      exact this.trans hB
    have hsq : ∀ y ∈ (xs ++ [x]).map fun x => x * x, y.natAbs ≤ B * B := by
      intro y hy
      obtain ⟨z, hz, rfl⟩ := List.mem_map.1 hy
      rw [Int.natAbs_mul]
      exact Nat.mul_le_mul (hx z hz) (hx z hz)
    have hsum2 : ((xs.map fun x => x * x).sum + x * x).natAbs ≤ 2 ^ 53 := by
      have := natAbs_sum_le (B * B) _ hsq
      rw [List.length_map, hl] at this
      simp only [List.map_append, List.map_cons, List.map_nil, List.sum_append, List.sum_cons,
        List.sum_nil, add_zero] at this
      exact this.trans hB2
    have hxx : (x * x).natAbs ≤ 2 ^ 53 := by
      have h := hsq (x * x) (by simp)
      have : B * B ≤ (xs.length + 1) * (B * B) := Nat.le_mul_of_pos_left _ (by omega)
      omega
    have hupd : (varianceMeter F64).updates (varianceMeter F64).init ((xs ++ [x]).map F64.int) =
        (varianceMeter F64).update
          ((varianceMeter F64).updates (varianceMeter F64).init (xs.map F64.int)) (F64.int x) := by
      simp [Statistic.updates]
    simp only [hupd]
    refine ⟨?_, ?_, ?_⟩
    · simp only [varianceMeter, sumMeter] at h1 ⊢
      rw [h1, F64.int_add _ _ hsum]
      simp
    · simp only [varianceMeter, sumSquaresMeter] at h2 ⊢
      rw [h2, F64.int_mul _ _ hxx, F64.int_add _ _ hsum2]
      simp
    · simp only [varianceMeter, countMeter] at h3 ⊢
      rw [h3]
      push_cast
      simp

theorem sq_sum_le (xs : List ℤ) : xs.sum * xs.sum ≤ xs.length * (xs.map fun x => x * x).sum := by
  induction xs with
  | nil => simp
  | cons a l ih =>
    have key : 2 * (a * l.sum) ≤ l.length * (a * a) + (l.map fun x => x * x).sum := by
      clear ih
      induction l with
      | nil => simp
      | cons b l ih =>
        simp only [List.sum_cons, List.map_cons, List.length_cons]
        push_cast
        nlinarith [sq_nonneg (a - b)]
    simp only [List.sum_cons, List.map_cons, List.length_cons]
    push_cast
    nlinarith

/-- **C16, what holds in doubles.** The variance of every nonempty stream of `n` integers of
absolute value at most `B` with `(n * B)² ≤ 2^53` is read as a nonnegative double. (Missing:
other doubles, for which it is false.) -/
theorem C16_variance_integers_partial (B : ℕ) (xs : List ℤ) (hne : xs ≠ [])
    (hx : ∀ x ∈ xs, x.natAbs ≤ B) (hn : xs.length ≤ 2 ^ 53)
    (hB : (xs.length * B) * (xs.length * B) ≤ 2 ^ 53) :
    ∃ v : F64, ((varianceMeter F64).get ((varianceMeter F64).updates (varianceMeter F64).init
      (xs.map F64.int))).out = .ok v ∧ 0 ≤ v.val := by
  have hlen : 1 ≤ xs.length := List.length_pos_iff.2 hne
  have hB1 : xs.length * B ≤ 2 ^ 53 := by
    rcases Nat.eq_zero_or_pos (xs.length * B) with h | h
    · omega
    · exact (Nat.le_mul_of_pos_left _ h).trans hB
  have hB2 : xs.length * (B * B) ≤ 2 ^ 53 := by
    refine le_trans ?_ hB
    calc xs.length * (B * B) ≤ xs.length * (xs.length * (B * B)) :=
          Nat.mul_le_mul_left _ (Nat.le_mul_of_pos_left _ hlen)
      _ = (xs.length * B) * (xs.length * B) := by ring
  obtain ⟨h1, h2, h3⟩ := variance_ints B xs hx hB1 hB2
  generalize hs : (varianceMeter F64).updates (varianceMeter F64).init (xs.map F64.int) = s at *
  have hc : s.countMeter ≠ 0 := by rw [h3]; omega
  refine ⟨(s.sumSquaresMeter.sum - s.sumMeter.sum * s.sumMeter.sum / (s.countMeter : F64)) /
    (s.countMeter : F64), ?_, ?_⟩
  · simp only [varianceMeter, hc, if_false, Res.out]
  have hS := natAbs_sum_le B xs hx
  have hSS : (xs.sum * xs.sum).natAbs ≤ 2 ^ 53 := by
    rw [Int.natAbs_mul]
    exact (Nat.mul_le_mul hS hS).trans hB
  have hcount : (s.countMeter : F64) = F64.int xs.length := by
    rw [h3]
    show F64.of _ = _
    unfold F64.of F64.int
    congr 1
    exact roundF64_int xs.length (by simpa using hn)
  have hQ : (xs.map fun x => x * x).sum ≤ 2 ^ 53 := by
    have hsq : ∀ y ∈ xs.map fun x => x * x, y.natAbs ≤ B * B := by
      intro y hy
      obtain ⟨z, hz, rfl⟩ := List.mem_map.1 hy
      rw [Int.natAbs_mul]
      exact Nat.mul_le_mul (hx z hz) (hx z hz)
    have := natAbs_sum_le (B * B) _ hsq
    rw [List.length_map] at this
    omega
  rw [h1, h2, hcount, F64.int_mul _ _ hSS]
  have hnpos : (0 : ℚ) < (xs.length : ℤ) := by exact_mod_cast hlen
  show 0 ≤ roundF64 (roundF64 (((xs.map fun x => x * x).sum : ℤ) -
    roundF64 (((xs.sum * xs.sum : ℤ) : ℚ) / ((xs.length : ℤ) : ℚ))) / ((xs.length : ℤ) : ℚ))
  apply roundF64_nonneg
  apply div_nonneg _ hnpos.le
  apply roundF64_nonneg
  rw [sub_nonneg]
  apply roundF64_le_int _ _ hQ
  · rw [div_le_iff₀ hnpos]
    have := sq_sum_le xs
    rw [mul_comm (xs.length : ℤ)] at this
    exact_mod_cast this
  · apply div_nonneg _ hnpos.le
    exact_mod_cast mul_self_nonneg xs.sum

example : ∃ v : F64, ((varianceMeter F64).get ((varianceMeter F64).updates (varianceMeter F64).init
    ([1, 1, 1, 4, -7].map F64.int))).out = .ok v ∧ 0 ≤ v.val :=
  C16_variance_integers_partial 7 [1, 1, 1, 4, -7] (by decide) (by decide) (by decide) (by decide)

end Pysad
