import Verif.Props.Float

/-! Property C15 for averages in double arithmetic. -/

namespace Pysad

open Spec

/-- Averages are updated like sums. -/
theorem running_average_sum (s : RunningState (AverageState F64) F64) (xs : List F64) :
    RunningStatistic.updates (averageMeter F64) s xs = RunningStatistic.updates (sumMeter F64) s xs := by
  induction xs generalizing s with
  | nil => rfl
  | cons x xs ih =>
    have h : RunningStatistic.update (averageMeter F64) s x
        = RunningStatistic.update (sumMeter F64) s x := rfl
    simp only [RunningStatistic.updates, h]
    congr 1
    funext _ s'
    exact ih s'

/-- The number of values is that of the window. -/
theorem running_sum_count (w : ℕ) (xs : List F64) :
    ∃ s, RunningStatistic.updates (sumMeter F64) (RunningStatistic.new (sumMeter F64) w) xs
      = .ok () s ∧ s.windowSize = w ∧ s.window = lastN w xs ∧
      s.statistic.numItems = (lastN w xs).length := by
  induction xs using List.reverseRecOn with
  | nil => exact ⟨_, rfl, rfl, by simp [RunningStatistic.new], by
      simp [RunningStatistic.new, sumMeter]⟩
  | append_singleton xs x ih =>
    obtain ⟨s, h1, h2, h3, h4⟩ := ih
    rw [RunningStatistic.updates_append, h1]
    simp only [Res.bind_ok, RunningStatistic.updates]
    rw [lastN_snoc]
    unfold RunningStatistic.update
    simp only [h3, h2]
    split
    · cases hl : lastN w xs ++ [x] with
      | nil => simp at hl
      | cons o rest =>
        simp only [sumMeter, Res.mapState_ok, Res.bind_ok]
        refine ⟨_, rfl, rfl, rfl, ?_⟩
        have := congrArg List.length hl
        simp only [List.length_append, List.length_cons, List.length_nil] at this
        simp only [h4, List.drop_succ_cons, List.drop_zero]
        omega
    · refine ⟨_, rfl, rfl, rfl, ?_⟩
      simp only [sumMeter, h4, List.length_append, List.length_singleton]
      push_cast
      rfl

/-- What is read: the sum divided by the number of values. -/
theorem running_average_get (w : ℕ) (xs : List F64) (hw : 1 ≤ w) (hne : xs ≠ []) (S : F64)
    (hS : ((RunningStatistic.updates (sumMeter F64) (RunningStatistic.new (sumMeter F64) w)
      xs).bind fun _ s => RunningStatistic.get (sumMeter F64) s).out = .ok S) :
    ((RunningStatistic.updates (averageMeter F64) (RunningStatistic.new (averageMeter F64) w)
      xs).bind fun _ s => RunningStatistic.get (averageMeter F64) s).out
      = .ok (S / (((lastN w xs).length : ℤ) : F64)) := by
  obtain ⟨s, h1, -, -, h4⟩ := running_sum_count w xs
  have h5 : RunningStatistic.updates (averageMeter F64) (RunningStatistic.new (averageMeter F64) w)
      xs = .ok () s := by rw [running_average_sum]; exact h1
  rw [h1] at hS
  rw [h5]
  simp only [Res.bind_ok, RunningStatistic.get, sumMeter, averageMeter] at hS ⊢
  have hpos : (s.statistic.numItems : ℤ) ≠ 0 := by
    rw [h4, lastN_length]
    have := List.length_pos_iff.2 hne
    omega
  rw [if_neg hpos, h4]
  simp only [Res.mapState_ok, Res.out_ok, Except.ok.injEq] at hS ⊢
  rw [hS]

theorem F64.int_cast (c : ℕ) (hc : c ≤ 2 ^ 53) : (((c : ℤ)) : F64) = F64.int c := by
  show F64.of _ = _
  unfold F64.of F64.int
  congr 1
  exact roundF64_int c (by simpa using hc)

/-- **C15, averages of integers.** On a stream of integers bounded by `B` with
`(w + 1) * B ≤ 2^53` and `w ≤ 2^53`, the windowed average in doubles is at every point of the
stream the double nearest to the mean of the last `w` values. (Missing: general doubles, for which
it is false.) -/
theorem C15_average_integers_partial (w B : ℕ) (hw : 1 ≤ w) (hw2 : w ≤ 2 ^ 53)
    (hB : (w + 1) * B ≤ 2 ^ 53) (xs : List ℤ) (hne : xs ≠ []) (hx : ∀ x ∈ xs, x.natAbs ≤ B) :
    ((RunningStatistic.updates (averageMeter F64) (RunningStatistic.new (averageMeter F64) w)
      (xs.map F64.int)).bind fun _ s => RunningStatistic.get (averageMeter F64) s).out =
      .ok (F64.of (((lastN w xs).sum : ℤ) / ((lastN w xs).length : ℚ))) := by
  rw [running_average_get w _ hw (by simpa using hne) _ (C15_no_drift_partial w B hB xs hx)]
  have hl : (lastN w (xs.map F64.int)).length = (lastN w xs).length := by
    simp [lastN_length]
  rw [hl, F64.int_cast _ (by rw [lastN_length]; omega)]
  show Except.ok (F64.of ((((lastN w xs).sum : ℤ) : ℚ) / (((lastN w xs).length : ℤ) : ℚ))) = _
  simp

/-- **C15, how large the drift of an average can be.** For every stream of doubles of absolute
value at most `M` and every window size `1 ≤ w ≤ 2^53`, the distance of the windowed average to the
mean of the `c` values in the window is at most `(w + 1) / c * M * ((1 + 2^-53)^(2T + 1) - 1)`, where
`T` is the length of the stream. (Missing: exactness, which is false.) -/
theorem C15_average_drift_partial (w : ℕ) (hw : 1 ≤ w) (hw2 : w ≤ 2 ^ 53) (M : ℚ) (xs : List F64)
    (hne : xs ≠ []) (hx : ∀ x ∈ xs, |x.val| ≤ M) :
    ∃ v : F64, ((RunningStatistic.updates (averageMeter F64) (RunningStatistic.new (averageMeter F64)
      w) xs).bind fun _ s => RunningStatistic.get (averageMeter F64) s).out = .ok v ∧
      |v.val - ((lastN w xs).map F64.val).sum / ((lastN w xs).length : ℚ)| ≤
        ((w : ℚ) + 1) / ((lastN w xs).length : ℚ) * M * ((1 + 1 / 2 ^ 53) ^ (2 * xs.length + 1) - 1) := by
  obtain ⟨S, hS, hd⟩ := C15_drift_bound_partial w M xs hx
  refine ⟨_, running_average_get w xs hw hne S hS, ?_⟩
  have hlen := lastN_length w xs
  have hpos : 1 ≤ (lastN w xs).length := by
    have := List.length_pos_iff.2 hne
    omega
  have hle : (lastN w xs).length ≤ w := by omega
  rw [F64.int_cast _ (by omega)]
  have hsum := abs_sum_val_le M (lastN w xs) fun y hy => hx y ((lastN_suffix w xs).subset hy)
  generalize (lastN w xs).length = c at *
  have hc : (0 : ℚ) < c := by exact_mod_cast hpos
  have hM : 0 ≤ M := by
    obtain ⟨x, hxm⟩ := List.exists_mem_of_ne_nil xs hne
    exact (abs_nonneg _).trans (hx x hxm)
  show |roundF64 (S.val / ((c : ℤ) : ℚ)) - _| ≤ _
  have h1 : |S.val / c - ((lastN w xs).map F64.val).sum / c|
      ≤ ((w : ℚ) + 1) / c * M * ((1 + unitRoundoff) ^ (2 * xs.length) - 1) := by
    rw [← sub_div, abs_div, abs_of_pos hc, div_le_iff₀ hc]
    refine hd.trans (le_of_eq ?_)
    rw [show unitRoundoff = 1 / 2 ^ 53 from rfl]
    field_simp
  have h2 : |((lastN w xs).map F64.val).sum / c + 0| ≤ ((w : ℚ) + 1) / c * M := by
    rw [add_zero, abs_div, abs_of_pos hc, div_le_iff₀ hc]
    refine hsum.trans ?_
    have : ((w : ℚ) + 1) / c * M * c = (w + 1) * M := by field_simp
    rw [this]
    have hcw : (c : ℚ) ≤ w := by exact_mod_cast hle
    exact mul_le_mul_of_nonneg_right (by linarith) hM
  have h3 := roundF64_step h1 h2
  rw [add_zero, add_zero] at h3
  simpa [unitRoundoff] using h3

example : ((RunningStatistic.updates (averageMeter F64) (RunningStatistic.new (averageMeter F64) 2)
      ([1000, -7, 5, 3].map F64.int)).bind fun _ s => RunningStatistic.get (averageMeter F64) s).out =
      .ok (F64.of 4) := by
  rw [C15_average_integers_partial 2 1000 (by norm_num) (by norm_num) (by norm_num) [1000, -7, 5, 3]
    (by decide) (by decide)]
  norm_num [lastN]

end Pysad
