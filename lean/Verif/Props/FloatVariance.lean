import Verif.Proofs.Approx
import Verif.Props.FloatOrder
import Verif.Proofs.Moments

/-! C16: how wrong the variance can be in doubles. -/

namespace Pysad
open Spec

theorem variance_doubles (M : ℚ) (xs : List F64) (hx : ∀ x ∈ xs, |x.val| ≤ M) :
    let s := (varianceMeter F64).updates (varianceMeter F64).init xs
    Approx s.sumMeter.sum.val (xs.map F64.val).sum (xs.length * M) xs.length ∧
      Approx s.sumSquaresMeter.sum.val (xs.map fun x => x.val * x.val).sum (xs.length * (M * M))
        (xs.length + 1) ∧
      s.countMeter = xs.length := by
  induction xs using List.reverseRecOn with
  | nil =>
    refine ⟨?_, ?_, rfl⟩
    · show Approx 0 _ _ _
      have : Approx 0 0 0 0 := Approx.exact (by simp)
      simpa using this
    · show Approx 0 _ _ _
      have : Approx 0 0 0 1 := (Approx.exact (by simp) : Approx 0 0 0 0).mono_k (by omega)
      simpa using this
  | append_singleton xs x ih =>
    obtain ⟨h1, h2, h3⟩ := ih fun y hy => hx y (List.mem_append_left _ hy)
    have hxM := hx x (by simp)
    have hupd : (varianceMeter F64).updates (varianceMeter F64).init (xs ++ [x]) =
        (varianceMeter F64).update
          ((varianceMeter F64).updates (varianceMeter F64).init xs) x := by
      simp [Statistic.updates]
    simp only [hupd]
    set s := (varianceMeter F64).updates (varianceMeter F64).init xs
    have hX : Approx x.val x.val M 0 := Approx.exact hxM
    simp only [List.map_append, List.map_cons, List.map_nil, List.sum_append, List.sum_cons,
      List.sum_nil, add_zero, List.length_append, List.length_singleton, Nat.cast_add, Nat.cast_one]
    refine ⟨?_, ?_, ?_⟩
    · have := (h1.add (hX.mono_k (Nat.zero_le xs.length))).round
      rw [add_mul, one_mul]
      exact this
    · have hXX : Approx (roundF64 (x.val * x.val)) (x.val * x.val) (M * M) 1 := (hX.mul hX).round
      have := (h2.add (hXX.mono_k (show 1 ≤ xs.length + 1 by omega))).round
      rw [add_mul, one_mul]
      exact this
    · simp only [varianceMeter, countMeter] at h3 ⊢
      rw [h3]

/-- **C16, how wrong the variance can be.** The variance read after up to `2^53` doubles of
absolute value at most `M` differs from the exact variance by at most
`2 M² ((1 + 2^-53)^(2n+4) - 1)`, about `2^-51 n M²`; in particular it is never less than minus
that. (Missing: being nonnegative, which is false.) -/
theorem C16_variance_error_partial (M : ℚ) (xs : List F64) (hne : xs ≠ [])
    (hn : xs.length ≤ 2 ^ 53) (hx : ∀ x ∈ xs, |x.val| ≤ M) :
    ∃ v : F64,
      ((varianceMeter F64).get ((varianceMeter F64).updates (varianceMeter F64).init xs)).out
        = .ok v ∧
      |v.val - varianceOf ((xs.map F64.val : List ℚ) : Multiset ℚ)| ≤
        2 * M ^ 2 * ((1 + 1 / 2 ^ 53) ^ (2 * xs.length + 4) - 1) ∧
      -(2 * M ^ 2 * ((1 + 1 / 2 ^ 53) ^ (2 * xs.length + 4) - 1)) ≤ v.val := by
  obtain ⟨h1, h2, h3⟩ := variance_doubles M xs hx
  have hlen : 0 < xs.length := List.length_pos_iff.2 hne
  have hlenq : (0 : ℚ) < (xs.length : ℚ) := by exact_mod_cast hlen
  set s := (varianceMeter F64).updates (varianceMeter F64).init xs with hs
  set n := xs.length with hn'
  have hget : ((varianceMeter F64).get s).out = .ok ((s.sumSquaresMeter.sum -
      s.sumMeter.sum * s.sumMeter.sum / ((n : ℤ) : F64)) / ((n : ℤ) : F64)) := by
    have : ((n : ℤ)) ≠ 0 := by omega
    simp only [varianceMeter, h3, this, if_false, Res.out_ok]
  refine ⟨_, hget, ?_⟩
  have hnv : (((n : ℤ) : F64)).val = (n : ℚ) := by
    have := F64.intCast_val (n : ℤ) (by simpa using hn)
    simpa using this
  have a1 := (h1.mul h1).round
  have a2 := (a1.div_pos hlenq).round
  have a3 := ((h2.mono_k (show n + 1 ≤ n + n + 1 + 1 by omega)).sub a2).round
  have a4 := ((a3.div_pos hlenq).round)
  have hB : ((n : ℚ) * (M * M) + (n * M) * (n * M) / n) / n = 2 * M ^ 2 := by
    field_simp; ring
  rw [hB, show n + n + 1 + 1 + 1 + 1 = 2 * n + 4 by ring] at a4
  have hvar : varianceOf ((xs.map F64.val : List ℚ) : Multiset ℚ) =
      ((xs.map fun x => x.val * x.val).sum -
        (xs.map F64.val).sum * (xs.map F64.val).sum / n) / n := by
    have hsq : ∀ (c : ℚ) (l : List F64), (l.map fun x => (x.val - c) ^ 2).sum =
        (l.map fun x => x.val * x.val).sum - 2 * c * (l.map F64.val).sum + l.length * c ^ 2 := by
      intro c l
      induction l with
      | nil => simp
      | cons a l ih =>
        simp only [List.map_cons, List.sum_cons, List.length_cons, Nat.cast_add, Nat.cast_one, ih]
        ring
    unfold varianceOf meanOf
    rw [Multiset.map_coe, Multiset.sum_coe, Multiset.sum_coe, Multiset.coe_card, List.length_map,
      List.map_map]
    have := hsq ((xs.map F64.val).sum / n) xs
    rw [← hn'] at this
    rw [show ((fun x : ℚ => (x - (xs.map F64.val).sum / (n : ℚ)) ^ 2) ∘ F64.val) =
      fun x : F64 => (x.val - (xs.map F64.val).sum / (n : ℚ)) ^ 2 from rfl, ← hn', this]
    field_simp
    ring
  have hval : ((s.sumSquaresMeter.sum - s.sumMeter.sum * s.sumMeter.sum / ((n : ℤ) : F64)) /
      ((n : ℤ) : F64)).val = roundF64 (roundF64 (s.sumSquaresMeter.sum.val -
        roundF64 (roundF64 (s.sumMeter.sum.val * s.sumMeter.sum.val) / n)) / n) := by
    rw [F64.div_val, hnv]
    show roundF64 (roundF64 (_ - roundF64 (roundF64 _ / (((n : ℤ) : F64)).val)) / _) = _
    rw [hnv]
  have herr : |((s.sumSquaresMeter.sum - s.sumMeter.sum * s.sumMeter.sum / ((n : ℤ) : F64)) /
      ((n : ℤ) : F64)).val - varianceOf ((xs.map F64.val : List ℚ) : Multiset ℚ)| ≤
      2 * M ^ 2 * ((1 + 1 / 2 ^ 53) ^ (2 * n + 4) - 1) := by
    rw [hval, hvar]
    exact a4.2
  refine ⟨herr, ?_⟩
  have hnonneg : 0 ≤ varianceOf ((xs.map F64.val : List ℚ) : Multiset ℚ) := by
    unfold varianceOf
    apply div_nonneg _ (Nat.cast_nonneg _)
    apply Multiset.sum_nonneg
    intro y hy
    obtain ⟨z, -, rfl⟩ := Multiset.mem_map.1 hy
    exact sq_nonneg _
  linarith [(abs_le.1 herr).1]

/-- The refuting stream of C16 meets the hypotheses. -/
example : ∃ v : F64, ((varianceMeter F64).get ((varianceMeter F64).updates (varianceMeter F64).init
    [F64.of (1/10), F64.of (1/10), F64.of (1/10)])).out = .ok v ∧
    v.val < 0 ∧ -(2 * 1 ^ 2 * ((1 + 1 / 2 ^ 53) ^ (2 * 3 + 4) - 1)) ≤ v.val := by
  obtain ⟨v, h1, -, h2⟩ := C16_variance_error_partial 1 [F64.of (1/10), F64.of (1/10), F64.of (1/10)]
    (by simp) (by norm_num) (by
      intro x hx
      have : x = F64.of (1/10) := by simpa using hx
      rw [this]; decide +kernel)
  refine ⟨v, h1, ?_, h2⟩
  have h3 : ((varianceMeter F64).get ((varianceMeter F64).updates (varianceMeter F64).init
    [F64.of (1/10), F64.of (1/10), F64.of (1/10)])).out
      = .ok ⟨-6004799503160661/5192296858534827628530496329220096⟩ := by decide +kernel
  rw [h3] at h1
  cases h1
  decide +kernel

end Pysad
