import Verif.Props.Metrics

/-! Property C32 again: what `WindowedMetric` reports when the last window is not ignored and some
windows could not be rated. -/

namespace Pysad

open Spec

section
variable {κ σ Y P K : Type*} [Field K] (mc : MetricClass κ σ Y P K)

/-- The number of windows that ended with an exception of the metric's `get()`, in a run where the
caller catches exceptions. -/
def failedWindows (s : WindowedState σ K) : List (Y × P) → ℕ
  | [] => 0
  | q :: qs =>
    (match mc.update s.metric q.1 q.2 with
      | .ok _ m =>
        if (s.step + 1) % s.windowSize = 0 then
          match mc.get m with
          | .ok _ _ => 0
          | .err _ _ => 1
        else 0
      | .err _ _ => 0) + failedWindows (WindowedMetric.update mc s q.1 q.2).state qs

variable {mc}

private theorem failed_inv (hnew : ∃ m, mc.new mc.noKwargs = .ok m) :
    ∀ (l : List (Y × P)) (s : WindowedState σ K),
    (WindowedMetric.updatesCaught mc s l).step = s.step + l.length ∧
    (WindowedMetric.updatesCaught mc s l).numWindows =
      s.numWindows + ((completedScores mc s l).length + failedWindows mc s l) := by
  obtain ⟨n, hn⟩ := hnew
  intro l
  induction l with
  | nil => intro s; simp [WindowedMetric.updatesCaught, completedScores, failedWindows]
  | cons q l ih =>
    intro s
    obtain ⟨h1, h2⟩ := ih (WindowedMetric.update mc s q.1 q.2).state
    simp only [WindowedMetric.updatesCaught, completedScores, failedWindows, List.length_append,
      List.length_cons]
    rw [h1, h2]
    generalize (completedScores mc (WindowedMetric.update mc s q.1 q.2).state l).length = a
    generalize failedWindows mc (WindowedMetric.update mc s q.1 q.2).state l = b
    unfold WindowedMetric.update
    cases hu : mc.update s.metric q.1 q.2 with
    | err e m => simp [hu]; omega
    | ok u m =>
      by_cases h0 : s.windowSize = 0
      · simp [hu, h0]; omega
      · by_cases h1 : (s.step + 1) % s.windowSize = 0
        · cases hg : mc.get m with
          | err e m' => simp [hu, h0, h1, hg]; omega
          | ok v m' => simp [hu, h0, h1, hg, hn]; omega
        · simp [hu, h0, h1]; omega

/-- **C32**, partial: `ignore_nonempty_last=False`, in the middle of a window. The average over the
completed windows is counted once for every window that ended, rated or not; so the reported value
is the right one exactly as long as no window failed (or the current value happens to be the
average). -/
theorem C32_counted_partial [CharZero K] (hnew : ∃ m, mc.new mc.noKwargs = .ok m) (k : κ) (w : ℕ)
    (hw : 1 ≤ w) (l : List (Y × P)) (s0 : WindowedState σ K)
    (h0 : WindowedMetric.new mc w false k = .ok s0) (hdone : completedScores mc s0 l ≠ [])
    (hmid : l.length % w ≠ 0) (last : K) (m : σ)
    (hlast : mc.get (WindowedMetric.updatesCaught mc s0 l).metric = .ok last m) :
    ∃ r, (WindowedMetric.get mc (WindowedMetric.updatesCaught mc s0 l)).out = .ok r ∧
      r = meanOf (last :: List.replicate ((completedScores mc s0 l).length + failedWindows mc s0 l)
        (meanOf (completedScores mc s0 l))) ∧
      (r = meanOf (completedScores mc s0 l ++ [last]) ↔
        failedWindows mc s0 l = 0 ∨ last = meanOf (completedScores mc s0 l)) := by
  have hs0 : s0.ignoreNonemptyLast = false ∧ s0.scoreMeter = ⟨0, 0⟩ ∧ s0.numWindows = 1 ∧
      s0.windowSize = w ∧ s0.step = 0 := by
    unfold WindowedMetric.new at h0
    cases hk : mc.new k with
    | error e => rw [hk] at h0; simp at h0
    | ok m =>
      rw [hk] at h0; simp only [Except.ok.injEq] at h0; subst h0; exact ⟨rfl, rfl, rfl, rfl, rfl⟩
  obtain ⟨h1, h2, h3, h4, -⟩ := caught_inv hnew l s0
  obtain ⟨h5, h6⟩ := failed_inv hnew l s0
  have hpos := List.length_pos_iff.2 hdone
  rw [hs0.1] at h1
  rw [hs0.2.1] at h3 h4
  rw [hs0.2.2.1] at h6
  rw [hs0.2.2.2.1] at h2
  rw [hs0.2.2.2.2] at h5
  generalize completedScores mc s0 l = c at *
  generalize failedWindows mc s0 l = f at *
  have hc : (c.length : K) ≠ 0 := by exact_mod_cast hpos.ne'
  have hcf : ((c.length : K) + f + 1) ≠ 0 := by exact_mod_cast (by omega : c.length + f + 1 ≠ 0)
  have hc1 : (c.length : K) + 1 ≠ 0 := by exact_mod_cast (by omega : c.length + 1 ≠ 0)
  refine ⟨_, ?_, rfl, ?_⟩
  · unfold WindowedMetric.get
    rw [if_neg (by omega), if_neg (by simp [h2]; omega), if_pos (by simp [h1, h2, h5, hmid]), hlast]
    simp only [Res.mapState_ok, Res.bind_ok, averageMeter]
    rw [if_neg (by rw [h4]; simp; exact hdone), h3, h4]
    simp only [Res.mapState_ok, Res.bind_ok, Res.out_ok, h6, meanOf, Multiset.sum_coe, Multiset.coe_card, List.sum_cons,
      List.sum_replicate, List.length_cons, List.length_replicate, nsmul_eq_mul]
    push_cast
    congr 2
    · ring
    · ring
  · simp only [meanOf, Multiset.sum_coe, Multiset.coe_card, List.sum_append, List.sum_cons, List.sum_nil, List.length_append,
      List.sum_replicate, List.length_cons, List.length_replicate, nsmul_eq_mul, List.length_nil]
    push_cast
    rw [div_eq_div_iff (by simpa using hcf) (by simpa using hc1)]
    have key : (last + ((c.length : K) + f) * (c.sum / c.length)) * (c.length + 1) -
        (c.sum + (last + 0)) * (c.length + f + 1) = f * (c.sum / c.length - last) := by
      field_simp
      ring
    rw [← sub_eq_zero, key, mul_eq_zero, sub_eq_zero]
    constructor
    · rintro (h | h)
      · exact Or.inl (by exact_mod_cast h)
      · exact Or.inr h.symm
    · rintro (h | h)
      · exact Or.inl (by exact_mod_cast h)
      · exact Or.inr h.symm

/-- **C32**, partial: `ignore_nonempty_last=False`, at the end of a window: the average over the
completed windows, whichever windows failed. -/
theorem C32_boundary_partial [CharZero K] (hnew : ∃ m, mc.new mc.noKwargs = .ok m) (k : κ) (w : ℕ)
    (hw : 1 ≤ w) (l : List (Y × P)) (s0 : WindowedState σ K)
    (h0 : WindowedMetric.new mc w false k = .ok s0) (hdone : completedScores mc s0 l ≠ [])
    (hend : l.length % w = 0) :
    (WindowedMetric.get mc (WindowedMetric.updatesCaught mc s0 l)).out =
      .ok (meanOf (completedScores mc s0 l)) := by
  have hs0 : s0.ignoreNonemptyLast = false ∧ s0.scoreMeter = ⟨0, 0⟩ ∧ s0.numWindows = 1 ∧
      s0.windowSize = w ∧ s0.step = 0 := by
    unfold WindowedMetric.new at h0
    cases hk : mc.new k with
    | error e => rw [hk] at h0; simp at h0
    | ok m =>
      rw [hk] at h0; simp only [Except.ok.injEq] at h0; subst h0; exact ⟨rfl, rfl, rfl, rfl, rfl⟩
  obtain ⟨h1, h2, h3, h4, -⟩ := caught_inv hnew l s0
  obtain ⟨h5, h6⟩ := failed_inv hnew l s0
  have hpos := List.length_pos_iff.2 hdone
  rw [hs0.2.1] at h3 h4
  rw [hs0.2.2.1] at h6
  rw [hs0.2.2.2.1] at h2
  rw [hs0.2.2.2.2] at h5
  unfold WindowedMetric.get
  rw [if_neg (by omega), if_neg (by simp [h2]; omega), if_neg (by simp [h2, h5, hend])]
  simp only [averageMeter]
  rw [if_neg (by rw [h4]; simp; exact hdone), h3, h4]
  simp [meanOf]

end

/-- The history of the counterexample to the full statement meets the hypotheses, with one failed
window. -/
example : failedWindows (aurocMetric rocAucScore)
      (⟨false, 2, ([], []), ⟨0, 0⟩, 0, 1⟩ : WindowedState _ ℚ) auroc_history = 1 ∧
    completedScores (aurocMetric rocAucScore)
      (⟨false, 2, ([], []), ⟨0, 0⟩, 0, 1⟩ : WindowedState _ ℚ) auroc_history = [1] ∧
    auroc_history.length % 2 ≠ 0 := by decide +kernel

end Pysad
