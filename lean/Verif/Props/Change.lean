import Verif.Props.Robust
import Mathlib.Tactic.FieldSimp

/-! Property C159: smoothed scores follow a lasting change (`pysad/transform/postprocessing`). -/

namespace Pysad

open Spec

variable {K : Type*} [Field K] [LinearOrder K] [IsStrictOrderedRing K]

/-- What is expected of a way of smoothing a stream of scores after the level of the scores has
changed. The first scores, `old`, are arbitrary; all scores from then on, `new`, lie between `lo`
and `hi`. From the `delay m`-th new score on (`m` being the number of old scores), the smoothed
score lies between `lo` and `hi` too. `run xs` is what the caller gets for the scores `xs`; `e` is
how a number is represented in the result. -/
def Spec.Follows {β : Type*} (e : K → β) (delay : ℕ → ℕ) (run : List K → Except PyErr (List β)) :
    Prop :=
  ∀ (old new : List K) (lo hi : K), (∀ v ∈ new, lo ≤ v ∧ v ≤ hi) →
    ∃ out, run (old ++ new) = .ok out ∧ out.length = old.length + new.length ∧
      ∀ k, 1 ≤ k → k ≤ new.length → delay old.length ≤ k →
        ∃ v, out[old.length + k - 1]? = some (e v) ∧ lo ≤ v ∧ v ≤ hi

namespace Change

theorem take_eq (old new : List K) (k : ℕ) (hk : 1 ≤ k) :
    (old ++ new).take (old.length + k - 1 + 1) = old ++ new.take k := by
  rw [show old.length + k - 1 + 1 = old.length + k by omega, List.take_append]
  simp

theorem meanOf_within {l : List K} (hl : l ≠ []) {lo hi : K} (h : ∀ v ∈ l, lo ≤ v ∧ v ≤ hi) :
    lo ≤ meanOf (l : Multiset K) ∧ meanOf (l : Multiset K) ≤ hi := by
  have hp : (0 : K) < l.length := by
    have := List.length_pos_iff.2 hl
    exact_mod_cast this
  have h1 := List.card_nsmul_le_sum l lo fun v hv => (h v hv).1
  have h2 := List.sum_le_card_nsmul l hi fun v hv => (h v hv).2
  rw [nsmul_eq_mul] at h1 h2
  simp only [meanOf, Multiset.sum_coe, Multiset.coe_card]
  rw [le_div_iff₀ hp, div_le_iff₀ hp]
  constructor <;> linarith

/-- A window of at least `w` new scores holds new scores only. -/
theorem window_new (w : ℕ) (old new : List K) (k : ℕ) (hk : k ≤ new.length) (hw : w ≤ k) :
    lastN w (old ++ new.take k) = lastN w (new.take k) :=
  lastN_append_of_le (by rw [List.length_take]; omega)

theorem mem_window {w : ℕ} {new : List K} {k : ℕ} {v : K} (h : v ∈ lastN w (new.take k)) :
    v ∈ new :=
  List.mem_of_mem_take ((lastN_suffix w _).subset h)

/-- If there are more new scores in the window than others, most of the window is new. -/
theorem mostly_new (w : ℕ) (old new : List K) (k : ℕ) (hk : k ≤ new.length) (lo hi : K)
    (h : ∀ v ∈ new, lo ≤ v ∧ v ≤ hi) (hw : 1 ≤ w) (hk1 : 1 ≤ k)
    (hm : min w (old.length + k) < 2 * k) :
    MostlyWithin lo hi (lastN w (old ++ new.take k) : Multiset K) := by
  have hlen : (new.take k).length = k := by rw [List.length_take]; omega
  unfold MostlyWithin Mostly
  rw [Multiset.coe_card, Multiset.coe_countP, lastN_length, List.length_append, hlen]
  by_cases hwk : w ≤ k
  · rw [window_new w old new k hk hwk, List.countP_eq_length.2 (by
      intro v hv; simpa using h v (mem_window hv)), lastN_length, hlen]
    omega
  · have e : lastN w (old ++ new.take k) = lastN (w - k) old ++ new.take k := by
      unfold lastN
      rw [List.length_append, hlen, List.drop_append]
      have h1 : old.length + k - w - old.length = 0 := by omega
      rw [h1, List.drop_zero]
      congr 2
      omega
    have hc : (new.take k).countP (fun x => decide (lo ≤ x ∧ x ≤ hi)) = (new.take k).length :=
      List.countP_eq_length.2 (by intro v hv; simpa using h v (List.mem_of_mem_take hv))
    rw [e, List.countP_append, hc, hlen]
    omega

end Change

open Change

/-- **C159.** The average of a window of `w` follows within `w` scores. -/
theorem C159_running_average (w : ℕ) (hw : 1 ≤ w) : Follows (K := K) id (fun _ => w) fun xs =>
    ((runningAveragePostprocessor K w).fitTransform (RunningAveragePostprocessor.new K w) xs).out := by
  intro old new lo hi h
  obtain ⟨out, s, h1, h2, h3⟩ := C35_average w hw (old ++ new)
  refine ⟨out, by simp [h1], by simpa using h2, fun k hk1 hk hd => ?_⟩
  refine ⟨_, h3 (old.length + k - 1) (by rw [List.length_append]; omega), ?_⟩
  rw [take_eq _ _ _ hk1, window_new w old new k hk hd]
  refine meanOf_within (lastN_ne_nil hw ?_) fun v hv => h v (mem_window hv)
  rw [← List.length_pos_iff, List.length_take]; omega

/-- **C159.** The maximum of a window of `w` follows within `w` scores. -/
theorem C159_running_max (w : ℕ) (hw : 1 ≤ w) : Follows (K := K) some (fun _ => w) fun xs =>
    ((runningMaxPostprocessor K w).fitTransform (RunningMaxPostprocessor.new K w) xs).out := by
  intro old new lo hi h
  obtain ⟨out, s, h1, h2, h3⟩ := C35_max w hw (old ++ new)
  refine ⟨out, by simp [h1], by simpa using h2, fun k hk1 hk hd => ?_⟩
  obtain ⟨g, e, hg, -⟩ := h3 (old.length + k - 1) (by rw [List.length_append]; omega)
  rw [take_eq _ _ _ hk1, window_new w old new k hk hd] at hg
  exact ⟨g, e, h g (mem_window (by simpa using hg))⟩

/-- **C159.** The median of a window of `w` follows as soon as more than half of the window is
new. -/
theorem C159_running_median (w : ℕ) (hw : 1 ≤ w) :
    Follows (K := K) id (fun _ => w / 2 + 1) fun xs =>
      ((runningMedianPostprocessor K w).fitTransform (RunningMedianPostprocessor.new K w) xs).out := by
  intro old new lo hi h
  obtain ⟨out, s, h1, h2, h3⟩ := C35_median w hw (old ++ new)
  refine ⟨out, by simp [h1], by simpa using h2, fun k hk1 hk hd => ?_⟩
  obtain ⟨g, e, hg⟩ := h3 (old.length + k - 1) (by rw [List.length_append]; omega)
  rw [take_eq _ _ _ hk1] at hg
  exact ⟨g, e, medianOf_mostlyWithin
    (mostly_new w old new k hk lo hi h hw hk1 (by simp only [] at hd; omega)) hg⟩

/-- **C159.** The median of the whole stream follows as soon as the new scores outnumber the old
ones. -/
theorem C159_median : Follows (K := K) id (fun m => m + 1) fun xs =>
    ((medianPostprocessor K).fitTransform (MedianPostprocessor.new K) xs).out := by
  intro old new lo hi h
  obtain ⟨out, s, h1, h2, h3⟩ := C34_median (old ++ new)
  refine ⟨out, by simp [h1], by simpa using h2, fun k hk1 hk hd => ?_⟩
  obtain ⟨g, e, hg⟩ := h3 (old.length + k - 1) (by rw [List.length_append]; omega)
  rw [take_eq _ _ _ hk1] at hg
  have hm := mostly_new (old.length + k) old new k hk lo hi h (by omega) hk1
    (by simp only [] at hd; omega)
  rw [lastN_of_le (by simp)] at hm
  exact ⟨g, e, medianOf_mostlyWithin hm hg⟩

/-- **C159.** The average of the whole stream keeps the old scores in proportion to their number:
after `m` old scores and `k` new ones equal to `c`, it differs from `c` by `m / (m + k)` of what the
old average differed. -/
theorem C159_average (old : List K) (hold : old ≠ []) (c : K) (n : ℕ) :
    ∃ out, ((averagePostprocessor K).fitTransform (AveragePostprocessor.new K)
        (old ++ List.replicate n c)).out = .ok out ∧ out.length = old.length + n ∧
      ∀ k, 1 ≤ k → k ≤ n → ∃ v, out[old.length + k - 1]? = some v ∧
        v - c = (old.length : K) / (old.length + k) * (meanOf (old : Multiset K) - c) := by
  obtain ⟨out, s, h1, h2, h3⟩ := C34_average (old ++ List.replicate n c)
  refine ⟨out, by simp [h1], by simpa using h2, fun k hk1 hk => ?_⟩
  refine ⟨_, h3 (old.length + k - 1) (by rw [List.length_append, List.length_replicate]; omega), ?_⟩
  rw [take_eq _ _ _ hk1, List.take_replicate, min_eq_left hk]
  have hp : (0 : K) < old.length := by
    have := List.length_pos_iff.2 hold
    exact_mod_cast this
  have hk0 : (0 : K) < k := by exact_mod_cast hk1
  simp only [meanOf, Multiset.sum_coe, Multiset.coe_card, List.sum_append, List.length_append,
    List.sum_replicate, List.length_replicate, nsmul_eq_mul, Nat.cast_add]
  field_simp
  ring

/-- **C159.** The maximum of the whole stream never comes down: as long as an old score is higher
than everything since, the result stays above the new scores. -/
theorem C159_max (old new : List K) (hi : K) (h : ∃ v ∈ old, hi < v) :
    ∃ out, ((maxPostprocessor K).fitTransform (MaxPostprocessor.new K) (old ++ new)).out = .ok out ∧
      out.length = old.length + new.length ∧
      ∀ k, 1 ≤ k → k ≤ new.length → ∃ v, out[old.length + k - 1]? = some (some v) ∧ hi < v := by
  obtain ⟨out, s, h1, h2, h3⟩ := C34_max (old ++ new)
  refine ⟨out, by simp [h1], by simpa using h2, fun k hk1 hk => ?_⟩
  obtain ⟨g, e, -, hg⟩ := h3 (old.length + k - 1) (by rw [List.length_append]; omega)
  rw [take_eq _ _ _ hk1] at hg
  obtain ⟨v, hv, hlt⟩ := h
  exact ⟨g, e, hlt.trans_le (hg v (by simp [hv]))⟩

/-- Sharpness: at half a window the median may still be old, and one score before the end of the
window the average still is. -/
theorem C159_sharp :
    (¬ Follows (K := ℚ) id (fun _ => 4 / 2) fun xs => ((runningMedianPostprocessor ℚ 4).fitTransform
      (RunningMedianPostprocessor.new ℚ 4) xs).out) ∧
    (¬ Follows (K := ℚ) id (fun _ => 3) fun xs => ((runningAveragePostprocessor ℚ 4).fitTransform
      (RunningAveragePostprocessor.new ℚ 4) xs).out) := by
  constructor
  · intro h
    obtain ⟨out, h1, -, h3⟩ := h [8, 8] [0, 0] 0 0 (by simp)
    have e : ((runningMedianPostprocessor ℚ 4).fitTransform (RunningMedianPostprocessor.new ℚ 4)
        ([8, 8] ++ [0, 0])).out = .ok [8, 8, 8, 4] := by decide +kernel
    simp only [e, Except.ok.injEq] at h1
    subst h1
    obtain ⟨v, h4, h5, h6⟩ := h3 2 (by simp) (by simp) (by simp)
    simp at h4
    subst h4
    norm_num at h6
  · intro h
    obtain ⟨out, h1, -, h3⟩ := h [8] [0, 0, 0] 0 0 (by simp)
    have e : ((runningAveragePostprocessor ℚ 4).fitTransform (RunningAveragePostprocessor.new ℚ 4)
        ([8] ++ [0, 0, 0])).out = .ok [8, 4, 8 / 3, 2] := by decide +kernel
    simp only [e, Except.ok.injEq] at h1
    subst h1
    obtain ⟨v, h4, h5, h6⟩ := h3 3 (by simp) (by simp) (by simp)
    simp at h4
    subst h4
    norm_num at h6

/-- Scores that drop from 9 to 1: a window of three. -/
example : ((runningAveragePostprocessor ℚ 3).fitTransform (RunningAveragePostprocessor.new ℚ 3)
      [9, 9, 9, 1, 1, 1, 1]).out = .ok [9, 9, 9, 19 / 3, 11 / 3, 1, 1] ∧
    ((runningMedianPostprocessor ℚ 3).fitTransform (RunningMedianPostprocessor.new ℚ 3)
      [9, 9, 9, 1, 1, 1, 1]).out = .ok [9, 9, 9, 9, 1, 1, 1] := by
  decide +kernel

end Pysad
