import Verif.Props.Postprocessors
import Verif.Props.Ensemblers
import Verif.Props.Statistics

/-! Property C128: smoothing scores respects comparisons, units and small errors
(`pysad/transform/postprocessing`). -/

namespace Pysad

open Spec

variable {K : Type*} [Field K] [LinearOrder K] [IsStrictOrderedRing K]

/-- What is expected of a way of smoothing a stream of scores. `run xs` is what the caller gets
for the scores `xs`; `e` is how a number is represented in the result. -/
structure Spec.Smooths {β : Type*} (e : K → β) (run : List K → Except PyErr (List β)) : Prop where
  /-- Higher scores give higher smoothed scores. -/
  mono : ∀ xs ys, List.Forall₂ (· ≤ ·) xs ys → ∃ us vs : List K, run xs = .ok (us.map e) ∧
    run ys = .ok (vs.map e) ∧ us.length = xs.length ∧ List.Forall₂ (· ≤ ·) us vs
  /-- Scores in another unit give the smoothed scores in that unit. -/
  units : ∀ (xs us : List K), run xs = .ok (us.map e) → ∀ a b : K, 0 < a →
    run (xs.map fun x => a * x + b) = .ok ((us.map fun u => a * u + b).map e)
  /-- Errors of at most `δ` in the scores give errors of at most `δ`. -/
  stable : ∀ (δ : K) xs ys, List.Forall₂ (fun x y => |x - y| ≤ δ) xs ys → ∃ us vs : List K,
    run xs = .ok (us.map e) ∧ run ys = .ok (vs.map e) ∧
    List.Forall₂ (fun u v => |u - v| ≤ δ) us vs

namespace Smoothing

/-- A statistic of a nonempty list that is monotone and equivariant. -/
structure Good (g : List K → K) : Prop where
  mono : ∀ l l', l ≠ [] → List.Forall₂ (· ≤ ·) l l' → g l ≤ g l'
  units : ∀ l, l ≠ [] → ∀ a b : K, 0 < a → g (l.map fun x => a * x + b) = a * g l + b

/-- The part of the stream that is looked at. -/
structure Part (sel : {α : Type _} → List α → List α) : Prop where
  ne : ∀ {α : Type _} (l : List α), l ≠ [] → sel l ≠ []
  map : ∀ {α β : Type _} (f : α → β) (l : List α), sel (l.map f) = (sel l).map f
  forall₂ : ∀ {α β : Type _} (r : α → β → Prop) l l', List.Forall₂ r l l' →
    List.Forall₂ r (sel l) (sel l')

theorem part_all : Part fun {_} l => l :=
  ⟨fun _ h => h, fun _ _ => rfl, fun _ _ _ h => h⟩

theorem part_lastN (w : ℕ) (hw : 1 ≤ w) : Part fun {_} l => lastN w l := by
  refine ⟨fun l h => lastN_ne_nil hw h, ?_, ?_⟩
  · intro α β f l
    unfold lastN
    rw [List.length_map, List.map_drop]
  · intro α β r l l' h
    unfold lastN
    rw [h.length_eq]
    exact List.forall₂_drop _ h

theorem forall₂_map_range {α β : Type*} (r : α → β → Prop) (n : ℕ) (f : ℕ → α) (g : ℕ → β)
    (h : ∀ i, i < n → r (f i) (g i)) :
    List.Forall₂ r ((List.range n).map f) ((List.range n).map g) := by
  rw [List.forall₂_map_left_iff, List.forall₂_map_right_iff, List.forall₂_same]
  exact fun i hi => h i (List.mem_range.1 hi)

/-- Reporting a good statistic of a part of each prefix is smoothing. -/
theorem smooths {β : Type*} (e : K → β) (he : Function.Injective e) {run : List K → Except PyErr (List β)}
    {g : List K → K} (hg : Good g) {sel : {α : Type _} → List α → List α} (hs : Part sel)
    (h : ∀ xs, run xs
      = .ok (((List.range xs.length).map fun i => g (sel (xs.take (i + 1)))).map e)) :
    Smooths e run := by
  have hne : ∀ (xs : List K) i, i < xs.length → xs.take (i + 1) ≠ [] := by
    intro xs i hi h0
    have : (xs.take (i + 1)).length = 0 := by rw [h0]; rfl
    rw [List.length_take] at this
    omega
  have hmono : ∀ xs ys : List K, List.Forall₂ (· ≤ ·) xs ys →
      List.Forall₂ (· ≤ ·) ((List.range xs.length).map fun i => g (sel (xs.take (i + 1))))
        ((List.range ys.length).map fun i => g (sel (ys.take (i + 1)))) := by
    intro xs ys hxy
    rw [← hxy.length_eq]
    exact forall₂_map_range _ _ _ _ fun i hi => hg.mono _ _ (hs.ne _ (hne xs i hi))
      (hs.forall₂ _ _ _ (List.forall₂_take _ hxy))
  have hunits : ∀ (xs : List K) (a b : K), 0 < a →
      ((List.range (xs.map fun x => a * x + b).length).map fun i =>
        g (sel ((xs.map fun x => a * x + b).take (i + 1))))
      = ((List.range xs.length).map fun i => g (sel (xs.take (i + 1)))).map fun u => a * u + b := by
    intro xs a b ha
    rw [List.length_map, List.map_map]
    apply List.map_congr_left
    intro i hi
    rw [← List.map_take, hs.map]
    exact hg.units _ (hs.ne _ (hne xs i (List.mem_range.1 hi))) a b ha
  refine ⟨?_, ?_, ?_⟩
  · intro xs ys hxy
    exact ⟨_, _, h xs, h ys, by simp, hmono xs ys hxy⟩
  · intro xs us hu a b ha
    rw [h] at hu
    have hu' := List.map_injective_iff.2 he (Except.ok.inj hu)
    rw [h, hunits xs a b ha, hu']
  · intro δ xs ys hxy
    refine ⟨_, _, h xs, h ys, ?_⟩
    -- ys - δ ≤ xs ≤ ys + δ
    have h1 : List.Forall₂ (· ≤ ·) xs (ys.map fun y => 1 * y + δ) := by
      rw [List.forall₂_map_right_iff]
      exact hxy.imp fun x y hh => by have := (abs_le.1 hh).2; linarith
    have h2 : List.Forall₂ (· ≤ ·) (ys.map fun y => 1 * y + -δ) xs := by
      rw [List.forall₂_map_left_iff]
      exact hxy.flip.imp fun y x hh => by
        have := (abs_le.1 hh).1; linarith
    have k1 := hmono _ _ h1
    have k2 := hmono _ _ h2
    rw [hunits ys 1 _ one_pos, List.forall₂_map_right_iff] at k1
    rw [hunits ys 1 _ one_pos, List.forall₂_map_left_iff] at k2
    generalize ((List.range xs.length).map fun i => g (sel (xs.take (i + 1)))) = us at k1 k2 ⊢
    generalize ((List.range ys.length).map fun i => g (sel (ys.take (i + 1)))) = vs at k1 k2 ⊢
    rw [List.forall₂_iff_get] at k1 k2 ⊢
    refine ⟨k1.1, fun i hi hi' => ?_⟩
    have a1 := k1.2 i hi hi'
    have a2 := k2.2 i hi' hi
    rw [abs_le]
    constructor <;> linarith

theorem good_mean : Good (fun l : List K => meanOf (l : Multiset K)) := by
  refine ⟨?_, ?_⟩
  · intro l l' hl h
    have hl' : l' ≠ [] := by
      rintro rfl
      exact hl (List.forall₂_nil_right_iff.1 h)
    exact C40_average.mono l l' _ _ h (average_eq l hl) (average_eq l' hl')
  · intro l hl a b _
    have hm : (l : Multiset K) ≠ 0 := by simpa using hl
    show meanOf ((l.map fun x => a * x + b : List K) : Multiset K) = _
    rw [← Multiset.map_coe, meanOf_affine hm]

theorem medianOf_affine (a b : K) (ha : 0 < a) (m : Multiset K) :
    medianOf (m.map fun v => a * v + b) = (medianOf m).map fun v => a * v + b := by
  unfold medianOf
  have hs : (m.map fun v => a * v + b).sort (· ≤ ·) = (m.sort (· ≤ ·)).map fun v => a * v + b :=
    (Multiset.map_sort (s := m) (f := fun v => a * v + b) (r := (· ≤ ·)) (r' := (· ≤ ·))
      (by intro x _ y _; simp [mul_le_mul_iff_right₀ ha])).symm
  simp only [hs, List.length_map, List.getElem?_map]
  split
  · rfl
  · cases (m.sort (· ≤ ·))[(m.sort (· ≤ ·)).length / 2 - 1]? with
    | none => rfl
    | some u =>
      cases (m.sort (· ≤ ·))[(m.sort (· ≤ ·)).length / 2]? with
      | none => rfl
      | some v => simp only [Option.map_some]; congr 1; ring

theorem good_median : Good (fun l : List K => (medianOf (l : Multiset K)).getD 0) := by
  have hex : ∀ l : List K, l ≠ [] → ∃ b, medianOf (l : Multiset K) = some b :=
    fun l hl => C09_median_exists _ (by simpa using hl)
  refine ⟨?_, ?_⟩
  · intro l l' hl h
    have hl' : l' ≠ [] := by
      rintro rfl
      exact hl (List.forall₂_nil_right_iff.1 h)
    obtain ⟨b, hb⟩ := hex l hl
    obtain ⟨b', hb'⟩ := hex l' hl'
    have := C40_median.mono l l' b b' h (by rw [pyodMedian_eq, hb]) (by rw [pyodMedian_eq, hb'])
    simpa [hb, hb'] using this
  · intro l hl a b ha
    obtain ⟨c, hc⟩ := hex l hl
    show (medianOf ((l.map fun x => a * x + b : List K) : Multiset K)).getD 0 = _
    rw [← Multiset.map_coe, medianOf_affine a b ha, hc]
    rfl

theorem isGreatest_of_npMax {l : List K} (hl : l ≠ []) :
    ∃ m, npMax l = some m ∧ IsGreatestOf (l : Multiset K) (some m) := by
  obtain ⟨m, h1, h2, h3⟩ := npMax_spec l hl
  exact ⟨m, h1, by simpa [IsGreatestOf] using ⟨h2, h3⟩⟩

theorem good_max : Good (fun l : List K => (npMax l).getD 0) := by
  refine ⟨?_, ?_⟩
  · intro l l' hl h
    have hl' : l' ≠ [] := by
      rintro rfl
      exact hl (List.forall₂_nil_right_iff.1 h)
    obtain ⟨m, h1, -⟩ := npMax_spec l hl
    obtain ⟨m', h1', -⟩ := npMax_spec l' hl'
    have := C40_maximum.mono l l' m m' h (by simp [pyodMaximization, h1])
      (by simp [pyodMaximization, h1'])
    simpa [h1, h1'] using this
  · intro l hl a b ha
    obtain ⟨m, h1, h2, h3⟩ := npMax_spec l hl
    obtain ⟨m', h1', h2', h3'⟩ := npMax_spec (l.map fun x => a * x + b) (by simpa using hl)
    simp only [h1, h1', Option.getD_some]
    obtain ⟨x, hx, rfl⟩ := List.mem_map.1 h2'
    refine le_antisymm ?_ (h3' _ (List.mem_map.2 ⟨m, h2, rfl⟩))
    have := mul_le_mul_of_nonneg_left (h3 x hx) ha.le
    linarith

theorem list_eq_range {β : Type*} (out : List β) (n : ℕ) (hn : out.length = n) (f : ℕ → β)
    (h : ∀ i, i < n → out[i]? = some (f i)) : out = (List.range n).map f := by
  apply List.ext_getElem?
  intro i
  by_cases hi : i < n
  · rw [h i hi, List.getElem?_map, List.getElem?_range hi]; rfl
  · rw [List.getElem?_eq_none (by omega), List.getElem?_eq_none (by simp; omega)]

end Smoothing

open Smoothing

/-- **C128.** Averaging, whole-stream and windowed. -/
theorem C128_average (w : ℕ) (hw : 1 ≤ w) :
    Smooths id (fun xs : List K =>
      ((averagePostprocessor K).fitTransform (AveragePostprocessor.new K) xs).out) ∧
    Smooths id (fun xs : List K => ((runningAveragePostprocessor K w).fitTransform
      (RunningAveragePostprocessor.new K w) xs).out) := by
  constructor
  · refine smooths id Function.injective_id good_mean part_all fun xs => ?_
    obtain ⟨out, s, h1, h2, h3⟩ := C34_average xs
    rw [h1, List.map_id]
    exact congrArg Except.ok (list_eq_range out _ h2 _ h3)
  · refine smooths id Function.injective_id good_mean (part_lastN w hw) fun xs => ?_
    obtain ⟨out, s, h1, h2, h3⟩ := C35_average w hw xs
    rw [h1, List.map_id]
    exact congrArg Except.ok (list_eq_range out _ h2 _ h3)

/-- **C128.** Maxima. -/
theorem C128_max (w : ℕ) (hw : 1 ≤ w) :
    Smooths some (fun xs : List K =>
      ((maxPostprocessor K).fitTransform (MaxPostprocessor.new K) xs).out) ∧
    Smooths some (fun xs : List K => ((runningMaxPostprocessor K w).fitTransform
      (RunningMaxPostprocessor.new K w) xs).out) := by
  have key : ∀ (l : List K) g, l ≠ [] → IsGreatestOf (l : Multiset K) (some g) →
      some g = some ((npMax l).getD 0) := by
    intro l g hl hg
    obtain ⟨m, h1, h2⟩ := isGreatest_of_npMax hl
    rw [h1, isGreatestOf_unique hg h2]
    rfl
  have hne : ∀ (xs : List K) i, i < xs.length → xs.take (i + 1) ≠ [] := by
    intro xs i hi h0
    have : (xs.take (i + 1)).length = 0 := by rw [h0]; rfl
    rw [List.length_take] at this
    omega
  constructor
  · refine smooths some (Option.some_injective _) good_max part_all fun xs => ?_
    obtain ⟨out, s, h1, h2, h3⟩ := C34_max xs
    rw [h1, List.map_map]
    refine congrArg Except.ok (list_eq_range out _ h2 _ fun i hi => ?_)
    obtain ⟨g, hg1, hg2⟩ := h3 i hi
    rw [hg1, key _ g (hne xs i hi) hg2]
    rfl
  · refine smooths some (Option.some_injective _) good_max (part_lastN w hw) fun xs => ?_
    obtain ⟨out, s, h1, h2, h3⟩ := C35_max w hw xs
    rw [h1, List.map_map]
    refine congrArg Except.ok (list_eq_range out _ h2 _ fun i hi => ?_)
    obtain ⟨g, hg1, hg2⟩ := h3 i hi
    rw [hg1, key _ g (lastN_ne_nil hw (hne xs i hi)) hg2]
    rfl

/-- **C128.** Medians. -/
theorem C128_median (w : ℕ) (hw : 1 ≤ w) :
    Smooths id (fun xs : List K =>
      ((medianPostprocessor K).fitTransform (MedianPostprocessor.new K) xs).out) ∧
    Smooths id (fun xs : List K => ((runningMedianPostprocessor K w).fitTransform
      (RunningMedianPostprocessor.new K w) xs).out) := by
  constructor
  · refine smooths id Function.injective_id good_median part_all fun xs => ?_
    obtain ⟨out, s, h1, h2, h3⟩ := C34_median xs
    rw [h1, List.map_id]
    refine congrArg Except.ok (list_eq_range out _ h2 _ fun i hi => ?_)
    obtain ⟨g, hg1, hg2⟩ := h3 i hi
    rw [hg1, hg2]
    rfl
  · refine smooths id Function.injective_id good_median (part_lastN w hw) fun xs => ?_
    obtain ⟨out, s, h1, h2, h3⟩ := C35_median w hw xs
    rw [h1, List.map_id]
    refine congrArg Except.ok (list_eq_range out _ h2 _ fun i hi => ?_)
    obtain ⟨g, hg1, hg2⟩ := h3 i hi
    rw [hg1, hg2]
    rfl

/-- Two streams, one above the other, and their smoothed versions. -/
example : ((runningMedianPostprocessor ℚ 2).fitTransform
      (RunningMedianPostprocessor.new ℚ 2) [1, 5, 2]).out = .ok [1, 3, 7 / 2] ∧
    ((runningMedianPostprocessor ℚ 2).fitTransform
      (RunningMedianPostprocessor.new ℚ 2) [2, 5, 4]).out = .ok [2, 7 / 2, 9 / 2] := by
  decide +kernel

end Pysad
