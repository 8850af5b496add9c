import Verif.Proofs.Running

/-! Properties C04-C14: `pysad/statistics/*.py` in exact arithmetic. -/

namespace Pysad

open Spec

section Trace
variable {K : Type*} [Field K] [LinearOrder K] [IsStrictOrderedRing K]

/-- **C04**, count: on every legal history of updates, removes and reads,
`CountMeter` behaves as a bag of values whose reading is the number of values. -/
theorem C04_count {α : Type*} [DecidableEq α] (h : List (Op α)) (hl : Legal 0 h) :
    IdealTrace CountValue 0 h ((countMeter α).observe (countMeter α).init h) :=
  count_refines.trace_legal h 0 _ count_refines.init hl

/-- **C04**, sum. -/
theorem C04_sum (h : List (Op K)) (hl : Legal 0 h) :
    IdealTrace SumValue 0 h ((sumMeter K).observe (sumMeter K).init h) :=
  sum_refines.trace_legal h 0 _ sum_refines.init hl

/-- **C04**, sum of squares. -/
theorem C04_sumSquares (h : List (Op K)) (hl : Legal 0 h) :
    IdealTrace SumSquaresValue 0 h ((sumSquaresMeter K).observe (sumSquaresMeter K).init h) :=
  sumSquares_refines.trace_legal h 0 _ sumSquares_refines.init hl

/-- **C05.** `AverageMeter` reads the mean of the live values, and raises
`ZeroDivisionError` exactly when there are none. -/
theorem C05_average (h : List (Op K)) (hl : Legal 0 h) :
    IdealTrace MeanValue 0 h ((averageMeter K).observe (averageMeter K).init h) :=
  average_refines.trace_legal h 0 _ average_refines.init hl

/-- **C06.** `VarianceMeter` reads the mean squared deviation from the mean. -/
theorem C06_variance (h : List (Op K)) (hl : Legal 0 h) :
    IdealTrace VarianceValue 0 h ((varianceMeter K).observe (varianceMeter K).init h) :=
  variance_refines.trace_legal h 0 _ variance_refines.init hl

/-- **C06**: after any legal history that leaves a value, the reading exists, is
never negative, and is zero iff all live values are equal. -/
theorem C06_variance_nonneg (h : List (Op K)) (hl : Legal 0 h) (hne : live 0 h ≠ 0) :
    ∃ v s, (varianceMeter K).get ((varianceMeter K).after (varianceMeter K).init h) = .ok v s ∧
      0 ≤ v ∧ (v = 0 ↔ ∀ x ∈ live 0 h, ∀ y ∈ live 0 h, x = y) := by
  have hR := variance_refines.after h 0 _ (variance_refines (K := K)).init hl
  have ho := variance_refines.get_out hR
  rcases ho with ⟨h0, _⟩ | ⟨_, ho⟩
  · exact absurd h0 hne
  cases hg : (varianceMeter K).get ((varianceMeter K).after (varianceMeter K).init h) with
  | err e s => rw [hg] at ho; simp at ho
  | ok v s =>
    rw [hg] at ho
    simp only [Res.out_ok, Except.ok.injEq] at ho
    refine ⟨v, s, rfl, ?_⟩
    generalize live 0 h = m at *
    have hc : (0 : K) < (m.card : K) := by exact_mod_cast Multiset.card_pos.2 hne
    have hnn : ∀ y ∈ m.map (fun x => (x - meanOf m) ^ 2), 0 ≤ y := by
      intro y hy
      obtain ⟨x, _, rfl⟩ := Multiset.mem_map.1 hy
      exact sq_nonneg _
    have hs := Multiset.sum_nonneg hnn
    rw [ho]
    refine ⟨div_nonneg hs hc.le, ?_⟩
    unfold varianceOf
    rw [div_eq_zero_iff, or_iff_left hc.ne']
    constructor
    · intro hz
      have hall : ∀ x ∈ m, x = meanOf m := by
        intro x hx
        have hle : (x - meanOf m) ^ 2 ≤ (m.map (fun x => (x - meanOf m) ^ 2)).sum :=
          Multiset.single_le_sum hnn _ (Multiset.mem_map_of_mem _ hx)
        rw [hz] at hle
        have : (x - meanOf m) ^ 2 = 0 := le_antisymm hle (sq_nonneg _)
        have := pow_eq_zero_iff (two_ne_zero) |>.1 this
        exact sub_eq_zero.1 this
      intro x hx y hy; rw [hall x hx, hall y hy]
    · intro hall
      obtain ⟨a, ha⟩ := Multiset.exists_mem_of_ne_zero hne
      have hrep : m = Multiset.replicate m.card a :=
        Multiset.eq_replicate_card.2 fun b hb => hall b hb a ha
      have hmean : meanOf m = a := by
        unfold meanOf
        conv_lhs => rw [hrep]
        rw [Multiset.sum_replicate, Multiset.card_replicate, nsmul_eq_mul]
        field_simp
      have : ∀ y ∈ m.map (fun x => (x - meanOf m) ^ 2), y = 0 := by
        intro y hy
        obtain ⟨x, hx, rfl⟩ := Multiset.mem_map.1 hy
        rw [hmean, hall x hx a ha, sub_self]; simp
      exact Multiset.sum_eq_zero this

/-- **C09.** On *every* history `MedianMeter` reads the median of the live
values, `IndexError` exactly when there are none; removing an absent value
raises `ValueError` and changes nothing. -/
theorem C09_median (h : List (Op K)) :
    IdealTrace MedianValue 0 h ((medianMeter K).observe (medianMeter K).init h) :=
  median_refines.trace median_rejects h 0 _ median_refines.init

end Trace

section Order
variable {α : Type*} [LinearOrder α]

/-- **C07.** On *every* history `MaxMeter` reads the greatest live value, `-inf`
(`none`) exactly when there is none; removing an absent value raises
`ValueError` and changes nothing. -/
theorem C07_max (h : List (Op α)) :
    IdealTrace MaxValue 0 h ((maxMeter α).observe (maxMeter α).init h) :=
  max_refines.trace max_rejects h 0 _ max_refines.init

/-- **C08.** On *every* history `MinMeter` reads the least live value. -/
theorem C08_min (h : List (Op α)) :
    IdealTrace MinValue 0 h ((minMeter α).observe (minMeter α).init h) :=
  min_refines.trace min_rejects h 0 _ min_refines.init

end Order

/-! Concrete histories, also witnessing that the hypotheses above can be met. -/

example : Legal (0 : Multiset ℚ) [.update 1, .update 2, .remove 1, .get, .update 5] := by
  simp [Legal]
example : (averageMeter ℚ).observe (averageMeter ℚ).init
    [.get, .update 1, .update 2, .get, .remove 1, .get] =
    [.raised .zeroDivision, .done, .done, .value (3/2), .done, .value 2] := by decide +kernel
example : (varianceMeter ℚ).observe (varianceMeter ℚ).init
    [.update 1, .update 3, .update 8, .get, .remove 8, .get] =
    [.done, .done, .done, .value (26/3), .done, .value 1] := by decide +kernel
example : (maxMeter ℤ).observe (maxMeter ℤ).init
    [.get, .update 1, .update 7, .update 3, .get, .remove 7, .get, .remove 9] =
    [.value none, .done, .done, .done, .value (some 7), .done, .value (some 3),
      .raised .valueError] := by decide +kernel
example : (medianMeter ℚ).observe (medianMeter ℚ).init
    [.get, .update 9, .update 1, .update 4, .get, .remove 9, .get, .remove 9] =
    [.raised .indexError, .done, .done, .done, .value 4, .done, .value (5/2),
      .raised .valueError] := by decide +kernel

/-! ### The median specification means what it says -/

section MedianSpec
variable {K : Type*} [Field K] [LinearOrder K] [IsStrictOrderedRing K]

/-- At least half of the values are at most the median and at least half are at
least the median. -/
theorem C09_median_halves (m : Multiset K) (b : K) (h : medianOf m = some b) :
    m.card ≤ 2 * (m.filter (· ≤ b)).card ∧ m.card ≤ 2 * (m.filter (b ≤ ·)).card := by
  set l := m.sort (· ≤ ·) with hl
  have hm : (l : Multiset K) = m := Multiset.sort_eq _ _
  have hsorted : l.Pairwise (· ≤ ·) := Multiset.pairwise_sort _ _
  have hmono : ∀ i j (hi : i < l.length) (hj : j < l.length), i ≤ j → l[i] ≤ l[j] := by
    intro i j hi hj hij
    rcases hij.eq_or_lt with rfl | hlt
    · exact le_rfl
    · exact (List.pairwise_iff_getElem.1 hsorted) i j hi hj hlt
  have hcard : m.card = l.length := by rw [← hm]; simp
  have hfil1 : (m.filter (· ≤ b)).card = l.countP (· ≤ b) := by
    rw [← hm, Multiset.filter_coe, Multiset.coe_card, List.countP_eq_length_filter]
  have hfil2 : (m.filter (b ≤ ·)).card = l.countP (b ≤ ·) := by
    rw [← hm, Multiset.filter_coe, Multiset.coe_card, List.countP_eq_length_filter]
  have hle : ∀ k, k ≤ l.length → (∀ i (hi : i < l.length), i < k → l[i] ≤ b) →
      k ≤ l.countP (· ≤ b) := by
    intro k hk hall
    have : (l.take k).countP (· ≤ b) = k := by
      have : (l.take k).countP (· ≤ b) = (l.take k).length := by
        rw [List.countP_eq_length]
        intro a ha
        obtain ⟨i, hi, rfl⟩ := List.getElem_of_mem ha
        have hi' : i < k ∧ i < l.length := by simpa using hi
        simpa using hall i hi'.2 hi'.1
      rw [this, List.length_take]; omega
    calc k = (l.take k).countP (· ≤ b) := this.symm
      _ ≤ l.countP (· ≤ b) := (List.take_sublist k l).countP_le
  have hge : ∀ k, k ≤ l.length → (∀ i (hi : i < l.length), k ≤ i → b ≤ l[i]) →
      l.length - k ≤ l.countP (b ≤ ·) := by
    intro k hk hall
    have : (l.drop k).countP (b ≤ ·) = l.length - k := by
      have : (l.drop k).countP (b ≤ ·) = (l.drop k).length := by
        rw [List.countP_eq_length]
        intro a ha
        obtain ⟨i, hi, rfl⟩ := List.getElem_of_mem ha
        have hi' : i < l.length - k := by simpa using hi
        rw [List.getElem_drop]
        simpa using hall (k + i) (by omega) (by omega)
      rw [this, List.length_drop]
    calc l.length - k = (l.drop k).countP (b ≤ ·) := this.symm
      _ ≤ l.countP (b ≤ ·) := (List.drop_sublist k l).countP_le
  rw [hfil1, hfil2, hcard]
  unfold medianOf at h
  simp only [← hl] at h
  split at h
  · rename_i hodd
    have hi : l.length / 2 < l.length := by omega
    rw [List.getElem?_eq_getElem hi] at h
    cases h
    have h1 := hle (l.length / 2 + 1) (by omega) (fun i hi' hik => hmono _ _ _ _ (by omega))
    have h2 := hge (l.length / 2) (by omega) (fun i hi' hik => hmono _ _ _ _ (by omega))
    omega
  · rename_i heven
    by_cases h0 : l.length = 0
    · simp [h0]
    have hi : l.length / 2 < l.length := by omega
    have hi' : l.length / 2 - 1 < l.length := by omega
    rw [List.getElem?_eq_getElem hi, List.getElem?_eq_getElem hi'] at h
    simp only [Option.some.injEq] at h
    have hab := hmono _ _ hi' hi (by omega)
    have hb1 : l[l.length / 2 - 1] ≤ b := by rw [← h]; linarith
    have hb2 : b ≤ l[l.length / 2] := by rw [← h]; linarith
    have h1 := hle (l.length / 2) (by omega)
      (fun i hi' hik => (hmono _ _ _ _ (by omega)).trans hb1)
    have h2 := hge (l.length / 2) (by omega)
      (fun i hi' hik => hb2.trans (hmono _ _ _ _ (by omega)))
    omega

/-- The median exists for every nonempty bag. -/
theorem C09_median_exists (m : Multiset K) (h : m ≠ 0) : ∃ b, medianOf m = some b := by
  set l := m.sort (· ≤ ·) with hl
  have hm : (l : Multiset K) = m := Multiset.sort_eq _ _
  have hlen : 0 < l.length := by
    rw [List.length_pos_iff]; rintro h0; rw [h0] at hm; exact h hm.symm
  unfold medianOf
  simp only [← hl]
  split
  · exact ⟨_, List.getElem?_eq_getElem (by omega)⟩
  · rw [List.getElem?_eq_getElem (show l.length / 2 < l.length by omega),
      List.getElem?_eq_getElem (show l.length / 2 - 1 < l.length by omega)]
    exact ⟨_, rfl⟩

end MedianSpec

/-! ### C10: `remove` undoes `update` -/

/-- `update(x)` followed by `remove(x)` succeeds and leaves the reading as it
was, after every history of updates and legal removes. -/
def RemoveUndoesUpdate {σ α β : Type*} [DecidableEq α] (st : Statistic σ α β) : Prop :=
  ∀ (h : List (Op α)), Legal 0 h → ∀ x : α,
    ∃ s', st.remove (st.update (st.after st.init h) x) x = .ok () s' ∧
      (st.get s').out = (st.get (st.after st.init h)).out

theorem Refines.removeUndoes {σ α β : Type*} [DecidableEq α] {st : Statistic σ α β}
    {V : Multiset α → Except PyErr β → Prop} {R : Multiset α → σ → Prop}
    (hr : Refines st V R) (hV : Deterministic V) : RemoveUndoesUpdate st := by
  intro h hl x
  have hR := hr.after h 0 _ hr.init hl
  obtain ⟨s', he, hR'⟩ := hr.remove (hr.update hR x) x (by simp)
  rw [Multiset.erase_cons_head] at hR'
  exact ⟨s', he, hr.get_det hV hR' hR⟩

/-- **C10.** For every shipped meter, `remove(x)` after `update(x)` restores the
reading. -/
theorem C10_remove_undoes_update {K : Type*} [Field K] [LinearOrder K] [IsStrictOrderedRing K] :
    RemoveUndoesUpdate (countMeter K) ∧ RemoveUndoesUpdate (sumMeter K) ∧
    RemoveUndoesUpdate (sumSquaresMeter K) ∧ RemoveUndoesUpdate (averageMeter K) ∧
    RemoveUndoesUpdate (varianceMeter K) ∧ RemoveUndoesUpdate (maxMeter K) ∧
    RemoveUndoesUpdate (minMeter K) ∧ RemoveUndoesUpdate (medianMeter K) :=
  ⟨count_refines.removeUndoes (reads_det _), sum_refines.removeUndoes (reads_det _),
   sumSquares_refines.removeUndoes (reads_det _), average_refines.removeUndoes (readsNonempty_det _ _),
   variance_refines.removeUndoes (readsNonempty_det _ _), max_refines.removeUndoes max_det,
   min_refines.removeUndoes min_det, median_refines.removeUndoes median_det⟩

/-! ### C11: arrival order is irrelevant -/

/-- Feeding the same values in another order gives the same reading. -/
def OrderIrrelevant {σ α β : Type*} (st : Statistic σ α β) : Prop :=
  ∀ xs ys : List α, xs.Perm ys →
    (st.get (st.updates st.init xs)).out = (st.get (st.updates st.init ys)).out

theorem Refines.orderIrrelevant {σ α β : Type*} [DecidableEq α] {st : Statistic σ α β}
    {V : Multiset α → Except PyErr β → Prop} {R : Multiset α → σ → Prop}
    (hr : Refines st V R) (hV : Deterministic V) : OrderIrrelevant st := by
  intro xs ys h
  have h1 := hr.updates xs 0 _ hr.init
  have h2 := hr.updates ys 0 _ hr.init
  rw [Multiset.coe_eq_coe.2 h] at h1
  exact hr.get_det hV h1 h2

/-- **C11.** -/
theorem C11_order_irrelevant {K : Type*} [Field K] [LinearOrder K] [IsStrictOrderedRing K] :
    OrderIrrelevant (countMeter K) ∧ OrderIrrelevant (sumMeter K) ∧
    OrderIrrelevant (sumSquaresMeter K) ∧ OrderIrrelevant (averageMeter K) ∧
    OrderIrrelevant (varianceMeter K) ∧ OrderIrrelevant (maxMeter K) ∧
    OrderIrrelevant (minMeter K) ∧ OrderIrrelevant (medianMeter K) :=
  ⟨count_refines.orderIrrelevant (reads_det _), sum_refines.orderIrrelevant (reads_det _),
   sumSquares_refines.orderIrrelevant (reads_det _),
   average_refines.orderIrrelevant (readsNonempty_det _ _),
   variance_refines.orderIrrelevant (readsNonempty_det _ _), max_refines.orderIrrelevant max_det,
   min_refines.orderIrrelevant min_det, median_refines.orderIrrelevant median_det⟩

/-! ### C12: `RunningStatistic` -/

/-- After any stream, the windowed statistic never raised, stores exactly the
last `w` values, and reads what a fresh statistic fed with just these reads. -/
def RunsAsWindow {σ α β : Type*} (st : Statistic σ α β) : Prop :=
  ∀ (w : ℕ) (xs : List α), ∃ s,
    RunningStatistic.updates st (RunningStatistic.new st w) xs = .ok () s ∧
    s.window = lastN w xs ∧
    (RunningStatistic.get st s).out = (st.get (st.updates st.init (lastN w xs))).out

theorem Refines.runsAsWindow {σ α β : Type*} [DecidableEq α] {st : Statistic σ α β}
    {V : Multiset α → Except PyErr β → Prop} {R : Multiset α → σ → Prop}
    (hr : Refines st V R) (hV : Deterministic V) : RunsAsWindow st := by
  intro w xs
  obtain ⟨s, h1, _, h2, h3⟩ := hr.running w xs
  refine ⟨s, h1, h2, ?_⟩
  have h4 := hr.updates (lastN w xs) 0 _ hr.init
  rw [zero_add] at h4
  rw [← hr.get_det hV h3 h4]
  unfold RunningStatistic.get
  cases st.get s.statistic <;> rfl

/-- **C12.** -/
theorem C12_running_is_windowed {K : Type*} [Field K] [LinearOrder K] [IsStrictOrderedRing K] :
    RunsAsWindow (countMeter K) ∧ RunsAsWindow (sumMeter K) ∧
    RunsAsWindow (sumSquaresMeter K) ∧ RunsAsWindow (averageMeter K) ∧
    RunsAsWindow (varianceMeter K) ∧ RunsAsWindow (maxMeter K) ∧
    RunsAsWindow (minMeter K) ∧ RunsAsWindow (medianMeter K) :=
  ⟨count_refines.runsAsWindow (reads_det _), sum_refines.runsAsWindow (reads_det _),
   sumSquares_refines.runsAsWindow (reads_det _),
   average_refines.runsAsWindow (readsNonempty_det _ _),
   variance_refines.runsAsWindow (readsNonempty_det _ _), max_refines.runsAsWindow max_det,
   min_refines.runsAsWindow min_det, median_refines.runsAsWindow median_det⟩

example : ((RunningStatistic.updates (medianMeter ℚ) (RunningStatistic.new (medianMeter ℚ) 3)
      [100, 5, 1, 2]).bind fun _ s => RunningStatistic.get (medianMeter ℚ) s).out = .ok 2 := by
  decide +kernel

/-! ### C13: `AbsStatistic` -/

/-- Apply a function to the value of an outcome. -/
def Spec.Outcome.map {β : Type*} (f : β → β) : Outcome β → Outcome β
  | .value b => .value (f b)
  | .done => .done
  | .raised e => .raised e

/-- **C13.** On every history `AbsStatistic(M)` shows what `M` shows, with
absolute values; in particular it raises exactly when `M` does. -/
theorem C13_abs {σ α K : Type*} [Lattice K] [AddGroup K] (st : Statistic σ α K) (s : σ)
    (h : List (Op α)) :
    (absStatistic (fun x => |x|) st).observe s h =
      (st.observe s h).map (Outcome.map fun x => |x|) := by
  induction h generalizing s with
  | nil => rfl
  | cons o h ih =>
    cases o with
    | update x =>
      simp only [Statistic.observe, Statistic.step, List.map_cons, Outcome.map, absStatistic]
      exact congrArg _ (ih _)
    | remove x =>
      simp only [Statistic.observe, Statistic.step, List.map_cons, absStatistic]
      cases st.remove s x with
      | ok b s' => exact congrArg _ (ih s')
      | err e s' => exact congrArg _ (ih s')
    | get =>
      simp only [Statistic.observe, Statistic.step, List.map_cons, absStatistic]
      cases st.get s with
      | ok b s' => exact congrArg _ (ih s')
      | err e s' => exact congrArg _ (ih s')

example : (absStatistic (fun x => |x|) (averageMeter ℚ)).observe (averageMeter ℚ).init
    [.get, .update (-1), .update (-2), .get] =
    [.raised .zeroDivision, .done, .done, .value (3/2)] := by decide +kernel

/-! ### C14: reading does not disturb -/

/-- The history without its reads. -/
def Spec.withoutReads {α : Type*} (h : List (Op α)) : List (Op α) :=
  h.filter fun o => match o with
    | .get => false
    | _ => true

/-- Whatever is observed in the continuation `h₂` of a history `h₁` is observed
as well if all reads of `h₁` are left out. -/
def ReadsHarmless {σ α β : Type*} (st : Statistic σ α β) : Prop :=
  ∀ h₁ h₂ : List (Op α),
    st.observe (st.after st.init h₁) h₂ = st.observe (st.after st.init (withoutReads h₁)) h₂

theorem live_withoutReads {α : Type*} [DecidableEq α] (m : Multiset α) (h : List (Op α)) :
    live m (withoutReads h) = live m h := by
  induction h generalizing m with
  | nil => rfl
  | cons o h ih => cases o <;> simpa [withoutReads, live] using ih _

theorem Refines.readsHarmless {σ α β : Type*} [DecidableEq α] {st : Statistic σ α β}
    {V : Multiset α → Except PyErr β → Prop} {R : Multiset α → σ → Prop}
    (hr : Refines st V R) (hc : RejectsAbsent st R) (hV : Deterministic V) : ReadsHarmless st := by
  intro h₁ h₂
  have r1 := hr.after_strict hc h₁ 0 _ hr.init
  have r2 := hr.after_strict hc (withoutReads h₁) 0 _ hr.init
  rw [live_withoutReads] at r2
  exact IdealTrace.det hV (hr.trace hc h₂ _ _ r1) (hr.trace hc h₂ _ _ r2)

theorem readsHarmless_of_pure {σ α β : Type*} {st : Statistic σ α β}
    (hg : ∀ s, (st.get s).state = s) : ReadsHarmless st := by
  have key : ∀ (h : List (Op α)) (s : σ), st.after s h = st.after s (withoutReads h) := by
    intro h
    induction h with
    | nil => intro s; rfl
    | cons o h ih =>
      intro s
      cases o with
      | update x => exact ih _
      | remove x =>
        have e : withoutReads (.remove x :: h) = .remove x :: withoutReads h := rfl
        rw [e]; exact ih _
      | get =>
        have e : withoutReads (.get :: h) = withoutReads h := rfl
        rw [e, ← ih]
        have h' := hg s
        cases hq : st.get s with
        | ok b s' => rw [hq] at h'; simp only [Statistic.after, Statistic.step, hq]
                     simp only [Res.state_ok] at h'; rw [h']
        | err b s' => rw [hq] at h'; simp only [Statistic.after, Statistic.step, hq]
                      simp only [Res.state_err] at h'; rw [h']
  intro h₁ h₂
  rw [key]

/-- **C14.** -/
theorem C14_reads_harmless {K : Type*} [Field K] [LinearOrder K] [IsStrictOrderedRing K] :
    ReadsHarmless (countMeter K) ∧ ReadsHarmless (sumMeter K) ∧
    ReadsHarmless (sumSquaresMeter K) ∧ ReadsHarmless (averageMeter K) ∧
    ReadsHarmless (varianceMeter K) ∧ ReadsHarmless (maxMeter K) ∧
    ReadsHarmless (minMeter K) ∧ ReadsHarmless (medianMeter K) :=
  ⟨readsHarmless_of_pure fun _ => rfl, readsHarmless_of_pure fun _ => rfl,
   readsHarmless_of_pure fun _ => rfl,
   readsHarmless_of_pure fun s => by simp only [averageMeter]; split <;> rfl,
   readsHarmless_of_pure fun s => by simp only [varianceMeter]; split <;> rfl,
   max_refines.readsHarmless max_rejects max_det, min_refines.readsHarmless min_rejects min_det,
   median_refines.readsHarmless median_rejects median_det⟩

end Pysad
