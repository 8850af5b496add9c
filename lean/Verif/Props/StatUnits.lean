import Verif.Props.Statistics
import Verif.Props.Smoothing
import Verif.Props.Mirror

/-! **C205.** Statistics of values in other units. -/

namespace Pysad

open Spec

namespace Spec

/-- The same call with the value in other units. -/
def Op.convert {α : Type*} (f : α → α) : Op α → Op α
  | .update x => .update (f x)
  | .remove x => .remove (f x)
  | .get => .get

/-- On every history of calls with the values converted by `f`, `st'` shows what `st` shows on the
history itself, with the readings converted by `φ`. -/
def Converts {σ σ' α β : Type*} (f : α → α) (φ : β → β) (st : Statistic σ α β)
    (st' : Statistic σ' α β) : Prop :=
  ∀ h : List (Op α), st'.observe st'.init (h.map (Op.convert f)) =
    (st.observe st.init h).map (Outcome.map φ)

/-- The same for the windowed statistics: after every stream, for every window size. -/
def ConvertsRunning {σ σ' α β : Type*} (f : α → α) (φ : β → β) (st : Statistic σ α β)
    (st' : Statistic σ' α β) : Prop :=
  ∀ (w : ℕ) (xs : List α),
    ((RunningStatistic.updates st' (RunningStatistic.new st' w) (xs.map f)).bind fun _ s =>
      RunningStatistic.get st' s).out =
    ((RunningStatistic.updates st (RunningStatistic.new st w) xs).bind fun _ s =>
      RunningStatistic.get st s).out.map φ

end Spec

section General
variable {σ σ' α β : Type*}

/-- Two statistics whose states are related give converted readings. -/
private theorem converts_of_sim {f : α → α} {φ : β → β} {st : Statistic σ α β}
    {st' : Statistic σ' α β} (R : σ → σ' → Prop) (h0 : R st.init st'.init)
    (hu : ∀ s s', R s s' → ∀ x, R (st.update s x) (st'.update s' (f x)))
    (hr : ∀ s s', R s s' → ∀ x, (st'.remove s' (f x)).out = (st.remove s x).out ∧
      R (st.remove s x).state (st'.remove s' (f x)).state)
    (hg : ∀ s s', R s s' → (st'.get s').out = (st.get s).out.map φ ∧
      R (st.get s).state (st'.get s').state) : Converts f φ st st' := by
  intro h
  suffices key : ∀ (h : List (Op α)) s s', R s s' →
      st'.observe s' (h.map (Op.convert f)) = (st.observe s h).map (Outcome.map φ) from
    key h _ _ h0
  intro h
  induction h with
  | nil => intros; rfl
  | cons o h ih =>
    intro s s' hR
    cases o with
    | update x =>
      simp only [List.map_cons, Op.convert, Statistic.observe, Statistic.step, Outcome.map]
      rw [ih _ _ (hu s s' hR x)]
    | remove x =>
      obtain ⟨h1, h2⟩ := hr s s' hR x
      simp only [List.map_cons, Op.convert, Statistic.observe, Statistic.step]
      cases hc : st.remove s x <;> cases hc' : st'.remove s' (f x) <;>
        rw [hc, hc'] at h1 h2 <;> simp only [Res.out, reduceCtorEq, Except.error.injEq] at h1
      · simp only [Outcome.map]; exact congrArg _ (ih _ _ h2)
      · subst h1; simp only [Outcome.map]; exact congrArg _ (ih _ _ h2)
    | get =>
      obtain ⟨h1, h2⟩ := hg s s' hR
      simp only [List.map_cons, Op.convert, Statistic.observe, Statistic.step]
      cases hc : st.get s <;> cases hc' : st'.get s' <;>
        rw [hc, hc'] at h1 h2 <;>
        simp only [Res.out, Except.map, reduceCtorEq, Except.error.injEq, Except.ok.injEq] at h1
      · subst h1; simp only [Outcome.map]; exact congrArg _ (ih _ _ h2)
      · subst h1; simp only [Outcome.map]; exact congrArg _ (ih _ _ h2)

private theorem observe_updates_get (st : Statistic σ α β) (xs : List α) (s : σ) :
    (st.observe s (xs.map Op.update ++ [.get])).getLast? =
      some (match st.get (st.updates s xs) with
        | .ok b _ => .value b
        | .err e _ => .raised e) := by
  induction xs generalizing s with
  | nil =>
    simp only [List.map_nil, List.nil_append, Statistic.observe, Statistic.step,
      Statistic.updates, List.foldl_nil]
    cases st.get s <;> rfl
  | cons x xs ih =>
    simp only [List.map_cons, List.cons_append, Statistic.observe, Statistic.step]
    rw [List.getLast?_cons, ih (st.update s x)]
    rfl

/-- The reading after a stream of updates. -/
private theorem converts_updates {f : α → α} {φ : β → β} {st : Statistic σ α β}
    {st' : Statistic σ' α β} (h : Converts f φ st st') (xs : List α) :
    (st'.get (st'.updates st'.init (xs.map f))).out
      = (st.get (st.updates st.init xs)).out.map φ := by
  have e := congrArg List.getLast? (h (xs.map Op.update ++ [.get]))
  rw [List.getLast?_map, observe_updates_get, List.map_append, List.map_map] at e
  have : xs.map (Op.convert f ∘ Op.update) = (xs.map f).map Op.update := by
    rw [List.map_map]; rfl
  rw [this, show [Op.get].map (Op.convert f) = [Op.get] from rfl, observe_updates_get] at e
  cases hc : st.get (st.updates st.init xs) <;>
    cases hc' : st'.get (st'.updates st'.init (xs.map f)) <;>
    rw [hc, hc'] at e <;> simp_all [Outcome.map, Res.out, Except.map]

private theorem converts_running {f : α → α} {φ : β → β} {st : Statistic σ α β}
    {st' : Statistic σ' α β} (h : Converts f φ st st') (hw : RunsAsWindow st)
    (hw' : RunsAsWindow st') : ConvertsRunning f φ st st' := by
  intro w xs
  obtain ⟨s, h1, -, h3⟩ := hw w xs
  obtain ⟨s', h1', -, h3'⟩ := hw' w (xs.map f)
  rw [h1, h1']
  simp only [Res.bind]
  rw [h3, h3', ← converts_updates h]
  simp [lastN, List.map_drop]

/-- Two ideal statistics of which one reads the converted values. -/
private theorem trace_convert [DecidableEq α] {f : α → α} (hf : Function.Injective f) {φ : β → β}
    {V V' : Multiset α → Except PyErr β → Prop}
    (hV : ∀ m r, V m r → V' (m.map f) (r.map φ)) {m : Multiset α} {h : List (Op α)}
    {o : List (Outcome β)} (ht : IdealTrace V m h o) :
    IdealTrace V' (m.map f) (h.map (Op.convert f)) (o.map (Outcome.map φ)) := by
  induction ht with
  | nil m => exact .nil _
  | update m x h o _ ih => exact .update _ _ _ _ (by rwa [Multiset.map_cons] at ih)
  | remove m x h o hx _ ih =>
    refine .remove _ _ _ _ (Multiset.mem_map_of_mem f hx) ?_
    rwa [Multiset.map_erase f hf] at ih
  | removeAbsent m x h o hx _ ih =>
    exact .removeAbsent _ _ _ _ (by rwa [Multiset.mem_map_of_injective hf]) ih
  | value m b h o hb _ ih => exact .value _ _ _ _ (hV _ _ hb) ih
  | fails m e h o he _ ih => exact .fails _ _ _ _ (hV _ _ he) ih

private theorem trace_unique [DecidableEq α] {V : Multiset α → Except PyErr β → Prop}
    (hV : Deterministic V) {m : Multiset α} {h : List (Op α)} {o o' : List (Outcome β)}
    (ht : IdealTrace V m h o) (ht' : IdealTrace V m h o') : o = o' := by
  induction ht generalizing o' with
  | nil m => cases ht'; rfl
  | update m x h o _ ih => cases ht' with | update _ _ _ _ h' => rw [ih h']
  | remove m x h o hx _ ih =>
    cases ht' with
    | remove _ _ _ _ _ h' => rw [ih h']
    | removeAbsent _ _ _ _ hn h' => exact absurd hx hn
  | removeAbsent m x h o hx _ ih =>
    cases ht' with
    | remove _ _ _ _ hn h' => exact absurd hn hx
    | removeAbsent _ _ _ _ _ h' => rw [ih h']
  | value m b h o hb _ ih =>
    cases ht' with
    | value _ _ _ _ hb' h' => cases hV _ _ _ hb hb'; rw [ih h']
    | fails _ _ _ _ hb' h' => cases hV _ _ _ hb hb'
  | fails m e h o hb _ ih =>
    cases ht' with
    | value _ _ _ _ hb' h' => cases hV _ _ _ hb hb'
    | fails _ _ _ _ hb' h' => cases hV _ _ _ hb hb'; rw [ih h']

private theorem converts_of_trace [DecidableEq α] {f : α → α} (hf : Function.Injective f)
    {φ : β → β} {V V' : Multiset α → Except PyErr β → Prop} {st : Statistic σ α β}
    {st' : Statistic σ' α β} (h1 : ∀ h, IdealTrace V 0 h (st.observe st.init h))
    (h2 : ∀ h, IdealTrace V' 0 h (st'.observe st'.init h)) (hd : Deterministic V')
    (hV : ∀ m r, V m r → V' (m.map f) (r.map φ)) : Converts f φ st st' := fun h =>
  trace_unique hd (h2 _) (by have := trace_convert hf hV (h1 h); rwa [Multiset.map_zero] at this)

end General

section Meters
variable {K : Type*} [Field K] [LinearOrder K] [IsStrictOrderedRing K]

omit [IsStrictOrderedRing K] [LinearOrder K] in
private theorem affine_injective {a : K} (ha : a ≠ 0) (b : K) :
    Function.Injective fun x : K => a * x + b := fun x y h => by
  simpa [ha] using h

omit [Field K] [LinearOrder K] [IsStrictOrderedRing K] in
/-- **C205**, count, on every history. -/
theorem C205_count (f : K → K) : Converts f id (countMeter K) (countMeter K) :=
  converts_of_sim (fun s s' => s = s') rfl (fun s s' h x => by rw [h]; rfl)
    (fun s s' h x => by subst h; exact ⟨rfl, rfl⟩) (fun s s' h => by subst h; exact ⟨rfl, rfl⟩)

omit [LinearOrder K] [IsStrictOrderedRing K] in
/-- **C205**, sum and sum of squares under a change of the unit, on every history. -/
theorem C205_sum (a : K) :
    Converts (fun x => a * x) (fun v => a * v) (sumMeter K) (sumMeter K) ∧
    Converts (fun x => a * x) (fun v => a ^ 2 * v) (sumSquaresMeter K) (sumSquaresMeter K) := by
  refine ⟨converts_of_sim (fun s s' => s'.sum = a * s.sum) ?_ ?_ ?_ ?_,
    converts_of_sim (fun s s' => s'.sum = a ^ 2 * s.sum) ?_ ?_ ?_ ?_⟩
  · simp [sumMeter]
  · intro s s' h x; simp only [sumMeter, h]; ring
  · intro s s' h x; exact ⟨rfl, by simp only [sumMeter, Res.state, h]; ring⟩
  · intro s s' h; exact ⟨by simp [sumMeter, Res.out, Except.map, h], h⟩
  · simp [sumSquaresMeter]
  · intro s s' h x; simp only [sumSquaresMeter, h]; ring
  · intro s s' h x; exact ⟨rfl, by simp only [sumSquaresMeter, Res.state, h]; ring⟩
  · intro s s' h; exact ⟨by simp [sumSquaresMeter, Res.out, Except.map, h], h⟩

/-- **C205**, mean: the mean of converted values is the converted mean, on every history (also
those that remove values that are not there). -/
theorem C205_average (a b : K) :
    Converts (fun x => a * x + b) (fun v => a * v + b) (averageMeter K) (averageMeter K) := by
  refine converts_of_sim
    (fun s s' => s'.sum = a * s.sum + b * (s.numItems : K) ∧ s'.numItems = s.numItems) ?_ ?_ ?_ ?_
  · simp [averageMeter]
  · rintro s s' ⟨h1, h2⟩ x
    exact ⟨by simp only [averageMeter, h1]; push_cast; ring, by simp only [averageMeter, h2]⟩
  · rintro s s' ⟨h1, h2⟩ x
    exact ⟨rfl, by simp only [averageMeter, Res.state, h1]; push_cast; ring,
      by simp only [averageMeter, Res.state, h2]⟩
  · rintro s s' ⟨h1, h2⟩
    simp only [averageMeter, h2]
    split
    · exact ⟨rfl, h1, h2⟩
    · rename_i h0
      have : (s.numItems : K) ≠ 0 := by exact_mod_cast h0
      refine ⟨?_, h1, h2⟩
      simp only [Res.out, Except.map, h1]
      congr 1
      field_simp

/-- **C205**, variance: it is multiplied by the square of the factor, whatever is added. -/
theorem C205_variance (a b : K) :
    Converts (fun x => a * x + b) (fun v => a ^ 2 * v) (varianceMeter K) (varianceMeter K) := by
  refine converts_of_sim
    (fun s s' => s'.sumMeter.sum = a * s.sumMeter.sum + b * (s.countMeter : K) ∧
      s'.sumSquaresMeter.sum = a ^ 2 * s.sumSquaresMeter.sum + 2 * a * b * s.sumMeter.sum
        + b ^ 2 * (s.countMeter : K) ∧ s'.countMeter = s.countMeter) ?_ ?_ ?_ ?_
  · simp [varianceMeter, sumMeter, sumSquaresMeter, countMeter]
  · rintro s s' ⟨h1, h2, h3⟩ x
    simp only [varianceMeter, sumMeter, sumSquaresMeter, countMeter, h1, h2, h3]
    push_cast
    exact ⟨by ring, by ring, trivial⟩
  · rintro s s' ⟨h1, h2, h3⟩ x
    refine ⟨rfl, ?_⟩
    simp only [varianceMeter, sumMeter, sumSquaresMeter, countMeter, Res.mapState, Res.bind,
      Res.state, h1, h2, h3]
    push_cast
    exact ⟨by ring, by ring, trivial⟩
  · rintro s s' ⟨h1, h2, h3⟩
    simp only [varianceMeter, h3]
    split
    · exact ⟨rfl, h1, h2, h3⟩
    · rename_i h0
      have : (s.countMeter : K) ≠ 0 := by exact_mod_cast h0
      refine ⟨?_, h1, h2, h3⟩
      simp only [Res.out, Except.map, h1, h2]
      congr 1
      field_simp
      ring

omit [Field K] [IsStrictOrderedRing K] in
/-- **C205**, maximum and minimum under a conversion that keeps the order. -/
theorem C205_extremes (f : K → K) (hf : StrictMono f) :
    Converts f (Option.map f) (maxMeter K) (maxMeter K) ∧
    Converts f (Option.map f) (minMeter K) (minMeter K) := by
  constructor
  · refine converts_of_trace hf.injective C07_max C07_max max_det ?_
    rintro m r ⟨g, hg, rfl⟩
    refine ⟨g.map f, ?_, rfl⟩
    cases g with
    | none => simp only [IsGreatestOf] at hg; subst hg; rfl
    | some g => exact ⟨Multiset.mem_map_of_mem f hg.1, fun x hx => by
        obtain ⟨y, hy, rfl⟩ := Multiset.mem_map.1 hx; exact hf.monotone (hg.2 y hy)⟩
  · refine converts_of_trace hf.injective C08_min C08_min min_det ?_
    rintro m r ⟨g, hg, rfl⟩
    refine ⟨g.map f, ?_, rfl⟩
    cases g with
    | none => simp only [IsLeastOf] at hg; subst hg; rfl
    | some g => exact ⟨Multiset.mem_map_of_mem f hg.1, fun x hx => by
        obtain ⟨y, hy, rfl⟩ := Multiset.mem_map.1 hx; exact hf.monotone (hg.2 y hy)⟩

omit [Field K] [IsStrictOrderedRing K] in
/-- **C205**, under a conversion that reverses the order the two meters exchange their roles. -/
theorem C205_extremes_reversed (f : K → K) (hf : StrictAnti f) :
    Converts f (Option.map f) (minMeter K) (maxMeter K) ∧
    Converts f (Option.map f) (maxMeter K) (minMeter K) := by
  constructor
  · refine converts_of_trace hf.injective C08_min C07_max max_det ?_
    rintro m r ⟨g, hg, rfl⟩
    refine ⟨g.map f, ?_, rfl⟩
    cases g with
    | none => simp only [IsLeastOf] at hg; subst hg; rfl
    | some g => exact ⟨Multiset.mem_map_of_mem f hg.1, fun x hx => by
        obtain ⟨y, hy, rfl⟩ := Multiset.mem_map.1 hx; exact hf.antitone (hg.2 y hy)⟩
  · refine converts_of_trace hf.injective C07_max C08_min min_det ?_
    rintro m r ⟨g, hg, rfl⟩
    refine ⟨g.map f, ?_, rfl⟩
    cases g with
    | none => simp only [IsGreatestOf] at hg; subst hg; rfl
    | some g => exact ⟨Multiset.mem_map_of_mem f hg.1, fun x hx => by
        obtain ⟨y, hy, rfl⟩ := Multiset.mem_map.1 hx; exact hf.antitone (hg.2 y hy)⟩

private theorem medianOf_convert {a : K} (ha : a ≠ 0) (b : K) (m : Multiset K) :
    medianOf (m.map fun v => a * v + b) = (medianOf m).map fun v => a * v + b := by
  rcases lt_or_gt_of_ne ha with h | h
  · have e : (m.map fun v => a * v + b) = (m.map fun v => -a * v + 0).map fun v => b - v := by
      rw [Multiset.map_map]
      exact Multiset.map_congr rfl fun v _ => by simp only [Function.comp]; ring
    rw [e, Mirror.medianOf_mirror, Smoothing.medianOf_affine _ _ (by linarith), Option.map_map]
    congr 1
    funext v
    simp only [Function.comp]
    ring
  · exact Smoothing.medianOf_affine a b h m

/-- **C205**, median: the median of converted values is the converted median, also when the
conversion reverses the order. -/
theorem C205_median (a b : K) (ha : a ≠ 0) :
    Converts (fun x => a * x + b) (fun v => a * v + b) (medianMeter K) (medianMeter K) := by
  refine converts_of_trace (affine_injective ha b) C09_median C09_median median_det ?_
  rintro m r (⟨rfl, rfl⟩ | ⟨v, hv, rfl⟩)
  · exact .inl ⟨rfl, rfl⟩
  · exact .inr ⟨_, by rw [medianOf_convert ha, hv]; rfl, rfl⟩

/-- **C205**, the windowed statistics. -/
theorem C205_running (a b : K) (ha : a ≠ 0) :
    ConvertsRunning (fun x => a * x + b) (fun v => a * v + b) (averageMeter K) (averageMeter K) ∧
    ConvertsRunning (fun x => a * x + b) (fun v => a ^ 2 * v) (varianceMeter K)
      (varianceMeter K) ∧
    ConvertsRunning (fun x => a * x + b) (fun v => a * v + b) (medianMeter K) (medianMeter K) ∧
    (0 < a → ConvertsRunning (fun x => a * x + b) (Option.map fun v => a * v + b) (maxMeter K)
        (maxMeter K) ∧
      ConvertsRunning (fun x => a * x + b) (Option.map fun v => a * v + b) (minMeter K)
        (minMeter K)) ∧
    (a < 0 → ConvertsRunning (fun x => a * x + b) (Option.map fun v => a * v + b) (minMeter K)
        (maxMeter K) ∧
      ConvertsRunning (fun x => a * x + b) (Option.map fun v => a * v + b) (maxMeter K)
        (minMeter K)) := by
  obtain ⟨-, -, -, wa, wv, wx, wn, wm⟩ := C12_running_is_windowed (K := K)
  refine ⟨converts_running (C205_average a b) wa wa, converts_running (C205_variance a b) wv wv,
    converts_running (C205_median a b ha) wm wm, fun h => ?_, fun h => ?_⟩
  · have hm : StrictMono fun x : K => a * x + b := fun x y hxy => by
      simpa using mul_lt_mul_of_pos_left hxy h
    exact ⟨converts_running (C205_extremes _ hm).1 wx wx,
      converts_running (C205_extremes _ hm).2 wn wn⟩
  · have hm : StrictAnti fun x : K => a * x + b := fun x y hxy => by
      simpa using mul_lt_mul_of_neg_left hxy h
    exact ⟨converts_running (C205_extremes_reversed _ hm).1 wn wx,
      converts_running (C205_extremes_reversed _ hm).2 wx wn⟩

end Meters

/-! ### Degrees Fahrenheit -/

example : (medianMeter ℚ).observe (medianMeter ℚ).init
      [.update 32, .update 212, .get, .remove 212, .get, .remove 7] =
    [.done, .done, .value 122, .done, .value 32, .raised .valueError] := by decide +kernel

example : (medianMeter ℚ).observe (medianMeter ℚ).init
      [.update 0, .update 100, .get, .remove 100, .get, .remove 7] =
    [.done, .done, .value 50, .done, .value 0, .raised .valueError] := by decide +kernel

/-- The sum itself has no such rule for a conversion that adds something. -/
example : ¬ Converts (fun x : ℚ => x + 1) (fun v => v + 1) (sumMeter ℚ) (sumMeter ℚ) := by
  intro h
  have := h [.update 0, .update 0, .get]
  revert this
  decide +kernel

end Pysad
