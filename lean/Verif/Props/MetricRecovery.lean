import Verif.Model.MetricInterrupt
import Verif.Props.Interrupt
import Verif.Props.RefWindowRecovery

/-! Property C184: metrics and interrupted updates. -/

namespace Pysad

open Spec Statements

section
variable {Y P K : Type*}

/-- Like all of scikit-learn's metrics, `evaluate` rejects lists of different lengths. -/
def Spec.ChecksLengths (evaluate : List Y → List P → Except PyErr K) : Prop :=
  ∀ y p, y.length ≠ p.length → evaluate y p = .error .valueError

/-- It rates every nonempty list of pairs. -/
def Spec.RatesAll (evaluate : List Y → List P → Except PyErr K) : Prop :=
  ∀ y p, y.length = p.length → y ≠ [] → ∃ v, evaluate y p = .ok v

end

namespace MetricRecovery
variable {Y P K : Type*}

/-- All stores together are `update`. -/
theorem sklearn_complete (evaluate : List Y → List P → Except PyErr K) (s : List Y × List P) (q : Y × P) :
    runStatements (sklearn q) s = ((sklearnMetric evaluate).update s q.1 q.2).state := rfl

variable [Field K]

theorem windowed_complete (evaluate : List Y → List P → Except PyErr K) (s : WindowedState (List Y × List P) K)
    (q : Y × P) : runStatements (windowed evaluate q s) s
      = (WindowedMetric.update (sklearnMetric evaluate) s q.1 q.2).state := by
  unfold windowed
  rw [RefWindowRecovery.last_stage]
  simp only [windowedStages, WindowedMetric.update, sklearnMetric, Res.mapState_ok, Res.bind_ok, List.foldl_cons]
  by_cases h0 : s.windowSize = 0
  · simp [h0]
  · simp only [if_neg h0]
    by_cases h1 : (s.step + 1) % s.windowSize = 0
    · simp only [if_pos h1]
      cases he : evaluate (s.metric.1 ++ [q.1]) (s.metric.2 ++ [q.2]) <;>
        simp [Res.ofExcept, averageMeter]
    · simp [if_neg h1]

theorem windowed_inv {evaluate : List Y → List P → Except PyErr K} {R : WindowedState (List Y × List P) K → Prop}
    (hR : ∀ s q, R s → ∀ t ∈ windowedStages evaluate s q, R t) (h : List ((Y × P) × Option ℕ)) :
    ∀ s, R s → R (afterCalls (windowed evaluate) s h) := by
  induction h with
  | nil => intro s hs; exact hs
  | cons e h ih =>
    intro s hs
    obtain ⟨q, o⟩ := e
    have key : ∀ l : List (WindowedState (List Y × List P) K), (∀ t ∈ l, t ∈ windowedStages evaluate s q) →
        R (runStatements (l.map fun t _ => t) s) := by
      intro l hl
      rw [RefWindowRecovery.last_stage]
      rcases RefWindowRecovery.foldl_last_mem l s with h1 | h1
      · rw [h1]; exact hs
      · exact hR s q hs _ (hl _ h1)
    cases o with
    | none => exact ih _ (key _ fun t ht => ht)
    | some k =>
      refine ih _ ?_
      simp only [windowed]
      rw [← List.map_take]
      exact key _ fun t ht => List.mem_of_mem_take ht

end MetricRecovery

open MetricRecovery

section
variable {Y P V : Type*}

theorem afterCalls_snoc_state {σ ι : Type*} (st : ι → σ → List (σ → σ)) (s : σ) (h later : List (ι × Option ℕ))
    (e : ι × Option ℕ) : afterCalls st s (h ++ e :: later)
      = afterCalls st (afterCalls st (afterCalls st s h) [e]) later := by
  simp [afterCalls, List.foldl_append]

/-- The list of labels is never shorter than that of the predictions, whatever is interrupted. -/
theorem sklearn_lengths (d : ℕ) (h : List ((Y × P) × Option ℕ)) : ∀ s : List Y × List P,
    s.2.length + d ≤ s.1.length →
    (afterCalls (fun q _ => sklearn q) s h).2.length + d ≤ (afterCalls (fun q _ => sklearn q) s h).1.length := by
  induction h with
  | nil => intro s hs; exact hs
  | cons e h ih =>
    intro s hs
    obtain ⟨q, o⟩ := e
    have hfull : (runStatements (sklearn q) s).2.length + d ≤ (runStatements (sklearn q) s).1.length := by
      simp [runStatements, sklearn]; omega
    match o with
    | none => exact ih _ hfull
    | some 0 => exact ih s hs
    | some 1 =>
      refine ih (s.1 ++ [q.1], s.2) ?_
      simp; omega
    | some (k + 2) =>
      have : (sklearn q : List (List Y × List P → List Y × List P)).take (k + 2) = sklearn q := by simp [sklearn]
      refine ih (runStatements ((sklearn q).take (k + 2)) s) ?_
      rw [this]
      exact hfull

/-- **C184 (a torn update).** PrecisionMetric, RecallMetric, AUROCMetric and AUPRMetric: once an `update` was
interrupted between storing the label and storing the prediction, `get` raises `ValueError` for ever,
whatever updates, complete or interrupted, follow. -/
theorem C184_metric_dead (evaluate : List Y → List P → Except PyErr V) (hc : ChecksLengths evaluate)
    (h later : List ((Y × P) × Option ℕ)) (q : Y × P) :
    ((sklearnMetric evaluate).get (afterCalls (fun q _ => sklearn q) ([], [])
      (h ++ (q, some 1) :: later))).out = .error .valueError := by
  rw [afterCalls_snoc_state]
  have h1 := sklearn_lengths 0 h (([], []) : List Y × List P) (by simp)
  set s := afterCalls (fun q _ => sklearn q) (([], []) : List Y × List P) h
  have h2 : afterCalls (fun (q : Y × P) _ => sklearn q) s [(q, some 1)] = (s.1 ++ [q.1], s.2) := rfl
  rw [h2]
  have h3 := sklearn_lengths 1 later (s.1 ++ [q.1], s.2) (by simp; omega)
  set t := afterCalls (fun (q : Y × P) _ => sklearn q) (s.1 ++ [q.1], s.2) later
  have h4 := hc t.1 t.2 (by omega)
  simp only [sklearnMetric]
  rw [h4]
  rfl

/-- **C184 (refuted)** for every metric of scikit-learn that rates all nonempty data: `get` does not answer
as if interrupted updates had happened or not. -/
theorem C184_metric_refuted (evaluate : List Y → List P → Except PyErr V) (hc : ChecksLengths evaluate)
    (hr : RatesAll evaluate) (q : Y × P) :
    ¬ AllOrNothing (fun q _ => sklearn q) (([], []) : List Y × List P)
      (fun s q => ((sklearnMetric evaluate).update s q.1 q.2).state)
      fun s => ((sklearnMetric evaluate).get s).out := by
  intro ha
  obtain ⟨l, h1, h2⟩ := ha [(q, none), (q, some 1)]
  have h3 := C184_metric_dead evaluate hc [(q, none)] [] q
  rw [List.singleton_append] at h3
  simp only at h2
  rw [h3] at h2
  have h4 := mem_readings h1
  simp only [readings, List.map_append, List.map_cons, List.map_nil, List.mem_append, List.mem_singleton] at h4
  rcases h4 with rfl | rfl
  · obtain ⟨v, hv⟩ := hr [q.1, q.1] [q.2, q.2] rfl (by simp)
    simp [sklearnMetric, Res.ofExcept, hv] at h2
  · obtain ⟨v, hv⟩ := hr [q.1] [q.2] rfl (by simp)
    simp [sklearnMetric, Res.ofExcept, hv] at h2

/-- **C184 (partial).** If no update was interrupted between its two stores, the metric has seen exactly the
pairs of the updates that were completed (or interrupted only after their last store). -/
theorem C184_metric_partial (evaluate : List Y → List P → Except PyErr V) (h : List ((Y × P) × Option ℕ))
    (hh : ∀ e ∈ h, e.2 ≠ some 1) :
    ((sklearnMetric evaluate).get (afterCalls (fun q _ => sklearn q) ([], []) h)).out
      = evaluate ((committed 2 h).map Prod.fst) ((committed 2 h).map Prod.snd) := by
  have key : ∀ (h : List ((Y × P) × Option ℕ)) (s : List Y × List P), (∀ e ∈ h, e.2 ≠ some 1) →
      afterCalls (fun q _ => sklearn q) s h
        = (s.1 ++ (committed 2 h).map Prod.fst, s.2 ++ (committed 2 h).map Prod.snd) := by
    intro h
    induction h with
    | nil => intro s _; simp [afterCalls, committed]
    | cons e h ih =>
      intro s hh
      have ih' := fun s => ih s fun e he => hh e (List.mem_cons_of_mem _ he)
      obtain ⟨q, o⟩ := e
      have hfull : runStatements (sklearn q) s = (s.1 ++ [q.1], s.2 ++ [q.2]) := rfl
      match o with
      | none =>
        refine (ih' _).trans ?_
        simp only
        rw [hfull]
        simp [committed]
      | some 0 =>
        refine (ih' _).trans ?_
        simp [committed, runStatements]
      | some 1 => exact absurd rfl (hh (q, some 1) (by simp))
      | some (k + 2) =>
        have : (sklearn q : List (List Y × List P → List Y × List P)).take (k + 2) = sklearn q := by simp [sklearn]
        refine (ih' _).trans ?_
        simp only
        rw [this, hfull]
        simp [committed]
  rw [key h _ hh]
  simp only [sklearnMetric, List.nil_append]
  cases evaluate ((committed 2 h).map Prod.fst) ((committed 2 h).map Prod.snd) <;> rfl

end

section
variable {Y P K : Type*} [Field K]

/-- What stays once the current metric is torn. -/
private def Torn (m : AverageState K) (w : ℕ) (i : Bool) (s : WindowedState (List Y × List P) K) : Prop :=
  s.metric.2.length < s.metric.1.length ∧ s.scoreMeter = m ∧ s.windowSize = w ∧ s.ignoreNonemptyLast = i

private theorem torn_stages {evaluate : List Y → List P → Except PyErr K} (hc : ChecksLengths evaluate)
    {m : AverageState K} {w : ℕ} {i : Bool} (s : WindowedState (List Y × List P) K) (q : Y × P)
    (h : Torn m w i s) : ∀ t ∈ windowedStages evaluate s q, Torn m w i t := by
  obtain ⟨h1, h2, h3, h4⟩ := h
  have he : evaluate (s.metric.1 ++ [q.1]) (s.metric.2 ++ [q.2]) = .error .valueError :=
    hc _ _ (by simp; omega)
  intro t ht
  simp only [windowedStages, he, List.mem_cons] at ht
  rcases ht with rfl | rfl | rfl | ht
  · exact ⟨h1, h2, h3, h4⟩
  · exact ⟨by simp; omega, h2, h3, h4⟩
  · exact ⟨by simpa using h1, h2, h3, h4⟩
  · split at ht
    · cases ht
    · split at ht
      · rw [List.mem_singleton] at ht
        subst ht
        exact ⟨by simpa using h1, h2, h3, h4⟩
      · cases ht

/-- The list of labels is never shorter than that of the predictions. -/
private theorem atLeast_stages {evaluate : List Y → List P → Except PyErr K} {w : ℕ} {i : Bool}
    (s : WindowedState (List Y × List P) K) (q : Y × P)
    (h : s.metric.2.length ≤ s.metric.1.length ∧ s.windowSize = w ∧ s.ignoreNonemptyLast = i) :
    ∀ t ∈ windowedStages evaluate s q,
      t.metric.2.length ≤ t.metric.1.length ∧ t.windowSize = w ∧ t.ignoreNonemptyLast = i := by
  obtain ⟨h1, h3, h4⟩ := h
  intro t ht
  simp only [windowedStages, List.mem_cons] at ht
  rcases ht with rfl | rfl | rfl | ht
  · exact ⟨h1, h3, h4⟩
  · exact ⟨by simp; omega, h3, h4⟩
  · exact ⟨by simpa using h1, h3, h4⟩
  · split at ht
    · cases ht
    · split at ht
      · rcases List.mem_cons.1 ht with rfl | ht
        · exact ⟨by simpa using h1, h3, h4⟩
        · split at ht
          · cases ht
          · simp only [List.mem_cons, List.not_mem_nil, or_false] at ht
            rcases ht with rfl | rfl | rfl
            · exact ⟨by simpa using h1, h3, h4⟩
            · exact ⟨by simpa using h1, h3, h4⟩
            · exact ⟨le_rfl, h3, h4⟩
      · cases ht

/-- **C184 (WindowedMetric).** After a single update that was interrupted between storing the label and
storing the prediction, no window is ever completed again, whatever follows: every `update` that ends
a window raises `ValueError`, the mean of the windows stays what it was, and so does the answer of
`get` (with `ignore_nonempty_last`) from then on, as if the stream had ended. -/
theorem C184_windowed_dead (evaluate : List Y → List P → Except PyErr K) (hc : ChecksLengths evaluate)
    (w : ℕ) (hw : 1 ≤ w) (i : Bool) (s0 : WindowedState (List Y × List P) K)
    (h0 : WindowedMetric.new (sklearnMetric evaluate) w i () = .ok s0)
    (h later : List ((Y × P) × Option ℕ)) (q : Y × P) :
    let s := afterCalls (windowed evaluate) s0 h
    let s' := afterCalls (windowed evaluate) s0 (h ++ (q, some 2) :: later)
    (∀ q' : Y × P, w ∣ s'.step + 1 → (WindowedMetric.update (sklearnMetric evaluate) s' q'.1 q'.2).out = .error .valueError) ∧
    s'.scoreMeter = s.scoreMeter ∧
    (i = true → s'.numWindows ≠ 1 → (WindowedMetric.get (sklearnMetric evaluate) s').out
      = ((averageMeter K).get s.scoreMeter).out) := by
  intro s s'
  have hs0 : s0 = ⟨i, w, ([], []), (averageMeter K).init, 0, 1⟩ := by
    simp only [WindowedMetric.new, sklearnMetric, Except.ok.injEq] at h0
    exact h0.symm
  have h1 := windowed_inv (evaluate := evaluate) (R := fun s => s.metric.2.length ≤ s.metric.1.length ∧
    s.windowSize = w ∧ s.ignoreNonemptyLast = i) atLeast_stages h s0 (by subst hs0; exact ⟨le_rfl, rfl, rfl⟩)
  have h2 : Torn s.scoreMeter w i s' := by
    show Torn s.scoreMeter w i (afterCalls (windowed evaluate) s0 (h ++ (q, some 2) :: later))
    rw [afterCalls_snoc_state]
    refine windowed_inv (torn_stages hc) later _ ?_
    exact ⟨by
      show s.metric.2.length < (s.metric.1 ++ [q.1]).length
      have := h1.1
      simp only [List.length_append, List.length_singleton]
      exact Nat.lt_succ_of_le this, rfl, h1.2.1, h1.2.2⟩
  obtain ⟨h3, h4, h5, h6⟩ := h2
  refine ⟨fun q' hq => ?_, h4, fun hi hn => ?_⟩
  · have he : evaluate (s'.metric.1 ++ [q'.1]) (s'.metric.2 ++ [q'.2]) = .error .valueError :=
      hc _ _ (by simp; omega)
    have hq' : (s'.step + 1) % w = 0 := Nat.mod_eq_zero_of_dvd hq
    simp only [WindowedMetric.update, sklearnMetric, Res.mapState_ok, Res.bind_ok, h5,
      if_neg (Nat.ne_of_gt hw), if_pos hq', he]
    rfl
  · subst hi
    simp only [WindowedMetric.get, if_neg hn, h6, h4, Bool.not_true, Bool.and_false, Bool.false_and,
      Bool.false_eq_true, if_false]
    cases (averageMeter K).get s.scoreMeter <;> rfl

/-! ### Recovery -/

/-- The metric at the beginning of a window. -/
private def Fresh (w : ℕ) (s : WindowedState (List Y × List P) K) : Prop :=
  s.metric = ([], []) ∧ s.windowSize = w ∧ w ∣ s.step

/-- Complete updates. -/
private abbrev run (evaluate : List Y → List P → Except PyErr K) (s : WindowedState (List Y × List P) K)
    (l : List (Y × P)) : WindowedState (List Y × List P) K :=
  afterCalls (windowed evaluate) s (l.map fun q => (q, none))

private theorem run_cons (evaluate : List Y → List P → Except PyErr K) (s : WindowedState (List Y × List P) K)
    (q : Y × P) (l : List (Y × P)) : run evaluate s (q :: l)
      = run evaluate (WindowedMetric.update (sklearnMetric evaluate) s q.1 q.2).state l := by
  rw [← windowed_complete]; rfl

private theorem run_append (evaluate : List Y → List P → Except PyErr K) (s : WindowedState (List Y × List P) K)
    (l m : List (Y × P)) : run evaluate s (l ++ m) = run evaluate (run evaluate s l) m := by
  simp [run, afterCalls, List.foldl_append]

/-- Up to the end of the current window. -/
private theorem run_window (evaluate : List Y → List P → Except PyErr K) (hr : RatesAll evaluate) {w : ℕ}
    (hw : 1 ≤ w) (l : List (Y × P)) : ∀ s : WindowedState (List Y × List P) K,
    s.metric.1.length = s.metric.2.length → s.windowSize = w → l ≠ [] → s.step % w + l.length = w →
    Fresh w (run evaluate s l) ∧ ∃ v,
      evaluate (s.metric.1 ++ l.map Prod.fst) (s.metric.2 ++ l.map Prod.snd) = .ok v ∧
      (run evaluate s l).scoreMeter = (averageMeter K).update s.scoreMeter v ∧
      (run evaluate s l).ignoreNonemptyLast = s.ignoreNonemptyLast := by
  induction l with
  | nil => intro s _ _ h; exact absurd rfl h
  | cons q l ih =>
    intro s h1 h2 _ h4
    rw [run_cons]
    simp only [List.length_cons] at h4
    by_cases hl : l = []
    · subst hl
      simp only [List.length_nil, Nat.zero_add] at h4
      have h5 : (s.step + 1) % w = 0 := by
        apply Nat.mod_eq_zero_of_dvd
        have := Nat.div_add_mod s.step w
        refine ⟨s.step / w + 1, ?_⟩
        rw [Nat.mul_add, Nat.mul_one]
        omega
      obtain ⟨v, hv⟩ := hr (s.metric.1 ++ [q.1]) (s.metric.2 ++ [q.2]) (by simp [h1]) (by simp)
      have hu : (WindowedMetric.update (sklearnMetric evaluate) s q.1 q.2).state =
          { s with step := s.step + 1, numWindows := s.numWindows + 1, metric := ([], []),
                   scoreMeter := (averageMeter K).update s.scoreMeter v } := by
        simp only [WindowedMetric.update, sklearnMetric, Res.mapState_ok, Res.bind_ok, h2,
          if_neg (Nat.ne_of_gt hw), if_pos h5, hv, Res.ofExcept, Res.state_ok]
      rw [hu]
      exact ⟨⟨rfl, h2, Nat.dvd_of_mod_eq_zero h5⟩, v, hv, rfl, rfl⟩
    · have hpos := List.length_pos_of_ne_nil hl
      have h5 : (s.step + 1) % w = s.step % w + 1 := by
        rw [Nat.add_mod, Nat.mod_eq_of_lt (a := 1) (by omega), Nat.mod_eq_of_lt (by omega)]
      have hu : (WindowedMetric.update (sklearnMetric evaluate) s q.1 q.2).state =
          { s with step := s.step + 1, metric := (s.metric.1 ++ [q.1], s.metric.2 ++ [q.2]) } := by
        simp only [WindowedMetric.update, sklearnMetric, Res.mapState_ok, Res.bind_ok, h2,
          if_neg (Nat.ne_of_gt hw), h5, if_neg (Nat.succ_ne_zero _), Res.state_ok]
      rw [hu]
      obtain ⟨i1, v, i2, i3, i4⟩ := ih { s with step := s.step + 1, metric := (s.metric.1 ++ [q.1], s.metric.2 ++ [q.2]) }
        (by simp [h1]) h2 hl (by show (s.step + 1) % w + _ = w; rw [h5]; omega)
      refine ⟨i1, v, ?_, i3, i4⟩
      simpa [List.append_assoc] using i2

private theorem even_stages {evaluate : List Y → List P → Except PyErr K} {w : ℕ}
    (s : WindowedState (List Y × List P) K) (q : Y × P)
    (h : s.metric.1.length = s.metric.2.length ∧ s.windowSize = w) (k : ℕ) (hk : k ≠ 2) :
    (runStatements ((windowed evaluate q s).take k) s).metric.1.length
      = (runStatements ((windowed evaluate q s).take k) s).metric.2.length ∧
    (runStatements ((windowed evaluate q s).take k) s).windowSize = w := by
  have key : ∀ l : List (WindowedState (List Y × List P) K), ∀ t : WindowedState (List Y × List P) K,
      (t.metric.1.length = t.metric.2.length ∧ t.windowSize = w) →
      (∀ u ∈ l, u.metric.1.length = u.metric.2.length ∧ u.windowSize = w) →
      (runStatements (l.map fun t _ => t) t).metric.1.length
        = (runStatements (l.map fun t _ => t) t).metric.2.length ∧
      (runStatements (l.map fun t _ => t) t).windowSize = w := by
    intro l t ht hl
    rw [RefWindowRecovery.last_stage]
    rcases RefWindowRecovery.foldl_last_mem l t with h1 | h1
    · rw [h1]; exact ht
    · exact hl _ h1
  match k, hk with
  | 0, _ => exact h
  | 1, _ => exact h
  | k + 3, _ =>
    simp only [windowed, windowedStages, List.map_cons, List.take_succ_cons]
    simp only [runStatements, List.foldl_cons]
    rw [← List.map_take]
    refine key _ _ (by simpa using h) ?_
    intro u hu
    have hu := List.mem_of_mem_take hu
    split at hu
    · cases hu
    · split at hu
      · rcases List.mem_cons.1 hu with rfl | hu
        · simpa using h
        · split at hu
          · cases hu
          · simp only [List.mem_cons, List.not_mem_nil, or_false] at hu
            rcases hu with rfl | rfl | rfl
            · simpa using h
            · simpa using h
            · exact ⟨rfl, h.2⟩
      · cases hu

private theorem even_history {evaluate : List Y → List P → Except PyErr K} {w : ℕ}
    (h : List ((Y × P) × Option ℕ)) : ∀ s : WindowedState (List Y × List P) K, (∀ e ∈ h, e.2 ≠ some 2) →
    (s.metric.1.length = s.metric.2.length ∧ s.windowSize = w) →
    (afterCalls (windowed evaluate) s h).metric.1.length = (afterCalls (windowed evaluate) s h).metric.2.length ∧
    (afterCalls (windowed evaluate) s h).windowSize = w := by
  induction h with
  | nil => intro s _ hs; exact hs
  | cons e h ih =>
    intro s hh hs
    obtain ⟨q, o⟩ := e
    have ih' := fun s hs => ih s (fun e he => hh e (List.mem_cons_of_mem _ he)) hs
    cases o with
    | none =>
      refine ih' _ ?_
      have := even_stages (evaluate := evaluate) s q hs ((windowed evaluate q s).length + 3) (by omega)
      rw [List.take_of_length_le (by omega)] at this
      exact this
    | some k =>
      refine ih' _ (even_stages s q hs k ?_)
      intro hk
      exact hh (q, some k) (by simp) (by simp [hk])

/-- **C184 (WindowedMetric, partial).** If no update was interrupted between those two stores, the metric
recovers: after any history of complete and interrupted updates, once the updates that complete the
current window are made, every further window of `w` updates contributes exactly the rating of its
own pairs to the mean. -/
theorem C184_windowed_partial (evaluate : List Y → List P → Except PyErr K) (hr : RatesAll evaluate)
    (w : ℕ) (hw : 1 ≤ w) (i : Bool) (s0 : WindowedState (List Y × List P) K)
    (h0 : WindowedMetric.new (sklearnMetric evaluate) w i () = .ok s0)
    (h : List ((Y × P) × Option ℕ)) (hh : ∀ e ∈ h, e.2 ≠ some 2)
    (rest : List (Y × P)) (hrest : rest ≠ [] ∧ (afterCalls (windowed evaluate) s0 h).step % w + rest.length = w)
    (windows : List (List (Y × P))) (hwin : ∀ l ∈ windows, l.length = w) :
    ∃ vs, List.Forall₂ (fun l v => evaluate (l.map Prod.fst) (l.map Prod.snd) = .ok v) windows vs ∧
      (afterCalls (windowed evaluate) s0 (h ++ ((rest ++ windows.flatten).map fun q => (q, none)))).scoreMeter =
        vs.foldl (averageMeter K).update
          (afterCalls (windowed evaluate) s0 (h ++ rest.map fun q => (q, none))).scoreMeter := by
  have hs0 : s0 = ⟨i, w, ([], []), (averageMeter K).init, 0, 1⟩ := by
    simp only [WindowedMetric.new, sklearnMetric, Except.ok.injEq] at h0
    exact h0.symm
  have h1 := even_history (evaluate := evaluate) (w := w) h s0 hh (by subst hs0; exact ⟨rfl, rfl⟩)
  rw [RefWindowRecovery.afterCalls_append, RefWindowRecovery.afterCalls_append]
  set s := afterCalls (windowed evaluate) s0 h
  obtain ⟨hf, -⟩ := run_window evaluate hr hw rest s h1.1 h1.2 hrest.1 hrest.2
  change ∃ vs : List K, _ ∧ (run evaluate s (rest ++ windows.flatten)).scoreMeter
    = vs.foldl (averageMeter K).update (run evaluate s rest).scoreMeter
  rw [run_append]
  generalize run evaluate s rest = t at hf
  clear hrest h1
  induction windows generalizing t with
  | nil => exact ⟨[], .nil, rfl⟩
  | cons l windows ih =>
    have hlw := hwin l (by simp)
    obtain ⟨hm, hws, hd⟩ := hf
    obtain ⟨g1, v, g2, g3, -⟩ := run_window evaluate hr hw l t (by simp [hm]) hws
      (by intro hl; subst hl; simp at hlw; omega) (by rw [Nat.mod_eq_zero_of_dvd hd]; omega)
    rw [hm] at g2
    obtain ⟨vs, i1, i2⟩ := ih (fun l hl => hwin l (by simp [hl])) _ g1
    refine ⟨v :: vs, .cons g2 i1, ?_⟩
    rw [List.flatten_cons, run_append, i2, g3]
    rfl

end

/-! ### The hypotheses are met -/

/-- `precision_score` with scikit-learn's check of the lengths. -/
def checkedPrecision (y p : List Bool) : Except PyErr ℚ :=
  if y.length = p.length then .ok (precisionScore y p) else .error .valueError

theorem checkedPrecision_checks : ChecksLengths checkedPrecision := fun _ _ h => if_neg h

theorem checkedPrecision_rates : RatesAll checkedPrecision := fun _ _ h _ => ⟨_, if_pos h⟩

/-- One torn update: the precision is no longer available, although two further updates were complete. -/
example : ((sklearnMetric checkedPrecision).get (afterCalls (fun q _ => sklearn q) ([], [])
    [((true, true), none), ((false, true), some 1), ((true, true), none), ((true, true), none)])).out
      = .error .valueError :=
  C184_metric_dead checkedPrecision checkedPrecision_checks [((true, true), none)] _ _

/-- An update interrupted before its first store or after its last one does no harm. -/
example : ((sklearnMetric checkedPrecision).get (afterCalls (fun q _ => sklearn q) ([], [])
    [((true, true), none), ((false, true), some 0), ((false, true), some 2)])).out
      = .ok (1 / 2) := by
  rw [C184_metric_partial _ _ (by decide)]
  have h : committed 2 [((true, true), none), ((false, true), some 0), ((false, true), some 2)]
      = [(true, true), (false, true)] := by decide +kernel
  rw [h]
  exact congrArg _ (by decide +kernel : (precisionScore [true, false] [true, true] : ℚ) = 1 / 2)

/-- Windows of one update each. After the torn update the mean stays at the first window's rating. -/
example : (afterCalls (windowed checkedPrecision) ⟨true, 1, ([], []), ⟨0, 0⟩, 0, 1⟩
    [((true, true), none), ((true, true), some 2), ((false, true), none), ((false, true), none)]).scoreMeter
      = ⟨1, 1⟩ := by decide +kernel

/-- Without a torn update: the interrupted window is merged with the next one, and the windows after it
count as they should. -/
example : (afterCalls (windowed checkedPrecision) ⟨true, 1, ([], []), ⟨0, 0⟩, 0, 1⟩
    [((true, true), none), ((true, true), some 3), ((false, true), none), ((false, true), none)]).scoreMeter
      = ⟨3 / 2, 3⟩ := by decide +kernel

end Pysad
