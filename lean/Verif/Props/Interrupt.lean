import Verif.Model.Interrupt
import Verif.Model.Calibration
import Verif.Model.SimpleModels
import Verif.Spec.Basic

/-! Property C173: an interrupted update is either done or not done. -/

namespace Pysad

namespace Spec

/-- What an object is after a history of calls of which some were interrupted: `(x, none)` is a complete
call, `(x, some k)` one that stopped after `k` of the statements it executes. -/
def afterCalls {σ ι : Type*} (statements : ι → σ → List (σ → σ)) (s : σ) (h : List (ι × Option ℕ)) : σ :=
  h.foldl (fun s e => match e.2 with
    | none => runStatements (statements e.1 s) s
    | some k => runStatements ((statements e.1 s).take k) s) s

/-- Ways to read a history with interruptions as one without: complete calls took place, each
interrupted one either did or did not. -/
inductive Reading {ι : Type*} : List (ι × Option ℕ) → List ι → Prop
  | nil : Reading [] []
  | done {x h l} : Reading h l → Reading ((x, none) :: h) (x :: l)
  | took {x k h l} : Reading h l → Reading ((x, some k) :: h) (x :: l)
  | lost {x k h l} : Reading h l → Reading ((x, some k) :: h) l

/-- After every history, whatever was interrupted, the object answers like one to which every
interrupted call either happened or did not. -/
def AllOrNothing {σ ι β : Type*} (statements : ι → σ → List (σ → σ)) (s : σ) (call : σ → ι → σ) (ask : σ → β) :
    Prop :=
  ∀ h : List (ι × Option ℕ), ∃ l, Reading h l ∧ ask (afterCalls statements s h) = ask (l.foldl call s)

/-- The calls of a history that count if a call counts from its `c`-th statement on. -/
def committed {ι : Type*} (c : ℕ) (h : List (ι × Option ℕ)) : List ι :=
  h.filterMap fun e => match e.2 with
    | none => some e.1
    | some k => if c ≤ k then some e.1 else none

end Spec

open Spec

section
variable {σ ι β : Type*}

theorem committed_reading (c : ℕ) (h : List (ι × Option ℕ)) : Reading h (committed c h) := by
  induction h with
  | nil => exact .nil
  | cons e h ih =>
    obtain ⟨x, o⟩ := e
    cases o with
    | none => exact .done ih
    | some k =>
      unfold committed at ih ⊢
      by_cases hk : c ≤ k
      · simpa [List.filterMap_cons, hk] using Reading.took ih
      · simpa [List.filterMap_cons, hk] using Reading.lost ih

/-- If a relation between the states of the interrupted and the uninterrupted object survives complete
calls, calls stopped before the first statement and calls stopped after it, the first statement
decides. -/
private theorem commits_at_one {statements : ι → σ → List (σ → σ)} {call : σ → ι → σ} {ask : σ → β}
    (R : σ → σ → Prop) (hask : ∀ s t, R s t → ask s = ask t)
    (hfull : ∀ s t x, R s t → R (runStatements (statements x s) s) (call t x))
    (hcut : ∀ s t x k, 1 ≤ k → R s t → R (runStatements ((statements x s).take k) s) (call t x))
    (s : σ) (hs : R s s) (h : List (ι × Option ℕ)) :
    ask (afterCalls statements s h) = ask ((committed 1 h).foldl call s) := by
  apply hask
  suffices ∀ (h : List (ι × Option ℕ)) (s t : σ), R s t →
      R (afterCalls statements s h) ((committed 1 h).foldl call t) from this h s s hs
  intro h
  induction h with
  | nil => intro s t hst; exact hst
  | cons e h ih =>
    intro s t hst
    obtain ⟨x, o⟩ := e
    cases o with
    | none => exact ih _ _ (hfull s t x hst)
    | some k =>
      by_cases hk : 1 ≤ k
      · have : committed 1 ((x, some k) :: h) = x :: committed 1 h := by
          simp [committed, hk]
        rw [this]
        exact ih _ _ (hcut s t x k hk hst)
      · have hk0 : k = 0 := by omega
        subst hk0
        exact ih _ _ hst

end

/-- A call on a statistic. A `remove` that raises leaves the state that the exception left. -/
def Statistic.call {σ α β : Type*} (st : Statistic σ α β) (s : σ) : MeterCall α → σ
  | .update x => st.update s x
  | .remove x => (st.remove s x).state

/-! ### The statements are those of the model -/

section
variable {K : Type*} [Field K] [LinearOrder K]

/-- Running all statements is the call as modelled elsewhere. -/
theorem statements_complete (s : AverageState K) (v : VarianceState K) (e : ExtremeState K)
    (m : MedianState K) (w : Window K) (u : UnlimitedWindow K) (n : ℤ) (x : K) (c : MeterCall K) :
    runStatements (Statements.count c) n = (countMeter K).call n c ∧
    runStatements (Statements.sum c) s = (sumMeter K).call s c ∧
    runStatements (Statements.sum c) s = (averageMeter K).call s c ∧
    runStatements (Statements.sumSquares c) s = (sumSquaresMeter K).call s c ∧
    runStatements (Statements.variance x) v = (varianceMeter K).update v x ∧
    runStatements (Statements.maximum x) e = (maxMeter K).update e x ∧
    runStatements (Statements.maximumCalls c e) e = (maxMeter K).call e c ∧
    runStatements (Statements.minimum x) e = (minMeter K).update e x ∧
    runStatements (Statements.median x) m = (medianMeter K).update m x ∧
    runStatements (Statements.window x) w = w.update x ∧
    runStatements (Statements.unlimited x) u = u.update x := by
  refine ⟨?_, ?_, ?_, ?_, rfl, ?_, ?_, ?_, rfl, ?_, rfl⟩
  · cases c <;> rfl
  · cases c <;> rfl
  · cases c <;> rfl
  · cases c <;> rfl
  · rfl
  · cases c with
    | update x => rfl
    | remove x =>
      simp only [Statements.maximumCalls, Statistic.call, maxMeter]
      cases pyRemove e.lst x with
      | error _ => rfl
      | ok lst => cases lst <;> simp [runStatements, Res.state, npMax]
  · rfl
  · simp only [runStatements, Statements.window, List.foldl, Window.update]

omit [LinearOrder K] in
theorem runningAverage_complete (s : RunningState (AverageState K) K) (x : K) :
    RunningStatistic.update (averageMeter K) s x = .ok () (runStatements (Statements.runningAverage x) s) := by
  obtain ⟨w, st, l⟩ := s
  unfold RunningStatistic.update
  cases l with
  | nil =>
    by_cases h : w < 1
    · simp [runStatements, Statements.runningAverage, Statements.sum, averageMeter, h, Res.mapState, Res.bind]
    · simp [runStatements, Statements.runningAverage, Statements.sum, averageMeter, h]
  | cons a l =>
    by_cases h : w < l.length + 1 + 1
    · simp [runStatements, Statements.runningAverage, Statements.sum, averageMeter, h, Res.mapState, Res.bind]
    · simp [runStatements, Statements.runningAverage, Statements.sum, averageMeter, h]

/-! ### Objects with all-or-nothing updates -/

omit [LinearOrder K] in
/-- **C173.** CountMeter, SumMeter and SumSquaresMeter: every `update` and `remove` counts as soon as its
first statement has been executed, and not before. -/
theorem C173_sums (h : List (MeterCall K × Option ℕ)) :
    ((countMeter K).get (afterCalls (fun c _ => Statements.count c) (countMeter K).init h)).out =
      ((countMeter K).get ((committed 1 h).foldl (countMeter K).call (countMeter K).init)).out ∧
    ((sumMeter K).get (afterCalls (fun c _ => Statements.sum c) (sumMeter K).init h)).out =
      ((sumMeter K).get ((committed 1 h).foldl (sumMeter K).call (sumMeter K).init)).out ∧
    ((sumSquaresMeter K).get (afterCalls (fun c _ => Statements.sumSquares c) (sumSquaresMeter K).init h)).out =
      ((sumSquaresMeter K).get ((committed 1 h).foldl (sumSquaresMeter K).call (sumSquaresMeter K).init)).out := by
  refine ⟨?_, ?_, ?_⟩
  · refine commits_at_one (ask := fun s => ((countMeter K).get s).out) (fun s t => s = t)
      (by rintro s _ rfl; rfl) ?_ ?_ _ rfl h
    · rintro s _ x rfl; cases x <;> rfl
    · rintro s _ x k hk rfl
      obtain ⟨k, rfl⟩ : ∃ j, k = j + 1 := ⟨k - 1, by omega⟩
      cases x <;> simp [Statements.count, runStatements, Statistic.call, countMeter, Res.state]
  · refine commits_at_one (ask := fun s => ((sumMeter K).get s).out) (fun s t => s.sum = t.sum)
      (by intro s t h; simp [sumMeter, Res.out, h]) ?_ ?_ _ rfl h
    · intro s t x hst
      cases x <;> simp [Statements.sum, runStatements, Statistic.call, sumMeter, Res.state, hst]
    · intro s t x k hk hst
      obtain ⟨k, rfl⟩ : ∃ j, k = j + 1 := ⟨k - 1, by omega⟩
      cases x <;> cases k <;>
        simp [Statements.sum, runStatements, Statistic.call, sumMeter, Res.state, hst]
  · refine commits_at_one (ask := fun s => ((sumSquaresMeter K).get s).out) (fun s t => s.sum = t.sum)
      (by intro s t h; simp [sumSquaresMeter, Res.out, h]) ?_ ?_ _ rfl h
    · intro s t x hst
      cases x <;> simp [Statements.sumSquares, runStatements, Statistic.call, sumSquaresMeter, Res.state, hst]
    · intro s t x k hk hst
      obtain ⟨k, rfl⟩ : ∃ j, k = j + 1 := ⟨k - 1, by omega⟩
      cases x <;> cases k <;>
        simp [Statements.sumSquares, runStatements, Statistic.call, sumSquaresMeter, Res.state, hst]

omit [Field K] in
/-- **C173.** MaxMeter and MinMeter as long as nothing is removed (so MaxPostprocessor): the same. -/
theorem C173_extremes (h : List (K × Option ℕ)) :
    ((maxMeter K).get (afterCalls (fun x _ => Statements.maximum x) (maxMeter K).init h)).out =
      ((maxMeter K).get ((maxMeter K).updates (maxMeter K).init (committed 1 h))).out ∧
    ((minMeter K).get (afterCalls (fun c _ => Statements.minimum c) (minMeter K).init h)).out =
      ((minMeter K).get ((minMeter K).updates (minMeter K).init (committed 1 h))).out := by
  constructor
  · refine commits_at_one (ask := fun s => ((maxMeter K).get s).out) (fun s t => s.ext = t.ext)
      (by intro s t h; simp [maxMeter, Res.out, h]) ?_ ?_ _ rfl h
    · intro s t x hst
      simp only [Statements.maximum, runStatements, maxMeter, hst, List.foldl]
      cases t.ext <;> rfl
    · intro s t x k hk hst
      obtain ⟨k, rfl⟩ : ∃ j, k = j + 1 := ⟨k - 1, by omega⟩
      cases k <;> simp only [Statements.maximum, runStatements, maxMeter, hst, List.take_succ_cons, List.take_zero,
        List.take_nil, List.foldl] <;> cases t.ext <;> rfl
  · refine commits_at_one (ask := fun s => ((minMeter K).get s).out) (fun s t => s.ext = t.ext)
      (by intro s t h; simp [minMeter, Res.out, h]) ?_ ?_ _ rfl h
    · intro s t x hst
      simp only [Statements.minimum, runStatements, minMeter, hst, List.foldl]
      cases t.ext <;> rfl
    · intro s t x k hk hst
      obtain ⟨k, rfl⟩ : ∃ j, k = j + 1 := ⟨k - 1, by omega⟩
      cases k <;> simp only [Statements.minimum, runStatements, minMeter, hst, List.take_succ_cons, List.take_zero,
        List.take_nil, List.foldl] <;> cases t.ext <;> rfl

end

/-- **C173.** UnlimitedWindow, and so ConformalProbabilityCalibrator(windowed=False): the same. -/
theorem C173_unlimited {α : Type*} (h : List (α × Option ℕ)) :
    (afterCalls (fun c _ => Statements.unlimited c) UnlimitedWindow.new h).get =
      (UnlimitedWindow.new.updates (committed 1 h)).get := by
  refine commits_at_one (ask := UnlimitedWindow.get) (fun s t => s = t) (by rintro s _ rfl; rfl) ?_ ?_ _ rfl h
  · rintro s _ x rfl; rfl
  · rintro s _ x k hk rfl
    obtain ⟨k, rfl⟩ : ∃ j, k = j + 1 := ⟨k - 1, by omega⟩
    simp [Statements.unlimited, runStatements, UnlimitedWindow.update]

/-! ### Objects without -/

/-- The claim of **C173** for a statistic of rationals that is only updated. -/
def C173_statement {σ β : Type*} (st : Statistic σ ℚ β) (statements : ℚ → σ → List (σ → σ)) : Prop :=
  AllOrNothing statements st.init st.update fun s => (st.get s).out

/-- Every reading of a history. -/
def readings {ι : Type*} : List (ι × Option ℕ) → List (List ι)
  | [] => [[]]
  | (x, none) :: h => (readings h).map (x :: ·)
  | (x, some _) :: h => (readings h).map (x :: ·) ++ readings h

theorem mem_readings {ι : Type*} {h : List (ι × Option ℕ)} {l : List ι} (hr : Reading h l) :
    l ∈ readings h := by
  induction hr with
  | nil => simp [readings]
  | done _ ih => simpa [readings] using ih
  | took _ ih => simp [readings, ih]
  | lost _ ih => simp [readings, ih]

private theorem refute {σ ι β : Type*} [DecidableEq β] {statements : ι → σ → List (σ → σ)} {s : σ}
    {call : σ → ι → σ} {ask : σ → β} (h : List (ι × Option ℕ))
    (hr : ∀ l ∈ readings h, ask (afterCalls statements s h) ≠ ask (l.foldl call s)) :
    ¬ AllOrNothing statements s call ask := by
  intro ha
  obtain ⟨l, h1, h2⟩ := ha h
  exact hr l (mem_readings h1) h2

/-- **C173 is false** for AverageMeter: the mean of 1 and an interrupted 3 is 4. -/
theorem C173_average_refuted : ¬ C173_statement (averageMeter ℚ) (fun x _ => Statements.sum (.update x)) :=
  refute [(1, none), (3, some 1)] (by decide +kernel)

/-- **C173 is false** for VarianceMeter. -/
theorem C173_variance_refuted : ¬ C173_statement (varianceMeter ℚ) (fun c _ => Statements.variance c) :=
  refute [(1, none), (3, some 1)] (by decide +kernel)

/-- **C173 is false** for MedianMeter, also long after the interruption. -/
theorem C173_median_refuted : ¬ C173_statement (medianMeter ℚ) (fun c _ => Statements.median c) :=
  refute [(1, none), (2, some 1), (5, none)] (by decide +kernel)

/-- **C173 is false** for MaxMeter with `remove`: a maximum whose storing was interrupted stays, and
removing it raises. -/
theorem C173_maximum_refuted :
    ¬ AllOrNothing Statements.maximumCalls (maxMeter ℚ).init (maxMeter ℚ).call fun s => ((maxMeter ℚ).get s).out :=
  refute [(.update 1, none), (.update 5, some 1), (.remove 5, none)] (by decide +kernel)

/-- **C173 is false** for Window. -/
theorem C173_window_refuted : ¬ AllOrNothing (fun c _ => Statements.window c) (Window.new 2 : Window ℚ) Window.update Window.get :=
  refute [(1, none), (2, none), (3, some 1), (4, none)] (by decide +kernel)

/-- **C173 is false** for RunningStatistic. -/
theorem C173_running_refuted :
    ¬ AllOrNothing (fun x _ => Statements.runningAverage x) (RunningStatistic.new (averageMeter ℚ) 2)
      (fun s x => (RunningStatistic.update (averageMeter ℚ) s x).state)
      fun s => (RunningStatistic.get (averageMeter ℚ) s).out :=
  refute [(1, none), (2, some 1), (4, none), (5, none)] (by decide +kernel)

/-- `ExactStorm.fit_partial`, `pysad/models/exact_storm.py` l.31, statement by statement. -/
def Statements.storm {α K : Type*} (x : α) : List (StormState α K → StormState α K) :=
  (Statements.window x).map fun f s => { s with window := f s.window }

/-- **C173 is false** for ExactStorm: the window stays longer by one instance for ever. -/
theorem C173_storm_refuted :
    ¬ AllOrNothing (fun x _ => Statements.storm x) (StormState.new 2 1 : StormState ℚ ℚ)
      (fun s x => ((exactStorm (β := Unit) (fun a b : ℚ => |a - b|)).fitPartial s x none).state)
      fun s => ((exactStorm (β := Unit) (fun a b : ℚ => |a - b|)).scorePartial s 0).out :=
  refute [(0, none), (9, none), (0, some 1), (5, none)] (by decide +kernel)

/-! ### What can be relied on -/

/-- How many calls of a history were interrupted. -/
def Spec.interruptions {ι : Type*} (h : List (ι × Option ℕ)) : ℕ := h.countP fun e => e.2.isSome

/-- **C173**, Window (and so ExactStorm and the windowed ConformalProbabilityCalibrator), as far as it
holds: the contents are always the most recent of the values that were stored, no fewer than the window
size allows, and at most one more for every interruption.
Missing: exactly the window size (`C173_window_refuted`). -/
theorem C173_window_partial {α : Type*} (w : ℕ) (h : List (α × Option ℕ)) :
    ∃ n, w ≤ n ∧ n ≤ w + interruptions h ∧
      (afterCalls (fun c _ => Statements.window c) (Window.new w) h).get = lastN n (committed 1 h) := by
  suffices H : ∀ (h : List (α × Option ℕ)) (l : List α) (k : ℕ) (s : Window α), s.windowSize = w →
      s.window <:+ l → min w l.length ≤ s.window.length → s.window.length ≤ w + k →
      ∃ n, w ≤ n ∧ n ≤ w + (k + interruptions h) ∧
        (afterCalls (fun c _ => Statements.window c) s h).get = lastN n (l ++ committed 1 h) by
    obtain ⟨n, h1, h2, h3⟩ := H h [] 0 (Window.new w) rfl (List.suffix_refl _) (by simp [Window.new])
      (by simp [Window.new])
    exact ⟨n, h1, by omega, by simpa using h3⟩
  intro h
  induction h with
  | nil =>
    intro l k s hw hs h1 h2
    have hlen := hs.length_le
    obtain ⟨p, hp⟩ := hs
    by_cases hc : w ≤ s.window.length
    · refine ⟨s.window.length, hc, by omega, ?_⟩
      simp only [committed, List.filterMap_nil, List.append_nil, afterCalls, List.foldl, Window.get, lastN]
      rw [← hp]; simp
    · refine ⟨w, le_rfl, by omega, ?_⟩
      have : s.window.length = l.length := by omega
      have hp0 : p = [] := by
        have := congrArg List.length hp
        rw [List.length_append] at this
        exact List.length_eq_zero_iff.1 (by omega)
      simp only [committed, List.filterMap_nil, List.append_nil, afterCalls, List.foldl, Window.get, lastN]
      rw [← hp, hp0, show (([] : List α) ++ s.window).length - w = 0 by simp; omega]
      simp
  | cons e h ih =>
    intro l k s hw hs h1 h2
    obtain ⟨x, o⟩ := e
    have hlen := hs.length_le
    have hs' : s.window ++ [x] <:+ l ++ [x] := by
      obtain ⟨p, hp⟩ := hs
      exact ⟨p, by rw [← List.append_assoc, hp]⟩
    have full : ∀ s', s' = s.update x → ∀ o, committed 1 ((x, o) :: h) = x :: committed 1 h →
        afterCalls (fun c _ => Statements.window c) s ((x, o) :: h) =
          afterCalls (fun c _ => Statements.window c) s' h →
        ∃ n, w ≤ n ∧ n ≤ w + (k + interruptions h) ∧
          (afterCalls (fun c _ => Statements.window c) s ((x, o) :: h)).get =
            lastN n (l ++ committed 1 ((x, o) :: h)) := by
      intro s' e' o hc ha
      rw [hc, ha, show l ++ x :: committed 1 h = (l ++ [x]) ++ committed 1 h by simp]
      subst e'
      by_cases hgt : s.window.length + 1 > s.windowSize
      · have e1 : s.update x = ⟨s.windowSize, (s.window ++ [x]).drop 1⟩ := by
          simp only [Window.update, List.length_append, List.length_singleton, if_pos hgt]
        rw [e1]
        refine ih (l ++ [x]) k _ hw ((List.drop_suffix _ _).trans hs') ?_ ?_ <;>
          simp only [List.length_drop, List.length_append, List.length_singleton] <;> omega
      · have e1 : s.update x = ⟨s.windowSize, s.window ++ [x]⟩ := by
          simp only [Window.update, List.length_append, List.length_singleton, if_neg hgt]
        rw [e1]
        refine ih (l ++ [x]) k _ hw hs' ?_ ?_ <;>
          simp only [List.length_append, List.length_singleton] <;> omega
    cases o with
    | none =>
      obtain ⟨n, a, b, c⟩ := full _ rfl none rfl rfl
      exact ⟨n, a, by simpa [interruptions] using b, c⟩
    | some j =>
      have hi : interruptions ((x, some j) :: h) = interruptions h + 1 := by simp [interruptions]
      rw [hi]
      rcases j with _ | _ | j
      · obtain ⟨n, a, b, c⟩ := ih l k s hw hs h1 h2
        exact ⟨n, a, by omega, c⟩
      · have hc : committed 1 ((x, some 1) :: h) = x :: committed 1 h := by simp [committed]
        rw [hc, show l ++ x :: committed 1 h = (l ++ [x]) ++ committed 1 h by simp]
        obtain ⟨n, a, b, c⟩ := ih (l ++ [x]) (k + 1) ⟨s.windowSize, s.window ++ [x]⟩ hw hs'
          (by simp only [List.length_append, List.length_singleton]; omega)
          (by simp only [List.length_append, List.length_singleton]; omega)
        exact ⟨n, a, by omega, c⟩
      · obtain ⟨n, a, b, c⟩ := full _ rfl (some (j + 1 + 1)) (by simp [committed])
          (by simp [afterCalls, Statements.window, runStatements, Window.update])
        exact ⟨n, a, by omega, c⟩

/-- A history with two interruptions: the window of size 2 ends up with three values. -/
example : (afterCalls (fun c _ => Statements.window c) (Window.new 2)
      [(1, none), (2, some 0), (3, none), (4, some 1), (5, none)] : Window ℕ).get = [3, 4, 5] ∧
    committed 1 [(1, none), (2, some 0), (3, none), (4, some 1), (5, none)] = [1, 3, 4, 5] ∧
    interruptions [(1, none), (2, some 0), (3, none), (4, some 1), (5, none)] = 2 := by decide

/-- SumMeter with an interrupted update and an interrupted removal. -/
example : ((sumMeter ℚ).get (afterCalls (fun c _ => Statements.sum c) (sumMeter ℚ).init
      [(.update 1, none), (.update 4, some 1), (.update 7, some 0), (.remove 1, some 1)])).out = .ok 4 := by
  decide +kernel

end Pysad
