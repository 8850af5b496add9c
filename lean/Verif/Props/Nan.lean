import Verif.Model.Nan
import Verif.Proofs.Running
import Verif.Props.Forgetting
import Verif.Props.Statistics

/-! C116: `nan` and infinite values leave the window, but not the statistics of the window. -/

namespace Pysad
open Spec

section
variable {K : Type*}

theorem Num.add_not_finite [Add K] {a b : Num K} (h : a.isFinite = false ∨ b.isFinite = false) :
    (a + b).isFinite = false := by
  change (Num.add a b).isFinite = false
  cases a <;> cases b <;> simp_all [Num.add, Num.isFinite]

theorem Num.sub_not_finite [Add K] [Sub K] {a b : Num K} (h : a.isFinite = false) :
    (a - b).isFinite = false := by
  change (HSub.hSub a b).isFinite = false
  cases a <;> cases b <;> simp_all [HSub.hSub, Sub.sub, Num.add, Num.isFinite, Num.flip]

theorem Num.mul_not_finite [Zero K] [LT K] [DecidableLT K] [Mul K] {a b : Num K}
    (h : a.isFinite = false) : (a * b).isFinite = false := by
  have hi : ∀ s, (Num.infinity s : Num K).isFinite = false := by
    intro s; unfold Num.infinity; split
    · rfl
    · split <;> rfl
  cases a <;> cases b <;> first | rfl | exact hi _ | cases h

theorem Num.div_not_finite [Zero K] [LT K] [DecidableLT K] [DecidableEq K] [Div K] {a : Num K}
    (y : K) (h : a.isFinite = false) : (a / Num.fin y).isFinite = false := by
  cases a
  · cases h
  · change (if y < 0 then Num.negInf else Num.posInf : Num K).isFinite = false
    split <;> rfl
  · change (if y < 0 then Num.posInf else Num.negInf : Num K).isFinite = false
    split <;> rfl
  · rfl

end

/-- A running statistic whose value stays bad once it is. -/
theorem running_bad {σ α β : Type*} {st : Statistic σ α β} {bad : σ → Prop}
    (hu : ∀ s x, bad s → bad (st.update s x))
    (hr : ∀ s x, ∃ s', st.remove s x = .ok () s' ∧ (bad s → bad s')) (w : ℕ) (xs ys : List α) (x : α)
    (hx : ∀ s, bad (st.update s x)) :
    ∃ s, RunningStatistic.updates st (RunningStatistic.new st w) (xs ++ x :: ys) = .ok () s ∧
      bad s.statistic := by
  have step : ∀ (s : RunningState σ α) z, ∃ s', RunningStatistic.update st s z = .ok () s' ∧
      (bad (st.update s.statistic z) → bad s'.statistic) := by
    intro s z
    unfold RunningStatistic.update
    simp only
    split
    · generalize hl : s.window ++ [z] = l
      cases l with
      | nil => simp at hl
      | cons a l =>
        obtain ⟨s', h1, h2⟩ := hr (st.update s.statistic z) a
        simp only [h1]
        exact ⟨_, rfl, h2⟩
    · exact ⟨_, rfl, id⟩
  have all : ∀ (ys : List α) (s : RunningState σ α), bad s.statistic →
      ∃ s', RunningStatistic.updates st s ys = .ok () s' ∧ bad s'.statistic := by
    intro ys
    induction ys with
    | nil => exact fun s h => ⟨s, rfl, h⟩
    | cons z ys ih =>
      intro s h
      obtain ⟨s', h1, h2⟩ := step s z
      obtain ⟨s'', h3, h4⟩ := ih s' (h2 (hu _ _ h))
      exact ⟨s'', by simp [RunningStatistic.updates, h1, h3], h4⟩
  have start : ∀ (xs : List α) (s : RunningState σ α),
      ∃ s', RunningStatistic.updates st s (xs ++ x :: ys) = .ok () s' ∧ bad s'.statistic := by
    intro xs
    induction xs with
    | nil =>
      intro s
      obtain ⟨s', h1, h2⟩ := step s x
      obtain ⟨s'', h3, h4⟩ := all ys s' (h2 (hx _))
      exact ⟨s'', by simp [RunningStatistic.updates, h1, h3], h4⟩
    | cons z xs ih =>
      intro s
      obtain ⟨s', h1, -⟩ := step s z
      obtain ⟨s'', h3, h4⟩ := ih s'
      exact ⟨s'', by simp [RunningStatistic.updates, h1, h3], h4⟩
  exact start xs _

/-- A windowed statistic is a statistic of the window: whatever came before the last `w` values does
not matter. -/
def Spec.WindowOnly {σ α β : Type*} (st : Statistic σ α β) : Prop :=
  ∀ (w : ℕ) (xs ys : List α), 1 ≤ w → w ≤ ys.length →
    ∃ s s', RunningStatistic.updates st (RunningStatistic.new st w) (xs ++ ys) = .ok () s ∧
      RunningStatistic.updates st (RunningStatistic.new st w) ys = .ok () s' ∧
      (RunningStatistic.get st s).out = (RunningStatistic.get st s').out

theorem not_windowOnly {σ : Type} {st : Statistic σ (Num ℚ) (Num ℚ)}
    (h : ∀ s s' : RunningState σ (Num ℚ),
      RunningStatistic.updates st (RunningStatistic.new st 1) [.nan, .fin 1] = .ok () s →
      RunningStatistic.updates st (RunningStatistic.new st 1) [.fin 1] = .ok () s' →
      (RunningStatistic.get st s).out ≠ (RunningStatistic.get st s').out) : ¬ WindowOnly st := by
  intro hw
  obtain ⟨s, s', h1, h2, h3⟩ := hw 1 [.nan] [.fin 1] le_rfl le_rfl
  exact h s s' h1 h2 h3

/-- **C116 (`WindowOnly`) is false** of the average, the sum, the sum of squares and the variance: a
window of one, `nan` and then 1. -/
theorem C116_statistics_refuted :
    ¬ WindowOnly (averageMeter (Num ℚ)) ∧ ¬ WindowOnly (sumMeter (Num ℚ)) ∧
    ¬ WindowOnly (sumSquaresMeter (Num ℚ)) ∧ ¬ WindowOnly (varianceMeter (Num ℚ)) := by
  refine ⟨not_windowOnly ?_, not_windowOnly ?_, not_windowOnly ?_, not_windowOnly ?_⟩ <;>
  · intro s s' h1 h2
    cases h1
    cases h2
    decide +kernel

/-- After a value that is not finite, no value of the windowed statistic is ever finite again,
whatever the window and whatever follows. -/
def Spec.NeverFiniteAgain {σ K : Type*} (st : Statistic σ (Num K) (Num K)) : Prop :=
  ∀ (w : ℕ) (xs ys : List (Num K)) (x : Num K), x.isFinite = false →
    ∃ s, RunningStatistic.updates st (RunningStatistic.new st w) (xs ++ x :: ys) = .ok () s ∧
      ∀ v, (RunningStatistic.get st s).out = .ok v → v.isFinite = false

section
variable {K : Type*} [Field K] [LinearOrder K]

/-- **C116, what happens instead** (streams of finite values: `C116_finite_partial`). -/
theorem C116_statistics_partial :
    NeverFiniteAgain (averageMeter (Num K)) ∧ NeverFiniteAgain (sumMeter (Num K)) ∧
    NeverFiniteAgain (sumSquaresMeter (Num K)) ∧ NeverFiniteAgain (varianceMeter (Num K)) := by
  refine ⟨?_, ?_, ?_, ?_⟩
  · intro w xs ys x hx
    obtain ⟨s, h1, h2⟩ := running_bad (st := averageMeter (Num K))
      (bad := fun s => s.sum.isFinite = false) (fun s z h => Num.add_not_finite (.inl h))
      (fun s z => ⟨_, rfl, fun h => Num.sub_not_finite h⟩) w xs ys x
      (fun s => Num.add_not_finite (.inr hx))
    refine ⟨s, h1, fun v hv => ?_⟩
    simp only [RunningStatistic.get, averageMeter] at hv
    split at hv
    · cases hv
    · cases hv
      exact Num.div_not_finite _ h2
  · intro w xs ys x hx
    obtain ⟨s, h1, h2⟩ := running_bad (st := sumMeter (Num K))
      (bad := fun s => s.sum.isFinite = false) (fun s z h => Num.add_not_finite (.inl h))
      (fun s z => ⟨_, rfl, fun h => Num.sub_not_finite h⟩) w xs ys x
      (fun s => Num.add_not_finite (.inr hx))
    refine ⟨s, h1, fun v hv => ?_⟩
    cases hv
    exact h2
  · intro w xs ys x hx
    obtain ⟨s, h1, h2⟩ := running_bad (st := sumSquaresMeter (Num K))
      (bad := fun s => s.sum.isFinite = false) (fun s z h => Num.add_not_finite (.inl h))
      (fun s z => ⟨_, rfl, fun h => Num.sub_not_finite h⟩) w xs ys x
      (fun s => Num.add_not_finite (.inr (Num.mul_not_finite hx)))
    refine ⟨s, h1, fun v hv => ?_⟩
    cases hv
    exact h2
  · intro w xs ys x hx
    obtain ⟨s, h1, h2⟩ := running_bad (st := varianceMeter (Num K))
      (bad := fun s => s.sumSquaresMeter.sum.isFinite = false)
      (fun s z h => Num.add_not_finite (.inl h))
      (fun s z => ⟨_, rfl, fun h => Num.sub_not_finite h⟩) w xs ys x
      (fun s => Num.add_not_finite (.inr (Num.mul_not_finite hx)))
    refine ⟨s, h1, fun v hv => ?_⟩
    simp only [RunningStatistic.get, varianceMeter] at hv
    split at hv
    · cases hv
    · cases hv
      exact Num.div_not_finite _ (Num.sub_not_finite h2)

end

/-- On streams of finite numbers the windowed statistic is that of the last `w` values. -/
def Spec.FiniteWindowOnly {σ σ' K : Type*} (st : Statistic σ K K)
    (st' : Statistic σ' (Num K) (Num K)) : Prop :=
  ∀ (w : ℕ) (xs : List K), ∃ s,
    RunningStatistic.updates st' (RunningStatistic.new st' w) (xs.map .fin) = .ok () s ∧
      (RunningStatistic.get st' s).out =
        (st.get (st.updates st.init (lastN w xs))).out.map .fin

theorem running_hom {σ σ' α α' β β' : Type*} {st : Statistic σ α β} {st' : Statistic σ' α' β'}
    (f : σ → σ') (g : α → α') (hi : st'.init = f st.init)
    (hu : ∀ s x, st'.update (f s) (g x) = f (st.update s x))
    (hr : ∀ s x, st'.remove (f s) (g x) = (st.remove s x).mapState f) (w : ℕ) (xs : List α) :
    RunningStatistic.updates st' (RunningStatistic.new st' w) (xs.map g) =
      (RunningStatistic.updates st (RunningStatistic.new st w) xs).mapState
        fun s => ⟨s.windowSize, f s.statistic, s.window.map g⟩ := by
  have step : ∀ (s : RunningState σ α) x,
      RunningStatistic.update st' ⟨s.windowSize, f s.statistic, s.window.map g⟩ (g x) =
      (RunningStatistic.update st s x).mapState
        fun s => ⟨s.windowSize, f s.statistic, s.window.map g⟩ := by
    intro s x
    obtain ⟨w, t, win⟩ := s
    unfold RunningStatistic.update
    simp only [hu, List.length_append, List.length_map, List.length_singleton]
    split
    · cases win with
      | nil =>
        simp only [List.map_nil, List.nil_append, hr]
        cases st.remove (st.update t x) x <;> rfl
      | cons a win =>
        simp only [List.map_cons, List.cons_append, hr]
        cases st.remove (st.update t x) a with
        | ok _ q => simp [pyTail]
        | err e q => simp
    · simp
  have all : ∀ (xs : List α) (s : RunningState σ α),
      RunningStatistic.updates st' ⟨s.windowSize, f s.statistic, s.window.map g⟩ (xs.map g) =
      (RunningStatistic.updates st s xs).mapState
        fun s => ⟨s.windowSize, f s.statistic, s.window.map g⟩ := by
    intro xs
    induction xs with
    | nil => intro s; rfl
    | cons x xs ih =>
      intro s
      simp only [List.map_cons, RunningStatistic.updates, step]
      cases RunningStatistic.update st s x with
      | ok _ q => simp only [Res.mapState_ok, Res.bind_ok]; exact ih q
      | err e q => rfl
  rw [← all, RunningStatistic.new, RunningStatistic.new, hi]
  rfl

theorem running_get_out {σ α β : Type*} (st : Statistic σ α β) (s : RunningState σ α) :
    (RunningStatistic.get st s).out = (st.get s.statistic).out := by
  unfold RunningStatistic.get
  cases st.get s.statistic <;> rfl

theorem finiteWindowOnly {σ σ' K : Type*} {st : Statistic σ K K} {st' : Statistic σ' (Num K) (Num K)}
    (h : RunsAsWindow st) (f : σ → σ') (hi : st'.init = f st.init)
    (hu : ∀ s x, st'.update (f s) (.fin x) = f (st.update s x))
    (hr : ∀ s x, st'.remove (f s) (.fin x) = (st.remove s x).mapState f)
    (hg : ∀ s, (st'.get (f s)).out = (st.get s).out.map .fin) : FiniteWindowOnly st st' := by
  intro w xs
  obtain ⟨s, h1, -, h3⟩ := h w xs
  refine ⟨⟨s.windowSize, f s.statistic, s.window.map .fin⟩, ?_, ?_⟩
  · rw [running_hom f Num.fin hi hu hr, h1]; rfl
  · rw [← h3]
    rw [running_get_out, running_get_out]
    exact hg s.statistic

/-- **C116, what holds**: as long as all values are finite. -/
theorem C116_finite_partial {K : Type*} [Field K] [LinearOrder K] [IsStrictOrderedRing K] :
    FiniteWindowOnly (averageMeter K) (averageMeter (Num K)) ∧
    FiniteWindowOnly (sumMeter K) (sumMeter (Num K)) ∧
    FiniteWindowOnly (sumSquaresMeter K) (sumSquaresMeter (Num K)) ∧
    FiniteWindowOnly (varianceMeter K) (varianceMeter (Num K)) := by
  obtain ⟨-, h2, h3, h4, h5, -⟩ := C12_running_is_windowed (K := K)
  let f : AverageState K → AverageState (Num K) := fun s => ⟨.fin s.sum, s.numItems⟩
  have hdiv : ∀ (a : K) (n : ℤ), n ≠ 0 →
      (Num.fin a / ((n : ℤ) : Num K) : Num K) = .fin (a / (n : K)) := by
    intro a n hn
    change npDiv a (n : K) = _
    rw [npDiv, if_neg (by exact_mod_cast hn)]
  refine ⟨finiteWindowOnly h4 f rfl (fun _ _ => rfl) (fun _ _ => rfl) fun s => ?_,
    finiteWindowOnly h2 f rfl (fun _ _ => rfl) (fun _ _ => rfl) fun s => rfl,
    finiteWindowOnly h3 f rfl (fun _ _ => rfl) (fun _ _ => rfl) fun s => rfl,
    finiteWindowOnly h5 (fun s => ⟨f s.sumMeter, f s.sumSquaresMeter, s.countMeter⟩) rfl
      (fun _ _ => rfl) (fun _ _ => rfl) fun s => ?_⟩
  · simp only [averageMeter, f]
    split
    · rfl
    · rename_i hn; simp only [Res.out_ok, hdiv _ _ hn]; rfl
  · simp only [varianceMeter, f]
    split
    · rfl
    · rename_i hn
      change Except.ok ((Num.fin s.sumSquaresMeter.sum -
        Num.fin (s.sumMeter.sum * s.sumMeter.sum) / ((s.countMeter : ℤ) : Num K)) /
          ((s.countMeter : ℤ) : Num K)) = _
      rw [hdiv _ _ hn]
      change Except.ok (Num.fin (s.sumSquaresMeter.sum - _) / ((s.countMeter : ℤ) : Num K)) = _
      rw [hdiv _ _ hn]
      rfl

/-- An infinite value: infinite while it is in the window, `nan` after. -/
example : (RunningStatistic.updates (averageMeter (Num ℚ)) (RunningStatistic.new (averageMeter (Num ℚ)) 2)
    [.fin 1, .posInf, .fin 3]).state.statistic.sum = .posInf ∧
    (RunningStatistic.updates (averageMeter (Num ℚ)) (RunningStatistic.new (averageMeter (Num ℚ)) 2)
    [.fin 1, .posInf, .fin 3, .fin 4]).state.statistic.sum = .nan := by decide +kernel

/-- **C116 holds of `ExactStorm`**: whatever the distances are, `nan` included, only the last
`window_size` instances matter. -/
theorem C116_storm_forgets {α β K : Type*} [Zero K] [NatCast K] [Div K] [LT K] [DecidableLT K]
    (dist : α → α → K) (w : ℕ) (r : K) :
    Forgets (exactStorm (β := β) dist) (StormState.new w r) (fun _ => True) w := by
  intro cs cs' _ _ _ h x _
  rw [storm_state, storm_state, h]

end Pysad
