import Verif.Model.DecomposerInterrupt
import Verif.Props.Interrupt
import Verif.Props.Decomposition
import Mathlib.Data.Nat.ModEq
import Mathlib.Tactic.Linarith
import Mathlib.Tactic.FieldSimp
import Mathlib.Algebra.Order.Field.Rat

/-! Property C192: interrupted calls of `SeasonalTrendDecomposer`. -/

namespace Pysad

open Spec

namespace Spec

/-- The first call of a history that executed anything at all was interrupted right after its first
statement. -/
def startsHalf {ι : Type*} : List (ι × Option ℕ) → Prop
  | [] => False
  | (_, some 0) :: h => startsHalf h
  | (_, some 1) :: _ => True
  | _ :: _ => False

/-- The instances that calls mention. -/
def mentioned {α : Type*} : TransCall α → α
  | .fit (.row x) => x
  | .fit (.pair x) => x
  | .transform x => x
  | .fitTransform x => x

/-- How many of the times `0, …, n - 1` lie in the same phase as time `n` and have the full trend window of
`w` values behind them. -/
def fullVisits (s w n p : ℕ) : ℕ := ((List.range n).filter fun t => t % s = p ∧ w ≤ t + 1).length

end Spec

private theorem run_const {σ : Type*} (l : List σ) (s : σ) :
    runStatements (l.map fun t _ => t) s = l.getLast?.getD s := by
  induction l generalizing s with
  | nil => rfl
  | cons a l ih =>
    rw [List.map_cons]
    change runStatements (l.map fun t _ => t) a = _
    rw [ih, List.getLast?_cons]
    rfl

private theorem run_take_const {σ : Type*} (l : List σ) (s : σ) (k : ℕ) :
    runStatements ((l.map fun t _ => t).take k) s ∈ s :: l := by
  rw [← List.map_take, run_const]
  cases h : (l.take k).getLast? with
  | none => simp
  | some a =>
    have := List.mem_of_mem_take (List.mem_of_getLast? h)
    simp [this]

namespace RawDecomposer
variable {K : Type*} [Field K] {d : ℕ}

section
variable [DecidableEq K]

/-- Calls that are not interrupted are those of `Model/SeasonalTrend.lean`. -/
theorem statements_complete (c : TransCall (Fin d → K)) (s : DecomposerState K d) :
    runStatements (statements c s.raw) s.raw = (afterTrans (seasonalTrendDecomposer K d) s [c]).raw := by
  unfold statements
  rw [run_const]
  obtain ⟨sl, tw, win, sea, n⟩ := s
  have key : ∀ x : Fin d → K,
      (initStages (DecomposerState.raw ⟨sl, tw, win, sea, n⟩) ++
        learnStages (initialised (DecomposerState.raw ⟨sl, tw, win, sea, n⟩)) x).getLast?.getD
          (DecomposerState.raw ⟨sl, tw, win, sea, n⟩) =
      (Decomposer.fitPartial ⟨sl, tw, win, sea, n⟩ (.row x)).state.raw := by
    intro x
    by_cases h : (Decomposer.push tw win x).length = tw <;> cases sea <;>
      simp [initStages, initialised, learnStages, DecomposerState.raw, Decomposer.fitPartial, Decomposer.asArray,
        Decomposer.arrays, Decomposer.learn, Res.state, h]
  match c with
  | .fit (.row x) => exact key x
  | .fit (.pair x) => exact key x
  | .fitTransform x => exact key x
  | .transform x => cases sea <;> rfl

/-- `transform_partial` on a decomposer whose arrays are both there or both missing. -/
theorem transform_raw (s : DecomposerState K d) (x : Fin d → K) :
    (transformPartial s.raw x).out = ((seasonalTrendDecomposer K d).transformPartial s x).out := by
  obtain ⟨sl, tw, win, sea, n⟩ := s
  cases sea <;> rfl

/-- `fit_partial` on such a decomposer returns. -/
theorem fit_raw (s : DecomposerState K d) (X : FitArg (Fin d → K)) :
    fitPartial s.raw X = .ok () ((seasonalTrendDecomposer K d).fitPartial s X).state.raw := by
  have h := statements_complete (.fit X) s
  unfold fitPartial
  rw [if_neg, h]
  · rfl
  · obtain ⟨sl, tw, win, sea, n⟩ := s
    cases sea <;> simp [initialised, initStages, DecomposerState.raw]

theorem afterCalls_complete (cs : List (TransCall (Fin d → K))) (s : DecomposerState K d) :
    afterCalls statements s.raw (cs.map fun c => (c, none)) =
      (afterTrans (seasonalTrendDecomposer K d) s cs).raw := by
  induction cs generalizing s with
  | nil => rfl
  | cons c cs ih =>
    have : afterCalls statements s.raw ((c :: cs).map fun c => (c, none)) =
        afterCalls statements (runStatements (statements c s.raw) s.raw) (cs.map fun c => (c, none)) := rfl
    rw [this, statements_complete, ih]
    match c with
    | .fit (.row x) => rfl
    | .fit (.pair x) => rfl
    | .fitTransform x => rfl
    | .transform x => rfl

end

/-! ### A decomposer that stays broken -/

/-- `seasonal_sums` has been assigned and `seasonal_counts` has not. -/
def Half (s : RawDecomposer K d) : Prop := s.seasonalSums.isSome ∧ s.seasonalCounts = none

theorem half_learn {s : RawDecomposer K d} (h : Half s) (x : Fin d → K) :
    ∀ t ∈ learnStages s x, Half t := by
  obtain ⟨sl, tw, win, sums, counts, n⟩ := s
  obtain ⟨h1, h2⟩ := h
  simp only at h1 h2
  subst h2
  obtain ⟨a, rfl⟩ := Option.isSome_iff_exists.1 h1
  intro t ht
  unfold learnStages at ht
  simp only at ht
  split at ht
  · simp only [List.mem_cons, List.not_mem_nil, or_false] at ht
    rcases ht with rfl | rfl <;> exact ⟨rfl, rfl⟩
  · simp only [List.mem_cons, List.not_mem_nil, or_false] at ht
    rcases ht with rfl | rfl <;> exact ⟨rfl, rfl⟩

theorem half_init {s : RawDecomposer K d} (h : Half s) : initStages s = [] := by
  obtain ⟨a, ha⟩ := Option.isSome_iff_exists.1 h.1
  simp [initStages, ha]

theorem half_stages {s : RawDecomposer K d} (h : Half s) (c : TransCall (Fin d → K)) :
    ∀ t ∈ stages s c, Half t := by
  cases c with
  | transform x => simp [stages, half_init h]
  | fit X => simpa [stages, half_init h, initialised] using half_learn h (Decomposer.asArray X)
  | fitTransform x => simpa [stages, half_init h, initialised] using half_learn h x

theorem half_calls (h : List (TransCall (Fin d → K) × Option ℕ)) (s : RawDecomposer K d) (hs : Half s) :
    Half (afterCalls statements s h) := by
  induction h generalizing s with
  | nil => exact hs
  | cons e h ih =>
    have step : ∀ k, Half (runStatements ((statements e.1 s).take k) s) := by
      intro k
      have := run_take_const (stages s e.1) s k
      rw [List.mem_cons] at this
      rcases this with h | h
      · unfold statements; rw [h]; exact hs
      · exact half_stages hs e.1 _ h
    obtain ⟨c, o⟩ := e
    cases o with
    | none =>
      have := step (statements c s).length
      rw [List.take_length] at this
      exact ih _ this
    | some k => exact ih _ (step k)

/-- The stores of a call on a decomposer without arrays: the two assignments, then those of the same call on a
decomposer with empty arrays. -/
theorem statements_none (c : TransCall (Fin d → K)) (sl tw : ℕ) (win : List (Fin d → K)) (n : ℕ) :
    statements c (DecomposerState.raw ⟨sl, tw, win, none, n⟩) =
      (fun _ => ⟨sl, tw, win, some fun _ _ => 0, none, n⟩) ::
      (fun _ => DecomposerState.raw ⟨sl, tw, win, some (fun _ _ => 0, fun _ => 0), n⟩) ::
      statements c (DecomposerState.raw ⟨sl, tw, win, some (fun _ _ => 0, fun _ => 0), n⟩) := by
  cases c <;> rfl

theorem half_of_startsHalf {s : DecomposerState K d} (hs : s.seasonal = none)
    (h : List (TransCall (Fin d → K) × Option ℕ)) (hh : startsHalf h) :
    Half (afterCalls statements s.raw h) := by
  induction h with
  | nil => exact hh.elim
  | cons e h ih =>
    obtain ⟨c, o⟩ := e
    match o, hh with
    | some 0, hh => exact ih hh
    | some 1, _ =>
      refine half_calls h _ ?_
      obtain ⟨sl, tw, win, sea, n⟩ := s
      simp only at hs
      subst hs
      simp only [statements_none]
      exact ⟨rfl, rfl⟩

theorem push_eq {w : ℕ} {win : List (Fin d → K)} (hl : win.length ≤ w) (x : Fin d → K) :
    Decomposer.push w win x = lastN w (win ++ [x]) := by
  rw [← push_lastN, lastN_of_le hl]

theorem stage_window {s : RawDecomposer K d} (hs : s.window.length ≤ s.trendWindow)
    (c : TransCall (Fin d → K)) :
    ∀ t ∈ stages s c, t.trendWindow = s.trendWindow ∧ t.window.length ≤ t.trendWindow := by
  have hi : ∀ t ∈ initStages s, t.trendWindow = s.trendWindow ∧ t.window.length ≤ t.trendWindow := by
    intro t ht
    unfold initStages at ht
    split at ht
    · simp at ht
    · simp only [List.mem_cons, List.not_mem_nil, or_false] at ht
      rcases ht with rfl | rfl <;> exact ⟨rfl, hs⟩
  have hi' : (initialised s).trendWindow = s.trendWindow ∧ (initialised s).window.length ≤ s.trendWindow := by
    unfold initialised initStages
    split <;> exact ⟨rfl, hs⟩
  have hl : ∀ x, ∀ t ∈ learnStages (initialised s) x,
      t.trendWindow = s.trendWindow ∧ t.window.length ≤ t.trendWindow := by
    intro x t ht
    have hp : (Decomposer.push (initialised s).trendWindow (initialised s).window x).length ≤ s.trendWindow := by
      rw [push_eq (by rw [hi'.1]; exact hi'.2), lastN_length, hi'.1]
      omega
    rw [← hi'.1] at hp ⊢
    unfold learnStages at ht
    simp only at ht
    split at ht
    · split at ht <;> simp only [List.mem_cons, List.not_mem_nil, or_false] at ht
      · rcases ht with rfl | rfl <;> exact ⟨rfl, hp⟩
      · rcases ht with rfl | rfl | rfl | rfl <;> exact ⟨rfl, hp⟩
    · simp only [List.mem_cons, List.not_mem_nil, or_false] at ht
      rcases ht with rfl | rfl <;> exact ⟨rfl, hp⟩
  intro t ht
  cases c with
  | transform x => exact hi t ht
  | fit X =>
    rcases List.mem_append.1 ht with h | h
    · exact hi t h
    · exact hl _ t h
  | fitTransform x =>
    rcases List.mem_append.1 ht with h | h
    · exact hi t h
    · exact hl _ t h

theorem window_calls (h : List (TransCall (Fin d → K) × Option ℕ)) (s : RawDecomposer K d)
    (hs : s.window.length ≤ s.trendWindow) :
    (afterCalls statements s h).trendWindow = s.trendWindow ∧
      (afterCalls statements s h).window.length ≤ (afterCalls statements s h).trendWindow := by
  induction h generalizing s with
  | nil => exact ⟨rfl, hs⟩
  | cons e h ih =>
    have step : ∀ k, (runStatements ((statements e.1 s).take k) s).trendWindow = s.trendWindow ∧
        (runStatements ((statements e.1 s).take k) s).window.length ≤
          (runStatements ((statements e.1 s).take k) s).trendWindow := by
      intro k
      have := run_take_const (stages s e.1) s k
      rw [List.mem_cons] at this
      rcases this with h | h
      · unfold statements; rw [h]; exact ⟨rfl, hs⟩
      · exact stage_window hs e.1 _ h
    obtain ⟨c, o⟩ := e
    cases o with
    | none =>
      have := step (statements c s).length
      rw [List.take_length] at this
      have h2 := ih _ this.2
      exact ⟨h2.1.trans this.1, h2.2⟩
    | some k =>
      have h2 := ih _ (step k).2
      exact ⟨h2.1.trans (step k).1, h2.2⟩

theorem window_fit (X : FitArg (Fin d → K)) (s : RawDecomposer K d) :
    (runStatements (statements (.fit X) s) s).window = Decomposer.push s.trendWindow s.window (Decomposer.asArray X) := by
  unfold statements
  rw [run_const]
  obtain ⟨sl, tw, win, sums, counts, n⟩ := s
  by_cases h : (Decomposer.push tw win (Decomposer.asArray X)).length = tw <;> cases sums <;> cases counts <;>
    simp [stages, initStages, initialised, learnStages, h]

theorem window_fits (X : List (FitArg (Fin d → K))) (s : RawDecomposer K d)
    (hs : s.window.length ≤ s.trendWindow) :
    (afterCalls statements s (X.map fun x => (.fit x, none))).trendWindow = s.trendWindow ∧
      (afterCalls statements s (X.map fun x => (.fit x, none))).window.length ≤ s.trendWindow ∧
      min s.trendWindow X.length ≤ (afterCalls statements s (X.map fun x => (.fit x, none))).window.length := by
  induction X using List.reverseRecOn with
  | nil => exact ⟨rfl, hs, by simp⟩
  | append_singleton X x ih =>
    have h1 := window_calls ((X ++ [x]).map fun x => (.fit x, none)) s hs
    refine ⟨h1.1, by rw [← h1.1]; exact h1.2, ?_⟩
    rw [List.map_append]
    have : afterCalls statements s (X.map (fun x => (.fit x, none)) ++ [x].map fun x => (.fit x, none)) =
        runStatements (statements (.fit x) (afterCalls statements s (X.map fun x => (.fit x, none))))
          (afterCalls statements s (X.map fun x => (.fit x, none))) := by
      unfold afterCalls
      rw [List.foldl_append]
      rfl
    rw [this, window_fit, push_eq (by rw [ih.1]; exact ih.2.1), lastN_length, ih.1]
    have := ih.2.2
    simp only [List.length_append, List.length_singleton]
    omega

end RawDecomposer

open RawDecomposer

/-- **C192 (what goes wrong).** If the very first call that executes anything is interrupted right after its
first assignment, then whatever calls follow, `transform_partial` raises a `TypeError`. -/
theorem C192_broken {K : Type*} [Field K] [DecidableEq K] {d : ℕ} {s w : ℤ} {s0 : DecomposerState K d}
    (h0 : Decomposer.new s (some w) = .ok s0) (h : List (TransCall (Fin d → K) × Option ℕ))
    (hh : startsHalf h) (x : Fin d → K) :
    (transformPartial (afterCalls statements s0.raw h) x).out = .error .typeError := by
  have hn : s0.seasonal = none := by
    unfold Decomposer.new at h0
    split at h0
    · cases h0
    · simp only at h0
      split at h0
      · cases h0
      · cases h0; rfl
  have hf := half_of_startsHalf hn h hh
  unfold transformPartial
  rw [show initialised (afterCalls statements s0.raw h) = afterCalls statements s0.raw h by
    unfold initialised; rw [half_init hf]; rfl]
  obtain ⟨a, ha⟩ := Option.isSome_iff_exists.1 hf.1
  simp only [hf.2, ha]
  rfl

/-! ### The others -/

namespace RawDecomposer
variable {K : Type*} [Field K] [LinearOrder K] [IsStrictOrderedRing K] {d : ℕ}

/-- What `n` calls, interrupted or not, can have left behind if all values lie between `lo` and `hi`. -/
structure Bounded (s w n : ℕ) (lo hi : K) (st : DecomposerState K d) : Prop where
  season : st.seasonLength = s
  trend : st.trendWindow = w
  length : st.window.length ≤ w
  range : ∀ x ∈ st.window, ∀ i, lo ≤ x i ∧ x i ≤ hi
  sums : ∀ p i, |(Decomposer.arrays st).1 p i| ≤ n * (hi - lo)
  counts : ∀ p, ∃ m : ℕ, m ≤ n ∧ (Decomposer.arrays st).2 p = m

omit [IsStrictOrderedRing K] in
theorem push_range {w : ℕ} {win : List (Fin d → K)} (hl : win.length ≤ w) {x : Fin d → K} {lo hi : K}
    (hr : ∀ x ∈ win, ∀ i, lo ≤ x i ∧ x i ≤ hi) (hx : ∀ i, lo ≤ x i ∧ x i ≤ hi) :
    ∀ y ∈ Decomposer.push w win x, ∀ i, lo ≤ y i ∧ y i ≤ hi := by
  intro y hy
  rw [push_eq hl] at hy
  have := List.mem_of_mem_drop hy
  rw [List.mem_append, List.mem_singleton] at this
  rcases this with h | rfl
  · exact hr y h
  · exact hx

theorem deviation_le {w : ℕ} (hw : 0 < w) {win : List (Fin d → K)} (hl : win.length ≤ w) {x : Fin d → K} {lo hi : K}
    (hr : ∀ x ∈ win, ∀ i, lo ≤ x i ∧ x i ≤ hi) (hx : ∀ i, lo ≤ x i ∧ x i ≤ hi) (i : Fin d) :
    |x i - Decomposer.trend (Decomposer.push w win x) i| ≤ hi - lo := by
  rw [push_eq hl, Decomposition.trend_eq]
  have h := Decomposition.trendAfter_mem hw (v := column (win ++ [x]) i) (lo := lo) (hi := hi) (by simp [column]) (by
    intro v hv
    simp only [column, List.mem_map, List.mem_append, List.mem_singleton] at hv
    obtain ⟨y, hy | rfl, rfl⟩ := hv
    · exact hr y hy i
    · exact hx i)
  rw [abs_le]
  constructor <;> linarith [(hx i).1, (hx i).2, h.1, h.2]

theorem Bounded.mono {s w n m : ℕ} {lo hi : K} (hlh : lo ≤ hi) {st : DecomposerState K d} (h : Bounded s w n lo hi st)
    (hnm : n ≤ m) : Bounded s w m lo hi st := by
  refine ⟨h.season, h.trend, h.length, h.range, fun p i => (h.sums p i).trans ?_, fun p => ?_⟩
  · exact mul_le_mul_of_nonneg_right (by exact_mod_cast hnm) (by linarith)
  · obtain ⟨k, h1, h2⟩ := h.counts p
    exact ⟨k, by omega, h2⟩

/-- Every store of a call on a decomposer with both arrays. -/
theorem bounded_learn {s w n : ℕ} (hw : 0 < w) {lo hi : K} (hlh : lo ≤ hi) {st : DecomposerState K d}
    (h : Bounded s w n lo hi st) (ha : st.seasonal.isSome) {x : Fin d → K} (hx : ∀ i, lo ≤ x i ∧ x i ≤ hi) :
    ∀ t ∈ learnStages st.raw x, ∃ st' : DecomposerState K d, t = st'.raw ∧ st'.seasonal.isSome ∧
      Bounded s w (n + 1) lo hi st' := by
  obtain ⟨sl, tw, win, sea, k⟩ := st
  obtain ⟨⟨a, c⟩, rfl⟩ := Option.isSome_iff_exists.1 ha
  obtain ⟨rfl, rfl, hl, hr, hs, hc⟩ := h
  simp only [Decomposer.arrays, Option.getD_some] at hs hc hl hr hw
  have hl' : (Decomposer.push tw win x).length ≤ tw := by rw [push_eq hl, lastN_length]; omega
  have hr' := push_range hl hr hx
  have hd := deviation_le hw hl hr hx
  have hs1 : ∀ p i, |a p i| ≤ ((n + 1 : ℕ) : K) * (hi - lo) := fun p i => by
    have := hs p i
    push_cast
    linarith
  have hc1 : ∀ p, ∃ m : ℕ, m ≤ n + 1 ∧ c p = m := fun p => by
    obtain ⟨m, h1, h2⟩ := hc p
    exact ⟨m, by omega, h2⟩
  set q := k % sl with hq
  set a' : ℕ → Fin d → K := Function.update a q fun i => a q i + (x i - Decomposer.trend (Decomposer.push tw win x) i)
    with ha'
  set c' : ℕ → K := Function.update c q (c q + 1) with hc'
  have hs2 : ∀ p i, |a' p i| ≤ ((n + 1 : ℕ) : K) * (hi - lo) := fun p i => by
    rw [ha']
    by_cases hp : p = q
    · rw [hp, Function.update_self]
      have h1 := hs q i
      have h2 := hd i
      push_cast
      exact (abs_add_le _ _).trans (by linarith)
    · rw [Function.update_of_ne hp]
      exact hs1 p i
  have hc2 : ∀ p, ∃ m : ℕ, m ≤ n + 1 ∧ c' p = m := fun p => by
    rw [hc']
    by_cases hp : p = q
    · rw [hp, Function.update_self]
      obtain ⟨m, h1, h2⟩ := hc q
      exact ⟨m + 1, by omega, by rw [h2]; push_cast; rfl⟩
    · rw [Function.update_of_ne hp]
      exact hc1 p
  intro t ht
  have ht : t ∈ learnStages (⟨sl, tw, win, some a, some c, k⟩ : RawDecomposer K d) x := ht
  unfold learnStages at ht
  simp only [Option.map_some] at ht
  by_cases hfull : (Decomposer.push tw win x).length = tw
  · rw [if_pos hfull] at ht
    simp only [List.mem_cons, List.not_mem_nil, or_false] at ht
    rcases ht with rfl | rfl | rfl | rfl
    · exact ⟨⟨sl, tw, _, some (a, c), k⟩, rfl, rfl, rfl, rfl, hl', hr', hs1, hc1⟩
    · exact ⟨⟨sl, tw, _, some (a', c), k⟩, rfl, rfl, rfl, rfl, hl', hr', hs2, hc1⟩
    · exact ⟨⟨sl, tw, _, some (a', c'), k⟩, rfl, rfl, rfl, rfl, hl', hr', hs2, hc2⟩
    · exact ⟨⟨sl, tw, _, some (a', c'), k + 1⟩, rfl, rfl, rfl, rfl, hl', hr', hs2, hc2⟩
  · rw [if_neg hfull] at ht
    simp only [List.mem_cons, List.not_mem_nil, or_false] at ht
    rcases ht with rfl | rfl
    · exact ⟨⟨sl, tw, _, some (a, c), k⟩, rfl, rfl, rfl, rfl, hl', hr', hs1, hc1⟩
    · exact ⟨⟨sl, tw, _, some (a, c), k + 1⟩, rfl, rfl, rfl, rfl, hl', hr', hs1, hc1⟩

omit [LinearOrder K] [IsStrictOrderedRing K] in
theorem init_some {st : DecomposerState K d} (ha : st.seasonal.isSome) : initStages st.raw = [] := by
  obtain ⟨a, ha⟩ := Option.isSome_iff_exists.1 ha
  simp [initStages, DecomposerState.raw, ha]

theorem bounded_cut {s w n : ℕ} (hw : 0 < w) {lo hi : K} (hlh : lo ≤ hi) {st : DecomposerState K d}
    (h : Bounded s w n lo hi st) (ha : st.seasonal.isSome) {c : TransCall (Fin d → K)}
    (hx : ∀ i, lo ≤ mentioned c i ∧ mentioned c i ≤ hi) (k : ℕ) :
    ∃ st' : DecomposerState K d, runStatements ((statements c st.raw).take k) st.raw = st'.raw ∧
      st'.seasonal.isSome ∧ Bounded s w (n + 1) lo hi st' := by
  have hm := run_take_const (stages st.raw c) st.raw k
  rw [List.mem_cons] at hm
  rcases hm with hm | hm
  · exact ⟨st, hm, ha, h.mono hlh (by omega)⟩
  · have hi0 : initialised st.raw = st.raw := by unfold initialised; rw [init_some ha]; rfl
    have key : ∀ x : Fin d → K, (∀ i, lo ≤ x i ∧ x i ≤ hi) →
        runStatements ((statements c st.raw).take k) st.raw ∈ initStages st.raw ++ learnStages (initialised st.raw) x →
        ∃ st' : DecomposerState K d, runStatements ((statements c st.raw).take k) st.raw = st'.raw ∧
          st'.seasonal.isSome ∧ Bounded s w (n + 1) lo hi st' := by
      intro x hx ht
      rw [init_some ha, List.nil_append, hi0] at ht
      exact bounded_learn hw hlh h ha hx _ ht
    match c, hx with
    | .fit (.row x), hx => exact key x hx hm
    | .fit (.pair x), hx => exact key x hx hm
    | .fitTransform x, hx => exact key x hx hm
    | .transform x, hx =>
      simp only [stages, init_some ha, List.not_mem_nil] at hm

theorem bounded_calls {s w : ℕ} (hw : 0 < w) {lo hi : K} (hlh : lo ≤ hi)
    (h : List (TransCall (Fin d → K) × Option ℕ))
    (hx : ∀ e ∈ h, ∀ i, lo ≤ mentioned e.1 i ∧ mentioned e.1 i ≤ hi) :
    ∀ (n : ℕ) (st : DecomposerState K d), Bounded s w n lo hi st → st.seasonal.isSome →
    ∃ st' : DecomposerState K d, afterCalls statements st.raw h = st'.raw ∧
      Bounded s w (n + h.length) lo hi st' := by
  induction h with
  | nil => exact fun n st hb _ => ⟨st, rfl, hb⟩
  | cons e h ih =>
    intro n st hb ha
    have step := fun k => bounded_cut hw hlh hb ha (hx e (by simp)) k
    have ih := ih fun e he => hx e (by simp [he])
    obtain ⟨c, o⟩ := e
    have goal : ∀ st' : DecomposerState K d, st'.seasonal.isSome → Bounded s w (n + 1) lo hi st' →
        ∃ st'' : DecomposerState K d, afterCalls statements st'.raw h = st''.raw ∧
          Bounded s w (n + (h.length + 1)) lo hi st'' := by
      intro st' h1 h2
      obtain ⟨st'', h3, h4⟩ := ih (n + 1) st' h2 h1
      exact ⟨st'', h3, by rwa [show n + (h.length + 1) = n + 1 + h.length by omega]⟩
    cases o with
    | none =>
      obtain ⟨st', h1, h2, h3⟩ := step (statements c st.raw).length
      rw [List.take_length] at h1
      obtain ⟨st'', h4, h5⟩ := goal st' h2 h3
      exact ⟨st'', by rw [← h4, ← h1]; rfl, h5⟩
    | some k =>
      obtain ⟨st', h1, h2, h3⟩ := step k
      obtain ⟨st'', h4, h5⟩ := goal st' h2 h3
      exact ⟨st'', by rw [← h4, ← h1]; rfl, h5⟩

theorem bounded_empty {s w : ℕ} {lo hi : K} (sea : Option ((ℕ → Fin d → K) × (ℕ → K)))
    (hsea : sea.getD (fun _ _ => 0, fun _ => 0) = (fun _ _ => 0, fun _ => 0)) (k : ℕ) :
    Bounded s w 0 lo hi (⟨s, w, [], sea, k⟩ : DecomposerState K d) := by
  refine ⟨rfl, rfl, by simp, by simp, fun p i => ?_, fun p => ⟨0, le_rfl, ?_⟩⟩
  · simp [Decomposer.arrays, hsea]
  · simp [Decomposer.arrays, hsea]

/-- A history that does not start with half an initialisation. -/
theorem bounded_history {s w : ℕ} (hw : 0 < w) {lo hi : K} (hlh : lo ≤ hi)
    (h : List (TransCall (Fin d → K) × Option ℕ))
    (hx : ∀ e ∈ h, ∀ i, lo ≤ mentioned e.1 i ∧ mentioned e.1 i ≤ hi) (hh : ¬ startsHalf h) :
    ∃ st : DecomposerState K d,
      afterCalls statements (DecomposerState.raw ⟨s, w, [], none, 0⟩) h = st.raw ∧ Bounded s w h.length lo hi st := by
  induction h with
  | nil => exact ⟨_, rfl, bounded_empty none rfl 0⟩
  | cons e h ih =>
    obtain ⟨c, o⟩ := e
    have hb : Bounded s w 0 lo hi (⟨s, w, [], some (fun _ _ => 0, fun _ => 0), 0⟩ : DecomposerState K d) :=
      bounded_empty _ rfl 0
    have step := fun k => bounded_cut hw hlh hb rfl (hx (c, o) (by simp)) k
    have hx' : ∀ e ∈ h, ∀ i, lo ≤ mentioned e.1 i ∧ mentioned e.1 i ≤ hi := fun e he => hx e (by simp [he])
    have later : ∀ k, ∃ st : DecomposerState K d, afterCalls statements
        (runStatements ((statements c (DecomposerState.raw ⟨s, w, [], none, 0⟩)).take (k + 2))
          (DecomposerState.raw ⟨s, w, [], none, 0⟩)) h = st.raw ∧ Bounded s w (h.length + 1) lo hi st := by
      intro k
      obtain ⟨st', h1, h2, h3⟩ := step k
      obtain ⟨st'', h4, h5⟩ := bounded_calls hw hlh h hx' _ st' h3 h2
      refine ⟨st'', ?_, by rwa [show h.length + 1 = 0 + 1 + h.length by omega]⟩
      rw [← h4, ← h1, statements_none]
      rfl
    match o, hh with
    | some 0, hh =>
      obtain ⟨st, h1, h2⟩ := ih hx' hh
      exact ⟨st, h1, h2.mono hlh (by simp)⟩
    | some 1, hh => exact (hh trivial).elim
    | some (k + 2), _ => exact later k
    | none, _ =>
      obtain ⟨st, h1, h2⟩ := later (statements c (DecomposerState.raw ⟨s, w, [], some (fun _ _ => 0, fun _ => 0), 0⟩)).length
      refine ⟨st, ?_, h2⟩
      rw [← h1]
      rw [List.take_of_length_le (by rw [statements_none]; simp)]
      rfl

/-! What later, complete calls make of it -/

omit [LinearOrder K] [IsStrictOrderedRing K] in
theorem fullVisits_eq (s w : ℕ) (X : List (Fin d → K)) (i : Fin d) (p : ℕ) :
    (Spec.deviations s w (column X i) p).length = fullVisits s w X.length p := by
  unfold Spec.deviations fullVisits
  rw [List.length_map]
  simp [column]

theorem fullVisits_succ (s w n p : ℕ) :
    fullVisits s w (n + 1) p = fullVisits s w n p + if n % s = p ∧ w ≤ n + 1 then 1 else 0 := by
  unfold fullVisits
  rw [List.range_succ, List.filter_append, List.length_append]
  congr 1
  by_cases h : n % s = p ∧ w ≤ n + 1
  · rw [if_pos h, List.filter_cons_of_pos (by simpa using h)]; rfl
  · rw [if_neg h, List.filter_cons_of_neg (by simpa using h)]; rfl

/-- A decomposer that was in the state `st0` before it fitted the instances `X`. -/
structure Shifted (s w n : ℕ) (lo hi : K) (o : ℕ) (W X : List (Fin d → K)) (st : DecomposerState K d) : Prop where
  season : st.seasonLength = s
  trend : st.trendWindow = w
  window : st.window = lastN w (W ++ X)
  seen : st.numSeen = o + X.length
  sums : ∀ q < s, ∀ i, |(Decomposer.arrays st).1 ((o + q) % s) i - (Spec.deviations s w (column X i) q).sum| ≤
    ((n + min X.length w : ℕ) : K) * (hi - lo)
  counts : ∀ q < s, ∃ m : ℕ, m ≤ n + min X.length w ∧
    (Decomposer.arrays st).2 ((o + q) % s) = ((fullVisits s w X.length q + m : ℕ) : K)

omit [IsStrictOrderedRing K] in
theorem shifted_start {s w n : ℕ} {lo hi : K} {st : DecomposerState K d} (h : Bounded s w n lo hi st) :
    Shifted s w n lo hi st.numSeen st.window [] st := by
  refine ⟨h.season, h.trend, ?_, rfl, fun q _ i => ?_, fun q _ => ?_⟩
  · rw [List.append_nil, lastN_of_le h.length]
  · simpa [Spec.deviations, column] using h.sums _ i
  · obtain ⟨m, h1, h2⟩ := h.counts ((st.numSeen + q) % s)
    exact ⟨m, by simpa using h1, by simpa [fullVisits] using h2⟩

theorem phase_inj {s o q r : ℕ} (hq : q < s) (hr : r < s) (h : (o + q) % s = (o + r) % s) : q = r := by
  have h1 : Nat.ModEq s q r := Nat.ModEq.add_left_cancel' o h
  have h2 := h1
  unfold Nat.ModEq at h2
  rwa [Nat.mod_eq_of_lt hq, Nat.mod_eq_of_lt hr] at h2

theorem shifted_learn {s w n o : ℕ} (hs : 0 < s) (hw : 0 < w) {lo hi : K} (hlh : lo ≤ hi) {W X : List (Fin d → K)}
    {st : DecomposerState K d} (hW : ∀ x ∈ W, ∀ i, lo ≤ x i ∧ x i ≤ hi) (hX : ∀ x ∈ X, ∀ i, lo ≤ x i ∧ x i ≤ hi)
    (h : Shifted s w n lo hi o W X st) {x : Fin d → K} (hx : ∀ i, lo ≤ x i ∧ x i ≤ hi) :
    Shifted s w n lo hi o W (X ++ [x]) { st with
      window := Decomposer.push st.trendWindow st.window x
      seasonal := some (Decomposer.learn st (Decomposer.push st.trendWindow st.window x)
        (st.numSeen % st.seasonLength) x (Decomposer.arrays st))
      numSeen := st.numSeen + 1 } := by
  have hp : Decomposer.push st.trendWindow st.window x = lastN w (W ++ (X ++ [x])) := by
    rw [h.trend, h.window, push_lastN, List.append_assoc]
  have hph : st.numSeen % st.seasonLength = (o + X.length % s) % s := by
    rw [h.seen, h.season, Nat.add_mod_mod]
  have hd : ∀ i, |x i - Decomposer.trend (lastN w (W ++ (X ++ [x]))) i| ≤ hi - lo := by
    intro i
    rw [Decomposition.trend_eq]
    have h := Decomposition.trendAfter_mem hw (v := column (W ++ (X ++ [x])) i) (lo := lo) (hi := hi)
      (by simp [column]) (by
        intro v hv
        simp only [column, List.mem_map, List.mem_append, List.mem_singleton] at hv
        obtain ⟨y, hy | hy | rfl, rfl⟩ := hv
        · exact hW y hy i
        · exact hX y hy i
        · exact hx i)
    rw [abs_le]
    constructor <;> linarith [(hx i).1, (hx i).2, h.1, h.2]
  have hcol : ∀ i, column (X ++ [x]) i = column X i ++ [x i] := fun i => by simp [column]
  have hlen : ∀ i, (column X i).length = X.length := fun i => by simp [column]
  have hfull : (lastN w (W ++ (X ++ [x]))).length = st.trendWindow ↔ w ≤ W.length + (X.length + 1) := by
    rw [Decomposition.length_lastN, h.trend, List.length_append, List.length_append, List.length_singleton]; omega
  have hr : X.length % s < s := Nat.mod_lt _ hs
  have hmono : ((n + min X.length w : ℕ) : K) * (hi - lo) ≤ ((n + min (X.length + 1) w : ℕ) : K) * (hi - lo) :=
    mul_le_mul_of_nonneg_right (by exact_mod_cast (by omega : n + min X.length w ≤ n + min (X.length + 1) w))
      (by linarith)
  refine ⟨h.season, h.trend, hp, by simp [h.seen]; omega, fun q hq i => ?_, fun q hq => ?_⟩
  · have h0 := h.sums q hq i
    rw [hcol, Decomposition.deviations_snoc, hlen, List.sum_append, List.length_append, List.length_singleton]
    simp only [Decomposer.arrays, Option.getD_some, Decomposer.learn, hp, hfull, hph] at h0 ⊢
    by_cases he : X.length % s = q
    · subst he
      by_cases hF : w ≤ X.length + 1
      · rw [if_pos (by omega), if_pos ⟨rfl, hF⟩]
        simp only [Function.update_self]
        rw [lastN_append_of_le (by simpa using hF), Decomposition.trend_eq, hcol, List.sum_singleton]
        refine le_trans (le_of_eq ?_) (h0.trans hmono)
        congr 1
        ring
      · rw [if_neg (show ¬ (X.length % s = X.length % s ∧ w ≤ X.length + 1) from fun h => hF h.2), List.sum_nil, add_zero]
        by_cases hI : w ≤ W.length + (X.length + 1)
        · rw [if_pos hI]
          simp only [Function.update_self]
          have h1 := hd i
          have h2 : ((n + min (X.length + 1) w : ℕ) : K) = ((n + min X.length w : ℕ) : K) + 1 := by
            rw [show n + min (X.length + 1) w = n + min X.length w + 1 by omega]
            push_cast
            ring
          rw [h2, add_sub_right_comm]
          exact (abs_add_le _ _).trans (by linarith)
        · rw [if_neg hI]
          exact h0.trans hmono
    · rw [if_neg (show ¬ (X.length % s = q ∧ w ≤ X.length + 1) from fun h => he h.1), List.sum_nil, add_zero]
      have hne : (o + q) % s ≠ (o + X.length % s) % s := fun h => he (phase_inj hr hq h.symm)
      by_cases hI : w ≤ W.length + (X.length + 1)
      · rw [if_pos hI]
        simp only [Function.update_of_ne hne]
        exact h0.trans hmono
      · rw [if_neg hI]
        exact h0.trans hmono
  · obtain ⟨m, h1, h2⟩ := h.counts q hq
    rw [List.length_append, List.length_singleton, fullVisits_succ]
    simp only [Decomposer.arrays, Option.getD_some, Decomposer.learn, hp, hfull, hph] at h2 ⊢
    by_cases he : X.length % s = q
    · subst he
      by_cases hF : w ≤ X.length + 1
      · rw [if_pos (by omega), if_pos ⟨rfl, hF⟩]
        refine ⟨m, by omega, ?_⟩
        simp only [Function.update_self]
        rw [h2]
        push_cast
        ring
      · rw [if_neg (show ¬ (X.length % s = X.length % s ∧ w ≤ X.length + 1) from fun h => hF h.2)]
        by_cases hI : w ≤ W.length + (X.length + 1)
        · rw [if_pos hI]
          refine ⟨m + 1, by omega, ?_⟩
          simp only [Function.update_self]
          rw [h2]
          push_cast
          ring
        · rw [if_neg hI]
          exact ⟨m, by omega, by simpa using h2⟩
    · rw [if_neg (show ¬ (X.length % s = q ∧ w ≤ X.length + 1) from fun h => he h.1)]
      have hne : (o + q) % s ≠ (o + X.length % s) % s := fun h => he (phase_inj hr hq h.symm)
      refine ⟨m, by omega, ?_⟩
      by_cases hI : w ≤ W.length + (X.length + 1)
      · rw [if_pos hI]
        simp only [Function.update_of_ne hne]
        simpa using h2
      · rw [if_neg hI]
        simpa using h2

theorem shifted_after {s w n o : ℕ} (hs : 0 < s) (hw : 0 < w) {lo hi : K} (hlh : lo ≤ hi) {W : List (Fin d → K)}
    (hW : ∀ x ∈ W, ∀ i, lo ≤ x i ∧ x i ≤ hi) (cs : List (TransCall (Fin d → K)))
    (hx : ∀ c ∈ cs, ∀ i, lo ≤ mentioned c i ∧ mentioned c i ≤ hi) :
    ∀ (X : List (Fin d → K)) (st : DecomposerState K d), (∀ x ∈ X, ∀ i, lo ≤ x i ∧ x i ≤ hi) →
      Shifted s w n lo hi o W X st →
      Shifted s w n lo hi o W (X ++ transFitted cs) (afterTrans (seasonalTrendDecomposer K d) st cs) := by
  induction cs with
  | nil => intro X st _ h; simpa [transFitted, afterTrans] using h
  | cons c cs ih =>
    intro X st hX h
    have ih := ih fun c hc => hx c (by simp [hc])
    have hc := hx c (by simp)
    have step : ∀ x : Fin d → K, (∀ i, lo ≤ x i ∧ x i ≤ hi) → ∀ y ∈ X ++ [x], ∀ i, lo ≤ y i ∧ y i ≤ hi := by
      intro x hx y hy
      rw [List.mem_append, List.mem_singleton] at hy
      rcases hy with h | rfl
      · exact hX y h
      · exact hx
    match c, hc with
    | .fit (.row x), hc =>
      have := ih _ _ (step x hc) (shifted_learn hs hw hlh hW hX h hc)
      rw [List.append_assoc] at this
      exact this
    | .fit (.pair x), hc =>
      have := ih _ _ (step x hc) (shifted_learn hs hw hlh hW hX h hc)
      rw [List.append_assoc] at this
      exact this
    | .fitTransform x, hc =>
      have := ih _ _ (step x hc) (shifted_learn hs hw hlh hW hX h hc)
      rw [List.append_assoc] at this
      exact this
    | .transform x, _ =>
      exact ih X _ hX ⟨h.season, h.trend, h.window, h.seen, h.sums, h.counts⟩

omit [Field K] [LinearOrder K] [IsStrictOrderedRing K] in
theorem mentioned_of_fitted {cs : List (TransCall (Fin d → K))} {x : Fin d → K} (h : x ∈ transFitted cs) :
    ∃ c ∈ cs, mentioned c = x := by
  induction cs with
  | nil => simp [transFitted] at h
  | cons c cs ih =>
    have lift : (∃ c ∈ cs, mentioned c = x) → ∃ c' ∈ c :: cs, mentioned c' = x := by
      rintro ⟨c', h1, h2⟩
      exact ⟨c', by simp [h1], h2⟩
    match c with
    | .fit (.row y) =>
      rcases List.mem_cons.1 h with rfl | h
      · exact ⟨_, List.mem_cons_self, rfl⟩
      · exact lift (ih h)
    | .fit (.pair y) =>
      rcases List.mem_cons.1 h with rfl | h
      · exact ⟨_, List.mem_cons_self, rfl⟩
      · exact lift (ih h)
    | .fitTransform y =>
      rcases List.mem_cons.1 h with rfl | h
      · exact ⟨_, List.mem_cons_self, rfl⟩
      · exact lift (ih h)
    | .transform y => exact lift (ih h)

omit [Field K] [LinearOrder K] [IsStrictOrderedRing K] in
theorem new_eq {s w : ℕ} {s0 : DecomposerState K d} (hs : 0 < s) (hw : 0 < w)
    (h0 : Decomposer.new (s : ℤ) (some (w : ℤ)) = .ok s0) : s0 = ⟨s, w, [], none, 0⟩ := by
  unfold Decomposer.new at h0
  rw [if_neg (by omega)] at h0
  simp only at h0
  rw [if_neg (by omega)] at h0
  simp only [Except.ok.injEq] at h0
  rw [← h0]
  simp only [Int.toNat_natCast]

end RawDecomposer

section
variable {K : Type*} [Field K] [LinearOrder K] [IsStrictOrderedRing K] {d : ℕ}

/-- That a decomposer of seasons of length `s` and trend windows of length `w` recovers from the interrupted
calls `h`: after complete calls `cs` that follow, `transform_partial` returns, and what it returns is close
to what a new decomposer returns that has seen the calls `cs` only; how close depends on the number of
fits in the same phase. -/
def Spec.DecomposerRecovers (s w : ℕ) (s0 : DecomposerState K d) (h : List (TransCall (Fin d → K) × Option ℕ)) : Prop :=
  ∀ (cs : List (TransCall (Fin d → K))) (lo hi : K),
    (∀ e ∈ h, ∀ i, lo ≤ mentioned e.1 i ∧ mentioned e.1 i ≤ hi) →
    (∀ c ∈ cs, ∀ i, lo ≤ mentioned c i ∧ mentioned c i ≤ hi) → lo ≤ hi →
    0 < fullVisits s w (transFitted cs).length ((transFitted cs).length % s) →
    ∀ x : Fin d → K, ∃ y y',
      (transformPartial (afterCalls statements s0.raw (h ++ cs.map fun c => (c, none))) x).out = .ok y ∧
      ((seasonalTrendDecomposer K d).transformPartial (afterTrans (seasonalTrendDecomposer K d) s0 cs) x).out = .ok y' ∧
      ∀ i, |y i - y' i| ≤ 2 * ((h.length : K) + w) * (hi - lo) /
        fullVisits s w (transFitted cs).length ((transFitted cs).length % s)

/-- **C192 (partial).** A decomposer recovers from every history of complete and interrupted calls that does
not start with half an initialisation. -/
theorem C192_partial {s w : ℕ} (hs : 0 < s) (hw : 0 < w) {s0 : DecomposerState K d}
    (h0 : Decomposer.new (s : ℤ) (some (w : ℤ)) = .ok s0) (h : List (TransCall (Fin d → K) × Option ℕ))
    (hh : ¬ startsHalf h) : DecomposerRecovers s w s0 h := by
  intro cs lo hi hr hcs hlh hN x
  have hfresh := C168_transform hs hw h0 cs x
  obtain rfl := new_eq hs hw h0
  obtain ⟨st, h1, h2⟩ := bounded_history hw hlh h hr hh (s := s)
  have hsh := shifted_after hs hw hlh h2.range cs hcs [] st (by simp) (shifted_start h2)
  rw [List.nil_append] at hsh
  have hcalls : afterCalls statements (DecomposerState.raw ⟨s, w, [], none, 0⟩) (h ++ cs.map fun c => (c, none)) =
      (afterTrans (seasonalTrendDecomposer K d) st cs).raw := by
    rw [← afterCalls_complete, ← h1]
    unfold afterCalls
    rw [List.foldl_append]
  refine ⟨_, _, by rw [hcalls, transform_raw]; rfl, hfresh, fun i => ?_⟩
  simp only
  set st' := afterTrans (seasonalTrendDecomposer K d) st cs with hst'
  set X := transFitted cs with hX
  set N := fullVisits s w X.length (X.length % s) with hNdef
  have hwX : w ≤ X.length := by
    obtain ⟨t, ht⟩ := List.exists_mem_of_length_pos hN
    rw [List.mem_filter, List.mem_range] at ht
    have := of_decide_eq_true ht.2
    omega
  have hX' : ∀ x ∈ X, ∀ i, lo ≤ x i ∧ x i ≤ hi := by
    intro y hy
    obtain ⟨c, hc, rfl⟩ := mentioned_of_fitted hy
    exact hcs c hc
  have htr : Decomposer.trend st'.window i = trendAfter w (column X i) := by
    rw [hsh.window, lastN_append_of_le hwX, Decomposition.trend_eq]
  have hph : st'.numSeen % st'.seasonLength = (st.numSeen + X.length % s) % s := by
    rw [hsh.seen, hsh.season, Nat.add_mod_mod]
  have hq : X.length % s < s := Nat.mod_lt _ hs
  have hsum := hsh.sums _ hq i
  obtain ⟨m, hm1, hm2⟩ := hsh.counts _ hq
  have hN1 : (0 : K) < N := by exact_mod_cast hN
  have hm0 : (0 : K) ≤ m := by exact_mod_cast Nat.zero_le m
  have hse : |seasonAt s w (column X i) (X.length % s)| ≤ hi - lo :=
    Decomposition.seasonAt_abs hw s hlh (by
      intro v hv
      obtain ⟨y, hy, rfl⟩ := List.mem_map.1 hv
      exact hX' y hy i) _
  have hdv : (Spec.deviations s w (column X i) (X.length % s)).sum = N * seasonAt s w (column X i) (X.length % s) := by
    unfold seasonAt
    rw [Decomposition.meanOrZero_eq, fullVisits_eq, ← hNdef, if_neg (by omega)]
    field_simp
  rw [htr, hph]
  unfold Decomposer.seasonalAt
  rw [hm2, if_neg (by rw [Nat.cast_eq_zero]; omega)]
  rw [hdv] at hsum
  set f := seasonAt s w (column X i) (X.length % s)
  set A := (Decomposer.arrays st').1 ((st.numSeen + X.length % s) % s) i
  rw [show min X.length w = w by omega] at hsum hm1
  have hpos : (0 : K) < ((N + m : ℕ) : K) := by push_cast; linarith
  have hR : 0 ≤ hi - lo := by linarith
  have hmn : (m : K) ≤ (h.length : K) + w := by exact_mod_cast hm1
  have e1 : x i - trendAfter w (column X i) - A / ((N + m : ℕ) : K) - (x i - trendAfter w (column X i) - f) =
      (m * f - (A - N * f)) / ((N + m : ℕ) : K) := by
    field_simp
    push_cast
    ring
  rw [e1, abs_div, abs_of_pos hpos]
  have e2 : |m * f - (A - N * f)| ≤ 2 * ((h.length : K) + w) * (hi - lo) := by
    have h3 : |(m : K) * f| ≤ ((h.length : K) + w) * (hi - lo) := by
      rw [abs_mul, abs_of_nonneg hm0]
      exact mul_le_mul hmn hse (abs_nonneg _) (hm0.trans hmn)
    push_cast at hsum
    have := (abs_sub _ _).trans (add_le_add h3 hsum)
    linarith
  exact div_le_div₀ ((abs_nonneg _).trans e2) e2 hN1 (by push_cast; linarith)

omit [IsStrictOrderedRing K] in
/-- **C192 is false**, for every season length and window: there is a history after which a decomposer does
not recover, one single call that was interrupted. -/
theorem C192_refuted {s w : ℕ} (hs : 0 < s) {s0 : DecomposerState K d}
    (h0 : Decomposer.new (s : ℤ) (some (w : ℤ)) = .ok s0) : ¬ ∀ h, DecomposerRecovers s w s0 h := by
  intro hr
  have hfit : ∀ n, transFitted (List.replicate n (TransCall.fit (.row fun _ : Fin d => (0 : K)))) =
      List.replicate n fun _ => 0 := by
    intro n
    induction n with
    | zero => rfl
    | succ n ih => rw [List.replicate_succ, List.replicate_succ, transFitted, ih]
  obtain ⟨y, y', h1, -, -⟩ := hr [(.fit (.row fun _ => 0), some 1)]
    (List.replicate (w + s) (.fit (.row fun _ => 0))) 0 0 (by simp [mentioned]) (by
      intro c hc i
      rw [List.eq_of_mem_replicate hc]
      simp [mentioned]) le_rfl (by
      rw [hfit, List.length_replicate]
      apply List.length_pos_of_mem (a := w)
      rw [List.mem_filter, List.mem_range]
      exact ⟨by omega, by simp⟩) fun _ => 0
  have h2 := C192_broken h0 ((.fit (.row fun _ => 0), some 1) ::
    (List.replicate (w + s) (.fit (.row fun _ => 0))).map fun c => (c, none)) trivial fun _ => 0
  cases h1.symm.trans h2

end

/-- **C192 (what goes wrong, fits).** The same decomposer: after `w - 1` further `fit_partial` calls, every
`fit_partial` raises a `TypeError` as well. -/
theorem C192_broken_fit {K : Type*} [Field K] {d s w : ℕ} (hs : 0 < s) (hw : 0 < w)
    {s0 : DecomposerState K d} (h0 : Decomposer.new (s : ℤ) (some (w : ℤ)) = .ok s0)
    (h : List (TransCall (Fin d → K) × Option ℕ)) (hh : startsHalf h) (X : List (FitArg (Fin d → K)))
    (hX : w ≤ X.length + 1) (x : FitArg (Fin d → K)) :
    (fitPartial (afterCalls statements s0.raw (h ++ X.map fun x => (.fit x, none))) x).out =
      .error .typeError := by
  obtain rfl := new_eq hs hw h0
  have hf := half_of_startsHalf (s := ⟨s, w, [], none, 0⟩) rfl h hh
  rw [show afterCalls statements (DecomposerState.raw ⟨s, w, [], none, 0⟩) (h ++ X.map fun x => (.fit x, none)) =
    afterCalls statements (afterCalls statements (DecomposerState.raw ⟨s, w, [], none, 0⟩) h)
      (X.map fun x => (.fit x, none)) by unfold afterCalls; rw [List.foldl_append]]
  have ht := window_calls h (DecomposerState.raw ⟨s, w, [], none, 0⟩) (by simp [DecomposerState.raw])
  have hg := half_calls (X.map fun x => (.fit x, none)) _ hf
  have hl := window_fits X _ ht.2
  set r := afterCalls statements (DecomposerState.raw ⟨s, w, [], none, 0⟩) h
  set r' := afterCalls statements r (X.map fun x => (.fit x, none))
  have hn : initialised r' = r' := by unfold initialised; rw [half_init hg]; rfl
  have hlen : ∀ y, (Decomposer.push r'.trendWindow r'.window y).length = r'.trendWindow := by
    intro y
    have h1 := hl.2.1
    have h2 := hl.2.2
    have h3 : r.trendWindow = w := ht.1
    rw [push_eq (by rw [hl.1]; exact h1), lastN_length, List.length_append, List.length_singleton, hl.1]
    omega
  unfold fitPartial
  simp only [hn, hg.2, Option.isNone_none, and_true, hlen, if_true]
  rfl

/-! The hypotheses are met: a decomposer of seasons of 2 values with trend windows of 2 values, whose second
fit was interrupted after the sums and before the counts. -/

private def fitOf (v : ℚ) : TransCall (Fin 1 → ℚ) := .fit (.row fun _ => v)

example : Decomposer.new (2 : ℕ) (some (2 : ℕ)) = .ok (⟨2, 2, [], none, 0⟩ : DecomposerState ℚ 1) := rfl

example : ¬ startsHalf [(fitOf 1, none), (fitOf 3, some 2), (fitOf 7, none)] := id

example : startsHalf [(fitOf 1, some 0), (fitOf 1, some 1), (fitOf 3, none), (fitOf 7, none)] := trivial

example : 0 < fullVisits 2 2 ([1, 5, 1, 5].map fitOf |> transFitted).length
    (([1, 5, 1, 5].map fitOf |> transFitted).length % 2) := by decide +kernel

/-- It has counted the interrupted fit's deviation without counting the fit, and is out of step. -/
example : ((transformPartial (afterCalls statements (DecomposerState.raw (⟨2, 2, [], none, 0⟩ : DecomposerState ℚ 1))
      ([(fitOf 1, none), (fitOf 3, some 2), (fitOf 7, none)] ++ ([1, 5, 1, 5].map fitOf).map fun c => (c, none)))
      fun _ => 1).out.toOption.map fun y => y 0) = some (1 / 2 : ℚ) ∧
    (((seasonalTrendDecomposer ℚ 1).transformPartial (afterTrans (seasonalTrendDecomposer ℚ 1) ⟨2, 2, [], none, 0⟩
      ([1, 5, 1, 5].map fitOf)) fun _ => 1).out.toOption.map fun y => y 0) = some 0 := by
  decide +kernel

end Pysad
