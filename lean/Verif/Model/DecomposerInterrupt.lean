import Verif.Model.SeasonalTrend
import Verif.Model.Interrupt
import Verif.Spec.Decomposition

/-! `pysad/transform/preprocessing/seasonal_trend_decomposer.py` store by store, to say what is left behind by
a call that is interrupted (`KeyboardInterrupt`, a signal handler that raises). -/

namespace Pysad

/-- Attributes of `SeasonalTrendDecomposer`, l.35-40. In contrast to `DecomposerState` the two arrays are two
attributes, each of which may be `None`. -/
structure RawDecomposer (K : Type*) (d : ℕ) where
  seasonLength : ℕ
  trendWindow : ℕ
  window : List (Fin d → K)
  seasonalSums : Option (ℕ → Fin d → K)
  seasonalCounts : Option (ℕ → K)
  numSeen : ℕ

/-- A decomposer whose arrays are both there or both missing. -/
def DecomposerState.raw {K : Type*} {d : ℕ} (s : DecomposerState K d) : RawDecomposer K d :=
  ⟨s.seasonLength, s.trendWindow, s.window, s.seasonal.map Prod.fst, s.seasonal.map Prod.snd, s.numSeen⟩

namespace RawDecomposer
variable {K : Type*} [Field K] {d : ℕ}

/-- The states after each of the two assignments of `_init_seasonal_state`, l.48-50, which is called if
`seasonal_sums is None` (l.75, l.101, l.118). -/
def initStages (s : RawDecomposer K d) : List (RawDecomposer K d) :=
  match s.seasonalSums with
  | some _ => []
  | none =>
    let s1 := { s with seasonalSums := some fun _ _ => 0 }
    [s1, { s1 with seasonalCounts := some fun _ => 0 }]

/-- The states after each of the assignments that follow in `fit_partial`, l.78-86, and
`fit_transform_partial`, l.121-130. If `seasonal_counts` is `None`, l.84 (l.127) raises a `TypeError`. -/
def learnStages (s : RawDecomposer K d) (x : Fin d → K) : List (RawDecomposer K d) :=
  let phase := s.numSeen % s.seasonLength
  let window := Decomposer.push s.trendWindow s.window x
  let s1 := { s with window := window }
  if window.length = s.trendWindow then
    let sums := s.seasonalSums.map fun (a : ℕ → Fin d → K) =>
      Function.update a phase fun i => a phase i + (x i - Decomposer.trend window i)
    let s2 := { s1 with seasonalSums := sums }
    match s.seasonalCounts with
    | none => [s1, s2]
    | some c =>
      let s3 := { s2 with seasonalCounts := some (Function.update c phase (c phase + 1)) }
      [s1, s2, s3, { s3 with numSeen := s.numSeen + 1 }]
  else [s1, { s1 with numSeen := s.numSeen + 1 }]

/-- The state after `_init_seasonal_state`, if it is called. -/
def initialised (s : RawDecomposer K d) : RawDecomposer K d := (initStages s).getLast?.getD s

/-- The states after each of the assignments of a call: `fit_partial` (l.75-86), `transform_partial`
(l.101-102), `fit_transform_partial` (l.118-130). -/
def stages (s : RawDecomposer K d) : Spec.TransCall (Fin d → K) → List (RawDecomposer K d)
  | .fit X => initStages s ++ learnStages (initialised s) (Decomposer.asArray X)
  | .transform _ => initStages s
  | .fitTransform x => initStages s ++ learnStages (initialised s) x

/-- The assignments of a call, made in the state `s`. -/
def statements (c : Spec.TransCall (Fin d → K)) (s : RawDecomposer K d) :
    List (RawDecomposer K d → RawDecomposer K d) :=
  (stages s c).map fun t _ => t

/-- `transform_partial`, l.90-105: `self.seasonal_counts[phase]` (l.59) raises a `TypeError` if
`seasonal_counts` is `None`. -/
def transformPartial [DecidableEq K] (s : RawDecomposer K d) (x : Fin d → K) :
    Res (RawDecomposer K d) (Fin d → K) :=
  let s := initialised s
  let phase := s.numSeen % s.seasonLength
  match s.seasonalSums, s.seasonalCounts with
  | some a, some c =>
    .ok (fun i => x i - Decomposer.trend s.window i - Decomposer.seasonalAt (a, c) phase i) s
  | _, _ => .err .typeError s

/-- `fit_partial`, l.64-88: the assignments above; `self.seasonal_counts[phase] += 1` (l.84), which is
reached if the window is full, raises a `TypeError` if `seasonal_counts` is `None`. -/
def fitPartial (s : RawDecomposer K d) (X : FitArg (Fin d → K)) : Res (RawDecomposer K d) Unit :=
  let x := Decomposer.asArray X
  let s' := runStatements (statements (.fit X) s) s
  if (Decomposer.push s.trendWindow s.window x).length = s.trendWindow ∧
      (initialised s).seasonalCounts.isNone then .err .typeError s'
  else .ok () s'

end RawDecomposer

end Pysad
