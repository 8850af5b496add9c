import Verif.Model.Base
import Verif.Model.Numpy

/-! Model of `pysad/transform/preprocessing/seasonal_trend_decomposer.py`. An
instance is an array of shape `(d,)`; all instances given to one decomposer have
the same `d`. -/

namespace Pysad

/-- Attributes of `SeasonalTrendDecomposer`, l.35-40. `seasonal` is the pair
`(seasonal_sums, seasonal_counts)`, which are `None` until the first call; row `p`
of the arrays is the value at `p`. `deque(maxlen=trend_window)` is a list that
forgets its first item when it is longer. -/
structure DecomposerState (K : Type*) (d : ℕ) where
  seasonLength : ℕ
  trendWindow : ℕ
  window : List (Fin d → K)
  seasonal : Option ((ℕ → Fin d → K) × (ℕ → K))
  numSeen : ℕ

namespace Decomposer
variable {K : Type*} [Field K] {d : ℕ}

/-- `__init__`, l.24-40. -/
def new (seasonLength : ℤ) (trendWindow : Option ℤ) : Except PyErr (DecomposerState K d) :=
  if seasonLength < 1 then .error .valueError
  else
    match trendWindow with
    | none => .ok ⟨seasonLength.toNat, seasonLength.toNat, [], none, 0⟩
    | some w =>
      if w < 1 then .error .valueError
      else .ok ⟨seasonLength.toNat, w.toNat, [], none, 0⟩

/-- `_as_array`, l.42-46. -/
def asArray {α : Type*} : FitArg α → α
  | .row x => x
  | .pair x => x

/-- The arrays after `if self.seasonal_sums is None: self._init_seasonal_state(X)`,
l.48-50. -/
def arrays (s : DecomposerState K d) : (ℕ → Fin d → K) × (ℕ → K) :=
  s.seasonal.getD (fun _ _ => 0, fun _ => 0)

/-- `_trend`, l.52-56. -/
def trend (window : List (Fin d → K)) : Fin d → K :=
  if window.length = 0 then fun _ => 0
  else fun i => npMean (window.map fun x => x i)

/-- `_seasonal`, l.58-62. -/
def seasonalAt [DecidableEq K] (a : (ℕ → Fin d → K) × (ℕ → K)) (phase : ℕ) : Fin d → K :=
  if a.2 phase = 0 then fun _ => 0 else fun i => a.1 phase i / a.2 phase

/-- `deque.append` with `maxlen`. -/
def push (maxlen : ℕ) (window : List (Fin d → K)) (x : Fin d → K) : List (Fin d → K) :=
  if (window ++ [x]).length > maxlen then pyTail (window ++ [x]) else window ++ [x]

/-- The assignments `seasonal_sums[phase] += X - trend; seasonal_counts[phase] += 1`
guarded by the length of the window, l.82-84 and l.125-127. -/
def learn (s : DecomposerState K d) (window : List (Fin d → K)) (phase : ℕ) (x : Fin d → K)
    (a : (ℕ → Fin d → K) × (ℕ → K)) : (ℕ → Fin d → K) × (ℕ → K) :=
  if window.length = s.trendWindow then
    (Function.update a.1 phase fun i => a.1 phase i + (x i - trend window i),
     Function.update a.2 phase (a.2 phase + 1))
  else a

/-- `fit_partial`, l.64-88. -/
def fitPartial (s : DecomposerState K d) (X : FitArg (Fin d → K)) :
    Res (DecomposerState K d) Unit :=
  let x := asArray X
  let a := arrays s
  let phase := s.numSeen % s.seasonLength
  let window := push s.trendWindow s.window x
  .ok () { s with
    window := window, seasonal := some (learn s window phase x a), numSeen := s.numSeen + 1 }

/-- `transform_partial`, l.90-105. -/
def transformPartial [DecidableEq K] (s : DecomposerState K d) (x : Fin d → K) :
    Res (DecomposerState K d) (Fin d → K) :=
  let a := arrays s
  let s := { s with seasonal := some a }
  let phase := s.numSeen % s.seasonLength
  .ok (fun i => x i - trend s.window i - seasonalAt a phase i) s

/-- `fit_transform_partial`, l.107-132. -/
def fitTransformPartial [DecidableEq K] (s : DecomposerState K d) (x : Fin d → K) :
    Res (DecomposerState K d) (Fin d → K) :=
  let a := arrays s
  let phase := s.numSeen % s.seasonLength
  let window := push s.trendWindow s.window x
  let t := trend window
  let a := learn s window phase x a
  let seasonal := seasonalAt a phase
  .ok (fun i => x i - t i - seasonal i)
    { s with window := window, seasonal := some a, numSeen := s.numSeen + 1 }

end Decomposer

/-- `SeasonalTrendDecomposer` as a transformer. -/
def seasonalTrendDecomposer (K : Type*) [Field K] [DecidableEq K] (d : ℕ) :
    Transformer (DecomposerState K d) (Fin d → K) (Fin d → K) where
  fitPartial := Decomposer.fitPartial
  transformPartial := Decomposer.transformPartial
  fitTransformPartial := Decomposer.fitTransformPartial

end Pysad
