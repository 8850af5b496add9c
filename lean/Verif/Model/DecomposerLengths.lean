import Verif.Model.SeasonalTrend

/-! `SeasonalTrendDecomposer` (`pysad/transform/preprocessing/seasonal_trend_decomposer.py`) for instances of any
length. `Model/SeasonalTrend.lean` describes it for instances whose lengths agree. -/

namespace Pysad

/-- Attributes of `SeasonalTrendDecomposer`, l.35-40, as in `DecomposerState`; rows of `seasonal_sums` and instances
are arrays of shape `(m,)` for some `m`. -/
structure RaggedState (K : Type*) where
  seasonLength : ℕ
  trendWindow : ℕ
  window : List (List K)
  seasonal : Option ((ℕ → List K) × (ℕ → K))
  numSeen : ℕ

namespace RaggedDecomposer
variable {K : Type*} [Field K]

/-- `u - v` for one-dimensional numpy arrays (external, by the documentation of broadcasting): entry by entry if the
lengths agree, an array of one entry counts as that entry repeated, `ValueError` otherwise. -/
def sub (u v : List K) : Except PyErr (List K) :=
  if u.length = v.length then .ok (List.zipWith (· - ·) u v)
  else
    match u, v with
    | [a], v => .ok (v.map fun b => a - b)
    | u, [b] => .ok (u.map fun a => a - b)
    | _, _ => .error .valueError

/-- `u += v` for one-dimensional numpy arrays (external): as for `u + v`, but the result must have the length of `u`. -/
def addInPlace (u v : List K) : Except PyErr (List K) :=
  if u.length = v.length then .ok (List.zipWith (· + ·) u v)
  else
    match v with
    | [b] => .ok (u.map fun a => a + b)
    | _ => .error .valueError

/-- `__init__`, l.24-40. -/
def new (seasonLength : ℤ) (trendWindow : Option ℤ) : Except PyErr (RaggedState K) :=
  if seasonLength < 1 then .error .valueError
  else
    match trendWindow with
    | none => .ok ⟨seasonLength.toNat, seasonLength.toNat, [], none, 0⟩
    | some w =>
      if w < 1 then .error .valueError
      else .ok ⟨seasonLength.toNat, w.toNat, [], none, 0⟩

/-- The arrays after `if self.seasonal_sums is None: self._init_seasonal_state(X)`, l.48-50. -/
def arrays (s : RaggedState K) (x : List K) : (ℕ → List K) × (ℕ → K) :=
  s.seasonal.getD (fun _ => List.replicate x.length 0, fun _ => 0)

/-- `_trend`, l.52-56; `none` is the float `0.0`. `np.asarray` of arrays of different lengths raises `ValueError`
(numpy 1.24 and later; `requirements.txt` names 2.1.3). -/
def trend : List (List K) → Except PyErr (Option (List K))
  | [] => .ok none
  | y :: ys =>
    if ys.all fun z => z.length = y.length then
      .ok (some ((List.range y.length).map fun i => npMean ((y :: ys).map fun z => z.getD i 0)))
    else .error .valueError

/-- `X - self._trend()`, l.105, where the trend may be the float `0.0`. -/
def subTrend (x : List K) : Option (List K) → Except PyErr (List K)
  | none => .ok x
  | some t => sub x t

/-- `… - self._seasonal(phase)`, l.58-62 and l.105. -/
def subSeasonal [DecidableEq K] (a : (ℕ → List K) × (ℕ → K)) (phase : ℕ) (y : List K) : Except PyErr (List K) :=
  if a.2 phase = 0 then .ok y else sub y ((a.1 phase).map fun v => v / a.2 phase)

/-- `deque.append` with `maxlen`. -/
def push (maxlen : ℕ) (window : List (List K)) (x : List K) : List (List K) :=
  if (window ++ [x]).length > maxlen then pyTail (window ++ [x]) else window ++ [x]

/-- `if len(self.window) == self.trend_window: self.seasonal_sums[phase] += X - trend; self.seasonal_counts[phase] += 1`,
l.82-84 and l.125-127. -/
def learn (maxlen : ℕ) (window : List (List K)) (phase : ℕ) (x : List K) (t : Option (List K))
    (a : (ℕ → List K) × (ℕ → K)) : Except PyErr ((ℕ → List K) × (ℕ → K)) :=
  if window.length = maxlen then do
    let deviation ← subTrend x t
    let row ← addInPlace (a.1 phase) deviation
    .ok (Function.update a.1 phase row, Function.update a.2 phase (a.2 phase + 1))
  else .ok a

/-- `fit_partial`, l.64-88. When it raises, the instance is already in the window, and `num_seen` is not increased. -/
def fitPartial (s : RaggedState K) (X : FitArg (List K)) : Res (RaggedState K) Unit :=
  let x := Decomposer.asArray X
  let a := arrays s x
  let phase := s.numSeen % s.seasonLength
  let window := push s.trendWindow s.window x
  let s := { s with window := window, seasonal := some a }
  match trend window with
  | .error e => .err e s
  | .ok t =>
    match learn s.trendWindow window phase x t a with
    | .error e => .err e s
    | .ok a => .ok () { s with seasonal := some a, numSeen := s.numSeen + 1 }

/-- `transform_partial`, l.90-105. -/
def transformPartial [DecidableEq K] (s : RaggedState K) (x : List K) : Res (RaggedState K) (List K) :=
  let a := arrays s x
  let s := { s with seasonal := some a }
  let phase := s.numSeen % s.seasonLength
  match (do subSeasonal a phase (← subTrend x (← trend s.window)) : Except PyErr (List K)) with
  | .error e => .err e s
  | .ok y => .ok y s

/-- `fit_transform_partial`, l.107-132. -/
def fitTransformPartial [DecidableEq K] (s : RaggedState K) (x : List K) : Res (RaggedState K) (List K) :=
  let a := arrays s x
  let phase := s.numSeen % s.seasonLength
  let window := push s.trendWindow s.window x
  let s := { s with window := window, seasonal := some a }
  match trend window with
  | .error e => .err e s
  | .ok t =>
    match learn s.trendWindow window phase x t a with
    | .error e => .err e s
    | .ok a =>
      let s := { s with seasonal := some a, numSeen := s.numSeen + 1 }
      match (do subSeasonal a phase (← subTrend x t) : Except PyErr (List K)) with
      | .error e => .err e s
      | .ok y => .ok y s

end RaggedDecomposer

/-- `SeasonalTrendDecomposer` as a transformer of arrays of any length. -/
def raggedDecomposer (K : Type*) [Field K] [DecidableEq K] : Transformer (RaggedState K) (List K) (List K) where
  fitPartial := RaggedDecomposer.fitPartial
  transformPartial := RaggedDecomposer.transformPartial
  fitTransformPartial := RaggedDecomposer.fitTransformPartial

end Pysad
