import Verif.Model.Base
import Verif.Model.Numpy
import Verif.Model.Window

/-! Model of `pysad/transform/preprocessing/modified_stl_residual.py`. The
`statsmodels` STL fit is external: it is a function from the series to its
seasonal component which may raise. -/

namespace Pysad

/-- Attributes of `ModifiedSTLResidualTransformer`, l.35-39. -/
structure StlState (K : Type*) where
  period : ℕ
  windowSize : Option ℕ
  window : Option (Window K)
  deriving DecidableEq, Repr

/-- Argument of the partial methods: an array, or a tuple whose first component
is one. -/
abbrev StlArg (K : Type*) := FitArg (NdArray K)

namespace ModifiedStl
variable {K : Type*} [Field K] [LT K] [DecidableLT K]

/-- `__init__`, l.26-39. -/
def new (period : ℤ) (windowSize : Option ℤ) : Except PyErr (StlState K) :=
  if period < 2 then .error .valueError
  else
    match windowSize with
    | none => .ok ⟨period.toNat, none, none⟩
    | some w =>
      if w < 2 * period then .error .valueError
      else .ok ⟨period.toNat, some w.toNat, some (Window.new w.toNat)⟩

/-- `_normalize_input`, l.41-45. -/
def normalizeInput {α : Type*} : FitArg α → α
  | .row x => x
  | .pair x => x

/-- `_as_univariate`, l.47-56: `ravel` of a one-column matrix concatenates its
rows. -/
def asUnivariate (X : StlArg K) : Except PyErr (List K) :=
  match normalizeInput X with
  | .mat cols rows => if cols = 1 then .ok rows.flatten else .error .valueError
  | .vec l => .ok l
  | .scalar _ => .error .valueError
  | .higher => .error .valueError

/-- `X - seasonal - np.median(X)`, l.81. The fitted seasonal component is as long
as the series; anything else is an error. -/
def subtract (X seasonal : List K) : Except PyErr (List K) :=
  if X.length ≠ seasonal.length then .error .valueError
  else
    match npMedian X with
    | none => .error .other
    | some m => .ok (List.zipWith (fun x s => x - s - m) X seasonal)

/-- `transform_window`, l.58-81, after the conversion of its argument. -/
def transformWindow (stl : List K → Except PyErr (List K)) (s : StlState K) (X : List K) :
    Except PyErr (List K) :=
  if X.length < 2 * s.period then .error .valueError
  else (stl X).bind fun seasonal => subtract X seasonal

/-- `fit_partial`, l.83-93. -/
def fitPartial (s : StlState K) (X : StlArg K) : Res (StlState K) Unit :=
  match s.window with
  | none => .err .valueError s
  | some w =>
    match asUnivariate X with
    | .error e => .err e s
    | .ok l =>
      if l.length ≠ 1 then .err .valueError s
      else
        match l[0]? with
        | none => .err .indexError s
        | some v => .ok () { s with window := some (w.update v) }

/-- `_as_partial_value`, l.95-100. -/
def asPartialValue (X : StlArg K) : Except PyErr K :=
  match asUnivariate X with
  | .error e => .error e
  | .ok l =>
    if l.length ≠ 1 then .error .valueError
    else
      match l[0]? with
      | none => .error .indexError
      | some v => .ok v

/-- `_candidate_values`, l.105-109, `values[-self.window_size:]`. -/
def candidateValues (windowSize : ℕ) (w : Window K) (v : K) : List K :=
  let values := w.get ++ [v]
  values.drop (values.length - windowSize)

/-- `_latest_residual`, l.111-116; `residuals[-1]`. -/
def latestResidual (stl : List K → Except PyErr (List K)) (s : StlState K) (values : List K) :
    Except PyErr K :=
  if values.length < 2 * s.period then .ok 0
  else (transformWindow stl s values).bind fun residuals => pyIndex residuals (-1)

/-- `transform_partial`, l.118-123. -/
def transformPartial (stl : List K → Except PyErr (List K)) (s : StlState K) (X : StlArg K) :
    Res (StlState K) K :=
  match s.window, s.windowSize with
  | some w, some n =>
    match asPartialValue X with
    | .error e => .err e s
    | .ok v => .ofExcept (latestResidual stl s (candidateValues n w v)) s
  | _, _ => .err .valueError s

/-- `fit_transform_partial`, l.125-128. -/
def fitTransformPartial (stl : List K → Except PyErr (List K)) (s : StlState K) (X : StlArg K) :
    Res (StlState K) K :=
  (fitPartial s X).bind fun _ s =>
    match s.window with
    | none => .err .attributeError s
    | some w => .ofExcept (latestResidual stl s w.get) s

/-- A sequence of `fit_partial` calls whose exceptions are caught by the caller. -/
def fits (s : StlState K) (Xs : List (StlArg K)) : StlState K :=
  Xs.foldl (fun s X => (fitPartial s X).state) s

end ModifiedStl

end Pysad
