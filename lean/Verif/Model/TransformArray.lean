import Verif.Model.Base
import Verif.Model.Numpy
import Verif.Model.Projection
import Verif.Model.Scalers
import Verif.Model.SeasonalTrend
import Verif.Model.ModifiedStl

/-! Model of the output array of `BaseTransformer.transform` and `fit_transform`,
`pysad/core/base_transformer.py`. -/

namespace Pysad

/-- `transformed_X[i] = result` for a row of `w` entries, `base_transformer.py` l.60-63 and
l.94-97 (both branches do the same). numpy copies a result of length `w`, repeats a
single number, and raises `ValueError` for any other shape. (Arrays of rank above 2 that numpy
would still accept are taken to raise.) -/
def assignRow {K : Type*} (w : ℕ) : NdArray K → Except PyErr (List K)
  | .scalar v => .ok (List.replicate w v)
  | .vec l =>
    if l.length = w then .ok l
    else
      match l with
      | [v] => .ok (List.replicate w v)
      | _ => .error .valueError
  | .mat _ [l] =>
    if l.length = w then .ok l
    else
      match l with
      | [v] => .ok (List.replicate w v)
      | _ => .error .valueError
  | .mat _ _ => .error .valueError
  | .higher => .error .valueError

/-- `self.output_dims if self.output_dims > 0 else X.shape[1]`, l.56 and l.90, for `X` with `d`
columns. -/
def outputWidth (outputDims : ℤ) (d : ℕ) : ℕ := if 0 < outputDims then outputDims.toNat else d

namespace Transformer
variable {σ α K : Type*} (t : Transformer σ α (NdArray K))

/-- `BaseTransformer.transform`, l.47-65, on an array with `d` columns: the rows of the
returned array. -/
def transformArray (outputDims : ℤ) (d : ℕ) (s : σ) (X : List α) : Res σ (List (List K)) :=
  Gen.forEach (fun s (q : α × Option Unit) =>
    (t.transformPartial s q.1).bind fun r s => .ofExcept (assignRow (outputWidth outputDims d) r) s)
    s (iterate X none)

/-- `BaseTransformer.fit_transform`, l.81-99. -/
def fitTransformArray (outputDims : ℤ) (d : ℕ) (s : σ) (X : List α) : Res σ (List (List K)) :=
  Gen.forEach (fun s (q : α × Option Unit) =>
    (t.fitTransformPartial s q.1).bind fun r s =>
      .ofExcept (assignRow (outputWidth outputDims d) r) s)
    s (iterate X none)

/-- A transformer with another representation of its results. -/
def mapOut {σ α β γ : Type*} (f : β → γ) (t : Transformer σ α β) : Transformer σ α γ where
  fitPartial := t.fitPartial
  transformPartial s x := (t.transformPartial s x).map f
  fitTransformPartial s x := (t.fitTransformPartial s x).map f

/-- The array of shape `(d,)` with the given entries. -/
def ofFin {d : ℕ} {K : Type*} (x : Fin d → K) : NdArray K := .vec (List.ofFn x)

end Transformer

/-- `ModifiedSTLResidualTransformer`,
`pysad/transform/preprocessing/modified_stl_residual.py` l.83-128, as a transformer. -/
def modifiedStlTransformer {K : Type*} [Field K] [LT K] [DecidableLT K]
    (stl : List K → Except PyErr (List K)) : Transformer (StlState K) (NdArray K) K where
  fitPartial := ModifiedStl.fitPartial
  transformPartial s x := ModifiedStl.transformPartial stl s (.row x)
  fitTransformPartial s x := ModifiedStl.fitTransformPartial stl s (.row x)

end Pysad
