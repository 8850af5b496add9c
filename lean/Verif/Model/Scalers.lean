import Verif.Model.Base
import Verif.Model.Num
import Verif.Model.Numpy
import Mathlib.Analysis.SpecialFunctions.Pow.Real

/-! Model of the stateless scalers in `pysad/transform/preprocessing`:
`identity_scaler.py`, `instance_standard_scaler.py`,
`instance_unit_norm_scaler.py`. An instance is an array of shape `(d,)`. -/

namespace Pysad

/-- `IdentityScaler`, `pysad/transform/preprocessing/identity_scaler.py` l.4-31. It has
no attributes besides `output_dims`. -/
def identityScaler (α : Type*) : Transformer Unit α α where
  fitPartial s _ := .ok () s
  transformPartial s x := .ok x s
  fitTransformPartial := Transformer.inherited (fun s _ => .ok () s) (fun s x => .ok x s)

/-- `InstanceStandardScaler.transform_partial`,
`pysad/transform/preprocessing/instance_standard_scaler.py` l.22-35; `sqrt` is the
square root inside `X.std()`. numpy divides, so a zero deviation gives `nan`s or
infinities. -/
def instanceStandardize {K : Type*} [Field K] [LinearOrder K] (sqrt : K → K) {d : ℕ}
    (x : Fin d → K) : Fin d → Num K :=
  fun i => npDiv (x i - npMeanFin x) (npStdFin sqrt x)

/-- `InstanceStandardScaler`, `instance_standard_scaler.py` l.4-35. -/
def instanceStandardScaler {K : Type*} [Field K] [LinearOrder K] (sqrt : K → K) (d : ℕ) :
    Transformer Unit (Fin d → K) (Fin d → Num K) where
  fitPartial s _ := .ok () s
  transformPartial s x := .ok (instanceStandardize sqrt x) s
  fitTransformPartial := Transformer.inherited (fun s _ => .ok () s)
    (fun s x => .ok (instanceStandardize sqrt x) s)

/-- The `pow` argument of `InstanceUnitNormScaler`: a finite float or an infinity. -/
inductive NormOrd where
  | fin (p : ℝ)
  | posInf
  | negInf

/-- Largest entry of an array; numpy raises `ValueError` for an empty one. -/
noncomputable def npMaxFin {d : ℕ} (x : Fin d → ℝ) : Except PyErr ℝ :=
  if h : (Finset.univ : Finset (Fin d)).Nonempty then .ok (Finset.univ.sup' h x)
  else .error .valueError

/-- Smallest entry of an array. -/
noncomputable def npMinFin {d : ℕ} (x : Fin d → ℝ) : Except PyErr ℝ :=
  if h : (Finset.univ : Finset (Fin d)).Nonempty then .ok (Finset.univ.inf' h x)
  else .error .valueError

open Classical in
/-- `np.linalg.norm(x, ord)` of a vector, following the cases of numpy's
implementation: infinities, `0`, `1`, `2`, any other order. (For a negative order
and a vector with zero entries numpy gets infinities; that case is not modelled.) -/
noncomputable def npNorm (o : NormOrd) {d : ℕ} (x : Fin d → ℝ) : Except PyErr ℝ :=
  match o with
  | .posInf => npMaxFin fun i => |x i|
  | .negInf => npMinFin fun i => |x i|
  | .fin p =>
    if p = 0 then .ok ((Finset.univ.filter fun i => x i ≠ 0).card : ℝ)
    else if p = 1 then .ok (∑ i, |x i|)
    else if p = 2 then .ok (Real.sqrt (∑ i, x i * x i))
    else .ok ((∑ i, |x i| ^ p) ^ (1 / p))

/-- `InstanceUnitNormScaler.transform_partial`,
`pysad/transform/preprocessing/instance_unit_norm_scaler.py` l.27-38. -/
noncomputable def instanceUnitNorm (o : NormOrd) {d : ℕ} (x : Fin d → ℝ) :
    Except PyErr (Fin d → Num ℝ) :=
  (npNorm o x).map fun n i => npDiv (x i) n

/-- `InstanceUnitNormScaler`, `instance_unit_norm_scaler.py` l.5-38. -/
noncomputable def instanceUnitNormScaler (o : NormOrd) (d : ℕ) :
    Transformer Unit (Fin d → ℝ) (Fin d → Num ℝ) where
  fitPartial s _ := .ok () s
  transformPartial s x := .ofExcept (instanceUnitNorm o x) s
  fitTransformPartial := Transformer.inherited (fun s _ => .ok () s)
    (fun s x => .ofExcept (instanceUnitNorm o x) s)

end Pysad
