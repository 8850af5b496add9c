import Verif.Model.Base
import Verif.Model.Numpy
import Mathlib.Algebra.Order.Floor.Defs

/-! Model of `pysad/transform/projection/*.py`. -/

namespace Pysad

/-! ### `StreamhashProjector` -/

/-- Attributes of `StreamhashProjector`
(`pysad/transform/projection/streamhash_projector.py` l.13-18); `keys` is
`range(n_components)`. -/
structure StreamhashState (K : Type*) where
  nComponents : ℕ
  constant : K
  density : K
  deriving DecidableEq, Repr

namespace Streamhash
variable {K : Type*} [Field K] [LinearOrder K]

/-- `__init__`, l.13-18; `sqrt` is `np.sqrt`. Python's `1. / density` raises for a
zero density. (The division by `np.sqrt(0)` for no components is not modelled; a
projector without components cannot project anything.) -/
def new (sqrt : K → K) (numComponents : ℕ) (density : K) : Except PyErr (StreamhashState K) :=
  if density = 0 then .error .zeroDivision
  else .ok ⟨numComponents, sqrt (1 / density) / sqrt (numComponents : K), density⟩

/-- `_hash_string`, l.54-63. `mmh3 s k` is `mmh3.hash(s, signed=False, seed=k)`, an
unsigned 32-bit number. -/
def hashString (mmh3 : String → ℕ → ℕ) (s : StreamhashState K) (k : ℕ) (f : String) : K :=
  let hashValue : K := (mmh3 f k : K) / (2 ^ 32 - 1)
  if hashValue ≤ s.density / 2 then -1 * s.constant
  else if hashValue ≤ s.density then s.constant
  else 0

/-- The matrix `R`, l.44-48. -/
def matrix (mmh3 : String → ℕ → ℕ) (s : StreamhashState K) (ndim : ℕ) : List (List K) :=
  let featureNames := (List.range ndim).map fun i => toString i
  (List.range s.nComponents).map fun k => featureNames.map fun f => hashString mmh3 s k f

/-- The dot product of a vector with each row, `np.dot(X, R.T)` (l.50). -/
def dotRows (x : List K) (R : List (List K)) : List K :=
  R.map fun r => (List.zipWith (· * ·) x r).sum

/-- `squeeze` of an array of shape `(1, n)`: a number if `n = 1`, else a vector. -/
def squeeze (l : List K) : NdArray K :=
  match l with
  | [x] => .scalar x
  | l => .vec l

/-- `transform_partial`, l.31-52. Without components `np.dot` raises `ValueError`. -/
def transformPartial (mmh3 : String → ℕ → ℕ) (s : StreamhashState K) (x : List K) :
    Res (StreamhashState K) (NdArray K) :=
  if s.nComponents = 0 then .err .valueError s
  else .ok (squeeze (dotRows x (matrix mmh3 s x.length))) s

/-- `StreamhashProjector` as a transformer. -/
def transformer (mmh3 : String → ℕ → ℕ) :
    Transformer (StreamhashState K) (List K) (NdArray K) where
  fitPartial s _ := .ok () s
  transformPartial := transformPartial mmh3
  fitTransformPartial := Transformer.inherited (fun s _ => .ok () s) (transformPartial mmh3)

end Streamhash

/-! ### `GaussianRandomProjector`, `SparseRandomProjector` -/

/-- scikit-learn's random projections (external): `draw n d g` fits a projector
with `n` components on an instance with `d` features, i.e. draws a matrix, given by its rows,
from numpy's global generator in state `g`; `minDim r` is
`johnson_lindenstrauss_min_dim(n_samples=r, eps=self.eps)`, the number of components for `'auto'`. -/
structure ProjectionRng (G K : Type*) where
  minDim : ℕ → ℤ
  draw : ℕ → ℕ → G → List (List K) × G

/-- scikit-learn's `johnson_lindenstrauss_min_dim` (external): the integer part of
`4 log(n_samples) / (eps² / 2 - eps³ / 3)`. -/
def jlMinDim {K : Type*} [Field K] [LinearOrder K] [FloorRing K] (log : K → K) (eps : K) (nSamples : ℕ) : ℤ :=
  ⌊4 * log (nSamples : K) / (eps ^ 2 / 2 - eps ^ 3 / 3)⌋

namespace SkProjector
variable {G K : Type*} [Field K]

/-- The number of components scikit-learn's `fit` uses (external) for `n_components` (`none` for `'auto'`)
and data of `rows` rows and `d` columns: less than one is a `ValueError`, and so is more than there are
columns for `'auto'`. -/
def components (rng : ProjectionRng G K) (numComponents : Option ℕ) (rows d : ℕ) : Except PyErr ℕ :=
  match numComponents with
  | some n => if n = 0 then .error .valueError else .ok n
  | none =>
    if rng.minDim rows ≤ 0 then .error .valueError
    else if (d : ℤ) < rng.minDim rows then .error .valueError
    else .ok (rng.minDim rows).toNat

/-- `BaseSKLearnProjector.transform_partial`,
`pysad/transform/projection/random_projector.py` l.34-46: `_projector()` makes a new
projector, `fit_transform` (on one row) draws its matrix and projects with it. The state is
that of the global generator; the projector object has none. -/
def transformPartial (rng : ProjectionRng G K) (numComponents : Option ℕ) (g : G) (x : List K) :
    Res G (List K) :=
  match components rng numComponents 1 x.length with
  | .error e => .err e g
  | .ok n =>
    let drawn := rng.draw n x.length g
    .ok (drawn.1.map fun r => (List.zipWith (· * ·) x r).sum) drawn.2

/-- `GaussianRandomProjector`/`SparseRandomProjector`, l.49-121, as transformers. -/
def transformer (rng : ProjectionRng G K) (numComponents : Option ℕ) :
    Transformer G (List K) (List K) where
  fitPartial g _ := .ok () g
  transformPartial := transformPartial rng numComponents
  fitTransformPartial := Transformer.inherited (fun g _ => .ok () g)
    (transformPartial rng numComponents)

/-- `BaseTransformer.transform` (`pysad/core/base_transformer.py` l.56-65) for these
classes: `output_dims` is `num_components`, and comparing the string `'auto'` with
`0` raises `TypeError`. -/
def transform (rng : ProjectionRng G K) (numComponents : Option ℕ) (g : G) (X : List (List K)) :
    Res G (List (List K)) :=
  match numComponents with
  | none => .err .typeError g
  | some n => (transformer rng (some n)).transform g X

/-- `BaseTransformer.fit_transform` (l.81-99) for these classes, likewise. -/
def fitTransform (rng : ProjectionRng G K) (numComponents : Option ℕ) (g : G) (X : List (List K)) :
    Res G (List (List K)) :=
  match numComponents with
  | none => .err .typeError g
  | some n => (transformer rng (some n)).fitTransform g X

end SkProjector

end Pysad
