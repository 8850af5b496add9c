import Verif.Model.Statistics
import Mathlib.Algebra.BigOperators.Fin
import Mathlib.Algebra.Field.Defs

/-! Model of the functions of `pysad/utils/__init__.py` and
`pysad/models/kitnet_model/utils.py`. -/

namespace Pysad

namespace Utils
variable {K : Type*} [LT K] [DecidableLT K]

/-- `get_minmax_scalar`, `pysad/utils/__init__.py` l.39-51, on the entries of an array of any
shape: `np.min` of an empty array raises `ValueError`. Entries are numbers (no `nan`). -/
def getMinmaxScalar (x : List K) : Except PyErr (K × K) :=
  match npMin x, npMax x with
  | some a, some b => .ok (a, b)
  | _, _ => .error .valueError

/-- `get_minmax_array`, `pysad/utils/__init__.py` l.24-36, on the rows of an array with `d`
columns. Without rows `np.min` raises `ValueError`, unless there are no columns either. -/
def getMinmaxArray {d : ℕ} (X : List (Fin d → K)) : Except PyErr ((Fin d → K) × (Fin d → K)) :=
  match X with
  | [] => if h : d = 0 then .ok (fun i => (Fin.cast h i).elim0, fun i => (Fin.cast h i).elim0)
    else .error .valueError
  | x :: xs =>
    .ok (fun i => (xs.map fun r => r i).foldl (fun m y => if y < m then y else m) (x i),
      fun i => (xs.map fun r => r i).foldl (fun m y => if m < y then y else m) (x i))

end Utils

namespace KitUtils
variable {K : Type*} [Field K]

/-- `pdf`, `pysad/models/kitnet_model/utils.py` l.5-7. -/
def pdf (exp sqrt : K → K) (pi : K) (x mu sigma : K) : K :=
  let x := (x - mu) / sigma
  exp (-x ^ 2 / 2) / (sqrt (2 * pi) * sigma)

/-- `invLogCDF`, l.9-11; `logcdf` is `scipy.stats.norm.logcdf`. -/
def invLogCDF (logcdf : K → K) (x mu sigma : K) : K :=
  let x := (x - mu) / sigma
  logcdf (-x)

/-- `sigmoid`, l.13-14. -/
def sigmoid (exp : K → K) (x : K) : K := 1 / (1 + exp (-x))

/-- `dsigmoid`, l.17-18. -/
def dsigmoid (x : K) : K := x * (1 - x)

/-- `dtanh`, l.23-24. -/
def dtanh (x : K) : K := 1 - x * x

/-- `softmax`, l.26-29, of a vector; `numpy.max` of an empty one raises `ValueError`. -/
def softmax [LT K] [DecidableLT K] (exp : K → K) (x : List K) : Except PyErr (List K) :=
  match npMax x with
  | none => .error .valueError
  | some m =>
    let e := x.map fun a => exp (a - m)
    .ok (e.map fun a => a / e.sum)

/-- `softmax`, l.26-31, of a matrix given by its rows: the greatest entry of all is subtracted,
and each row divided by its sum. -/
def softmaxRows [LT K] [DecidableLT K] (exp : K → K) (X : List (List K)) :
    Except PyErr (List (List K)) :=
  match npMax X.flatten with
  | none => .error .valueError
  | some m => .ok (X.map fun r =>
      let e := r.map fun a => exp (a - m)
      e.map fun a => a / e.sum)

/-- `ReLU`, l.34-35. -/
def relu [LT K] [DecidableLT K] (x : K) : K := x * (if 0 < x then 1 else 0)

/-- `dReLU`, l.37-38. -/
def drelu [LT K] [DecidableLT K] (x : K) : K := 1 * (if 0 < x then 1 else 0)

/-- Attributes of `rollmean`, l.40-44. -/
structure RollMean (K : Type*) where
  winsize : ℕ
  window : List K
  pointer : ℕ

/-- `rollmean.__init__`, l.41-44. -/
def RollMean.new (k : ℕ) : RollMean K := ⟨k, List.replicate k 0, 0⟩

/-- `rollmean.apply`, l.46-49: writing into an empty window raises `IndexError`. -/
def RollMean.apply (s : RollMean K) (v : K) : Res (RollMean K) K :=
  if s.window.length ≤ s.pointer then .err .indexError s
  else
    let s := { s with window := s.window.set s.pointer v, pointer := (s.pointer + 1) % s.winsize }
    .ok (s.window.sum / (s.window.length : K)) s

end KitUtils

end Pysad
