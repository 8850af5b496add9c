import Verif.Model.F64
import Verif.Model.Num
import Mathlib.Data.Nat.Sqrt

/-! `pysad/transform/preprocessing/instance_unit_norm_scaler.py` with the rounding of doubles, for
the orders 1, 2 and infinity. -/

namespace Pysad

/-- The correctly rounded square root of a nonnegative double, as IEEE 754 requires of `np.sqrt`:
`t` is the argument scaled to `[2^104, 2^106)`, so that its root has 53 binary digits before the
point, and `r` is the whole part of that root. (The root of a double is never halfway between two
neighbouring doubles.) Negative numbers, of which numpy's root is `nan`, do not occur. -/
def sqrtF64 (q : ℚ) : ℚ :=
  if q ≤ 0 then 0
  else
    let k : ℤ := ilog2 q / 2 - 52
    let t := q / pow2 (2 * k)
    let r : ℕ := Nat.sqrt t.floor.toNat
    ((if t < (r : ℚ) ^ 2 + r + 1 / 4 then r else r + 1 : ℕ) : ℚ) * pow2 k

/-- An order in which a sum is computed: a binary tree whose leaves are the terms. -/
inductive SumTree where
  | leaf (v : F64)
  | node (l r : SumTree)

/-- The terms. -/
def SumTree.leaves : SumTree → List F64
  | .leaf v => [v]
  | .node l r => l.leaves ++ r.leaves

/-- The sum, rounded after every addition. -/
def SumTree.value : SumTree → F64
  | .leaf v => v
  | .node l r => l.value + r.value

/-- The orders for which `np.linalg.norm` is modelled in doubles. -/
inductive NormOrdF64 where
  | one
  | two
  | inf

namespace UnitNormF64

/-- `abs(x)` of a double, which is exact. -/
def abs (a : F64) : F64 := ⟨|a.val|⟩

/-- `abs(x).max()`; `ValueError` for an empty array. -/
def maxAbs : List F64 → Except PyErr F64
  | [] => .error .valueError
  | x :: xs => .ok (xs.foldl (fun m y => if m < abs y then abs y else m) (abs x))

/-- `np.linalg.norm(x, ord)` of a vector (external): `abs(x).max()`, `add.reduce(abs(x))`, and
`sqrt(x.dot(x))`. `sum` adds up numbers in an order that numpy and the BLAS library choose. (A BLAS
library that adds products without rounding them first is not modelled.) -/
def norm (sum : List F64 → F64) (o : NormOrdF64) (x : List F64) : Except PyErr F64 :=
  match o with
  | .inf => maxAbs x
  | .one => .ok (sum (x.map abs))
  | .two => .ok ⟨sqrtF64 (sum (x.map fun a => a * a)).val⟩

/-- `InstanceUnitNormScaler.transform_partial`, l.27-38. -/
def transformPartial (sum : List F64 → F64) (o : NormOrdF64) (x : List F64) :
    Except PyErr (List (Num F64)) :=
  (norm sum o x).map fun n => x.map fun a => npDiv a n

end UnitNormF64

end Pysad
