import Verif.Model.HalfSpaceTrees
import Verif.Model.F64
import Mathlib.Algebra.Order.Floor.Ring

/-! Model of `pysad/models/half_space_trees.py` with the types of the numbers: bounds in numpy
arrays of integers, and scores in doubles. -/

namespace Pysad

namespace Hst
variable {G K : Type*} [Field K] [LinearOrder K]

/-- `_build_single_hs_tree`, l.48-82, when `mid` is the way l.60 is computed, and assigning to an
entry of `mins` or `maxes` converts the value by `store`: the identity for lists and for arrays
of floats (`Verif.Model.HalfSpaceTrees`), truncation for arrays of integers. The node keeps the
value that was not converted, l.81. -/
def buildStore (mid : K → K → K) (store : K → K) (randint : G → ℕ → ℕ × G) (dims : ℕ) :
    (rem k : ℕ) → (mins maxes : List K) → G → Except PyErr (HsTree K × G)
  | 0, k, _, _, g => .ok (.node .nil .nil 0 0 0 0 k, g)
  | rem + 1, k, mins, maxes, g =>
    if dims = 0 then .error .valueError
    else
      let q := (randint g dims).1
      match maxes[q]?, mins[q]? with
      | some hi, some lo =>
        let p := mid hi lo
        match buildStore mid store randint dims rem (k + 1) mins (maxes.set q (store p))
            (randint g dims).2 with
        | .error e => .error e
        | .ok (left, g') =>
          match buildStore mid store randint dims rem (k + 1) (mins.set q (store p)) maxes g' with
          | .error e => .error e
          | .ok (right, g'') => .ok (.node left right 0 0 q p k, g'')
      | _, _ => .error .indexError

/-- The list of `num_trees` trees built by `__init__`, l.34-41. -/
def buildAllStore (mid : K → K → K) (store : K → K) (randint : G → ℕ → ℕ × G) (maxDepth : ℕ)
    (mins maxes : List K) : ℕ → G → Except PyErr (List (HsTree K) × G)
  | 0, g => .ok ([], g)
  | n + 1, g =>
    match buildStore mid store randint maxes.length maxDepth 0 mins maxes g with
    | .error e => .error e
    | .ok (t, g') =>
      match buildAllStore mid store randint maxDepth mins maxes n g' with
      | .error e => .error e
      | .ok (ts, g'') => .ok (t :: ts, g'')

/-- `__init__`, l.18-44. -/
def newStore (mid : K → K → K) (store : K → K) (randint : G → ℕ → ℕ × G)
    (mins maxes : List K) (windowSize numTrees maxDepth : ℕ) (g : G) : Except PyErr (HstState K) :=
  match buildAllStore mid store randint maxDepth mins maxes numTrees g with
  | .error e => .error e
  | .ok (roots, _) => .ok ⟨windowSize, maxDepth, roots, true, 0⟩

/-- Conversion of a float to an integer, which drops the digits after the point. -/
def truncate [FloorRing K] (x : K) : K := if 0 ≤ x then (⌊x⌋ : K) else (⌈x⌉ : K)

/-- `__init__` with the given integers in an array of integers. -/
def newIntegers [FloorRing K] (randint : G → ℕ → ℕ × G) (mins maxes : List ℤ)
    (windowSize numTrees maxDepth : ℕ) (g : G) : Except PyErr (HstState K) :=
  newStore (fun hi lo => (hi + lo) / 2) truncate randint (mins.map (Int.cast : ℤ → K))
    (maxes.map (Int.cast : ℤ → K)) windowSize numTrees maxDepth g

/-- `__init__` on doubles: l.60 is an addition and a division, both rounded. -/
def newF64 (randint : G → ℕ → ℕ × G) (mins maxes : List F64) (windowSize numTrees maxDepth : ℕ)
    (g : G) : Except PyErr (HstState ℚ) :=
  newStore (fun hi lo => (((⟨hi⟩ : F64) + ⟨lo⟩) / ⟨2⟩).val) id randint (mins.map F64.val)
    (maxes.map F64.val) windowSize numTrees maxDepth g

/-- `_score_tree`, l.129-135, in doubles: the product is one of Python integers, the addition
converts it and rounds. Doubles are compared as the numbers they are. -/
def scoreTreeF64 (x : List ℚ) : HsTree ℚ → Except PyErr F64
  | .nil => .ok 0
  | .node left right rMass _ q p k =>
    match x[q]? with
    | none => .error .indexError
    | some v =>
      (if p < v then scoreTreeF64 x right else scoreTreeF64 x left).map fun s =>
        ((rMass * 2 ^ k : ℕ) : F64) + s

/-- `score_partial`, l.137-151, in doubles. -/
def scorePartialF64 (s : HstState ℚ) (x : List ℚ) : Res (HstState ℚ) F64 :=
  match s.roots.foldlM (fun acc t => (scoreTreeF64 x t).map (acc + ·)) (0 : F64) with
  | .error e => .err e s
  | .ok v => .ok ⟨-v.val⟩ s

/-- `HalfSpaceTrees` on doubles: fitting compares and counts, which is exact. -/
def detectorF64 (β : Type*) : Detector (HstState ℚ) (List ℚ) β F64 where
  fitPartial s x _ := fitPartial s x
  scorePartial := scorePartialF64

end Hst

end Pysad
