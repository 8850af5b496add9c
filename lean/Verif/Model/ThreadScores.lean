import Verif.Model.HstInterrupt
import Verif.Model.RsHashInterrupt
import Verif.Model.SimpleModels
import Mathlib.Data.Prod.Lex

/-! A detector that is fitted by one thread and scored by another. There are no locks: a score is computed
from several loads, and between two of them the fitting thread may go on. As it is the only thread that
stores anything, what the loads see are states it goes through, in order. -/

namespace Pysad

/-- The states an object goes through while one thread calls a method with `xs`, one after the other, each with
the number of calls that were complete: `stages s x` are the states after each store of the call, `next s x`
the state after it. -/
def timeline {σ ι : Type*} (stages : σ → ι → List σ) (next : σ → ι → σ) : σ → ℕ → List ι → List (ℕ × σ)
  | s, c, [] => [(c, s)]
  | s, c, x :: xs => (c, s) :: ((stages s x).map fun t => (c, t)) ++ timeline stages next (next s x) (c + 1) xs

/-! ### `HalfSpaceTrees` -/

namespace HsTree
variable {K : Type*}

/-- `node.r_mass`, l.157. -/
def mass : HsTree K → ℕ
  | .nil => 0
  | .node _ _ r _ _ _ _ => r
/-- `node.left`, l.155. -/
def leftChild : HsTree K → HsTree K
  | .nil => .nil
  | .node l _ _ _ _ _ _ => l
/-- `node.right`, l.156. -/
def rightChild : HsTree K → HsTree K
  | .nil => .nil
  | .node _ r _ _ _ _ _ => r

end HsTree

namespace Hst
variable {K : Type*} [Field K] [LinearOrder K]

/-- `_score_tree`, `pysad/models/half_space_trees.py` l.129-135, at the node `node`, where `look d` is what has
become of it when the mass is loaded `d` levels below. The other attributes of a node never change. -/
def liveTree (x : List K) : HsTree K → (ℕ → HsTree K) → Except PyErr K
  | .nil, _ => .ok 0
  | .node left right _ _ q p k, look =>
    match x[q]? with
    | none => .error .indexError
    | some v =>
      (if p < v then liveTree x right fun d => (look (d + 1)).rightChild
        else liveTree x left fun d => (look (d + 1)).leftChild).map fun s => ((look 0).mass : K) * 2 ^ k + s

/-- The loop of `score_partial`, l.148-149; `look i d` are the trees when the mass at level `d` of the `i`-th tree
is loaded. -/
def liveRoots (x : List K) : List (HsTree K) → (ℕ → ℕ → List (HsTree K)) → K → Except PyErr K
  | [], _, acc => .ok acc
  | t :: ts, look, acc =>
    match liveTree x t fun d => (look 0 d).headD .nil with
    | .error e => .error e
    | .ok v => liveRoots x ts (fun i d => (look (i + 1) d).tail) (acc + v)

/-- `score_partial`, l.137-151, of a detector that was in the state `s`; `look (i, d)` is its state when the mass at
level `d` of the `i`-th tree is loaded. -/
def liveScore (x : List K) (s : HstState K) (look : ℕ ×ₗ ℕ → HstState K) : Except PyErr K :=
  (liveRoots x s.roots (fun i d => (look (toLex (i, d))).roots) 0).map fun v => -v

end Hst

/-! ### `RSHash` -/

/-- `RSHash.score_partial`, `pysad/models/rs_hash.py` l.98-106: one load. -/
def RsHash.liveScore {K : Type*} {dim : ℕ} (look : ℕ → RsHashState K dim) : Option K := (look 0).lastScore

/-! ### `ExactStorm` -/

namespace Storm
variable {α K : Type*}

/-- The stores of `Window.update`, `pysad/utils/window.py` l.20-22: `append`, and perhaps a new list. -/
def windowStages (s : WindowRef × ListStore α) (x : α) : List (WindowRef × ListStore α) :=
  let c := s.2.contents s.1.ref ++ [x]
  (s.1, { s.2 with contents := Function.update s.2.contents s.1.ref c }) ::
    if c.length > s.1.windowSize then [s.1.update s.2 x] else []

/-- What `ExactStorm.score_partial` computes from the instances it compares with, `pysad/models/exact_storm.py`
l.45-50. -/
def near [Zero K] [NatCast K] [Div K] [LT K] [DecidableLT K] (dist : α → α → K) (radius : K) (x : α)
    (window : List α) : K :=
  if window.length = 0 then 0
  else (((window.map fun w => dist w x).filter fun d => d < radius).length : K) / (window.length : K)

/-- `ExactStorm.score_partial`, l.35-50, of which l.44 loads the window's list, then copies its items. -/
def liveScore [Zero K] [NatCast K] [Div K] [LT K] [DecidableLT K] (dist : α → α → K) (radius : K) (x : α)
    (look : ℕ → WindowRef × ListStore α) : K :=
  near dist radius x ((look 1).2.contents (look 0).1.ref).dropLast

end Storm

end Pysad
