import Verif.Model.HalfSpaceTrees
import Verif.Model.Interrupt

/-! `HalfSpaceTrees.fit_partial`, `pysad/models/half_space_trees.py` l.84-127, store by store: the
states the object goes through, to say what is left behind by a call that is interrupted
(`KeyboardInterrupt`, a signal handler that raises). -/

namespace Pysad.Hst
variable {K : Type*} [Field K] [LinearOrder K]

/-- The tree after each of the assignments of `_update_mass`, l.84-94. -/
def massStages (maxDepth : ℕ) (x : List K) (refWindow : Bool) : HsTree K → List (HsTree K)
  | .nil => []
  | .node left right rMass lMass q p k =>
    let rMass' := if refWindow then rMass + 1 else rMass
    (if refWindow then [.node left right (rMass + 1) lMass q p k] else []) ++
    [.node left right rMass' (lMass + 1) q p k] ++
    if k < maxDepth then
      match x[q]? with
      | none => []
      | some v =>
        if p < v then
          (massStages maxDepth x refWindow right).map fun r => .node left r rMass' (lMass + 1) q p k
        else
          (massStages maxDepth x refWindow left).map fun l => .node l right rMass' (lMass + 1) q p k
    else []

/-- The trees after each assignment of the loop of l.120-121. -/
def rootStages (maxDepth : ℕ) (x : List K) (refWindow : Bool) : List (HsTree K) → List (List (HsTree K))
  | [] => []
  | t :: ts =>
    ((massStages maxDepth x refWindow t).map fun t' => t' :: ts) ++
    match updateMass maxDepth x refWindow t with
    | .err _ _ => []
    | .ok _ t' => (rootStages maxDepth x refWindow ts).map fun ts' => t' :: ts'

/-- The tree after each of the assignments of `_update_model` to nodes, l.96-106. -/
def modelStages : HsTree K → List (HsTree K)
  | .nil => []
  | .node left right _ lMass q p k =>
    [.node left right lMass lMass q p k, .node left right lMass 0 q p k] ++
    ((modelStages left).map fun l => .node l right lMass 0 q p k) ++
    ((modelStages right).map fun r => .node (updateModel left) r lMass 0 q p k)

/-- The trees after each assignment to a node in the loop of l.124-125. -/
def modelRootStages : List (HsTree K) → List (List (HsTree K))
  | [] => []
  | t :: ts => ((modelStages t).map fun t' => t' :: ts) ++
    ((modelRootStages ts).map fun ts' => updateModel t :: ts')

/-- The states after each of the assignments of `fit_partial`, l.118-125. Of the assignments to
`is_first_window`, l.101, only the first changes anything. -/
def fitStages (s : HstState K) (x : List K) : List (HstState K) :=
  let s1 := { s with step := s.step + 1 }
  s1 :: ((rootStages s.maxDepth x s.isFirstWindow s.roots).map fun ts => { s1 with roots := ts }) ++
  match fitRoots s.maxDepth x s.isFirstWindow s.roots with
  | .err _ _ => []
  | .ok _ ts =>
    if s.windowSize = 0 then []
    else if (s.step + 1) % s.windowSize = 0 then
      (if ts.isEmpty then [] else [{ s1 with roots := ts, isFirstWindow := false }]) ++
      (modelRootStages ts).map fun ts' => { s1 with roots := ts', isFirstWindow := false }
    else []

/-- The assignments of `fit_partial`, called in the state `s`. -/
def statements (x : List K) (s : HstState K) : List (HstState K → HstState K) :=
  (fitStages s x).map fun t _ => t

end Pysad.Hst
