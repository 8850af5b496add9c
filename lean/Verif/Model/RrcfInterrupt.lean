import Verif.Model.Rrcf
import Verif.Model.Interrupt

/-! `RobustRandomCutForest.fit_partial` and `score_partial`, `pysad/models/robust_random_cut_forest.py`
l.27-67, store by store: the states the object goes through, to say what is left behind by a call that is
interrupted (`KeyboardInterrupt`, a signal handler that raises). A call into the tree library counts as one
store. -/

namespace Pysad

/-- A call of the detector. -/
inductive RrcfCall (α : Type*) where
  | fit (x : α)
  | score (x : α)

namespace Rrcf
variable {τ α K G : Type*} (api : RcTreeApi τ α K G)

/-- The generator and the tree after each of the calls of l.38-41 on one tree. -/
def fitTreeStages (treeSize index : ℕ) (x : α) (g : G) (t : τ) : List (G × τ) :=
  let inserted (t : τ) : List (G × τ) :=
    match api.insertPoint g t x (.index index) with
    | (.error _, g) => [(g, t)]
    | (.ok t, g) => [(g, t)]
  if (api.leaves t).length > treeSize then
    match api.forgetPoint t (.index ((index : ℤ) - (treeSize : ℤ))) with
    | .error _ => []
    | .ok t => (g, t) :: inserted t
  else inserted t

/-- The generator and the trees after each call into the library in the loop of l.37-41. -/
def fitTreesStages (treeSize index : ℕ) (x : α) : G → List τ → List (G × List τ)
  | _, [] => []
  | g, t :: ts =>
    ((fitTreeStages api treeSize index x g t).map fun p => (p.1, p.2 :: ts)) ++
    match fitTree api treeSize index x g t with
    | .err _ _ => []
    | .ok _ (g, t) => (fitTreesStages treeSize index x g ts).map fun p => (p.1, t :: p.2)

/-- The states after each store of `fit_partial`, l.37-43. -/
def fitStages (s : RrcfState τ G) (x : α) : List (RrcfState τ G) :=
  ((fitTreesStages api s.treeSize s.index x s.rng s.forest).map fun p =>
    { s with rng := p.1, forest := p.2 }) ++
  match fitTrees api s.treeSize s.index x s.rng s.forest with
  | .err _ _ => []
  | .ok _ p => [{ s with rng := p.1, forest := p.2, index := s.index + 1 }]

/-- The generator and the tree after each call of l.59-65 that changes the tree. -/
def scoreTreeStages (x : α) (g : G) (t : τ) : List (G × τ) :=
  match api.findDuplicate t x with
  | .error _ => []
  | .ok true => []
  | .ok false =>
    match api.insertPoint g t x .testPoint with
    | (.error _, g) => [(g, t)]
    | (.ok t, g) =>
      (g, t) :: match api.forgetPoint t .testPoint with
        | .error _ => []
        | .ok t => [(g, t)]

variable [Field K]

/-- The same for all trees, l.57-65. -/
def scoreTreesStages (numTrees : ℕ) (x : α) : G → List τ → List (G × List τ)
  | _, [] => []
  | g, t :: ts =>
    ((scoreTreeStages api x g t).map fun p => (p.1, p.2 :: ts)) ++
    match scoreTree api numTrees x g t with
    | .err _ _ => []
    | .ok _ (g, t) => (scoreTreesStages numTrees x g ts).map fun p => (p.1, t :: p.2)

/-- The states after each store of `score_partial`, l.47-67. -/
def scoreStages (s : RrcfState τ G) (x : α) : List (RrcfState τ G) :=
  (scoreTreesStages api s.numTrees x s.rng s.forest).map fun p => { s with rng := p.1, forest := p.2 }

/-- The states after each store of a call. -/
def stages (s : RrcfState τ G) : RrcfCall α → List (RrcfState τ G)
  | .fit x => fitStages api s x
  | .score x => scoreStages api s x

/-- The stores of a call made in the state `s`. -/
def statements (c : RrcfCall α) (s : RrcfState τ G) : List (RrcfState τ G → RrcfState τ G) :=
  (stages api s c).map fun t _ => t

/-- The state after a complete call. -/
def complete (s : RrcfState τ G) : RrcfCall α → RrcfState τ G
  | .fit x => (fitPartial api s x).state
  | .score x => (scorePartial api s x).state

end Rrcf
end Pysad
