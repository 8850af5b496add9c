import Verif.Model.Base
import Mathlib.Algebra.Field.Defs

/-! Model of `pysad/models/robust_random_cut_forest.py`. The trees of the `rrcf` library are
external: only what they hold is described. -/

namespace Pysad

/-- A key of `tree.leaves`: an instance number or the string `"test_point"`. -/
inductive RcKey where
  | index (n : ℤ)
  | testPoint
  deriving DecidableEq, Repr

/-- The `rrcf.RCTree` of the library, over trees `τ`, instances `α`, scores `K` and states
`G` of the random generator. `leaves` lists the keys and points a tree holds, oldest first.
Inserting an existing key or forgetting a missing one raises `KeyError`; looking for a
duplicate in an empty tree raises `AttributeError`. `codisp t k` is the
collusive displacement of the leaf with key `k`; `codispOf t x` that of the leaf
`find_duplicate` returned for `x`. -/
structure RcTreeApi (τ α K G : Type*) where
  empty : τ
  leaves : τ → List (RcKey × α)
  insertPoint : G → τ → α → RcKey → Except PyErr τ × G
  forgetPoint : τ → RcKey → Except PyErr τ
  findDuplicate : τ → α → Except PyErr Bool
  codisp : τ → RcKey → K
  codispOf : τ → α → K
  leaves_empty : leaves empty = []
  insert_new : ∀ g t x k, k ∉ (leaves t).map Prod.fst →
    ∃ t' g', insertPoint g t x k = (.ok t', g') ∧ leaves t' = leaves t ++ [(k, x)]
  insert_old : ∀ g t x k, k ∈ (leaves t).map Prod.fst →
    ∃ g', insertPoint g t x k = (.error .keyError, g')
  forget_old : ∀ t k, k ∈ (leaves t).map Prod.fst →
    ∃ t', forgetPoint t k = .ok t' ∧ leaves t' = (leaves t).filter fun p => p.1 ≠ k
  find_some : ∀ t x, leaves t ≠ [] → ∃ b, findDuplicate t x = .ok b
  find_none : ∀ t x, leaves t = [] → findDuplicate t x = .error .attributeError
  forget_new : ∀ t k, k ∉ (leaves t).map Prod.fst → forgetPoint t k = .error .keyError

/-- Attributes of `RobustRandomCutForest`,
`pysad/models/robust_random_cut_forest.py` l.16-25; `rng` is the state of the random
generator. -/
structure RrcfState (τ G : Type*) where
  rng : G
  treeSize : ℕ
  numTrees : ℕ
  forest : List τ
  index : ℕ

namespace Rrcf
variable {τ α K G : Type*} (api : RcTreeApi τ α K G)

/-- `__init__`, l.13-25. (`shingle_size` is stored and never used.) -/
def new (g : G) (numTrees treeSize : ℕ) : RrcfState τ G :=
  ⟨g, treeSize, numTrees, List.replicate numTrees api.empty, 0⟩

/-- The body of the loop of `fit_partial`, l.38-41, for one tree: the tree afterwards (or
left behind by the exception). -/
def fitTree (treeSize index : ℕ) (x : α) (g : G) (t : τ) : Res (G × τ) Unit :=
  let forgotten : Except PyErr τ :=
    if (api.leaves t).length > treeSize then
      api.forgetPoint t (.index ((index : ℤ) - (treeSize : ℤ)))
    else .ok t
  match forgotten with
  | .error e => .err e (g, t)
  | .ok t =>
    match api.insertPoint g t x (.index index) with
    | (.error e, g) => .err e (g, t)
    | (.ok t, g) => .ok () (g, t)

/-- The loop of `fit_partial`, l.37-41. -/
def fitTrees (treeSize index : ℕ) (x : α) : G → List τ → Res (G × List τ) Unit
  | g, [] => .ok () (g, [])
  | g, t :: ts =>
    match fitTree api treeSize index x g t with
    | .err e (g, t) => .err e (g, t :: ts)
    | .ok _ (g, t) => (fitTrees treeSize index x g ts).mapState fun p => (p.1, t :: p.2)

/-- `fit_partial`, l.27-45. -/
def fitPartial (s : RrcfState τ G) (x : α) : Res (RrcfState τ G) Unit :=
  match fitTrees api s.treeSize s.index x s.rng s.forest with
  | .err e p => .err e { s with rng := p.1, forest := p.2 }
  | .ok _ p => .ok () { s with rng := p.1, forest := p.2, index := s.index + 1 }

variable [Field K]

/-- The body of the loop of `score_partial`, l.59-65: what the tree contributes. -/
def scoreTree (numTrees : ℕ) (x : α) (g : G) (t : τ) : Res (G × τ) K :=
  match api.findDuplicate t x with
  | .error e => .err e (g, t)
  | .ok true => .ok (1 * api.codispOf t x / (numTrees : K)) (g, t)
  | .ok false =>
    match api.insertPoint g t x .testPoint with
    | (.error e, g) => .err e (g, t)
    | (.ok t, g) =>
      let v := 1 * api.codisp t .testPoint / (numTrees : K)
      match api.forgetPoint t .testPoint with
      | .error e => .err e (g, t)
      | .ok t => .ok v (g, t)

/-- The loop of `score_partial`, l.57-65. -/
def scoreTrees (numTrees : ℕ) (x : α) : K → G → List τ → Res (G × List τ) K
  | score, g, [] => .ok score (g, [])
  | score, g, t :: ts =>
    match scoreTree api numTrees x g t with
    | .err e (g, t) => .err e (g, t :: ts)
    | .ok v (g, t) => (scoreTrees numTrees x (score + v) g ts).mapState fun p => (p.1, t :: p.2)

/-- `score_partial`, l.47-67. -/
def scorePartial (s : RrcfState τ G) (x : α) : Res (RrcfState τ G) K :=
  (scoreTrees api s.numTrees x 0 s.rng s.forest).mapState fun p =>
    { s with rng := p.1, forest := p.2 }

/-- `RobustRandomCutForest` as a detector. -/
def detector {β : Type*} : Detector (RrcfState τ G) α β K where
  fitPartial s x _ := fitPartial api s x
  scorePartial := scorePartial api

end Rrcf

end Pysad
