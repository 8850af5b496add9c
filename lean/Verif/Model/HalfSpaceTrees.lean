import Verif.Model.Base

/-! Model of `pysad/models/half_space_trees.py`. -/

namespace Pysad

/-- `HalfSpaceTrees._Node`, l.153-161, or `None`. -/
inductive HsTree (K : Type*) where
  | nil
  | node (left right : HsTree K) (rMass lMass : ℕ) (splitAtt : ℕ) (splitValue : K) (k : ℕ)
  deriving DecidableEq, Repr

/-- Attributes of `HalfSpaceTrees`, l.26-44. `max_depth` and `window_size` are
nonnegative integers. -/
structure HstState (K : Type*) where
  windowSize : ℕ
  maxDepth : ℕ
  roots : List (HsTree K)
  isFirstWindow : Bool
  step : ℕ
  deriving DecidableEq, Repr

namespace Hst
variable {G K : Type*} [Field K] [LinearOrder K]

/-- `_build_single_hs_tree`, l.48-82, for a node at depth `k` with `rem` levels below it
(`max_depth = k + rem`). `randint g n` is `np.random.randint(n)`, which raises
`ValueError` for `n = 0`. The arrays are deep copies, so assignments to them are local. -/
def build (randint : G → ℕ → ℕ × G) (dims : ℕ) :
    (rem k : ℕ) → (mins maxes : List K) → G → Except PyErr (HsTree K × G)
  | 0, k, _, _, g => .ok (.node .nil .nil 0 0 0 0 k, g)
  | rem + 1, k, mins, maxes, g =>
    if dims = 0 then .error .valueError
    else
      let q := (randint g dims).1
      match maxes[q]?, mins[q]? with
      | some hi, some lo =>
        let p := (hi + lo) / 2
        match build randint dims rem (k + 1) mins (maxes.set q p) (randint g dims).2 with
        | .error e => .error e
        | .ok (left, g') =>
          match build randint dims rem (k + 1) (mins.set q p) maxes g' with
          | .error e => .error e
          | .ok (right, g'') => .ok (.node left right 0 0 q p k, g'')
      | _, _ => .error .indexError

/-- The list of `num_trees` trees built by `__init__`, l.34-41. -/
def buildAll (randint : G → ℕ → ℕ × G) (maxDepth : ℕ) (mins maxes : List K) :
    ℕ → G → Except PyErr (List (HsTree K) × G)
  | 0, g => .ok ([], g)
  | n + 1, g =>
    match build randint maxes.length maxDepth 0 mins maxes g with
    | .error e => .error e
    | .ok (t, g') =>
      match buildAll randint maxDepth mins maxes n g' with
      | .error e => .error e
      | .ok (ts, g'') => .ok (t :: ts, g'')

/-- `__init__`, l.18-44, without `initial_window_X`. -/
def new (randint : G → ℕ → ℕ × G) (mins maxes : List K) (windowSize numTrees maxDepth : ℕ) (g : G) :
    Except PyErr (HstState K) :=
  match buildAll randint maxDepth mins maxes numTrees g with
  | .error e => .error e
  | .ok (roots, _) => .ok ⟨windowSize, maxDepth, roots, true, 0⟩

/-- `_update_mass`, l.84-94. -/
def updateMass (maxDepth : ℕ) (x : List K) (refWindow : Bool) : HsTree K → Res (HsTree K) Unit
  | .nil => .err .attributeError .nil
  | .node left right rMass lMass q p k =>
    let rMass := if refWindow then rMass + 1 else rMass
    let lMass := lMass + 1
    if k < maxDepth then
      match x[q]? with
      | none => .err .indexError (.node left right rMass lMass q p k)
      | some v =>
        if p < v then
          (updateMass maxDepth x refWindow right).mapState fun r => .node left r rMass lMass q p k
        else
          (updateMass maxDepth x refWindow left).mapState fun l => .node l right rMass lMass q p k
    else .ok () (.node left right rMass lMass q p k)

/-- `_update_model`, l.96-106, without the flag. -/
def updateModel : HsTree K → HsTree K
  | .nil => .nil
  | .node left right _ lMass q p k => .node (updateModel left) (updateModel right) lMass 0 q p k

/-- The loop of l.120-121. -/
def fitRoots (maxDepth : ℕ) (x : List K) (refWindow : Bool) :
    List (HsTree K) → Res (List (HsTree K)) Unit
  | [] => .ok () []
  | t :: ts =>
    match updateMass maxDepth x refWindow t with
    | .err e t' => .err e (t' :: ts)
    | .ok _ t' => (fitRoots maxDepth x refWindow ts).mapState fun ts' => t' :: ts'

/-- `fit_partial`, l.108-127. `_update_model` clears `is_first_window` at the first node
it visits. -/
def fitPartial (s : HstState K) (x : List K) : Res (HstState K) Unit :=
  let s := { s with step := s.step + 1 }
  ((fitRoots s.maxDepth x s.isFirstWindow s.roots).mapState fun ts =>
    ({ s with roots := ts } : HstState K)).bind fun _ s =>
  if s.windowSize = 0 then .err .zeroDivision s
  else if s.step % s.windowSize = 0 then
    .ok () { s with roots := s.roots.map updateModel,
                    isFirstWindow := s.isFirstWindow && s.roots.isEmpty }
  else .ok () s

/-- `_score_tree`, l.129-135. -/
def scoreTree (x : List K) : HsTree K → Except PyErr K
  | .nil => .ok 0
  | .node left right rMass _ q p k =>
    match x[q]? with
    | none => .error .indexError
    | some v =>
      (if p < v then scoreTree x right else scoreTree x left).map fun s =>
        (rMass : K) * 2 ^ k + s

/-- `score_partial`, l.137-151. -/
def scorePartial (s : HstState K) (x : List K) : Res (HstState K) K :=
  match s.roots.foldlM (fun acc t => (scoreTree x t).map (acc + ·)) (0 : K) with
  | .error e => .err e s
  | .ok v => .ok (-v) s

/-- `HalfSpaceTrees` as a detector. -/
def detector (K β : Type*) [Field K] [LinearOrder K] : Detector (HstState K) (List K) β K where
  fitPartial s x _ := fitPartial s x
  scorePartial := scorePartial

/-- The truth value of a 2-D numpy array given by its rows: `ValueError` if it has more
than one element. -/
def npTruth (rows : List (List K)) : Except PyErr Bool :=
  match rows.flatten with
  | [] => .ok false
  | [x] => .ok (decide (x ≠ 0))
  | _ => .error .valueError

/-- `__init__` with an array as `initial_window_X`, l.45-46. `fit` calls `fit_partial` on
each row (`pysad/core/base_model.py` l.57-60). -/
def newInitial (randint : G → ℕ → ℕ × G) (mins maxes : List K) (windowSize numTrees maxDepth : ℕ)
    (g : G) (initial : List (List K)) : Except PyErr (HstState K) :=
  match new randint mins maxes windowSize numTrees maxDepth g with
  | .error e => .error e
  | .ok s =>
    match npTruth initial with
    | .error e => .error e
    | .ok false => .ok s
    | .ok true =>
      match Detector.fit (detector K Unit) s initial none with
      | .err e _ => .error e
      | .ok _ s => .ok s

end Hst

end Pysad
