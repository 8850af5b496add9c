import Verif.Model.Base

/-! Model of `pysad/models/knn_cad.py`. -/

namespace Pysad

/-- Attributes of `KNNCAD`, `pysad/models/knn_cad.py` l.12-22; `sigma` is `none` until the
first fit (l.44-47, `to_init`), when the attributes `dim` and `sigma` do not exist yet. -/
structure KnnCadState (K : Type*) where
  buf : List K
  training : List (List K)
  calibration : List (List K)
  scores : List K
  recordCount : ℕ
  pred : ℤ
  sigma : Option (List (List K))
  probationaryPeriod : ℕ
  deriving DecidableEq, Repr

namespace KnnCad

/-- `self.k`, l.19. -/
def k : ℕ := 27

/-- `self.dim`, l.45. -/
def dim : ℕ := 19

variable {K : Type*} [Field K] [LinearOrder K]

/-- `__init__`, l.12-22. -/
def new (probationaryPeriod : ℕ) : KnnCadState K :=
  ⟨[], [], [], [], 0, -1, none, probationaryPeriod⟩

/-- `np.diag(np.ones(n))`, l.46. -/
def eye (n : ℕ) : List (List K) :=
  (List.range n).map fun i => (List.range n).map fun j => if i = j then 1 else 0

/-- The inner product of two vectors. -/
def dot (a b : List K) : K := (List.zipWith (· * ·) a b).sum

/-- `np.dot(np.array(training).T, training)`, l.63: entry `i, j` is the sum over the items
of their `i`-th times their `j`-th value. -/
def gram (training : List (List K)) : List (List K) :=
  (List.range dim).map fun i => (List.range dim).map fun j =>
    (training.map fun t => t.getD i 0 * t.getD j 0).sum

/-- `_metric`, l.24-27. -/
def metric (sigma : List (List K)) (a b : List K) : K :=
  let diff := List.zipWith (· - ·) a b
  dot ((List.range dim).map fun j => dot diff (sigma.map fun r => r.getD j 0)) diff

/-- `_ncm`, l.29-32: the sum of the `k` (or `k + 1`) smallest distances to the training
items. `np.partition` raises `ValueError` unless its position is below the length; the
order inside the two parts is immaterial for the sum, so the list is sorted here. -/
def ncm (sigma : List (List K)) (training : List (List K)) (item : List K) (itemInArray : Bool) :
    Except PyErr K :=
  let arr := training.map fun x => metric sigma x item
  let kth := k + itemInArray.toNat
  if kth < arr.length then .ok ((pySorted arr).take kth).sum else .error .valueError

/-- The list comprehension of l.67. -/
def ncmAll (sigma : List (List K)) (training : List (List K)) : Except PyErr (List K) :=
  training.mapM fun v => ncm sigma training v true

/-- `self.buf[-self.dim:]`, l.54 and l.93. -/
def newItem (buf : List K) : List K := buf.drop (buf.length - dim)

variable (inv : List (List K) → Option (List (List K)))

/-- The matrix used from now on, l.59-65; `inv` is `np.linalg.inv`, `none` standing for
`LinAlgError`, which is caught. -/
def newSigma (s : KnnCadState K) (sigma : List (List K)) : List (List K) :=
  let ost := s.recordCount % s.probationaryPeriod
  if ost = 0 ∨ ost = s.probationaryPeriod / 2 then
    match inv (gram s.training) with
    | some m => m
    | none => sigma
  else sigma

/-- The scores to start from, l.66-67. -/
def initScores (s : KnnCadState K) (sigma : List (List K)) : Except PyErr (List K) :=
  if s.scores.length = 0 then ncmAll sigma s.training else .ok s.scores

/-- The end of the probationary branch, l.71-77. -/
def rotate (s : KnnCadState K) (item : List K) (newScore : K) : Res (KnnCadState K) Unit :=
  let finish (s : KnnCadState K) : Res (KnnCadState K) Unit :=
    match s.scores with
    | [] => .err .indexError s
    | _ :: sc =>
      .ok () { s with scores := sc ++ [newScore], calibration := s.calibration ++ [item] }
  if 2 * s.probationaryPeriod ≤ s.recordCount then
    match s.training with
    | [] => .err .indexError s
    | _ :: tr =>
      match s.calibration with
      | [] => .err .indexError { s with training := tr }
      | c :: cal => finish { s with training := tr ++ [c], calibration := cal }
  else finish s

/-- `fit_partial` after the probationary period, l.58-77. -/
def monitor (s : KnnCadState K) (sigma : List (List K)) : Res (KnnCadState K) Unit :=
  if s.probationaryPeriod = 0 then .err .zeroDivision s
  else
    let item := newItem s.buf
    let sigma := newSigma inv s sigma
    let s := { s with sigma := some sigma }
    match initScores s sigma with
    | .error e => .err e s
    | .ok sc =>
      let s := { s with scores := sc }
      match ncm sigma s.training item false with
      | .error e => .err e s
      | .ok v => rotate s item v

/-- `fit_partial`, l.34-79. -/
def fitPartial (s : KnnCadState K) (x : List K) : Res (KnnCadState K) Unit :=
  let sigma := s.sigma.getD (eye dim)
  let s := { s with sigma := some sigma }
  match x with
  | [] => .err .indexError s
  | v :: _ =>
    let s := { s with buf := s.buf ++ [v], recordCount := s.recordCount + 1 }
    if s.buf.length < dim then .ok () s
    else if s.recordCount < s.probationaryPeriod then
      .ok () { s with training := s.training ++ [newItem s.buf] }
    else monitor inv s sigma

/-- `score_partial`, l.81-104; the argument is ignored. -/
def scorePartial (s : KnnCadState K) : Res (KnnCadState K) K :=
  match s.sigma with
  | none => .err .attributeError s
  | some sigma =>
    if s.buf.length < dim ∨ s.recordCount < s.probationaryPeriod then .ok 0 s
    else
      match ncm sigma s.training (newItem s.buf) false with
      | .error e => .err e s
      | .ok v =>
        if s.scores.length = 0 then .err .zeroDivision s
        else
          let result := ((s.scores.filter fun c => c < v).length : K) / (s.scores.length : K)
          if 0 < s.pred then .ok (1 / 2) { s with pred := s.pred - 1 }
          else if 9965 / 10000 ≤ result then
            .ok result { s with pred := (s.probationaryPeriod / 5 : ℕ) }
          else .ok result s

/-- `KNNCAD` as a detector. -/
def detector {β : Type*} : Detector (KnnCadState K) (List K) β K where
  fitPartial s x _ := fitPartial inv s x
  scorePartial s _ := scorePartial s

end KnnCad

end Pysad
