import Verif.Model.Base
import Verif.Model.Num
import Mathlib.Algebra.Order.Floor.Ring
import Mathlib.Data.List.FinRange

/-! Model of `pysad/models/kitnet.py` and of `pysad/models/kitnet_model/` (`KitNET.py`,
`corClust.py`, `dA.py`; of `utils.py` only `sigmoid`, which is a parameter). Instances are
vectors of `n` numbers, where `n` is the number of features of the first instance. Vectors and
matrices of an autoencoder are functions of their indices, meaningful below its sizes. -/

namespace Pysad

/-- `scipy.cluster.hierarchy.ClusterNode`: a leaf with the number of a feature, or a node. -/
inductive Dendro (n : ℕ) where
  | leaf (i : Fin n)
  | node (left right : Dendro n)

namespace Dendro
variable {n : ℕ}

/-- `ClusterNode.count`. -/
def count : Dendro n → ℕ
  | leaf _ => 1
  | node l r => l.count + r.count

/-- `ClusterNode.pre_order()`: the leaves from left to right. -/
def preOrder : Dendro n → List (Fin n)
  | leaf i => [i]
  | node l r => l.preOrder ++ r.preOrder

end Dendro

/-- Attributes of `corClust`, `pysad/models/kitnet_model/corClust.py` l.8-16. -/
structure CorClust (K : Type*) (n : ℕ) where
  c : Fin n → K
  cr : Fin n → K
  crs : Fin n → K
  C : Fin n → Fin n → K
  N : ℕ

/-- Attributes of `dA`, `pysad/models/kitnet_model/dA.py` l.41-62. `norm` is `norm_max` and
`norm_min`; `none` stands for the initial `-inf` and `inf`. `W_prime` is a view of `W`. The
corruption level and the grace period are 0 (`KitNET.py` l.100 and l.104). -/
structure DaState (K : Type*) where
  nVisible : ℕ
  nHidden : ℕ
  lr : K
  norm : Option ((ℕ → K) × (ℕ → K))
  n : ℕ
  W : ℕ → ℕ → K
  hbias : ℕ → K
  vbias : ℕ → K

/-- Attributes of `KitNET`, `pysad/models/kitnet_model/KitNET.py` l.20-46. -/
structure KnState (K : Type*) (n : ℕ) where
  adGrace : ℕ
  fmGrace : ℕ
  m : ℤ
  lr : K
  hr : K
  nTrained : ℕ
  nExecuted : ℕ
  v : Option (List (List (Fin n)))
  fm : CorClust K n
  ensemble : List (DaState K)
  output : Option (DaState K)

/-- The external functions: `numpy.sqrt`; `sigmoid` (`utils.py` l.13-14); the array of
`RandomState(1234).uniform(-1/n_visible, 1/n_visible, (n_visible, n_hidden))`; and
`to_tree(linkage(...))`. -/
structure KnEnv (K : Type*) where
  sqrt : K → K
  sigmoid : K → K
  uniform : ℕ → ℕ → ℕ → ℕ → K
  linkageTree : (n : ℕ) → List K → Except PyErr (Dendro n)

namespace CorClust
variable {K : Type*} [Field K] [LinearOrder K] {n : ℕ}

/-- `__init__`, `corClust.py` l.8-16. -/
def new (n : ℕ) : CorClust K n := ⟨fun _ => 0, fun _ => 0, fun _ => 0, fun _ _ => 0, 0⟩

/-- `update`, l.19-25. -/
def update (s : CorClust K n) (x : Fin n → K) : CorClust K n :=
  let N := s.N + 1
  let c := fun i => s.c i + x i
  let crt := fun i => x i - c i / (N : K)
  { N := N
    c := c
    cr := fun i => s.cr i + crt i
    crs := fun i => s.crs i + crt i ^ 2
    C := fun i j => s.C i j + crt i * crt j }

/-- `corrDist`, l.28-34. -/
def corrDist (sqrt : K → K) (s : CorClust K n) (i j : Fin n) : K :=
  let p := sqrt (s.crs i) * sqrt (s.crs j)
  let p := if p = 0 then 1 / 10 ^ 100 else p
  let d := 1 - s.C i j / p
  if d < 0 then 0 else d

/-- `D[np.triu_indices(n, 1)]`, l.39: the entries above the diagonal, row by row. -/
def condensed (D : Fin n → Fin n → K) : List K :=
  (List.finRange n).flatMap fun i => ((List.finRange n).filter fun j => decide (i < j)).map (D i)

/-- `__breakClust__`, l.48-51. The children of a leaf are `None`, which has no `count`. -/
def breakClust (maxClust : ℤ) : Dendro n → Except PyErr (List (List (Fin n)))
  | .leaf i => if 1 ≤ maxClust then .ok [[i]] else .error .attributeError
  | .node l r =>
    if ((Dendro.node l r).count : ℤ) ≤ maxClust then .ok [(Dendro.node l r).preOrder]
    else
      (breakClust maxClust l).bind fun a =>
      (breakClust maxClust r).map fun b => a ++ b

/-- `cluster`, l.37-45. -/
def cluster (env : KnEnv K) (s : CorClust K n) (maxClust : ℤ) :
    Except PyErr (List (List (Fin n))) :=
  (env.linkageTree n (condensed (s.corrDist env.sqrt))).bind fun tree =>
  let maxClust := if maxClust < 1 then 1 else maxClust
  let maxClust := if maxClust > n then (n : ℤ) else maxClust
  breakClust maxClust tree

end CorClust

namespace Da
variable {K : Type*} [Field K] [LinearOrder K]

/-- The sum of the entries with index below `n`. -/
def sumTo (n : ℕ) (f : ℕ → K) : K := ((List.range n).map f).sum

/-- `numpy.mean` of a vector of length `n`. -/
def meanTo (n : ℕ) (f : ℕ → K) : K := sumTo n f / (n : K)

/-- `__init__`, `dA.py` l.41-62, with the parameters given in `KitNET.py` l.100 and l.104. A
negative size raises `ValueError`. -/
def new [FloorRing K] (env : KnEnv K) (nVisible : ℕ) (lr hr : K) : Except PyErr (DaState K) :=
  let nHidden := ⌈(nVisible : K) * hr⌉
  if nVisible = 0 then .error .zeroDivision
  else if nHidden < 0 then .error .valueError
  else .ok ⟨nVisible, nHidden.toNat, lr, none, 0, env.uniform nVisible nHidden.toNat,
    fun _ => 0, fun _ => 0⟩

/-- The updates of `norm_max` and `norm_min` in `train`, l.83-84. -/
def updateNorm (s : DaState K) (x : ℕ → K) : (ℕ → K) × (ℕ → K) :=
  match s.norm with
  | none => (x, x)
  | some (mx, mn) =>
    (fun i => if mx i < x i then x i else mx i, fun i => if x i < mn i then x i else mn i)

/-- The 0-1 normalisation, l.87 and l.119. -/
def normalise (norm : (ℕ → K) × (ℕ → K)) (x : ℕ → K) : ℕ → K :=
  fun i => (x i - norm.2 i) / (norm.1 i - norm.2 i + 1 / 10 ^ 16)

/-- `get_hidden_values`, l.73-74. -/
def hidden (env : KnEnv K) (s : DaState K) (x : ℕ → K) : ℕ → K :=
  fun j => env.sigmoid (sumTo s.nVisible (fun i => x i * s.W i j) + s.hbias j)

/-- `get_reconstructed_input`, l.77-78. -/
def visible (env : KnEnv K) (s : DaState K) (y : ℕ → K) : ℕ → K :=
  fun i => env.sigmoid (sumTo s.nHidden (fun j => y j * s.W i j) + s.vbias i)

/-- `train`, l.80-106: the training error and the object afterwards. -/
def train (env : KnEnv K) (s : DaState K) (x : ℕ → K) : K × DaState K :=
  let norm := updateNorm s x
  let x := normalise norm x
  let y := hidden env s x
  let z := visible env s y
  let lh2 := fun i => x i - z i
  let lh1 := fun j => sumTo s.nVisible (fun i => lh2 i * s.W i j) * y j * (1 - y j)
  (env.sqrt (meanTo s.nVisible fun i => lh2 i ^ 2),
    { s with
      n := s.n + 1
      norm := some norm
      W := fun i j => s.W i j + s.lr * (x i * lh1 j + lh2 i * y j)
      hbias := fun j => s.hbias j + s.lr * meanTo s.nHidden lh1
      vbias := fun i => s.vbias i + s.lr * meanTo s.nVisible lh2 })

/-- `execute`, l.114-122. Before any training `norm_max - norm_min` is `-inf`, the normalised
input is `nan` and so is the result. -/
def execute (env : KnEnv K) (s : DaState K) (x : ℕ → K) : Num K :=
  match s.norm with
  | none => .nan
  | some norm =>
    let x := normalise norm x
    let z := visible env s (hidden env s x)
    .fin (env.sqrt (meanTo s.nVisible fun i => (x i - z i) ^ 2))

/-- A vector as a function of the index. -/
def ofList (l : List K) : ℕ → K := fun i => l.getD i 0

/-- The number, if it is one. -/
def finite? : Num K → Option K
  | .fin x => some x
  | _ => none

/-- `execute` on numbers that may be `nan` (the results of other autoencoders; they are never
infinite): a `nan` makes the result `nan`. -/
def executeNums (env : KnEnv K) (s : DaState K) (xs : List (Num K)) : Num K :=
  match xs.mapM finite? with
  | none => .nan
  | some l => execute env s (ofList l)

end Da

namespace KitNET
variable {K : Type*} [Field K] [LinearOrder K] {n : ℕ}

/-- `__init__`, `KitNET.py` l.20-46, without a given feature map. Grace periods are taken not
to be negative. -/
def new (n : ℕ) (maxSize : ℤ) (fmGrace : Option ℕ) (adGrace : ℕ) (lr hr : K) : KnState K n where
  adGrace := adGrace
  fmGrace := fmGrace.getD adGrace
  m := if maxSize ≤ 0 then 1 else maxSize
  lr := lr
  hr := hr
  nTrained := 0
  nExecuted := 0
  v := none
  fm := CorClust.new n
  ensemble := []
  output := none

/-- The loop of `__createAD__`, l.99-101. -/
def createEnsemble [FloorRing K] (env : KnEnv K) :
    KnState K n → List (List (Fin n)) → Res (KnState K n) Unit
  | s, [] => .ok () s
  | s, part :: parts =>
    match Da.new env part.length s.lr s.hr with
    | .error e => .err e s
    | .ok a => createEnsemble env { s with ensemble := s.ensemble ++ [a] } parts

/-- `__createAD__`, l.97-105, for the map `v`. -/
def createAD [FloorRing K] (env : KnEnv K) (s : KnState K n) (v : List (List (Fin n))) :
    Res (KnState K n) Unit :=
  (createEnsemble env s v).bind fun _ s =>
    match Da.new env v.length s.lr s.hr with
    | .error e => .err e s
    | .ok a => .ok () { s with output := some a }

/-- `x[self.v[a]]`, l.74 and l.92. -/
def part (x : Fin n → K) (idx : List (Fin n)) : ℕ → K := Da.ofList (idx.map x)

/-- The ensemble layer of `train`, l.71-75: errors and autoencoders afterwards. -/
def trainLayer (env : KnEnv K) (x : Fin n → K) :
    List (DaState K) → List (List (Fin n)) → List K × List (DaState K)
  | a :: as, idx :: v =>
    let r := Da.train env a (part x idx)
    let rs := trainLayer env x as v
    (r.1 :: rs.1, r.2 :: rs.2)
  | as, _ => ([], as)

/-- The feature-mapping branch of `train`, l.61-68. -/
def trainMap [FloorRing K] (env : KnEnv K) (s : KnState K n) (x : Fin n → K) :
    Res (KnState K n) Unit :=
  let s := { s with fm := s.fm.update x }
  if s.nTrained = s.fmGrace then
    match s.fm.cluster env s.m with
    | .error e => .err e s
    | .ok v => createAD env { s with v := some v } v
  else .ok () s

/-- The other branch of `train`, l.69-79. -/
def trainLayers (env : KnEnv K) (s : KnState K n) (x : Fin n → K) : Res (KnState K n) Unit :=
  let r := trainLayer env x s.ensemble (s.v.getD [])
  let s := { s with ensemble := r.2 }
  match s.output with
  | none => .err .attributeError s
  | some o => .ok () { s with output := some (Da.train env o (Da.ofList r.1)).2 }

/-- `train`, l.60-80. -/
def train [FloorRing K] (env : KnEnv K) (s : KnState K n) (x : Fin n → K) :
    Res (KnState K n) Unit :=
  (if s.nTrained ≤ s.fmGrace ∧ s.v = none then trainMap env s x else trainLayers env s x).bind
    fun _ s => .ok () { s with nTrained := s.nTrained + 1 }

/-- The ensemble layer of `execute`, l.89-93. -/
def executeLayer (env : KnEnv K) (x : Fin n → K) :
    List (DaState K) → List (List (Fin n)) → List (Num K)
  | a :: as, idx :: v => Da.execute env a (part x idx) :: executeLayer env x as v
  | _, _ => []

/-- `execute`, l.83-95. -/
def execute (env : KnEnv K) (s : KnState K n) (x : Fin n → K) : Res (KnState K n) (Num K) :=
  match s.v with
  | none => .err .other s
  | some v =>
    let s := { s with nExecuted := s.nExecuted + 1 }
    match s.output with
    | none => .err .attributeError s
    | some o => .ok (Da.executeNums env o (executeLayer env x s.ensemble v)) s

/-- `process`, l.51-56 (the returned score is not used). -/
def process [FloorRing K] (env : KnEnv K) (s : KnState K n) (x : Fin n → K) :
    Res (KnState K n) Unit :=
  if s.nTrained > s.fmGrace + s.adGrace then (execute env s x).map fun _ => ()
  else train env s x

end KitNET

/-- Attributes of `KitNet`, `pysad/models/kitnet.py` l.25-30. `model` is `none` while
`to_init`. -/
structure KitNetState (K : Type*) (n : ℕ) where
  maxSizeAe : ℤ
  graceFeatureMapping : Option ℕ
  graceAnomalyDetector : ℕ
  learningRate : K
  hiddenRatio : K
  model : Option (KnState K n)

namespace KitNet
variable {K : Type*} [Field K] [LinearOrder K] {n : ℕ}

/-- `__init__`, l.17-30. -/
def new (n : ℕ) (maxSizeAe : ℤ) (graceFeatureMapping : Option ℕ) (graceAnomalyDetector : ℕ)
    (learningRate hiddenRatio : K) : KitNetState K n :=
  ⟨maxSizeAe, graceFeatureMapping, graceAnomalyDetector, learningRate, hiddenRatio, none⟩

/-- The model, created if there is none, `fit_partial` l.42-51. -/
def init (s : KitNetState K n) : KnState K n :=
  s.model.getD (KitNET.new n s.maxSizeAe s.graceFeatureMapping s.graceAnomalyDetector
    s.learningRate s.hiddenRatio)

/-- `fit_partial`, l.32-54. -/
def fitPartial [FloorRing K] (env : KnEnv K) (s : KitNetState K n) (x : Fin n → K) :
    Res (KitNetState K n) Unit :=
  (KitNET.process env (init s) x).mapState fun m => { s with model := some m }

/-- `score_partial`, l.56-70. -/
def scorePartial (env : KnEnv K) (s : KitNetState K n) (x : Fin n → K) :
    Res (KitNetState K n) (Num K) :=
  match s.model with
  | none => .err .attributeError s
  | some m =>
    if m.v = none then .ok (.fin 0) s
    else (KitNET.execute env m x).mapState fun m => { s with model := some m }

/-- `KitNet` as a detector. -/
def detector {β : Type*} [FloorRing K] (env : KnEnv K) :
    Detector (KitNetState K n) (Fin n → K) β (Num K) where
  fitPartial s x _ := fitPartial env s x
  scorePartial := scorePartial env

end KitNet
end Pysad
