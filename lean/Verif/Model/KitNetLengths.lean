import Verif.Model.KitNet
import Verif.Model.Inqmad

/-! `KitNet` and `Inqmad` for instances of any length. `Model/KitNet.lean` and `Model/Inqmad.lean`
describe them for instances that all have the same length. -/

namespace Pysad

namespace CorClust
variable {K : Type*} [Field K] [LinearOrder K] {n : ℕ}

/-- A vector of length `n`, as the other model has it. -/
def vec (n : ℕ) (x : List K) : Fin n → K := fun i => x.getD i 0

/-- `update`, `pysad/models/kitnet_model/corClust.py` l.19-25. `self.c += x` stretches a vector of
length 1 and raises `ValueError` for another wrong length; `self.N += 1` comes before it. -/
def updateAny (s : CorClust K n) (x : List K) : Res (CorClust K n) Unit :=
  if x.length = n then .ok () (s.update (vec n x))
  else
    match x with
    | [a] => .ok () (s.update fun _ => a)
    | _ => .err .valueError { s with N := s.N + 1 }

end CorClust

namespace KitNET
variable {K : Type*} [Field K] [LinearOrder K] {n : ℕ}

/-- `x[self.v[a]]`, `pysad/models/kitnet_model/KitNET.py` l.74 and l.92: `IndexError` (`none`) if
`x` lacks one of the entries. -/
def partAny (x : List K) (idx : List (Fin n)) : Option (List K) := idx.mapM fun i => x[i.val]?

/-- The ensemble layer of `train`, l.71-75: the errors, or the exception, and the autoencoders
afterwards (those before the exception have been trained). -/
def trainLayerAny (env : KnEnv K) (x : List K) :
    List (DaState K) → List (List (Fin n)) → Except PyErr (List K) × List (DaState K)
  | a :: as, idx :: v =>
    match partAny x idx with
    | none => (.error .indexError, a :: as)
    | some xi =>
      let r := Da.train env a (Da.ofList xi)
      let rs := trainLayerAny env x as v
      (rs.1.map (r.1 :: ·), r.2 :: rs.2)
  | as, _ => (.ok [], as)

/-- The feature-mapping branch of `train`, l.61-68. -/
def trainMapAny [FloorRing K] (env : KnEnv K) (s : KnState K n) (x : List K) :
    Res (KnState K n) Unit :=
  ((s.fm.updateAny x).mapState fun fm => { s with fm := fm }).bind fun _ s =>
  if s.nTrained = s.fmGrace then
    match s.fm.cluster env s.m with
    | .error e => .err e s
    | .ok v => createAD env { s with v := some v } v
  else .ok () s

/-- The other branch of `train`, l.69-79. -/
def trainLayersAny (env : KnEnv K) (s : KnState K n) (x : List K) : Res (KnState K n) Unit :=
  let r := trainLayerAny env x s.ensemble (s.v.getD [])
  let s := { s with ensemble := r.2 }
  match r.1 with
  | .error e => .err e s
  | .ok errs =>
    match s.output with
    | none => .err .attributeError s
    | some o => .ok () { s with output := some (Da.train env o (Da.ofList errs)).2 }

/-- `train`, l.60-80. -/
def trainAny [FloorRing K] (env : KnEnv K) (s : KnState K n) (x : List K) :
    Res (KnState K n) Unit :=
  (if s.nTrained ≤ s.fmGrace ∧ s.v = none then trainMapAny env s x
    else trainLayersAny env s x).bind
    fun _ s => .ok () { s with nTrained := s.nTrained + 1 }

/-- The ensemble layer of `execute`, l.89-93. -/
def executeLayerAny (env : KnEnv K) (x : List K) :
    List (DaState K) → List (List (Fin n)) → Except PyErr (List (Num K))
  | a :: as, idx :: v =>
    match partAny x idx with
    | none => .error .indexError
    | some xi => (executeLayerAny env x as v).map (Da.execute env a (Da.ofList xi) :: ·)
  | _, _ => .ok []

/-- `execute`, l.83-95. -/
def executeAny (env : KnEnv K) (s : KnState K n) (x : List K) : Res (KnState K n) (Num K) :=
  match s.v with
  | none => .err .other s
  | some v =>
    let s := { s with nExecuted := s.nExecuted + 1 }
    match executeLayerAny env x s.ensemble v with
    | .error e => .err e s
    | .ok nums =>
      match s.output with
      | none => .err .attributeError s
      | some o => .ok (Da.executeNums env o nums) s

/-- `process`, l.51-56. -/
def processAny [FloorRing K] (env : KnEnv K) (s : KnState K n) (x : List K) :
    Res (KnState K n) Unit :=
  if s.nTrained > s.fmGrace + s.adGrace then (executeAny env s x).map fun _ => ()
  else trainAny env s x

end KitNET

/-- Attributes of `KitNet`, `pysad/models/kitnet.py` l.25-30 and l.43-51. The number of features is
that of the first fitted instance. -/
structure KitNetAny (K : Type*) where
  maxSizeAe : ℤ
  graceFeatureMapping : Option ℕ
  graceAnomalyDetector : ℕ
  learningRate : K
  hiddenRatio : K
  model : Option (Σ n : ℕ, KnState K n)

namespace KitNetAny
variable {K : Type*} [Field K] [LinearOrder K]

/-- `__init__`, `pysad/models/kitnet.py` l.17-30. -/
def new (maxSizeAe : ℤ) (graceFeatureMapping : Option ℕ) (graceAnomalyDetector : ℕ)
    (learningRate hiddenRatio : K) : KitNetAny K :=
  ⟨maxSizeAe, graceFeatureMapping, graceAnomalyDetector, learningRate, hiddenRatio, none⟩

/-- The model, created for `n` features if there is none, `fit_partial` l.42-51. -/
def init (s : KitNetAny K) (n : ℕ) : Σ n : ℕ, KnState K n :=
  s.model.getD ⟨n, KitNET.new n s.maxSizeAe s.graceFeatureMapping s.graceAnomalyDetector
    s.learningRate s.hiddenRatio⟩

/-- `fit_partial`, l.32-54. -/
def fitPartial [FloorRing K] (env : KnEnv K) (s : KitNetAny K) (x : List K) :
    Res (KitNetAny K) Unit :=
  (KitNET.processAny env (init s x.length).2 x).mapState
    fun m => { s with model := some ⟨(init s x.length).1, m⟩ }

/-- `score_partial`, l.56-70. -/
def scorePartial (env : KnEnv K) (s : KitNetAny K) (x : List K) : Res (KitNetAny K) (Num K) :=
  match s.model with
  | none => .err .attributeError s
  | some ⟨n, m⟩ =>
    if m.v = none then .ok (.fin 0) s
    else (KitNET.executeAny env m x).mapState fun m => { s with model := some ⟨n, m⟩ }

/-- `KitNet` as a detector of instances of any length. -/
def detector {β : Type*} [FloorRing K] (env : KnEnv K) :
    Detector (KitNetAny K) (List K) β (Num K) where
  fitPartial s x _ := fitPartial env s x
  scorePartial := scorePartial env

end KitNetAny

namespace InqmadAny
variable {K : Type*} [Field K] {n d : ℕ}

/-- An instance of the right length, as the other model has it. -/
def vec (n : ℕ) (x : List K) : Fin n → K := fun i => x.getD i 0

/-- `fit_partial`, `pysad/models/inqmad.py` l.61-76: `jnp.dot(X, weights)`, l.143, raises a
`TypeError` for another number of features than the constructor was given; `rho_res` and
`num_samples` are assigned after that (l.214-223). -/
def fitPartial (env : InqEnv K n d) (s : InqState K d) (x : List K) : Res (InqState K d) Unit :=
  if s.batchSize = 0 then .err .zeroDivision s
  else if x.length = n then Inqmad.fitPartial env s (vec n x)
  else .err .typeError s

/-- `score_partial`, l.78-90. A different shape is traced anew (l.245), and tracing raises what
`predict`, l.246-259, raises: a batch size of 0, a missing `rho_res`, then `jnp.dot`. -/
def scorePartial (env : InqEnv K n d) (s : InqState K d) (x : List K) : Res (InqState K d) K :=
  if x.length = n then Inqmad.scorePartial env s (vec n x)
  else
    match Inqmad.trace s with
    | .error e => .err e s
    | .ok _ => .err .typeError s

/-- `Inqmad` as a detector of instances of any length. -/
def detector {β : Type*} (env : InqEnv K n d) : Detector (InqState K d) (List K) β K where
  fitPartial s x _ := fitPartial env s x
  scorePartial := scorePartial env

end InqmadAny
end Pysad
