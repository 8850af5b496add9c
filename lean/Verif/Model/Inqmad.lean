import Verif.Model.Base
import Mathlib.Algebra.BigOperators.Group.Finset.Basic
import Mathlib.Data.Fintype.BigOperators
import Mathlib.Algebra.Field.Defs

/-! Model of `pysad/models/inqmad.py`, for instances that are vectors of `n` numbers of the
same type. -/

namespace Pysad

/-- The external functions and the weights and offsets `RBFSampler` draws in
`QFeatureMap_rff.build`, `pysad/models/inqmad.py` l.120-131. -/
structure InqEnv (K : Type*) (n d : ℕ) where
  cos : K → K
  sqrt : K → K
  weights : Fin n → Fin d → K
  offset : Fin d → K

/-- Attributes of `InqMeasurement`, l.170-179 and l.214. `rho` is `rho_res` (`none`: no such
attribute). `traced` is the constant `rho_res / num_samples` in the compiled `predict`:
`@partial(jit, static_argnums=(0,))`, l.245, runs the Python code of `predict` only at the first
call with given types of arguments; what it reads from `self` becomes a constant. -/
structure InqState (K : Type*) (d : ℕ) where
  batchSize : ℕ
  rho : Option (Fin d → Fin d → K)
  numSamples : ℕ
  traced : Option (Fin d → Fin d → K)

namespace Inqmad
variable {K : Type*} [Field K] {n d : ℕ}

/-- `__init__`, l.44-58 and l.170-179. -/
def new (batchSize : ℕ) : InqState K d := ⟨batchSize, none, 0, none⟩

/-- `QFeatureMap_rff.compute`, l.142-147. -/
def compute (env : InqEnv K n d) (x : Fin n → K) : Fin d → K :=
  fun k => env.cos ((∑ i, x i * env.weights i k) + env.offset k) *
    (env.sqrt 2 / env.sqrt (d : K))

/-- `QFeatureMap_rff.__call__`, l.150-154. -/
def feature (env : InqEnv K n d) (x : Fin n → K) : Fin d → K :=
  fun k => compute env x k / env.sqrt (∑ j, compute env x j ^ 2)

/-- `train_pure`, l.182-187. -/
def trainPure (psi : Fin d → K) : Fin d → Fin d → K := fun i j => psi i * psi j

/-- `compute_training_jit`, l.196-200, for a batch of one instance. -/
def computeTraining (env : InqEnv K n d) (x : Fin n → K) (alpha : K)
    (rho : Option (Fin d → Fin d → K)) : Fin d → Fin d → K :=
  let new := trainPure (feature env x)
  match rho with
  | some rho => fun i j => alpha * new i j + (1 - alpha) * rho i j
  | none => new

/-- `fit_partial`, l.61-76, with `initial_train(X, 1)`, l.208-223. One instance is one batch;
`divmod` by a batch size of 0 raises. -/
def fitPartial (env : InqEnv K n d) (s : InqState K d) (x : Fin n → K) : Res (InqState K d) Unit :=
  if s.batchSize = 0 then .err .zeroDivision s
  else .ok () { s with
    rho := some (computeTraining env x 1 s.rho)
    numSamples := s.numSamples + 1 }

/-- `collapse`, l.228-234. -/
def collapse (psi : Fin d → K) (rho : Fin d → Fin d → K) : K :=
  ∑ j, (∑ i, psi i * rho i j) ^ 2

/-- What `predict`, l.246-259, reads from `self` when it is traced. -/
def trace (s : InqState K d) : Except PyErr (Fin d → Fin d → K) :=
  if s.batchSize = 0 then .error .zeroDivision
  else
    match s.rho with
    | none => .error .attributeError
    | some rho => .ok fun i j => rho i j / (s.numSamples : K)

/-- `score_partial`, l.78-90: the only entry of the returned array. -/
def scorePartial (env : InqEnv K n d) (s : InqState K d) (x : Fin n → K) :
    Res (InqState K d) K :=
  match s.traced with
  | some rho => .ok (collapse (feature env x) rho) s
  | none =>
    match trace s with
    | .error e => .err e s
    | .ok rho => .ok (collapse (feature env x) rho) { s with traced := some rho }

/-- `Inqmad` as a detector. -/
def detector {β : Type*} (env : InqEnv K n d) : Detector (InqState K d) (Fin n → K) β K where
  fitPartial s x _ := fitPartial env s x
  scorePartial := scorePartial env

end Inqmad
end Pysad
