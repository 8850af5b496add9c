import Verif.Model.KitNet
import Verif.Model.Interrupt

/-! `KitNet.fit_partial`, `pysad/models/kitnet.py` l.32-54 with `pysad/models/kitnet_model/`, store by store: the
states the object goes through, to say what is left behind by a call that is interrupted (`KeyboardInterrupt`, a
signal handler that raises). Assignments to slices and in-place operations on arrays (implemented in C) are one
store each. -/

namespace Pysad

/-- The states after each of the assignments of `corClust.update`, `corClust.py` l.20-25. -/
def CorClust.updateStages {K : Type*} [Field K] {n : ℕ} (s : CorClust K n) (x : Fin n → K) : List (CorClust K n) :=
  let s1 := { s with N := s.N + 1 }
  let s2 := { s1 with c := fun i => s.c i + x i }
  let crt := fun i => x i - s2.c i / (s2.N : K)
  let s3 := { s2 with cr := fun i => s.cr i + crt i }
  let s4 := { s3 with crs := fun i => s.crs i + crt i ^ 2 }
  [s1, s2, s3, s4, { s4 with C := fun i j => s.C i j + crt i * crt j }]

/-- The states after each of the assignments of `dA.train`, `dA.py` l.81-105. Simplification: `norm_max` and
`norm_min` (l.83-84) are stored together. -/
def Da.trainStages {K : Type*} [Field K] [LinearOrder K] (env : KnEnv K) (s : DaState K) (x : ℕ → K) :
    List (DaState K) :=
  let t := (Da.train env s x).2
  let s1 := { s with n := t.n }
  let s2 := { s1 with norm := t.norm }
  let s3 := { s2 with W := t.W }
  let s4 := { s3 with hbias := t.hbias }
  [s1, s2, s3, s4, { s4 with vbias := t.vbias }]

namespace KitNET
variable {K : Type*} [Field K] [LinearOrder K] {n : ℕ}

/-- The autoencoders after each of the assignments of the loop over them, `KitNET.py` l.72-75. -/
def layerStages (env : KnEnv K) (x : Fin n → K) :
    List (DaState K) → List (List (Fin n)) → List (List (DaState K))
  | a :: as, idx :: v =>
    ((Da.trainStages env a (part x idx)).map fun a' => a' :: as) ++
      (layerStages env x as v).map fun as' => (Da.train env a (part x idx)).2 :: as'
  | _, _ => []

/-- The states after each `append` of `__createAD__`, l.99-101. -/
def ensembleStages [FloorRing K] (env : KnEnv K) : KnState K n → List (List (Fin n)) → List (KnState K n)
  | _, [] => []
  | s, part :: parts =>
    match Da.new env part.length s.lr s.hr with
    | .error _ => []
    | .ok a =>
      let s1 := { s with ensemble := s.ensemble ++ [a] }
      s1 :: ensembleStages env s1 parts

/-- The states after each of the assignments of the branch of `train` that learns the feature map, l.63-68. -/
def mapStages [FloorRing K] (env : KnEnv K) (s : KnState K n) (x : Fin n → K) : List (KnState K n) :=
  let s1 := { s with fm := s.fm.update x }
  ((s.fm.updateStages x).map fun c => { s with fm := c }) ++
  if s.nTrained = s.fmGrace then
    match s1.fm.cluster env s1.m with
    | .error _ => []
    | .ok v =>
      let s2 := { s1 with v := some v }
      s2 :: ensembleStages env s2 v ++
        match createAD env s2 v with
        | .err _ _ => []
        | .ok _ s3 => [s3]
  else []

/-- The states after each of the assignments of the other branch, l.70-77. -/
def layersStages (env : KnEnv K) (s : KnState K n) (x : Fin n → K) : List (KnState K n) :=
  let r := trainLayer env x s.ensemble (s.v.getD [])
  ((layerStages env x s.ensemble (s.v.getD [])).map fun as => { s with ensemble := as }) ++
  match s.output with
  | none => []
  | some o => (Da.trainStages env o (Da.ofList r.1)).map fun o' => { s with ensemble := r.2, output := some o' }

/-- The states after each of the assignments of `process`, l.51-56, with `train`, l.60-80, or `execute`, l.87. -/
def processStages [FloorRing K] (env : KnEnv K) (s : KnState K n) (x : Fin n → K) : List (KnState K n) :=
  if s.nTrained > s.fmGrace + s.adGrace then
    if s.v = none then [] else [{ s with nExecuted := s.nExecuted + 1 }]
  else
    (if s.nTrained ≤ s.fmGrace ∧ s.v = none then mapStages env s x else layersStages env s x) ++
      match train env s x with
      | .err _ _ => []
      | .ok _ s' => [s']

end KitNET

namespace KitNet
variable {K : Type*} [Field K] [LinearOrder K] {n : ℕ}

/-- The states after each of the assignments of `fit_partial`, l.42-52. Simplification: `model` is assigned and
`to_init` cleared (l.44-51) in one step; in between, `fit_partial` would create the same new model again. -/
def fitStages [FloorRing K] (env : KnEnv K) (s : KitNetState K n) (x : Fin n → K) : List (KitNetState K n) :=
  (if s.model = none then [{ s with model := some (init s) }] else []) ++
    (KitNET.processStages env (init s) x).map fun m => { s with model := some m }

/-- The assignments of `fit_partial`, called in the state `s`. -/
def statements [FloorRing K] (env : KnEnv K) (x : Fin n → K) (s : KitNetState K n) :
    List (KitNetState K n → KitNetState K n) :=
  (fitStages env s x).map fun t _ => t

end KitNet

end Pysad
