import Verif.Model.KnnCad
import Verif.Model.RelativeEntropy
import Verif.Model.Inqmad
import Verif.Model.Loda
import Verif.Model.Interrupt

/-! `fit_partial` of `KNNCAD`, `RelativeEntropy`, `Inqmad` and `LODA` store by store: the states the object
goes through, to say what is left behind by a call that is interrupted (`KeyboardInterrupt`, a signal
handler that raises). A store that does not happen in some case is a state that occurs twice, which
makes no difference. -/

namespace Pysad

/-! ### `KNNCAD` -/

namespace KnnCad
variable {K : Type*} [Field K] [LinearOrder K] (inv : List (List K) → Option (List (List K)))

/-- The states after each store of l.75-77 of `pysad/models/knn_cad.py`. -/
def finishStages (s : KnnCadState K) (item : List K) (newScore : K) : List (KnnCadState K) :=
  match s.scores with
  | [] => []
  | _ :: sc =>
    [{ s with scores := sc },
     { s with scores := sc, calibration := s.calibration ++ [item] },
     { s with scores := sc ++ [newScore], calibration := s.calibration ++ [item] }]

/-- The states after each store of l.71-77: `self.training.pop(0)`, `self.calibration.pop(0)`,
`self.training.append`, and those above. -/
def rotateStages (s : KnnCadState K) (item : List K) (newScore : K) : List (KnnCadState K) :=
  if 2 * s.probationaryPeriod ≤ s.recordCount then
    match s.training with
    | [] => []
    | _ :: tr =>
      { s with training := tr } :: match s.calibration with
      | [] => []
      | c :: cal =>
        { s with training := tr, calibration := cal } ::
        { s with training := tr ++ [c], calibration := cal } ::
        finishStages { s with training := tr ++ [c], calibration := cal } item newScore
  else finishStages s item newScore

/-- The states after each store of l.58-77. -/
def monitorStages (s : KnnCadState K) (sigma : List (List K)) : List (KnnCadState K) :=
  if s.probationaryPeriod = 0 then []
  else
    let item := newItem s.buf
    let sigma := newSigma inv s sigma
    let s := { s with sigma := some sigma }
    s :: match initScores s sigma with
    | .error _ => []
    | .ok sc =>
      let s := { s with scores := sc }
      s :: match ncm sigma s.training item false with
      | .error _ => []
      | .ok v => rotateStages s item v

/-- The states after each store of `fit_partial`, l.44-77; the three of l.45-47 are taken as one (with
only `dim` stored, `score_partial` would answer 0 in place of raising `AttributeError`). -/
def fitStages (s : KnnCadState K) (x : List K) : List (KnnCadState K) :=
  let sigma := s.sigma.getD (eye dim)
  let s := { s with sigma := some sigma }
  s :: match x with
  | [] => []
  | v :: _ =>
    { s with buf := s.buf ++ [v] } ::
    let s := { s with buf := s.buf ++ [v], recordCount := s.recordCount + 1 }
    s :: if s.buf.length < dim then []
    else if s.recordCount < s.probationaryPeriod then
      [{ s with training := s.training ++ [newItem s.buf] }]
    else monitorStages inv s sigma

/-- The stores of `fit_partial`, called in the state `s`. -/
def statements (x : List K) (s : KnnCadState K) : List (KnnCadState K → KnnCadState K) :=
  (fitStages inv s x).map fun t _ => t

end KnnCad

/-! ### `RelativeEntropy` -/

namespace RelEnt
variable {K : Type*} [Field K] [LinearOrder K] [IsStrictOrderedRing K] [FloorRing K]

/-- The states after each store of `fit_partial`, `pysad/models/relative_entropy.py` l.60-80:
`util.append`, `P_hat`, `P.append`, `c.append`, `m`. -/
def fitStages (s : RelEntState K) (x : K) : List (RelEntState K) :=
  let s := { s with util := s.util ++ [x] }
  s :: if s.W ≤ s.util.length then
    match (current s.W s.util).mapM (quantize s.minVal s.stepSize) with
    | .error _ => []
    | .ok bs =>
      let h := histogram s.nBins bs
      let s := { s with pHat := some h }
      s :: if s.m = 0 then
        [{ s with P := s.P ++ [h] }, { s with P := s.P ++ [h], c := s.c ++ [1] },
         { s with P := s.P ++ [h], c := s.c ++ [1], m := 1 }]
      else []
  else []

/-- The stores of `fit_partial`, called in the state `s`. -/
def statements (x : K) (s : RelEntState K) : List (RelEntState K → RelEntState K) :=
  (fitStages s x).map fun t _ => t

end RelEnt

/-! ### `Inqmad` -/

namespace Inqmad
variable {K : Type*} [Field K] {n d : ℕ}

/-- The states after each store of `fit_partial`, `pysad/models/inqmad.py` l.212-223: `rho_res`,
`num_samples`. -/
def fitStages (env : InqEnv K n d) (s : InqState K d) (x : Fin n → K) : List (InqState K d) :=
  if s.batchSize = 0 then []
  else [{ s with rho := some (computeTraining env x 1 s.rho) },
    { s with rho := some (computeTraining env x 1 s.rho), numSamples := s.numSamples + 1 }]

/-- The stores of `fit_partial`, called in the state `s`. -/
def statements (env : InqEnv K n d) (x : Fin n → K) (s : InqState K d) :
    List (InqState K d → InqState K d) :=
  (fitStages env s x).map fun t _ => t

end Inqmad

/-! ### `LODA` -/

namespace Loda
variable {G K : Type*} [Field K] [LinearOrder K]

/-- The row after each store of l.51-54 of `pysad/models/loda.py`: `histograms_[i, :]`, `limits_[i, :]`,
and the two augmented assignments; none if `np.histogram` raises. -/
def refitStages (nBins : ℕ) (c : LodaCut K) (v : K) : List (LodaCut K) :=
  match npHistogram [v] nBins with
  | .error _ => []
  | .ok (counts, limits) =>
    let h := counts.map fun n : ℕ => (n : K) + 1 / 10 ^ 12
    [{ c with histogram := counts.map fun n : ℕ => (n : K) },
     { c with histogram := counts.map fun n : ℕ => (n : K), limits := limits },
     { c with histogram := h, limits := limits },
     { c with histogram := h.map (· / h.sum), limits := limits }]

/-- The generator and the rows after each store of the loop of `fit_partial`, l.46-54. -/
def fitCutsStages (rng : LodaRng G K) (nBins numFeatures : ℕ) (x : List K) :
    G → List (LodaCut K) → List (G × List (LodaCut K))
  | _, [] => []
  | g, c :: cs =>
    let drawn := rng.permutation g numFeatures
    let nZero := numFeatures - numFeatures.sqrt
    let c' := { c with projection := zeroAt (drawn.1.take nZero) c.projection }
    (drawn.2, c :: cs) :: (drawn.2, c' :: cs) ::
    match project c'.projection x with
    | .error _ => []
    | .ok v =>
      ((refitStages nBins c' v).map fun c'' => (drawn.2, c'' :: cs)) ++
      match refit nBins c' v with
      | .error _ => []
      | .ok c'' => (fitCutsStages rng nBins numFeatures x drawn.2 cs).map fun p => (p.1, c'' :: p.2)

/-- The states after each store of `fit_partial`, l.28-54. The attributes of l.29-40 are taken to exist
from `self.to_init = False`, l.42, on: while `to_init` holds, the next call computes them anew (only a
score asked for in between could tell the difference). -/
def fitStages (rng : LodaRng G K) (s : LodaState G K) (x : List K) : List (LodaState G K) :=
  match s.arrays with
  | some (d, cs) =>
    (fitCutsStages rng s.nBins d x s.rng cs).map fun p => { s with rng := p.1, arrays := some (d, p.2) }
  | none =>
    let drawn := rng.randn s.rng s.nRandomCuts x.length
    let cs := drawn.1.map fun r =>
      (⟨r, List.replicate s.nBins 0, List.replicate (s.nBins + 1) 0⟩ : LodaCut K)
    { s with rng := drawn.2 } :: { s with rng := drawn.2, arrays := some (x.length, cs) } ::
    (fitCutsStages rng s.nBins x.length x drawn.2 cs).map fun p =>
      { s with rng := p.1, arrays := some (x.length, p.2) }

/-- The stores of `fit_partial`, called in the state `s`. -/
def statements (rng : LodaRng G K) (x : List K) (s : LodaState G K) :
    List (LodaState G K → LodaState G K) :=
  (fitStages rng s x).map fun t _ => t

end Loda

end Pysad
