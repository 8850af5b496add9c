import Verif.Model.SimpleModels
import Verif.Model.RsHash

/-! `ExactStorm` and `RSHash` for instances of any length. `Model/SimpleModels.lean` and `Model/RsHash.lean`
describe them for instances whose lengths agree. (`HalfSpaceTrees`, `LODA`, `xStream`, `KNNCAD`, the deviation
detectors and Seasonal ESD are modelled for every length where they are defined.) -/

namespace Pysad

/-- The Euclidean distance that `scipy.spatial.distance.cdist` computes. -/
def euclidean {K : Type*} [Field K] (sqrt : K → K) (a b : List K) : K :=
  sqrt (List.zipWith (fun u v => (u - v) ^ 2) a b).sum

/-- `scipy.spatial.distance.cdist(window, [X])` (external) by its documentation: `ValueError` if the rows of
`window` do not form a matrix, or if that matrix and `X` have different numbers of columns. -/
def cdist {K : Type*} [Field K] (sqrt : K → K) (window : List (List K)) (x : List K) : Except PyErr (List K) :=
  if window.all fun w => w.length = x.length then .ok (window.map fun w => euclidean sqrt w x)
  else .error .valueError

/-- `ExactStorm`, `pysad/models/exact_storm.py` l.21-50, for instances of any length. -/
def exactStormArrays {β K : Type*} [Field K] [LT K] [DecidableLT K] (sqrt : K → K) :
    Detector (StormState (List K) K) (List K) β K where
  fitPartial s x _ := .ok () { s with window := s.window.update x }
  scorePartial s x :=
    let window := s.window.get.dropLast
    if window.length = 0 then .ok 0 s
    else
      match cdist sqrt window x with
      | .error e => .err e s
      | .ok dists => .ok (((dists.filter fun d => d < s.maxRadius).length : K) / (dists.length : K)) s

namespace RsHash

variable {K : Type*} [Field K] [LinearOrder K] [IsStrictOrderedRing K] [FloorRing K] {dim : ℕ}

/-- `X[np.array(self.V[r])]`, `pysad/models/rs_hash.py` l.66, shifted and scaled: `none` if one of the sampled
features is missing (`IndexError`). -/
def entries (f : K) (x : List K) : List (Fin dim × K) → Option (List ℤ)
  | [] => some []
  | p :: ps =>
    match x[(p.1 : ℕ)]?, entries f x ps with
    | some v, some l => some (⌊(v + p.2) / f⌋ :: l)
    | _, _ => none

variable (pow2 log : K → K)

/-- The loop over the components, l.63-90, for an instance of any length. -/
def componentsArrays (decay : K) (index : ℤ) (x : List K) :
    ℕ → List (RsComponent K dim) → K → List (RsSketch K) → Res (List (RsSketch K)) K
  | _, [], acc, sketches => .ok acc sketches
  | r, c :: cs, acc, sketches =>
    match entries c.f x c.dims with
    | none => .err .indexError sketches
    | some l =>
      let visits := sketches.map (visit pow2 decay index ((r : ℤ) :: l))
      match pyMin (visits.map Prod.fst) with
      | .error e => .err e (visits.map Prod.snd)
      | .ok minC => componentsArrays decay index x (r + 1) cs (acc + log (1 + minC)) (visits.map Prod.snd)

/-- `fit_partial`, l.52-96, for an instance of any length. -/
def fitPartialArrays (s : RsHashState K dim) (x : List K) : Res (RsHashState K dim) Unit :=
  match componentsArrays pow2 log s.decay s.index x 0 s.components 0 s.cmsketches with
  | .err e sk => .err e { s with cmsketches := sk }
  | .ok score sk =>
    let s := { s with cmsketches := sk }
    if s.components.length = 0 then .err .zeroDivision s
    else .ok () { s with lastScore := some (score / (s.components.length : K)), index := s.index + 1 }

/-- `RSHash` as a detector, for instances of any length; `score_partial`, l.98-106. -/
def detectorArrays {β : Type*} : Detector (RsHashState K dim) (List K) β (Option K) where
  fitPartial s x _ := fitPartialArrays pow2 log s x
  scorePartial s _ := .ok s.lastScore s

end RsHash

end Pysad
