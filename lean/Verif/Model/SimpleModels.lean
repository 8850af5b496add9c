import Verif.Model.Base
import Verif.Model.Num
import Verif.Model.Statistics
import Verif.Model.Window

/-! Model of the small detectors of `pysad/models`: `exact_storm.py`,
`null_model.py`, `perfect_model.py`, `random_model.py`,
`median_absolute_deviation.py`, `standard_absolute_deviation.py`. -/

namespace Pysad

/-! ### `ExactStorm` -/

/-- Attributes of `ExactStorm`, `pysad/models/exact_storm.py` l.17-19. -/
structure StormState (α K : Type*) where
  maxRadius : K
  window : Window α

/-- `ExactStorm.__init__`, l.17-19. -/
def StormState.new {α K : Type*} (windowSize : ℕ) (maxRadius : K) : StormState α K :=
  ⟨maxRadius, Window.new windowSize⟩

/-- `ExactStorm`, `pysad/models/exact_storm.py` l.21-50. `dist` is the distance that
`scipy.spatial.distance.cdist` computes (Euclidean); `np.mean` of a boolean column
counts its `True`s. -/
def exactStorm {α β K : Type*} [Zero K] [NatCast K] [Div K] [LT K] [DecidableLT K] (dist : α → α → K) :
    Detector (StormState α K) α β K where
  fitPartial s x _ := .ok () { s with window := s.window.update x }
  scorePartial s x :=
    let window := s.window.get.dropLast
    if window.length = 0 then .ok 0 s
    else
      let dists := window.map fun w => dist w x
      .ok (((dists.filter fun d => d < s.maxRadius).length : K) / (dists.length : K)) s

/-! ### `NullModel`, `PerfectModel`, `RandomModel` -/

/-- `NullModel`, `pysad/models/null_model.py` l.8-32. The attribute `labels` is never
used. -/
def nullModel (α β : Type*) {K : Type*} [Field K] : Detector Unit α β K where
  fitPartial s _ _ := .ok () s
  scorePartial s _ := .ok (1 / 2) s

/-- `PerfectModel`, `pysad/models/perfect_model.py` l.8-40; the state is `labels`. -/
def perfectModel (α β : Type*) : Detector (List β) α β β where
  fitPartial labels _ y :=
    match y with
    | none => .err .valueError labels
    | some y => .ok () (labels ++ [y])
  scorePartial labels _ :=
    match labels with
    | [] => .err .indexError labels
    | score :: _ => .ok score (pyTail labels)

/-- `RandomModel`, `pysad/models/random_model.py` l.10-31; the state is that of numpy's
global generator and `uniform` is `np.random.uniform()`. -/
def randomModel (α β : Type*) {G K : Type*} (uniform : G → K × G) : Detector G α β K where
  fitPartial g _ _ := .ok () g
  scorePartial g _ := .ok (uniform g).1 (uniform g).2

/-! ### `MedianAbsoluteDeviation`, `StandardAbsoluteDeviation` -/

/-- Python's `abs` of a numpy scalar. -/
def Num.abs {K : Type*} [Lattice K] [AddGroup K] : Num K → Num K
  | .fin x => .fin |x|
  | .posInf => .posInf
  | .negInf => .posInf
  | .nan => .nan

/-- The constant `1e-10` that both models add to the deviation. -/
def epsilon10 {K : Type*} [Field K] : K := 1 / 10 ^ 10

/-- Attributes of `MedianAbsoluteDeviation`,
`pysad/models/median_absolute_deviation.py` l.18-22. -/
structure MadState (K : Type*) where
  b : K
  absolute : Bool
  medianMeter : MedianState K
  madMeter : MedianState K

/-- `MedianAbsoluteDeviation.__init__`, l.18-22. -/
def MadState.new {K : Type*} [Field K] [LinearOrder K] (absolute : Bool) (b : K) : MadState K :=
  ⟨b, absolute, (Pysad.medianMeter K).init, (Pysad.medianMeter K).init⟩

/-- `MedianAbsoluteDeviation`, l.24-55. An instance is a vector; `fit_partial` insists on
length 1, so the meters hold one-element arrays, which are modelled by their
element. -/
def medianAbsoluteDeviation {β K : Type*} [Field K] [LinearOrder K] :
    Detector (MadState K) (List K) β (List (Num K)) where
  fitPartial s X _ :=
    match X with
    | [x] =>
      let s := { s with medianMeter := (medianMeter K).update s.medianMeter x }
      (((medianMeter K).get s.medianMeter).mapState
        fun q => ({ s with medianMeter := q } : MadState K)).bind fun median s =>
      let deviation := |x - median|
      .ok () { s with madMeter := (medianMeter K).update s.madMeter deviation }
    | _ => .err .assertionError s
  scorePartial s X :=
    (((medianMeter K).get s.medianMeter).mapState
      fun q => ({ s with medianMeter := q } : MadState K)).bind fun median s =>
    (((medianMeter K).get s.madMeter).mapState
      fun q => ({ s with madMeter := q } : MadState K)).bind fun mad s =>
    let mad := s.b * mad
    let score := X.map fun x => npDiv (x - median) (mad + epsilon10)
    .ok (if s.absolute then score.map Num.abs else score) s

/-- Attributes of `StandardAbsoluteDeviation`,
`pysad/models/standard_absolute_deviation.py` l.19-29. -/
structure SadState (σ K : Type*) where
  absolute : Bool
  varianceMeter : VarianceState K
  subMeter : σ

/-- `StandardAbsoluteDeviation.__init__`, l.19-29, for the chosen meter. -/
def SadState.new {σ K : Type*} [Field K] (sub : Statistic σ K K) (absolute : Bool) :
    SadState σ K :=
  { absolute, varianceMeter := (Pysad.varianceMeter K).init, subMeter := sub.init }

/-- `StandardAbsoluteDeviation`, l.31-62, over the meter `sub` that `__init__` made;
`sqrt v` is `v**0.5`. -/
def standardAbsoluteDeviation {β σ K : Type*} [Field K] [LinearOrder K] (sqrt : K → K)
    (sub : Statistic σ K K) : Detector (SadState σ K) (List K) β (List (Num K)) where
  fitPartial s X _ :=
    match X with
    | [x] => .ok () { s with
        varianceMeter := (varianceMeter K).update s.varianceMeter x
        subMeter := sub.update s.subMeter x }
    | _ => .err .assertionError s
  scorePartial s X :=
    ((sub.get s.subMeter).mapState fun q => ({ s with subMeter := q } : SadState σ K)).bind
      fun m s =>
    (((varianceMeter K).get s.varianceMeter).mapState
      fun q => ({ s with varianceMeter := q } : SadState σ K)).bind fun v s =>
    let dev := sqrt v
    let score := X.map fun x => npDiv (x - m) (dev + epsilon10)
    .ok (if s.absolute then score.map Num.abs else score) s

/-- A `StandardAbsoluteDeviation` object: `sub_meter` is a `MedianMeter` or an `AverageMeter`. -/
inductive SadObject (K : Type*) where
  | median (s : SadState (MedianState K) K)
  | mean (s : SadState (AverageState K) K)

/-- `StandardAbsoluteDeviation(substracted_statistic, absolute)`, l.19-29. -/
def SadObject.new {K : Type*} [Field K] [LinearOrder K] (substractedStatistic : String)
    (absolute : Bool) : Except PyErr (SadObject K) :=
  if substractedStatistic = "median" then .ok (.median (SadState.new (medianMeter K) absolute))
  else if substractedStatistic = "mean" then .ok (.mean (SadState.new (averageMeter K) absolute))
  else .error .valueError

/-- The methods of such an object, l.31-62. -/
def SadObject.detector {β K : Type*} [Field K] [LinearOrder K] (sqrt : K → K) :
    Detector (SadObject K) (List K) β (List (Num K)) where
  fitPartial s X y :=
    match s with
    | .median s => ((standardAbsoluteDeviation sqrt (medianMeter K)).fitPartial s X y).mapState .median
    | .mean s => ((standardAbsoluteDeviation sqrt (averageMeter K)).fitPartial s X y).mapState .mean
  scorePartial s X :=
    match s with
    | .median s =>
      ((standardAbsoluteDeviation (β := β) sqrt (medianMeter K)).scorePartial s X).mapState .median
    | .mean s =>
      ((standardAbsoluteDeviation (β := β) sqrt (averageMeter K)).scorePartial s X).mapState .mean

end Pysad
