import Verif.Model.Postprocessors
import Verif.Model.Window

/-! Model of `pysad/transform/probability_calibration/*.py`. -/

namespace Pysad

/-! ### `ConformalProbabilityCalibrator` -/

/-- Attribute `window` of `ConformalProbabilityCalibrator`
(`pysad/transform/probability_calibration/conformal_prediction.py` l.16-19). -/
inductive ConformalState (α : Type*) where
  | windowed (w : Window α)
  | unlimited (w : UnlimitedWindow α)

namespace Conformal
variable {α : Type*}

/-- `__init__`, `conformal_prediction.py` l.16-19. -/
def new (windowed : Bool) (windowSize : ℕ) : ConformalState α :=
  if windowed then .windowed (Window.new windowSize) else .unlimited UnlimitedWindow.new

/-- `self.window.get()`. -/
def contents : ConformalState α → List α
  | .windowed w => w.get
  | .unlimited w => w.get

/-- `fit_partial`, `conformal_prediction.py` l.21-31. -/
def fitPartial (s : ConformalState α) (score : α) : ConformalState α :=
  match s with
  | .windowed w => .windowed (w.update score)
  | .unlimited w => .unlimited (w.update score)

/-- `transform_partial`, `conformal_prediction.py` l.33-42: `np.sum` of a boolean
array is a numpy integer, so the division is numpy's. -/
def transformPartial [LT α] [DecidableLT α] (K : Type*) [Zero K] [NatCast K] [Div K] [LT K]
    [DecidableLT K] [DecidableEq K] (s : ConformalState α) (score : α) : Num K :=
  npDiv (((contents s).filter (fun y => score < y)).length : K) ((contents s).length : K)

/-- The calibrator as a postprocessor. -/
def postprocessor [LT α] [DecidableLT α] (K : Type*) [Zero K] [NatCast K] [Div K] [LT K]
    [DecidableLT K] [DecidableEq K] : Postprocessor (ConformalState α) α (Num K) where
  fitPartial s score := .ok () (fitPartial s score)
  transformPartial s score := .ok (transformPartial K s score) s

end Conformal

/-! ### `GaussianTailProbabilityCalibrator` -/

/-- Attributes `avg_meter` and `var_meter`
(`pysad/transform/probability_calibration/gaussian_tail.py` l.17-26). -/
structure GaussianTailState (σa σv : Type*) where
  avgMeter : σa
  varMeter : σv

/-- `GaussianTailProbabilityCalibrator`, `gaussian_tail.py` l.28-69, over the two
meters chosen by the constructor; `sqrt` is `np.sqrt`/`math.sqrt` and `erfc` is
`math.erfc`. -/
def gaussianTail {σa σv K : Type*} [Field K] [LinearOrder K] (sqrt erfc : K → K)
    (avg : Meter σa K K) (var : Meter σv K K) : Postprocessor (GaussianTailState σa σv) K K where
  fitPartial s score :=
    ((avg.update s.avgMeter score).mapState
        fun q => ({ s with avgMeter := q } : GaussianTailState σa σv)).bind fun _ s =>
    ((var.update s.varMeter score).mapState
        fun q => ({ s with varMeter := q } : GaussianTailState σa σv))
  transformPartial s score :=
    ((avg.get s.avgMeter).mapState
        fun q => ({ s with avgMeter := q } : GaussianTailState σa σv)).bind fun mean s =>
    ((var.get s.varMeter).mapState
        fun q => ({ s with varMeter := q } : GaussianTailState σa σv)).bind fun v s =>
    let std := if 0 < v then sqrt v else 1
    let z := (score - mean) / std
    .ok (1 - 1 / 2 * erfc (z / sqrt 2)) s

section
variable {K : Type*} [Field K] [LinearOrder K] (sqrt erfc : K → K)

/-- The constructor with `running_statistics=True`, `gaussian_tail.py` l.21-23. -/
def gaussianTailRunning (w : ℕ) :=
  gaussianTail sqrt erfc (Meter.running (averageMeter K) w) (Meter.running (varianceMeter K) w)

/-- The constructor with `running_statistics=False`, `gaussian_tail.py` l.24-26:
the variance meter is a `RunningStatistic` here too. -/
def gaussianTailPlain (w : ℕ) :=
  gaussianTail sqrt erfc (Meter.plain (averageMeter K)) (Meter.running (varianceMeter K) w)

/-- Initial state for `running_statistics=True`. -/
def gaussianTailRunning.init (w : ℕ) :
    GaussianTailState (RunningState (AverageState K) K) (RunningState (VarianceState K) K) :=
  ⟨(Meter.running (averageMeter K) w).init, (Meter.running (varianceMeter K) w).init⟩

/-- Initial state for `running_statistics=False`. -/
def gaussianTailPlain.init (w : ℕ) :
    GaussianTailState (AverageState K) (RunningState (VarianceState K) K) :=
  ⟨(Meter.plain (averageMeter K)).init, (Meter.running (varianceMeter K) w).init⟩
end

end Pysad
