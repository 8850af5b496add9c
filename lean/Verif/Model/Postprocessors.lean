import Verif.Model.Statistics
import Verif.Model.Base
import Verif.Model.Num

/-! Model of `pysad/transform/postprocessing/*.py`.

The running classes differ from the cumulative ones only in that the meter is a
`RunningStatistic`; both are written over `Meter`, what the two have in common. -/

namespace Pysad

/-- An object with `update` and `get`: a statistic, or a `RunningStatistic`. -/
structure Meter (σ α β : Type*) where
  init : σ
  update : σ → α → Res σ Unit
  get : σ → Res σ β

/-- A statistic used directly, e.g. `AverageMeter()`. -/
def Meter.plain {σ α β : Type*} (st : Statistic σ α β) : Meter σ α β where
  init := st.init
  update s x := .ok () (st.update s x)
  get := st.get

/-- `RunningStatistic(cls, window_size)`. -/
def Meter.running {σ α β : Type*} (st : Statistic σ α β) (w : ℕ) :
    Meter (RunningState σ α) α β where
  init := RunningStatistic.new st w
  update := RunningStatistic.update st
  get := RunningStatistic.get st

/-- The postprocessors that report a meter: `fit_partial` updates the meter and
`transform_partial` reads it, ignoring its argument. -/
def meterPostprocessor {σ α β : Type*} (m : Meter σ α β) : Postprocessor σ α β where
  fitPartial s score := m.update s score
  transformPartial s _ := m.get s

section
variable (K : Type*) [Field K] [LinearOrder K]

/-- `AveragePostprocessor`, `pysad/transform/postprocessing/postprocessors.py` l.13-39. -/
def averagePostprocessor := meterPostprocessor (Meter.plain (averageMeter K))
/-- `AveragePostprocessor.__init__`, `postprocessors.py` l.13-14. -/
def AveragePostprocessor.new := (averageMeter K).init
/-- `MaxPostprocessor`, `postprocessors.py` l.46-71. -/
def maxPostprocessor := meterPostprocessor (Meter.plain (maxMeter K))
/-- `MaxPostprocessor.__init__`, `postprocessors.py` l.46-47. -/
def MaxPostprocessor.new := (maxMeter K).init
/-- `MedianPostprocessor`, `postprocessors.py` l.78-103. -/
def medianPostprocessor := meterPostprocessor (Meter.plain (medianMeter K))
/-- `MedianPostprocessor.__init__`, `postprocessors.py` l.78-79. -/
def MedianPostprocessor.new := (medianMeter K).init
/-- `RunningAveragePostprocessor`, `pysad/transform/postprocessing/running_postprocessors.py`
l.17-45. -/
def runningAveragePostprocessor (w : ℕ) := meterPostprocessor (Meter.running (averageMeter K) w)
/-- `RunningAveragePostprocessor.__init__`, `running_postprocessors.py` l.17-21. The window size is an
attribute of the object from here on: the methods take it from there. -/
def RunningAveragePostprocessor.new (w : ℕ) := RunningStatistic.new (averageMeter K) w
/-- `RunningMaxPostprocessor`, `running_postprocessors.py` l.54-82. -/
def runningMaxPostprocessor (w : ℕ) := meterPostprocessor (Meter.running (maxMeter K) w)
/-- `RunningMaxPostprocessor.__init__`, `running_postprocessors.py` l.54-58. The window size is an
attribute of the object from here on: the methods take it from there. -/
def RunningMaxPostprocessor.new (w : ℕ) := RunningStatistic.new (maxMeter K) w
/-- `RunningMedianPostprocessor`, `running_postprocessors.py` l.91-119. -/
def runningMedianPostprocessor (w : ℕ) := meterPostprocessor (Meter.running (medianMeter K) w)
/-- `RunningMedianPostprocessor.__init__`, `running_postprocessors.py` l.91-95. The window size is an
attribute of the object from here on: the methods take it from there. -/
def RunningMedianPostprocessor.new (w : ℕ) := RunningStatistic.new (medianMeter K) w
end

/-- Attributes of the z-score postprocessors. -/
structure ZScoreState (σv σa : Type*) where
  varianceMeter : σv
  averageMeter : σa

/-- `ZScorePostprocessor` (`postprocessors.py` l.110-140) for plain meters and
`RunningZScorePostprocessor` (`running_postprocessors.py` l.129-162) for running
ones; `sqrt` is `np.sqrt`. The division is numpy's, since `np.sqrt` returns a
numpy scalar. -/
def zscorePostprocessor {σv σa K : Type*} [Field K] [LinearOrder K] (sqrt : K → K)
    (var : Meter σv K K) (avg : Meter σa K K) : Postprocessor (ZScoreState σv σa) K (Num K) where
  fitPartial s score :=
    ((var.update s.varianceMeter score).mapState
        fun q => ({ s with varianceMeter := q } : ZScoreState σv σa)).bind fun _ s =>
    ((avg.update s.averageMeter score).mapState
        fun q => ({ s with averageMeter := q } : ZScoreState σv σa))
  transformPartial s score :=
    ((avg.get s.averageMeter).mapState
        fun q => ({ s with averageMeter := q } : ZScoreState σv σa)).bind fun mean s =>
    ((var.get s.varianceMeter).mapState
        fun q => ({ s with varianceMeter := q } : ZScoreState σv σa)).bind fun v s =>
    .ok (npDiv (score - mean) (sqrt v)) s

/-- The state `ZScorePostprocessor()`/`RunningZScorePostprocessor(w)` start in. -/
def ZScoreState.init {σv σa α β : Type*} (var : Meter σv α β) (avg : Meter σa α β) :
    ZScoreState σv σa := ⟨var.init, avg.init⟩

/-- `ZScorePostprocessor.__init__`, `postprocessors.py` l.110-112. -/
def ZScorePostprocessor.new (K : Type*) [Field K] [LinearOrder K] :=
  ZScoreState.init (Meter.plain (varianceMeter K)) (Meter.plain (averageMeter K))

/-- `RunningZScorePostprocessor.__init__`, `running_postprocessors.py` l.129-134. -/
def RunningZScorePostprocessor.new (K : Type*) [Field K] [LinearOrder K] (w : ℕ) :=
  ZScoreState.init (Meter.running (varianceMeter K) w) (Meter.running (averageMeter K) w)

end Pysad
