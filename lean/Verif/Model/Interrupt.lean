import Verif.Model.Statistics
import Verif.Model.Window

/-! The updates of `pysad/statistics/*.py` and `pysad/utils/window.py` statement by statement, to say
what an update leaves behind that is interrupted (`KeyboardInterrupt`, a signal handler that raises), or
what another thread sees while it is running. A statement that changes the object is one store
(`self.sum += num`: an interruption before the store changes nothing); `list.append` and `heappush`
(implemented in C) are one statement each. -/

namespace Pysad

/-- Run statements one after the other. -/
def runStatements {σ : Type*} (steps : List (σ → σ)) (s : σ) : σ := steps.foldl (fun s f => f s) s

/-- A call of `update` or `remove` on a statistic. -/
inductive MeterCall (α : Type*) where
  | update (num : α)
  | remove (num : α)

namespace Statements
variable {K : Type*}

/-- `CountMeter.update` and `remove`, `pysad/statistics/count_meter.py` l.23 and l.36. -/
def count {α : Type*} : MeterCall α → List (ℤ → ℤ)
  | .update _ => [fun s => s + 1]
  | .remove _ => [fun s => s - 1]

/-- `AverageMeter` and `SumMeter`: `average_meter.py` and `sum_meter.py`, both l.25-26 and l.39-40. -/
def sum [Add K] [Sub K] : MeterCall K → List (AverageState K → AverageState K)
  | .update num => [fun s => { s with sum := s.sum + num }, fun s => { s with numItems := s.numItems + 1 }]
  | .remove num => [fun s => { s with sum := s.sum - num }, fun s => { s with numItems := s.numItems - 1 }]

/-- `SumSquaresMeter`: `sum_squares_meter.py` l.25-26 and l.39-40. -/
def sumSquares [Add K] [Sub K] [Mul K] : MeterCall K → List (AverageState K → AverageState K)
  | .update num =>
    [fun s => { s with sum := s.sum + num * num }, fun s => { s with numItems := s.numItems + 1 }]
  | .remove num =>
    [fun s => { s with sum := s.sum - num * num }, fun s => { s with numItems := s.numItems - 1 }]

/-- `VarianceMeter.update`: `variance_meter.py` l.31-33 (the statements of the three meters). -/
def variance [Add K] [Sub K] [Mul K] (num : K) : List (VarianceState K → VarianceState K) :=
  ((sumSquares (.update num)).map fun f s => { s with sumSquaresMeter := f s.sumSquaresMeter }) ++
  ((count (.update num)).map fun f s => { s with countMeter := f s.countMeter }) ++
  ((sum (.update num)).map fun f s => { s with sumMeter := f s.sumMeter })

/-- `MaxMeter.update`: `max_meter.py` l.30-33. -/
def maximum [LT K] [DecidableLT K] (num : K) : List (ExtremeState K → ExtremeState K) :=
  [fun s => { s with ext := match s.ext with
      | none => some num
      | some m => if m < num then some num else some m },
   fun s => { s with lst := heappush s.lst num }]

/-- Both methods of `MaxMeter`, called in the state `s`; `remove`, l.47-52, raises in its first statement
if the value is not stored. -/
def maximumCalls [LT K] [DecidableLT K] [DecidableEq K] (c : MeterCall K) (s : ExtremeState K) :
    List (ExtremeState K → ExtremeState K) :=
  match c with
  | .update num => maximum num
  | .remove num =>
    match pyRemove s.lst num with
    | .error _ => []
    | .ok lst => [fun s => { s with lst := lst }, fun s => { s with ext := npMax s.lst }]

/-- `MinMeter.update`: `min_meter.py` l.29-32. -/
def minimum [LT K] [DecidableLT K] (num : K) : List (ExtremeState K → ExtremeState K) :=
  [fun s => { s with ext := match s.ext with
      | none => some num
      | some m => if num < m then some num else some m },
   fun s => { s with lst := heappush s.lst num }]

/-- `MedianMeter.update`: `median_meter.py` l.26-27. -/
def median [LT K] [DecidableLT K] (num : K) : List (MedianState K → MedianState K) :=
  [fun s => { s with lst := heappush s.lst num }, fun s => { s with numItems := s.numItems + 1 }]

/-- `Window.update`: `pysad/utils/window.py` l.20-22. -/
def window {α : Type*} (num : α) : List (Window α → Window α) :=
  [fun s => { s with window := s.window ++ [num] },
   fun s => if s.window.length > s.windowSize then { s with window := pyTail s.window } else s]

/-- `UnlimitedWindow.update`: `window.py` l.46. -/
def unlimited {α : Type*} (num : α) : List (UnlimitedWindow α → UnlimitedWindow α) :=
  [fun s => { s with window := s.window ++ [num] }]

/-- `RunningStatistic(AverageMeter, w).update`: `running_statistic.py` l.30-36. -/
def runningAverage [Add K] [Sub K] (num : K) :
    List (RunningState (AverageState K) K → RunningState (AverageState K) K) :=
  [fun s => { s with window := s.window ++ [num] }] ++
  ((sum (.update num)).map fun f s => { s with statistic := f s.statistic }) ++
  [fun s => match s.window with
    | oldest :: _ => if s.window.length > s.windowSize then
        { s with statistic := { s.statistic with sum := s.statistic.sum - oldest } } else s
    | [] => s,
   fun s => if s.window.length > s.windowSize then
        { s with statistic := { s.statistic with numItems := s.statistic.numItems - 1 } } else s,
   fun s => if s.window.length > s.windowSize then { s with window := pyTail s.window } else s]

end Statements

end Pysad
