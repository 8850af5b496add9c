import Verif.Model.Statistics

/-! Model of `pysad/evaluation/*.py`. -/

namespace Pysad

/-- A metric class (`pysad/core/base_metric.py`): constructor taking keyword
arguments `κ`, `update(y_true, y_pred)` and `get()`. `noKwargs` is the empty set
of keyword arguments. -/
structure MetricClass (κ σ Y P V : Type*) where
  noKwargs : κ
  new : κ → Except PyErr σ
  update : σ → Y → P → Res σ Unit
  get : σ → Res σ V

/-! ### The metrics that wrap scikit-learn -/

/-- `BaseSKLearnMetric`, `pysad/evaluation/metrics.py` l.10-32, with the abstract
`_evaluate` as a parameter. -/
def sklearnMetric {Y P V : Type*} (evaluate : List Y → List P → Except PyErr V) :
    MetricClass Unit (List Y × List P) Y P V where
  noKwargs := ()
  new _ := .ok ([], [])
  update s y p := .ok () (s.1 ++ [y], s.2 ++ [p])
  get s := .ofExcept (evaluate s.1 s.2) s

section
variable {K : Type*} [Field K] [LinearOrder K]

/-- Number of positions with the given pair (truth, prediction). -/
def countPairs (t p : Bool) (yTrue yPred : List Bool) : ℕ :=
  ((yTrue.zip yPred).filter (fun q => q.1 == t && q.2 == p)).length

/-- `sklearn.metrics.precision_score` on binary labels (external): true positives
over predicted positives; 0 with a warning if nothing is predicted positive. -/
def precisionScore (yTrue yPred : List Bool) : K :=
  let tp := countPairs true true yTrue yPred
  let fp := countPairs false true yTrue yPred
  if tp + fp = 0 then 0 else (tp : K) / ((tp + fp : ℕ) : K)

/-- `sklearn.metrics.recall_score` on binary labels (external). -/
def recallScore (yTrue yPred : List Bool) : K :=
  let tp := countPairs true true yTrue yPred
  let fn := countPairs true false yTrue yPred
  if tp + fn = 0 then 0 else (tp : K) / ((tp + fn : ℕ) : K)

/-- The scores of the instances with the given label. -/
def scoresOf (t : Bool) (yTrue : List Bool) (yPred : List K) : List K :=
  ((yTrue.zip yPred).filter (fun q => q.1 == t)).map Prod.snd

/-- `sklearn.metrics.roc_auc_score` on binary labels (external), as the
Mann-Whitney statistic: the fraction of (positive, negative) pairs whose positive
has the higher score, ties counting one half. -/
def rocAucScore (yTrue : List Bool) (yPred : List K) : K :=
  let pos := scoresOf true yTrue yPred
  let neg := scoresOf false yTrue yPred
  (pos.map fun p => (neg.map fun n => if n < p then (1 : K) else if n = p then 1 / 2 else 0).sum).sum
    / ((pos.length : K) * (neg.length : K))

/-- `PrecisionMetric`, `pysad/evaluation/metrics.py` l.45-50. -/
def precisionMetric (K : Type*) [Field K] :=
  sklearnMetric fun y p => (Except.ok (precisionScore y p) : Except PyErr K)
/-- `RecallMetric`, `metrics.py` l.53-58. -/
def recallMetric (K : Type*) [Field K] :=
  sklearnMetric fun y p => (Except.ok (recallScore y p) : Except PyErr K)
/-- `AUROCMetric`, `metrics.py` l.61-69, over any `roc_auc_score`. -/
def aurocMetric {Y P V : Type*} [DecidableEq Y] (rocAuc : List Y → List P → V) :=
  sklearnMetric fun (y : List Y) (p : List P) =>
    if y.dedup.length ≤ 1 then .error .valueError else (.ok (rocAuc y p) : Except PyErr V)
/-- `AUPRMetric`, `metrics.py` l.72-77, over any `average_precision_score`. -/
def auprMetric {Y P V : Type*} (averagePrecision : List Y → List P → Except PyErr V) :=
  sklearnMetric averagePrecision

end

/-! ### `WindowedMetric` -/

/-- Attributes of `WindowedMetric`, `pysad/evaluation/windowed_metric.py` l.14-29. -/
structure WindowedState (σ K : Type*) where
  ignoreNonemptyLast : Bool
  windowSize : ℕ
  metric : σ
  scoreMeter : AverageState K
  step : ℕ
  numWindows : ℕ
  deriving DecidableEq, Repr

namespace WindowedMetric
variable {κ σ Y P K : Type*} [Field K] (mc : MetricClass κ σ Y P K)

/-- `__init__`, `windowed_metric.py` l.14-29. -/
def new (windowSize : ℕ) (ignoreNonemptyLast : Bool) (kwargs : κ) :
    Except PyErr (WindowedState σ K) :=
  match mc.new kwargs with
  | .error e => .error e
  | .ok m => .ok ⟨ignoreNonemptyLast, windowSize, m, (averageMeter K).init, 0, 1⟩

/-- `update`, `windowed_metric.py` l.35-56. After the first window the metric is
rebuilt without keyword arguments, l.54. -/
def update (s : WindowedState σ K) (y : Y) (p : P) : Res (WindowedState σ K) Unit :=
  let s := { s with step := s.step + 1 }
  ((mc.update s.metric y p).mapState fun m => { s with metric := m }).bind fun _ s =>
  if s.windowSize = 0 then .err .zeroDivision s
  else if s.step % s.windowSize = 0 then
    let s := { s with numWindows := s.numWindows + 1 }
    ((mc.get s.metric).mapState fun m => { s with metric := m }).bind fun score s =>
    let s := { s with scoreMeter := (averageMeter K).update s.scoreMeter score }
    match mc.new mc.noKwargs with
    | .error e => .err e s
    | .ok m => .ok () { s with metric := m }
  else .ok () s

/-- `get`, `windowed_metric.py` l.58-69. -/
def get (s : WindowedState σ K) : Res (WindowedState σ K) K :=
  if s.numWindows = 1 then (mc.get s.metric).mapState fun m => { s with metric := m }
  else if s.windowSize = 0 && !s.ignoreNonemptyLast then .err .zeroDivision s
  else if !s.ignoreNonemptyLast && s.step % s.windowSize != 0 then
    ((mc.get s.metric).mapState fun m => { s with metric := m }).bind fun last s =>
    (((averageMeter K).get s.scoreMeter).mapState fun q => { s with scoreMeter := q }).bind
      fun avg s =>
    .ok ((last + avg * ((s.numWindows : K) - 1)) / (s.numWindows : K)) s
  else ((averageMeter K).get s.scoreMeter).mapState fun q => { s with scoreMeter := q }

/-- Consecutive updates, stopping at the first exception. -/
def updates (s : WindowedState σ K) : List (Y × P) → Res (WindowedState σ K) Unit
  | [] => .ok () s
  | q :: qs => (update mc s q.1 q.2).bind fun _ s => updates s qs

/-- Consecutive updates by a caller that catches every exception and goes on;
also returns, for reference, the scores that completed windows contributed. -/
def updatesCaught (s : WindowedState σ K) : List (Y × P) → WindowedState σ K
  | [] => s
  | q :: qs => updatesCaught (update mc s q.1 q.2).state qs

end WindowedMetric

end Pysad
