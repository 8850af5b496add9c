import Verif.Model.Ensemblers
import Verif.Model.Num
import Verif.Model.Pipeline
import Verif.Model.RankMetrics
import Verif.Model.Streamers

/-! Model of the loops of the example scripts that rate a detector. -/

namespace Pysad

namespace Num

/-- The number, if it is one. -/
def finite? {K : Type*} : Num K → Option K
  | .fin x => some x
  | _ => none

end Num

/-- `AUROCMetric`, `pysad/evaluation/metrics.py` l.61-69, of scores that may be infinite or `nan`,
which `sklearn.metrics.roc_auc_score` rejects with `ValueError`. -/
def aurocNums (K : Type*) [Field K] [LinearOrder K] :
    MetricClass Unit (List Bool × List (Num K)) Bool (Num K) K :=
  sklearnMetric fun y p =>
    match p.mapM Num.finite? with
    | none => .error .valueError
    | some p => if y.dedup.length ≤ 1 then .error .valueError else .ok (rocAucCurve y p)

namespace Examples
variable {σ μ κ α Y P V : Type*}

/-- One round of the loop of an example: score the instance, then give label and score to the
metric. -/
def evaluateRound (step : σ → α → Res σ P) (mc : MetricClass κ μ Y P V) (s : σ × μ) (q : α × Y) :
    Res (σ × μ) Unit :=
  ((step s.1 q.1).mapState fun a => (a, s.2)).bind fun score s =>
  (mc.update s.2 q.2 score).mapState fun m => (s.1, m)

/-- The examples that rate a detector, from the loop on: `examples/example_usage.py` l.28-37,
`example_usage_short.py` l.11-17, `example_ensemble.py` l.28-41, `example_pyod_integration.py`
l.26-34, `example_usage_inqmad.py` l.28-37. `step` is what the body of the loop does with the
instance; the result is what is printed. -/
def evaluate (step : σ → α → Res σ P) (mc : MetricClass κ μ Y P V) (s : σ × μ) (g : Gen (α × Y)) :
    Res (σ × μ) V :=
  (Gen.forEach (evaluateRound step mc) s g).bind fun _ s =>
  (mc.get s.2).mapState fun m => (s.1, m)

/-- The body of `example_usage_short.py` l.12 and, split into two statements,
`example_pyod_integration.py` l.29-30: fit and score without the label. -/
def fitAndScore {β S : Type*} (d : Detector σ α β S) (s : σ) (x : α) : Res σ S :=
  d.fitScorePartial s x none

/-- The body of `example_usage.py` l.29-32 and `example_usage_inqmad.py` l.29-32. -/
def throughPipeline {τ π α' β S T : Type*} (t : Transformer τ α α') (d : Detector σ α' β S)
    (p : Postprocessor π S T) (s : τ × σ × π) (x : α) : Res (τ × σ × π) T :=
  Pipeline.round t d p s (x, none)

/-- The body of `example_ensemble.py` l.29-36 for two models and `AverageScoreEnsembler`; a score
that is not a number is left out of the model (PyOD raises `ValueError`). -/
def averageOfTwo {τ β K : Type*} [Field K] [LinearOrder K] (d : Detector σ α β (Num K))
    (e : Detector τ α β (Num K)) (s : σ × τ) (x : α) : Res (σ × τ) (Num K) :=
  ((d.fitScorePartial s.1 x none).mapState fun a => (a, s.2)).bind fun u s =>
  ((e.fitScorePartial s.2 x none).mapState fun b => (s.1, b)).bind fun v s =>
  match u.finite?, v.finite? with
  | some u, some v => (Res.ofExcept (pyodAverage none [u, v]) s).map .fin
  | _, _ => .err .valueError s

end Examples

end Pysad
