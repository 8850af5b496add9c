import Verif.Model.Metrics
import Mathlib.Data.List.Sort

/-! The two ranking metrics of scikit-learn that `pysad/evaluation/metrics.py` wraps,
computed the way scikit-learn computes them: from the curve over the distinct scores. -/

namespace Pysad

section
variable {K : Type*} [Field K] [LinearOrder K]

/-- The thresholds of scikit-learn's `_binary_clf_curve` (external, called through
`pysad/evaluation/metrics.py` l.69 and l.77): the distinct scores, decreasing. -/
def thresholds (yPred : List K) : List K := (yPred.insertionSort (· ≥ ·)).dedup

/-- How many scores reach the threshold (`tps` for the positives and `fps` for the
negatives of `_binary_clf_curve`). -/
def reaching (t : K) (scores : List K) : ℕ := (scores.filter fun x => t ≤ x).length

/-- `np.trapezoid` over the points of a curve, abscissa first. -/
def trapezoid : List (K × K) → K
  | p :: q :: l => (q.1 - p.1) * (q.2 + p.2) / 2 + trapezoid (q :: l)
  | _ => 0

/-- Leave out every point that is exactly half way between the points before and after it;
`prev` is the point before the list (whether it was left out or not). -/
def keepCorners (prev : K × K) : List (K × K) → List (K × K)
  | q :: r :: l =>
    if r.1 - q.1 = q.1 - prev.1 ∧ r.2 - q.2 = q.2 - prev.2 then keepCorners q (r :: l)
    else q :: keepCorners q (r :: l)
  | l => l

/-- `drop_intermediate=True` of `sklearn.metrics.roc_curve`: second differences decide which
points stay; the first and the last one always do. -/
def dropIntermediate : List (K × K) → List (K × K)
  | p :: l => p :: keepCorners p l
  | [] => []

/-- `sklearn.metrics.roc_auc_score` on binary labels with both classes present (external,
`metrics.py` l.69): the points (fps, tps), without the intermediate ones, after (0, 0), divided by
the class sizes; the area by the trapezoid rule. -/
def rocAucCurve (yTrue : List Bool) (yPred : List K) : K :=
  let pos := scoresOf true yTrue yPred
  let neg := scoresOf false yTrue yPred
  let points := (thresholds yPred).map fun t => ((reaching t neg : K), (reaching t pos : K))
  trapezoid (((0, 0) :: dropIntermediate points).map fun p =>
    (p.1 / (neg.length : K), p.2 / (pos.length : K)))

/-- `-np.sum(np.diff(recall) * np.array(precision)[:-1])` read from the highest threshold to the
lowest: each step to the right times the height at its end. -/
def stepArea : List (K × K) → K
  | p :: q :: l => (q.1 - p.1) * q.2 + stepArea (q :: l)
  | _ => 0

/-- `sklearn.metrics.average_precision_score` on binary labels (external, `metrics.py` l.77): the
step area under the points (recall, precision), after (0, 1). `ValueError` without instances; 0 (with
a warning) without positives. -/
def averagePrecisionScore (yTrue : List Bool) (yPred : List K) : Except PyErr K :=
  let pos := scoresOf true yTrue yPred
  let neg := scoresOf false yTrue yPred
  if yTrue = [] then .error .valueError
  else if pos = [] then .ok 0
  else .ok (stepArea ((0, 1) :: (thresholds yPred).map fun t =>
    ((reaching t pos : K) / (pos.length : K),
      (reaching t pos : K) / ((reaching t pos + reaching t neg : ℕ) : K))))

end

end Pysad
