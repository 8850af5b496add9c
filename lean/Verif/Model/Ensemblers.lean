import Verif.Model.Statistics
import Verif.Model.Base

/-! Model of `pysad/transform/ensemble/ensemblers.py`.

The combination functions belong to PyOD (external); they are modelled for one
row of scores, which is what `transform_partial` passes (`reshape(1, -1)`,
l.45). -/

namespace Pysad

variable {K : Type*} [Field K] [LinearOrder K]

/-- PyOD's `average(scores, estimator_weights)`: the mean; with weights (one per
detector, otherwise `ValueError`) the weighted mean. -/
def pyodAverage (weights : Option (List K)) (scores : List K) : Except PyErr K :=
  match weights with
  | none => if scores = [] then .error .valueError else .ok (scores.sum / (scores.length : K))
  | some w =>
    if w.length ≠ scores.length ∨ scores = [] then .error .valueError
    else .ok ((List.zipWith (· * ·) scores w).sum / w.sum)

/-- PyOD's `maximization(scores)`. -/
def pyodMaximization (scores : List K) : Except PyErr K :=
  match npMax scores with
  | some m => .ok m
  | none => .error .valueError

/-- PyOD's `median(scores)`: the middle of the sorted scores, or the mean of the
two middle ones; `ValueError` for no scores (from PyOD's input check). -/
def pyodMedian (scores : List K) : Except PyErr K :=
  let l := pySorted scores
  if l.length % 2 = 1 then
    match l[l.length / 2]? with
    | some a => .ok a
    | none => .error .valueError
  else
    match l[l.length / 2 - 1]?, l[l.length / 2]? with
    | some a, some b => .ok ((a + b) / 2)
    | _, _ => .error .valueError

/-- The static buckets of PyOD's `aom` and `moa` (`method='static'`,
`bootstrap_estimators=False`): consecutive groups of `n / n_buckets` of the
shuffled detectors. -/
def staticBuckets (size : ℕ) (shuffled : List K) : List (List K) :=
  (List.range (shuffled.length / size)).map fun i => (shuffled.drop (i * size)).take size

/-- Combine each bucket with `inner`, then the results with `outer`. Raises
`ValueError` if the number of detectors is not a multiple of `n_buckets`.
(PyOD's check of the range of `n_buckets` is the caller's obligation.) -/
def pyodBuckets (inner outer : List K → Except PyErr K) (nBuckets : ℕ) (shuffled : List K) :
    Except PyErr K :=
  if shuffled.length % nBuckets ≠ 0 then .error .valueError
  else ((staticBuckets (shuffled.length / nBuckets) shuffled).mapM inner).bind outer

/-- PyOD's `aom`: average of maximum. `shuffled` is the score row in the order
that its random shuffle produced. -/
def pyodAom (nBuckets : ℕ) (shuffled : List K) : Except PyErr K :=
  pyodBuckets pyodMaximization (pyodAverage none) nBuckets shuffled

/-- PyOD's `moa`: maximum of average. -/
def pyodMoa (nBuckets : ℕ) (shuffled : List K) : Except PyErr K :=
  pyodBuckets (pyodAverage none) pyodMaximization nBuckets shuffled

/-- `PYODScoreEnsembler`, `ensemblers.py` l.6-47, over its `_combine`:
`AverageScoreEnsembler` l.50-71, `MaximumScoreEnsembler` l.74-87,
`MedianScoreEnsembler` l.90-103, `AverageOfMaximumScoreEnsembler` l.106-137,
`MaximumOfAverageScoreEnsembler` l.140-173. -/
def scoreEnsembler (combine : List K → Except PyErr K) : Postprocessor Unit (List K) K where
  fitPartial s _ := .ok () s
  transformPartial s scores := .ofExcept (combine scores) s

end Pysad
