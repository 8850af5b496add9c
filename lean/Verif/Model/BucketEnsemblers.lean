import Verif.Model.Ensemblers

/-! Model of `AverageOfMaximumScoreEnsembler` and `MaximumOfAverageScoreEnsembler`,
`pysad/transform/ensemble/ensemblers.py` l.106-173, with the random order of the detectors. -/

namespace Pysad

/-- scikit-learn's `shuffle(list(range(n)))` with numpy's global generator (external), over states
`G` of the generator. -/
structure IndexShuffle (G : Type*) where
  draw : G → ℕ → List ℕ × G
  perm : ∀ g n, (draw g n).1.Perm (List.range n)

/-- `PYODScoreEnsembler` (l.6-47) with `_combine` of l.124-137 or l.159-173, with the default
`method='static'` and `bootstrap_estimators=False`. PyOD (external) accepts a number of buckets
strictly between 2 and the number of detectors that divides it, and shuffles the detectors anew in
every call. -/
def bucketEnsembler {G K : Type*} [Field K] [LinearOrder K] (sh : IndexShuffle G)
    (combine : ℕ → List K → Except PyErr K) (nBuckets : ℕ) : Postprocessor G (List K) K where
  fitPartial g _ := .ok () g
  transformPartial g scores :=
    if nBuckets ≤ 2 ∨ scores.length ≤ nBuckets ∨ scores.length % nBuckets ≠ 0 then .err .valueError g
    else .ofExcept (combine nBuckets ((sh.draw g scores.length).1.filterMap fun i => scores[i]?))
      (sh.draw g scores.length).2

end Pysad
