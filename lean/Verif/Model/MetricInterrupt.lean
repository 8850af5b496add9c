import Verif.Model.Metrics
import Verif.Model.Interrupt

/-! The updates of `pysad/evaluation/metrics.py` and `windowed_metric.py` store by store, to say what an
interrupted update leaves behind. -/

namespace Pysad

namespace Statements
variable {Y P K : Type*}

/-- `BaseSKLearnMetric.update`, `pysad/evaluation/metrics.py` l.21-22. -/
def sklearn (q : Y × P) : List (List Y × List P → List Y × List P) :=
  [fun s => (s.1 ++ [q.1], s.2), fun s => (s.1, s.2 ++ [q.2])]

/-- The states after each store of `WindowedMetric.update`, `pysad/evaluation/windowed_metric.py` l.47-54,
over one of the metrics that wrap scikit-learn (with the two stores of `AverageMeter.update`). -/
def windowedStages [Field K] (evaluate : List Y → List P → Except PyErr K) (s : WindowedState (List Y × List P) K)
    (q : Y × P) : List (WindowedState (List Y × List P) K) :=
  let s1 := { s with step := s.step + 1 }
  let s2 := { s1 with metric := (s.metric.1 ++ [q.1], s.metric.2) }
  let s3 := { s2 with metric := (s.metric.1 ++ [q.1], s.metric.2 ++ [q.2]) }
  s1 :: s2 :: s3 ::
    if s.windowSize = 0 then []
    else if (s.step + 1) % s.windowSize = 0 then
      let s4 := { s3 with numWindows := s.numWindows + 1 }
      s4 :: match evaluate s3.metric.1 s3.metric.2 with
        | .error _ => []
        | .ok score =>
          let s5 := { s4 with scoreMeter := { s.scoreMeter with sum := s.scoreMeter.sum + score } }
          let s6 := { s5 with scoreMeter := ⟨s.scoreMeter.sum + score, s.scoreMeter.numItems + 1⟩ }
          [s5, s6, { s6 with metric := ([], []) }]
    else []

/-- The stores of an update in the state `s`. -/
def windowed [Field K] (evaluate : List Y → List P → Except PyErr K) (q : Y × P)
    (s : WindowedState (List Y × List P) K) :
    List (WindowedState (List Y × List P) K → WindowedState (List Y × List P) K) :=
  (windowedStages evaluate s q).map fun t _ => t

end Statements

end Pysad
