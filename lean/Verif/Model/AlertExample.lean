import Verif.Model.Calibration
import Verif.Model.Examples

/-! Model of `examples/example_probability_calibration.py`. -/

namespace Pysad

namespace Examples

/-- The variables of the loop of `examples/example_probability_calibration.py`: `model`,
`calibrator`, the counter of `enumerate`, and the numbers `i` of the alerts printed so far. -/
structure AlertState (σ K : Type*) where
  model : σ
  calibrator : ConformalState K
  next : ℕ
  printed : List ℕ

variable {σ α β Y K : Type*} [Field K] [LinearOrder K]

/-- `calibrated_score > 0.95`, `example_probability_calibration.py` l.21, as the condition of `if`:
the truth value of an array of one element is that of the element, other arrays have none;
comparisons with `nan` are false. -/
def aboveThreshold : List (Num K) → Except PyErr Bool
  | [.fin v] => .ok (decide (95 / 100 < v))
  | [.posInf] => .ok true
  | [_] => .ok false
  | _ => .error .valueError

/-- One round of the loop, `example_probability_calibration.py` l.15-22. The score is an array of
one element, to which `fit_transform` is applied. The detector's score is a number; infinite and
`nan` scores, which `xStream` does not have, are left out (an exception). -/
def alertRound (d : Detector σ α β (Num K)) (s : AlertState σ K) (q : α × Y) :
    Res (AlertState σ K) Unit :=
  ((d.fitScorePartial s.model q.1 none).mapState fun a => { s with model := a }).bind fun score s =>
  match score.finite? with
  | none => .err .valueError s
  | some score =>
    (((Conformal.postprocessor K).fitTransform s.calibrator [score]).mapState
      fun c => { s with calibrator := c }).bind fun calibrated s =>
    (Res.ofExcept (aboveThreshold calibrated) s).bind fun above s =>
    .ok () { s with
      next := s.next + 1
      printed := if above then s.printed ++ [s.next] else s.printed }

/-- The script from l.12 on, for a detector in state `s` and the instances and labels `g` of the
data set; the script's window of 300 scores. -/
def alertScript (d : Detector σ α β (Num K)) (s : σ) (g : Gen (α × Y)) :
    Res (AlertState σ K) Unit :=
  (Gen.forEach (alertRound d) ⟨s, Conformal.new true 300, 0, []⟩ g).map fun _ => ()

end Examples

end Pysad
