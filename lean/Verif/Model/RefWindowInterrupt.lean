import Verif.Model.Integrations
import Verif.Model.Interrupt

/-! `ReferenceWindowModel.fit_partial`, `pysad/models/integrations/reference_window_model.py` l.51-96, store
by store: the states the object goes through, to say what is left behind by a call that is interrupted
(`KeyboardInterrupt`, a signal handler that raises). -/

namespace Pysad.RefWindow
variable {G M α β S : Type*} (b : BatchDetector G M α β S)

/-- The states after each store of `_fit_model`, l.90-96: `reset_model` puts an unfitted detector in place,
`fit` makes it a fitted one. (A training that is interrupted half-way is taken to leave the unfitted
detector and the generator as they were; one that raises leaves the generator it had come to.) -/
def fitModelStages (s : RefWindowState G M α β) : List (RefWindowState G M α β) :=
  let s1 := { s with model := .unfitted }
  s1 ::
  match s.refX with
  | none => []
  | some D =>
    match b.train s.rng D s.refY with
    | .err _ g => [{ s1 with rng := g }]
    | .ok m g => [{ s1 with rng := g, model := .fitted m }]

/-- The states after each store of the slide, l.73-86; each window is first lengthened and then cut. -/
def slideStages (s : RefWindowState G M α β) (labelled : Bool) : List (RefWindowState G M α β) :=
  match s.refX with
  | none => []
  | some D =>
    let s1 := { s with refX := some (D ++ s.curX) }
    let s2 := { s with refX := some (keepLast s.windowSize (D ++ s.curX)) }
    s1 :: s2 ::
    if labelled then
      match s.refY with
      | none => []
      | some Y =>
        let s3 := { s2 with refY := some (Y ++ s.curY) }
        let s4 := { s2 with refY := some (keepLast s.windowSize (Y ++ s.curY)) }
        let s5 := { s4 with curX := [] }
        let s6 := { s5 with curY := [] }
        s3 :: s4 :: s5 :: s6 :: fitModelStages b s6
    else
      let s5 := { s2 with curX := [] }
      let s6 := { s5 with curY := [] }
      s5 :: s6 :: fitModelStages b s6

/-- The states after each store of l.66-86, after the instance was stored. -/
def refreshStages (s : RefWindowState G M α β) (labelled : Bool) : List (RefWindowState G M α β) :=
  if !s.initialRefWindow && decide (s.curX.length < s.windowSize) && refShort s then
    let s1 := { s with refX := some s.curX }
    let s2 := { s1 with refY := if labelled then some s.curY else none }
    s1 :: s2 :: fitModelStages b s2
  else if s.slidingSize = 0 then []
  else if s.curX.length % s.slidingSize = 0 then slideStages b s labelled
  else []

/-- The states after each store of `fit_partial`, l.51-88: the instance is appended, its label if there is
one, and then l.66-86. -/
def fitStages (s : RefWindowState G M α β) (x : α) (y : Option β) : List (RefWindowState G M α β) :=
  let s1 := { s with curX := s.curX ++ [x] }
  s1 :: (match y with
    | none => []
    | some y => [{ s1 with curY := s1.curY ++ [y] }]) ++
  refreshStages b (store s x y) y.isSome

/-- The stores of `fit_partial`, called in the state `s` with an instance and its label. -/
def statements (c : α × Option β) (s : RefWindowState G M α β) :
    List (RefWindowState G M α β → RefWindowState G M α β) :=
  (fitStages b s c.1 c.2).map fun t _ => t

end Pysad.RefWindow
