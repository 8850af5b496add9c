import Verif.Model.Base

/-! Model of `pysad/models/integrations/*.py` and `pysad/models/iforest_asd.py`. -/

namespace Pysad

/-- A batch detector class with its keyword arguments (external, e.g. from PyOD):
`train g D Y` is `model_cls(**kwargs)` followed by `fit(D)` or `fit(D, Y)`, with numpy's
global generator in state `g`; `decision m x` is `decision_function([x])[0]` of the
fitted model. -/
structure BatchDetector (G M α β S : Type*) where
  train : G → List α → Option (List β) → Res G M
  decision : M → α → Except PyErr S

/-- The attribute `model` of `PYODModel` (`pysad/models/integrations/pyod_model.py` l.6-20):
`None`, instantiated but not fitted, or fitted. -/
inductive ModelSlot (M : Type*) where
  | none
  | unfitted
  | fitted (m : M)
  deriving DecidableEq, Repr

/-- `decision_function` of the attribute `model`: `AttributeError` on `None`, a
not-fitted error (`other`) on an instance that was not fitted. -/
def ModelSlot.decision {G M α β S : Type*} (b : BatchDetector G M α β S) (x : α) :
    ModelSlot M → Except PyErr S
  | .none => .error .attributeError
  | .unfitted => .error .other
  | .fitted m => b.decision m x

/-- Attributes of `ReferenceWindowModel`,
`pysad/models/integrations/reference_window_model.py` l.34-49; `rng` is the state of the
global generator. -/
structure RefWindowState (G M α β : Type*) where
  rng : G
  model : ModelSlot M
  windowSize : ℕ
  slidingSize : ℕ
  curX : List α
  curY : List β
  refX : Option (List α)
  refY : Option (List β)
  initialRefWindow : Bool
  deriving DecidableEq, Repr

namespace RefWindow
variable {G M α β S : Type*} (b : BatchDetector G M α β S)

/-- `_fit_model`, l.90-96, with `reset_model`. (`reference_window_X` is never `None` here.) -/
def fitModel (s : RefWindowState G M α β) : Res (RefWindowState G M α β) Unit :=
  let s := { s with model := .unfitted }
  match s.refX with
  | none => .err .other s
  | some D =>
    match b.train s.rng D s.refY with
    | .err e g => .err e { s with rng := g }
    | .ok m g => .ok () { s with rng := g, model := .fitted m }

/-- `__init__`, l.17-49. -/
def new (g : G) (windowSize slidingSize : ℕ) (initialX : Option (List α))
    (initialY : Option (List β)) : Res (RefWindowState G M α β) Unit :=
  let s : RefWindowState G M α β :=
    ⟨g, .none, windowSize, slidingSize, [], [], initialX, initialY, false⟩
  match initialX with
  | none => .ok () s
  | some _ => (fitModel b s).bind fun _ s => .ok () { s with initialRefWindow := true }

/-- `l[max(0, len(l) - w):]`, l.75-76 and l.81-82. -/
def keepLast {γ : Type*} (w : ℕ) (l : List γ) : List γ := l.drop (l.length - w)

/-- `len(self.reference_window_X) < self.window_size`, with `None` counting as true,
l.68. -/
def refShort (s : RefWindowState G M α β) : Bool :=
  match s.refX with
  | none => true
  | some D => decide (D.length < s.windowSize)

/-- The instance, and its label if given, join the current window: `fit_partial`
l.61-64. -/
def store (s : RefWindowState G M α β) (x : α) : Option β → RefWindowState G M α β
  | none => { s with curX := s.curX ++ [x] }
  | some y => { s with curX := s.curX ++ [x], curY := s.curY ++ [y] }

/-- The slide, `fit_partial` l.73-86; `labelled` says whether `y` was given. Instances are
taken to have the same number of features, so the only concatenations that fail are those
with `None` (`ValueError`). -/
def slide (s : RefWindowState G M α β) (labelled : Bool) : Res (RefWindowState G M α β) Unit :=
  match s.refX with
  | none => .err .valueError s
  | some D =>
    let s := { s with refX := some (keepLast s.windowSize (D ++ s.curX)) }
    if labelled then
      match s.refY with
      | none => .err .valueError s
      | some Y =>
        fitModel b { s with refY := some (keepLast s.windowSize (Y ++ s.curY)),
                            curX := [], curY := [] }
    else fitModel b { s with curX := [], curY := [] }

/-- The training decision of `fit_partial`, l.66-86, after the instance was stored. -/
def refresh (s : RefWindowState G M α β) (labelled : Bool) : Res (RefWindowState G M α β) Unit :=
  if !s.initialRefWindow && decide (s.curX.length < s.windowSize) && refShort s then
    fitModel b { s with refX := some s.curX, refY := if labelled then some s.curY else none }
  else if s.slidingSize = 0 then .err .zeroDivision s
  else if s.curX.length % s.slidingSize = 0 then slide b s labelled
  else .ok () s

/-- `fit_partial`, l.51-88. -/
def fitPartial (s : RefWindowState G M α β) (x : α) (y : Option β) :
    Res (RefWindowState G M α β) Unit :=
  refresh b (store s x y) y.isSome

/-- `score_partial`, l.98-109. -/
def scorePartial (s : RefWindowState G M α β) (x : α) : Res (RefWindowState G M α β) S :=
  Res.ofExcept (s.model.decision b x) s

/-- `ReferenceWindowModel` as a detector. -/
def detector : Detector (RefWindowState G M α β) α β S where
  fitPartial := fitPartial b
  scorePartial := scorePartial b

/-- `IForestASD.__init__`, `pysad/models/iforest_asd.py` l.12-13: one size for the window
and its sliding; `b` is PyOD's `IForest`. -/
def newIForestASD (g : G) (initialX : Option (List α)) (windowSize : ℕ) :
    Res (RefWindowState G M α β) Unit :=
  new b g windowSize windowSize initialX none

end RefWindow

/-- `OneFitModel`, `pysad/models/integrations/one_fit_model.py` l.14-53: the state is the
attribute `model`. -/
def oneFitModel {G M α β S : Type*} (b : BatchDetector G M α β S) :
    Detector (ModelSlot M) α β S where
  fitPartial s _ _ := .ok () s
  scorePartial s x := Res.ofExcept (s.decision b x) s

/-- `OneFitModel.__init__`, l.14-19 and `_fit_model`, l.33-40: the model and the generator
afterwards. -/
def oneFitModel.new {G M α β S : Type*} (b : BatchDetector G M α β S) (g : G) (initialX : List α)
    (initialY : Option (List β)) : Res G (ModelSlot M) :=
  (b.train g initialX initialY).map .fitted

end Pysad
