import Verif.Model.SimpleModels
import Verif.Model.RelativeEntropy
import Verif.Model.Integrations

/-! The detectors that keep references to the arrays they are given: the same code as in
`SimpleModels`, `RelativeEntropy` and `Integrations`, but with the identity of arrays. `h a` is
what the array at address `a` contains at the time of the call. The other detectors only keep
numbers and arrays they computed themselves. -/

namespace Pysad

namespace ByRef

/-- `ExactStorm`, `pysad/models/exact_storm.py` l.21-50: `Window.update` appends the reference
(`pysad/utils/window.py` l.14-22), `cdist` reads the arrays when scoring. -/
def exactStorm {α β K : Type*} [Zero K] [NatCast K] [Div K] [LT K] [DecidableLT K]
    (dist : α → α → K) (h : ℕ → α) : Detector (StormState ℕ K) ℕ β K :=
  Pysad.exactStorm fun a b => dist (h a) (h b)

section RelativeEntropy
variable {K : Type*} [Field K] [LinearOrder K] [IsStrictOrderedRing K] [FloorRing K]

/-- `RelativeEntropy` with the references in `util`; in `s` the contents as of the last fit. -/
structure RelEntRefs (K : Type*) where
  util : List ℕ
  s : RelEntState K

/-- `RelativeEntropy.fit_partial`, `pysad/models/relative_entropy.py` l.50-82: l.60 stores the
reference, l.67 reads all arrays of the window (`np.asarray(c).item()`). `score_partial`, l.84-98,
reads none. -/
def relativeEntropy {β : Type*} (entropy : List (Num K) → List (Num K) → Num K) (h : ℕ → K) :
    Detector (RelEntRefs K) ℕ β ℤ where
  fitPartial r a _ :=
    (RelEnt.fitPartial { r.s with util := r.util.map h } (h a)).mapState fun s =>
      ⟨r.util ++ [a], s⟩
  scorePartial r _ := (RelEnt.scorePartial entropy r.s).mapState fun s => ⟨r.util, s⟩

end RelativeEntropy

section Median
variable {K : Type*} [Field K] [LinearOrder K]

/-- The number in a one-element array. (Writing to an array does not change its length.) -/
def item (h : ℕ → List K) (a : ℕ) : K := (h a).headD 0

/-- `heapq._siftdown(heap, 0, pos)` on references, comparing what they refer to. -/
def siftdown (key : ℕ → K) (heap : List ℕ) (newitem : ℕ) (pos : ℕ) : List ℕ :=
  if pos = 0 then heap.set 0 newitem
  else
    match heap[(pos - 1) / 2]? with
    | none => heap.set pos newitem
    | some parent =>
      if key newitem < key parent then
        siftdown key (heap.set pos parent) newitem ((pos - 1) / 2)
      else heap.set pos newitem
termination_by pos
decreasing_by omega

/-- `MedianMeter.update`, `pysad/statistics/median_meter.py` l.17-29, with a one-element array. -/
def medianUpdate (key : ℕ → K) (s : MedianState ℕ) (a : ℕ) : MedianState ℕ :=
  ⟨siftdown key (s.lst ++ [a]) a s.lst.length, s.numItems + 1⟩

/-- `MedianMeter.get`, l.45-55, with one-element arrays. -/
def medianGet (key : ℕ → K) (s : MedianState ℕ) : Res (MedianState ℕ) K :=
  let s : MedianState ℕ := { s with lst := s.lst.insertionSort fun a b => ¬ key b < key a }
  if s.numItems % 2 = 0 then
    Res.ofExcept (pyIndex s.lst (s.numItems / 2)) s |>.bind fun a s =>
    Res.ofExcept (pyIndex s.lst (s.numItems / 2 - 1)) s |>.bind fun b s =>
    .ok ((key a + key b) / ((2 : ℤ) : K)) s
  else (Res.ofExcept (pyIndex s.lst (s.numItems / 2)) s).map key

/-- `MedianAbsoluteDeviation` whose `median_meter` holds references; the deviations in `mad_meter`
are new arrays. -/
structure MadRefs (K : Type*) where
  b : K
  absolute : Bool
  medianMeter : MedianState ℕ
  madMeter : MedianState K

/-- `MedianAbsoluteDeviation`, `pysad/models/median_absolute_deviation.py` l.24-55: l.36 hands the
array itself to `median_meter`. -/
def medianAbsoluteDeviation {β : Type*} (h : ℕ → List K) :
    Detector (MadRefs K) ℕ β (List (Num K)) where
  fitPartial s a _ :=
    match h a with
    | [x] =>
      let s := { s with medianMeter := medianUpdate (item h) s.medianMeter a }
      ((medianGet (item h) s.medianMeter).mapState
        fun q => ({ s with medianMeter := q } : MadRefs K)).bind fun median s =>
      let deviation := |x - median|
      .ok () { s with madMeter := (Pysad.medianMeter K).update s.madMeter deviation }
    | _ => .err .assertionError s
  scorePartial s a :=
    ((medianGet (item h) s.medianMeter).mapState
      fun q => ({ s with medianMeter := q } : MadRefs K)).bind fun median s =>
    (((Pysad.medianMeter K).get s.madMeter).mapState
      fun q => ({ s with madMeter := q } : MadRefs K)).bind fun mad s =>
    let mad := s.b * mad
    let score := (h a).map fun x => npDiv (x - median) (mad + epsilon10)
    .ok (if s.absolute then score.map Num.abs else score) s

/-- `StandardAbsoluteDeviation(substracted_statistic="median")`,
`pysad/models/standard_absolute_deviation.py` l.31-62: l.44 hands the array itself to the median
meter; the sums of `variance_meter` are new arrays. (With "mean" nothing of the caller's is
kept.) -/
def standardAbsoluteDeviationMedian {β : Type*} (sqrt : K → K) (h : ℕ → List K) :
    Detector (SadState (MedianState ℕ) K) ℕ β (List (Num K)) where
  fitPartial s a _ :=
    match h a with
    | [x] => .ok () { s with
        varianceMeter := (varianceMeter K).update s.varianceMeter x
        subMeter := medianUpdate (item h) s.subMeter a }
    | _ => .err .assertionError s
  scorePartial s a :=
    ((medianGet (item h) s.subMeter).mapState
      fun q => ({ s with subMeter := q } : SadState (MedianState ℕ) K)).bind fun m s =>
    (((varianceMeter K).get s.varianceMeter).mapState
      fun q => ({ s with varianceMeter := q } : SadState (MedianState ℕ) K)).bind fun v s =>
    let dev := sqrt v
    let score := (h a).map fun x => npDiv (x - m) (dev + epsilon10)
    .ok (if s.absolute then score.map Num.abs else score) s

end Median

/-- An array kept by `ReferenceWindowModel`: the caller's, or a row of one made by
`np.concatenate`. -/
inductive Cell (α : Type*) where
  | ref (a : ℕ)
  | val (v : α)
  deriving DecidableEq, Repr

/-- What the array contains. -/
def Cell.read {α : Type*} (h : ℕ → α) : Cell α → α
  | .ref a => h a
  | .val v => v

section RefWindow
variable {G M α β S : Type*} (b : BatchDetector G M α β S) (h : ℕ → α)

/-- The batch detector reads the arrays when it is trained or asked. -/
def readBatch : BatchDetector G M (Cell α) β S where
  train g D Y := b.train g (D.map (Cell.read h)) Y
  decision m c := b.decision m (c.read h)

/-- The slide, `pysad/models/integrations/reference_window_model.py` l.73-86: `np.concatenate`
copies. -/
def slide (s : RefWindowState G M (Cell α) β) (labelled : Bool) :
    Res (RefWindowState G M (Cell α) β) Unit :=
  match s.refX with
  | none => .err .valueError s
  | some D =>
    let s := { s with refX := some (RefWindow.keepLast s.windowSize
      ((D ++ s.curX).map fun c => Cell.val (Cell.read h c))) }
    if labelled then
      match s.refY with
      | none => .err .valueError s
      | some Y =>
        RefWindow.fitModel (readBatch b h)
          { s with refY := some (RefWindow.keepLast s.windowSize (Y ++ s.curY)),
                   curX := [], curY := [] }
    else RefWindow.fitModel (readBatch b h) { s with curX := [], curY := [] }

/-- The training decision of `fit_partial`, l.66-86; `list.copy` copies references. -/
def refresh (s : RefWindowState G M (Cell α) β) (labelled : Bool) :
    Res (RefWindowState G M (Cell α) β) Unit :=
  if !s.initialRefWindow && decide (s.curX.length < s.windowSize) && RefWindow.refShort s then
    RefWindow.fitModel (readBatch b h)
      { s with refX := some s.curX, refY := if labelled then some s.curY else none }
  else if s.slidingSize = 0 then .err .zeroDivision s
  else if s.curX.length % s.slidingSize = 0 then slide b h s labelled
  else .ok () s

/-- `ReferenceWindowModel`, l.51-109, keeping references. -/
def refWindow : Detector (RefWindowState G M (Cell α) β) ℕ β S where
  fitPartial s a y := refresh b h (RefWindow.store s (.ref a) y) y.isSome
  scorePartial s a := RefWindow.scorePartial (readBatch b h) s (.ref a)

end RefWindow

end ByRef

end Pysad
