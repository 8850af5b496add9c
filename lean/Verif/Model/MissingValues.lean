import Verif.Model.HalfSpaceTrees
import Verif.Model.Nan
import Verif.Model.RelativeEntropy
import Verif.Model.SimpleModels

/-! `HalfSpaceTrees`, `StandardAbsoluteDeviation` and `RelativeEntropy` on instances whose features
may be `nan` or infinite. -/

namespace Pysad

/-- `a < b` for floats; a comparison with `nan` is false. -/
instance Num.instLT {K : Type*} [LT K] [DecidableLT K] : LT (Num K) := ⟨fun a b => Num.lt a b = true⟩

instance Num.instDecidableLT {K : Type*} [LT K] [DecidableLT K] : DecidableLT (Num K) :=
  fun a b => inferInstanceAs (Decidable (Num.lt a b = true))

namespace Hst
variable {K : Type*} [Field K] [LinearOrder K]

/-- `_update_mass`, `pysad/models/half_space_trees.py` l.84-94; `x[node.split_att] >
node.split_value` is false for `nan`. -/
def updateMassNum (maxDepth : ℕ) (x : List (Num K)) (refWindow : Bool) :
    HsTree K → Res (HsTree K) Unit
  | .nil => .err .attributeError .nil
  | .node left right rMass lMass q p k =>
    let rMass := if refWindow then rMass + 1 else rMass
    let lMass := lMass + 1
    if k < maxDepth then
      match x[q]? with
      | none => .err .indexError (.node left right rMass lMass q p k)
      | some v =>
        if Num.fin p < v then
          (updateMassNum maxDepth x refWindow right).mapState fun r => .node left r rMass lMass q p k
        else
          (updateMassNum maxDepth x refWindow left).mapState fun l => .node l right rMass lMass q p k
    else .ok () (.node left right rMass lMass q p k)

/-- The loop of l.120-121. -/
def fitRootsNum (maxDepth : ℕ) (x : List (Num K)) (refWindow : Bool) :
    List (HsTree K) → Res (List (HsTree K)) Unit
  | [] => .ok () []
  | t :: ts =>
    match updateMassNum maxDepth x refWindow t with
    | .err e t' => .err e (t' :: ts)
    | .ok _ t' => (fitRootsNum maxDepth x refWindow ts).mapState fun ts' => t' :: ts'

/-- `fit_partial`, l.108-127. -/
def fitPartialNum (s : HstState K) (x : List (Num K)) : Res (HstState K) Unit :=
  let s := { s with step := s.step + 1 }
  ((fitRootsNum s.maxDepth x s.isFirstWindow s.roots).mapState fun ts =>
    ({ s with roots := ts } : HstState K)).bind fun _ s =>
  if s.windowSize = 0 then .err .zeroDivision s
  else if s.step % s.windowSize = 0 then
    .ok () { s with roots := s.roots.map updateModel,
                    isFirstWindow := s.isFirstWindow && s.roots.isEmpty }
  else .ok () s

/-- `_score_tree`, l.129-135. -/
def scoreTreeNum (x : List (Num K)) : HsTree K → Except PyErr K
  | .nil => .ok 0
  | .node left right rMass _ q p k =>
    match x[q]? with
    | none => .error .indexError
    | some v =>
      (if Num.fin p < v then scoreTreeNum x right else scoreTreeNum x left).map fun s =>
        (rMass : K) * 2 ^ k + s

/-- `score_partial`, l.137-151. -/
def scorePartialNum (s : HstState K) (x : List (Num K)) : Res (HstState K) K :=
  match s.roots.foldlM (fun acc t => (scoreTreeNum x t).map (acc + ·)) (0 : K) with
  | .error e => .err e s
  | .ok v => .ok (-v) s

/-- `HalfSpaceTrees` on such instances. -/
def detectorNum (K β : Type*) [Field K] [LinearOrder K] :
    Detector (HstState K) (List (Num K)) β K where
  fitPartial s x _ := fitPartialNum s x
  scorePartial := scorePartialNum

end Hst

/-- `v**0.5` of a float, with `sqrt` on nonnegative numbers: `nan` for negative ones. -/
def Num.sqrt {K : Type*} [Zero K] [LT K] [DecidableLT K] (sqrt : K → K) : Num K → Num K
  | .fin v => if v < 0 then .nan else .fin (sqrt v)
  | .posInf => .posInf
  | _ => .nan

/-- `StandardAbsoluteDeviation.__init__`, `pysad/models/standard_absolute_deviation.py` l.19-29, for
the chosen meter. -/
def SadState.newNum {σ K : Type*} [Field K] [LinearOrder K] (sub : Statistic σ (Num K) (Num K))
    (absolute : Bool) : SadState σ (Num K) :=
  { absolute, varianceMeter := (Pysad.varianceMeter (Num K)).init, subMeter := sub.init }

/-- `StandardAbsoluteDeviation`, l.31-62. (With `nan` among the values `sorted` may order the list of
the median meter otherwise than `pySorted` does; no theorem depends on which value it yields.) -/
def standardAbsoluteDeviationNum {β σ K : Type*} [Field K] [LinearOrder K] (sqrt : K → K)
    (sub : Statistic σ (Num K) (Num K)) :
    Detector (SadState σ (Num K)) (List (Num K)) β (List (Num K)) where
  fitPartial s X _ :=
    match X with
    | [x] => .ok () { s with
        varianceMeter := (varianceMeter (Num K)).update s.varianceMeter x
        subMeter := sub.update s.subMeter x }
    | _ => .err .assertionError s
  scorePartial s X :=
    ((sub.get s.subMeter).mapState fun q => ({ s with subMeter := q } : SadState σ (Num K))).bind
      fun m s =>
    (((varianceMeter (Num K)).get s.varianceMeter).mapState
      fun q => ({ s with varianceMeter := q } : SadState σ (Num K))).bind fun v s =>
    let dev := v.sqrt sqrt
    let score := X.map fun x => (x - m) / (dev + .fin epsilon10)
    .ok (if s.absolute then score.map Num.abs else score) s

/-- Attributes of `RelativeEntropy`, `pysad/models/relative_entropy.py` l.17-48, where the values
`util` may be `nan` or infinite. -/
structure RelEntNumState (K : Type*) where
  minVal : K
  maxVal : K
  util : List (Num K)
  nBins : ℕ
  W : ℕ
  T : Num K
  m : ℕ
  stepSize : K
  P : List (List (Num K))
  c : List ℕ
  pHat : Option (List (Num K))

namespace RelEnt
variable {K : Type*} [Field K] [LinearOrder K] [IsStrictOrderedRing K] [FloorRing K]

/-- `__init__`, l.17-48. -/
def newNum (isf : ℤ → Num K) (minVal maxVal : K) (nBins W : ℕ) :
    Except PyErr (RelEntNumState K) :=
  if nBins = 0 then .error .zeroDivision
  else .ok ⟨minVal, maxVal, [], nBins, W, isf ((nBins : ℤ) - 1), 0, (maxVal - minVal) / (nBins : K),
    [], [], none⟩

/-- `math.ceil((c - self.min_val) / self.stepSize)`, l.67. `math.ceil` raises `ValueError` for
`nan` and `OverflowError` (here `other`) for an infinity. -/
def quantizeNum (minVal stepSize : K) (c : Num K) : Except PyErr ℤ :=
  if stepSize = 0 then .error .zeroDivision
  else match c with
    | .fin c => .ok ⌈(c - minVal) / stepSize⌉
    | .nan => .error .valueError
    | _ => .error .other

/-- `fit_partial`, l.50-82. -/
def fitPartialNum (s : RelEntNumState K) (x : Num K) : Res (RelEntNumState K) Unit :=
  let s := { s with util := s.util ++ [x] }
  if s.W ≤ s.util.length then
    let current := if s.W = 0 then s.util else s.util.drop (s.util.length - s.W)
    match current.mapM (quantizeNum s.minVal s.stepSize) with
    | .error e => .err e s
    | .ok bs =>
      let h := histogram s.nBins bs
      let s := { s with pHat := some h }
      if s.m = 0 then .ok () { s with P := s.P ++ [h], c := s.c ++ [1], m := 1 }
      else .ok () s
  else .ok () s

/-- One pass of the loop l.117-121. -/
def agreeStepNum (entropy : List (Num K) → List (Num K) → Num K) (s : RelEntNumState K)
    (pHat : List (Num K)) (acc : ℤ × Num K) (i : ℕ) : Except PyErr (ℤ × Num K) :=
  match s.P[i]? with
  | none => .error .indexError
  | some p =>
    let e := Num.smul (2 * (s.W : K)) (entropy pHat p)
    if Num.lt e s.T && Num.lt e acc.2 then .ok ((i : ℤ), e) else .ok acc

/-- `score_partial`, l.84-98, with `_get_agreement_hypothesis`, l.100-123. -/
def scorePartialNum (entropy : List (Num K) → List (Num K) → Num K) (s : RelEntNumState K) :
    Res (RelEntNumState K) ℤ :=
  if s.W ≤ s.util.length ∧ 0 < s.m then
    match s.pHat with
    | none => .ok 0 s
    | some h =>
      Res.ofExcept (((List.range s.m).foldlM (agreeStepNum entropy s h)
        ((-1 : ℤ), Num.posInf)).map Prod.fst) s
  else .ok 0 s

/-- `RelativeEntropy` on such values. -/
def detectorNum {β : Type*} (entropy : List (Num K) → List (Num K) → Num K) :
    Detector (RelEntNumState K) (Num K) β ℤ where
  fitPartial s x _ := fitPartialNum s x
  scorePartial s _ := scorePartialNum entropy s

end RelEnt

end Pysad
