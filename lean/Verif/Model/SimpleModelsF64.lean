import Verif.Model.ScalersF64
import Verif.Model.SimpleModels

/-! `MedianAbsoluteDeviation` and `StandardAbsoluteDeviation` with the rounding of doubles. The
meters are those of `Model/Statistics`, on doubles. -/

namespace Pysad

/-- `abs` of a double, which is exact. -/
def F64.abs (a : F64) : F64 := ⟨|a.val|⟩

/-- `abs` of a numpy scalar. -/
def Num.absF64 : Num F64 → Num F64
  | .fin x => .fin x.abs
  | .posInf => .posInf
  | .negInf => .posInf
  | .nan => .nan

/-- The double written `1e-10`. -/
def epsilon10F64 : F64 := F64.of (1 / 10 ^ 10)

/-- `MedianAbsoluteDeviation.__init__`, `pysad/models/median_absolute_deviation.py` l.18-22. -/
def MadState.newF64 (absolute : Bool) (b : F64) : MadState F64 :=
  ⟨b, absolute, (Pysad.medianMeter F64).init, (Pysad.medianMeter F64).init⟩

/-- `MedianAbsoluteDeviation`, `pysad/models/median_absolute_deviation.py` l.24-55, rounding after
every operation. One-element arrays are modelled by their element. -/
def medianAbsoluteDeviationF64 {β : Type*} :
    Detector (MadState F64) (List F64) β (List (Num F64)) where
  fitPartial s X _ :=
    match X with
    | [x] =>
      let s := { s with medianMeter := (medianMeter F64).update s.medianMeter x }
      (((medianMeter F64).get s.medianMeter).mapState
        fun q => ({ s with medianMeter := q } : MadState F64)).bind fun median s =>
      let deviation := (x - median).abs
      .ok () { s with madMeter := (medianMeter F64).update s.madMeter deviation }
    | _ => .err .assertionError s
  scorePartial s X :=
    (((medianMeter F64).get s.medianMeter).mapState
      fun q => ({ s with medianMeter := q } : MadState F64)).bind fun median s =>
    (((medianMeter F64).get s.madMeter).mapState
      fun q => ({ s with madMeter := q } : MadState F64)).bind fun mad s =>
    let mad := s.b * mad
    let score := X.map fun x => npDiv (x - median) (mad + epsilon10F64)
    .ok (if s.absolute then score.map Num.absF64 else score) s

/-- `StandardAbsoluteDeviation`, `pysad/models/standard_absolute_deviation.py` l.31-62, over the
meter `sub` that `__init__` made, rounding after every operation. `v**0.5` is `sqrt`, which is `nan`
for a negative number. -/
def standardAbsoluteDeviationF64 {β σ : Type*} (sub : Statistic σ F64 F64) :
    Detector (SadState σ F64) (List F64) β (List (Num F64)) where
  fitPartial s X _ :=
    match X with
    | [x] => .ok () { s with
        varianceMeter := (varianceMeter F64).update s.varianceMeter x
        subMeter := sub.update s.subMeter x }
    | _ => .err .assertionError s
  scorePartial s X :=
    ((sub.get s.subMeter).mapState fun q => ({ s with subMeter := q } : SadState σ F64)).bind
      fun m s =>
    (((varianceMeter F64).get s.varianceMeter).mapState
      fun q => ({ s with varianceMeter := q } : SadState σ F64)).bind fun v s =>
    let score := X.map fun x =>
      if v.val < 0 then Num.nan
      else npDiv (x - m) (⟨sqrtF64 v.val⟩ + epsilon10F64)
    .ok (if s.absolute then score.map Num.absF64 else score) s

/-- `StandardAbsoluteDeviation.__init__`, l.19-29, for the chosen meter. -/
def SadState.newF64 {σ : Type*} (sub : Statistic σ F64 F64) (absolute : Bool) :
    SadState σ F64 :=
  { absolute, varianceMeter := (Pysad.varianceMeter F64).init, subMeter := sub.init }

end Pysad
