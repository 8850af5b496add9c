import Verif.Model.Num

/-! The order and the multiples of floats, for statements. -/

namespace Pysad

/-- `a` is below `b`; `nan` is neither below nor above anything. -/
inductive Spec.Below {K : Type*} [LT K] : Num K → Num K → Prop
  | numbers {x y : K} : x < y → Below (.fin x) (.fin y)
  | infinity (x : K) : Below (.fin x) .posInf
  | minusInfinity (y : K) : Below .negInf (.fin y)
  | infinities : Below .negInf .posInf

instance {K : Type*} [LT K] [DecidableLT K] (a b : Num K) : Decidable (Spec.Below a b) :=
  match a, b with
  | .fin x, .fin y => if h : x < y then .isTrue (.numbers h) else .isFalse fun hb => by
      cases hb with | numbers h' => exact h h'
  | .fin x, .posInf => .isTrue (.infinity x)
  | .negInf, .fin y => .isTrue (.minusInfinity y)
  | .negInf, .posInf => .isTrue .infinities
  | .fin _, .negInf => .isFalse nofun
  | .fin _, .nan => .isFalse nofun
  | .posInf, _ => .isFalse nofun
  | .negInf, .negInf => .isFalse nofun
  | .negInf, .nan => .isFalse nofun
  | .nan, _ => .isFalse nofun

/-- A positive multiple of a float; `inf`, `-inf` and `nan` stay what they are. -/
def Spec.scaled {K : Type*} [Mul K] (c : K) : Num K → Num K
  | .fin x => .fin (c * x)
  | .posInf => .posInf
  | .negInf => .negInf
  | .nan => .nan

end Pysad
