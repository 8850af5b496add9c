import Verif.Model.Num
import Verif.Model.Statistics

/-! IEEE-754 arithmetic with `nan` and infinities over finite numbers `K`, as Python floats and
numpy scalars have it (a zero counts as positive, and the finite operations do not overflow, except
that `K` may be `F64`). The statistics of `Verif.Model.Statistics` can be run on these numbers. -/

namespace Pysad.Num

variable {K : Type*}

instance [Zero K] : Zero (Num K) := ⟨.fin 0⟩

instance [IntCast K] : IntCast (Num K) := ⟨fun n => .fin (n : K)⟩

/-- `a + b`. -/
instance [Add K] : Add (Num K) := ⟨Num.add⟩

/-- `-a` on the infinities, with finite operands handled apart. -/
def flip : Num K → Num K
  | .posInf => .negInf
  | .negInf => .posInf
  | a => a

/-- `a - b`. -/
instance [Add K] [Sub K] : Sub (Num K) where
  sub
    | .fin x, .fin y => .fin (x - y)
    | a, b => a.add b.flip

/-- The sign, 0 for zero and `nan`. -/
def sign [Zero K] [LT K] [DecidableLT K] : Num K → ℤ
  | .fin x => if 0 < x then 1 else if x < 0 then -1 else 0
  | .posInf => 1
  | .negInf => -1
  | .nan => 0

/-- An infinity of the given sign; `nan` if there is none. -/
def infinity (s : ℤ) : Num K := if 0 < s then .posInf else if s < 0 then .negInf else .nan

/-- `a * b`. -/
instance [Zero K] [LT K] [DecidableLT K] [Mul K] : Mul (Num K) where
  mul
    | .fin x, .fin y => .fin (x * y)
    | .nan, _ => .nan
    | _, .nan => .nan
    | a, b => infinity (a.sign * b.sign)

/-- numpy's `a / b`; a zero divisor counts as positive. -/
instance [Zero K] [LT K] [DecidableLT K] [DecidableEq K] [Div K] : Div (Num K) where
  div
    | .fin x, .fin y => npDiv x y
    | .nan, _ => .nan
    | _, .nan => .nan
    | .posInf, .fin y => if y < 0 then .negInf else .posInf
    | .negInf, .fin y => if y < 0 then .posInf else .negInf
    | .fin _, _ => .fin 0
    | _, _ => .nan

/-- Neither `nan` nor infinite (`np.isfinite`). -/
def isFinite : Num K → Bool
  | .fin _ => true
  | _ => false

end Pysad.Num
