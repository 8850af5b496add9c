import Verif.Prelude

/-! numpy's floating-point division: it never raises, but may yield `nan` or an
infinity (with a warning). -/

namespace Pysad

/-- A numpy scalar computed from finite numbers. -/
inductive Num (K : Type*) where
  | fin (x : K)
  | posInf
  | negInf
  | nan
  deriving DecidableEq, Repr

/-- numpy's `a / b` for finite `a`, `b` (the sign of a zero divisor is taken to
be positive). -/
def npDiv {K : Type*} [Zero K] [Div K] [LT K] [DecidableLT K] [DecidableEq K] (a b : K) : Num K :=
  if b = 0 then
    if 0 < a then .posInf else if a < 0 then .negInf else .nan
  else .fin (a / b)

/-- numpy's `a + b`. -/
def Num.add {K : Type*} [Add K] : Num K → Num K → Num K
  | .nan, _ => .nan
  | _, .nan => .nan
  | .fin x, .fin y => .fin (x + y)
  | .posInf, .negInf => .nan
  | .negInf, .posInf => .nan
  | .posInf, _ => .posInf
  | _, .posInf => .posInf
  | .negInf, _ => .negInf
  | _, .negInf => .negInf

/-- numpy's `c * a` for a finite `c`. -/
def Num.smul {K : Type*} [Zero K] [Mul K] [LT K] [DecidableLT K] (c : K) : Num K → Num K
  | .fin x => .fin (c * x)
  | .posInf => if 0 < c then .posInf else if c < 0 then .negInf else .nan
  | .negInf => if 0 < c then .negInf else if c < 0 then .posInf else .nan
  | .nan => .nan

/-- numpy's `a / n` for a nonnegative integer `n`. -/
def Num.divNat {K : Type*} [Field K] [LT K] [DecidableLT K] [DecidableEq K] (n : ℕ) :
    Num K → Num K
  | .fin x => if n = 0 then npDiv x 0 else .fin (x / (n : K))
  | a => a

end Pysad
