import Verif.Prelude
import Mathlib.Data.Rat.Floor

/-! A computable model of IEEE-754 binary64 arithmetic: a double is a rational,
and every operation computes the exact result and rounds it to 53 significant
bits, ties to even. Not modelled: the bounds of the exponent (overflow and
subnormals), infinities, NaN and the sign of zero. None of the witnesses in
which this is used leaves the normal range. -/

namespace Pysad

/-- `2^e` for an integer `e`. -/
def pow2 (e : ℤ) : ℚ := if 0 ≤ e then (2 ^ e.toNat : ℕ) else 1 / ((2 ^ (-e).toNat : ℕ) : ℚ)

/-- The `k` with `2^k ≤ q < 2^(k+1)`, for `q > 0`. -/
def ilog2 (q : ℚ) : ℤ :=
  let k : ℤ := (Nat.log2 q.num.natAbs : ℤ) - (Nat.log2 q.den : ℤ)
  if q < pow2 k then k - 1 else k

/-- Nearest integer, ties to even. -/
def roundEven (q : ℚ) : ℤ :=
  let f := q.floor
  let r := q - f
  if r < 1 / 2 then f else if 1 / 2 < r then f + 1 else if f % 2 = 0 then f else f + 1

/-- Rounding to 53 significant bits. -/
def roundF64 (q : ℚ) : ℚ :=
  if q = 0 then 0
  else
    let e := ilog2 (if q < 0 then -q else q) - 52
    (roundEven (q / pow2 e) : ℚ) * pow2 e

/-- A double. -/
structure F64 where
  val : ℚ
  deriving DecidableEq, Repr

namespace F64

/-- The double nearest to a rational. -/
def of (q : ℚ) : F64 := ⟨roundF64 q⟩

instance : Zero F64 := ⟨⟨0⟩⟩
instance : Add F64 := ⟨fun a b => of (a.val + b.val)⟩
instance : Sub F64 := ⟨fun a b => of (a.val - b.val)⟩
instance : Mul F64 := ⟨fun a b => of (a.val * b.val)⟩
instance : Div F64 := ⟨fun a b => of (a.val / b.val)⟩
instance : IntCast F64 := ⟨fun n => of n⟩
instance : NatCast F64 := ⟨fun n => of n⟩
instance : LT F64 := ⟨fun a b => a.val < b.val⟩
instance : DecidableLT F64 := fun a b => inferInstanceAs (Decidable (a.val < b.val))

end F64

end Pysad
