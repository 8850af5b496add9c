import Verif.Model.Statistics
import Mathlib.Data.Rat.Defs

/-! numpy's integers of fixed width, and the meters of `pysad/statistics` when they are fed with
them. (With numpy 2 the sum of a Python `0` and a numpy integer has the type of the latter; with
numpy 1 it is a 64-bit integer. The width is a parameter.) -/

namespace Pysad

/-- An integer type of numpy: signed or not, and its number of bits. -/
structure IntType where
  signed : Bool
  bits : ℕ

namespace IntType

/-- The least number of the type. -/
def lo (t : IntType) : ℤ := if t.signed then -2 ^ (t.bits - 1) else 0

/-- How many numbers the type has. -/
def size (t : IntType) : ℤ := 2 ^ t.bits

/-- Keeping the low bits: what numpy (and the hardware) makes of an exact result. -/
def wrap (t : IntType) (z : ℤ) : ℤ := (z - t.lo) % t.size + t.lo

end IntType

/-- A numpy integer scalar. -/
structure NpInt (t : IntType) where
  val : ℤ
  deriving DecidableEq, Repr

namespace NpInt
variable {t : IntType}

instance : Zero (NpInt t) := ⟨⟨0⟩⟩
instance : Add (NpInt t) := ⟨fun a b => ⟨t.wrap (a.val + b.val)⟩⟩
instance : Sub (NpInt t) := ⟨fun a b => ⟨t.wrap (a.val - b.val)⟩⟩
instance : Mul (NpInt t) := ⟨fun a b => ⟨t.wrap (a.val * b.val)⟩⟩

/-- Comparisons are those of the values. -/
instance : LinearOrder (NpInt t) :=
  LinearOrder.lift' NpInt.val (fun a b h => by cases a; cases b; simp_all)

end NpInt

/-- `AverageMeter` on numpy integers, `pysad/statistics/average_meter.py` l.12-50: the sum is kept
in the integer type, `/` divides exactly (rounding is not modelled here). -/
def averageMeterInt (t : IntType) : Statistic (AverageState (NpInt t)) (NpInt t) ℚ where
  init := ⟨0, 0⟩
  update s num := ⟨s.sum + num, s.numItems + 1⟩
  remove s num := .ok () ⟨s.sum - num, s.numItems - 1⟩
  get s := if s.numItems = 0 then .err .zeroDivision s
    else .ok ((s.sum.val : ℚ) / (s.numItems : ℚ)) s

/-- `VarianceMeter` on numpy integers, `pysad/statistics/variance_meter.py` l.16-65: both sums and
the square of the sum are integers of the type, the divisions are exact. -/
def varianceMeterInt (t : IntType) : Statistic (VarianceState (NpInt t)) (NpInt t) ℚ where
  init := ⟨(sumMeter _).init, (sumSquaresMeter _).init, (countMeter (NpInt t)).init⟩
  update s num :=
    ⟨(sumMeter _).update s.sumMeter num, (sumSquaresMeter _).update s.sumSquaresMeter num,
      (countMeter _).update s.countMeter num⟩
  remove s num := .ok () ⟨⟨s.sumMeter.sum - num, s.sumMeter.numItems - 1⟩,
    ⟨s.sumSquaresMeter.sum - num * num, s.sumSquaresMeter.numItems - 1⟩, s.countMeter - 1⟩
  get s :=
    let sumSquares := s.sumSquaresMeter.sum
    let sum := s.sumMeter.sum
    let count := s.countMeter
    if count = 0 then .err .zeroDivision s
    else .ok (((sumSquares.val : ℚ) - ((sum * sum).val : ℚ) / (count : ℚ)) / (count : ℚ)) s

/-- `MedianMeter` on numpy integers, `pysad/statistics/median_meter.py` l.13-55: the sum of the two
middle values is an integer of the type, the halving is exact. -/
def medianMeterInt (t : IntType) : Statistic (MedianState (NpInt t)) (NpInt t) ℚ where
  init := ⟨[], 0⟩
  update s num := ⟨heappush s.lst num, s.numItems + 1⟩
  remove s num :=
    match pyRemove s.lst num with
    | .error e => .err e s
    | .ok lst => .ok () ⟨lst, s.numItems - 1⟩
  get s :=
    let s : MedianState (NpInt t) := { s with lst := pySorted s.lst }
    if s.numItems % 2 = 0 then
      Res.ofExcept (pyIndex s.lst (s.numItems / 2)) s |>.bind fun a s =>
      Res.ofExcept (pyIndex s.lst (s.numItems / 2 - 1)) s |>.bind fun b s =>
      .ok (((a + b).val : ℚ) / 2) s
    else (Res.ofExcept (pyIndex s.lst (s.numItems / 2)) s).bind fun a s => .ok (a.val : ℚ) s

end Pysad
