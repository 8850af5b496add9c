import Verif.Prelude

/-! Model of `pysad/statistics/*.py`.

The meters are written over arbitrary arithmetic so that the same definitions
can be read in exact arithmetic and in the `F64` model of doubles. Python's
unbounded `int` counters are `ℤ`. -/

namespace Pysad

/-! ### `heapq` -/

/-- `heapq._siftdown(heap, 0, pos)` of CPython's standard library, the part of
`heappush` after the append: `newitem` moves up while it is smaller than its
parent. (The hole at `pos` is filled at the end, as in CPython.) -/
def siftdown {α : Type*} [LT α] [DecidableLT α] (heap : List α) (newitem : α) (pos : ℕ) : List α :=
  if pos = 0 then heap.set 0 newitem
  else
    match heap[(pos - 1) / 2]? with
    | none => heap.set pos newitem
    | some parent =>
      if newitem < parent then siftdown (heap.set pos parent) newitem ((pos - 1) / 2)
      else heap.set pos newitem
termination_by pos
decreasing_by omega

/-- `heapq.heappush(heap, item)`. -/
def heappush {α : Type*} [LT α] [DecidableLT α] (heap : List α) (item : α) : List α :=
  siftdown (heap ++ [item]) item heap.length

/-! ### The interface -/

/-- A subclass of `BaseStatistic`/`UnivariateStatistic`
(`pysad/core/base_statistic.py`): constructor and the three methods, over
attribute record `σ`, values `α` and results `β`. The `update` of every shipped
meter is total. -/
structure Statistic (σ α β : Type*) where
  init : σ
  update : σ → α → σ
  remove : σ → α → Res σ Unit
  get : σ → Res σ β

/-! ### `AverageMeter` -/

/-- Attributes of `AverageMeter`, `pysad/statistics/average_meter.py` l.12-14. -/
structure AverageState (K : Type*) where
  sum : K
  numItems : ℤ
  deriving DecidableEq, Repr

/-- `AverageMeter`, `pysad/statistics/average_meter.py` l.12-50. A zero count
makes the division raise `ZeroDivisionError` (with numpy scalars: a warning and
`nan`, which is not distinguished here). -/
def averageMeter (K : Type*) [Zero K] [Add K] [Sub K] [Div K] [IntCast K] :
    Statistic (AverageState K) K K where
  init := ⟨0, 0⟩
  update s num := ⟨s.sum + num, s.numItems + 1⟩
  remove s num := .ok () ⟨s.sum - num, s.numItems - 1⟩
  get s := if s.numItems = 0 then .err .zeroDivision s else .ok (s.sum / (s.numItems : K)) s

/-! ### `CountMeter`, `SumMeter`, `SumSquaresMeter` -/

/-- `CountMeter`, `pysad/statistics/count_meter.py` l.11-46. -/
def countMeter (α : Type*) : Statistic ℤ α ℤ where
  init := 0
  update s _ := s + 1
  remove s _ := .ok () (s - 1)
  get s := .ok s s

/-- `SumMeter`, `pysad/statistics/sum_meter.py` l.12-50. -/
def sumMeter (K : Type*) [Zero K] [Add K] [Sub K] : Statistic (AverageState K) K K where
  init := ⟨0, 0⟩
  update s num := ⟨s.sum + num, s.numItems + 1⟩
  remove s num := .ok () ⟨s.sum - num, s.numItems - 1⟩
  get s := .ok s.sum s

/-- `SumSquaresMeter`, `pysad/statistics/sum_squares_meter.py` l.12-50; `num**2`
is `num * num`. -/
def sumSquaresMeter (K : Type*) [Zero K] [Add K] [Sub K] [Mul K] :
    Statistic (AverageState K) K K where
  init := ⟨0, 0⟩
  update s num := ⟨s.sum + num * num, s.numItems + 1⟩
  remove s num := .ok () ⟨s.sum - num * num, s.numItems - 1⟩
  get s := .ok s.sum s

/-! ### `VarianceMeter` -/

/-- Attributes of `VarianceMeter`, `pysad/statistics/variance_meter.py` l.16-19. -/
structure VarianceState (K : Type*) where
  sumMeter : AverageState K
  sumSquaresMeter : AverageState K
  countMeter : ℤ
  deriving DecidableEq, Repr

/-- `VarianceMeter`, `pysad/statistics/variance_meter.py` l.16-65. -/
def varianceMeter (K : Type*) [Zero K] [Add K] [Sub K] [Mul K] [Div K] [IntCast K] :
    Statistic (VarianceState K) K K where
  init := ⟨(sumMeter K).init, (sumSquaresMeter K).init, (countMeter K).init⟩
  update s num :=
    ⟨(sumMeter K).update s.sumMeter num, (sumSquaresMeter K).update s.sumSquaresMeter num,
      (countMeter K).update s.countMeter num⟩
  remove s num :=
    ((sumSquaresMeter K).remove s.sumSquaresMeter num).mapState
        (fun q => ({ s with sumSquaresMeter := q } : VarianceState K)) |>.bind fun _ s =>
    ((sumMeter K).remove s.sumMeter num).mapState
        (fun q => ({ s with sumMeter := q } : VarianceState K)) |>.bind fun _ s =>
    ((countMeter K).remove s.countMeter num).mapState
        (fun q => ({ s with countMeter := q } : VarianceState K))
  get s :=
    let sumSquares := s.sumSquaresMeter.sum
    let sum := s.sumMeter.sum
    let count := s.countMeter
    if count = 0 then .err .zeroDivision s
    else .ok ((sumSquares - sum * sum / (count : K)) / (count : K)) s

/-! ### `MaxMeter` and `MinMeter` -/

/-- Attributes of `MaxMeter` (`pysad/statistics/max_meter.py` l.15-18) and
`MinMeter` (`pysad/statistics/min_meter.py` l.15-18). `none` is the initial
`-inf`/`+inf`. -/
structure ExtremeState (α : Type*) where
  ext : Option α
  lst : List α
  deriving DecidableEq, Repr

/-- `np.max(lst)` of a nonempty list, the running maximum from the left. -/
def npMax {α : Type*} [LT α] [DecidableLT α] : List α → Option α
  | [] => none
  | x :: xs => some (xs.foldl (fun m y => if m < y then y else m) x)

/-- `np.min(lst)`. -/
def npMin {α : Type*} [LT α] [DecidableLT α] : List α → Option α
  | [] => none
  | x :: xs => some (xs.foldl (fun m y => if y < m then y else m) x)

/-- `MaxMeter`, `pysad/statistics/max_meter.py` l.15-62. -/
def maxMeter (α : Type*) [LT α] [DecidableLT α] [DecidableEq α] :
    Statistic (ExtremeState α) α (Option α) where
  init := ⟨none, []⟩
  update s num :=
    let m := match s.ext with
      | none => some num
      | some m => if m < num then some num else some m
    ⟨m, heappush s.lst num⟩
  remove s num :=
    match pyRemove s.lst num with
    | .error e => .err e s
    | .ok lst => .ok () (if lst.length > 0 then ⟨npMax lst, lst⟩ else ⟨none, lst⟩)
  get s := .ok s.ext s

/-- `MinMeter`, `pysad/statistics/min_meter.py` l.15-60. -/
def minMeter (α : Type*) [LT α] [DecidableLT α] [DecidableEq α] :
    Statistic (ExtremeState α) α (Option α) where
  init := ⟨none, []⟩
  update s num :=
    let m := match s.ext with
      | none => some num
      | some m => if num < m then some num else some m
    ⟨m, heappush s.lst num⟩
  remove s num :=
    match pyRemove s.lst num with
    | .error e => .err e s
    | .ok lst => .ok () (if lst.length > 0 then ⟨npMin lst, lst⟩ else ⟨none, lst⟩)
  get s := .ok s.ext s

/-! ### `MedianMeter` -/

/-- Attributes of `MedianMeter`, `pysad/statistics/median_meter.py` l.13-15. -/
structure MedianState (K : Type*) where
  lst : List K
  numItems : ℤ
  deriving DecidableEq, Repr

/-- `MedianMeter`, `pysad/statistics/median_meter.py` l.13-55. `get` replaces
the stored list by the sorted one before it reads. -/
def medianMeter (K : Type*) [LT K] [DecidableLT K] [DecidableEq K] [Add K] [Div K] [IntCast K] :
    Statistic (MedianState K) K K where
  init := ⟨[], 0⟩
  update s num := ⟨heappush s.lst num, s.numItems + 1⟩
  remove s num :=
    match pyRemove s.lst num with
    | .error e => .err e s
    | .ok lst => .ok () ⟨lst, s.numItems - 1⟩
  get s :=
    let s : MedianState K := { s with lst := pySorted s.lst }
    if s.numItems % 2 = 0 then
      Res.ofExcept (pyIndex s.lst (s.numItems / 2)) s |>.bind fun a s =>
      Res.ofExcept (pyIndex s.lst (s.numItems / 2 - 1)) s |>.bind fun b s =>
      .ok ((a + b) / ((2 : ℤ) : K)) s
    else Res.ofExcept (pyIndex s.lst (s.numItems / 2)) s

/-! ### `AbsStatistic` -/

/-- `AbsStatistic`, `pysad/statistics/abs_statistic.py` l.12-51, around any
statistic; `abs` is Python's `abs` on the result type. -/
def absStatistic {σ α β : Type*} (abs : β → β) (st : Statistic σ α β) : Statistic σ α β where
  init := st.init
  update := st.update
  remove := st.remove
  get s := (st.get s).map abs

/-! ### `RunningStatistic` -/

/-- Attributes of `RunningStatistic`, `pysad/statistics/running_statistic.py`
l.13-19. (`**kwargs` are passed to `super().__init__`, not to the statistic, so
only the empty kwargs construct.) -/
structure RunningState (σ α : Type*) where
  windowSize : ℕ
  statistic : σ
  window : List α
  deriving DecidableEq, Repr

namespace RunningStatistic
variable {σ α β : Type*} (st : Statistic σ α β)

/-- `RunningStatistic.__init__`, l.13-19. -/
def new (windowSize : ℕ) : RunningState σ α := ⟨windowSize, st.init, []⟩

/-- `RunningStatistic.update`, l.21-38. -/
def update (s : RunningState σ α) (num : α) : Res (RunningState σ α) Unit :=
  let s := { s with window := s.window ++ [num] }
  let s := { s with statistic := st.update s.statistic num }
  if s.window.length > s.windowSize then
    match s.window with
    | [] => .err .indexError s
    | oldest :: _ =>
      ((st.remove s.statistic oldest).mapState fun q => { s with statistic := q }).bind fun _ s =>
        .ok () { s with window := pyTail s.window }
  else .ok () s

/-- `RunningStatistic.get`, l.40-46. -/
def get (s : RunningState σ α) : Res (RunningState σ α) β :=
  (st.get s.statistic).mapState fun q => { s with statistic := q }

/-- Consecutive `update` calls; stops at the first exception. -/
def updates (s : RunningState σ α) : List α → Res (RunningState σ α) Unit
  | [] => .ok () s
  | x :: xs => (update st s x).bind fun _ s => updates s xs

end RunningStatistic

/-! ### Running a history of calls -/

namespace Statistic
variable {σ α β : Type*} (st : Statistic σ α β)

/-- Consecutive `update` calls. -/
def updates (s : σ) (xs : List α) : σ := xs.foldl st.update s

end Statistic

end Pysad
