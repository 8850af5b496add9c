import Verif.Model.Base
import Verif.Model.Num
import Mathlib.Algebra.Order.Floor.Ring

/-! Model of `pysad/models/relative_entropy.py`. -/

namespace Pysad

/-- numpy's and Python's `a < b` for floats; comparisons with `nan` are false. -/
def Num.lt {K : Type*} [LT K] [DecidableLT K] : Num K → Num K → Bool
  | .nan, _ => false
  | _, .nan => false
  | .fin x, .fin y => decide (x < y)
  | .fin _, .posInf => true
  | .negInf, .fin _ => true
  | .negInf, .posInf => true
  | _, _ => false

/-- Attributes of `RelativeEntropy`, `pysad/models/relative_entropy.py` l.17-48. -/
structure RelEntState (K : Type*) where
  minVal : K
  maxVal : K
  util : List K
  nBins : ℕ
  W : ℕ
  T : Num K
  m : ℕ
  stepSize : K
  P : List (List (Num K))
  c : List ℕ
  pHat : Option (List (Num K))

namespace RelEnt

variable {K : Type*} [Field K] [LinearOrder K] [IsStrictOrderedRing K] [FloorRing K]

/-- `__init__`, l.17-48. `isf` is `stats.chi2.isf(0.01, df)` as a function of the degrees
of freedom. -/
def new (isf : ℤ → Num K) (minVal maxVal : K) (nBins W : ℕ) : Except PyErr (RelEntState K) :=
  if nBins = 0 then .error .zeroDivision
  else .ok ⟨minVal, maxVal, [], nBins, W, isf ((nBins : ℤ) - 1), 0, (maxVal - minVal) / (nBins : K),
    [], [], none⟩

/-- `self.util[-self.W:]`, l.64 (`[-0:]` is the whole list). -/
def current (W : ℕ) (util : List K) : List K :=
  if W = 0 then util else util.drop (util.length - W)

/-- `math.ceil((c - self.min_val) / self.stepSize)`, l.67. -/
def quantize (minVal stepSize c : K) : Except PyErr ℤ :=
  if stepSize = 0 then .error .zeroDivision else .ok ⌈(c - minVal) / stepSize⌉

/-- How many of the integers `bs` `np.histogram` with range `(0, n)` and `n` bins counts
in bin `i`: bin `i` is `[i, i + 1)`, the last one `[n - 1, n]`. -/
def binCount (n : ℕ) (bs : List ℤ) (i : ℕ) : ℕ :=
  bs.countP fun b => decide ((i : ℤ) ≤ b ∧ (b < i + 1 ∨ (i + 1 = n ∧ b = n)))

/-- `np.histogram(bs, bins=n, range=(0, n), density=True)[0]`, l.72-75: counts divided by
the bin width (1) and the total number of counted values; external to the code. -/
def histogram (n : ℕ) (bs : List ℤ) : List (Num K) :=
  let counts : List ℕ := (List.range n).map (binCount n bs)
  counts.map fun (k : ℕ) => npDiv (k : K) ((counts.sum : ℕ) : K)

/-- `fit_partial`, l.50-82. -/
def fitPartial (s : RelEntState K) (x : K) : Res (RelEntState K) Unit :=
  let s := { s with util := s.util ++ [x] }
  if s.W ≤ s.util.length then
    match (current s.W s.util).mapM (quantize s.minVal s.stepSize) with
    | .error e => .err e s
    | .ok bs =>
      let h := histogram s.nBins bs
      let s := { s with pHat := some h }
      if s.m = 0 then .ok () { s with P := s.P ++ [h], c := s.c ++ [1], m := 1 }
      else .ok () s
  else .ok () s

/-- One pass of the loop l.117-121 with `entropy` standing for `scipy.stats.entropy`; the
pair is `index, minEntropy`. (`m` never exceeds the number of stored hypotheses; a missing
one would raise `IndexError`.) -/
def agreeStep (entropy : List (Num K) → List (Num K) → Num K) (s : RelEntState K)
    (pHat : List (Num K)) (acc : ℤ × Num K) (i : ℕ) : Except PyErr (ℤ × Num K) :=
  match s.P[i]? with
  | none => .error .indexError
  | some p =>
    let e := Num.smul (2 * (s.W : K)) (entropy pHat p)
    if Num.lt e s.T && Num.lt e acc.2 then .ok ((i : ℤ), e) else .ok acc

/-- `_get_agreement_hypothesis`, l.100-123. -/
def agreement (entropy : List (Num K) → List (Num K) → Num K) (s : RelEntState K)
    (pHat : List (Num K)) : Except PyErr ℤ :=
  ((List.range s.m).foldlM (agreeStep entropy s pHat) ((-1 : ℤ), Num.posInf)).map Prod.fst

/-- `score_partial`, l.84-98; the argument is ignored. The score is 0.0 or an index. -/
def scorePartial (entropy : List (Num K) → List (Num K) → Num K) (s : RelEntState K) :
    Res (RelEntState K) ℤ :=
  if s.W ≤ s.util.length ∧ 0 < s.m then
    match s.pHat with
    | none => .ok 0 s
    | some h => Res.ofExcept (agreement entropy s h) s
  else .ok 0 s

/-- `RelativeEntropy` as a detector. -/
def detector {β : Type*} (entropy : List (Num K) → List (Num K) → Num K) :
    Detector (RelEntState K) K β ℤ where
  fitPartial s x _ := fitPartial s x
  scorePartial s _ := scorePartial entropy s

end RelEnt

end Pysad
