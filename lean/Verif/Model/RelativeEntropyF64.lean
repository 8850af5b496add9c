import Verif.Model.RelativeEntropy
import Verif.Model.F64

/-! `pysad/models/relative_entropy.py` with the rounding of doubles: every arithmetic
operation of the code is an operation on `F64`. -/

namespace Pysad

namespace RelEnt

/-- `__init__`, l.17-48; `(max_val - min_val) / self.N_bins` (l.39) is rounded twice. -/
def newF64 (isf : ℤ → Num F64) (minVal maxVal : F64) (nBins W : ℕ) :
    Except PyErr (RelEntState F64) :=
  if nBins = 0 then .error .zeroDivision
  else .ok ⟨minVal, maxVal, [], nBins, W, isf ((nBins : ℤ) - 1), 0,
    (maxVal - minVal) / (nBins : F64), [], [], none⟩

/-- `math.ceil((c - self.min_val) / self.stepSize)`, l.67: the difference and the quotient
are rounded, `math.ceil` of a double is exact. -/
def quantizeF64 (minVal stepSize c : F64) : Except PyErr ℤ :=
  if stepSize.val = 0 then .error .zeroDivision else .ok ⌈((c - minVal) / stepSize).val⌉

/-- `np.histogram(bs, bins=n, range=(0, n), density=True)[0]`, l.72-75: the counts are
exact, the division is rounded; external to the code. -/
def histogramF64 (n : ℕ) (bs : List ℤ) : List (Num F64) :=
  let counts : List ℕ := (List.range n).map (binCount n bs)
  counts.map fun (k : ℕ) => npDiv (k : F64) ((counts.sum : ℕ) : F64)

/-- `self.util[-self.W:]`, l.64 (`[-0:]` is the whole list). -/
def currentF64 (W : ℕ) (util : List F64) : List F64 :=
  if W = 0 then util else util.drop (util.length - W)

/-- `fit_partial`, l.50-82. -/
def fitPartialF64 (s : RelEntState F64) (x : F64) : Res (RelEntState F64) Unit :=
  let s := { s with util := s.util ++ [x] }
  if s.W ≤ s.util.length then
    match (currentF64 s.W s.util).mapM (quantizeF64 s.minVal s.stepSize) with
    | .error e => .err e s
    | .ok bs =>
      let h := histogramF64 s.nBins bs
      let s := { s with pHat := some h }
      if s.m = 0 then .ok () { s with P := s.P ++ [h], c := s.c ++ [1], m := 1 }
      else .ok () s
  else .ok () s

/-- One pass of the loop l.117-121 with `entropy` standing for `scipy.stats.entropy`. -/
def agreeStepF64 (entropy : List (Num F64) → List (Num F64) → Num F64) (s : RelEntState F64)
    (pHat : List (Num F64)) (acc : ℤ × Num F64) (i : ℕ) : Except PyErr (ℤ × Num F64) :=
  match s.P[i]? with
  | none => .error .indexError
  | some p =>
    let e := Num.smul ((2 * s.W : ℕ) : F64) (entropy pHat p)
    if Num.lt e s.T && Num.lt e acc.2 then .ok ((i : ℤ), e) else .ok acc

/-- `score_partial`, l.84-98, with `_get_agreement_hypothesis`, l.100-123; the argument is
ignored. The score is 0.0 or an index. -/
def scorePartialF64 (entropy : List (Num F64) → List (Num F64) → Num F64)
    (s : RelEntState F64) : Res (RelEntState F64) ℤ :=
  if s.W ≤ s.util.length ∧ 0 < s.m then
    match s.pHat with
    | none => .ok 0 s
    | some h => Res.ofExcept
        (((List.range s.m).foldlM (agreeStepF64 entropy s h) ((-1 : ℤ), Num.posInf)).map Prod.fst) s
  else .ok 0 s

/-- `RelativeEntropy` in doubles as a detector. -/
def detectorF64 {β : Type*} (entropy : List (Num F64) → List (Num F64) → Num F64) :
    Detector (RelEntState F64) F64 β ℤ where
  fitPartial s x _ := fitPartialF64 s x
  scorePartial s _ := scorePartialF64 entropy s

end RelEnt

end Pysad
