import Verif.Prelude
import Mathlib.Algebra.Order.Floor.Ring

/-! Half-space chains over a tumbling window, without any bookkeeping. Instances are the
projected ones: vectors of `k` numbers. -/

namespace Pysad.Spec

variable {K : Type*} [Field K] [LinearOrder K] [IsStrictOrderedRing K] [FloorRing K] {k : ℕ}

/-- The `j`-th window (from 0) of `W` consecutive instances. -/
def windowAt {α : Type*} (W : ℕ) (xs : List α) (j : ℕ) : List α := (xs.drop (W * j)).take W

/-- Half the range of feature `f` in a window; 1 if that is at most 0.0001. -/
def binWidth (w : List (Fin k → K)) (f : Fin k) : K :=
  let values := w.map fun x => x f
  let half := (values.max?.getD 0 - values.min?.getD 0) / 2
  if half ≤ 1 / 10000 then 1 else half

/-- The bin widths in force during window `j`: one half in the first window, then those of
the window before. -/
def widthAt (W : ℕ) (xs : List (Fin k → K)) : ℕ → Fin k → K
  | 0 => fun _ => 1 / 2
  | j + 1 => binWidth (windowAt W xs j)

/-- The bin of an instance after splitting by the features `used`, with shifts `r` and
widths `δ`: a feature used `c ≥ 1` times is cut into bins of width `δ / 2 ^ (c - 1)`. -/
def halfSpaceBin (used : List (Fin k)) (r δ : Fin k → K) (x : Fin k → K) : Fin k → ℤ :=
  fun f => if used.count f = 0 then 0 else ⌊2 ^ (used.count f - 1) * (x f / δ f) + r f⌋

/-- How many instances of a window fall into bin `b` at depth `d` (from 0) of a chain with
features `fs` and shifts `r`, under the widths `δ`. -/
def binCount (fs : List (Fin k)) (r δ : Fin k → K) (d : ℕ) (w : List (Fin k → K))
    (b : Fin k → ℤ) : ℕ :=
  w.countP fun x => decide (halfSpaceBin (fs.take (d + 1)) r δ x = b)

/-- The window to compare with: the last completed one, or all instances while the first
window is not complete. -/
def comparedWindow {α : Type*} (W : ℕ) (xs : List α) : List α :=
  if xs.length < W then xs else windowAt W xs (xs.length / W - 1)

/-- The widths under which the reference window was binned. -/
def comparedWidth (W : ℕ) (xs : List (Fin k → K)) : Fin k → K :=
  widthAt W xs (xs.length / W - 1)

/-- The widths in force now. -/
def currentWidth (W : ℕ) (xs : List (Fin k → K)) : Fin k → K := widthAt W xs (xs.length / W)

/-- The number of instances of the reference window found in the bin of `x` at depth `d`:
`x` is binned with the current widths, the reference window was with its own. -/
def foundCount (W : ℕ) (fs : List (Fin k)) (r : Fin k → K) (xs : List (Fin k → K))
    (x : Fin k → K) (d : ℕ) : ℕ :=
  binCount fs r (comparedWidth W xs) d (comparedWindow W xs)
    (halfSpaceBin (fs.take (d + 1)) r (currentWidth W xs) x)

/-- The score of a chain: minus the least `log2 (1 + count) + depth`, depths from 1. -/
def chainScore (log2 : K → K) (W : ℕ) (fs : List (Fin k)) (r : Fin k → K)
    (xs : List (Fin k → K)) (x : Fin k → K) : K :=
  -(((List.range fs.length).map fun d =>
      log2 (1 + (foundCount W fs r xs x d : K)) + ((d : K) + 1)).min?.getD 0)

end Pysad.Spec
