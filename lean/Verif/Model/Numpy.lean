import Verif.Prelude
import Mathlib.Algebra.BigOperators.Fin

/-! The few numpy notions that several classes use. numpy is external: these
definitions state what its functions compute, in exact arithmetic. -/

namespace Pysad

variable {K : Type*}

/-- A value handed to code that calls `np.asarray`: a number, a vector, a matrix
given by its rows and its number of columns, or an array of higher rank. -/
inductive NdArray (K : Type*) where
  | scalar (x : K)
  | vec (l : List K)
  | mat (cols : ℕ) (rows : List (List K))
  | higher
  deriving DecidableEq, Repr

/-- `np.median` of a vector: the middle of the sorted values, or the mean of the
two middle ones; `none` (numpy: `nan`) for the empty vector. -/
def npMedian [Field K] [LT K] [DecidableLT K] (values : List K) : Option K :=
  let l := pySorted values
  if l.length % 2 = 1 then l[l.length / 2]?
  else
    match l[l.length / 2 - 1]?, l[l.length / 2]? with
    | some a, some b => some ((a + b) / 2)
    | _, _ => none

/-- `np.mean` of a nonempty vector. -/
def npMean [Field K] (values : List K) : K := values.sum / (values.length : K)

/-- `np.mean` of an array of shape `(d,)`, `d ≥ 1`. -/
def npMeanFin [Field K] {d : ℕ} (x : Fin d → K) : K := (∑ i, x i) / (d : K)

/-- `np.std` of an array of shape `(d,)`, `d ≥ 1`: square root of the mean squared
deviation. -/
def npStdFin [Field K] (sqrt : K → K) {d : ℕ} (x : Fin d → K) : K :=
  sqrt ((∑ i, (x i - npMeanFin x) ^ 2) / (d : K))

end Pysad
