import Verif.Spec.Basic
import Verif.Spec.Calls
import Mathlib.Data.Multiset.Sort
import Mathlib.Algebra.BigOperators.Group.Finset.Basic
import Mathlib.Algebra.Field.Basic

/-! Specification of `KNNCAD`: the conformal anomaly score of a univariate stream, computed from
the stream alone. -/

namespace Pysad.Spec

/-- The 19 values that end at record `j` (records are numbered from 1). -/
def segment {α : Type*} (X : List α) (j : ℕ) : List α := (X.take j).drop (j - 19)

/-- The segments that end at records `a`, `a + 1`, …, `b`. -/
def segments {α : Type*} (X : List α) (a b : ℕ) : List (List α) :=
  (List.range' a (b + 1 - a)).map (segment X)

variable {K : Type*} [Field K] [LinearOrder K]

/-- The quadratic form of a matrix at the difference of two segments. -/
def squaredDistance (σ : List (List K)) (a b : List K) : K :=
  ∑ i ∈ Finset.range 19, ∑ j ∈ Finset.range 19,
    (a.getD i 0 - b.getD i 0) * (σ.getD i []).getD j 0 * (a.getD j 0 - b.getD j 0)

/-- The sum of the `m` least values. -/
def sumOfLeast (m : ℕ) (l : Multiset K) : K := ((l.sort (· ≤ ·)).take m).sum

/-- How strange an item is: the sum of its `m` least distances to the training segments. -/
def strangeness (m : ℕ) (σ : List (List K)) (training : List (List K)) (item : List K) : K :=
  sumOfLeast m ((training : Multiset (List K)).map fun t => squaredDistance σ t item)

/-- The training segments after `n` records, for the probationary period `P`. -/
def trainingAt {α : Type*} (P : ℕ) (X : List α) (n : ℕ) : List (List α) :=
  if n < 2 * P then segments X 19 (P - 1) else segments X (n - 2 * P + 20) (n - P)

/-- The 19 × 19 identity matrix. -/
def identity19 : List (List K) :=
  (List.range 19).map fun i => (List.range 19).map fun j => if i = j then 1 else 0

/-- The matrix of second moments (a sum, not a mean) of the training segments. -/
def secondMoments (training : List (List K)) : List (List K) :=
  (List.range 19).map fun i => (List.range 19).map fun j =>
    (training.map fun t => t.getD i 0 * t.getD j 0).sum

/-- The matrix in use after `n` records: the identity, until at the end of the probationary period
and then every half period it is replaced by the inverse of the second moments of the training
segments, if there is one. -/
def matrixAt (inv : List (List K) → Option (List (List K))) (P : ℕ) (X : List K) :
    ℕ → List (List K)
  | 0 => identity19
  | n + 1 =>
    if P ≤ n + 1 ∧ ((n + 1) % P = 0 ∨ (n + 1) % P = P / 2) then
      (inv (secondMoments (trainingAt P X n))).getD (matrixAt inv P X n)
    else matrixAt inv P X n

/-- The strangeness of the segment that ends at record `j`, at the time of that record. -/
def strangenessAt (inv : List (List K) → Option (List (List K))) (P : ℕ) (X : List K) (j : ℕ) : K :=
  strangeness 27 (matrixAt inv P X j) (trainingAt P X (j - 1)) (segment X j)

/-- The scores kept for comparison after `n` records: at first those of the training segments
against one another, then the `P - 19` most recent ones. -/
def referenceScores (inv : List (List K) → Option (List (List K))) (P : ℕ) (X : List K) (n : ℕ) :
    List K :=
  lastN (P - 19) (((trainingAt P X (P - 1)).map
      (strangeness 28 (matrixAt inv P X P) (trainingAt P X (P - 1))))
    ++ (List.range' P (n + 1 - P)).map (strangenessAt inv P X))

/-- The anomaly score after the stream `X`: the fraction of the kept scores that the last segment's
strangeness exceeds. -/
def conformalScore (inv : List (List K) → Option (List (List K))) (P : ℕ) (X : List K) : K :=
  let kept := referenceScores inv P X X.length
  let new := strangeness 27 (matrixAt inv P X X.length) (trainingAt P X X.length)
    (segment X X.length)
  (kept.countP fun c => decide (c < new) : K) / (kept.length : K)

/-- An alarm is a score of at least 0.9965. -/
def isAlarm : Answer K → Prop
  | .value v => 9965 / 10000 ≤ v
  | _ => False

end Pysad.Spec
