import Verif.Spec.Basic

/-! What reading each kind of statistic of a bag of values should yield. -/

namespace Pysad.Spec

variable {K : Type*}

/-- A statistic that is always defined. -/
def Reads {β : Type*} (f : Multiset K → β) (m : Multiset K) (r : Except PyErr β) : Prop :=
  r = .ok (f m)

/-- A statistic that needs at least one value, and otherwise raises `e`. -/
def ReadsNonempty {β : Type*} (e : PyErr) (f : Multiset K → β) (m : Multiset K)
    (r : Except PyErr β) : Prop :=
  (m = 0 ∧ r = .error e) ∨ (m ≠ 0 ∧ r = .ok (f m))

/-- Count of the values. -/
def CountValue (m : Multiset K) (r : Except PyErr ℤ) : Prop := Reads (fun m => (m.card : ℤ)) m r

/-- Sum of the values. -/
def SumValue [Field K] (m : Multiset K) (r : Except PyErr K) : Prop := Reads Multiset.sum m r

/-- Sum of the squared values. -/
def SumSquaresValue [Field K] (m : Multiset K) (r : Except PyErr K) : Prop :=
  Reads (fun m => (m.map (· ^ 2)).sum) m r

/-- Mean; division by zero without values. -/
def MeanValue [Field K] (m : Multiset K) (r : Except PyErr K) : Prop :=
  ReadsNonempty .zeroDivision meanOf m r

/-- Population variance; division by zero without values. -/
def VarianceValue [Field K] (m : Multiset K) (r : Except PyErr K) : Prop :=
  ReadsNonempty .zeroDivision varianceOf m r

/-- Maximum; `none` is `-inf`. -/
def MaxValue [LinearOrder K] (m : Multiset K) (r : Except PyErr (Option K)) : Prop :=
  ∃ g, IsGreatestOf m g ∧ r = .ok g

/-- Minimum; `none` is `+inf`. -/
def MinValue [LinearOrder K] (m : Multiset K) (r : Except PyErr (Option K)) : Prop :=
  ∃ g, IsLeastOf m g ∧ r = .ok g

/-- Median; `IndexError` without values. -/
def MedianValue [Field K] [LinearOrder K] (m : Multiset K) (r : Except PyErr K) : Prop :=
  (m = 0 ∧ r = .error .indexError) ∨ ∃ b, medianOf m = some b ∧ r = .ok b

end Pysad.Spec
