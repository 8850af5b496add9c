import Verif.Prelude

/-! Specification vocabulary.  Nothing here mentions the model. -/

namespace Pysad.Spec

/-- The last `w` items of a list (all of them if there are fewer). -/
def lastN {α : Type*} (w : ℕ) (l : List α) : List α := l.drop (l.length - w)

section Values
variable {K : Type*}

/-- Arithmetic mean of a bag of numbers, undefined (division by zero) for the
empty bag. -/
def meanOf [Field K] (m : Multiset K) : K := m.sum / (m.card : K)

/-- Mean squared deviation from the mean. -/
def varianceOf [Field K] (m : Multiset K) : K :=
  (m.map fun x => (x - meanOf m) ^ 2).sum / (m.card : K)

/-- The middle element of the sorted values, or the mean of the two middle
ones. `none` for the empty bag. -/
def medianOf [Field K] [LinearOrder K] (m : Multiset K) : Option K :=
  let l := m.sort (· ≤ ·)
  if l.length % 2 = 1 then l[l.length / 2]?
  else
    match l[l.length / 2 - 1]?, l[l.length / 2]? with
    | some a, some b => some ((a + b) / 2)
    | _, _ => none

/-- `g` is a greatest element of the bag; `none` stands for `-inf`, the value
of the empty bag. -/
def IsGreatestOf [LinearOrder K] (m : Multiset K) : Option K → Prop
  | none => m = 0
  | some g => g ∈ m ∧ ∀ x ∈ m, x ≤ g

/-- `g` is a least element of the bag; `none` stands for `+inf`, the value of
the empty bag. -/
def IsLeastOf [LinearOrder K] (m : Multiset K) : Option K → Prop
  | none => m = 0
  | some g => g ∈ m ∧ ∀ x ∈ m, g ≤ x

end Values

/-! Histories of calls on a statistic object. -/

/-- One call on a statistic. -/
inductive Op (α : Type*) where
  | update (x : α)
  | remove (x : α)
  | get

/-- What the caller of one such call sees. -/
inductive Outcome (β : Type*) where
  | done
  | value (b : β)
  | raised (e : PyErr)
  deriving DecidableEq, Repr

variable {α β : Type*} [DecidableEq α]

/-- The values present after a history, started with the bag `m`: each update
adds its value, each remove takes one occurrence of its value away (nothing if
there is none). -/
def live (m : Multiset α) : List (Op α) → Multiset α
  | [] => m
  | .update x :: h => live (x ::ₘ m) h
  | .remove x :: h => live (m.erase x) h
  | .get :: h => live m h

/-- A history is legal if it only removes values that are present. -/
def Legal (m : Multiset α) : List (Op α) → Prop
  | [] => True
  | .update x :: h => Legal (x ::ₘ m) h
  | .remove x :: h => x ∈ m ∧ Legal (m.erase x) h
  | .get :: h => Legal m h

/-- The outcomes of an ideal statistic which stores a bag of values: `V m r`
says that reading the statistic of bag `m` may yield `r`. Removing an absent
value raises `ValueError` and changes nothing. -/
inductive IdealTrace (V : Multiset α → Except PyErr β → Prop) :
    Multiset α → List (Op α) → List (Outcome β) → Prop
  | nil (m) : IdealTrace V m [] []
  | update (m x h o) : IdealTrace V (x ::ₘ m) h o →
      IdealTrace V m (.update x :: h) (.done :: o)
  | remove (m x h o) : x ∈ m → IdealTrace V (m.erase x) h o →
      IdealTrace V m (.remove x :: h) (.done :: o)
  | removeAbsent (m x h o) : x ∉ m → IdealTrace V m h o →
      IdealTrace V m (.remove x :: h) (.raised .valueError :: o)
  | value (m b h o) : V m (.ok b) → IdealTrace V m h o →
      IdealTrace V m (.get :: h) (.value b :: o)
  | fails (m e h o) : V m (.error e) → IdealTrace V m h o →
      IdealTrace V m (.get :: h) (.raised e :: o)

end Pysad.Spec
