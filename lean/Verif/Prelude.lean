import Mathlib.Tactic.Ring
import Mathlib.Tactic.Linarith
import Mathlib.Tactic.FieldSimp
import Mathlib.Tactic.Positivity
import Mathlib.Tactic.NormNum
import Mathlib.Tactic.Push
import Mathlib.Tactic.GCongr
import Mathlib.Tactic.IntervalCases
import Mathlib.Data.Multiset.Sort
import Mathlib.Data.List.Sort
import Mathlib.Data.List.TakeDrop
import Mathlib.Algebra.BigOperators.Group.Multiset.Basic
import Mathlib.Algebra.BigOperators.Ring.Multiset
import Mathlib.Algebra.Order.BigOperators.Group.Multiset
import Mathlib.Algebra.Order.BigOperators.Group.List
import Mathlib.Algebra.Order.Field.Basic
import Mathlib.Algebra.Order.Ring.Abs

/-! Mathlib imports shared by the whole development, and the notions of Python
that every model file uses: exceptions, and computations that may raise and
whose effects on the object persist when they do. -/

namespace Pysad

/-- The Python exceptions that the modelled code can raise. -/
inductive PyErr where
  | zeroDivision
  | indexError
  | valueError
  | typeError
  | attributeError
  | keyError
  | assertionError
  | nameError
  | linAlgError
  | other
  deriving DecidableEq, Repr

/-- Result of calling a Python method on an object with state `σ`: it returns a
value or raises; in both cases the object is left in some state. -/
inductive Res (σ : Type*) (α : Type*) where
  | ok (a : α) (s : σ)
  | err (e : PyErr) (s : σ)
  deriving DecidableEq, Repr

namespace Res

variable {σ τ α β : Type*}

/-- The state the object is left in. -/
def state : Res σ α → σ
  | ok _ s => s
  | err _ s => s

/-- What the caller sees: a value or an exception. -/
def out : Res σ α → Except PyErr α
  | ok a _ => .ok a
  | err e _ => .error e

/-- Sequencing: `k` runs in the state left by the first computation, unless it
raised. -/
def bind (r : Res σ α) (k : α → σ → Res σ β) : Res σ β :=
  match r with
  | ok a s => k a s
  | err e s => err e s

/-- Embed the state of a sub-object into that of the object owning it. -/
def mapState (f : σ → τ) : Res σ α → Res τ α
  | ok a s => ok a (f s)
  | err e s => err e (f s)

/-- Apply a function to the returned value. -/
def map (f : α → β) : Res σ α → Res σ β
  | ok a s => ok (f a) s
  | err e s => err e s

@[simp] theorem bind_ok (a : α) (s : σ) (k : α → σ → Res σ β) : (ok a s).bind k = k a s := rfl
@[simp] theorem bind_err (e) (s : σ) (k : α → σ → Res σ β) : (err e s).bind k = err e s := rfl
@[simp] theorem mapState_ok (f : σ → τ) (a : α) (s : σ) : (ok a s).mapState f = ok a (f s) := rfl
@[simp] theorem mapState_err (f : σ → τ) (e) (s : σ) :
    (err e s : Res σ α).mapState f = err e (f s) := rfl
@[simp] theorem map_ok (f : α → β) (a : α) (s : σ) : (ok a s).map f = ok (f a) s := rfl
@[simp] theorem map_err (f : α → β) (e) (s : σ) : (err e s : Res σ α).map f = err e s := rfl
@[simp] theorem state_ok (a : α) (s : σ) : (ok a s).state = s := rfl
@[simp] theorem state_err (e) (s : σ) : (err e s : Res σ α).state = s := rfl
@[simp] theorem out_ok (a : α) (s : σ) : (ok a s).out = .ok a := rfl
@[simp] theorem out_err (e) (s : σ) : (err e s : Res σ α).out = .error e := rfl

end Res

/-- Lift an exception-or-value that does not touch the state. -/
def Res.ofExcept {σ α : Type*} (x : Except PyErr α) (s : σ) : Res σ α :=
  match x with
  | .ok a => .ok a s
  | .error e => .err e s

@[simp] theorem Res.ofExcept_ok {σ α : Type*} (a : α) (s : σ) :
    Res.ofExcept (.ok a) s = .ok a s := rfl
@[simp] theorem Res.ofExcept_error {σ α : Type*} (e : PyErr) (s : σ) :
    (Res.ofExcept (.error e) s : Res σ α) = .err e s := rfl

/-- Python's `lst[i]` for an integer `i`: negative indices count from the end,
anything else out of range raises `IndexError`. -/
def pyIndex {α : Type*} (l : List α) (i : Int) : Except PyErr α :=
  let j := if i < 0 then i + l.length else i
  if j < 0 then .error .indexError
  else match l[j.toNat]? with
    | some a => .ok a
    | none => .error .indexError

/-- Python's `lst[1:]`. -/
abbrev pyTail {α : Type*} (l : List α) : List α := l.drop 1

/-- Python's `sorted(lst)`: a stable sort that only uses `<`. -/
def pySorted {α : Type*} [LT α] [DecidableLT α] (l : List α) : List α :=
  l.insertionSort (fun a b => ¬ b < a)

/-- Python's `lst.remove(x)`: removes the first occurrence, `ValueError` if
there is none. -/
def pyRemove {α : Type*} [DecidableEq α] (l : List α) (x : α) : Except PyErr (List α) :=
  if x ∈ l then .ok (l.erase x) else .error .valueError

end Pysad
