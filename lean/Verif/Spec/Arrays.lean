import Verif.Spec.Calls
import Mathlib.Logic.Function.Basic

/-! Callers that pass arrays by reference and may write to them later. -/

namespace Pysad.Spec

/-- What a caller with arrays at addresses `0, 1, …` can do: write to an array, or pass one to
a detector. -/
inductive Event (α β : Type*) where
  | write (a : ℕ) (v : α)
  | fit (a : ℕ) (y : Option β)
  | score (a : ℕ)

variable {σ α β S : Type*}

/-- The answers of a detector that is given references; `D h` is what it does while the arrays
have the contents `h`. -/
def runRefs (D : (ℕ → α) → Detector σ ℕ β S) : (ℕ → α) → σ → List (Event α β) → List (Answer S)
  | _, _, [] => []
  | h, s, .write a v :: es => runRefs D (Function.update h a v) s es
  | h, s, .fit a y :: es => (call (D h) s (.fit a y)).1 :: runRefs D h (call (D h) s (.fit a y)).2 es
  | h, s, .score a :: es => (call (D h) s (.score a)).1 :: runRefs D h (call (D h) s (.score a)).2 es

/-- The calls with the contents that the arrays had at the time of the call. -/
def valueCalls : (ℕ → α) → List (Event α β) → List (Call α β)
  | _, [] => []
  | h, .write a v :: es => valueCalls (Function.update h a v) es
  | h, .fit a y :: es => .fit (h a) y :: valueCalls h es
  | h, .score a :: es => .score (h a) :: valueCalls h es

/-- The detector keeps what it was given: writing to an array after it was passed does not matter,
all answers are those for the contents at the time of the call (`d` started in `s'` says what these
are). -/
def KeepsItsData (D : (ℕ → α) → Detector σ ℕ β S) (s : σ) {σ' : Type*} (d : Detector σ' α β S)
    (s' : σ') : Prop :=
  ∀ (h : ℕ → α) (es : List (Event α β)), runRefs D h s es = (calls d s' (valueCalls h es)).1

/-- The caller never writes to an array it has passed to `fit_partial` before (`P` are those passed
so far). -/
def Fresh : List ℕ → List (Event α β) → Prop
  | _, [] => True
  | P, .write a _ :: es => a ∉ P ∧ Fresh P es
  | P, .fit a _ :: es => Fresh (a :: P) es
  | P, .score _ :: es => Fresh P es

end Pysad.Spec
