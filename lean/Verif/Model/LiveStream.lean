import Verif.Prelude

/-! Model of `pysad/utils/array_streamer.py` as an iterator object that is advanced while the caller
goes on working with the arrays. -/

namespace Pysad

namespace LiveStream
variable {ι : Type*}

/-- The generator object returned by `ArrayStreamer.iter`: nothing has run before the first `next()`;
then the indices still to visit; then finished. -/
inductive Iter where
  | fresh
  | running (indices : List ℕ)
  | finished
  deriving DecidableEq, Repr

/-- What `next()` does. -/
inductive Delivered (ι : Type*) where
  | item (a : ι)
  | stopIteration
  | raised (e : PyErr)
  deriving DecidableEq, Repr

/-- From l.27 (or l.31) of `array_streamer.py` to the next `yield`, with the present contents of the
arrays (a list of rows, with their labels if there are any). -/
def resume : List ℕ → List ι → Delivered ι × Iter
  | [], _ => (.stopIteration, .finished)
  | i :: is, X =>
    match X[i]? with
    | some a => (.item a, .running is)
    | none => (.raised .indexError, .finished)

/-- `next()` on the generator, `array_streamer.py` l.22-32. `shuffled n` are the indices
`0, …, n - 1` in the order left by l.22-24. -/
def next (shuffled : ℕ → List ℕ) : Iter → List ι → Delivered ι × Iter
  | .fresh, X => resume (shuffled X.length) X
  | .running is, X => resume is X
  | .finished, _ => (.stopIteration, .finished)

/-- What the caller can do: take the next item, or write to a row of the array (`X[i] = a`). -/
inductive Act (ι : Type*) where
  | next
  | write (i : ℕ) (a : ι)
  deriving DecidableEq, Repr

/-- Everything delivered during the given actions, the array and the generator afterwards. -/
def run (shuffled : ℕ → List ℕ) : Iter → List ι → List (Act ι) → List (Delivered ι) × List ι × Iter
  | it, X, [] => ([], X, it)
  | it, X, .write i a :: acts => run shuffled it (X.set i a) acts
  | it, X, .next :: acts =>
    let d := next shuffled it X
    let r := run shuffled d.2 X acts
    (d.1 :: r.1, r.2)

end LiveStream

end Pysad
