import Verif.Prelude

/-! Model of `pysad/utils/array_streamer.py`, `pysad/utils/pandas_streamer.py`,
`pysad/utils/__init__.py:_iterate` and of the generator protocol they use, and
of `pysad/utils/data.py`. -/

namespace Pysad

/-- What a Python generator does when it is driven to its end: it yields items
one after the other, then returns or raises. Nothing happens before the first
`next()`. -/
inductive Gen (ι : Type*) where
  | stop
  | raise (e : PyErr)
  | yield (a : ι) (rest : Gen ι)
  deriving DecidableEq, Repr

namespace Gen
variable {ι κ : Type*}

/-- A generator that re-yields the items of another one, transformed. -/
def map (f : ι → κ) : Gen ι → Gen κ
  | stop => stop
  | raise e => raise e
  | yield a r => yield (f a) (map f r)

/-- Consume a generator completely, e.g. `list(g)`. -/
def toList : Gen ι → Except PyErr (List ι)
  | stop => .ok []
  | raise e => .error e
  | yield a r =>
    match toList r with
    | .ok l => .ok (a :: l)
    | .error e => .error e

/-- `for a in g: body(a)`: the body changes an object of state `σ`. The results
of the body are collected. An exception in the body or in the generator ends the
loop and leaves the object as it is at that moment. -/
def forEach {σ α : Type*} (body : σ → ι → Res σ α) : σ → Gen ι → Res σ (List α)
  | s, stop => .ok [] s
  | s, raise e => .err e s
  | s, yield a r =>
    (body s a).bind fun b s => (forEach body s r).map fun bs => b :: bs

end Gen

namespace ArrayStreamer
variable {α β : Type*}

/-- `ArrayStreamer.iter(X)` without labels, `pysad/utils/array_streamer.py`
l.22-28; `indices` is `list(range(len(X)))` or a shuffle of it. -/
def iterX (indices : List ℕ) (X : List α) : Gen α :=
  match indices with
  | [] => .stop
  | i :: is =>
    match X[i]? with
    | none => .raise .indexError
    | some x => .yield x (iterX is X)

/-- The loop of `ArrayStreamer.iter(X, y)`, l.31-32. -/
def loopXY (indices : List ℕ) (X : List α) (y : List β) : Gen (α × β) :=
  match indices with
  | [] => .stop
  | i :: is =>
    match X[i]?, y[i]? with
    | some x, some yi => .yield (x, yi) (loopXY is X y)
    | _, _ => .raise .indexError

/-- `ArrayStreamer.iter(X, y)` with labels, l.22-25 and l.30-32. -/
def iterXY (indices : List ℕ) (X : List α) (y : List β) : Gen (α × β) :=
  if X.length ≠ y.length then .raise .assertionError else loopXY indices X y

end ArrayStreamer

/-- `_iterate(X, y)`, `pysad/utils/__init__.py` l.54-69: an unshuffled
`ArrayStreamer`, pairing with `None` without labels. -/
def iterate {α β : Type*} (X : List α) (y : Option (List β)) : Gen (α × Option β) :=
  match y with
  | none => (ArrayStreamer.iterX (List.range X.length) X).map fun x => (x, none)
  | some y => (ArrayStreamer.iterXY (List.range X.length) X y).map fun p => (p.1, some p.2)

namespace PandasStreamer
variable {α β : Type*}

/-- A data frame: row labels (the index) and row values. `to_numpy()` gives the
values in order. -/
structure Frame (α : Type*) where
  index : List ℕ
  values : List α

/-- `PandasStreamer.iter(X)`, `pysad/utils/pandas_streamer.py` l.24-26. -/
def iterX (indices : List ℕ) (X : Frame α) : Gen α :=
  (ArrayStreamer.iterX indices X.values).map id

/-- `PandasStreamer.iter(X, y)`, l.27-31. -/
def iterXY (indices : List ℕ) (X : Frame α) (y : Frame β) : Gen (α × β) :=
  if X.values.length ≠ y.values.length then .raise .assertionError
  else (ArrayStreamer.iterXY indices X.values y.values).map id

end PandasStreamer

/-! ### The global random number generator -/

/-- `numpy.random`'s global generator: what seeding and shuffling do. -/
structure Rng (γ : Type*) where
  seed : ℕ → γ
  shuffle : γ → List ℕ → List ℕ × γ

/-- The indices visited by `ArrayStreamer.iter`, l.22-24, and the generator
state afterwards. -/
def ArrayStreamer.indices {γ : Type*} (r : Rng γ) (shuffle : Bool) (g : γ) (n : ℕ) : List ℕ × γ :=
  if shuffle then r.shuffle g (List.range n) else (List.range n, g)

namespace Data

/-- A numpy array as returned by `np.loadtxt`: axes of length one are squeezed
away. -/
inductive LoadedTxt (α : Type*) where
  | scalarOrEmpty
  | vector (v : List α)
  | matrix (rows : List (List α))

/-- `np.loadtxt(path, delimiter=",")` on a rectangular table, as used in
`Data._load_via_txt`, `pysad/utils/data.py` l.47-58. -/
def loadViaTxt {α : Type*} (table : List (List α)) : LoadedTxt α :=
  match table with
  | [] => .scalarOrEmpty
  | [[_]] => .scalarOrEmpty
  | [row] => .vector row
  | rows => if rows.all (fun r => r.length == 1) then .vector rows.flatten else .matrix rows

/-- `Data.get_data` on a text file, `pysad/utils/data.py` l.80-85: `X[:, -1]` and
`X[:, :-1]`. Indexing an array that is not two-dimensional this way raises
`IndexError`, and so does `X[:, -1]` without columns. -/
def getDataTxt {α : Type*} (table : List (List α)) : Except PyErr (List (List α) × List α) :=
  match loadViaTxt table with
  | .scalarOrEmpty => .error .indexError
  | .vector _ => .error .indexError
  | .matrix rows =>
    match rows.mapM List.getLast? with
    | none => .error .indexError
    | some y => .ok (rows.map List.dropLast, y)

/-- `Data.get_iterator`, `pysad/utils/data.py` l.87-106, at the moment of the
call: the generator is seeded, and the returned object is a Python generator
that will shuffle (using the global RNG) only when it is first advanced. -/
def getIterator {γ α β : Type*} (r : Rng γ) (shuffle : Bool) (seed : Option ℕ) (g : γ)
    (data : List α × List β) : (γ → Gen (α × β) × γ) × γ :=
  let g := match seed with
    | some s => r.seed s
    | none => g
  (fun g' =>
    let (idx, g'') := ArrayStreamer.indices r shuffle g' data.1.length
    (ArrayStreamer.iterXY idx data.1 data.2, g''), g)

end Data

end Pysad
