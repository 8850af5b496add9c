import Verif.Model.Window
import Verif.Model.Statistics
import Verif.Model.Metrics

/-! Objects shared by several threads. pysad has no locks: what `update` does to an object is a sequence of
indivisible steps (a load of an attribute into a variable of the thread, a store, a call of a method
implemented in C), and another thread may run between any two of them. The number of threads and the order
in which they run are arbitrary. -/

namespace Pysad

/-- An indivisible step of a thread: it reads and writes the shared object (`σ`) and variables of its own
(`ρ`). -/
abbrev Atom (σ ρ : Type*) := σ × ρ → σ × ρ

/-- The shared object, the steps each thread still has to take, and the variables of each thread. -/
structure Threads (σ ρ : Type*) where
  shared : σ
  todo : ℕ → List (Atom σ ρ)
  vars : ℕ → ρ

namespace Threads
variable {σ ρ ι : Type*}

/-- Thread `i` takes its next step (if it has one). -/
def step (t : Threads σ ρ) (i : ℕ) : Threads σ ρ :=
  match t.todo i with
  | [] => t
  | a :: rest =>
    { shared := (a (t.shared, t.vars i)).1
      todo := Function.update t.todo i rest
      vars := Function.update t.vars i (a (t.shared, t.vars i)).2 }

/-- The threads take steps in the order given by the scheduler. -/
def run (t : Threads σ ρ) (schedule : List ℕ) : Threads σ ρ := schedule.foldl step t

/-- Thread `i` makes the calls `calls i`, one after the other; `atoms q` are the steps of the call `q`. -/
def start (atoms : ι → List (Atom σ ρ)) (s : σ) (r : ρ) (calls : ℕ → List ι) : Threads σ ρ :=
  { shared := s, todo := fun i => (calls i).flatMap atoms, vars := fun _ => r }

/-- All threads have made all their calls. -/
def Finished (t : Threads σ ρ) : Prop := ∀ i, t.todo i = []

end Threads

/-- The steps of one call, taken without interruption. -/
def runAtoms {σ ρ : Type*} (atoms : List (Atom σ ρ)) (x : σ × ρ) : σ × ρ := atoms.foldl (fun x a => a x) x

namespace Atoms
variable {K α : Type*}

/-- `CountMeter.update`, `pysad/statistics/count_meter.py` l.23: load and store of `count`. -/
def count (_ : α) : List (Atom ℤ ℤ) := [fun x => (x.1, x.1), fun x => (x.2 + 1, x.2)]

/-- `AverageMeter.update` and `SumMeter.update`, `average_meter.py` and `sum_meter.py`, both l.25-26: load and
store of `sum`, load and store of `num_items`. -/
def sum [Add K] (num : K) : List (Atom (AverageState K) (K × ℤ)) :=
  [fun x => (x.1, (x.1.sum, x.2.2)), fun x => ({ x.1 with sum := x.2.1 + num }, x.2),
   fun x => (x.1, (x.2.1, x.1.numItems)), fun x => ({ x.1 with numItems := x.2.2 + 1 }, x.2)]

/-- `MaxMeter.update`, `max_meter.py` l.30-33: the comparison, the store of `max`, `heappush`. -/
def maximum [LT K] [DecidableLT K] (num : K) : List (Atom (ExtremeState K) Bool) :=
  [fun x => (x.1, match x.1.ext with
      | none => true
      | some m => decide (m < num)),
   fun x => (if x.2 then { x.1 with ext := some num } else x.1, x.2),
   fun x => ({ x.1 with lst := heappush x.1.lst num }, x.2)]

/-- `UnlimitedWindow.update`, `pysad/utils/window.py` l.46 (`self.window` is never bound anew). -/
def unlimited (num : α) : List (Atom (UnlimitedWindow α) Unit) := [fun x => (⟨x.1.window ++ [num]⟩, x.2)]

/-- `Window.update`, `window.py` l.20-22. The variables of the thread are a reference to a list and the
result of the test. -/
def window (num : α) : List (Atom (WindowRef × ListStore α) (ℕ × Bool)) :=
  [fun x => (x.1, (x.1.1.ref, x.2.2)),
   fun x => ((x.1.1, { x.1.2 with
      contents := Function.update x.1.2.contents x.2.1 (x.1.2.contents x.2.1 ++ [num]) }), x.2),
   fun x => (x.1, (x.1.1.ref, x.2.2)),
   fun x => (x.1, (x.2.1, decide ((x.1.2.contents x.2.1).length > x.1.1.windowSize))),
   fun x => (x.1, (if x.2.2 then x.1.1.ref else x.2.1, x.2.2)),
   fun x => if x.2.2 then ((x.1.1, ⟨x.1.2.next + 1, Function.update x.1.2.contents x.1.2.next
      (pyTail (x.1.2.contents x.2.1))⟩), (x.1.2.next, x.2.2)) else x,
   fun x => if x.2.2 then (({ x.1.1 with ref := x.2.1 }, x.1.2), x.2) else x]

/-- `BaseSKLearnMetric.update`, `pysad/evaluation/metrics.py` l.21-22 (the two lists are never bound anew). -/
def sklearn {Y P : Type*} (q : Y × P) : List (Atom (List Y × List P) Unit) :=
  [fun x => ((x.1.1 ++ [q.1], x.1.2), x.2), fun x => ((x.1.1, x.1.2 ++ [q.2]), x.2)]

end Atoms

/-! ### One thread updates, others read -/

/-- The variables of a thread: those of `update`, what a running `get` has loaded so far, and the answers of
`get` that were returned to it. -/
structure ReaderVars (ρ τ β : Type*) where
  own : ρ
  loaded : Option τ
  answers : List β

/-- A call by a thread. -/
inductive SharedCall (ι : Type*) where
  | update (q : ι)
  | get

namespace Atoms
variable {σ ρ τ β ι : Type*}

/-- A step of `update`. -/
def lift (a : Atom σ ρ) : Atom σ (ReaderVars ρ τ β) := fun x =>
  ((a (x.1, x.2.own)).1, { x.2 with own := (a (x.1, x.2.own)).2 })

/-- A `get` that loads something, then perhaps something else, and returns what it computes from both. -/
def get (first : σ → τ) (second : τ → σ → β) : List (Atom σ (ReaderVars ρ τ β)) :=
  [fun x => (x.1, { x.2 with loaded := some (first x.1) }),
   fun x => (x.1, { x.2 with loaded := none, answers := match x.2.loaded with
      | none => x.2.answers
      | some v => x.2.answers ++ [second v x.1] })]

/-- The steps of both calls. -/
def shared (atoms : ι → List (Atom σ ρ)) (first : σ → τ) (second : τ → σ → β) :
    SharedCall ι → List (Atom σ (ReaderVars ρ τ β))
  | .update q => (atoms q).map lift
  | .get => get first second

end Atoms

/-- Thread 0 updates the object with `xs`; every other thread `i` calls `get` `reads i` times. -/
def oneWriter {ι : Type*} (xs : List ι) (reads : ℕ → ℕ) (i : ℕ) : List (SharedCall ι) :=
  if i = 0 then xs.map .update else List.replicate (reads i) .get

namespace Reads
variable {K Y P : Type*}

/-- `CountMeter.get`, `count_meter.py` l.46: loads `count`. -/
def count (s : ℤ) : ℤ := s
/-- `SumMeter.get`, `sum_meter.py` l.50, and the first load of `AverageMeter.get`, `average_meter.py` l.50:
`sum`. -/
def sum (s : AverageState K) : K := s.sum
/-- The second load of `AverageMeter.get`, `average_meter.py` l.50: `num_items`, and the division. -/
def average [Zero K] [Add K] [Sub K] [Div K] [IntCast K] (sum : K) (s : AverageState K) : Except PyErr K :=
  ((averageMeter K).get ⟨sum, s.numItems⟩).out
/-- `MaxMeter.get`, `max_meter.py` l.62: loads `max`. -/
def maximum (s : ExtremeState K) : Option K := s.ext
/-- `BaseSKLearnMetric.get`, `pysad/evaluation/metrics.py` l.30-32: scikit-learn looks at `y_true`, then at
`y_pred`. (Simplified: it looks at each list once.) -/
def metric (evaluate : List Y → List P → Except PyErr K) (yTrue : List Y) (s : List Y × List P) : Except PyErr K :=
  evaluate yTrue s.2

end Reads

/-- `MedianMeter.update`, `median_meter.py` l.26-27, and `get`, l.51-55, which stores a sorted copy. The
variables are the loaded number of items, the sorted copy, and the answers. (`heappush(self.lst, num)` is
one step here, so that there are fewer schedules than in the program; the reads after l.51 are one step.) -/
def Atoms.median {K : Type*} [LT K] [DecidableLT K] [DecidableEq K] [Add K] [Div K] [IntCast K] :
    SharedCall K → List (Atom (MedianState K) (ℤ × List K × List (Except PyErr K)))
  | .update num =>
    [fun x => ({ x.1 with lst := heappush x.1.lst num }, x.2),
     fun x => (x.1, (x.1.numItems, x.2.2)),
     fun x => ({ x.1 with numItems := x.2.1 + 1 }, x.2)]
  | .get =>
    [fun x => (x.1, (x.2.1, pySorted x.1.lst, x.2.2.2)),
     fun x => ({ x.1 with lst := x.2.2.1 }, x.2),
     fun x => (x.1, (x.2.1, x.2.2.1, x.2.2.2 ++ [((medianMeter K).get x.1).out]))]

end Pysad
