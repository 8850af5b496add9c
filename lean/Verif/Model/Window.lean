import Verif.Prelude

/-! Model of `pysad/utils/window.py`. -/

namespace Pysad

/-- `pysad/utils/window.py` l.3-12, class `Window`: attributes `window_size` and
`window`. -/
structure Window (α : Type*) where
  windowSize : ℕ
  window : List α
  deriving DecidableEq, Repr

namespace Window
variable {α : Type*}

/-- `Window.__init__`, `pysad/utils/window.py` l.10-12. -/
def new (windowSize : ℕ) : Window α := ⟨windowSize, []⟩

/-- `Window.update`, `pysad/utils/window.py` l.14-22. -/
def update (s : Window α) (num : α) : Window α :=
  let w := s.window ++ [num]
  if w.length > s.windowSize then { s with window := pyTail w } else { s with window := w }

/-- `Window.get`, `pysad/utils/window.py` l.24-30 (contents only; see
`WindowHeap` for the identity of the returned list). -/
def get (s : Window α) : List α := s.window

/-- Repeated `update`. -/
def updates (s : Window α) (xs : List α) : Window α := xs.foldl update s

end Window

/-- `UnlimitedWindow`, `pysad/utils/window.py` l.33-38. -/
structure UnlimitedWindow (α : Type*) where
  window : List α
  deriving DecidableEq, Repr

namespace UnlimitedWindow
variable {α : Type*}

/-- `UnlimitedWindow.__init__`, `pysad/utils/window.py` l.37-38. -/
def new : UnlimitedWindow α := ⟨[]⟩

/-- `UnlimitedWindow.update`, `pysad/utils/window.py` l.40-46. -/
def update (s : UnlimitedWindow α) (num : α) : UnlimitedWindow α := ⟨s.window ++ [num]⟩

/-- `Window.get` inherited, `pysad/utils/window.py` l.24-30. -/
def get (s : UnlimitedWindow α) : List α := s.window

/-- Repeated `update`. -/
def updates (s : UnlimitedWindow α) (xs : List α) : UnlimitedWindow α := xs.foldl update s

end UnlimitedWindow

/-! ### The same class with Python's object identity

A store maps list identities to contents; the object holds the identity of its
list. `append` changes the list in place, a slice creates a new list. -/

/-- A store of Python lists: list identities are `0, 1, ..., next - 1`. -/
structure ListStore (α : Type*) where
  next : ℕ
  contents : ℕ → List α

/-- `Window` holding a reference to its list (`pysad/utils/window.py` l.10-12). -/
structure WindowRef where
  windowSize : ℕ
  ref : ℕ

namespace WindowRef
variable {α : Type*}

/-- `Window.__init__` with the list allocated in the store, l.10-12. -/
def new (st : ListStore α) (windowSize : ℕ) : WindowRef × ListStore α :=
  (⟨windowSize, st.next⟩, ⟨st.next + 1, Function.update st.contents st.next []⟩)

/-- `Window.update`, l.14-22: `append` in place, then possibly a fresh slice. -/
def update (w : WindowRef) (st : ListStore α) (num : α) : WindowRef × ListStore α :=
  let c := st.contents w.ref ++ [num]
  let st := { st with contents := Function.update st.contents w.ref c }
  if c.length > w.windowSize then
    (⟨w.windowSize, st.next⟩, ⟨st.next + 1, Function.update st.contents st.next (pyTail c)⟩)
  else (w, st)

/-- `Window.get`, l.24-30: the reference itself. -/
def get (w : WindowRef) : ℕ := w.ref

/-- Repeated `update`. -/
def updates (w : WindowRef) (st : ListStore α) : List α → WindowRef × ListStore α
  | [] => (w, st)
  | x :: xs => let (w', st') := w.update st x; updates w' st' xs

end WindowRef

end Pysad
