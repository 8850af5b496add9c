import Verif.Spec.Basic

/-! Specification of "one call per item, in order". -/

namespace Pysad.Spec

/-- Call `f` on the items one after the other on the same object, collecting the
results; stop at the first exception. -/
def inOrder {σ ι α : Type*} (f : σ → ι → Res σ α) (s : σ) : List ι → Res σ (List α)
  | [] => .ok [] s
  | i :: is =>
    match f s i with
    | .err e s' => .err e s'
    | .ok a s' =>
      match inOrder f s' is with
      | .err e s'' => .err e s''
      | .ok as s'' => .ok (a :: as) s''

/-- Forget the returned value. -/
def dropValue {σ α : Type*} : Res σ α → Res σ Unit
  | .ok _ s => .ok () s
  | .err e s => .err e s

/-- The pairs (instance, label) of a dataset; every label is `None` without
labels. -/
def pairs {α β : Type*} (X : List α) : Option (List β) → List (α × Option β)
  | none => X.map fun x => (x, none)
  | some y => X.zip (y.map some)

/-- A dataset is well-formed if there are no labels or one per instance. -/
def WellFormed {α β : Type*} (X : List α) : Option (List β) → Prop
  | none => True
  | some y => X.length = y.length

end Pysad.Spec
