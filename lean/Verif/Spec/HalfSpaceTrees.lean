import Verif.Model.HalfSpaceTrees

/-! Regions of a half-space tree and windows of a stream, for C52-C54. -/

namespace Pysad.Spec

variable {K : Type*} [Field K] [LinearOrder K]

/-- Feature `q` of an instance. -/
def feature (x : List K) (q : ℕ) : K := x.getD q 0

/-- The cell of depth `j` that `x` falls in, as the sequence of turns from the root
(`true`: the right half, `x[att] > split`). Masses play no part. -/
def cell : HsTree K → ℕ → List K → List Bool
  | .node left right _ _ q p _, j + 1, x =>
    if p < feature x q then true :: cell right j x else false :: cell left j x
  | _, _, _ => []

/-- The node reached from the root by a sequence of turns. -/
def nodeAt : HsTree K → List Bool → HsTree K
  | t, [] => t
  | .node left right _ _ _ _ _, b :: a => nodeAt (if b then right else left) a
  | .nil, _ :: _ => .nil

/-- A complete binary tree with `rem` levels below its root, whose root is at depth `k`
and whose inner nodes split one of `dims` features. -/
def Complete (dims : ℕ) : ℕ → ℕ → HsTree K → Prop
  | _, _, .nil => False
  | 0, k, .node left right _ _ q _ k' => left = .nil ∧ right = .nil ∧ k' = k ∧ q = 0
  | rem + 1, k, .node left right _ _ q _ k' =>
    k' = k ∧ q < dims ∧ Complete dims rem (k + 1) left ∧ Complete dims rem (k + 1) right

/-- The last completed window of a stream cut in windows of `w`; all of the stream
while the first window is not complete. -/
def referenceWindow {α : Type*} (w : ℕ) (X : List α) : List α :=
  if X.length < w then X else (X.drop ((X.length / w - 1) * w)).take w

/-- The instances after the last completed window. -/
def currentWindow {α : Type*} (w : ℕ) (X : List α) : List α := X.drop (X.length / w * w)

/-- The box `lo ≤ x ≤ hi` of the node reached by a sequence of turns, when the box of
the root is given: each turn cuts the box at the node's split. -/
def boxAt : HsTree K → List K → List K → List Bool → List K × List K
  | .node left right _ _ q p _, lo, hi, b :: a =>
    if b then boxAt right (lo.set q p) hi a else boxAt left lo (hi.set q p) a
  | _, lo, hi, _ => (lo, hi)

/-- `x` lies in the closed box. -/
def InBox (x lo hi : List K) : Prop := ∀ (j : ℕ) (v a b : K),
  x[j]? = some v → lo[j]? = some a → hi[j]? = some b → a ≤ v ∧ v ≤ b

/-- Box `(lo', hi')` lies inside box `(lo, hi)`. -/
def SubBox (lo' hi' lo hi : List K) : Prop :=
  ∀ (j : ℕ) (a b a' b' : K), lo[j]? = some a → hi[j]? = some b → lo'[j]? = some a' → hi'[j]? = some b' →
    a ≤ a' ∧ a' ≤ b' ∧ b' ≤ b

end Pysad.Spec
