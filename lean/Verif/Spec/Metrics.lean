import Verif.Spec.Basic
import Verif.Model.Metrics

/-! Specification of windowed evaluation. -/

namespace Pysad.Spec

variable {α K : Type*}

/-- The consecutive complete windows of `w` items. -/
def windowsOf (w : ℕ) (l : List α) : List (List α) :=
  (List.range (l.length / w)).map fun k => (l.drop (k * w)).take w

/-- The items after the last complete window. -/
def restOf (w : ℕ) (l : List α) : List α := l.drop (l.length / w * w)

/-- Windowed evaluation where the first window is evaluated with `first` and all
later ones with `later`. -/
def windowedValue [Field K] (first later : List α → K) (w : ℕ) (ignoreNonemptyLast : Bool)
    (l : List α) : K :=
  match windowsOf w l with
  | [] => first l
  | win :: wins =>
    let scores := first win :: wins.map later
    if ignoreNonemptyLast ∨ restOf w l = [] then meanOf (scores : Multiset K)
    else meanOf (scores ++ [later (restOf w l)] : List K)

/-- A metric object built with keyword arguments `k` never raises on nonempty
histories and reports the function `val` of its history. -/
structure MetricSpec {κ σ Y P V : Type*} (mc : MetricClass κ σ Y P V) (k : κ)
    (val : List (Y × P) → V) where
  R : List (Y × P) → σ → Prop
  new : ∃ s, mc.new k = .ok s ∧ R [] s
  update : ∀ {l s}, R l s → ∀ y p, ∃ s', mc.update s y p = .ok () s' ∧ R (l ++ [(y, p)]) s'
  get : ∀ {l s}, R l s → l ≠ [] → ∃ s', mc.get s = .ok (val l) s' ∧ R l s'

end Pysad.Spec
