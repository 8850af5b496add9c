import Verif.Model.Base
import Verif.Spec.Basic

/-! Histories of calls on a transformer, and the decomposition that
`SeasonalTrendDecomposer` is to compute. -/

namespace Pysad.Spec

/-- A call on a transformer. -/
inductive TransCall (α : Type*) where
  | fit (X : FitArg α)
  | transform (x : α)
  | fitTransform (x : α)

/-- The transformer after a history of calls (exceptions are caught by the caller). -/
def afterTrans {σ α β : Type*} (t : Transformer σ α β) : σ → List (TransCall α) → σ
  | s, [] => s
  | s, .fit X :: cs => afterTrans t (t.fitPartial s X).state cs
  | s, .transform x :: cs => afterTrans t (t.transformPartial s x).state cs
  | s, .fitTransform x :: cs => afterTrans t (t.fitTransformPartial s x).state cs

/-- The instances a history has fitted. -/
def transFitted {α : Type*} : List (TransCall α) → List α
  | [] => []
  | .fit (.row x) :: cs => x :: transFitted cs
  | .fit (.pair x) :: cs => x :: transFitted cs
  | .transform _ :: cs => transFitted cs
  | .fitTransform x :: cs => x :: transFitted cs

variable {K : Type*} [Field K]

/-- The mean of some numbers, 0 if there are none. -/
def meanOrZero (v : List K) : K := if v = [] then 0 else meanOf (v : Multiset K)

/-- The trend after the values `v`: the mean of the last `w` of them. -/
def trendAfter (w : ℕ) (v : List K) : K := meanOrZero (lastN w v)

/-- The deviations from the trend that were seen in phase `p` of seasons of length `s`, among the
values at which the trend window was full. -/
def deviations (s w : ℕ) (v : List K) (p : ℕ) : List K :=
  ((List.range v.length).filter fun t => t % s = p ∧ w ≤ t + 1).map fun t =>
    v.getD t 0 - trendAfter w (v.take (t + 1))

/-- The seasonal component in phase `p`. -/
def seasonAt (s w : ℕ) (v : List K) (p : ℕ) : K := meanOrZero (deviations s w v p)

end Pysad.Spec
