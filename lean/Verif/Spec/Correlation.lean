import Verif.Spec.Basic
import Mathlib.Data.Real.Sqrt

/-! Specification of the correlation of two features. -/

namespace Pysad.Spec

variable {n : ℕ}

/-- The covariance of two features over a list of instances. -/
noncomputable def covarianceOf (xs : List (Fin n → ℝ)) (i j : Fin n) : ℝ :=
  meanOf ((xs.map fun x => (x i - meanOf ((xs.map fun y => y i : List ℝ) : Multiset ℝ))
    * (x j - meanOf ((xs.map fun y => y j : List ℝ) : Multiset ℝ)) : List ℝ) : Multiset ℝ)

/-- Pearson's correlation of two features over a list of instances. -/
noncomputable def correlationOf (xs : List (Fin n → ℝ)) (i j : Fin n) : ℝ :=
  covarianceOf xs i j / (√(covarianceOf xs i i) * √(covarianceOf xs j j))

end Pysad.Spec
