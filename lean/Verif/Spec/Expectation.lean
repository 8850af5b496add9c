import Mathlib.Data.Real.Basic
import Mathlib.Algebra.BigOperators.Group.Finset.Basic
import Mathlib.Data.Fintype.BigOperators

/-! Specification of chance: averages and frequencies over a finite set of equally
likely outcomes. -/

namespace Pysad.Spec

/-- The average of `f` over all outcomes. -/
noncomputable def expectation {Ω : Type*} [Fintype Ω] (f : Ω → ℝ) : ℝ :=
  (∑ v, f v) / Fintype.card Ω

open Classical in
/-- The fraction of the outcomes with property `p`. -/
noncomputable def fraction {Ω : Type*} [Fintype Ω] (p : Ω → Prop) : ℝ :=
  ((Finset.univ.filter p).card : ℝ) / Fintype.card Ω

end Pysad.Spec
