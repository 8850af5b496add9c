import Verif.Spec.Basic
import Verif.Model.Num
import Mathlib.Analysis.SpecialFunctions.Pow.Real

/-! Specification of standardised scores. -/

namespace Pysad.Spec

/-- Standard score of `x` against the values `m`: not a number if the values do
not vary, otherwise the distance from the mean in standard deviations. -/
noncomputable def zscore (m : Multiset ℝ) (x : ℝ) : Num ℝ :=
  if varianceOf m = 0 then .nan else .fin ((x - meanOf m) / √(varianceOf m))

end Pysad.Spec
