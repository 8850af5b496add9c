import Verif.Spec.Basic
import Mathlib.Analysis.Normed.Lp.PiLp

/-! Specification of norms and moments of a feature vector. -/

namespace Pysad.Spec

/-- The `ℓ^p` norm of a vector, `0 < p ≤ ∞`, as Mathlib defines it. -/
noncomputable def lpNorm (p : ENNReal) {d : ℕ} (x : Fin d → ℝ) : ℝ :=
  ‖(WithLp.toLp p x : PiLp p fun _ : Fin d => ℝ)‖

/-- The bag of entries of a vector. -/
def entries {K : Type*} {d : ℕ} (x : Fin d → K) : Multiset K :=
  (Finset.univ : Finset (Fin d)).val.map x

end Pysad.Spec
