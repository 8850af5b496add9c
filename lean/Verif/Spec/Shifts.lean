import Verif.Prelude
import Mathlib.MeasureTheory.Constructions.Pi
import Mathlib.MeasureTheory.Measure.Lebesgue.Basic
import Mathlib.MeasureTheory.Integral.Bochner.Basic

/-! Independent numbers drawn uniformly from `[0, 1)`, and the triangular kernel. -/

namespace Pysad.Spec

open MeasureTheory

/-- Independent uniform draws from `[0, 1)`, one per element of `ι`. -/
noncomputable def uniformDraws (ι : Type*) [Fintype ι] : Measure (ι → ℝ) :=
  Measure.pi fun _ => volume.restrict (Set.Ico 0 1)

/-- The chance of an event. -/
noncomputable def chanceOf {ι : Type*} [Fintype ι] (A : Set (ι → ℝ)) : ℝ := (uniformDraws ι A).toReal

/-- The average of a number that depends on the draws. -/
noncomputable def average {ι : Type*} [Fintype ι] (X : (ι → ℝ) → ℝ) : ℝ := ∫ u, X u ∂uniformDraws ι

/-- The triangular kernel: 1 at distance 0, 0 from distance 1 on, linear in between. -/
noncomputable def tent (t : ℝ) : ℝ := max 0 (1 - |t|)

end Pysad.Spec
