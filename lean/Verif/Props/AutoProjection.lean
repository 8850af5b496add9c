import Verif.Model.Projection
import Mathlib.Analysis.SpecialFunctions.Log.Basic
import Mathlib.Analysis.Complex.ExponentialBounds
import Mathlib.Algebra.Order.Floor.Ring

/-! Property C183: the random projectors with their default number of components. -/

namespace Pysad

/-- The projectors with tolerance `eps`, over any way to draw matrices. -/
noncomputable def Spec.skRng {G : Type*} (eps : ℝ) (draw : ℕ → ℕ → G → List (List ℝ) × G) : ProjectionRng G ℝ :=
  ⟨jlMinDim Real.log eps, draw⟩

open Spec

/-- **C183 (full statement, false).** A projector with the default `num_components='auto'` projects any
instance that has features, for every tolerance between 0 and 1. -/
def C183_auto_statement : Prop :=
  ∀ (G : Type) (draw : ℕ → ℕ → G → List (List ℝ) × G) (eps : ℝ), 0 < eps → eps < 1 →
    ∀ (g : G) (x : List ℝ), x ≠ [] →
      ∃ v g', SkProjector.transformPartial (skRng eps draw) none g x = .ok v g'

/-- **C183.** With the default number of components no instance can ever be projected: for every tolerance,
generator, instance and data set `transform_partial` and `fit_transform_partial` raise `ValueError`
(the Johnson-Lindenstrauss dimension for one row is 0), `transform` and `fit_transform` `TypeError`. -/
theorem C183_auto_raises {G : Type*} (draw : ℕ → ℕ → G → List (List ℝ) × G) (eps : ℝ) (g : G) (x : List ℝ)
    (X : List (List ℝ)) :
    (SkProjector.transformer (skRng eps draw) none).transformPartial g x = .err .valueError g ∧
    (SkProjector.transformer (skRng eps draw) none).fitTransformPartial g x = .err .valueError g ∧
    SkProjector.transform (skRng eps draw) none g X = .err .typeError g ∧
    SkProjector.fitTransform (skRng eps draw) none g X = .err .typeError g := by
  have h0 : (skRng eps draw).minDim 1 = 0 := by
    simp [skRng, jlMinDim]
  have h1 : SkProjector.transformPartial (skRng eps draw) none g x = .err .valueError g := by
    simp [SkProjector.transformPartial, SkProjector.components, h0]
  refine ⟨h1, ?_, rfl, rfl⟩
  simp only [SkProjector.transformer, Transformer.inherited, Res.bind_ok]
  exact h1

/-- **C183 (refuted).** -/
theorem C183_auto_refuted : ¬ C183_auto_statement := by
  intro h
  obtain ⟨v, g', hv⟩ := h Unit (fun _ _ g => ([], g)) (1 / 10) (by norm_num) (by norm_num) () [1] (by simp)
  have := (C183_auto_raises (fun _ _ g => ([], g)) (1 / 10) () [1] []).1
  simp only [SkProjector.transformer] at this
  rw [this] at hv
  cases hv

/-- **C183 (why).** For two rows or more, what scikit-learn would be asked for if it were given all rows at
once, the dimension is never 0 but at least 16, whatever the tolerance: the failure is due to passing
the rows one at a time. -/
theorem C183_batch_dim (eps : ℝ) (h0 : 0 < eps) (h1 : eps < 1) (n : ℕ) (hn : 2 ≤ n) :
    16 ≤ jlMinDim Real.log eps n := by
  unfold jlMinDim
  rw [Int.le_floor]
  have hd : 0 < eps ^ 2 / 2 - eps ^ 3 / 3 := by nlinarith [pow_pos h0 2, pow_pos h0 3]
  have hd' : eps ^ 2 / 2 - eps ^ 3 / 3 ≤ 1 / 6 := by nlinarith [sq_nonneg (eps - 1), mul_nonneg (sq_nonneg (1 - eps)) h0.le]
  have hl : Real.log 2 ≤ Real.log n := Real.log_le_log (by norm_num) (by exact_mod_cast hn)
  have h2 := Real.log_two_gt_d9
  rw [le_div_iff₀ hd]
  push_cast
  nlinarith

/-- **C183 (partial).** With a number `n ≥ 1` of components the projection of an instance is a list of `n`
numbers, each a scalar product of the instance with a vector that depends on the generator and the
number of features only; nothing raises. -/
theorem C183_explicit_partial {G : Type*} (draw : ℕ → ℕ → G → List (List ℝ) × G)
    (hdraw : ∀ n d g, (draw n d g).1.length = n) (eps : ℝ) (n : ℕ) (hn : 1 ≤ n) (g : G) (d : ℕ) :
    ∃ (R : List (List ℝ)) (g' : G), R.length = n ∧ ∀ x : List ℝ, x.length = d →
      SkProjector.transformPartial (skRng eps draw) (some n) g x
        = .ok (R.map fun r => (List.zipWith (· * ·) x r).sum) g' := by
  refine ⟨(draw n d g).1, (draw n d g).2, hdraw n d g, fun x hx => ?_⟩
  simp [SkProjector.transformPartial, SkProjector.components, skRng, hx, Nat.ne_of_gt hn]

/-- **C183 (no components).** `num_components=0` is rejected with `ValueError`. -/
theorem C183_zero {G : Type*} (draw : ℕ → ℕ → G → List (List ℝ) × G) (eps : ℝ) (g : G) (x : List ℝ) :
    SkProjector.transformPartial (skRng eps draw) (some 0) g x = .err .valueError g := by
  simp [SkProjector.transformPartial, SkProjector.components]

/-- Two components. -/
example : SkProjector.transformPartial (⟨fun _ => 0, fun _ _ g => ([[2, 1], [0, 1]], g)⟩ : ProjectionRng Unit ℚ)
    (some 2) () [3, 4] = .ok [10, 4] () := by decide +kernel

end Pysad
