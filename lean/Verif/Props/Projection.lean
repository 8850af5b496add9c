import Verif.Model.Projection
import Verif.Proofs.Meters
import Mathlib.Analysis.SpecialFunctions.Pow.Real

/-! Properties C48-C49: `pysad/transform/projection`. -/

namespace Pysad

open Spec

/-! ### C48 -/

/-- The numbers in a scalar or a vector. -/
def Spec.numbers {K : Type*} : NdArray K → List K
  | .scalar x => [x]
  | .vec l => l
  | _ => []

/-- The image of a vector under the matrix `R` with `n` rows; row `k`, column `i` is
`R k i`. -/
def Spec.applyMatrix {K : Type*} [Field K] (n : ℕ) (R : ℕ → ℕ → K) (x : List K) : List K :=
  (List.range n).map fun k => ∑ i ∈ Finset.range x.length, x.getD i 0 * R k i

section
variable {K : Type*} [Field K] [LinearOrder K]

omit [LinearOrder K] in
theorem sum_zipWith_range (x : List K) (r : ℕ → K) :
    (List.zipWith (· * ·) x ((List.range x.length).map r)).sum
      = ∑ i ∈ Finset.range x.length, x.getD i 0 * r i := by
  induction x using List.reverseRecOn with
  | nil => simp
  | append_singleton x a ih =>
    rw [List.length_append, List.length_singleton, List.range_succ, List.map_append,
      List.zipWith_append (by simp), List.sum_append, ih, Finset.sum_range_succ]
    congr 1
    · apply Finset.sum_congr rfl
      intro i hi
      simp only [List.getD_eq_getElem?_getD, List.getElem?_append_left (Finset.mem_range.1 hi)]
    · simp

theorem squeeze_numbers (l : List K) : numbers (Streamhash.squeeze l) = l := by
  unfold Streamhash.squeeze
  split <;> rfl

/-- **C48.** For every hash function, number of components `n ≥ 1` and nonzero density,
there is one matrix, whose entries are all `-c`, `0` or `c` with
`c = sqrt(1/density)/sqrt(n)`, such that in any state reached by fitting any data,
transforming any vector of any dimension, with or without fitting it, returns its image under
that matrix (a vector of `n` numbers; a bare number if `n = 1`) and changes nothing. -/
theorem C48_linear (mmh3 : String → ℕ → ℕ) (sqrt : K → K) (n : ℕ) (hn : 1 ≤ n) (density : K)
    (hd : density ≠ 0) (s0 : StreamhashState K) (h0 : Streamhash.new sqrt n density = .ok s0) :
    ∃ R : ℕ → ℕ → K,
      (∀ k i, R k i = -(sqrt (1 / density) / sqrt (n : K)) ∨ R k i = 0 ∨
        R k i = sqrt (1 / density) / sqrt (n : K)) ∧
      ∀ (data : List (List K)) (x : List K), ∃ s y,
        (Streamhash.transformer mmh3).fit s0 data = .ok () s ∧
        (Streamhash.transformer mmh3).transformPartial s x = .ok y s ∧
        (Streamhash.transformer mmh3).fitTransformPartial s x = .ok y s ∧
        numbers y = applyMatrix n R x ∧ (n = 1 ↔ ∃ a, y = .scalar a) := by
  have hs0 : s0 = ⟨n, sqrt (1 / density) / sqrt (n : K), density⟩ := by
    unfold Streamhash.new at h0
    rw [if_neg hd] at h0
    cases h0; rfl
  refine ⟨fun k i => Streamhash.hashString mmh3 s0 k (toString i), ?_, ?_⟩
  · intro k i
    simp only [Streamhash.hashString, hs0]
    split
    · left; ring
    · split
      · right; right; rfl
      · right; left; rfl
  · intro data x
    have hfit : (Streamhash.transformer mmh3).fit s0 data = .ok () s0 := by
      unfold Transformer.fit
      rw [iterate_none, Gen.forEach_ofList, pairs, inOrder_map]
      suffices h : ∃ us, inOrder (fun (s : StreamhashState K) (_ : List K) => Res.ok () s) s0 data
          = .ok us s0 by
        obtain ⟨us, hu⟩ := h
        simp only [Streamhash.transformer, hu, Res.map_ok]
      induction data with
      | nil => exact ⟨[], rfl⟩
      | cons a data ih => obtain ⟨us, hu⟩ := ih; exact ⟨() :: us, by simp [inOrder, hu]⟩
    have hdot : Streamhash.dotRows x (Streamhash.matrix mmh3 s0 x.length)
        = applyMatrix n (fun k i => Streamhash.hashString mmh3 s0 k (toString i)) x := by
      simp only [Streamhash.dotRows, Streamhash.matrix, applyMatrix, List.map_map, hs0]
      apply List.map_congr_left
      intro k _
      simp only [Function.comp]
      exact sum_zipWith_range x (fun i => Streamhash.hashString mmh3 _ k (toString i))
    refine ⟨s0, Streamhash.squeeze (Streamhash.dotRows x (Streamhash.matrix mmh3 s0 x.length)),
      hfit, ?_, ?_, ?_, ?_⟩
    · simp only [Streamhash.transformer, Streamhash.transformPartial]
      rw [if_neg (by rw [hs0]; simp; omega)]
    · simp only [Streamhash.transformer, Transformer.inherited, Streamhash.transformPartial,
        Res.bind_ok]
      rw [if_neg (by rw [hs0]; simp; omega)]
    · rw [squeeze_numbers, hdot]
    · rw [hdot]
      have hl : (applyMatrix n (fun k i => Streamhash.hashString mmh3 s0 k (toString i)) x).length
          = n := by simp [applyMatrix]
      generalize applyMatrix n _ x = l at hl ⊢
      unfold Streamhash.squeeze
      constructor
      · intro h1
        rw [h1] at hl
        obtain ⟨a, rfl⟩ := List.length_eq_one_iff.1 hl
        exact ⟨a, rfl⟩
      · rintro ⟨a, ha⟩
        split at ha
        · simpa using hl.symm
        · cases ha

omit [LinearOrder K] in
/-- The image under a matrix is linear: `a * x + b * y` goes to `a * Rx + b * Ry`. -/
theorem C48_matrix_linear (n : ℕ) (R : ℕ → ℕ → K) (a b : K) (x y : List K)
    (hxy : x.length = y.length) :
    applyMatrix n R (List.zipWith (fun u v => a * u + b * v) x y)
      = List.zipWith (fun u v => a * u + b * v) (applyMatrix n R x) (applyMatrix n R y) := by
  unfold applyMatrix
  rw [List.zipWith_map]
  simp only [List.zipWith_self]
  apply List.map_congr_left
  intro k _
  rw [List.length_zipWith, ← hxy, Nat.min_self, Finset.mul_sum, Finset.mul_sum,
    ← Finset.sum_add_distrib]
  apply Finset.sum_congr rfl
  intro i hi
  have h1 : i < x.length := Finset.mem_range.1 hi
  have h2 : i < y.length := hxy ▸ h1
  simp only [List.getD_eq_getElem?_getD, List.getElem?_zipWith, List.getElem?_eq_getElem h1,
    List.getElem?_eq_getElem h2, Option.getD_some]
  ring

omit [LinearOrder K] in
/-- Appending zero features does not change the image. -/
theorem C48_matrix_padding (n m : ℕ) (R : ℕ → ℕ → K) (x : List K) :
    applyMatrix n R (x ++ List.replicate m 0) = applyMatrix n R x := by
  unfold applyMatrix
  apply List.map_congr_left
  intro k _
  rw [List.length_append, List.length_replicate, Finset.sum_range_add]
  have : ∑ i ∈ Finset.range m, (x ++ List.replicate m (0 : K)).getD (x.length + i) 0
      * R k (x.length + i) = 0 := by
    apply Finset.sum_eq_zero
    intro i hi
    have h2 : i < m := Finset.mem_range.1 hi
    rw [List.getD_eq_getElem?_getD, List.getElem?_append_right (by omega)]
    simp [h2]
  rw [this, add_zero]
  apply Finset.sum_congr rfl
  intro i hi
  simp only [List.getD_eq_getElem?_getD, List.getElem?_append_left (Finset.mem_range.1 hi)]

/-- **C48**, in terms of the API only: linearity and zero features. -/
theorem C48_api (mmh3 : String → ℕ → ℕ) (sqrt : K → K) (n : ℕ) (hn : 1 ≤ n) (density : K)
    (hd : density ≠ 0) (s : StreamhashState K) (h0 : Streamhash.new sqrt n density = .ok s) :
    (∀ (a b : K) (x y : List K), x.length = y.length → ∃ tx ty txy,
      (Streamhash.transformer mmh3).transformPartial s x = .ok tx s ∧
      (Streamhash.transformer mmh3).transformPartial s y = .ok ty s ∧
      (Streamhash.transformer mmh3).transformPartial s
        (List.zipWith (fun u v => a * u + b * v) x y) = .ok txy s ∧
      (numbers tx).length = n ∧
      numbers txy = List.zipWith (fun u v => a * u + b * v) (numbers tx) (numbers ty)) ∧
    (∀ (x : List K) (m : ℕ), ∃ tx tz,
      (Streamhash.transformer mmh3).transformPartial s x = .ok tx s ∧
      (Streamhash.transformer mmh3).transformPartial s (x ++ List.replicate m 0) = .ok tz s ∧
      numbers tz = numbers tx) := by
  obtain ⟨R, -, h⟩ := C48_linear mmh3 sqrt n hn density hd s h0
  have h' : ∀ x, ∃ y, (Streamhash.transformer mmh3).transformPartial s x = .ok y s ∧
      numbers y = applyMatrix n R x := by
    intro x
    obtain ⟨s', y, h1, h2, -, h3, -⟩ := h [] x
    have : s' = s := by
      unfold Transformer.fit at h1
      rw [iterate_none, Gen.forEach_ofList] at h1
      simp [pairs, inOrder] at h1
      exact h1.symm
    subst this
    exact ⟨y, h2, h3⟩
  constructor
  · intro a b x y hxy
    obtain ⟨tx, hx1, hx2⟩ := h' x
    obtain ⟨ty, hy1, hy2⟩ := h' y
    obtain ⟨tz, hz1, hz2⟩ := h' (List.zipWith (fun u v => a * u + b * v) x y)
    refine ⟨tx, ty, tz, hx1, hy1, hz1, by rw [hx2]; simp [applyMatrix], ?_⟩
    rw [hz2, hx2, hy2, C48_matrix_linear n R a b x y hxy]
  · intro x m
    obtain ⟨tx, hx1, hx2⟩ := h' x
    obtain ⟨tz, hz1, hz2⟩ := h' (x ++ List.replicate m 0)
    exact ⟨tx, tz, hx1, hz1, by rw [hz2, hx2, C48_matrix_padding]⟩

end

/-- A concrete projector: two components, density 1/4 (exact square roots). -/
example : ∃ s0 : StreamhashState ℚ,
    Streamhash.new (fun q => if q = 4 then 2 else q) 4 (1 / 4) = .ok s0 ∧ s0.constant = 1 ∧
    ((Streamhash.transformer fun _ k => k * 400000000).transformPartial s0 [3, 5]).out
      = .ok (.vec [-8, -8, 8, 0]) :=
  ⟨⟨4, 1, 1 / 4⟩, by decide +kernel, rfl, by decide +kernel⟩

/-! ### C49 -/

/-- The full claim of **C49**: all rows of a dataset are projected with one matrix. -/
def OneProjection : Prop :=
  ∀ (G : Type) (rng : ProjectionRng G ℚ) (n : ℕ) (g g' : G) (X out : List (List ℚ)),
    SkProjector.transform rng (some n) g X = .ok out g' →
    ∃ R : List (List ℚ), out = X.map fun x => R.map fun r => (List.zipWith (· * ·) x r).sum

/-- **C49 is false**: a generator whose successive draws differ sends equal rows to
different images. -/
theorem C49_one_projection_refuted : ¬ OneProjection := by
  intro h
  obtain ⟨R, hR⟩ := h ℕ ⟨fun _ => 0, fun _ _ g => ([[(g : ℚ)]], g + 1)⟩ 1 0 2 [[1], [1]] [[0], [1]]
    (by decide +kernel)
  have h2 : ∀ l : List ℚ, [[0], [1]] = [l, l] → False := by
    intro l hl
    simp only [List.cons.injEq, and_true] at hl
    have := hl.1.trans hl.2.symm
    simp at this
  exact h2 _ hR

/-- The matrices drawn one after the other for the rows of a dataset. -/
def Spec.draws {G K : Type*} (rng : ProjectionRng G K) (n : ℕ) :
    G → List (List K) → List (List (List K))
  | _, [] => []
  | g, x :: X => (rng.draw n x.length g).1 :: draws rng n (rng.draw n x.length g).2 X

/-- **C49, what holds.** Each row is projected linearly, but with a matrix drawn for
that row alone: the `i`-th row with the `i`-th draw. If all draws coincide (in
particular for a dataset of one row) there is a single projection. -/
theorem C49_one_projection_partial {G K : Type*} [Field K] (rng : ProjectionRng G K) (n : ℕ)
    (hn : 1 ≤ n) (g : G) (X : List (List K)) :
    ∃ out g', SkProjector.transform rng (some n) g X = .ok out g' ∧
      out = List.zipWith (fun x (R : List (List K)) => R.map fun r =>
        (List.zipWith (· * ·) x r).sum) X (draws rng n g X) ∧
      ∀ R, (∀ R' ∈ draws rng n g X, R' = R) →
        out = X.map fun x => R.map fun r => (List.zipWith (· * ·) x r).sum := by
  suffices h : ∀ (X : List (List K)) (g : G), ∃ g', SkProjector.transform rng (some n) g X
      = .ok (List.zipWith (fun x (R : List (List K)) => R.map fun r =>
        (List.zipWith (· * ·) x r).sum) X (draws rng n g X)) g' by
    obtain ⟨g', h1⟩ := h X g
    refine ⟨_, g', h1, rfl, ?_⟩
    intro R hR
    clear h h1
    induction X generalizing g with
    | nil => rfl
    | cons x X ih =>
      have e := hR (rng.draw n x.length g).1 (by simp [draws])
      simp only [draws, List.zipWith_cons_cons, List.map_cons, e, List.cons.injEq, true_and]
      exact ih _ fun R' h' => hR R' (by simp [draws, h'])
  intro X
  induction X with
  | nil =>
    intro g
    refine ⟨g, ?_⟩
    simp only [SkProjector.transform, Transformer.transform, iterate_none, Gen.forEach_ofList]
    rfl
  | cons x X ih =>
    intro g
    obtain ⟨g', h⟩ := ih (rng.draw n x.length g).2
    refine ⟨g', ?_⟩
    simp only [SkProjector.transform, Transformer.transform, iterate_none, Gen.forEach_ofList,
      pairs, inOrder_map, SkProjector.transformer] at h ⊢
    simp only [inOrder, SkProjector.transformPartial, SkProjector.components, if_neg (Nat.ne_of_gt hn)] at h ⊢
    rw [h]
    rfl

/-- With the default number of components (`'auto'`) `transform` raises `TypeError`. -/
theorem C49_auto_raises {G K : Type*} [Field K] (rng : ProjectionRng G K) (g : G)
    (X : List (List K)) : SkProjector.transform rng none g X = .err .typeError g := rfl

/-- **C49, fitting.** Fitting any data draws nothing and changes nothing: the projection is drawn
anew by every transformation, so that `fit_transform` is `transform`. -/
theorem C49_fit_draws_nothing {G K : Type*} [Field K] (rng : ProjectionRng G K) (n : Option ℕ)
    (g : G) (X : List (List K)) :
    (SkProjector.transformer rng n).fit g X = .ok () g ∧
    (SkProjector.transformer rng n).fitTransform g X = (SkProjector.transformer rng n).transform g X := by
  refine ⟨?_, rfl⟩
  unfold Transformer.fit
  rw [iterate_none, Gen.forEach_ofList, pairs, inOrder_map]
  have : ∃ us, inOrder (fun (g : G) (_ : List K) => Res.ok () g) g X = .ok us g := by
    induction X with
    | nil => exact ⟨[], rfl⟩
    | cons a X ih => obtain ⟨us, hu⟩ := ih; exact ⟨() :: us, by simp [inOrder, hu]⟩
  obtain ⟨us, hu⟩ := this
  simp only [SkProjector.transformer, hu, Res.map_ok]

/-- With a constant generator the projection is one matrix. -/
example : SkProjector.transform (⟨fun _ => 0, fun _ _ g => ([[2, 1], [0, 1]], g)⟩ : ProjectionRng Unit ℚ)
    (some 2) () [[1, 1], [3, 4]] = .ok [[3, 1], [10, 4]] () := by decide +kernel

end Pysad
