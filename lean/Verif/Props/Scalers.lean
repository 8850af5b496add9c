import Verif.Model.Scalers
import Verif.Spec.Norms
import Verif.Proofs.Moments
import Verif.Proofs.Meters

/-! Properties C41-C43: the stateless scalers. -/

namespace Pysad

open Spec

/-! ### C41 -/

/-- The `pow` argument that asks for the `ℓ^p` norm. -/
noncomputable def NormOrd.of (p : ENNReal) : NormOrd :=
  if p = ⊤ then .posInf else .fin p.toReal

theorem lpNorm_top {d : ℕ} (x : Fin d → ℝ) : lpNorm ⊤ x = ⨆ i, |x i| := by
  unfold lpNorm
  rw [PiLp.norm_eq_ciSup]
  rfl

theorem lpNorm_fin {d : ℕ} {p : ENNReal} (h0 : p ≠ 0) (ht : p ≠ ⊤) (x : Fin d → ℝ) :
    lpNorm p x = (∑ i, |x i| ^ p.toReal) ^ (1 / p.toReal) := by
  unfold lpNorm
  rw [PiLp.norm_eq_sum (ENNReal.toReal_pos h0 ht)]
  rfl

theorem lpNorm_smul {d : ℕ} {p : ENNReal} (h0 : p ≠ 0) {c : ℝ} (hc : 0 ≤ c) (x : Fin d → ℝ) :
    lpNorm p (fun i => c * x i) = c * lpNorm p x := by
  by_cases ht : p = ⊤
  · subst ht
    rw [lpNorm_top, lpNorm_top, Real.mul_iSup_of_nonneg hc]
    simp only [abs_mul, abs_of_nonneg hc]
  · have hp := ENNReal.toReal_pos h0 ht
    rw [lpNorm_fin h0 ht, lpNorm_fin h0 ht]
    have : ∀ i, |c * x i| ^ p.toReal = c ^ p.toReal * |x i| ^ p.toReal := by
      intro i
      rw [abs_mul, abs_of_nonneg hc, Real.mul_rpow hc (abs_nonneg _)]
    simp only [this, ← Finset.mul_sum]
    rw [Real.mul_rpow (by positivity) (by positivity), ← Real.rpow_mul hc,
      mul_one_div_cancel hp.ne', Real.rpow_one]

theorem lpNorm_pos {d : ℕ} {p : ENNReal} (h0 : p ≠ 0) {x : Fin d → ℝ} (hx : x ≠ 0) :
    0 < lpNorm p x := by
  obtain ⟨i, hi⟩ := Function.ne_iff.1 hx
  have hi' : 0 < |x i| := abs_pos.2 hi
  by_cases ht : p = ⊤
  · subst ht
    rw [lpNorm_top]
    exact lt_of_lt_of_le hi' (le_ciSup (f := fun i => |x i|) (Set.finite_range _).bddAbove i)
  · have hp := ENNReal.toReal_pos h0 ht
    rw [lpNorm_fin h0 ht]
    have : 0 < ∑ i, |x i| ^ p.toReal :=
      Finset.sum_pos' (fun i _ => by positivity) ⟨i, Finset.mem_univ _, by positivity⟩
    positivity

/-- numpy's case distinction computes the `ℓ^p` norm for every `p > 0`. -/
theorem npNorm_eq {d : ℕ} {p : ENNReal} (h0 : p ≠ 0) (hd : 0 < d) (x : Fin d → ℝ) :
    npNorm (.of p) x = .ok (lpNorm p x) := by
  by_cases ht : p = ⊤
  · subst ht
    have hne : (Finset.univ : Finset (Fin d)).Nonempty := ⟨⟨0, hd⟩, Finset.mem_univ _⟩
    haveI : Nonempty (Fin d) := ⟨⟨0, hd⟩⟩
    rw [lpNorm_top]
    simp only [NormOrd.of, if_true, npNorm, npMaxFin, dif_pos hne]
    rw [Finset.sup'_univ_eq_ciSup]
  · have hp := ENNReal.toReal_pos h0 ht
    rw [lpNorm_fin h0 ht]
    simp only [NormOrd.of, if_neg ht, npNorm, if_neg hp.ne']
    split
    · rename_i h; simp [h]
    · split
      · rename_i h
        simp only [h, Real.sqrt_eq_rpow]
        congr 2
        apply Finset.sum_congr rfl
        intro i _
        rw [Real.rpow_two, sq_abs, sq]
      · rfl

theorem unitNorm_eq {d : ℕ} {p : ENNReal} (h0 : p ≠ 0) {x : Fin d → ℝ} (hx : x ≠ 0) :
    instanceUnitNorm (.of p) x = .ok fun i => .fin ((lpNorm p x)⁻¹ * x i) := by
  have hd : 0 < d := by
    rcases Nat.eq_zero_or_pos d with h | h
    · subst h; exact absurd (Subsingleton.elim _ _) hx
    · exact h
  unfold instanceUnitNorm
  rw [npNorm_eq h0 hd]
  have := (lpNorm_pos h0 hx).ne'
  simp only [Except.map, npDiv, if_neg this]
  congr 1
  funext i
  rw [div_eq_inv_mul]

/-- **C41.** For every order `0 < p ≤ ∞` and every nonzero vector `x` the scaler
returns finite numbers `y` with `p`-norm 1 and the direction of `x`; every positive
multiple of `x` gives the same `y`; and scaling `y` gives `y`. -/
theorem C41_unit_norm {d : ℕ} {p : ENNReal} (h0 : p ≠ 0) (x : Fin d → ℝ) (hx : x ≠ 0) (s : Unit) :
    ∃ y : Fin d → ℝ,
      (instanceUnitNormScaler (.of p) d).transformPartial s x = .ok (fun i => .fin (y i)) s ∧
      lpNorm p y = 1 ∧
      (∃ c, 0 < c ∧ ∀ i, y i = c * x i) ∧
      (∀ a : ℝ, 0 < a → (instanceUnitNormScaler (.of p) d).transformPartial s (fun i => a * x i)
        = .ok (fun i => .fin (y i)) s) ∧
      (instanceUnitNormScaler (.of p) d).transformPartial s y = .ok (fun i => .fin (y i)) s := by
  have hpos := lpNorm_pos h0 hx
  have hn : lpNorm p (fun i => (lpNorm p x)⁻¹ * x i) = 1 := by
    rw [lpNorm_smul h0 (by positivity)]; field_simp
  have hne : (fun i => (lpNorm p x)⁻¹ * x i) ≠ 0 := by
    obtain ⟨i, hi⟩ := Function.ne_iff.1 hx
    exact Function.ne_iff.2 ⟨i, mul_ne_zero (inv_ne_zero hpos.ne') hi⟩
  refine ⟨fun i => (lpNorm p x)⁻¹ * x i, ?_, hn, ⟨_, inv_pos.2 hpos, fun i => rfl⟩, ?_, ?_⟩
  · simp only [instanceUnitNormScaler, unitNorm_eq h0 hx, Res.ofExcept_ok]
  · intro a ha
    have hax : (fun i => a * x i) ≠ 0 := by
      obtain ⟨i, hi⟩ := Function.ne_iff.1 hx
      exact Function.ne_iff.2 ⟨i, mul_ne_zero ha.ne' hi⟩
    simp only [instanceUnitNormScaler, unitNorm_eq h0 hax, Res.ofExcept_ok, lpNorm_smul h0 ha.le]
    congr 1
    funext i
    congr 1
    field_simp
  · simp only [instanceUnitNormScaler, unitNorm_eq h0 hne, Res.ofExcept_ok, hn]
    simp

/-- **C41.** Fitting changes nothing and `fit_transform_partial` is `transform_partial`, for every
order and vector. -/
theorem C41_fit {d : ℕ} (o : NormOrd) (s : Unit) (x : Fin d → ℝ) (a : FitArg (Fin d → ℝ)) :
    (instanceUnitNormScaler o d).fitPartial s a = .ok () s ∧
    (instanceUnitNormScaler o d).fitTransformPartial s x =
      (instanceUnitNormScaler o d).transformPartial s x :=
  ⟨rfl, rfl⟩

/-- The order `-∞`, for which numpy takes the least absolute value: for every vector without
zero entries the scaler returns numbers `y` in the direction of `x` whose least absolute value
is 1 (attained, and a lower bound of all), the same for every positive multiple of `x`, and
scaling `y` gives `y`. -/
theorem C41_neg_inf {d : ℕ} (hd : 0 < d) (x : Fin d → ℝ) (hx : ∀ i, x i ≠ 0) (s : Unit) :
    ∃ y : Fin d → ℝ,
      (instanceUnitNormScaler .negInf d).transformPartial s x = .ok (fun i => .fin (y i)) s ∧
      (∃ i, |y i| = 1) ∧ (∀ i, 1 ≤ |y i|) ∧
      (∃ c, 0 < c ∧ ∀ i, y i = c * x i) ∧
      (∀ a : ℝ, 0 < a → (instanceUnitNormScaler .negInf d).transformPartial s (fun i => a * x i)
        = .ok (fun i => .fin (y i)) s) ∧
      (instanceUnitNormScaler .negInf d).transformPartial s y = .ok (fun i => .fin (y i)) s := by
  have hne : (Finset.univ : Finset (Fin d)).Nonempty := ⟨⟨0, hd⟩, Finset.mem_univ _⟩
  have key : ∀ z : Fin d → ℝ, ∀ v : ℝ, v ≠ 0 → (∃ i, |z i| = v) → (∀ i, v ≤ |z i|) →
      (instanceUnitNormScaler .negInf d).transformPartial s z
        = .ok (fun i => .fin (z i / v)) s := by
    rintro z v hv ⟨i, hi⟩ hle
    have : Finset.univ.inf' hne (fun i => |z i|) = v := by
      apply le_antisymm
      · exact hi ▸ Finset.inf'_le (fun i => |z i|) (Finset.mem_univ i)
      · exact Finset.le_inf' _ _ fun i _ => hle i
    simp only [instanceUnitNormScaler, instanceUnitNorm, npNorm, npMinFin, dif_pos hne, this,
      Except.map, npDiv, if_neg hv, Res.ofExcept_ok]
  obtain ⟨i, -, hi⟩ := Finset.exists_mem_eq_inf' hne fun i => |x i|
  have hmin : ∀ j, |x i| ≤ |x j| := fun j =>
    hi ▸ Finset.inf'_le (fun i => |x i|) (Finset.mem_univ j)
  have hpos : 0 < |x i| := abs_pos.2 (hx i)
  have habs : ∀ j, abs (x j / |x i|) = |x j| / |x i| := fun j => by rw [abs_div, abs_abs]
  have hone : ∀ j, 1 ≤ abs (x j / |x i|) := fun j => by
    rw [habs, le_div_iff₀ hpos, one_mul]; exact hmin j
  have hat : abs (x i / |x i|) = 1 := by rw [habs, div_self hpos.ne']
  refine ⟨fun j => x j / |x i|, key x _ hpos.ne' ⟨i, rfl⟩ hmin, ⟨i, hat⟩, hone,
    ⟨|x i|⁻¹, inv_pos.2 hpos, fun j => div_eq_inv_mul _ _⟩, fun a ha => ?_, ?_⟩
  · rw [key (fun j => a * x j) (a * |x i|) (mul_pos ha hpos).ne'
      ⟨i, by rw [abs_mul, abs_of_pos ha]⟩
      (fun j => by rw [abs_mul, abs_of_pos ha]; exact mul_le_mul_of_nonneg_left (hmin j) ha.le)]
    congr 1
    funext j
    rw [mul_div_mul_left _ _ ha.ne']
  · rw [key _ 1 one_ne_zero ⟨i, hat⟩ hone]
    simp only [div_one]

/-- `(3, -4)` has no zero entry. -/
example : ∀ i, (![3, -4] : Fin 2 → ℝ) i ≠ 0 := by
  intro i; fin_cases i <;> norm_num

/-- What happens for the zero vector: every entry of the result is `nan`. -/
theorem C41_zero_vector {d : ℕ} {p : ENNReal} (h0 : p ≠ 0) (hd : 0 < d) (s : Unit) :
    (instanceUnitNormScaler (.of p) d).transformPartial s (fun _ => 0)
      = .ok (fun _ => .nan) s := by
  have hz : lpNorm p (fun _ : Fin d => (0 : ℝ)) = 0 := by
    have := lpNorm_smul h0 (le_refl 0) (fun _ : Fin d => (0 : ℝ))
    simpa using this
  simp [instanceUnitNormScaler, instanceUnitNorm, npNorm_eq h0 hd, hz, Except.map, npDiv]

/-- A nontrivial case: `(3, -4)` has 2-norm 5. -/
example : ∃ y : Fin 2 → ℝ, (instanceUnitNormScaler (.of 2) 2).transformPartial () ![3, -4]
    = .ok (fun i => .fin (y i)) () ∧ lpNorm 2 y = 1 := by
  obtain ⟨y, h1, h2, -⟩ := C41_unit_norm (p := 2) (by norm_num) ![3, -4]
    (by intro h; have := congrFun h 0; norm_num at this) ()
  exact ⟨y, h1, h2⟩

/-! ### C42 -/

theorem entries_card {K : Type*} {d : ℕ} (x : Fin d → K) : (entries x).card = d := by
  simp [entries]

theorem npMeanFin_eq {K : Type*} [Field K] {d : ℕ} (x : Fin d → K) :
    npMeanFin x = meanOf (entries x) := by
  unfold npMeanFin meanOf
  rw [entries_card]
  rfl

theorem npStdFin_eq {d : ℕ} (x : Fin d → ℝ) :
    npStdFin Real.sqrt x = Real.sqrt (varianceOf (entries x)) := by
  unfold npStdFin varianceOf
  rw [entries_card, ← npMeanFin_eq]
  simp [entries, Multiset.map_map, Finset.sum, Function.comp_def]

theorem entries_affine {K : Type*} [Field K] {d : ℕ} (a b : K) (x : Fin d → K) :
    entries (fun i => a * x i + b) = (entries x).map fun t => a * t + b := by
  simp [entries, Multiset.map_map, Function.comp_def]

theorem standardize_eq {d : ℕ} {x : Fin d → ℝ} (h : varianceOf (entries x) ≠ 0) :
    instanceStandardize Real.sqrt x = fun i =>
      .fin ((x i - meanOf (entries x)) / Real.sqrt (varianceOf (entries x))) := by
  have : Real.sqrt (varianceOf (entries x)) ≠ 0 :=
    (Real.sqrt_pos.2 (lt_of_le_of_ne (varianceOf_nonneg _) (Ne.symm h))).ne'
  funext i
  simp only [instanceStandardize, npMeanFin_eq, npStdFin_eq, npDiv, if_neg this]

/-- **C42.** For every vector whose entries are not all equal the scaler returns
finite numbers with mean 0 and population variance (hence deviation) 1, and
`a * x + b` with `a > 0` gives the same result. -/
theorem C42_standard {d : ℕ} (x : Fin d → ℝ) (h : varianceOf (entries x) ≠ 0) (s : Unit) :
    ∃ y : Fin d → ℝ,
      (instanceStandardScaler Real.sqrt d).transformPartial s x = .ok (fun i => .fin (y i)) s ∧
      meanOf (entries y) = 0 ∧ varianceOf (entries y) = 1 ∧
      ∀ a b : ℝ, 0 < a →
        (instanceStandardScaler Real.sqrt d).transformPartial s (fun i => a * x i + b)
          = .ok (fun i => .fin (y i)) s := by
  have hpos : 0 < varianceOf (entries x) := lt_of_le_of_ne (varianceOf_nonneg _) (Ne.symm h)
  have hsq := Real.sqrt_pos.2 hpos
  have hne : entries x ≠ 0 := by
    intro h0; apply h; rw [h0]; simp [varianceOf]
  set m := meanOf (entries x) with hm
  set r := Real.sqrt (varianceOf (entries x)) with hr
  have hy : (fun i => (x i - m) / r) = fun i => r⁻¹ * x i + -(m / r) := by
    funext i; field_simp; ring
  refine ⟨fun i => (x i - m) / r, ?_, ?_, ?_, ?_⟩
  · simp only [instanceStandardScaler, standardize_eq h, ← hm, ← hr]
  · rw [hy, entries_affine, meanOf_affine hne, ← hm]
    field_simp
    ring
  · rw [hy, entries_affine, varianceOf_affine hne, inv_pow, hr, Real.sq_sqrt hpos.le]
    field_simp
  · intro a b ha
    have hv : varianceOf (entries fun i => a * x i + b) = a ^ 2 * varianceOf (entries x) := by
      rw [entries_affine, varianceOf_affine hne]
    have hv' : varianceOf (entries fun i => a * x i + b) ≠ 0 := by rw [hv]; positivity
    simp only [instanceStandardScaler, standardize_eq hv', hv]
    rw [entries_affine, meanOf_affine hne, ← hm, Real.sqrt_mul (sq_nonneg a),
      Real.sqrt_sq ha.le, ← hr]
    congr 1
    funext i
    congr 1
    field_simp
    ring

/-- **C42.** Fitting changes nothing and `fit_transform_partial` is `transform_partial`. -/
theorem C42_fit {d : ℕ} (s : Unit) (x : Fin d → ℝ) (a : FitArg (Fin d → ℝ)) :
    (instanceStandardScaler Real.sqrt d).fitPartial s a = .ok () s ∧
    (instanceStandardScaler Real.sqrt d).fitTransformPartial s x =
      (instanceStandardScaler Real.sqrt d).transformPartial s x :=
  ⟨rfl, rfl⟩

/-- **C42.** Standardising a standardised vector changes nothing. -/
theorem C42_twice {d : ℕ} (x : Fin d → ℝ) (h : varianceOf (entries x) ≠ 0) (s : Unit) :
    ∃ y : Fin d → ℝ,
      (instanceStandardScaler Real.sqrt d).transformPartial s x = .ok (fun i => .fin (y i)) s ∧
      (instanceStandardScaler Real.sqrt d).transformPartial s y = .ok (fun i => .fin (y i)) s := by
  obtain ⟨y, h1, h2, h3, -⟩ := C42_standard x h s
  refine ⟨y, h1, ?_⟩
  have hy : varianceOf (entries y) ≠ 0 := by rw [h3]; exact one_ne_zero
  simp only [instanceStandardScaler, standardize_eq hy, h2, h3, Real.sqrt_one, sub_zero, div_one]

/-- A constant vector: every entry of the result is `nan`. -/
theorem C42_constant_vector {d : ℕ} (x : Fin d → ℝ) (h : varianceOf (entries x) = 0) (s : Unit) :
    (instanceStandardScaler Real.sqrt d).transformPartial s x = .ok (fun _ => .nan) s := by
  simp only [instanceStandardScaler]
  congr 1
  funext i
  have hx : x i = meanOf (entries x) :=
    eq_mean_of_variance_zero h (by simp [entries])
  simp only [instanceStandardize, npMeanFin_eq, npStdFin_eq, h, Real.sqrt_zero, ← hx, npDiv]
  simp

/-- A nontrivial case. -/
example : varianceOf (entries ![(1 : ℝ), 2, 6]) ≠ 0 := by
  simp [varianceOf, meanOf, entries, Fin.univ_succ]
  norm_num

/-! ### C43 -/

/-- **C43.** Whatever matrix was fitted before, transforming returns the matrix
itself, and so does `fit_transform`. -/
theorem C43_identity {α : Type*} (s : Unit) (fitted X : List α) :
    ∃ s', (identityScaler α).fit s fitted = .ok () s' ∧
      (identityScaler α).transform s' X = .ok X s' ∧
      (identityScaler α).fitTransform s' X = .ok X s' := by
  have key : ∀ (f : Unit → α → Res Unit α) (hf : ∀ s x, f s x = .ok x s) (X : List α) (s : Unit),
      inOrder f s X = .ok X s := by
    intro f hf X
    induction X with
    | nil => intro s; rfl
    | cons x X ih => intro s; simp [inOrder, hf, ih]
  have keyfit : ∀ (X : List α), ∃ l, inOrder (fun (s : Unit) (_ : α) => Res.ok () s) () X
      = .ok l () := by
    intro X
    induction X with
    | nil => exact ⟨[], rfl⟩
    | cons x X ih => obtain ⟨l, hl⟩ := ih; exact ⟨() :: l, by simp [inOrder, hl]⟩
  refine ⟨(), ?_, ?_, ?_⟩
  · obtain ⟨l, hl⟩ := keyfit fitted
    unfold Transformer.fit
    rw [iterate_none, Gen.forEach_ofList, pairs, inOrder_map]
    simp only [identityScaler, hl, Res.map_ok]
  · unfold Transformer.transform
    rw [iterate_none, Gen.forEach_ofList, pairs, inOrder_map]
    exact key _ (fun _ _ => rfl) X ()
  · unfold Transformer.fitTransform
    rw [iterate_none, Gen.forEach_ofList, pairs, inOrder_map]
    exact key _ (fun _ _ => rfl) X ()

example : ((identityScaler ℕ).transform () [1, 2, 3]).out = .ok [1, 2, 3] := by decide

end Pysad
