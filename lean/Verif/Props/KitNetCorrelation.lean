import Verif.Props.KitNet
import Verif.Spec.Correlation
import Mathlib.NumberTheory.Harmonic.Bounds

/-! Property C163: which distances of the features `KitNet` clusters. -/

namespace Pysad

open Spec

namespace Correlation
variable {n : ℕ}

theorem sum_products (xs : List (Fin n → ℝ)) (i j : Fin n) (a b : ℝ) :
    (xs.map fun x => (x i - a) * (x j - b)).sum = (xs.map fun x => x i * x j).sum
      - b * (xs.map fun x => x i).sum - a * (xs.map fun x => x j).sum + xs.length * (a * b) := by
  induction xs with
  | nil => simp
  | cons x xs ih =>
    simp only [List.map_cons, List.sum_cons, List.length_cons, ih]
    push_cast
    ring

/-- The number of instances times the covariance. -/
theorem comoment_eq (xs : List (Fin n → ℝ)) (i j : Fin n) (hx : xs ≠ []) :
    xs.length * covarianceOf xs i j = (xs.map fun x => x i * x j).sum
      - (xs.map fun x => x i).sum * (xs.map fun x => x j).sum / xs.length := by
  have hN : (0 : ℝ) < xs.length := by
    have := List.length_pos_of_ne_nil hx
    exact_mod_cast this
  unfold covarianceOf meanOf
  simp only [Multiset.sum_coe, Multiset.coe_card, List.length_map]
  rw [sum_products]
  field_simp
  ring

/-- The sum by which the running deviations fall short. -/
noncomputable def shortfall (xs : List (Fin n → ℝ)) (i j : Fin n) : ℝ :=
  ∑ t ∈ Finset.range xs.length, runningDeviation xs i t * runningDeviation xs j t / t

theorem shortfall_snoc (xs : List (Fin n → ℝ)) (x : Fin n → ℝ) (i j : Fin n) :
    shortfall (xs ++ [x]) i j = shortfall xs i j
      + runningDeviation (xs ++ [x]) i xs.length * runningDeviation (xs ++ [x]) j xs.length
        / xs.length := by
  unfold shortfall
  rw [List.length_append, List.length_singleton, Finset.sum_range_succ]
  congr 1
  refine Finset.sum_congr rfl fun t ht => ?_
  rw [Finset.mem_range] at ht
  rw [runningDeviation_snoc _ _ _ ht, runningDeviation_snoc _ _ _ ht]

/-- The number of instances times the covariance is the sum of the products of the running
deviations plus what they fall short. -/
theorem comoment_split (xs : List (Fin n → ℝ)) (i j : Fin n) :
    xs.length * covarianceOf xs i j = deviationProduct xs i j + shortfall xs i j := by
  induction xs using List.reverseRecOn with
  | nil => simp [deviationProduct, shortfall]
  | append_singleton xs x ih =>
    rw [deviationProduct_snoc, shortfall_snoc, comoment_eq _ _ _ (by simp)]
    rcases eq_or_ne xs [] with rfl | hx
    · simp [deviationProduct, shortfall, runningDeviation]
    · have hN : (0 : ℝ) < xs.length := by
        have := List.length_pos_of_ne_nil hx
        exact_mod_cast this
      rw [comoment_eq _ _ _ hx] at ih
      rw [runningDeviation_last, runningDeviation_last]
      have e : (xs.map fun x => x i * x j).sum = deviationProduct xs i j + shortfall xs i j
          + (xs.map fun x => x i).sum * (xs.map fun x => x j).sum / xs.length := by linarith
      simp only [List.map_append, List.sum_append, List.map_cons, List.map_nil, List.sum_cons,
        List.sum_nil, add_zero, List.length_append, List.length_singleton, e]
      push_cast
      field_simp
      ring

theorem deviationProduct_cauchy (xs : List (Fin n → ℝ)) (i j : Fin n) :
    deviationProduct xs i j ^ 2 ≤ deviationProduct xs i i * deviationProduct xs j j := by
  have h := Finset.sum_mul_sq_le_sq_mul_sq (Finset.range xs.length) (runningDeviation xs i)
    (runningDeviation xs j)
  simpa only [deviationProduct, ← pow_two] using h

theorem shortfall_cauchy (xs : List (Fin n → ℝ)) (i j : Fin n) :
    shortfall xs i j ^ 2 ≤ shortfall xs i i * shortfall xs j j := by
  have h := Finset.sum_mul_sq_le_sq_mul_sq (Finset.range xs.length)
    (fun t => runningDeviation xs i t / √t) (fun t => runningDeviation xs j t / √t)
  have e : ∀ t : ℕ, √(t : ℝ) * √t = t := fun t => Real.mul_self_sqrt (Nat.cast_nonneg t)
  simpa only [shortfall, pow_two, div_mul_div_comm, e] using h

theorem deviationProduct_nonneg (xs : List (Fin n → ℝ)) (i : Fin n) :
    0 ≤ deviationProduct xs i i :=
  Finset.sum_nonneg fun _ _ => mul_self_nonneg _

theorem shortfall_nonneg (xs : List (Fin n → ℝ)) (i : Fin n) : 0 ≤ shortfall xs i i :=
  Finset.sum_nonneg fun _ _ => div_nonneg (mul_self_nonneg _) (Nat.cast_nonneg _)

/-- The comparison of two cosines: with `A = a + e`, `B = b + f` and `C = c + g`. -/
theorem cosine_gap {a b c e f g : ℝ} (ha : 0 < a) (hb : 0 < b) (he : 0 ≤ e) (hf : 0 ≤ f)
    (hc : c ^ 2 ≤ a * b) (hg : g ^ 2 ≤ e * f) :
    |c / (√a * √b) - (c + g) / (√(a + e) * √(b + f))| ≤ 3 / 2 * (e / (a + e) + f / (b + f)) := by
  have hA : 0 < a + e := by linarith
  have hB : 0 < b + f := by linarith
  set p := √a * √b with hp
  set P := √(a + e) * √(b + f) with hP
  have hp0 : 0 < p := mul_pos (Real.sqrt_pos.2 ha) (Real.sqrt_pos.2 hb)
  have hP0 : 0 < P := mul_pos (Real.sqrt_pos.2 hA) (Real.sqrt_pos.2 hB)
  have hp2 : p ^ 2 = a * b := by rw [hp, mul_pow, Real.sq_sqrt ha.le, Real.sq_sqrt hb.le]
  have hP2 : P ^ 2 = (a + e) * (b + f) := by
    rw [hP, mul_pow, Real.sq_sqrt hA.le, Real.sq_sqrt hB.le]
  have hpP : p ≤ P := by
    apply abs_le_of_sq_le_sq' _ hP0.le |>.2
    rw [hp2, hP2]
    nlinarith
  have hcp : |c| ≤ p := abs_le_of_sq_le_sq (by rw [hp2]; exact hc) hp0.le
  set u := e / (a + e) with hu
  set w := f / (b + f) with hw
  have hu0 : 0 ≤ u := div_nonneg he hA.le
  have hw0 : 0 ≤ w := div_nonneg hf hB.le
  have heu : e = u * (a + e) := by rw [hu, div_mul_cancel₀ _ hA.ne']
  have hfw : f = w * (b + f) := by rw [hw, div_mul_cancel₀ _ hB.ne']
  -- the difference of the numerators
  have h1 : |g / P| ≤ (u + w) / 2 := by
    apply abs_le_of_sq_le_sq _ (by positivity)
    rw [div_pow, hP2]
    have : g ^ 2 / ((a + e) * (b + f)) ≤ u * w := by
      rw [div_le_iff₀ (mul_pos hA hB)]
      calc g ^ 2 ≤ e * f := hg
        _ = u * w * ((a + e) * (b + f)) := by rw [hu, hw]; field_simp
    nlinarith [sq_nonneg (u - w)]
  -- the difference of the denominators
  have h2 : |c / p - c / P| ≤ u + w := by
    have e1 : c / p - c / P = c / p * (1 - p / P) := by field_simp
    have hr0 : 0 ≤ p / P := by positivity
    have hr1 : p / P ≤ 1 := (div_le_one hP0).2 hpP
    have hq : |c / p| ≤ 1 := by
      rw [abs_div, abs_of_pos hp0]
      exact (div_le_one hp0).2 hcp
    rw [e1, abs_mul, abs_of_nonneg (by linarith : 0 ≤ 1 - p / P)]
    have h3 : 1 - p / P ≤ 1 - (p / P) ^ 2 := by nlinarith
    have h4 : (p / P) ^ 2 = (1 - u) * (1 - w) := by
      rw [div_pow, hp2, hP2, hu, hw]
      field_simp
      ring
    have h5 : 1 - (p / P) ^ 2 ≤ u + w := by rw [h4]; nlinarith [mul_nonneg hu0 hw0]
    calc |c / p| * (1 - p / P) ≤ 1 * (1 - p / P) :=
          mul_le_mul_of_nonneg_right hq (by linarith)
      _ ≤ u + w := by linarith
  have e2 : c / p - (c + g) / P = (c / p - c / P) - g / P := by field_simp; ring
  rw [e2]
  have := abs_sub (c / p - c / P) (g / P)
  linarith

theorem sum_between {l : List ℝ} {lo hi : ℝ} (h : ∀ y ∈ l, lo ≤ y ∧ y ≤ hi) :
    l.length * lo ≤ l.sum ∧ l.sum ≤ l.length * hi := by
  induction l with
  | nil => simp
  | cons y l ih =>
    obtain ⟨h1, h2⟩ := ih fun z hz => h z (by simp [hz])
    obtain ⟨h3, h4⟩ := h y (by simp)
    simp only [List.length_cons, List.sum_cons]
    push_cast
    constructor <;> linarith

/-- A running deviation is at most the width of an interval with all values of the feature. -/
theorem runningDeviation_abs {xs : List (Fin n → ℝ)} {i : Fin n} {lo hi : ℝ}
    (h : ∀ x ∈ xs, lo ≤ x i ∧ x i ≤ hi) {t : ℕ} (ht : t < xs.length) :
    |runningDeviation xs i t| ≤ hi - lo := by
  unfold runningDeviation
  have e : (xs.map fun x => x i).getD t 0 = xs[t] i := by
    rw [List.getD_eq_getElem?_getD, List.getElem?_eq_getElem (by simpa using ht)]
    simp
  rw [e]
  obtain ⟨h1, h2⟩ := h _ (List.getElem_mem ht)
  have hs := sum_between (l := (xs.take (t + 1)).map fun x => x i) (lo := lo) (hi := hi) (by
    intro y hy
    obtain ⟨x, hx, rfl⟩ := List.mem_map.1 hy
    exact h x (List.mem_of_mem_take hx))
  have hl : ((xs.take (t + 1)).map fun x => x i).length = t + 1 := by simp; omega
  rw [hl] at hs
  have hp : (0 : ℝ) < (t + 1 : ℕ) := by positivity
  have h3 : lo ≤ ((xs.take (t + 1)).map fun x => x i).sum / (t + 1 : ℕ) := by
    rw [le_div_iff₀ hp]; linarith [hs.1]
  have h4 : ((xs.take (t + 1)).map fun x => x i).sum / (t + 1 : ℕ) ≤ hi := by
    rw [div_le_iff₀ hp]; linarith [hs.2]
  rw [abs_le]
  constructor <;> linarith

theorem shortfall_le {xs : List (Fin n → ℝ)} {i : Fin n} {lo hi : ℝ} (hx : xs ≠ [])
    (h : ∀ x ∈ xs, lo ≤ x i ∧ x i ≤ hi) :
    shortfall xs i i ≤ (hi - lo) ^ 2 * (1 + Real.log xs.length) := by
  obtain ⟨N, hN⟩ : ∃ N, xs.length = N + 1 :=
    ⟨xs.length - 1, by have := List.length_pos_of_ne_nil hx; omega⟩
  have h1 : shortfall xs i i ≤ (hi - lo) ^ 2 * (harmonic N : ℝ) := by
    unfold shortfall
    rw [hN, Finset.sum_range_succ']
    simp only [Nat.cast_zero, div_zero, add_zero]
    unfold harmonic
    push_cast
    rw [Finset.mul_sum]
    refine Finset.sum_le_sum fun t ht => ?_
    rw [Finset.mem_range] at ht
    have ha := runningDeviation_abs h (t := t + 1) (by omega)
    have hsq : runningDeviation xs i (t + 1) * runningDeviation xs i (t + 1) ≤ (hi - lo) ^ 2 := by
      rw [← pow_two]
      exact sq_le_sq' (by linarith [(abs_le.1 ha).1]) (abs_le.1 ha).2
    rw [div_eq_mul_inv]
    exact mul_le_mul_of_nonneg_right hsq (by positivity)
  have h2 : (harmonic N : ℝ) ≤ 1 + Real.log xs.length := by
    refine (harmonic_le_one_add_log N).trans ?_
    rw [hN]
    rcases Nat.eq_zero_or_pos N with rfl | hpos
    · simp
    · have : Real.log (N : ℝ) ≤ Real.log ((N + 1 : ℕ) : ℝ) := by
        apply Real.log_le_log (by exact_mod_cast hpos)
        push_cast
        linarith
      linarith
  exact h1.trans (mul_le_mul_of_nonneg_left h2 (sq_nonneg _))

/-- For a feature that is not constant, the sum of the squares of the running deviations is at
least half of that of the deviations from the mean. -/
theorem shortfall_le_deviation (xs : List (Fin n → ℝ)) (i : Fin n) :
    shortfall xs i i ≤ deviationProduct xs i i := by
  refine Finset.sum_le_sum fun t _ => ?_
  rcases Nat.eq_zero_or_pos t with rfl | ht
  · simpa using mul_self_nonneg _
  · exact div_le_self (mul_self_nonneg _) (by exact_mod_cast ht)

theorem deviation_pos {xs : List (Fin n → ℝ)} {i : Fin n} (h : 0 < covarianceOf xs i i) :
    0 < deviationProduct xs i i := by
  have h1 := comoment_split xs i i
  have h2 := shortfall_le_deviation xs i
  have h3 : xs ≠ [] := by
    rintro rfl
    simp [covarianceOf, meanOf] at h
  have hN : (0 : ℝ) < xs.length := by
    have := List.length_pos_of_ne_nil h3
    exact_mod_cast this
  have := mul_pos hN h
  linarith

/-- The distance, for two features that are not constant, is one minus a cosine. -/
theorem featureDistance_eq {xs : List (Fin n → ℝ)} {i j : Fin n}
    (hi : 0 < deviationProduct xs i i) (hj : 0 < deviationProduct xs j j) :
    featureDistance Real.sqrt xs i j = 1 - deviationProduct xs i j
      / (√(deviationProduct xs i i) * √(deviationProduct xs j j)) := by
  unfold featureDistance
  have hp : 0 < √(deviationProduct xs i i) * √(deviationProduct xs j j) :=
    mul_pos (Real.sqrt_pos.2 hi) (Real.sqrt_pos.2 hj)
  simp only [if_neg hp.ne']
  apply max_eq_right
  have : deviationProduct xs i j ≤ √(deviationProduct xs i i) * √(deviationProduct xs j j) := by
    apply (abs_le_of_sq_le_sq' _ hp.le).2
    rw [mul_pow, Real.sq_sqrt hi.le, Real.sq_sqrt hj.le]
    exact deviationProduct_cauchy xs i j
  have := (div_le_one hp).2 this
  linarith

theorem correlation_eq {xs : List (Fin n → ℝ)} {i j : Fin n} (hx : xs ≠ []) :
    correlationOf xs i j = (deviationProduct xs i j + shortfall xs i j)
      / (√(deviationProduct xs i i + shortfall xs i i)
        * √(deviationProduct xs j j + shortfall xs j j)) := by
  have hN : (0 : ℝ) < xs.length := by
    have := List.length_pos_of_ne_nil hx
    exact_mod_cast this
  unfold correlationOf
  rw [← comoment_split, ← comoment_split, ← comoment_split, Real.sqrt_mul hN.le,
    Real.sqrt_mul hN.le, show √(xs.length : ℝ) * √(covarianceOf xs i i)
      * (√(xs.length : ℝ) * √(covarianceOf xs j j)) = (√(xs.length : ℝ) * √(xs.length : ℝ))
        * (√(covarianceOf xs i i) * √(covarianceOf xs j j)) by ring,
    Real.mul_self_sqrt hN.le, mul_div_mul_left _ _ hN.ne']

theorem distance_near {xs : List (Fin n → ℝ)} {i j : Fin n} {lo hi lo' hi' : ℝ}
    (hxi : ∀ x ∈ xs, lo ≤ x i ∧ x i ≤ hi) (hxj : ∀ x ∈ xs, lo' ≤ x j ∧ x j ≤ hi')
    (hi0 : 0 < covarianceOf xs i i) (hj0 : 0 < covarianceOf xs j j) :
    |featureDistance Real.sqrt xs i j - (1 - correlationOf xs i j)|
      ≤ 3 / 2 * ((1 + Real.log xs.length) / xs.length)
        * ((hi - lo) ^ 2 / covarianceOf xs i i + (hi' - lo') ^ 2 / covarianceOf xs j j) := by
  have hx : xs ≠ [] := by
    rintro rfl
    simp [covarianceOf, meanOf] at hi0
  have hN : (0 : ℝ) < xs.length := by
    have := List.length_pos_of_ne_nil hx
    exact_mod_cast this
  have hA := deviation_pos hi0
  have hB := deviation_pos hj0
  rw [featureDistance_eq hA hB, correlation_eq hx]
  have h := cosine_gap hA hB (shortfall_nonneg xs i) (shortfall_nonneg xs j)
    (deviationProduct_cauchy xs i j) (shortfall_cauchy xs i j)
  have key : ∀ (k : Fin n) (a b : ℝ), (∀ x ∈ xs, a ≤ x k ∧ x k ≤ b) → 0 < covarianceOf xs k k →
      shortfall xs k k / (deviationProduct xs k k + shortfall xs k k)
        ≤ (1 + Real.log xs.length) / xs.length * ((b - a) ^ 2 / covarianceOf xs k k) := by
    intro k a b hk h0
    rw [← comoment_split, div_mul_div_comm]
    apply div_le_div_of_nonneg_right _ (by positivity)
    rw [mul_comm]
    exact shortfall_le hx hk
  have k1 := key i lo hi hxi hi0
  have k2 := key j lo' hi' hxj hj0
  rw [show ∀ u w : ℝ, 1 - u - (1 - w) = -(u - w) from fun u w => by ring, abs_neg]
  refine h.trans ?_
  rw [mul_assoc, mul_add]
  linarith

/-! Features that are linear functions of each other, and other units. -/

theorem sum_affine (l : List (Fin n → ℝ)) (i : Fin n) (a b : ℝ) :
    (l.map fun x => a * x i + b).sum = a * (l.map fun x => x i).sum + l.length * b := by
  induction l with
  | nil => simp
  | cons x l ih => simp only [List.map_cons, List.sum_cons, ih, List.length_cons]; push_cast; ring

theorem runningDeviation_linear {xs ys : List (Fin n → ℝ)} {i j : Fin n} {a b : ℝ}
    (h : ys.map (fun y => y j) = xs.map fun x => a * x i + b) {t : ℕ} (ht : t < xs.length) :
    runningDeviation ys j t = a * runningDeviation xs i t := by
  unfold runningDeviation
  have e1 : (ys.take (t + 1)).map (fun y => y j) = (xs.take (t + 1)).map fun x => a * x i + b := by
    rw [List.map_take, h, ← List.map_take]
  have e2 : ((xs.take (t + 1)).map fun x => a * x i + b).sum
      = a * ((xs.take (t + 1)).map fun x => x i).sum + (t + 1 : ℕ) * b := by
    have hl : (xs.take (t + 1)).length = t + 1 := by simp; omega
    rw [sum_affine, hl]
  rw [e1, e2, h, List.getD_eq_getElem?_getD, List.getElem?_eq_getElem (by simpa using ht),
    List.getD_eq_getElem?_getD, List.getElem?_eq_getElem (by simpa using ht)]
  simp only [Option.getD_some, List.getElem_map]
  have hp : ((t + 1 : ℕ) : ℝ) ≠ 0 := by positivity
  field_simp
  ring

theorem deviationProduct_linear {xs ys : List (Fin n → ℝ)} {i j i' j' : Fin n} {a b a' b' : ℝ}
    (h : ys.map (fun y => y i') = xs.map fun x => a * x i + b)
    (h' : ys.map (fun y => y j') = xs.map fun x => a' * x j + b') :
    deviationProduct ys i' j' = a * a' * deviationProduct xs i j := by
  have hl : ys.length = xs.length := by simpa using congrArg List.length h
  unfold deviationProduct
  rw [hl, Finset.mul_sum]
  refine Finset.sum_congr rfl fun t ht => ?_
  rw [Finset.mem_range] at ht
  rw [runningDeviation_linear h ht, runningDeviation_linear h' ht]
  ring

/-- The units in which features are measured make no difference. -/
theorem featureDistance_units (xs : List (Fin n → ℝ)) (a b : Fin n → ℝ) (ha : ∀ i, 0 < a i)
    (i j : Fin n) :
    featureDistance Real.sqrt (xs.map fun x k => a k * x k + b k) i j
      = featureDistance Real.sqrt xs i j := by
  have h : ∀ k, (xs.map fun x k => a k * x k + b k).map (fun y => y k)
      = xs.map fun x => a k * x k + b k := fun k => by simp
  unfold featureDistance
  simp only
  rw [deviationProduct_linear (h i) (h i), deviationProduct_linear (h i) (h j),
    deviationProduct_linear (h j) (h j)]
  have hs : ∀ k, √(a k * a k * deviationProduct xs k k) = a k * √(deviationProduct xs k k) := by
    intro k
    rw [Real.sqrt_mul (mul_self_nonneg _), Real.sqrt_mul_self (ha k).le]
  rw [hs, hs, show a i * √(deviationProduct xs i i) * (a j * √(deviationProduct xs j j))
    = a i * a j * (√(deviationProduct xs i i) * √(deviationProduct xs j j)) by ring]
  have hij : 0 < a i * a j := mul_pos (ha i) (ha j)
  by_cases hp : √(deviationProduct xs i i) * √(deviationProduct xs j j) = 0
  · have h0 : deviationProduct xs i j = 0 := by
      have hc := deviationProduct_cauchy xs i j
      have : deviationProduct xs i i * deviationProduct xs j j = 0 := by
        rw [← Real.mul_self_sqrt (deviationProduct_nonneg xs i),
          ← Real.mul_self_sqrt (deviationProduct_nonneg xs j)]
        linear_combination (√(deviationProduct xs i i) * √(deviationProduct xs j j)) * hp
      rw [this] at hc
      exact pow_eq_zero_iff two_ne_zero |>.1 (le_antisymm hc (sq_nonneg _))
    rw [h0, mul_zero, zero_div, zero_div]
  · rw [if_neg hp, if_neg (mul_ne_zero hij.ne' hp), mul_div_mul_left _ _ hij.ne']

theorem featureMap_units {env : KnEnv ℝ} (hsq : env.sqrt = Real.sqrt) {maxSize : ℤ}
    {xs : List (Fin n → ℝ)} {v : List (List (Fin n))} (a b : Fin n → ℝ) (ha : ∀ i, 0 < a i) :
    FeatureMap env maxSize (xs.map fun x k => a k * x k + b k) v ↔ FeatureMap env maxSize xs v := by
  unfold FeatureMap
  simp only [hsq, featureDistance_units xs a b ha]

theorem featureDistance_linear {xs : List (Fin n → ℝ)} {i j : Fin n} {a b : ℝ} (ha : a ≠ 0)
    (h : ∀ x ∈ xs, x j = a * x i + b) (hi : 0 < covarianceOf xs i i) :
    featureDistance Real.sqrt xs i j = if 0 < a then 0 else 2 := by
  have hA := deviation_pos hi
  have hj : xs.map (fun x => x j) = xs.map fun x => a * x i + b := List.map_congr_left h
  have hi' : xs.map (fun x => x i) = xs.map fun x => 1 * x i + 0 := by simp
  have e1 := deviationProduct_linear (i := i) (j := i) hi' hj
  have e2 := deviationProduct_linear (i := i) (j := i) hj hj
  rw [one_mul] at e1
  have hB : 0 < deviationProduct xs j j := by
    rw [e2]
    exact mul_pos (mul_self_pos.2 ha) hA
  rw [featureDistance_eq hA hB, e1, e2, Real.sqrt_mul (mul_self_nonneg a), Real.sqrt_mul_self_eq_abs]
  have hs := Real.mul_self_sqrt hA.le
  rw [show √(deviationProduct xs i i) * (|a| * √(deviationProduct xs i i))
    = |a| * (√(deviationProduct xs i i) * √(deviationProduct xs i i)) by ring, hs,
    mul_div_mul_right _ _ hA.ne']
  split
  · rename_i h0
    rw [abs_of_pos h0, div_self ha, sub_self]
  · rename_i h0
    rw [abs_of_nonpos (not_lt.1 h0), div_neg, div_self ha]
    norm_num

theorem covariance_nonneg (xs : List (Fin n → ℝ)) (i : Fin n) : 0 ≤ covarianceOf xs i i := by
  rcases eq_or_ne xs [] with rfl | hx
  · simp [covarianceOf, meanOf]
  · have hN : (0 : ℝ) < xs.length := by
      have := List.length_pos_of_ne_nil hx
      exact_mod_cast this
    have h := comoment_split xs i i
    have h1 := deviationProduct_nonneg xs i
    have h2 := shortfall_nonneg xs i
    by_contra hc
    have := mul_neg_of_pos_of_neg hN (not_le.1 hc)
    linarith

theorem featureDistance_constant {xs : List (Fin n → ℝ)} {i j : Fin n}
    (h : covarianceOf xs i i = 0 ∨ covarianceOf xs j j = 0) :
    featureDistance Real.sqrt xs i j = 1 := by
  have key : ∀ k, covarianceOf xs k k = 0 → deviationProduct xs k k = 0 := by
    intro k hk
    have h1 := comoment_split xs k k
    rw [hk, mul_zero] at h1
    have h2 := deviationProduct_nonneg xs k
    have h3 := shortfall_nonneg xs k
    linarith
  have h0 : deviationProduct xs i j = 0 := by
    have hc := deviationProduct_cauchy xs i j
    rw [show deviationProduct xs i i * deviationProduct xs j j = 0 by
      rcases h with h | h
      · rw [key i h, zero_mul]
      · rw [key j h, mul_zero]] at hc
    exact pow_eq_zero_iff two_ne_zero |>.1 (le_antisymm hc (sq_nonneg _))
  unfold featureDistance
  simp only [h0, zero_div, sub_zero]
  norm_num

end Correlation

/-! ### C163 -/

section
variable {K β : Type*} [Field K] [LinearOrder K] [IsStrictOrderedRing K] [FloorRing K] {n : ℕ}

/-- **C84 (the map).** In every history the feature map, once there, is that of the distances of
the features over the first `fm + 1` fitted instances. -/
theorem C84_kitnet_map {env : KnEnv K} (law : LinkageLaws env) (hn : 2 ≤ n) (maxSize : ℤ)
    (fmo : Option ℕ) (ad : ℕ) (lr hr : K) (hhr : 0 ≤ hr) (h : List (Call (Fin n → K) β))
    (m : KnState K n) (v : List (List (Fin n)))
    (hm : (calls (KitNet.detector env) (KitNet.new n maxSize fmo ad lr hr) h).2.model = some m)
    (hv : m.v = some v) :
    fmo.getD ad < (fitted h).length ∧
      FeatureMap env maxSize (mapInstances (fmo.getD ad) (fitted h)) v := by
  obtain ⟨_, _, _, _, _, _, _, hinv⟩ := kitnet_calls law hn maxSize fmo ad lr hr hhr h
  have hi : KitNet.init (calls (KitNet.detector env) (KitNet.new n maxSize fmo ad lr hr) h).2
      = m := by simp [KitNet.init, hm]
  rw [hi] at hinv
  by_cases hlen : (fitted h).length ≤ fmo.getD ad
  · rw [(hinv.early hlen).1] at hv; cases hv
  · obtain ⟨v', hc, hv', _⟩ := hinv.late (by omega)
    rw [hv] at hv'
    cases hv'
    refine ⟨by omega, ?_⟩
    rw [hinv.fm_eq, hinv.m_eq] at hc
    have := cluster_featureMap law hn _ _ hc
    unfold FeatureMap at this ⊢
    rwa [show max 1 (if maxSize ≤ 0 then 1 else maxSize) = max 1 maxSize by split <;> omega]
      at this

end

/-- **C163.** The feature map of `KitNet` is cut from the tree that linkage makes of one minus
Pearson's correlation of the features over the first `fm + 1` fitted instances. -/
def C163_statement : Prop :=
  ∀ (n : ℕ) (env : KnEnv ℝ), LinkageLaws env → env.sqrt = Real.sqrt → 2 ≤ n →
  ∀ (maxSize : ℤ) (fmo : Option ℕ) (ad : ℕ) (lr hr : ℝ), 0 ≤ hr →
  ∀ (h : List (Call (Fin n → ℝ) Unit)) (m : KnState ℝ n) (v : List (List (Fin n))),
    (calls (KitNet.detector env) (KitNet.new n maxSize fmo ad lr hr) h).2.model = some m →
    m.v = some v →
    ∃ (L : List ℝ) (t : Dendro n), 2 * L.length = n * (n - 1) ∧
      (∀ i j : Fin n, i < j → L[pairIndex n i j]?
        = some (1 - correlationOf (mapInstances (fmo.getD ad) (fitted h)) i j)) ∧
      env.linkageTree n L = .ok t ∧ LargestSubtrees (max 1 maxSize) t v

section
variable {β : Type*} {n : ℕ}

/-- **C163 (partial).** The distances `D` from which the map is made differ from one minus
Pearson's correlation by at most `3/2 (1 + ln N) / N` times the sum over both features of the
squared width of their range divided by their variance (`N = fm + 1`). For features of which one
is a linear function of the other they agree: the distance is 0, or 2 if the function decreases;
and a constant feature has the distance 1 to every other. Missing: they are not equal in
general. -/
theorem C163_kitnet_distance_partial {env : KnEnv ℝ} (law : LinkageLaws env)
    (hsq : env.sqrt = Real.sqrt) (hn : 2 ≤ n) (maxSize : ℤ) (fmo : Option ℕ) (ad : ℕ) (lr hr : ℝ)
    (hhr : 0 ≤ hr) (h : List (Call (Fin n → ℝ) β)) (m : KnState ℝ n) (v : List (List (Fin n)))
    (hm : (calls (KitNet.detector env) (KitNet.new n maxSize fmo ad lr hr) h).2.model = some m)
    (hv : m.v = some v) :
    let xs := mapInstances (fmo.getD ad) (fitted h)
    ∃ (D : Fin n → Fin n → ℝ) (L : List ℝ) (t : Dendro n), 2 * L.length = n * (n - 1) ∧
      (∀ i j : Fin n, i < j → L[pairIndex n i j]? = some (D i j)) ∧
      env.linkageTree n L = .ok t ∧ LargestSubtrees (max 1 maxSize) t v ∧
      xs.length = fmo.getD ad + 1 ∧
      (∀ (i j : Fin n) (lo hi lo' hi' : ℝ), (∀ x ∈ xs, lo ≤ x i ∧ x i ≤ hi) →
        (∀ x ∈ xs, lo' ≤ x j ∧ x j ≤ hi') → 0 < covarianceOf xs i i → 0 < covarianceOf xs j j →
        |D i j - (1 - correlationOf xs i j)|
          ≤ 3 / 2 * ((1 + Real.log xs.length) / xs.length)
            * ((hi - lo) ^ 2 / covarianceOf xs i i + (hi' - lo') ^ 2 / covarianceOf xs j j)) ∧
      (∀ (i j : Fin n) (a b : ℝ), a ≠ 0 → (∀ x ∈ xs, x j = a * x i + b) →
        0 < covarianceOf xs i i → D i j = if 0 < a then 0 else 2) ∧
      ∀ i j : Fin n, covarianceOf xs i i = 0 ∨ covarianceOf xs j j = 0 → D i j = 1 := by
  intro xs
  obtain ⟨hlen, L, t, h1, h2, h3, h4⟩ :=
    C84_kitnet_map law hn maxSize fmo ad lr hr hhr h m v hm hv
  refine ⟨featureDistance Real.sqrt xs, L, t, h1, ?_, h3, h4, ?_, ?_, ?_, ?_⟩
  · rw [← hsq]; exact h2
  · simp [xs, mapInstances]; omega
  · intro i j lo hi lo' hi' hi1 hj1 hi0 hj0
    exact Correlation.distance_near hi1 hj1 hi0 hj0
  · intro i j a b ha hx hi0
    exact Correlation.featureDistance_linear ha hx hi0
  · intro i j hc
    exact Correlation.featureDistance_constant hc

/-- **C163 (in the limit, partial).** For features with ranges of width at most `R` and variances
of at least `s`, the distance is as close to one minus Pearson's correlation as one likes, if the
grace period is long enough. -/
theorem C163_kitnet_limit_partial (R s ε : ℝ) (hs : 0 < s) (hε : 0 < ε) :
    ∃ N : ℕ, ∀ (xs : List (Fin n → ℝ)), N ≤ xs.length → ∀ (i j : Fin n) (lo hi lo' hi' : ℝ),
      (∀ x ∈ xs, lo ≤ x i ∧ x i ≤ hi) → (∀ x ∈ xs, lo' ≤ x j ∧ x j ≤ hi') →
      hi - lo ≤ R → hi' - lo' ≤ R → s ≤ covarianceOf xs i i → s ≤ covarianceOf xs j j →
      |featureDistance Real.sqrt xs i j - (1 - correlationOf xs i j)| ≤ ε := by
  obtain ⟨N, hN⟩ := exists_nat_ge ((6 * R ^ 2 / (s * ε)) ^ 2 + 1)
  refine ⟨N, fun xs hx i j lo hi lo' hi' h1 h2 hR hR' hi0 hj0 => ?_⟩
  have hi1 := hs.trans_le hi0
  have hj1 := hs.trans_le hj0
  refine (Correlation.distance_near h1 h2 hi1 hj1).trans ?_
  have hlen : (N : ℝ) ≤ xs.length := by exact_mod_cast hx
  set M : ℝ := (xs.length : ℝ) with hM
  have hM1 : 1 ≤ M := by nlinarith [sq_nonneg (6 * R ^ 2 / (s * ε))]
  have hM0 : 0 < M := by linarith
  have hne : xs ≠ [] := by
    rintro rfl
    simp [hM] at hM0
  have hw : ∀ (k : Fin n) (a b : ℝ), (∀ x ∈ xs, a ≤ x k ∧ x k ≤ b) → b - a ≤ R →
      s ≤ covarianceOf xs k k → (b - a) ^ 2 / covarianceOf xs k k ≤ R ^ 2 / s := by
    intro k a b hk hb hc
    obtain ⟨y, hy⟩ := List.exists_mem_of_ne_nil xs hne
    have hab : 0 ≤ b - a := by linarith [(hk y hy).1, (hk y hy).2]
    exact div_le_div₀ (sq_nonneg _) (pow_le_pow_left₀ hab hb 2) hs hc
  have w1 := hw i lo hi h1 hR hi0
  have w2 := hw j lo' hi' h2 hR' hj0
  -- (1 + ln M) / M ≤ 2 / √M
  set q := √M with hq
  have hq0 : 0 < q := Real.sqrt_pos.2 hM0
  have hqq : q * q = M := Real.mul_self_sqrt hM0.le
  have hlog : 1 + Real.log M ≤ 2 * q := by
    have e : Real.log M = 2 * Real.log q := by
      rw [← hqq, Real.log_mul hq0.ne' hq0.ne']; ring
    have := Real.log_le_sub_one_of_pos hq0
    rw [e]; linarith
  have hg : (1 + Real.log M) / M ≤ 2 / q := by
    rw [div_le_div_iff₀ hM0 hq0]
    have := mul_le_mul_of_nonneg_right hlog hq0.le
    nlinarith
  have hl0 : 0 ≤ (1 + Real.log M) / M :=
    div_nonneg (by linarith [Real.log_nonneg hM1]) hM0.le
  have hRs : 0 ≤ R ^ 2 / s := div_nonneg (sq_nonneg _) hs.le
  have hqb : 6 * R ^ 2 / (s * ε) ≤ q := by
    apply Real.le_sqrt_of_sq_le
    linarith
  calc 3 / 2 * ((1 + Real.log M) / M)
        * ((hi - lo) ^ 2 / covarianceOf xs i i + (hi' - lo') ^ 2 / covarianceOf xs j j)
      ≤ 3 / 2 * ((1 + Real.log M) / M) * (R ^ 2 / s + R ^ 2 / s) :=
        mul_le_mul_of_nonneg_left (by linarith) (by positivity)
    _ ≤ 3 / 2 * (2 / q) * (R ^ 2 / s + R ^ 2 / s) :=
        mul_le_mul_of_nonneg_right (by linarith) (by linarith)
    _ = 6 * R ^ 2 / s / q := by ring
    _ ≤ ε := by
        rw [div_le_iff₀ hq0]
        rw [div_le_iff₀ (mul_pos hs hε)] at hqb
        rw [div_le_iff₀ hs]
        linarith

/-- **C163 (units).** The feature map does not depend on the units in which the features are
measured: if every feature of the fitted instances is multiplied by a positive number and shifted,
the map is the same. -/
theorem C163_kitnet_units {env : KnEnv ℝ} (law : LinkageLaws env)
    (hsq : env.sqrt = Real.sqrt) (hn : 2 ≤ n) (maxSize : ℤ) (fmo : Option ℕ) (ad : ℕ) (lr hr : ℝ)
    (hhr : 0 ≤ hr) (h h' : List (Call (Fin n → ℝ) β)) (a b : Fin n → ℝ) (ha : ∀ i, 0 < a i)
    (hh : fitted h' = (fitted h).map fun x i => a i * x i + b i) (m m' : KnState ℝ n)
    (hm : (calls (KitNet.detector env) (KitNet.new n maxSize fmo ad lr hr) h).2.model = some m)
    (hm' : (calls (KitNet.detector env) (KitNet.new n maxSize fmo ad lr hr) h').2.model
      = some m') : m'.v = m.v := by
  have hl : (fitted h').length = (fitted h).length := by rw [hh, List.length_map]
  have hex : ∀ (g : List (Call (Fin n → ℝ) β)) (k : KnState ℝ n),
      (calls (KitNet.detector env) (KitNet.new n maxSize fmo ad lr hr) g).2.model = some k →
      (k.v = none ↔ (fitted g).length ≤ fmo.getD ad) := by
    intro g k hk
    obtain ⟨_, _, _, _, _, _, _, hinv⟩ := kitnet_calls law hn maxSize fmo ad lr hr hhr g
    have hi : KitNet.init (calls (KitNet.detector env) (KitNet.new n maxSize fmo ad lr hr) g).2
        = k := by simp [KitNet.init, hk]
    rw [hi] at hinv
    constructor
    · intro hn
      by_contra hc
      obtain ⟨v, _, hv, _⟩ := hinv.late (by omega)
      rw [hn] at hv; cases hv
    · exact fun hc => (hinv.early hc).1
  cases hv : m.v with
  | none => exact (hex h' m' hm').2 (hl ▸ (hex h m hm).1 hv)
  | some v =>
    cases hv' : m'.v with
    | none =>
      have := (hex h m hm).2 (hl ▸ (hex h' m' hm').1 hv')
      rw [this] at hv; cases hv
    | some v' =>
      have g1 := (C84_kitnet_map law hn maxSize fmo ad lr hr hhr h m v hm hv).2
      have g2 := (C84_kitnet_map law hn maxSize fmo ad lr hr hhr h' m' v' hm' hv').2
      rw [show mapInstances (fmo.getD ad) (fitted h')
        = (mapInstances (fmo.getD ad) (fitted h)).map fun x i => a i * x i + b i by
          unfold mapInstances; rw [hh, List.map_take],
        Correlation.featureMap_units hsq a b ha] at g2
      rw [featureMap_unique g1 g2]

end

/-! A linkage that first joins the closest two of three features. -/

noncomputable def nearestLinkage (n : ℕ) (L : List ℝ) : Except PyErr (Dendro n) :=
  match n, L with
  | 3, [a, b, c] =>
    if a ≤ b ∧ a ≤ c then .ok (.node (.leaf 2) (.node (.leaf 0) (.leaf 1)))
    else if b ≤ c then .ok (.node (.leaf 1) (.node (.leaf 0) (.leaf 2)))
    else .ok (.node (.leaf 0) (.node (.leaf 1) (.leaf 2)))
  | n, L => chainLinkage n L

noncomputable def nearestEnv : KnEnv ℝ := ⟨Real.sqrt, logistic, fun _ _ _ _ => 0, nearestLinkage⟩

theorem nearestLinkage_laws : LinkageLaws nearestEnv := by
  have hch := chainLinkage_laws kitnetRealEnv rfl
  refine ⟨fun n L hn hL => ?_, fun n L hn hL => ?_⟩
  · show ∃ t, nearestLinkage n L = .ok t ∧ _
    unfold nearestLinkage
    split
    · split_ifs
      · exact ⟨_, rfl, by decide⟩
      · exact ⟨_, rfl, by decide⟩
      · exact ⟨_, rfl, by decide⟩
    · exact hch.tree n L hn hL
  · show nearestLinkage n L = _
    unfold nearestLinkage
    split
    · omega
    · exact hch.small n L hn hL

/-- Three instances with three features: the second feature rises with the first, the third
falls. -/
noncomputable def risingInstances : List (Fin 3 → ℝ) := [![0, 0, 0], ![1, 10, -10], ![2, 1, -1]]

noncomputable def risingRun : List (Call (Fin 3 → ℝ) Unit) :=
  risingInstances.map fun x => .fit x none

theorem rising_map : mapInstances 2 (fitted risingRun) = risingInstances := by
  simp [risingRun, risingInstances, fitted, mapInstances]

theorem rising_covariances : 0 < covarianceOf risingInstances 0 0 ∧
    0 < covarianceOf risingInstances 1 1 ∧ 0 < covarianceOf risingInstances 2 2 ∧
    0 < covarianceOf risingInstances 0 1 ∧ covarianceOf risingInstances 0 2 < 0 ∧
    covarianceOf risingInstances 1 2 < 0 := by
  refine ⟨?_, ?_, ?_, ?_, ?_, ?_⟩ <;> · simp [covarianceOf, meanOf, risingInstances]; norm_num

theorem rising_deviations : 0 < deviationProduct risingInstances 0 0 ∧
    0 < deviationProduct risingInstances 1 1 ∧ 0 < deviationProduct risingInstances 2 2 ∧
    deviationProduct risingInstances 0 1 < 0 ∧ 0 < deviationProduct risingInstances 0 2 ∧
    deviationProduct risingInstances 1 2 < 0 := by
  refine ⟨?_, ?_, ?_, ?_, ?_, ?_⟩ <;>
  · simp [deviationProduct, runningDeviation, risingInstances, Finset.sum_range_succ]
    norm_num

/-- With the linkage that first joins the closest two features and at most two features for each
autoencoder, the first and the third feature get a common autoencoder, although they are
negatively correlated and the first and the second are positively correlated. -/
theorem C163_kitnet_wrong_pair :
    ∃ m, (calls (KitNet.detector nearestEnv) (KitNet.new 3 2 (some 2) 5 (1 / 10) (3 / 4))
      risingRun).2.model = some m ∧ m.v = some [[1], [0, 2]] ∧
      0 < correlationOf risingInstances 0 1 ∧ correlationOf risingInstances 0 2 < 0 := by
  obtain ⟨_, h2, _, _, _, _, _, hinv⟩ := kitnet_calls (β := Unit) nearestLinkage_laws
    (by norm_num : 2 ≤ 3) 2 (some 2) 5 (1 / 10) (3 / 4) (by norm_num) risingRun
  obtain ⟨m, hm⟩ := h2 (by simp [risingRun, risingInstances, fitted])
  have hi : KitNet.init (calls (KitNet.detector nearestEnv)
      (KitNet.new 3 2 (some 2) 5 (1 / 10) (3 / 4)) risingRun).2 = m := by
    unfold KitNet.init; rw [hm]; rfl
  rw [hi] at hinv
  obtain ⟨v, _, hv, _⟩ := hinv.late (by simp [risingRun, risingInstances, fitted])
  obtain ⟨_, L, t, h1, h2, h3, h4⟩ := C84_kitnet_map nearestLinkage_laws (by norm_num) 2 (some 2) 5
    (1 / 10) (3 / 4) (by norm_num) risingRun m v hm hv
  obtain ⟨d0, d1, d2, d3, d4, d5⟩ := rising_deviations
  obtain ⟨c0, c1, c2, c3, c4, c5⟩ := rising_covariances
  refine ⟨m, hm, ?_, ?_, ?_⟩
  · simp only [Option.getD_some, rising_map] at h2
    have e1 := h2 0 1 (by decide)
    have e2 := h2 0 2 (by decide)
    have e3 := h2 1 2 (by decide)
    simp only [show nearestEnv.sqrt = Real.sqrt from rfl] at e1 e2 e3
    rw [Correlation.featureDistance_eq d0 d1] at e1
    rw [Correlation.featureDistance_eq d0 d2] at e2
    rw [Correlation.featureDistance_eq d1 d2] at e3
    have p : ∀ {a b : ℝ}, 0 < a → 0 < b → 0 < √a * √b := fun ha hb =>
      mul_pos (Real.sqrt_pos.2 ha) (Real.sqrt_pos.2 hb)
    have s1 := div_neg_of_neg_of_pos d3 (p d0 d1)
    have s2 := div_pos d4 (p d0 d2)
    have s3 := div_neg_of_neg_of_pos d5 (p d1 d2)
    have hL : L.length = 3 := by omega
    obtain ⟨a, b, c, rfl⟩ := List.length_eq_three.1 hL
    simp [pairIndex] at e1 e2 e3
    have ht : t = .node (.leaf 1) (.node (.leaf 0) (.leaf 2)) := by
      change nearestLinkage 3 [a, b, c] = .ok t at h3
      unfold nearestLinkage at h3
      simp only at h3
      rw [if_neg (by rintro ⟨h, _⟩; linarith), if_pos (by linarith)] at h3
      cases h3
      rfl
    subst ht
    rw [hv]
    congr 1
    exact LargestSubtrees.unique h4 (.split (by decide) (.whole (t := .leaf 1) (by decide))
      (.whole (t := .node (.leaf 0) (.leaf 2)) (by decide)))
  · exact div_pos c3 (mul_pos (Real.sqrt_pos.2 c0) (Real.sqrt_pos.2 c1))
  · exact div_neg_of_neg_of_pos c4 (mul_pos (Real.sqrt_pos.2 c0) (Real.sqrt_pos.2 c2))

/-- **C163 (refuted).** -/
theorem C163_kitnet_refuted : ¬ C163_statement := by
  intro hst
  obtain ⟨m, hm, hv, _, _⟩ := C163_kitnet_wrong_pair
  obtain ⟨c0, c1, c2, c3, c4, c5⟩ := rising_covariances
  obtain ⟨L, t, h1, h2, h3, h4⟩ := hst 3 nearestEnv nearestLinkage_laws rfl (by norm_num) 2
    (some 2) 5 (1 / 10) (3 / 4) (by norm_num) risingRun m _ hm hv
  simp only [Option.getD_some, rising_map] at h2
  have e1 := h2 0 1 (by decide)
  have e2 := h2 0 2 (by decide)
  have e3 := h2 1 2 (by decide)
  have p : ∀ {a b : ℝ}, 0 < a → 0 < b → 0 < √a * √b := fun ha hb =>
    mul_pos (Real.sqrt_pos.2 ha) (Real.sqrt_pos.2 hb)
  have s1 : 0 < correlationOf risingInstances 0 1 := div_pos c3 (p c0 c1)
  have s2 : correlationOf risingInstances 0 2 < 0 := div_neg_of_neg_of_pos c4 (p c0 c2)
  have s3 : correlationOf risingInstances 1 2 < 0 := div_neg_of_neg_of_pos c5 (p c1 c2)
  have hL : L.length = 3 := by omega
  obtain ⟨a, b, c, rfl⟩ := List.length_eq_three.1 hL
  simp [pairIndex] at e1 e2 e3
  have ht : t = .node (.leaf 2) (.node (.leaf 0) (.leaf 1)) := by
    change nearestLinkage 3 [a, b, c] = .ok t at h3
    unfold nearestLinkage at h3
    simp only at h3
    rw [if_pos ⟨by linarith, by linarith⟩] at h3
    cases h3
    rfl
  subst ht
  have := LargestSubtrees.unique h4 (.split (by decide) (.whole (t := .leaf 2) (by decide))
    (.whole (t := .node (.leaf 0) (.leaf 1)) (by decide)))
  revert this
  decide

/-! The hypotheses of C163 hold: the run above has a map, ranges and positive variances. -/

example : ∃ (m : KnState ℝ 3) (v : List (List (Fin 3))), (calls (KitNet.detector nearestEnv)
    (KitNet.new 3 2 (some 2) 5 (1 / 10) (3 / 4)) risingRun).2.model = some m ∧ m.v = some v ∧
    (∀ x ∈ risingInstances, (0 : ℝ) ≤ x 0 ∧ x 0 ≤ 2) ∧
    (∀ x ∈ risingInstances, (0 : ℝ) ≤ x 1 ∧ x 1 ≤ 10) ∧
    0 < covarianceOf risingInstances 0 0 ∧ 0 < covarianceOf risingInstances 1 1 ∧
    ∀ x ∈ risingInstances, x 2 = -1 * x 1 + 0 := by
  obtain ⟨m, hm, hv, _, _⟩ := C163_kitnet_wrong_pair
  obtain ⟨c0, c1, _⟩ := rising_covariances
  refine ⟨m, _, hm, hv, ?_, ?_, c0, c1, ?_⟩ <;> · simp [risingInstances]; try norm_num

end Pysad
