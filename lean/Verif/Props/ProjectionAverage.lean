import Verif.Props.Projection
import Verif.Proofs.Expectation
import Mathlib.Algebra.Order.Floor.Semiring
import Mathlib.Order.Interval.Finset.Fin
import Mathlib.Algebra.Order.Chebyshev

/-! Property C126: random hashing preserves distances
(`pysad/transform/projection/streamhash_projector.py`). -/

namespace Pysad

open Spec

/-- The squared Euclidean distance of two vectors. -/
def Spec.distanceSquared (x y : List ℝ) : ℝ := (List.zipWith (fun a b => (a - b) ^ 2) x y).sum

/-- The numbers a call returned (none if it raised). -/
def Spec.returned {S : Type*} : Res S (NdArray ℝ) → List ℝ
  | .ok y _ => numbers y
  | .err _ _ => []

/-- The ways in which an ideal hash function can hash `d` feature names for `n`
components: all tables of unsigned 32-bit numbers, equally likely. -/
abbrev Spec.HashTable (n d : ℕ) := Fin n → Fin d → Fin (2 ^ 32)

namespace Streamhash

theorem output_eq (mmh3 : String → ℕ → ℕ) (s0 : StreamhashState ℝ) (hn : 1 ≤ s0.nComponents)
    (x : List ℝ) :
    returned ((Streamhash.transformer mmh3).transformPartial s0 x)
      = applyMatrix s0.nComponents (fun k i => hashString mmh3 s0 k (toString i)) x := by
  simp only [Streamhash.transformer, Streamhash.transformPartial]
  rw [if_neg (by omega)]
  simp only [returned, squeeze_numbers, Streamhash.dotRows, Streamhash.matrix, applyMatrix,
    List.map_map]
  apply List.map_congr_left
  intro k _
  simp only [Function.comp]
  exact sum_zipWith_range x (fun i => hashString mmh3 s0 k (toString i))

theorem distanceSquared_eq (d : ℕ) (x y : List ℝ) (hx : x.length = d) (hy : y.length = d) :
    distanceSquared x y = ∑ i : Fin d, (x.getD i 0 - y.getD i 0) ^ 2 := by
  subst hx
  unfold distanceSquared
  induction x generalizing y with
  | nil => simp
  | cons a x ih =>
    cases y with
    | nil => simp at hy
    | cons b y =>
      rw [List.zipWith_cons_cons, List.sum_cons, ih y (by simpa using hy)]
      simp only [List.length_cons, Fin.sum_univ_succ, Fin.val_zero, Fin.val_succ,
        List.getD_cons_zero, List.getD_cons_succ]

theorem distanceSquared_matrix (n d : ℕ) (R : ℕ → ℕ → ℝ) (x y : List ℝ) (hx : x.length = d)
    (hy : y.length = d) :
    distanceSquared (applyMatrix n R x) (applyMatrix n R y)
      = ∑ k : Fin n, (∑ i : Fin d, (x.getD i 0 - y.getD i 0) * R k i) ^ 2 := by
  rw [distanceSquared_eq n _ _ (by simp [applyMatrix]) (by simp [applyMatrix])]
  apply Finset.sum_congr rfl
  intro k _
  simp only [applyMatrix, List.getD_eq_getElem?_getD, List.getElem?_map,
    List.getElem?_range k.isLt, Option.map_some, Option.getD_some, hx, hy]
  congr 1
  rw [← Finset.sum_sub_distrib, Finset.sum_range]
  apply Finset.sum_congr rfl
  intro i _
  ring

/-- Whether a hash value is at most the fraction `t` of the largest one. -/
noncomputable def below (t : ℝ) (w : Fin (2 ^ 32)) : ℝ :=
  if ((w : ℕ) : ℝ) / (2 ^ 32 - 1) ≤ t then 1 else 0

/-- How often that happens. -/
noncomputable def freq (t : ℝ) : ℝ := ((⌊t * (2 ^ 32 - 1)⌋₊ : ℝ) + 1) / 2 ^ 32

theorem expectation_below (t : ℝ) (h0 : 0 ≤ t) (h1 : t ≤ 1) :
    expectation (below t) = freq t := by
  unfold expectation below freq
  rw [Fintype.card_fin, Finset.sum_boole]
  have hp : (0 : ℝ) < 2 ^ 32 - 1 := by norm_num
  have hlt : ⌊t * (2 ^ 32 - 1)⌋₊ < 2 ^ 32 := by
    rw [Nat.floor_lt (by positivity)]
    push_cast
    nlinarith
  have hf : (Finset.univ.filter fun w : Fin (2 ^ 32) => ((w : ℕ) : ℝ) / (2 ^ 32 - 1) ≤ t)
      = Finset.Iic ⟨⌊t * (2 ^ 32 - 1)⌋₊, hlt⟩ := by
    ext w
    rw [Finset.mem_filter, Finset.mem_Iic, Fin.le_def, div_le_iff₀ hp, Nat.le_floor_iff
      (by positivity)]
    simp
  rw [hf, Fin.card_Iic]
  push_cast
  norm_num

theorem freq_close (t : ℝ) (h0 : 0 ≤ t) (h1 : t ≤ 1) : |freq t - t| ≤ 1 / 2 ^ 32 := by
  have hp : (0 : ℝ) ≤ t * (2 ^ 32 - 1) := by
    have : (0 : ℝ) < 2 ^ 32 - 1 := by norm_num
    positivity
  have a := Nat.floor_le hp
  have b := Nat.lt_floor_add_one (t * (2 ^ 32 - 1))
  unfold freq
  rw [abs_le]
  constructor
  · rw [neg_le_sub_iff_le_add, ← add_div, le_div_iff₀ (by norm_num)]
    nlinarith
  · rw [sub_le_iff_le_add, div_add' _ _ _ (by norm_num)]
    apply div_le_div_of_nonneg_right _ (by norm_num)
    nlinarith

theorem freq_balance (t : ℝ) (h0 : 0 ≤ t) : |freq t - 2 * freq (t / 2)| ≤ 1 / 2 ^ 32 := by
  have hp : (0 : ℝ) < 2 ^ 32 - 1 := by norm_num
  have hM : (0 : ℝ) ≤ t * (2 ^ 32 - 1) := by positivity
  have e : t / 2 * (2 ^ 32 - 1) = t * (2 ^ 32 - 1) / 2 := by ring
  unfold freq
  rw [e]
  generalize t * (2 ^ 32 - 1) = M at hM
  have a1 := Nat.floor_le hM
  have a2 := Nat.lt_floor_add_one M
  have b1 := Nat.floor_le (show 0 ≤ M / 2 by positivity)
  have b2 := Nat.lt_floor_add_one (M / 2)
  generalize ⌊M⌋₊ = u at *
  generalize ⌊M / 2⌋₊ = w at *
  have c1 : 2 * w ≤ u := by
    have : (2 * w : ℝ) < u + 1 := by linarith
    have : 2 * w < u + 1 := by exact_mod_cast this
    omega
  have c2 : u ≤ 2 * w + 1 := by
    have : (u : ℝ) < 2 * w + 2 := by linarith
    have : u < 2 * w + 2 := by exact_mod_cast this
    omega
  have d1 : (2 * w : ℝ) ≤ u := by exact_mod_cast c1
  have d2 : (u : ℝ) ≤ 2 * w + 1 := by exact_mod_cast c2
  rw [show ((u : ℝ) + 1) / 2 ^ 32 - 2 * (((w : ℝ) + 1) / 2 ^ 32) = (u - 2 * w - 1) / 2 ^ 32 by ring,
    abs_div, abs_of_pos (show (0 : ℝ) < 2 ^ 32 by norm_num)]
  apply div_le_div_of_nonneg_right _ (by norm_num)
  rw [abs_le]
  constructor <;> linarith

/-- An entry of the matrix as a function of the hash value. -/
noncomputable def entry (s c : ℝ) (w : Fin (2 ^ 32)) : ℝ := c * below s w - 2 * c * below (s / 2) w

theorem hashString_eq (mmh3 : String → ℕ → ℕ) (s0 : StreamhashState ℝ) (hs : 0 ≤ s0.density)
    (k : ℕ) (f : String) (w : Fin (2 ^ 32)) (hw : mmh3 f k = w) :
    hashString mmh3 s0 k f = entry s0.density s0.constant w := by
  unfold hashString entry below
  rw [hw]
  by_cases h1 : ((w : ℕ) : ℝ) / (2 ^ 32 - 1) ≤ s0.density / 2
  · have h2 : ((w : ℕ) : ℝ) / (2 ^ 32 - 1) ≤ s0.density := by linarith
    simp only [h1, h2, if_true]
    ring
  · by_cases h2 : ((w : ℕ) : ℝ) / (2 ^ 32 - 1) ≤ s0.density
    · simp only [h1, h2, if_true, if_false]
      ring
    · simp only [h1, h2, if_false]
      ring

theorem below_cases (s : ℝ) (hs : 0 ≤ s) (w : Fin (2 ^ 32)) :
    (below s w = 1 ∧ below (s / 2) w = 1) ∨ (below s w = 1 ∧ below (s / 2) w = 0) ∨
      (below s w = 0 ∧ below (s / 2) w = 0) := by
  unfold below
  by_cases h1 : ((w : ℕ) : ℝ) / (2 ^ 32 - 1) ≤ s / 2
  · have h2 : ((w : ℕ) : ℝ) / (2 ^ 32 - 1) ≤ s := by linarith
    simp [h1, h2]
  · by_cases h2 : ((w : ℕ) : ℝ) / (2 ^ 32 - 1) ≤ s <;> simp [h1, h2]

section moments
variable (s c : ℝ) (h0 : 0 ≤ s) (h1 : s ≤ 1)
include h0 h1

theorem moment_one : expectation (entry s c) = c * (freq s - 2 * freq (s / 2)) := by
  unfold entry
  rw [Expect.congr (g := fun w => c * below s w + (-2 * c) * below (s / 2) w)
    (fun w => by ring), Expect.add, Expect.mul_left, Expect.mul_left,
    expectation_below s h0 h1, expectation_below (s / 2) (by linarith) (by linarith)]
  ring

theorem moment_two : expectation (fun w => entry s c w ^ 2) = c ^ 2 * freq s := by
  rw [Expect.congr (g := fun w => c ^ 2 * below s w), Expect.mul_left, expectation_below s h0 h1]
  intro w
  unfold entry
  obtain ⟨a, b⟩ | ⟨a, b⟩ | ⟨a, b⟩ := below_cases s h0 w <;> rw [a, b] <;> ring

theorem moment_three :
    expectation (fun w => entry s c w ^ 3) = c ^ 3 * (freq s - 2 * freq (s / 2)) := by
  rw [Expect.congr (g := fun w => c ^ 2 * entry s c w), Expect.mul_left, moment_one s c h0 h1]
  · ring
  intro w
  unfold entry
  obtain ⟨a, b⟩ | ⟨a, b⟩ | ⟨a, b⟩ := below_cases s h0 w <;> rw [a, b] <;> ring

theorem moment_four : expectation (fun w => entry s c w ^ 4) = c ^ 4 * freq s := by
  rw [Expect.congr (g := fun w => c ^ 2 * entry s c w ^ 2), Expect.mul_left,
    moment_two s c h0 h1]
  · ring
  intro w
  unfold entry
  obtain ⟨a, b⟩ | ⟨a, b⟩ | ⟨a, b⟩ := below_cases s h0 w <;> rw [a, b] <;> ring

end moments

theorem new_eq {n : ℕ} {density : ℝ} (hd : 0 < density) {s0 : StreamhashState ℝ}
    (h0 : Streamhash.new Real.sqrt n density = .ok s0) :
    s0 = ⟨n, Real.sqrt (1 / density) / Real.sqrt n, density⟩ := by
  unfold Streamhash.new at h0
  rw [if_neg hd.ne'] at h0
  cases h0; rfl

/-- The distance of two images, in terms of the hash table. -/
theorem distance_eq {n d : ℕ} (hn : 1 ≤ n) {density : ℝ} (hd : 0 < density)
    {s0 : StreamhashState ℝ} (h0 : Streamhash.new Real.sqrt n density = .ok s0)
    (hash : HashTable n d → String → ℕ → ℕ)
    (hh : ∀ v (k : Fin n) (i : Fin d), hash v (toString (i : ℕ)) (k : ℕ) = v k i)
    (x y : List ℝ) (hx : x.length = d) (hy : y.length = d) (v : HashTable n d) :
    distanceSquared (returned ((Streamhash.transformer (hash v)).transformPartial s0 x))
        (returned ((Streamhash.transformer (hash v)).transformPartial s0 y))
      = ∑ k : Fin n, (∑ i : Fin d, (x.getD i 0 - y.getD i 0)
          * entry density (Real.sqrt (1 / density) / Real.sqrt n) (v k i)) ^ 2 := by
  have e := new_eq hd h0
  subst e
  rw [output_eq _ _ hn, output_eq _ _ hn]
  dsimp only
  rw [distanceSquared_matrix n d _ x y hx hy]
  apply Finset.sum_congr rfl
  intro k _
  congr 1
  apply Finset.sum_congr rfl
  intro i _
  rw [hashString_eq (hash v) _ hd.le k _ (v k i) (hh v k i)]

end Streamhash

open Streamhash

/-- **C126.** A projector with `n ≥ 1` components and a density `0 < s ≤ 1`, and an ideal
hash function (all tables of hash values equally likely): for any two vectors with
`d` features the squared distance of their images is on average their squared
distance, to a relative error of at most `(1 + d / 2^32) / (2^32 s)`. -/
theorem C126_distances (n d : ℕ) (hn : 1 ≤ n) (density : ℝ) (hd : 0 < density) (hd1 : density ≤ 1)
    (s0 : StreamhashState ℝ) (h0 : Streamhash.new Real.sqrt n density = .ok s0)
    (hash : HashTable n d → String → ℕ → ℕ)
    (hh : ∀ v (k : Fin n) (i : Fin d), hash v (toString (i : ℕ)) (k : ℕ) = v k i)
    (x y : List ℝ) (hx : x.length = d) (hy : y.length = d) :
    |expectation (fun v =>
        distanceSquared (returned ((Streamhash.transformer (hash v)).transformPartial s0 x))
          (returned ((Streamhash.transformer (hash v)).transformPartial s0 y)))
      - distanceSquared x y|
      ≤ (1 + d / 2 ^ 32) / (2 ^ 32 * density) * distanceSquared x y := by
  rw [Expect.congr (distance_eq hn hd h0 hash hh x y hx hy), distanceSquared_eq d x y hx hy]
  generalize hz : (fun i : Fin d => x.getD i 0 - y.getD i 0) = z
  have hzi : ∀ i : Fin d, x.getD i 0 - y.getD i 0 = z i := fun i => congrFun hz i
  simp only [hzi]
  clear hz hzi
  have hc2 : (Real.sqrt (1 / density) / Real.sqrt n) ^ 2 = 1 / (density * n) := by
    rw [div_pow, Real.sq_sqrt (by positivity), Real.sq_sqrt (by positivity), div_div]
  generalize Real.sqrt (1 / density) / Real.sqrt n = c at hc2
  have hrow := Expect.sum_sq (entry density c) _ _ (moment_one density c hd.le hd1)
    (moment_two density c hd.le hd1) d z
  have hall := Expect.sum_mean (fun w : Fin d → Fin (2 ^ 32) =>
    (∑ i, z i * entry density c (w i)) ^ 2) _ hrow n (fun _ => 1)
  simp only [one_mul, Finset.sum_const, Finset.card_univ, Fintype.card_fin, nsmul_eq_mul,
    mul_one] at hall
  rw [hall, mul_pow, hc2]
  have hf := freq_close density hd.le hd1
  have hb := freq_balance density hd.le
  have hA : 0 ≤ ∑ i, z i ^ 2 := Finset.sum_nonneg fun i _ => sq_nonneg _
  have hB : (∑ i, z i) ^ 2 ≤ d * ∑ i, z i ^ 2 := by
    have := sq_sum_le_card_mul_sum_sq (s := (Finset.univ : Finset (Fin d))) (f := z)
    simpa using this
  have hB0 : 0 ≤ (∑ i, z i) ^ 2 := sq_nonneg _
  generalize (∑ i, z i) ^ 2 = B at *
  have hd0 : d = 0 → ∑ i, z i ^ 2 = 0 := by
    intro h
    subst h
    simp
  generalize (∑ i, z i ^ 2) = A at *
  generalize freq density - 2 * freq (density / 2) = δ at *
  generalize freq density = F at *
  have hn' : (n : ℝ) ≠ 0 := by positivity
  have e : (1 / (density * n) * F * A + 1 / (density * n) * δ ^ 2 * (B - A)) * n - A
      = ((F - density) * A + δ ^ 2 * (B - A)) / density := by
    field_simp
    ring
  rw [e, abs_div, abs_of_pos hd, div_le_iff₀ hd]
  have hBA : |B - A| ≤ d * A := by
    rw [abs_le]
    refine ⟨?_, by linarith⟩
    rcases Nat.eq_zero_or_pos d with h | h
    · rw [hd0 h]; simp; linarith
    · have : (1 : ℝ) ≤ d := by exact_mod_cast h
      nlinarith
  have hδ : δ ^ 2 ≤ 1 / 2 ^ 64 := by
    rw [← sq_abs]
    calc |δ| ^ 2 ≤ (1 / 2 ^ 32) ^ 2 := pow_le_pow_left₀ (abs_nonneg _) hb 2
      _ = 1 / 2 ^ 64 := by norm_num
  calc |(F - density) * A + δ ^ 2 * (B - A)|
      ≤ |F - density| * A + δ ^ 2 * |B - A| := by
        refine (abs_add_le _ _).trans ?_
        rw [abs_mul, abs_mul, abs_of_nonneg hA, abs_of_nonneg (sq_nonneg δ)]
    _ ≤ 1 / 2 ^ 32 * A + 1 / 2 ^ 64 * (d * A) := by
        gcongr
    _ = (1 + d / 2 ^ 32) / (2 ^ 32 * density) * A * density := by
        field_simp

theorem Streamhash.freq_third : freq (1 / 3) = 1431655766 / 4294967296 ∧
    freq (1 / 3) - 2 * freq (1 / 3 / 2) = 0 := by
  have e1 : ⌊(1 / 3 : ℝ) * (2 ^ 32 - 1)⌋₊ = 1431655765 := by
    rw [Nat.floor_eq_iff (by norm_num)]
    norm_num
  have e2 : ⌊(1 / 3 / 2 : ℝ) * (2 ^ 32 - 1)⌋₊ = 715827882 := by
    rw [Nat.floor_eq_iff (by norm_num)]
    norm_num
  unfold freq
  rw [e1, e2]
  norm_num

/-- **C126**, how rarely a distance is distorted: with the default density `1/3` and at
most `2^32` components, the squared distance of the images of two different vectors is
off by the fraction `ε` or more for at most the fraction `3 / (n ε²)` of the hash
functions. -/
theorem C126_distortion_rare (n d : ℕ) (hn : 1 ≤ n) (hn' : n ≤ 2 ^ 32)
    (s0 : StreamhashState ℝ) (h0 : Streamhash.new Real.sqrt n (1 / 3) = .ok s0)
    (hash : HashTable n d → String → ℕ → ℕ)
    (hh : ∀ v (k : Fin n) (i : Fin d), hash v (toString (i : ℕ)) (k : ℕ) = v k i)
    (x y : List ℝ) (hx : x.length = d) (hy : y.length = d) (hxy : x ≠ y) (ε : ℝ) (hε : 0 < ε) :
    fraction (fun v => ε * distanceSquared x y ≤
      |distanceSquared (returned ((Streamhash.transformer (hash v)).transformPartial s0 x))
          (returned ((Streamhash.transformer (hash v)).transformPartial s0 y))
        - distanceSquared x y|)
      ≤ 3 / (n * ε ^ 2) := by
  have hpos : 0 < distanceSquared x y := by
    rw [distanceSquared_eq d x y hx hy]
    by_contra hcon
    apply hxy
    have h2 : ∑ i : Fin d, (x.getD i 0 - y.getD i 0) ^ 2 = 0 :=
      le_antisymm (not_lt.1 hcon) (Finset.sum_nonneg fun i _ => sq_nonneg _)
    rw [Finset.sum_eq_zero_iff_of_nonneg fun i _ => sq_nonneg _] at h2
    apply List.ext_getElem (hx.trans hy.symm)
    intro i hi hi'
    have h3 := h2 ⟨i, hx ▸ hi⟩ (Finset.mem_univ _)
    simp only [List.getD_eq_getElem?_getD, List.getElem?_eq_getElem hi,
      List.getElem?_eq_getElem hi', Option.getD_some] at h3
    exact sub_eq_zero.1 (pow_eq_zero_iff (by norm_num) |>.1 h3)
  refine (Expect.chebyshev _ _ _ (by positivity)).trans ?_
  rw [Expect.congr (g := fun v : HashTable n d => ((∑ k : Fin n, (∑ i : Fin d,
      (x.getD i 0 - y.getD i 0) * entry (1 / 3) (Real.sqrt (1 / (1 / 3)) / Real.sqrt n) (v k i)) ^ 2)
        - distanceSquared x y) ^ 2)
    (fun v => by rw [distance_eq hn (by norm_num) h0 hash hh x y hx hy v])]
  have hsd := distanceSquared_eq d x y hx hy
  generalize hz : (fun i : Fin d => x.getD i 0 - y.getD i 0) = z at hsd
  have hzi : ∀ i : Fin d, x.getD i 0 - y.getD i 0 = z i := fun i => congrFun hz i
  simp only [hzi] at hsd ⊢
  clear hz hzi
  have hnp : (0 : ℝ) < n := by exact_mod_cast hn
  have hc2 : (Real.sqrt (1 / (1 / 3)) / Real.sqrt n) ^ 2 = 3 / n := by
    rw [div_pow, Real.sq_sqrt (by positivity), Real.sq_sqrt (by positivity)]
    norm_num
  generalize Real.sqrt (1 / (1 / 3)) / Real.sqrt n = c at hc2
  obtain ⟨f1, f2⟩ := freq_third
  have m1 := moment_one (1 / 3) c (by norm_num) (by norm_num)
  have m2 := moment_two (1 / 3) c (by norm_num) (by norm_num)
  have m3 := moment_three (1 / 3) c (by norm_num) (by norm_num)
  have m4 := moment_four (1 / 3) c (by norm_num) (by norm_num)
  rw [f2, mul_zero] at m1 m3
  rw [f1, hc2] at m2
  rw [f1, show c ^ 4 = (c ^ 2) ^ 2 by ring, hc2] at m4
  have hrow := Expect.sum_sq (entry (1 / 3) c) _ _ m1 m2 d z
  have hfour := Expect.sum_fourth (entry (1 / 3) c) _ _
    (3 * (3 / n * (1431655766 / 4294967296)) ^ 2) m1 m2 m3 m4 le_rfl
    (by
      rw [mul_pow, ← mul_assoc, mul_comm 3, mul_assoc]
      exact mul_le_mul_of_nonneg_left (by norm_num) (by positivity)) d z
  have hvar := Expect.sum_var (fun w : Fin d → Fin (2 ^ 32) =>
    (∑ i, z i * entry (1 / 3) c (w i)) ^ 2) _ _ hrow rfl n (distanceSquared x y)
  rw [hvar]
  have e4 : (expectation fun a : Fin d → Fin (2 ^ 32) =>
        ((∑ i, z i * entry (1 / 3) c (a i)) ^ 2) ^ 2)
      = expectation fun a : Fin d → Fin (2 ^ 32) => (∑ i, z i * entry (1 / 3) c (a i)) ^ 4 :=
    Expect.congr fun a => by ring
  rw [e4]
  rw [← hsd] at hfour ⊢
  generalize (expectation fun a : Fin d → Fin (2 ^ 32) =>
    (∑ i, z i * entry (1 / 3) c (a i)) ^ 4) = W at *
  generalize distanceSquared x y = A at *
  have hnn : (n : ℝ) ≤ 2 ^ 32 := by exact_mod_cast hn'
  rw [div_le_div_iff₀ (by positivity) (by positivity)]
  have key : (n : ℝ) * (W - (3 / n * (1431655766 / 4294967296) * A) ^ 2)
      + (n * (3 / n * (1431655766 / 4294967296) * A) - A) ^ 2 ≤ 3 / n * A ^ 2 := by
    have h1 : (n : ℝ) * (W - (3 / n * (1431655766 / 4294967296) * A) ^ 2)
        ≤ n * (3 * (3 / n * (1431655766 / 4294967296)) ^ 2 * A ^ 2
          - (3 / n * (1431655766 / 4294967296) * A) ^ 2) := by
      gcongr
    have h2 : (n : ℝ) * (3 * (3 / n * (1431655766 / 4294967296)) ^ 2 * A ^ 2
          - (3 / n * (1431655766 / 4294967296) * A) ^ 2)
        = 18 * (1431655766 / 4294967296) ^ 2 / n * A ^ 2 := by
      field_simp
      ring
    have h3 : (n * (3 / n * (1431655766 / 4294967296) * A) - A) ^ 2
        = (2 / 4294967296) ^ 2 * n / n * A ^ 2 := by
      field_simp
      ring
    rw [h3]
    refine (add_le_add_left (h1.trans_eq h2) _).trans ?_
    rw [← add_mul, ← add_div]
    gcongr
    nlinarith
  have := mul_le_mul_of_nonneg_right key (show 0 ≤ (n : ℝ) * ε ^ 2 by positivity)
  have e5 : 3 / (n : ℝ) * A ^ 2 * (n * ε ^ 2) = 3 * (ε * A) ^ 2 := by
    field_simp
  rw [e5] at this
  have e6 : (n : ℝ) * ((3 / n * (1431655766 / 4294967296) * A + 0 ^ 2 * ((∑ i, z i) ^ 2 - A)))
      = n * (3 / n * (1431655766 / 4294967296) * A) := by ring
  rw [e6, show (3 / (n : ℝ) * (1431655766 / 4294967296) * A + 0 ^ 2 * ((∑ i, z i) ^ 2 - A))
      = 3 / n * (1431655766 / 4294967296) * A by ring]
  exact this

/-- An ideal hash function for two components and two features exists, and a projector
that meets the hypotheses. -/
example : ∃ hash : HashTable 2 2 → String → ℕ → ℕ,
    (∀ v (k i : Fin 2), hash v (toString (i : ℕ)) (k : ℕ) = v k i) ∧
    ∃ s0, Streamhash.new Real.sqrt 2 (1 / 3) = .ok s0 := by
  refine ⟨fun v f k => if f = "0" then v (if k = 0 then 0 else 1) 0
    else v (if k = 0 then 0 else 1) 1, ?_, _, if_neg (by norm_num)⟩
  intro v k i
  fin_cases k <;> fin_cases i <;> rfl

end Pysad
