import Verif.Props.HstReliability
import Verif.Props.SimpleModels
import Verif.Props.Calibration
import Verif.Props.Robust

/-! C170: on independent draws from a population, what is computed from a window is close to the
corresponding figure of the population. -/

namespace Pysad

open Spec

/-- The stream of the draws `ω` from a population, whose members `v` show themselves as `f v`. -/
def Spec.drawn {Ω α : Type*} {T : ℕ} (f : Ω → α) (ω : Fin T → Ω) : List α := List.ofFn fun t => f (ω t)

/-- Fitting the instances of a list one after the other, without labels. -/
def Spec.fits {α β : Type*} (xs : List α) : List (Call α β) := xs.map fun x => .fit x none

namespace Sampling
open HstKernel
variable {Ω α β : Type*} {T : ℕ}

theorem length_drawn (f : Ω → α) (ω : Fin T → Ω) : (drawn f ω).length = T := by simp [drawn]

theorem fitted_fits (xs : List α) : fitted (fits xs : List (Call α β)) = xs := by
  induction xs with
  | nil => rfl
  | cons x xs ih => simp only [fits, List.map_cons, fitted] at ih ⊢; rw [ih]

theorem countP_drawn (p : α → Prop) [DecidablePred p] (f : Ω → α) (ω : Fin T → Ω) :
    ((drawn f ω).countP (fun x => decide (p x)) : ℝ) = ∑ t, if p (f (ω t)) then (1 : ℝ) else 0 := by
  rw [drawn, List.countP_eq_length_filter, ← List.sum_ofFn]
  have : ∀ l : List α, ((l.filter fun x => decide (p x)).length : ℝ) =
      (l.map fun x => if p x then (1 : ℝ) else 0).sum := by
    intro l
    induction l with
    | nil => simp
    | cons x l ih =>
      by_cases h : p x <;> simp [h, ih, add_comm]
  rw [this, List.map_ofFn]
  rfl

theorem sum_drawn (f : Ω → ℝ) (ω : Fin T → Ω) : (drawn f ω).sum = ∑ t, f (ω t) := by
  rw [drawn, List.sum_ofFn]

theorem meanOf_drawn (f : Ω → ℝ) (ω : Fin T → Ω) :
    meanOf (drawn f ω : Multiset ℝ) = (∑ t, f (ω t)) / T := by
  rw [meanOf, Multiset.sum_coe, sum_drawn, Multiset.coe_card, length_drawn]

theorem list_sum_swap {ι : Type*} (L : List ι) (F : ι → Fin T → ℝ) :
    (L.map fun a => ∑ t, F a t).sum = ∑ t, (L.map fun a => F a t).sum := by
  induction L with
  | nil => simp
  | cons a L ih => simp only [List.map_cons, List.sum_cons, ih, Finset.sum_add_distrib]

variable [Fintype Ω] [Nonempty Ω]

theorem indicator_hoeffding (p : Ω → Prop) [DecidablePred p] (hT : 0 < T) (ε : ℝ) (hε : 0 ≤ ε) :
    fraction (fun ω : Fin T → Ω =>
      ε ≤ |(∑ t, if p (ω t) then (1 : ℝ) else 0) / T - fraction p|) ≤
      2 * Real.exp (-(2 * T * ε ^ 2)) := by
  have h := Expect.hoeffding (fun v : Ω => if p v then (1 : ℝ) else 0) 0 1
    (fun v => by split_ifs <;> norm_num) T hT ε hε
  rw [← fraction_eq] at h
  simpa using h

theorem indicator_below (p : Ω → Prop) [DecidablePred p] (hT : 0 < T) (g : ℝ) (hg : 0 ≤ g) (c : ℝ)
    (hc : c + g ≤ fraction p) :
    fraction (fun ω : Fin T → Ω => (∑ t, if p (ω t) then (1 : ℝ) else 0) / T ≤ c) ≤
      Real.exp (-(2 * T * g ^ 2)) := by
  have h := Expect.hoeffding_above (fun v : Ω => -(if p v then (1 : ℝ) else 0)) (-1) 0
    (fun v => by split_ifs <;> norm_num) T hT g hg
  have e : (expectation fun v : Ω => -(if p v then (1 : ℝ) else 0)) = -fraction p := by
    rw [fraction_eq]
    have := Expect.mul_left (-1) fun v : Ω => if p v then (1 : ℝ) else 0
    simp only [neg_one_mul] at this
    exact this
  rw [e] at h
  refine le_trans (fraction_mono fun ω hω => ?_) (h.trans (le_of_eq (by norm_num)))
  rw [Finset.sum_neg_distrib, neg_div]
  linarith

end Sampling

open Sampling HstKernel

section
variable {Ω α β : Type*} [Fintype Ω] [Nonempty Ω]

/-! ### `ExactStorm` -/

omit [Fintype Ω] [Nonempty Ω] in
/-- What `ExactStorm` answers after any history, `w - 1` draws and one more instance. -/
theorem storm_after_draws (dist : α → α → ℝ) {w : ℕ} (hw : 2 ≤ w) (r : ℝ) (cs : List (Call α β))
    (f : Ω → α) (z x : α) (ω : Fin (w - 1) → Ω) :
    (call (exactStorm (β := β) dist) (calls (exactStorm (β := β) dist) (StormState.new w r)
      (cs ++ fits (drawn f ω ++ [z]))).2 (.score x)).1 =
      .value ((∑ t, if dist (f (ω t)) x < r then (1 : ℝ) else 0) / ((w - 1 : ℕ) : ℝ)) := by
  have h := C50_storm_score (β := β) dist w r (cs ++ fits (drawn f ω ++ [z])) x
  simp only at h
  have e : (lastN w (fitted (cs ++ fits (drawn f ω ++ [z])))).dropLast = drawn f ω := by
    rw [fitted_append, fitted_fits, lastN_append_of_le (by simp [length_drawn]; omega),
      lastN_of_le (by simp [length_drawn]; omega), List.dropLast_concat]
  rw [e] at h
  simp only [call, h]
  unfold nearFraction
  rw [if_neg (fun h => by have := congrArg List.length h; rw [length_drawn] at this; simp at this; omega),
    countP_drawn, length_drawn]

/-- **C170, `ExactStorm`.** After any history followed by `w - 1` independent draws from a population and
one more instance, the score of `x` is within `ε` of the fraction of the population that is closer to `x`
than the radius, except with chance `2 exp(-2 (w - 1) ε²)`. -/
theorem C170_storm (dist : α → α → ℝ) {w : ℕ} (hw : 2 ≤ w) (r : ℝ) (cs : List (Call α β))
    (f : Ω → α) (z x : α) :
    ∃ score : (Fin (w - 1) → Ω) → ℝ,
      (∀ ω, (call (exactStorm (β := β) dist) (calls (exactStorm (β := β) dist) (StormState.new w r)
        (cs ++ fits (drawn f ω ++ [z]))).2 (.score x)).1 = .value (score ω)) ∧
      ∀ ε : ℝ, 0 ≤ ε →
        fraction (fun ω => ε ≤ |score ω - fraction fun v => dist (f v) x < r|) ≤
          2 * Real.exp (-(2 * (w - 1) * ε ^ 2)) := by
  refine ⟨_, storm_after_draws dist hw r cs f z x, fun ε hε => ?_⟩
  have h := indicator_hoeffding (T := w - 1) (fun v : Ω => dist (f v) x < r) (by omega) ε hε
  rw [show (w : ℝ) - 1 = ((w - 1 : ℕ) : ℝ) by rw [Nat.cast_sub (by omega), Nat.cast_one]]
  exact h

/-- **C170, `ExactStorm`, order.** If the population has a fraction of at least `g` more members near `y`
than near `x`, then the score of `x` is below that of `y`, except with chance `exp(-(w - 1) g² / 2)`. -/
theorem C170_storm_order (dist : α → α → ℝ) {w : ℕ} (hw : 2 ≤ w) (r : ℝ) (cs : List (Call α β))
    (f : Ω → α) (z x y : α) (g : ℝ) (hg : 0 ≤ g)
    (hgap : (fraction fun v => dist (f v) x < r) + g ≤ fraction fun v => dist (f v) y < r) :
    ∃ scoreX scoreY : (Fin (w - 1) → Ω) → ℝ,
      (∀ ω, (call (exactStorm (β := β) dist) (calls (exactStorm (β := β) dist) (StormState.new w r)
        (cs ++ fits (drawn f ω ++ [z]))).2 (.score x)).1 = .value (scoreX ω)) ∧
      (∀ ω, (call (exactStorm (β := β) dist) (calls (exactStorm (β := β) dist) (StormState.new w r)
        (cs ++ fits (drawn f ω ++ [z]))).2 (.score y)).1 = .value (scoreY ω)) ∧
      fraction (fun ω => scoreY ω ≤ scoreX ω) ≤ Real.exp (-((w - 1) * g ^ 2 / 2)) := by
  refine ⟨_, _, storm_after_draws dist hw r cs f z x, storm_after_draws dist hw r cs f z y, ?_⟩
  set A : Ω → ℝ := fun v => if dist (f v) x < r then (1 : ℝ) else 0 with hA
  set B : Ω → ℝ := fun v => if dist (f v) y < r then (1 : ℝ) else 0 with hB
  have h := Expect.hoeffding_above (fun v : Ω => A v - B v) (-1) 1
    (fun v => by simp only [hA, hB]; constructor <;> split_ifs <;> norm_num) (w - 1) (by omega) g hg
  have e : (expectation fun v : Ω => A v - B v) =
      (fraction fun v => dist (f v) x < r) - fraction fun v => dist (f v) y < r := by
    rw [fraction_eq, fraction_eq]
    simp only [expectation, hA, hB, Finset.sum_sub_distrib, sub_div]
  rw [e] at h
  refine le_trans (fraction_mono fun ω hω => ?_) (h.trans (le_of_eq ?_))
  · simp only [Finset.sum_sub_distrib, sub_div]
    change (∑ t, B (ω t)) / _ ≤ (∑ t, A (ω t)) / _ at hω
    linarith
  · rw [Nat.cast_sub (by omega), Nat.cast_one]
    congr 1
    ring

/-! ### Conformal calibration -/

/-- **C170, conformal calibration in a window.** After any scores followed by `w` independent draws from a
population of scores, the calibrated probability of `y` is within `ε` of the fraction of the population
above `y`, except with chance `2 exp(-2 w ε²)`. -/
theorem C170_conformal {w : ℕ} (hw : 1 ≤ w) (xs : List ℝ) (f : Ω → ℝ) (y : ℝ) :
    ∃ prob : (Fin w → Ω) → ℝ,
      (∀ ω, ∃ s, (Conformal.postprocessor ℝ).fit (Conformal.new true w) (xs ++ drawn f ω) = .ok () s ∧
        ((Conformal.postprocessor ℝ).transformPartial s y).out = .ok (.fin (prob ω))) ∧
      ∀ ε : ℝ, 0 ≤ ε →
        fraction (fun ω => ε ≤ |prob ω - fraction fun v => y < f v|) ≤
          2 * Real.exp (-(2 * w * ε ^ 2)) := by
  refine ⟨fun ω => (∑ t, if y < f (ω t) then (1 : ℝ) else 0) / w, fun ω => ?_, fun ε hε =>
    indicator_hoeffding (T := w) (fun v : Ω => y < f v) (by omega) ε hε⟩
  have e : retained true w (xs ++ drawn f ω) = drawn f ω := by
    rw [retained, if_pos rfl, lastN_append_of_le (by rw [length_drawn]),
      lastN_of_le (by rw [length_drawn])]
  obtain ⟨s, h1, h2⟩ := C37_conformal (K := ℝ) true w (xs ++ drawn f ω) (by
    rw [e]
    intro h
    have := congrArg List.length h
    rw [length_drawn, List.length_nil] at this
    omega)
  refine ⟨s, h1, ?_⟩
  rw [h2, e]
  simp only [Res.out_ok, tailFraction, countP_drawn, length_drawn]

/-- **C170, conformal calibration without a window**, on `N` draws. -/
theorem C170_conformal_all {N : ℕ} (hN : 1 ≤ N) (w : ℕ) (f : Ω → ℝ) (y : ℝ) :
    ∃ prob : (Fin N → Ω) → ℝ,
      (∀ ω, ∃ s, (Conformal.postprocessor ℝ).fit (Conformal.new false w) (drawn f ω) = .ok () s ∧
        ((Conformal.postprocessor ℝ).transformPartial s y).out = .ok (.fin (prob ω))) ∧
      ∀ ε : ℝ, 0 ≤ ε →
        fraction (fun ω => ε ≤ |prob ω - fraction fun v => y < f v|) ≤
          2 * Real.exp (-(2 * N * ε ^ 2)) := by
  refine ⟨fun ω => (∑ t, if y < f (ω t) then (1 : ℝ) else 0) / N, fun ω => ?_, fun ε hε =>
    indicator_hoeffding (T := N) (fun v : Ω => y < f v) (by omega) ε hε⟩
  obtain ⟨s, h1, h2⟩ := C37_conformal (K := ℝ) false w (drawn f ω) (by
    rw [retained, if_neg (by simp)]
    intro h
    have := congrArg List.length h
    rw [length_drawn, List.length_nil] at this
    omega)
  refine ⟨s, h1, ?_⟩
  rw [h2, retained, if_neg (by simp)]
  simp only [Res.out_ok, tailFraction, countP_drawn, length_drawn]

/-! ### Smoothing -/

/-- **C170, running average.** After any scores followed by `w` independent draws from a population of
scores between `a` and `b`, the last smoothed score is within `ε` of the mean of the population, except
with chance `2 exp(-2 w ε² / (b - a)²)`. -/
theorem C170_running_average {w : ℕ} (hw : 1 ≤ w) (xs : List ℝ) (f : Ω → ℝ) (a b : ℝ)
    (hab : ∀ v, a ≤ f v ∧ f v ≤ b) :
    ∃ last : (Fin w → Ω) → ℝ,
      (∀ ω, ∃ out, ((runningAveragePostprocessor ℝ w).fitTransform (RunningAveragePostprocessor.new ℝ w)
        (xs ++ drawn f ω)).out = .ok out ∧ out.getLast? = some (last ω)) ∧
      ∀ ε : ℝ, 0 ≤ ε →
        fraction (fun ω => ε ≤ |last ω - expectation f|) ≤
          2 * Real.exp (-(2 * w * ε ^ 2 / (b - a) ^ 2)) := by
  refine ⟨fun ω => (∑ t, f (ω t)) / w, fun ω => ?_, fun ε hε =>
    Expect.hoeffding f a b hab w (by omega) ε hε⟩
  obtain ⟨out, s, h1, h2, h3⟩ := C35_average w hw (xs ++ drawn f ω)
  have hl : (xs ++ drawn f ω).length = xs.length + w := by rw [List.length_append, length_drawn]
  refine ⟨out, by rw [h1]; rfl, ?_⟩
  rw [List.getLast?_eq_getElem?, h2, h3 _ (by omega), List.take_of_length_le (by omega),
    lastN_append_of_le (by rw [length_drawn]), lastN_of_le (by rw [length_drawn]), meanOf_drawn]

/-- **C170, running median.** If more than half of a population of scores, by a margin of `g`, lies
between `lo` and `hi`, then after any scores followed by `w` independent draws the last smoothed score
lies between `lo` and `hi`, except with chance `exp(-2 w g²)`. -/
theorem C170_running_median {w : ℕ} (hw : 1 ≤ w) (xs : List ℝ) (f : Ω → ℝ) (lo hi g : ℝ) (hg : 0 ≤ g)
    (hmaj : 1 / 2 + g ≤ fraction fun v => lo ≤ f v ∧ f v ≤ hi) :
    ∃ last : (Fin w → Ω) → ℝ,
      (∀ ω, ∃ out, ((runningMedianPostprocessor ℝ w).fitTransform (RunningMedianPostprocessor.new ℝ w)
        (xs ++ drawn f ω)).out = .ok out ∧ out.getLast? = some (last ω)) ∧
      fraction (fun ω => ¬ (lo ≤ last ω ∧ last ω ≤ hi)) ≤ Real.exp (-(2 * w * g ^ 2)) := by
  have H : ∀ ω : Fin w → Ω, ∃ v, (∃ out, ((runningMedianPostprocessor ℝ w).fitTransform
      (RunningMedianPostprocessor.new ℝ w) (xs ++ drawn f ω)).out = .ok out ∧ out.getLast? = some v) ∧
      medianOf (drawn f ω : Multiset ℝ) = some v := by
    intro ω
    obtain ⟨out, s, h1, h2, h3⟩ := C35_median w hw (xs ++ drawn f ω)
    have hl : (xs ++ drawn f ω).length = xs.length + w := by rw [List.length_append, length_drawn]
    obtain ⟨v, hv, hm⟩ := h3 (xs.length + w - 1) (by omega)
    rw [List.take_of_length_le (by omega),
      lastN_append_of_le (by rw [length_drawn]), lastN_of_le (by rw [length_drawn])] at hm
    refine ⟨v, ⟨out, by rw [h1]; rfl, ?_⟩, hm⟩
    rw [List.getLast?_eq_getElem?, h2, hl, hv]
  choose last h1 h2 using H
  refine ⟨last, h1, le_trans (fraction_mono fun ω hω => ?_)
    (indicator_below (T := w) (fun v : Ω => lo ≤ f v ∧ f v ≤ hi) (by omega) g hg (1 / 2) hmaj)⟩
  by_contra hlt
  refine hω (medianOf_mostlyWithin ?_ (h2 ω))
  have hw' : (0 : ℝ) < w := by exact_mod_cast hw
  rw [not_le, lt_div_iff₀ hw', ← countP_drawn fun x => lo ≤ x ∧ x ≤ hi] at hlt
  unfold MostlyWithin Mostly
  rw [Multiset.coe_card, Multiset.coe_countP, length_drawn]
  have h3 : (w : ℝ) < 2 * ((drawn f ω).countP fun x => decide (lo ≤ x ∧ x ≤ hi) : ℕ) := by linarith
  exact_mod_cast h3

/-! ### `HalfSpaceTrees` -/

/-- How similar the trees find two instances: the sum, over the trees and the depths `j` at which they are
in the same cell, of `2 ^ j`. -/
noncomputable def Spec.treeSimilarity (trees : List (HsTree ℝ)) (D : ℕ) (x y : List ℝ) : ℝ :=
  (trees.map fun t => ((List.range (D + 1)).map fun j =>
    if cell t j y = cell t j x then (2 : ℝ) ^ j else 0).sum).sum

theorem treeSimilarity_range (trees : List (HsTree ℝ)) (D : ℕ) (x y : List ℝ) :
    0 ≤ treeSimilarity trees D x y ∧
      treeSimilarity trees D x y ≤ trees.length * (2 ^ (D + 1) - 1) := by
  have h : ∀ t : HsTree ℝ, 0 ≤ ((List.range (D + 1)).map fun j =>
        if cell t j y = cell t j x then (2 : ℝ) ^ j else 0).sum ∧
      ((List.range (D + 1)).map fun j =>
        if cell t j y = cell t j x then (2 : ℝ) ^ j else 0).sum ≤ 2 ^ (D + 1) - 1 := by
    intro t
    constructor
    · apply List.sum_nonneg
      intro a ha
      obtain ⟨j, -, rfl⟩ := List.mem_map.1 ha
      split_ifs <;> positivity
    · rw [← sum_two_pow]
      apply List.sum_le_sum
      intro j _
      split_ifs
      · exact le_rfl
      · positivity
  unfold treeSimilarity
  induction trees with
  | nil => simp
  | cons t ts ih =>
    simp only [List.map_cons, List.sum_cons, List.length_cons]
    push_cast
    have h1 := h t
    constructor <;> linarith [ih.1, ih.2, h1.1, h1.2]

theorem referenceWindow_complete {α : Type*} {w : ℕ} (hw : 1 ≤ w) {X Y : List α} (hX : X.length % w = 0)
    (hY : Y.length = w) : referenceWindow w (X ++ Y) = Y := by
  unfold referenceWindow
  rw [List.length_append, hY, if_neg (by omega), Nat.add_div_right _ hw, Nat.add_one_sub_one,
    Nat.div_mul_cancel (Nat.dvd_of_mod_eq_zero hX), List.drop_left, ← hY, List.take_length]

/-- **C170, `HalfSpaceTrees`.** For every trees that the constructor may build: after any history of whole
windows followed by a window of `w` independent draws from a population, the score of `x` divided by `-w`
is within `ε` of the mean similarity of `x` to the members of the population, except with chance
`2 exp(-2 w ε² / (n (2^(D+1) - 1))²)`. -/
theorem C170_hst {G : Type*} (randint : G → ℕ → ℕ × G) (hr : InRange randint) (mins maxes : List ℝ)
    (hd : 1 ≤ maxes.length) {w : ℕ} (n D : ℕ) (hw : 1 ≤ w) (g : G) (s0 : HstState ℝ)
    (h0 : Hst.new randint mins maxes w n D g = .ok s0) (cs : List (Call (List ℝ) β))
    (hX : ∀ x ∈ fitted cs, x.length = maxes.length) (hcs : (fitted cs).length % w = 0)
    (f : Ω → List ℝ) (hf : ∀ v, (f v).length = maxes.length) (x : List ℝ)
    (hx : x.length = maxes.length) :
    ∃ score : (Fin w → Ω) → ℝ,
      (∀ ω, ((Hst.detector ℝ β).scorePartial
        (calls (Hst.detector ℝ β) s0 (cs ++ fits (drawn f ω))).2 x).out = .ok (score ω)) ∧
      ∀ ε : ℝ, 0 ≤ ε →
        fraction (fun ω =>
          ε ≤ |score ω / -w - expectation fun v => treeSimilarity s0.roots D x (f v)|) ≤
          2 * Real.exp (-(2 * w * ε ^ 2 / (n * (2 ^ (D + 1) - 1)) ^ 2)) := by
  have hn : s0.roots.length = n := by
    obtain ⟨ts, rfl, h, -⟩ := new_spec randint hr mins maxes w n D g s0 h0
    exact h
  refine ⟨fun ω => -∑ t, treeSimilarity s0.roots D x (f (ω t)), fun ω => ?_, fun ε hε => ?_⟩
  · have hfit : fitted (cs ++ fits (β := β) (drawn f ω)) = fitted cs ++ drawn f ω := by
      rw [fitted_append, fitted_fits]
    rw [C53_hst_score randint hr mins maxes hd w n D hw g s0 h0 _ ?_ x hx, hfit,
      referenceWindow_complete hw hcs (length_drawn f ω)]
    · congr 2
      unfold treeSimilarity
      rw [← list_sum_swap]
      congr 2
      funext tr
      rw [← list_sum_swap]
      congr 2
      funext j
      rw [neighbours, countP_drawn fun z => cell tr j z = cell tr j x, Finset.sum_mul]
      exact Finset.sum_congr rfl fun t _ => by split_ifs <;> simp
    · intro y hy
      rw [hfit, List.mem_append] at hy
      rcases hy with hy | hy
      · exact hX y hy
      · obtain ⟨t, rfl⟩ := (List.mem_ofFn' _ _).1 hy
        exact hf _
  · have h := Expect.hoeffding (fun v => treeSimilarity s0.roots D x (f v)) 0
      (n * (2 ^ (D + 1) - 1)) (fun v => hn ▸ treeSimilarity_range _ _ _ _) w (by omega) ε hε
    rw [sub_zero] at h
    refine le_trans (le_of_eq ?_) h
    congr 1
    funext ω
    rw [neg_div_neg_eq]

end

/-- A population of which two thirds are 0 and one third is 100: the median of 45 draws is 0, except with
chance `exp(-5/2)`, whatever came before. -/
example (xs : List ℝ) : ∃ last : (Fin 45 → Fin 3) → ℝ,
    (∀ ω, ∃ out, ((runningMedianPostprocessor ℝ 45).fitTransform (RunningMedianPostprocessor.new ℝ 45)
      (xs ++ drawn ![0, 0, 100] ω)).out = .ok out ∧ out.getLast? = some (last ω)) ∧
    fraction (fun ω => ¬ (0 ≤ last ω ∧ last ω ≤ 0)) ≤ Real.exp (-(5 / 2)) := by
  have h : fraction (fun v : Fin 3 => (0 : ℝ) ≤ ![0, 0, 100] v ∧ ![0, 0, 100] v ≤ (0 : ℝ)) = 2 / 3 := by
    rw [fraction_eq, expectation, Fin.sum_univ_three,
      show ![(0 : ℝ), 0, 100] 2 = 100 from rfl]
    norm_num
  obtain ⟨last, h1, h2⟩ := C170_running_median (w := 45) (by norm_num) xs ![0, 0, 100] 0 0 (1 / 6)
    (by norm_num) (by rw [h]; norm_num)
  exact ⟨last, h1, h2.trans (le_of_eq (by norm_num))⟩

/-- `ExactStorm` on the line with radius 1 and a population of four values: three quarters of it are near 0,
one quarter is near 10. -/
example (cs : List (Call ℝ Unit)) (z : ℝ) : ∃ scoreX scoreY : (Fin (101 - 1) → Fin 4) → ℝ,
    (∀ ω, (call (exactStorm (β := Unit) fun a b : ℝ => |a - b|) (calls (exactStorm fun a b : ℝ => |a - b|)
      (StormState.new 101 1) (cs ++ fits (drawn ![0, 1 / 2, -1 / 2, 10] ω ++ [z]))).2 (.score 10)).1 =
        .value (scoreX ω)) ∧
    (∀ ω, (call (exactStorm (β := Unit) fun a b : ℝ => |a - b|) (calls (exactStorm fun a b : ℝ => |a - b|)
      (StormState.new 101 1) (cs ++ fits (drawn ![0, 1 / 2, -1 / 2, 10] ω ++ [z]))).2 (.score 0)).1 =
        .value (scoreY ω)) ∧
    fraction (fun ω => scoreY ω ≤ scoreX ω) ≤ Real.exp (-(25 / 2)) := by
  obtain ⟨a, b, h1, h2, h3⟩ := C170_storm_order (β := Unit) (fun a b : ℝ => |a - b|) (w := 101)
    (by norm_num) 1 cs ![0, 1 / 2, -1 / 2, 10] z 10 0 (1 / 2) (by norm_num) (by
      rw [fraction_eq, fraction_eq, expectation, expectation, Fin.sum_univ_four, Fin.sum_univ_four,
        show ![(0 : ℝ), 1 / 2, -1 / 2, 10] 2 = -1 / 2 from rfl,
        show ![(0 : ℝ), 1 / 2, -1 / 2, 10] 3 = 10 from rfl]
      norm_num [abs_lt])
  exact ⟨a, b, h1, h2, h3.trans (le_of_eq (by norm_num))⟩

end Pysad
