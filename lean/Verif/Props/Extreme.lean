import Verif.Proofs.Extreme
import Verif.Props.Postprocessors
import Verif.Props.Deviation

/-! C115: how high a standardised score can get. -/

namespace Pysad
open Spec

/-- The last entry of a returned list. -/
def Spec.newest {σ γ : Type*} (r : Res σ (List γ)) : Option γ :=
  match r.out with
  | .ok l => l.getLast?
  | .error _ => none

theorem lastN_snoc_succ {α : Type*} (w : ℕ) (xs : List α) (y : α) :
    lastN (w + 1) (xs ++ [y]) = lastN w xs ++ [y] := by
  unfold lastN
  rw [List.length_append, List.length_singleton, Nat.add_sub_add_right,
    List.drop_append_of_le_length (by omega)]

theorem newest_running_zscore (w : ℕ) (xs : List ℝ) (y : ℝ) :
    newest ((zscoreRunning (w + 1)).fitTransform (zscoreRunning.init (w + 1)) (xs ++ [y])) =
      some (zscore (y ::ₘ (lastN w xs : Multiset ℝ)) y) := by
  obtain ⟨out, s, h1, h2, h3⟩ := C36_running_zscore (w + 1) (by omega) (xs ++ [y])
  have h := h3 xs.length (by simp)
  rw [h1]
  simp only [newest, Res.out_ok]
  rw [List.getLast?_eq_getElem?, h2]
  simp only [List.length_append, List.length_singleton, Nat.add_sub_cancel]
  rw [h, List.take_of_length_le (by simp), lastN_snoc_succ]
  congr 2
  · rw [Multiset.coe_eq_coe.2 List.perm_append_comm]; rfl
  · simp

theorem newest_zscore (xs : List ℝ) (y : ℝ) :
    newest (zscorePlain.fitTransform zscorePlain.init (xs ++ [y])) =
      some (zscore (y ::ₘ (xs : Multiset ℝ)) y) := by
  obtain ⟨out, s, h1, h2, h3⟩ := C36_zscore (xs ++ [y])
  have h := h3 xs.length (by simp)
  rw [h1]
  simp only [newest, Res.out_ok]
  rw [List.getLast?_eq_getElem?, h2]
  simp only [List.length_append, List.length_singleton, Nat.add_sub_cancel]
  rw [h, List.take_of_length_le (by simp)]
  congr 2
  · rw [Multiset.coe_eq_coe.2 List.perm_append_comm]; rfl
  · simp

/-- The full claim of **C115** for the z-score postprocessors. -/
def C115_zscore_statement : Prop :=
  (∀ (xs : List ℝ) (B : ℝ), xs ≠ [] →
    ∃ y z, newest (zscorePlain.fitTransform zscorePlain.init (xs ++ [y])) = some (.fin z) ∧ B < z) ∧
  ∀ (w : ℕ) (xs : List ℝ) (B : ℝ), 2 ≤ w → xs ≠ [] →
    ∃ y z, newest ((zscoreRunning w).fitTransform (zscoreRunning.init w) (xs ++ [y])) =
      some (.fin z) ∧ B < z

theorem zscore_cons_abs_le {m : Multiset ℝ} (hm : m ≠ 0) {y z : ℝ}
    (h : zscore (y ::ₘ m) y = .fin z) : |z| ≤ √(m.card : ℝ) := by
  rw [zscore_cons hm] at h
  split at h
  · cases h
  · cases h
    rw [abs_mul, abs_of_nonneg (Real.sqrt_nonneg _)]
    exact mul_le_of_le_one_right (Real.sqrt_nonneg _)
      (ratio_abs_le (mul_nonneg (by positivity) (spread_nonneg m)))

theorem zscore_cons_mono {m : Multiset ℝ} (hm : m ≠ 0) {y y' z z' : ℝ} (hy : y ≤ y')
    (h : zscore (y ::ₘ m) y = .fin z) (h' : zscore (y' ::ₘ m) y' = .fin z') : z ≤ z' := by
  rw [zscore_cons hm] at h h'
  split at h <;> cases h
  split at h' <;> cases h'
  rename_i h1 h2
  apply mul_le_mul_of_nonneg_left _ (Real.sqrt_nonneg _)
  apply ratio_mono (mul_nonneg (by positivity) (spread_nonneg m)) _ h1 h2
  unfold lead
  have : (0 : ℝ) ≤ m.card := by positivity
  nlinarith

theorem zscore_cons_reaches {m : Multiset ℝ} (hm : m ≠ 0) {B : ℝ} (hB : B < √(m.card : ℝ)) :
    ∃ y z, zscore (y ::ₘ m) y = .fin z ∧ B < z := by
  have hn : (0 : ℝ) < m.card := card_pos_of_ne hm
  have hs : 0 < √(m.card : ℝ) := Real.sqrt_pos.2 hn
  obtain ⟨u, h1, h2⟩ := ratio_reaches (c := (m.card + 1) * spread m)
    (mul_nonneg (by positivity) (spread_nonneg m)) ((div_lt_one hs).2 hB)
  have hl : lead m ((u + m.sum) / m.card) = u := by unfold lead; field_simp; ring
  refine ⟨(u + m.sum) / m.card, _, ?_, (div_lt_iff₀' hs).1 h2⟩
  rw [zscore_cons hm, hl, if_neg]
  have := mul_nonneg (show (0 : ℝ) ≤ m.card + 1 by positivity) (spread_nonneg m)
  positivity

/-- **C115 is false** of the z-score postprocessors: after one score no second one gets more than 1,
however large. -/
theorem C115_zscore_refuted : ¬ C115_zscore_statement := by
  rintro ⟨h, -⟩
  obtain ⟨y, z, h1, h2⟩ := h [0] 1 (by simp)
  rw [newest_zscore, Option.some.injEq] at h1
  have := zscore_cons_abs_le (by simp) h1
  simp at this
  linarith [le_abs_self z]

/-- **C115, what holds** of `ZScorePostprocessor`: with `n` earlier scores, the standard scores that
can be reached are those below `√n`, and they grow with the score. (Missing: higher ones.) -/
theorem C115_zscore_partial (xs : List ℝ) (hxs : xs ≠ []) :
    (∀ y z, newest (zscorePlain.fitTransform zscorePlain.init (xs ++ [y])) = some (.fin z) →
      |z| ≤ √(xs.length : ℝ)) ∧
    (∀ B, B < √(xs.length : ℝ) → ∃ y z,
      newest (zscorePlain.fitTransform zscorePlain.init (xs ++ [y])) = some (.fin z) ∧ B < z) ∧
    ∀ y y' z z', y ≤ y' →
      newest (zscorePlain.fitTransform zscorePlain.init (xs ++ [y])) = some (.fin z) →
      newest (zscorePlain.fitTransform zscorePlain.init (xs ++ [y'])) = some (.fin z') → z ≤ z' := by
  have hm : (xs : Multiset ℝ) ≠ 0 := by simpa using hxs
  simp only [newest_zscore, Option.some.injEq]
  refine ⟨fun y z h => ?_, fun B hB => ?_, fun y y' z z' hy h h' => zscore_cons_mono hm hy h h'⟩
  · simpa using zscore_cons_abs_le hm h
  · exact zscore_cons_reaches hm (by simpa using hB)

/-- **C115, what holds** of `RunningZScorePostprocessor(w)`: as above, with the at most `w - 1`
earlier scores in the window. -/
theorem C115_running_zscore_partial (w : ℕ) (hw : 2 ≤ w) (xs : List ℝ) (hxs : xs ≠ []) :
    (∀ y z, newest ((zscoreRunning w).fitTransform (zscoreRunning.init w) (xs ++ [y])) =
        some (.fin z) → |z| ≤ √(min (w - 1) xs.length : ℕ)) ∧
    (∀ B, B < √(min (w - 1) xs.length : ℕ) → ∃ y z,
      newest ((zscoreRunning w).fitTransform (zscoreRunning.init w) (xs ++ [y])) =
        some (.fin z) ∧ B < z) ∧
    ∀ y y' z z', y ≤ y' →
      newest ((zscoreRunning w).fitTransform (zscoreRunning.init w) (xs ++ [y])) = some (.fin z) →
      newest ((zscoreRunning w).fitTransform (zscoreRunning.init w) (xs ++ [y'])) = some (.fin z') →
      z ≤ z' := by
  obtain ⟨w, rfl⟩ : ∃ v, w = v + 1 := ⟨w - 1, by omega⟩
  have hm : (lastN w xs : Multiset ℝ) ≠ 0 := by simpa using lastN_ne_nil (by omega) hxs
  have hc : (lastN w xs : Multiset ℝ).card = min w xs.length := by
    rw [Multiset.coe_card, lastN_length]
  simp only [newest_running_zscore, Option.some.injEq, Nat.add_sub_cancel]
  refine ⟨fun y z h => ?_, fun B hB => ?_, fun y y' z z' hy h h' => zscore_cons_mono hm hy h h'⟩
  · have := zscore_cons_abs_le hm h
    rwa [hc] at this
  · exact zscore_cons_reaches hm (by rwa [hc])

/-- **C115, what holds**: `transform_partial(y)` of a score that is not fitted first has no ceiling,
as soon as the fitted scores vary. -/
theorem C115_zscore_transform_partial (w : ℕ) (hw : 1 ≤ w) (xs : List ℝ)
    (hv : varianceOf (lastN w xs : Multiset ℝ) ≠ 0) (B : ℝ) :
    ∃ y z s s', (zscoreRunning w).fit (zscoreRunning.init w) xs = .ok () s ∧
      (zscoreRunning w).transformPartial s y = .ok (.fin z) s' ∧ B < z := by
  have hxs : xs ≠ [] := by rintro rfl; simp [varianceOf] at hv
  have hp : 0 < √(varianceOf (lastN w xs : Multiset ℝ)) :=
    Real.sqrt_pos.2 (lt_of_le_of_ne (varianceOf_nonneg _) (Ne.symm hv))
  set μ := meanOf (lastN w xs : Multiset ℝ) with hμ
  set sd := √(varianceOf (lastN w xs : Multiset ℝ)) with hsd
  obtain ⟨s, s', h1, h2⟩ := C36_transform w hw xs hxs (μ + (B + 1) * sd)
  refine ⟨μ + (B + 1) * sd, B + 1, s, s', h1, ?_, by linarith⟩
  rw [h2, ← hμ, ← hsd, npDiv, if_neg hp.ne']
  congr 2
  field_simp
  ring

section Deviation
variable {β : Type*}

theorem sad_fit_score {σ : Type} (sub : Statistic σ ℝ ℝ) (absolute : Bool)
    (cs : List (Call (List ℝ) β)) (y : ℝ) :
    ((standardAbsoluteDeviation (β := β) Real.sqrt sub).fitScorePartial
      (calls (standardAbsoluteDeviation Real.sqrt sub) (SadState.new sub absolute) cs).2 [y] none).out
    = ((standardAbsoluteDeviation (β := β) Real.sqrt sub).scorePartial
      (calls (standardAbsoluteDeviation Real.sqrt sub) (SadState.new sub absolute)
        (cs ++ [.fit [y] none])).2 [y]).out := by
  rw [calls_snoc]
  rfl

theorem univariate_snoc (cs : List (Call (List ℝ) β)) (y : ℝ) :
    univariate (fitted (cs ++ [.fit [y] none])) = univariate (fitted cs) ++ [y] := by
  rw [fitted_append, univariate_append]; rfl

/-- The full claim of **C115** for `StandardAbsoluteDeviation`: once something was fitted, some
instance gets a score above any bound from `fit_score_partial`. -/
def C115_sad_statement : Prop :=
  ∀ (cs : List (Call (List ℝ) Unit)) (B : ℝ), univariate (fitted cs) ≠ [] →
    ∃ y v, ((standardAbsoluteDeviation (β := Unit) Real.sqrt (averageMeter ℝ)).fitScorePartial
      (calls (standardAbsoluteDeviation Real.sqrt (averageMeter ℝ))
        (SadState.new (averageMeter ℝ) true) cs).2 [y] none).out = .ok [.fin v] ∧ B < v

/-- **C115, what holds** of `StandardAbsoluteDeviation` with the mean: with `n` earlier values
`fit_score_partial` never returns more than `√n`. (Missing: higher scores.) -/
theorem C115_sad_partial (absolute : Bool) (cs : List (Call (List ℝ) β)) (y : ℝ) :
    ∃ v, ((standardAbsoluteDeviation (β := β) Real.sqrt (averageMeter ℝ)).fitScorePartial
      (calls (standardAbsoluteDeviation Real.sqrt (averageMeter ℝ))
        (SadState.new (averageMeter ℝ) absolute) cs).2 [y] none).out = .ok [.fin v] ∧
      |v| ≤ √((univariate (fitted cs)).length : ℝ) := by
  rw [sad_fit_score, C68_sad_mean _ _ (by rw [univariate_snoc]; simp)]
  refine ⟨_, rfl, ?_⟩
  rw [univariate_snoc]
  set xs := univariate (fitted cs)
  have hcoe : ((xs ++ [y] : List ℝ) : Multiset ℝ) = y ::ₘ (xs : Multiset ℝ) := by
    rw [Multiset.coe_eq_coe.2 List.perm_append_comm]; rfl
  rw [hcoe]
  have habs : ∀ q : ℝ, |(if absolute then |q| else q)| = |q| := by intro q; cases absolute <;> simp
  simp only []
  rw [habs]
  set v := varianceOf (y ::ₘ (xs : Multiset ℝ)) with hv
  have hv0 : 0 ≤ v := varianceOf_nonneg _
  by_cases hm : (xs : Multiset ℝ) = 0
  · rw [hm]
    simp [meanOf]
  have hle : |y - meanOf (y ::ₘ (xs : Multiset ℝ))| ≤ √(xs.length : ℝ) * √v := by
    by_cases h0 : v = 0
    · rw [← eq_mean_of_variance_zero (m := y ::ₘ (xs : Multiset ℝ)) (x := y) h0 (by simp)]
      simp; positivity
    · have hz : zscore (y ::ₘ (xs : Multiset ℝ)) y =
          .fin ((y - meanOf (y ::ₘ (xs : Multiset ℝ))) / √v) := by
        rw [zscore, if_neg h0]
      have h1 := zscore_cons_abs_le hm hz
      have hp : 0 < √v := Real.sqrt_pos.2 (lt_of_le_of_ne hv0 (Ne.symm h0))
      rw [abs_div, abs_of_nonneg hp.le, div_le_iff₀ hp] at h1
      simpa using h1
  have hd : 0 < √v + 1 / 10 ^ 10 := by positivity
  rw [abs_div, abs_of_pos hd, div_le_iff₀ hd]
  refine hle.trans ?_
  apply mul_le_mul_of_nonneg_left _ (Real.sqrt_nonneg _)
  linarith [show (0 : ℝ) < 1 / 10 ^ 10 by positivity]

/-- **C115 is false** of `StandardAbsoluteDeviation`. -/
theorem C115_sad_refuted : ¬ C115_sad_statement := by
  intro h
  obtain ⟨y, v, h1, h2⟩ := h [.fit [0] none] 1 (by simp [univariate, fitted])
  obtain ⟨v', h1', h2'⟩ := C115_sad_partial true [.fit [0] (none : Option Unit)] y
  rw [h1] at h1'
  cases h1'
  simp [univariate, fitted] at h2'
  linarith [le_abs_self v]

/-- **C115, what holds**: `score_partial` of a value that is not fitted first has no ceiling. -/
theorem C115_sad_score_partial (cs : List (Call (List ℝ) β)) (hne : univariate (fitted cs) ≠ [])
    (B : ℝ) :
    ∃ y v, ((standardAbsoluteDeviation (β := β) Real.sqrt (averageMeter ℝ)).scorePartial
      (calls (standardAbsoluteDeviation Real.sqrt (averageMeter ℝ))
        (SadState.new (averageMeter ℝ) true) cs).2 [y]).out = .ok [.fin v] ∧ B < v := by
  set μ := meanOf (K := ℝ) (univariate (fitted cs)) with hμ
  set sd := √(varianceOf (K := ℝ) (univariate (fitted cs))) with hsd
  have hd : 0 < sd + 1 / 10 ^ 10 := by positivity
  refine ⟨μ + (|B| + 1) * (sd + 1 / 10 ^ 10), _, by rw [C68_sad_mean _ _ hne]; rfl, ?_⟩
  simp only [if_true, ← hμ, ← hsd, add_sub_cancel_left]
  rw [mul_div_assoc, div_self hd.ne', mul_one, abs_of_pos (by positivity)]
  linarith [le_abs_self B]

/-! `MedianAbsoluteDeviation` has no ceiling. -/

section Mad
variable {K : Type*} [Field K] [LinearOrder K] [IsStrictOrderedRing K]

/-- One value among at least two others does not move the median out of their range. -/
theorem medianOf_cons_mem {m : Multiset K} (hm : 2 ≤ m.card) {lo hi : K}
    (h : ∀ x ∈ m, lo ≤ x ∧ x ≤ hi) (y : K) {r : K} (hr : medianOf (y ::ₘ m) = some r) :
    lo ≤ r ∧ r ≤ hi := by
  have hlen : ((y ::ₘ m).sort (· ≤ ·)).length = m.card + 1 := by simp
  have hsorted : ((y ::ₘ m).sort (· ≤ ·)).Pairwise (· ≤ ·) := Multiset.pairwise_sort _ _
  have hperm : (((y ::ₘ m).sort (· ≤ ·) : List K) : Multiset K) = y ::ₘ m := Multiset.sort_eq _ _
  set l := (y ::ₘ m).sort (· ≤ ·) with hl
  have hcount : ∀ p : K → Prop, [DecidablePred p] → (∀ x ∈ m, ¬ p x) → l.countP p ≤ 1 := by
    intro p _ hp
    have : Multiset.countP p (l : Multiset K) ≤ 1 := by
      rw [hperm, Multiset.countP_cons, Multiset.countP_eq_zero.2 hp]
      split <;> simp
    simpa using this
  have key : ∀ i v, 1 ≤ i → i + 1 < l.length → l[i]? = some v → lo ≤ v ∧ v ≤ hi := by
    intro i v hi1 hi2 hv
    obtain ⟨hi3, rfl⟩ := List.getElem?_eq_some_iff.1 hv
    constructor
    · by_contra hc
      have hc := not_le.1 hc
      have h1 := hcount (· < lo) fun x hx => not_lt.2 (h x hx).1
      have h2 : (l.take (i + 1)).countP (· < lo) = i + 1 := by
        rw [List.countP_eq_length.2, List.length_take, min_eq_left (by omega)]
        intro a ha
        obtain ⟨j, hj, rfl⟩ := List.mem_iff_getElem.1 ha
        simp only [List.length_take] at hj
        rw [List.getElem_take]
        have hj' : j ≤ i := by omega
        have : l[j] ≤ l[i] := by
          rcases hj'.lt_or_eq with h5 | h5
          · exact List.pairwise_iff_getElem.1 hsorted j i _ _ h5
          · subst h5; exact le_rfl
        simpa using this.trans_lt hc
      have h3 := (List.take_sublist (i + 1) l).countP_le (p := fun x => decide (x < lo))
      omega
    · by_contra hc
      have hc := not_le.1 hc
      have h1 := hcount (hi < ·) fun x hx => not_lt.2 (h x hx).2
      have h2 : (l.drop i).countP (hi < ·) = l.length - i := by
        rw [List.countP_eq_length.2, List.length_drop]
        intro a ha
        obtain ⟨j, hj, rfl⟩ := List.mem_iff_getElem.1 ha
        simp only [List.length_drop] at hj
        rw [List.getElem_drop]
        have : l[i] ≤ l[i + j] := by
          rcases Nat.eq_zero_or_pos j with h5 | h5
          · subst h5; exact le_rfl
          · exact List.pairwise_iff_getElem.1 hsorted i (i + j) _ _ (by omega)
        simpa using hc.trans_le this
      have h3 := (List.drop_sublist i l).countP_le (p := fun x => decide (hi < x))
      omega
  unfold medianOf at hr
  rw [← hl] at hr
  simp only at hr
  split at hr
  · exact key _ _ (by omega) (by omega) hr
  · split at hr
    · rename_i a b ha hb
      simp only [Option.some.injEq] at hr
      have k1 := key _ a (by omega) (by omega) ha
      have k2 := key _ b (by omega) (by omega) hb
      rw [← hr]
      constructor
      · rw [le_div_iff₀ (by norm_num)]; linarith
      · rw [div_le_iff₀ (by norm_num)]; linarith
    · simp at hr

theorem exists_range (l : List K) : ∃ lo hi, ∀ x ∈ l, lo ≤ x ∧ x ≤ hi := by
  induction l with
  | nil => exact ⟨0, 0, by simp⟩
  | cons a l ih =>
    obtain ⟨lo, hi, h⟩ := ih
    refine ⟨min a lo, max a hi, ?_⟩
    intro x hx
    rcases List.mem_cons.1 hx with rfl | hx
    · exact ⟨min_le_left _ _, le_max_left _ _⟩
    · exact ⟨(min_le_right _ _).trans (h x hx).1, (h x hx).2.trans (le_max_right _ _)⟩

omit [IsStrictOrderedRing K] in
theorem runningDeviations_unique {xs ds ds' : List K} (h : RunningDeviations xs ds)
    (h' : RunningDeviations xs ds') : ds = ds' := by
  apply List.ext_getElem?
  intro i
  by_cases hi : i < xs.length
  · obtain ⟨m, h1, h2⟩ := h.2 i _ (List.getElem?_eq_getElem hi)
    obtain ⟨m', h1', h2'⟩ := h'.2 i _ (List.getElem?_eq_getElem hi)
    rw [h1] at h1'
    cases h1'
    rw [h2, h2']
  · rw [List.getElem?_eq_none (by rw [h.1]; omega), List.getElem?_eq_none (by rw [h'.1]; omega)]

omit [IsStrictOrderedRing K] in
theorem runningDeviations_snoc {xs ds : List K} {y : K} (h : RunningDeviations (xs ++ [y]) ds) :
    ∃ ds' d, ds = ds' ++ [d] ∧ RunningDeviations xs ds' := by
  have hlen := h.1
  rw [List.length_append, List.length_singleton] at hlen
  have hne : ds ≠ [] := by rintro rfl; simp at hlen
  refine ⟨ds.dropLast, ds.getLast hne, (List.dropLast_append_getLast hne).symm, ?_, ?_⟩
  · simp [hlen]
  · intro i x hx
    have hi : i < xs.length := (List.getElem?_eq_some_iff.1 hx).1
    obtain ⟨m, h1, h2⟩ := h.2 i x (by rw [List.getElem?_append_left hi]; exact hx)
    refine ⟨m, ?_, ?_⟩
    · rwa [List.take_append_of_le_length (by omega)] at h1
    · rw [List.getElem?_dropLast, if_pos (by omega)]; exact h2

theorem mad_fit_ok {b : K} {absolute : Bool} {xs : List K} {s : MadState K}
    (h : MadInv b absolute xs s) (x : K) (y : Option β) :
    ∃ s', (medianAbsoluteDeviation (β := β)).fitPartial s [x] y = .ok () s' := by
  obtain ⟨-, -, hm, -⟩ := h
  have hu := median_refines.update hm x
  rw [← coe_snoc] at hu
  obtain ⟨m, h1, -⟩ := medianValue_ok (median_refines.get_out hu) (by simp)
  cases hg : (medianMeter K).get ((medianMeter K).update s.medianMeter x) with
  | err e t => rw [hg] at h1; simp at h1
  | ok a t => simp [medianAbsoluteDeviation, hg]

/-- **C115 holds of `MedianAbsoluteDeviation`** once two values were fitted: some value gets a score
above any bound from `fit_score_partial`. -/
theorem C115_mad_partial (b : K) (hb : 0 ≤ b) (cs : List (Call (List K) β))
    (hn : 2 ≤ (univariate (fitted cs)).length) (B : K) :
    ∃ y v, ((medianAbsoluteDeviation (β := β)).fitScorePartial
      (calls medianAbsoluteDeviation (MadState.new true b) cs).2 [y] none).out = .ok [.fin v] ∧
      B < v := by
  set xs := univariate (fitted cs) with hxs
  have hne : xs ≠ [] := by rintro h0; rw [h0] at hn; simp at hn
  obtain ⟨lo, hi, hr⟩ := exists_range xs
  obtain ⟨_, ds, _, -, hds, -, -⟩ := C67_mad_score (β := β) b hb true cs hne []
  obtain ⟨dlo, D, hD⟩ := exists_range ds
  set e : K := 1 / 10 ^ 10
  have he : 0 < e := by positivity
  set D' := max D 0
  have hden : 0 < b * D' + e := by positivity
  have hB : B < |B| + 1 := lt_of_le_of_lt (le_abs_self B) (lt_add_one _)
  set y := hi + (|B| + 1) * (b * D' + e) with hy
  have hx' : univariate (fitted (cs ++ [(Call.fit [y] none : Call (List K) β)])) = xs ++ [y] := by
    rw [fitted_append, univariate_append]; rfl
  obtain ⟨m, ds', mad, h1, h2, h3, h4⟩ := C67_mad_score (β := β) b hb true (cs ++ [.fit [y] none])
    (by rw [hx']; simp) [y]
  rw [hx'] at h1 h2
  have hcoe : ∀ (l : List K) a, ((l ++ [a] : List K) : Multiset K) = a ::ₘ (l : Multiset K) := by
    intro l a
    rw [Multiset.coe_eq_coe.2 List.perm_append_comm]; rfl
  obtain ⟨ds'', d, rfl, h5⟩ := runningDeviations_snoc h2
  obtain rfl := runningDeviations_unique h5 hds
  rw [hcoe] at h1 h3
  have hm := (medianOf_cons_mem (by simpa using hn) (by simpa using hr) y h1).2
  have hmadD := (medianOf_cons_mem (by simpa [hds.1] using hn) (by simpa using hD) d h3).2
  have hmad0 : 0 ≤ mad := by
    apply medianOf_nonneg h3
    intro x hx
    have hx2 : x ∈ ds'' ++ [d] := by
      have : x ∈ ((ds'' ++ [d] : List K) : Multiset K) := by rw [hcoe]; exact hx
      simpa using this
    obtain ⟨i, hi', rfl⟩ := List.mem_iff_getElem.1 hx2
    have hi2 : i < (xs ++ [y]).length := by rw [← h2.1]; exact hi'
    obtain ⟨m', -, h7⟩ := h2.2 i _ (List.getElem?_eq_getElem hi2)
    rw [List.getElem?_eq_getElem hi'] at h7
    simp only [Option.some.injEq] at h7
    rw [h7]; exact abs_nonneg _
  refine ⟨y, |(y - m) / (b * mad + e)|, ?_, hB.trans_le ?_⟩
  · have hfs : ((medianAbsoluteDeviation (β := β)).fitScorePartial
        (calls medianAbsoluteDeviation (MadState.new true b) cs).2 [y] none).out =
        ((medianAbsoluteDeviation (β := β)).scorePartial
        (calls medianAbsoluteDeviation (MadState.new true b) (cs ++ [.fit [y] none])).2 [y]).out := by
      rw [calls_snoc]
      simp only [Detector.fitScorePartial, call]
      obtain ⟨s', hs'⟩ := mad_fit_ok (β := β) (mad_inv b true cs) y none
      simp only [hs', Res.bind_ok]
    rw [hfs, h4]
    rfl
  · have hmadD' : mad ≤ D' := hmadD.trans (le_max_left _ _)
    have hd1 : 0 < b * mad + e := by positivity
    have hd2 : b * mad + e ≤ b * D' + e := by
      have := mul_le_mul_of_nonneg_left hmadD' hb
      linarith
    have hnum : (|B| + 1) * (b * D' + e) ≤ y - m := by rw [hy]; linarith
    refine le_trans ?_ (le_abs_self _)
    rw [le_div_iff₀ hd1]
    refine le_trans ?_ hnum
    exact mul_le_mul_of_nonneg_left hd2 (by positivity)

end Mad

end Deviation

/-- Three equal scores and then any higher one: √3. -/
example : newest ((zscoreRunning 10).fitTransform (zscoreRunning.init 10) ([5, 5, 5] ++ [1000])) =
    some (.fin √3) := by
  rw [newest_running_zscore]
  have h : (lastN 9 [5, 5, 5] : List ℝ) = [5, 5, 5] := rfl
  rw [h, zscore_cons (by simp)]
  norm_num [lead, spread]
  rw [show (8910225 : ℝ) = 2985 ^ 2 by norm_num, Real.sqrt_sq (by norm_num)]
  norm_num

end Pysad
