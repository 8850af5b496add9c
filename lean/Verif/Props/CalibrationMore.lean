import Verif.Props.Calibration
import Verif.Props.Postprocessors
import Mathlib.Data.List.Sort

/-! C100-C102: what the probability calibrators are good for. -/

namespace Pysad

open Spec

/-! ### C100: ranking -/

/-- Whatever was fitted, a higher score never gets a lower probability. -/
def Spec.KeepsRanking {σ K : Type*} [LinearOrder K] (p : Postprocessor σ K (Num K)) (init : σ) : Prop :=
  ∀ (xs : List K) (s : σ), p.fit init xs = .ok () s → ∀ y z a b, y ≤ z →
    (p.transformPartial s y).out = .ok (.fin a) → (p.transformPartial s z).out = .ok (.fin b) → a ≤ b

/-- The property for the conformal calibrator: calibrated probabilities rank instances like their
anomaly scores. -/
def C100_statement : Prop :=
  ∀ (windowed : Bool) (w : ℕ), 1 ≤ w →
    KeepsRanking (Conformal.postprocessor (α := ℚ) ℚ) (Conformal.new windowed w)

/-- **C100.** The conformal calibrator reverses the ranking: after fitting 1, 2 and 3, the score 1
gets 2/3 and the score 3 gets 0. -/
theorem C100_conformal_refuted : ¬ C100_statement := by
  intro h
  obtain ⟨s, h1, h2⟩ := C37_conformal (K := ℚ) true 3 [(1 : ℚ), 2, 3] (by decide +kernel)
  have := h true 3 (by decide) [1, 2, 3] s h1 1 3 _ _ (by norm_num) (by rw [h2]; rfl)
    (by rw [h2]; rfl)
  revert this
  decide +kernel

/-- **C100 (partial, conformal).** The reversed ranking: a higher score never gets a higher
probability, whatever was fitted. -/
theorem C100_conformal_partial {K : Type*} [Field K] [LinearOrder K] [IsStrictOrderedRing K]
    (windowed : Bool) (w : ℕ) (xs : List K) (h : retained windowed w xs ≠ []) :
    ∃ s, (Conformal.postprocessor K).fit (Conformal.new windowed w) xs = .ok () s ∧
      ∀ y z : K, y ≤ z → ∃ a b, ((Conformal.postprocessor K).transformPartial s y).out = .ok (.fin a) ∧
        ((Conformal.postprocessor K).transformPartial s z).out = .ok (.fin b) ∧ b ≤ a := by
  obtain ⟨s, h1, h2⟩ := C37_conformal (K := K) windowed w xs h
  exact ⟨s, h1, fun y z hyz => ⟨_, _, by rw [h2]; rfl, by rw [h2]; rfl, C37_antitone _ hyz⟩⟩

/-- **C100 (partial, Gaussian tail).** This calibrator keeps the ranking, with either kind of
statistics. -/
theorem C100_gaussian_partial (erfc : ℝ → ℝ) (he : ErfcLike erfc) (w : ℕ) (hw : 1 ≤ w)
    (xs : List ℝ) (hxs : xs ≠ []) :
    (∃ s, (gaussianTailRunning Real.sqrt erfc w).fit (gaussianTailRunning.init w) xs = .ok () s ∧
      ∀ y z : ℝ, y ≤ z → ∃ a b,
        ((gaussianTailRunning Real.sqrt erfc w).transformPartial s y).out = .ok a ∧
        ((gaussianTailRunning Real.sqrt erfc w).transformPartial s z).out = .ok b ∧ a ≤ b) ∧
    (∃ s, (gaussianTailPlain Real.sqrt erfc w).fit (gaussianTailPlain.init w) xs = .ok () s ∧
      ∀ y z : ℝ, y ≤ z → ∃ a b,
        ((gaussianTailPlain Real.sqrt erfc w).transformPartial s y).out = .ok a ∧
        ((gaussianTailPlain Real.sqrt erfc w).transformPartial s z).out = .ok b ∧ a ≤ b) := by
  constructor
  · obtain ⟨s, p, h1, h2, h3⟩ := C38_running erfc he w hw xs hxs
    exact ⟨s, h1, fun y z hyz => ⟨_, _, h2 y, h2 z, h3.mono hyz⟩⟩
  · obtain ⟨s, p, h1, h2, h3⟩ := C38_plain erfc he w hw xs hxs
    exact ⟨s, h1, fun y z hyz => ⟨_, _, h2 y, h2 z, h3.mono hyz⟩⟩

/-- **C100 (partial, Gaussian tail, strictly).** For the actual complementary error function a
higher score gets a strictly higher probability. -/
theorem C100_gaussian_strict_partial (w : ℕ) (hw : 1 ≤ w) (xs : List ℝ) (hxs : xs ≠ []) :
    ∃ s, (gaussianTailRunning Real.sqrt Spec.erfc w).fit (gaussianTailRunning.init w) xs = .ok () s ∧
      ∀ y z : ℝ, y < z → ∃ a b,
        ((gaussianTailRunning Real.sqrt Spec.erfc w).transformPartial s y).out = .ok a ∧
        ((gaussianTailRunning Real.sqrt Spec.erfc w).transformPartial s z).out = .ok b ∧ a < b := by
  obtain ⟨s, h1, h2⟩ := gauss_fit Spec.erfc ((average_refines (K := ℝ)).runningMeter w)
    ((variance_refines (K := ℝ)).runningMeter w) xs
  have hne := lastN_ne_nil hw hxs
  refine ⟨s, h1, fun y z hyz => ⟨_, _, gauss_transform Spec.erfc _ _ h2 hne hne y,
    gauss_transform Spec.erfc _ _ h2 hne hne z, ?_⟩⟩
  have hs := std_pos (varianceOf (K := ℝ) (lastN w xs : List ℝ))
  have h2' : (0 : ℝ) < √2 := by positivity
  have := erfc_strictAnti (div_lt_div_of_pos_right (div_lt_div_of_pos_right
    (sub_lt_sub_right hyz (meanOf (K := ℝ) (lastN w xs : List ℝ))) hs) h2')
  linarith

/-! ### C101: units -/

theorem retained_map {α β : Type*} (f : α → β) (windowed : Bool) (w : ℕ) (l : List α) :
    retained windowed w (l.map f) = (retained windowed w l).map f := by
  unfold retained
  split
  · rw [lastN_map]
  · rfl

/-- **C101 (conformal).** The conformal probability depends on the order of the scores only: the
scores may be transformed by any strictly increasing function. -/
theorem C101_conformal {α β : Type*} [LinearOrder α] [LinearOrder β] {K : Type*} [Field K]
    [LinearOrder K] [IsStrictOrderedRing K] (f : α → β) (hf : StrictMono f) (windowed : Bool)
    (w : ℕ) (xs : List α) (y : α) :
    ∃ s s', (Conformal.postprocessor K).fit (Conformal.new windowed w) xs = .ok () s ∧
      (Conformal.postprocessor K).fit (Conformal.new windowed w) (xs.map f) = .ok () s' ∧
      ((Conformal.postprocessor K).transformPartial s' (f y)).out =
        ((Conformal.postprocessor K).transformPartial s y).out := by
  obtain ⟨s, h1, h2⟩ := conformal_contents (K := K) windowed w xs
  obtain ⟨s', h1', h2'⟩ := conformal_contents (K := K) windowed w (xs.map f)
  refine ⟨s, s', h1, h1', ?_⟩
  simp only [Conformal.postprocessor, Conformal.transformPartial, h2, h2', retained_map, Res.out_ok,
    List.length_map]
  congr 4
  rw [← List.countP_eq_length_filter, ← List.countP_eq_length_filter, List.countP_map]
  refine List.countP_congr fun a _ => ?_
  simp [hf.lt_iff_lt]

/-- The property for the Gaussian tail: scaling and shifting all the scores changes nothing. -/
def C101_statement : Prop :=
  ∀ (w : ℕ), 1 ≤ w → ∀ (xs : List ℝ), xs ≠ [] → ∀ (a b y : ℝ), 0 < a → ∀ s s',
    (gaussianTailRunning Real.sqrt Spec.erfc w).fit (gaussianTailRunning.init w) xs = .ok () s →
    (gaussianTailRunning Real.sqrt Spec.erfc w).fit (gaussianTailRunning.init w)
      (xs.map fun x => a * x + b) = .ok () s' →
    ((gaussianTailRunning Real.sqrt Spec.erfc w).transformPartial s' (a * y + b)).out =
      ((gaussianTailRunning Real.sqrt Spec.erfc w).transformPartial s y).out

/-- **C101 (partial, Gaussian tail).** It holds unless all scores in the window are equal. -/
theorem C101_gaussian_partial (erfc : ℝ → ℝ) (w : ℕ) (hw : 1 ≤ w) (xs : List ℝ) (hxs : xs ≠ [])
    (hvar : varianceOf (K := ℝ) (lastN w xs : List ℝ) ≠ 0) (a b : ℝ) (ha : 0 < a) (y : ℝ) :
    ∃ s s',
      (gaussianTailRunning Real.sqrt erfc w).fit (gaussianTailRunning.init w) xs = .ok () s ∧
      (gaussianTailRunning Real.sqrt erfc w).fit (gaussianTailRunning.init w)
        (xs.map fun x => a * x + b) = .ok () s' ∧
      ((gaussianTailRunning Real.sqrt erfc w).transformPartial s' (a * y + b)).out =
        ((gaussianTailRunning Real.sqrt erfc w).transformPartial s y).out := by
  obtain ⟨s, h1, h2⟩ := gauss_fit erfc ((average_refines (K := ℝ)).runningMeter w)
    ((variance_refines (K := ℝ)).runningMeter w) xs
  obtain ⟨s', h1', h2'⟩ := gauss_fit erfc ((average_refines (K := ℝ)).runningMeter w)
    ((variance_refines (K := ℝ)).runningMeter w) (xs.map fun x => a * x + b)
  refine ⟨s, s', h1, h1', ?_⟩
  have hne := lastN_ne_nil hw hxs
  have hxs' : (xs.map fun x => a * x + b) ≠ [] := by simpa using hxs
  have e1 := gauss_transform erfc _ _ h2 hne hne y
  have e2 := gauss_transform erfc _ _ h2' (lastN_ne_nil hw hxs') (lastN_ne_nil hw hxs') (a * y + b)
  have hm : ((lastN w xs : List ℝ) : Multiset ℝ) ≠ 0 := by simpa using hne
  have hmap : ((lastN w (xs.map fun x => a * x + b) : List ℝ) : Multiset ℝ) =
      ((lastN w xs : List ℝ) : Multiset ℝ).map fun x => a * x + b := by
    rw [lastN_map, Multiset.map_coe]
  refine e2.trans (Eq.trans ?_ e1.symm)
  rw [hmap, meanOf_affine hm, varianceOf_affine hm]
  have hpos := lt_of_le_of_ne (varianceOf_nonneg _) hvar.symm
  rw [if_pos hpos, if_pos (by positivity), Real.sqrt_mul (sq_nonneg a), Real.sqrt_sq ha.le]
  congr 4
  have : √(varianceOf ((lastN w xs : List ℝ) : Multiset ℝ)) ≠ 0 := (Real.sqrt_pos.2 hpos).ne'
  field_simp
  ring

/-- **C101.** If all scores in the window are equal the spread is taken to be 1 whatever the unit:
after the single score 0, the score 1 is less extreme than the score 2, although the second stream is
the first in half the unit. -/
theorem C101_gaussian_refuted : ¬ C101_statement := by
  intro h
  have key : ∀ y : ℝ, ∃ s, (gaussianTailRunning Real.sqrt Spec.erfc 1).fit
      (gaussianTailRunning.init 1) [0] = .ok () s ∧
      ((gaussianTailRunning Real.sqrt Spec.erfc 1).transformPartial s y).out =
        .ok (1 - 1 / 2 * Spec.erfc (y / √2)) := by
    intro y
    obtain ⟨s, h1, h2⟩ := gauss_fit Spec.erfc ((average_refines (K := ℝ)).runningMeter 1)
      ((variance_refines (K := ℝ)).runningMeter 1) [0]
    refine ⟨s, h1, (gauss_transform Spec.erfc _ _ h2 (by simp [lastN]) (by simp [lastN]) y).trans ?_⟩
    simp [lastN, meanOf, varianceOf]
  obtain ⟨s, h1, h2⟩ := key 1
  obtain ⟨s', h1', h2'⟩ := key 2
  have := h 1 le_rfl [0] (by simp) 2 0 1 (by norm_num) s s' h1 (by simpa using h1')
  norm_num only at this
  rw [h2, h2'] at this
  have hlt : (1 : ℝ) / √2 < 2 / √2 := by gcongr; norm_num
  have := erfc_strictAnti hlt
  simp_all

/-! ### C102: validity of the conformal probabilities -/

/-- The property: however the threshold is chosen, at most that fraction of the scores the
calibrator was fitted on get a probability below it. -/
def C102_statement : Prop :=
  ∀ (windowed : Bool) (w : ℕ) (xs : List ℚ), 1 ≤ w → xs ≠ [] → ∀ (ε : ℚ), 0 ≤ ε → ∀ s,
    (Conformal.postprocessor ℚ).fit (Conformal.new windowed w) xs = .ok () s →
    (((retained windowed w xs).countP fun y => match ((Conformal.postprocessor ℚ).transformPartial s y).out with
      | .ok (.fin p) => decide (p < ε)
      | _ => false : ℕ) : ℚ) ≤ ε * (retained windowed w xs).length

/-- In a list without repetitions, at most `k` entries have fewer than `k` greater ones. -/
theorem count_few_greater {α : Type*} [LinearOrder α] (l : List α) (hl : l.Nodup) (k : ℕ) :
    (l.countP fun y => decide (l.countP (fun x => decide (y < x)) < k)) ≤ k := by
  set S := l.toFinset.filter fun y => l.countP (fun x => decide (y < x)) < k with hS
  have hcard : (l.countP fun y => decide (l.countP (fun x => decide (y < x)) < k)) = S.card := by
    rw [List.countP_eq_length_filter, ← List.toFinset_card_of_nodup (hl.filter _), hS]
    congr 1
    ext y
    simp
  rw [hcard]
  by_contra hc
  push Not at hc
  have hne : S.Nonempty := Finset.card_pos.1 (by omega)
  set m := S.min' hne
  have hm : m ∈ S := Finset.min'_mem S hne
  have h1 : (S.erase m).card ≤ l.countP fun x => decide (m < x) := by
    rw [List.countP_eq_length_filter, ← List.toFinset_card_of_nodup (hl.filter _)]
    refine Finset.card_le_card fun y hy => ?_
    have hy' := Finset.mem_of_mem_erase hy
    have hlt : m < y := lt_of_le_of_ne (Finset.min'_le S y hy') (Finset.ne_of_mem_erase hy).symm
    have hyl : y ∈ l := by
      rw [hS] at hy'
      exact List.mem_toFinset.1 (Finset.mem_filter.1 hy').1
    simp [hyl, hlt]
  rw [Finset.card_erase_of_mem hm] at h1
  have h2 : l.countP (fun x => decide (m < x)) < k := (Finset.mem_filter.1 hm).2
  omega

/-- **C102 (partial).** If the scores the calibrator remembers are all different, the number of
those with a probability below `ε` is at most `⌈ε n⌉`. Missing: the bound `ε n`, which fails for the
greatest score, and repeated scores, which may all get probability 0. -/
theorem C102_conformal_partial {K : Type*} [Field K] [LinearOrder K] [IsStrictOrderedRing K]
    [FloorSemiring K] (windowed : Bool) (w : ℕ) (xs : List K) (h : retained windowed w xs ≠ [])
    (hnd : (retained windowed w xs).Nodup) (ε : K) :
    ∃ s, (Conformal.postprocessor K).fit (Conformal.new windowed w) xs = .ok () s ∧
    ((retained windowed w xs).countP fun y =>
      match ((Conformal.postprocessor K).transformPartial s y).out with
      | .ok (.fin p) => decide (p < ε)
      | _ => false) ≤ ⌈ε * (retained windowed w xs).length⌉₊ := by
  obtain ⟨s, h1, h2⟩ := C37_conformal (K := K) windowed w xs h
  refine ⟨s, h1, ?_⟩
  simp only [h2, Res.out_ok]
  refine le_trans (le_of_eq ?_) (count_few_greater _ hnd _)
  refine List.countP_congr fun y _ => ?_
  simp only [decide_eq_true_eq]
  have hpos : (0 : K) < (retained windowed w xs).length := by
    exact_mod_cast List.length_pos_iff.2 h
  rw [tailFraction, div_lt_iff₀ hpos, Nat.lt_ceil]

/-- **C102.** The greatest score always gets probability 0; and if all scores are equal, all get
probability 0. -/
theorem C102_conformal_refuted : ¬ C102_statement := by
  intro h
  obtain ⟨s, h1, h2⟩ := C37_conformal (K := ℚ) true 4 [(5 : ℚ), 5, 5, 5] (by decide +kernel)
  have := h true 4 [5, 5, 5, 5] (by decide) (by simp) (1 / 2) (by norm_num) s h1
  simp only [h2, Res.out_ok] at this
  revert this
  decide +kernel

/-- Ten different scores, threshold 1/5: exactly two alarms. -/
example : ((retained true 10 [3, 1, 4, 10, 5, 9, 2, 6, 8, (7 : ℚ)]).countP fun y =>
    decide (tailFraction ℚ (retained true 10 [3, 1, 4, 10, 5, 9, 2, 6, 8, (7 : ℚ)]) y < 1 / 5)) = 2 := by
  decide +kernel

end Pysad
