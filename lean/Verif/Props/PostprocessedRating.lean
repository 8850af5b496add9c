import Verif.Props.CalibrationMore
import Verif.Props.Examples
import Verif.Props.Postprocessors
import Verif.Props.RankMetrics

/-! Property C136: what postprocessing does to the rating of a detector. -/

namespace Pysad

open Spec

/-- A way of postprocessing a list of scores keeps the rating of a detector: AUROC, against any
labels with both classes, is that of the raw scores. -/
def Spec.KeepsRating {K : Type*} [Field K] [LinearOrder K]
    (process : List K → Except PyErr (List K)) : Prop :=
  ∀ (labels : List Bool) (scores : List K), labels.length = scores.length → true ∈ labels →
    false ∈ labels → ∃ out, process scores = .ok out ∧
      rankingProbability (labels.zip out) = rankingProbability (labels.zip scores)

/-- The claim of **C136**, for the smoothing postprocessors. -/
def C136_statement : Prop :=
  (KeepsRating (K := ℚ) fun xs =>
    ((averagePostprocessor ℚ).fitTransform (AveragePostprocessor.new ℚ) xs).out) ∧
  (KeepsRating (K := ℚ) fun xs =>
    ((medianPostprocessor ℚ).fitTransform (MedianPostprocessor.new ℚ) xs).out) ∧
  (∀ w, 1 ≤ w → KeepsRating (K := ℚ) fun xs =>
    ((runningAveragePostprocessor ℚ w).fitTransform (RunningAveragePostprocessor.new ℚ w) xs).out) ∧
  (∀ w, 1 ≤ w → KeepsRating (K := ℚ) fun xs =>
    ((runningMedianPostprocessor ℚ w).fitTransform (RunningMedianPostprocessor.new ℚ w) xs).out)

theorem keepsRating_false {process : List ℚ → Except PyErr (List ℚ)} (labels : List Bool)
    (scores out : List ℚ) (hl : labels.length = scores.length) (h1 : true ∈ labels)
    (h2 : false ∈ labels) (he : process scores = .ok out)
    (hn : rankingProbability (labels.zip out) ≠ rankingProbability (labels.zip scores)) :
    ¬ KeepsRating process := by
  intro h
  obtain ⟨o, e, r⟩ := h labels scores hl h1 h2
  rw [he] at e
  cases e
  exact hn r

/-- **C136 is false of every smoothing postprocessor**: scores 10, 0, 1 with the first and the last
an anomaly are rated 1, their smoothed versions 1/2. -/
theorem C136_smoothing_refuted : ¬ C136_statement ∧
    (¬ KeepsRating (K := ℚ) fun xs =>
      ((averagePostprocessor ℚ).fitTransform (AveragePostprocessor.new ℚ) xs).out) ∧
    (¬ KeepsRating (K := ℚ) fun xs =>
      ((medianPostprocessor ℚ).fitTransform (MedianPostprocessor.new ℚ) xs).out) ∧
    (¬ KeepsRating (K := ℚ) fun xs => ((runningAveragePostprocessor ℚ 3).fitTransform
      (RunningAveragePostprocessor.new ℚ 3) xs).out) ∧
    (¬ KeepsRating (K := ℚ) fun xs => ((runningMedianPostprocessor ℚ 3).fitTransform
      (RunningMedianPostprocessor.new ℚ 3) xs).out) := by
  have h1 : ¬ KeepsRating (K := ℚ) fun xs =>
      ((averagePostprocessor ℚ).fitTransform (AveragePostprocessor.new ℚ) xs).out :=
    keepsRating_false [true, false, true] [10, 0, 1] [10, 5, 11 / 3] rfl (by decide) (by decide)
      (by decide +kernel) (by decide +kernel)
  refine ⟨fun h => h1 h.1, h1, ?_, ?_, ?_⟩
  · exact keepsRating_false [true, false, true] [10, 0, 1] [10, 5, 1] rfl (by decide) (by decide)
      (by decide +kernel) (by decide +kernel)
  · exact keepsRating_false [true, false, true] [10, 0, 1] [10, 5, 11 / 3] rfl (by decide)
      (by decide) (by decide +kernel) (by decide +kernel)
  · exact keepsRating_false [true, false, true] [10, 0, 1] [10, 5, 1] rfl (by decide) (by decide)
      (by decide +kernel) (by decide +kernel)

/-! ### Standardised streams cannot be rated at all -/

theorem mapM_finite_none {K : Type*} {l : List (Num K)} (h : l[0]? = some .nan) :
    l.mapM Num.finite? = none := by
  cases l with
  | nil => simp at h
  | cons a l =>
    simp only [List.getElem?_cons_zero, Option.some.injEq] at h
    subst h
    simp [List.mapM_cons, Num.finite?]

/-- **C136 is false of the z-score postprocessors**: the first standardised score of a stream is
`nan`, so AUROC of the stream raises `ValueError`, whatever the scores and the labels. -/
theorem C136_zscore_refuted (w : ℕ) (hw : 1 ≤ w) (labels : List Bool) (scores : List ℝ)
    (hl : labels.length = scores.length) (hne : scores ≠ []) :
    (∃ out s, zscorePlain.fitTransform zscorePlain.init scores = .ok out s ∧
      reported (aurocNums ℝ) labels out = .error .valueError) ∧
    (∃ out s, (zscoreRunning w).fitTransform (zscoreRunning.init w) scores = .ok out s ∧
      reported (aurocNums ℝ) labels out = .error .valueError) := by
  have hpos : 0 < scores.length := List.length_pos_iff.2 hne
  have hz : zscore ((scores.take 1 : List ℝ) : Multiset ℝ) scores[0] = .nan := by
    have e : scores.take 1 = [scores[0]] := by
      cases scores with
      | nil => simp at hne
      | cons a l => simp
    rw [e]
    simp [zscore, varianceOf, meanOf]
  have hz' : zscore ((lastN w (scores.take 1) : List ℝ) : Multiset ℝ) scores[0] = .nan := by
    have e : lastN w (scores.take 1) = scores.take 1 := by
      unfold lastN
      rw [List.length_take, Nat.sub_eq_zero_of_le (by omega), List.drop_zero]
    rw [e, hz]
  constructor
  · obtain ⟨out, s, h1, h2, h3⟩ := C36_zscore scores
    refine ⟨out, s, h1, ?_⟩
    have h0 := h3 0 hpos
    rw [hz] at h0
    unfold aurocNums
    rw [reported_sklearn _ _ _ (by rw [h2, hl]), mapM_finite_none h0]
  · obtain ⟨out, s, h1, h2, h3⟩ := C36_running_zscore w hw scores
    refine ⟨out, s, h1, ?_⟩
    have h0 := h3 0 hpos
    rw [hz'] at h0
    unfold aurocNums
    rw [reported_sklearn _ _ _ (by rw [h2, hl]), mapM_finite_none h0]

/-! ### A postprocessor that was fitted before -/

theorem transform_map {σ S T : Type*} (p : Postprocessor σ S T) {P : σ → Prop} {f : S → T}
    (h : ∀ s x, P s → ∃ s', p.transformPartial s x = .ok (f x) s' ∧ P s') (xs : List S) (s : σ)
    (hs : P s) : ∃ s', p.transform s xs = .ok (xs.map f) s' := by
  rw [(C22_postprocessor_in_order p s xs).2.1]
  induction xs generalizing s with
  | nil => exact ⟨s, rfl⟩
  | cons x xs ih =>
    obtain ⟨s', h1, h2⟩ := h s x hs
    obtain ⟨s'', h3⟩ := ih s' h2
    exact ⟨s'', by simp [inOrder, h1, h3]⟩

theorem zip_map_snd {α β : Type*} (f : α → β) (labels : List Bool) (scores : List α) :
    labels.zip (scores.map f) = (labels.zip scores).map fun q => (q.1, f q.2) := by
  rw [List.zip_map_right]
  rfl

/-- Both ratings of a list of scores after a strictly increasing map. -/
theorem ratings_strictMono {K : Type*} [Field K] [LinearOrder K] [IsStrictOrderedRing K] {f : K → K}
    (hf : StrictMono f) (labels : List Bool) (scores : List K) :
    rankingProbability (labels.zip (scores.map f)) = rankingProbability (labels.zip scores) ∧
    meanPrecision (labels.zip (scores.map f)) = meanPrecision (labels.zip scores) := by
  rw [zip_map_snd]
  refine ⟨?_, C121_aupr_invariant _ _ f hf (List.Perm.refl _)⟩
  have := C33_auroc_invariant (labels.zip scores) _ f hf (List.Perm.refl _)
  rwa [rocAucScore_eq, rocAucScore_eq] at this

/-- A list of scores after `transform` is rated like before, by AUROC and by AUPR. -/
def Spec.SameRatings {K : Type*} [Field K] [LinearOrder K] (scores out : List K) : Prop :=
  out.length = scores.length ∧ ∀ labels : List Bool,
    rankingProbability (labels.zip out) = rankingProbability (labels.zip scores) ∧
    meanPrecision (labels.zip out) = meanPrecision (labels.zip scores)

/-- **C136**, partial: the z-score postprocessors, fitted before with scores that vary and then used
with `transform`, keep both ratings. -/
theorem C136_zscore_partial (w : ℕ) (hw : 1 ≤ w) (before scores : List ℝ)
    (hv1 : varianceOf (K := ℝ) (before : Multiset ℝ) ≠ 0)
    (hv : varianceOf (K := ℝ) (lastN w before : List ℝ) ≠ 0) :
    (∃ s s' out, zscorePlain.fit zscorePlain.init before = .ok () s ∧
      zscorePlain.transform s scores = .ok (out.map .fin) s' ∧ SameRatings scores out) ∧
    (∃ s s' out, (zscoreRunning w).fit (zscoreRunning.init w) before = .ok () s ∧
      (zscoreRunning w).transform s scores = .ok (out.map .fin) s' ∧ SameRatings scores out) := by
  have main : ∀ {σv σa : Type} {var : Meter σv ℝ ℝ} {avg : Meter σa ℝ ℝ} {keep : List ℝ → List ℝ}
      (hv : MeterSpec var keep VarianceValue) (ha : MeterSpec avg keep MeanValue),
      keep before ≠ [] → varianceOf (K := ℝ) (keep before : List ℝ) ≠ 0 →
      ∃ s s' out, (zscorePostprocessor Real.sqrt var avg).fit (ZScoreState.init var avg) before =
          .ok () s ∧
        (zscorePostprocessor Real.sqrt var avg).transform s scores = .ok (out.map .fin) s' ∧
        SameRatings scores out := by
    intro σv σa var avg keep hv ha hne hvar
    obtain ⟨s, h1, h2⟩ := (zscorePostprocessor Real.sqrt var avg).fit_inv (P := zInv hv ha)
      (fun seen s x h => z_fit hv ha h x) before (ZScoreState.init var avg) ⟨hv.init, ha.init⟩
    have hs : 0 < √(varianceOf (K := ℝ) (keep before : List ℝ)) :=
      Real.sqrt_pos.2 (lt_of_le_of_ne (varianceOf_nonneg _) hvar.symm)
    obtain ⟨s', h3⟩ := transform_map (zscorePostprocessor Real.sqrt var avg)
      (P := zInv hv ha before)
      (f := fun y => .fin ((y - meanOf (keep before : List ℝ)) /
        √(varianceOf (K := ℝ) (keep before : List ℝ)))) (by
        intro s x h
        obtain ⟨s', h3, h4⟩ := z_transform hv ha h hne x
        refine ⟨s', ?_, h4⟩
        rw [h3, npDiv, if_neg hs.ne']) scores s h2
    refine ⟨s, s', scores.map fun y => (y - meanOf (keep before : List ℝ)) /
        √(varianceOf (K := ℝ) (keep before : List ℝ)), h1, ?_, by simp, fun labels => ?_⟩
    · rw [h3, List.map_map]; rfl
    · exact ratings_strictMono
        (fun a b hab => div_lt_div_of_pos_right (sub_lt_sub_right hab _) hs) labels scores
  have hne : before ≠ [] := by rintro rfl; simp [varianceOf] at hv1
  exact ⟨main (variance_refines (K := ℝ)).plain (average_refines (K := ℝ)).plain hne hv1,
    main ((variance_refines (K := ℝ)).runningMeter w) ((average_refines (K := ℝ)).runningMeter w)
      (lastN_ne_nil hw hne) hv⟩

/-- **C136**, partial: the Gaussian tail calibrators, fitted before and then used with `transform`,
keep both ratings. -/
theorem C136_gaussian_partial (w : ℕ) (hw : 1 ≤ w) (before scores : List ℝ) (hne : before ≠ []) :
    (∃ s s' out, (gaussianTailRunning Real.sqrt Spec.erfc w).fit (gaussianTailRunning.init w) before =
        .ok () s ∧
      (gaussianTailRunning Real.sqrt Spec.erfc w).transform s scores = .ok out s' ∧
      SameRatings scores out) ∧
    (∃ s s' out, (gaussianTailPlain Real.sqrt Spec.erfc w).fit (gaussianTailPlain.init w) before =
        .ok () s ∧
      (gaussianTailPlain Real.sqrt Spec.erfc w).transform s scores = .ok out s' ∧
      SameRatings scores out) := by
  have main : ∀ {σa σv : Type} {avg : Meter σa ℝ ℝ} {var : Meter σv ℝ ℝ} {keepA keepV : List ℝ → List ℝ}
      (ha : MeterSpec avg keepA MeanValue) (hv : MeterSpec var keepV VarianceValue),
      keepA before ≠ [] → keepV before ≠ [] →
      ∃ s s' out, (gaussianTail Real.sqrt Spec.erfc avg var).fit ⟨avg.init, var.init⟩ before =
          .ok () s ∧
        (gaussianTail Real.sqrt Spec.erfc avg var).transform s scores = .ok out s' ∧
        SameRatings scores out := by
    intro σa σv avg var keepA keepV ha hv hka hkv
    obtain ⟨s, h1, h2⟩ := gauss_fit Spec.erfc ha hv before
    have hs := std_pos (varianceOf (K := ℝ) (keepV before : List ℝ))
    obtain ⟨s', h3⟩ := transform_map (gaussianTail Real.sqrt Spec.erfc avg var)
      (P := fun s => ha.R before s.avgMeter ∧ hv.R before s.varMeter)
      (f := fun y => 1 - 1 / 2 * Spec.erfc ((y - meanOf (keepA before : List ℝ)) /
        (if 0 < varianceOf (K := ℝ) (keepV before : List ℝ) then
          √(varianceOf (K := ℝ) (keepV before : List ℝ)) else 1) / √2)) (by
        intro s x h
        have e := gauss_transform Spec.erfc ha hv h hka hkv x
        have hvo := varianceValue_ok (hv.get_out h.2) hkv
        have hao := meanValue_ok (ha.get_out h.1) hka
        have hvs := hv.get_state h.2
        have has := ha.get_state h.1
        cases hgv : var.get s.varMeter with
        | err e t => rw [hgv] at hvo; simp at hvo
        | ok v t =>
        cases hga : avg.get s.avgMeter with
        | err e u => rw [hga] at hao; simp at hao
        | ok a u =>
        rw [hgv] at hvs
        rw [hga] at has
        have e2 : ((gaussianTail Real.sqrt Spec.erfc avg var).transformPartial s x).state = ⟨u, t⟩ := by
          simp [gaussianTail, hgv, hga]
        cases hr : (gaussianTail Real.sqrt Spec.erfc avg var).transformPartial s x with
        | err q r => rw [hr] at e; simp at e
        | ok q r =>
          rw [hr] at e e2
          simp only [Res.out_ok, Except.ok.injEq] at e
          simp only [Res.state_ok] at e2
          subst e2
          exact ⟨_, by rw [e], has, hvs⟩) scores s h2
    refine ⟨s, s', _, h1, h3, by simp, fun labels => ?_⟩
    refine ratings_strictMono (fun a b hab => ?_) labels scores
    have h2' : (0 : ℝ) < √2 := by positivity
    have := erfc_strictAnti (div_lt_div_of_pos_right (div_lt_div_of_pos_right
      (sub_lt_sub_right hab (meanOf (K := ℝ) (keepA before : List ℝ))) hs) h2')
    linarith
  exact ⟨main ((average_refines (K := ℝ)).runningMeter w) ((variance_refines (K := ℝ)).runningMeter w)
      (lastN_ne_nil hw hne) (lastN_ne_nil hw hne),
    main (average_refines (K := ℝ)).plain ((variance_refines (K := ℝ)).runningMeter w) hne
      (lastN_ne_nil hw hne)⟩

/-- **C136 is false of the conformal calibrator** even after fitting: a detector that is rated 1 is
rated at most 1/2 after `transform`, because the calibrator turns the order around. -/
theorem C136_conformal_refuted {K : Type*} [Field K] [LinearOrder K] [IsStrictOrderedRing K]
    (windowed : Bool) (w : ℕ) (before : List K) (h : retained windowed w before ≠ [])
    (labels : List Bool) (scores : List K) (hsep : Separated (labels.zip scores)) :
    ∃ s s' out, (Conformal.postprocessor K).fit (Conformal.new windowed w) before = .ok () s ∧
      (Conformal.postprocessor K).transform s scores = .ok (out.map .fin) s' ∧
      rankingProbability (labels.zip out) ≤ 1 / 2 := by
  obtain ⟨s, h1, h2⟩ := C37_conformal (K := K) windowed w before h
  obtain ⟨s', h3⟩ := transform_map (Conformal.postprocessor K) (P := fun t => t = s)
    (f := fun y => .fin (tailFraction K (retained windowed w before) y))
    (fun t x ht => ⟨t, by rw [ht]; exact h2 x, ht⟩) scores s rfl
  refine ⟨s, s', scores.map fun y => tailFraction K (retained windowed w before) y, h1, ?_, ?_⟩
  · rw [h3, List.map_map]; rfl
  · rw [zip_map_snd]
    set g : K → K := fun y => tailFraction K (retained windowed w before) y with hg
    set l := labels.zip scores
    have eA : anomalies (l.map fun q => (q.1, g q.2)) = (anomalies l).map g := by
      simp [anomalies, List.filter_map, Function.comp_def]
    have eN : normals (l.map fun q => (q.1, g q.2)) = (normals l).map g := by
      simp [normals, List.filter_map, Function.comp_def]
    unfold rankingProbability
    rw [eA, eN]
    simp only [List.map_map, List.length_map]
    by_cases h0 : ((anomalies l).length : K) * (normals l).length = 0
    · rw [h0, div_zero]; norm_num
    · rw [div_le_iff₀ (lt_of_le_of_ne (by positivity) (Ne.symm h0))]
      have inner : ∀ a ∈ anomalies l, ((normals l).map ((fun n => duel (g a) n) ∘ g)).sum ≤
          ((normals l).length : K) * (1 / 2) := by
        intro a ha
        have := List.sum_le_card_nsmul ((normals l).map ((fun n => duel (g a) n) ∘ g)) (1 / 2 : K) (by
          intro x hx
          obtain ⟨n, hn, rfl⟩ := List.mem_map.1 hx
          have hle : g a ≤ g n := C37_antitone _ (hsep a ha n hn).le
          simp only [Function.comp, duel, if_neg (not_lt.2 hle)]
          split <;> norm_num)
        simpa [nsmul_eq_mul] using this
      have outer := List.sum_le_card_nsmul ((anomalies l).map
        ((fun a => ((normals l).map ((fun n => duel a n) ∘ g)).sum) ∘ g))
        (((normals l).length : K) * (1 / 2)) (by
          intro x hx
          obtain ⟨a, ha, rfl⟩ := List.mem_map.1 hx
          exact inner a ha)
      simp only [nsmul_eq_mul, List.length_map] at outer
      refine outer.trans (le_of_eq ?_)
      ring

/-- **C136 is false of the smoothing postprocessors** even after fitting: `transform` ignores the
scores, so every list with both classes is rated 1/2. -/
theorem C136_transform_refuted {K : Type*} [Field K] [LinearOrder K] [IsStrictOrderedRing K]
    (w : ℕ) (hw : 1 ≤ w) (before : List K) (hne : before ≠ []) (labels : List Bool) (scores : List K)
    (ha : anomalies (labels.zip scores) ≠ []) (hn : normals (labels.zip scores) ≠ []) :
    (∃ s s' out, (averagePostprocessor K).fit (AveragePostprocessor.new K) before = .ok () s ∧
      (averagePostprocessor K).transform s scores = .ok out s' ∧
      rankingProbability (labels.zip out) = 1 / 2) ∧
    (∃ s s' out, (runningMedianPostprocessor K w).fit (RunningMedianPostprocessor.new K w) before =
        .ok () s ∧
      (runningMedianPostprocessor K w).transform s scores = .ok out s' ∧
      rankingProbability (labels.zip out) = 1 / 2) := by
  have main : ∀ {σ : Type _} {m : Meter σ K K} {keep : List K → List K}
      {V : Multiset K → Except PyErr K → Prop} (hm : MeterSpec m keep V) (c : K),
      (∀ r, V (keep before : List K) r → r = .ok c) →
      ∃ s s' out, (meterPostprocessor m).fit m.init before = .ok () s ∧
        (meterPostprocessor m).transform s scores = .ok out s' ∧
        rankingProbability (labels.zip out) = 1 / 2 := by
    intro σ m keep V hm c hV
    obtain ⟨s, h1, h2⟩ := (meterPostprocessor m).fit_inv (P := hm.R)
      (fun seen s x h => hm.update h x) before m.init hm.init
    obtain ⟨s', h3⟩ := transform_map (meterPostprocessor m) (P := hm.R before) (f := fun _ => c) (by
      intro s x h
      have e := hV _ (hm.get_out h)
      have st := hm.get_state h
      cases hg : m.get s with
      | err q r => rw [hg] at e; simp at e
      | ok q r =>
        rw [hg] at e st
        simp only [Res.out_ok, Except.ok.injEq] at e
        subst e
        exact ⟨r, hg, st⟩) scores s h2
    refine ⟨s, s', _, h1, h3, ?_⟩
    rw [zip_map_snd]
    refine (C121_constant ((labels.zip scores).map fun q => (q.1, c)) c (by
      intro q hq
      obtain ⟨p, -, rfl⟩ := List.mem_map.1 hq
      rfl)).1 ?_ ?_
    · intro h
      apply ha
      have : anomalies ((labels.zip scores).map fun q => (q.1, c)) =
          (anomalies (labels.zip scores)).map fun _ => c := by
        simp [anomalies, List.filter_map, Function.comp_def]
      rw [this] at h
      simpa using h
    · intro h
      apply hn
      have : normals ((labels.zip scores).map fun q => (q.1, c)) =
          (normals (labels.zip scores)).map fun _ => c := by
        simp [normals, List.filter_map, Function.comp_def]
      rw [this] at h
      simpa using h
  constructor
  · exact main (average_refines (K := K)).plain _ fun r hr => meanValue_ok hr hne
  · obtain ⟨m, hm⟩ := medianOf_isSome (K := K) (lastN_ne_nil hw hne)
    refine main ((median_refines (K := K)).runningMeter w) m fun r hr => ?_
    obtain ⟨b, h1, h2⟩ := medianValue_ok hr (lastN_ne_nil hw hne)
    rw [hm] at h2
    cases h2
    exact h1

/-- Data that meet the hypotheses. -/
example : varianceOf (K := ℝ) (([1, 3, 5] : List ℝ) : Multiset ℝ) ≠ 0 ∧
    varianceOf (K := ℝ) (lastN 2 ([1, 3, 5] : List ℝ) : List ℝ) ≠ 0 := by
  constructor <;> norm_num [lastN, varianceOf, meanOf]
example : Separated ([true, false, true].zip [(10 : ℚ), 0, 1]) ∧
    retained true 2 [(3 : ℚ), 4, 5] ≠ [] := by
  constructor
  · intro a ha n hn
    simp [anomalies] at ha
    simp [normals] at hn
    rcases ha with rfl | rfl <;> subst hn <;> norm_num
  · decide +kernel

end Pysad
