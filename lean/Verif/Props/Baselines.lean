import Verif.Props.RankMetrics
import Verif.Props.SimpleModels

/-! Properties C122 and C123: how the baseline detectors fare under the metrics. -/

namespace Pysad

open Spec

section
variable {K : Type*} [Field K] [LinearOrder K] [IsStrictOrderedRing K]

/-- Labels as numbers: 1 for an anomaly, 0 for a normal instance. -/
def Spec.label (K : Type*) [Field K] (b : Bool) : K := if b then 1 else 0

/-- What a metric reports for the given labels and predictions. -/
def Spec.reported {κ σ Y P V : Type*} (mc : MetricClass κ σ Y P V) (ys : List Y) (ps : List P) :
    Except PyErr V :=
  match mc.new mc.noKwargs with
  | .error e => .error e
  | .ok s =>
    match mc.updates s (ys.zip ps) with
    | .err e _ => .error e
    | .ok _ s => (mc.get s).out

omit [Field K] [LinearOrder K] [IsStrictOrderedRing K] in
theorem reported_sklearn {Y P V : Type*} (evaluate : List Y → List P → Except PyErr V) (ys : List Y)
    (ps : List P) (h : ys.length = ps.length) :
    reported (sklearnMetric evaluate) ys ps = evaluate ys ps := by
  obtain ⟨s, h1, h2, -⟩ := C33_history evaluate (ys.zip ps)
  unfold reported
  have hn : (sklearnMetric evaluate).new (sklearnMetric evaluate).noKwargs = .ok ([], []) := rfl
  rw [hn]
  dsimp only
  rw [h1]
  simp only [h2]
  rw [List.map_fst_zip h.le, List.map_snd_zip h.ge]

omit [LinearOrder K] [IsStrictOrderedRing K] in
theorem fst_zip (ys : List Bool) (ps : List K) (h : ys.length = ps.length) :
    (ys.zip ps).map Prod.fst = ys ∧ (ys.zip ps).map Prod.snd = ps :=
  ⟨List.map_fst_zip h.le, List.map_snd_zip h.ge⟩

theorem auroc_reported (ys : List Bool) (ps : List K) (h : ys.length = ps.length)
    (h1 : true ∈ ys) (h2 : false ∈ ys) :
    reported (aurocMetric rocAucCurve) ys ps = .ok (rankingProbability (ys.zip ps)) := by
  unfold aurocMetric
  rw [reported_sklearn _ _ _ h, if_neg, ← C121_auroc, (fst_zip ys ps h).1, (fst_zip ys ps h).2]
  have : ([true, false] : List Bool).length ≤ ys.dedup.length := by
    apply List.Subperm.length_le
    apply List.subperm_of_subset (by decide)
    intro b _
    cases b <;> simpa
  simp at this; omega

theorem aupr_reported (ys : List Bool) (ps : List K) (h : ys.length = ps.length) (hne : ys ≠ []) :
    reported (auprMetric averagePrecisionScore) ys ps = .ok (meanPrecision (ys.zip ps)) := by
  unfold auprMetric
  rw [reported_sklearn _ _ _ h, ← C121_aupr, (fst_zip ys ps h).1, (fst_zip ys ps h).2]
  intro e
  apply hne
  rw [← (fst_zip ys ps h).1, e]; rfl

omit [IsStrictOrderedRing K] in
theorem anomalies_ne {ys : List Bool} {ps : List K} (h : ys.length = ps.length) (ht : true ∈ ys) :
    anomalies (ys.zip ps) ≠ [] := by
  rw [← (fst_zip ys ps h).1] at ht
  obtain ⟨⟨b, x⟩, hm, rfl⟩ := List.mem_map.1 ht
  exact List.ne_nil_of_mem (anomalies_mem.2 hm)

omit [IsStrictOrderedRing K] in
theorem normals_ne {ys : List Bool} {ps : List K} (h : ys.length = ps.length) (ht : false ∈ ys) :
    normals (ys.zip ps) ≠ [] := by
  rw [← (fst_zip ys ps h).1] at ht
  obtain ⟨⟨b, x⟩, hm, rfl⟩ := List.mem_map.1 ht
  exact List.ne_nil_of_mem (normals_mem.2 hm)

omit [LinearOrder K] [IsStrictOrderedRing K] in
theorem zip_label (ys : List Bool) : ys.zip (ys.map (label K)) = ys.map fun b => (b, label K b) := by
  induction ys with
  | nil => rfl
  | cons b ys ih => simp [ih]

theorem separated_perfect (ys : List Bool) : Separated (ys.zip (ys.map (label K))) := by
  rw [zip_label]
  intro a ha n hn
  have ha := anomalies_mem.1 ha
  have hn := normals_mem.1 hn
  simp only [List.mem_map, Prod.mk.injEq, exists_eq_right_right] at ha hn
  obtain ⟨rfl⟩ : a = 1 := by
    obtain ⟨b, -, rfl, rfl⟩ := ha; rfl
  obtain ⟨rfl⟩ : n = 0 := by
    obtain ⟨b, -, rfl, rfl⟩ := hn; rfl
  exact zero_lt_one

/-- **C122.** PerfectModel, given the true labels, is rated 1 by AUROC and AUPR on every stream with
both classes; its answers taken as decisions have precision and recall 1. -/
theorem C122_perfect {α : Type*} (X : List α) (ys : List Bool) (h : X.length = ys.length)
    (h1 : true ∈ ys) (h2 : false ∈ ys) :
    (∃ scores s, (perfectModel α K).fitScore [] X (some (ys.map (label K))) = .ok scores s ∧
      reported (aurocMetric rocAucCurve) ys scores = .ok 1 ∧
      reported (auprMetric averagePrecisionScore) ys scores = .ok 1) ∧
    (∃ decisions s, (perfectModel α Bool).fitScore [] X (some ys) = .ok decisions s ∧
      reported (precisionMetric K) ys decisions = .ok 1 ∧
      reported (recallMetric K) ys decisions = .ok 1) := by
  have hlen : ys.length = (ys.map (label K)).length := by simp
  refine ⟨⟨_, _, C59_perfect_fit_score X _ (by simpa using h), ?_, ?_⟩,
    ⟨_, _, C59_perfect_fit_score X _ h, ?_, ?_⟩⟩
  · rw [auroc_reported _ _ hlen h1 h2,
      (C121_auroc_one _ (anomalies_ne hlen h1) (normals_ne hlen h2)).2 (separated_perfect ys)]
  · rw [aupr_reported _ _ hlen (List.ne_nil_of_mem h1),
      (C121_aupr_one _ (anomalies_ne hlen h1)).2 (separated_perfect ys)]
  · unfold precisionMetric
    rw [reported_sklearn _ _ _ rfl]
    have hz : ys.zip ys = ys.map fun b => (b, b) := by
      clear h h1 h2 hlen; induction ys with
      | nil => rfl
      | cons b ys ih => simp [ih]
    have hp := (C33_precision (K := K) (ys.map fun b => (b, b))).1
    simp only [List.map_map, Function.comp_def, List.map_id'] at hp
    have c1 : (ys.map fun b => (b, b)).count (false, true) = 0 := by
      rw [List.count_eq_zero]; simp
    have c2 : 0 < (ys.map fun b => (b, b)).count (true, true) := by
      rw [List.count_pos_iff]; simpa using h1
    rw [hp (by omega), c1]
    have : ((ys.map fun b => (b, b)).count (true, true) : K) ≠ 0 := by exact_mod_cast c2.ne'
    simp [div_self this]
  · unfold recallMetric
    rw [reported_sklearn _ _ _ rfl]
    have hp := (C33_recall (K := K) (ys.map fun b => (b, b))).1
    simp only [List.map_map, Function.comp_def, List.map_id'] at hp
    have c1 : (ys.map fun b => (b, b)).count (true, false) = 0 := by
      rw [List.count_eq_zero]; simp
    have c2 : 0 < (ys.map fun b => (b, b)).count (true, true) := by
      rw [List.count_pos_iff]; simpa using h1
    rw [hp (by omega), c1]
    have : ((ys.map fun b => (b, b)).count (true, true) : K) ≠ 0 := by exact_mod_cast c2.ne'
    simp [div_self this]

theorem null_fit_score {α β : Type*} (X : List α) :
    (nullModel α β (K := K)).fitScore () X none = .ok (X.map fun _ => 1 / 2) () := by
  unfold Detector.fitScore
  rw [iterate_none, Gen.forEach_ofList]
  induction X with
  | nil => rfl
  | cons x X ih =>
    simp only [pairs, List.map_cons, inOrder, Detector.fitScorePartial, nullModel, Res.bind_ok] at ih ⊢
    rw [ih]

/-- **C122.** NullModel is rated 1/2 by AUROC, and the fraction of anomalies by AUPR, on every stream
with both classes. -/
theorem C122_null {α β : Type*} (X : List α) (ys : List Bool) (h : X.length = ys.length)
    (h1 : true ∈ ys) (h2 : false ∈ ys) :
    ∃ scores s, (nullModel α β (K := K)).fitScore () X none = .ok scores s ∧
      reported (aurocMetric rocAucCurve) ys scores = .ok (1 / 2) ∧
      reported (auprMetric averagePrecisionScore) ys scores =
        .ok ((ys.count true : K) / (ys.length : K)) := by
  refine ⟨_, _, null_fit_score X, ?_, ?_⟩
  all_goals
    have hlen : ys.length = (X.map fun _ => (1 / 2 : K)).length := by simp [h]
    have hc : ∀ q ∈ ys.zip (X.map fun _ => (1 / 2 : K)), q.2 = 1 / 2 := by
      intro q hq
      have := (List.of_mem_zip hq).2
      simp only [List.mem_map] at this
      obtain ⟨_, -, e⟩ := this
      exact e.symm
  · rw [auroc_reported _ _ hlen h1 h2, (C121_constant _ _ hc).1 (anomalies_ne hlen h1) (normals_ne hlen h2)]
  · rw [aupr_reported _ _ hlen (List.ne_nil_of_mem h1), (C121_constant _ _ hc).2 (by
      intro e
      have := (fst_zip ys _ hlen).1
      rw [e] at this
      exact List.ne_nil_of_mem h1 this.symm)]
    congr 2
    · have e1 : (anomalies (ys.zip (X.map fun _ => (1 / 2 : K)))).length =
          (((ys.zip (X.map fun _ => (1 / 2 : K))).map Prod.fst).filter fun b => b).length := by
        rw [anomalies, List.length_map, List.filter_map, List.length_map]; rfl
      rw [e1, (fst_zip ys _ hlen).1]
      congr 1
      rw [List.count_eq_length_filter]
      congr 1
      apply List.filter_congr
      intro b _
      cases b <;> rfl
    · simp [h]

/-! ### In windows -/

omit [Field K] [LinearOrder K] [IsStrictOrderedRing K] in
/-- What a windowed metric reports for the given labels and predictions. -/
def Spec.windowedReported {κ σ Y P V : Type*} [Field V] (mc : MetricClass κ σ Y P V) (w : ℕ) (ign : Bool)
    (ys : List Y) (ps : List P) : Except PyErr V :=
  match WindowedMetric.new mc w ign mc.noKwargs with
  | .error e => .error e
  | .ok s =>
    match WindowedMetric.updates mc s (ys.zip ps) with
    | .err e _ => .error e
    | .ok _ s => (WindowedMetric.get mc s).out

/-- The full claim of **C123**: on every stream with an anomaly PerfectModel gets the windowed
AUPR 1. -/
def C123_statement : Prop :=
  ∀ (w : ℕ), 1 ≤ w → ∀ (ign : Bool) (ys : List Bool), true ∈ ys →
    windowedReported (auprMetric averagePrecisionScore) w ign ys (ys.map (label ℚ)) = .ok 1

/-- **C123 is false**: a window without anomalies counts 0 even for PerfectModel. -/
theorem C123_windowed_aupr_refuted : ¬ C123_statement := by
  intro h
  have := h 2 (by norm_num) true [true, false, false, false] (by simp)
  revert this
  decide +kernel

/-- AUPR satisfies the hypotheses of **C30**. -/
def auprSpec : MetricSpec (auprMetric (averagePrecisionScore (K := K))) () meanPrecision where
  R l s := s = (l.map Prod.fst, l.map Prod.snd)
  new := ⟨_, rfl, rfl⟩
  update := by rintro l s rfl y p; exact ⟨_, rfl, by simp⟩
  get := by
    rintro l s rfl hl
    refine ⟨_, ?_, rfl⟩
    show Res.ofExcept (averagePrecisionScore (l.map Prod.fst) (l.map Prod.snd)) _ = _
    rw [C121_aupr l hl]; rfl

theorem windowedReported_aupr (w : ℕ) (hw : 1 ≤ w) (ign : Bool) (ys : List Bool) (ps : List K)
    (h : ys.length = ps.length) (hne : ys ≠ []) :
    windowedReported (auprMetric averagePrecisionScore) w ign ys ps =
      .ok (windowedValue meanPrecision meanPrecision w ign (ys.zip ps)) := by
  obtain ⟨s0, s, s', e1, e2, e3⟩ := C30_windowed_metric (mc := auprMetric (averagePrecisionScore (K := K)))
    meanPrecision auprSpec w hw ign (ys.zip ps) (by
      intro e; apply hne; rw [← (fst_zip ys ps h).1, e]; rfl)
  unfold windowedReported
  rw [e1]
  simp only [e2, e3, Res.out]

theorem meanOf_mono {α : Type*} (l : List α) (f g : α → K) (h : ∀ x ∈ l, f x ≤ g x) :
    meanOf ((l.map f : List K) : Multiset K) ≤ meanOf ((l.map g : List K) : Multiset K) := by
  unfold meanOf
  simp only [Multiset.sum_coe, Multiset.coe_card, List.length_map]
  gcongr
  exact List.sum_le_sum h

theorem windowedValue_mono {α : Type*} (f g : List α → K) (w : ℕ) (ign : Bool) (l : List α)
    (h : ∀ l, f l ≤ g l) : windowedValue f f w ign l ≤ windowedValue g g w ign l := by
  unfold windowedValue
  cases hw : windowsOf w l with
  | nil => exact h l
  | cons win wins =>
    have e : ∀ f : List α → K, f win :: wins.map f = (win :: wins).map f := fun _ => rfl
    have e2 : ∀ f : List α → K, (win :: wins).map f ++ [f (restOf w l)] =
        ((win :: wins) ++ [restOf w l]).map f := fun _ => by simp
    simp only [e, e2]
    split
    · exact meanOf_mono _ _ _ fun x _ => h x
    · exact meanOf_mono _ _ _ fun x _ => h x

omit [LinearOrder K] [IsStrictOrderedRing K] in
theorem windowedValue_map {α β : Type*} (f : α → β) (g : List β → K) (w : ℕ) (ign : Bool) (l : List α) :
    windowedValue (fun l => g (l.map f)) (fun l => g (l.map f)) w ign l =
      windowedValue g g w ign (l.map f) := by
  have hw : windowsOf w (l.map f) = (windowsOf w l).map (List.map f) := by
    unfold windowsOf
    simp [Function.comp_def]
  have hr : restOf w (l.map f) = (restOf w l).map f := by
    unfold restOf; simp
  unfold windowedValue
  rw [hw, hr]
  cases windowsOf w l with
  | nil => rfl
  | cons win wins => simp [Function.comp_def]

/-- 1 if there is an anomaly, else 0. -/
def Spec.anomalous (K : Type*) [Field K] (ys : List Bool) : K := if true ∈ ys then 1 else 0

theorem meanPrecision_le (l : List (Bool × K)) : meanPrecision l ≤ anomalous K (l.map Prod.fst) := by
  unfold anomalous
  split
  · exact (C121_aupr_range l).2
  · rename_i h
    have : anomalies l = [] := by
      rw [List.eq_nil_iff_forall_not_mem]
      intro a ha
      exact h (List.mem_map.2 ⟨_, anomalies_mem.1 ha, rfl⟩)
    simp [meanPrecision, this]

/-- **C123**, partial: PerfectModel's windowed AUPR is the average, over the windows, of whether they
contain an anomaly, and no scores of any other detector are rated higher. -/
theorem C123_windowed_aupr_partial (w : ℕ) (hw : 1 ≤ w) (ign : Bool) (ys : List Bool) (hne : ys ≠ []) :
    windowedReported (auprMetric averagePrecisionScore) w ign ys (ys.map (label K)) =
      .ok (windowedValue (anomalous K) (anomalous K) w ign ys) ∧
    ∀ ps : List K, ps.length = ys.length → ∃ v,
      windowedReported (auprMetric averagePrecisionScore) w ign ys ps = .ok v ∧
      v ≤ windowedValue (anomalous K) (anomalous K) w ign ys := by
  constructor
  · rw [windowedReported_aupr w hw ign ys _ (by simp) hne, zip_label]
    have e : windowedValue meanPrecision meanPrecision w ign (ys.map fun b => (b, label K b)) =
        windowedValue (anomalous K) (anomalous K) w ign ys := by
      rw [← windowedValue_map (fun b => (b, label K b))]
      congr 1
      all_goals
        funext l
        rw [← zip_label]
        by_cases ht : true ∈ l
        · rw [(C121_aupr_one _ (anomalies_ne (by simp) ht)).2 (separated_perfect l), anomalous, if_pos ht]
        · refine le_antisymm ?_ ?_
          · have := meanPrecision_le (l.zip (l.map (label K)))
            rwa [(fst_zip l _ (by simp)).1] at this
          · rw [anomalous, if_neg ht]; exact (C121_aupr_range _).1
    rw [e]
  · intro ps hps
    refine ⟨_, windowedReported_aupr w hw ign ys ps hps.symm hne, ?_⟩
    refine le_trans (windowedValue_mono _ (fun l => anomalous K (l.map Prod.fst)) w ign _ meanPrecision_le) ?_
    rw [windowedValue_map, (fst_zip ys ps hps.symm).1]

end

example : windowedReported (auprMetric averagePrecisionScore) 2 false [true, false, false, true, true]
    [(3 : ℚ), 4, 1, 2, 5] = .ok (5 / 6) := by decide +kernel

end Pysad
