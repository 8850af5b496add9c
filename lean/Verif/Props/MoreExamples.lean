import Verif.Model.MoreExamples
import Verif.Props.Examples
import Verif.Props.Inqmad
import Verif.Props.Integrations
import Verif.Props.Pipeline
import Verif.Props.Postprocessors

/-! **C199**, **C200**, **C201.** What the examples for Inqmad, for PyOD and for the statistics
print. -/

namespace Pysad

open Examples

/-! ### Fitting and scoring along a stream -/

/-- The calls of `fit_score` on a list of instances. -/
def Spec.fitScoreCalls {α β : Type*} (X : List α) : List (Call α β) :=
  X.flatMap fun x => [.fit x none, .score x]

section
open Spec
variable {σ α β S : Type*}

private theorem fitted_fitScoreCalls (X : List α) :
    fitted (fitScoreCalls X : List (Call α β)) = X := by
  induction X with
  | nil => rfl
  | cons x X ih =>
    show fitted (.fit x none :: .score x :: fitScoreCalls X) = _
    simp only [fitted, ih]

private theorem labelled_fitScoreCalls (X : List α) :
    Labelled false (fitScoreCalls X : List (Call α β)) := by
  induction X with
  | nil => trivial
  | cons x X ih => exact ⟨rfl, ih⟩

private theorem inOrder_fitAndScore (d : Detector σ α β S) (X : List α) (s s' : σ) (scores : List S)
    (h : inOrder (fitAndScore d) s X = .ok scores s') :
    scores.length = X.length ∧ ∀ i v, scores[i]? = some v → ∃ x, X[i]? = some x ∧
      (d.scorePartial (calls d s (fitScoreCalls (X.take i) ++ [.fit x none])).2 x).out = .ok v := by
  induction X generalizing s scores with
  | nil =>
    simp only [inOrder] at h
    cases h
    simp
  | cons x X ih =>
    simp only [inOrder] at h
    cases hf : fitAndScore d s x with
    | err e s1 => rw [hf] at h; cases h
    | ok v0 s2 =>
      rw [hf] at h
      simp only at h
      cases h3 : inOrder (fitAndScore d) s2 X with
      | err e s3 => rw [h3] at h; cases h
      | ok vs s3 =>
        rw [h3] at h
        injection h with ha hb
        subst ha hb
        unfold fitAndScore Detector.fitScorePartial at hf
        cases h1 : d.fitPartial s x none with
        | err e s1 => rw [h1] at hf; cases hf
        | ok u s1 =>
          rw [h1, Res.bind_ok] at hf
          have h2 : d.scorePartial s1 x = .ok v0 s2 := hf
          obtain ⟨hl, hi⟩ := ih s2 vs h3
          refine ⟨by simp [hl], fun i v hv => ?_⟩
          cases i with
          | zero =>
            simp only [List.getElem?_cons_zero, Option.some.injEq] at hv
            subst hv
            refine ⟨x, by simp, ?_⟩
            simp [fitScoreCalls, calls, call, h1, h2]
          | succ i =>
            simp only [List.getElem?_cons_succ] at hv ⊢
            obtain ⟨x', hx, hs⟩ := hi i v hv
            refine ⟨x', hx, ?_⟩
            rw [← hs]
            simp [fitScoreCalls, calls, call, h1, h2]

end

/-! ### C199 -/

/-- The instance divided by its length. -/
noncomputable def Spec.unitVector {n : ℕ} (x : Fin n → ℝ) : Fin n → ℝ :=
  fun i => x i / Real.sqrt (∑ j, x j * x j)

/-- How much `x` is like `z` for Inqmad with the given random draws, after both were scaled: the
squared cosine of the angle between their random features. -/
noncomputable def Spec.likeness {n d : ℕ} (weights : Fin n → Fin d → ℝ) (offset : Fin d → ℝ)
    (z x : Fin n → ℝ) : ℝ :=
  Spec.squaredCosine (Spec.randomFeatures weights offset (Spec.unitVector x))
    (Spec.randomFeatures weights offset (Spec.unitVector z))

/-- An instance that can be scaled and has features. -/
def Spec.HasFeatures {n d : ℕ} (weights : Fin n → Fin d → ℝ) (offset : Fin d → ℝ) (x : Fin n → ℝ) :
    Prop :=
  x ≠ 0 ∧ ∃ k, Spec.randomFeatures weights offset (Spec.unitVector x) k ≠ 0

section
open Spec
variable {n d : ℕ}

private theorem unitNormed_ok (x : Fin n → ℝ) (hx : x ≠ 0) :
    (unitNormed n).fitTransformPartial () x = .ok (unitVector x) () := by
  have hpos : 0 < ∑ j, x j * x j := by
    obtain ⟨i, hi⟩ := Function.ne_iff.1 hx
    exact Finset.sum_pos' (fun j _ => mul_self_nonneg _) ⟨i, Finset.mem_univ _, mul_self_pos.2 hi⟩
  have hs : Real.sqrt (∑ j, x j * x j) ≠ 0 := (Real.sqrt_pos.2 hpos).ne'
  have hv : (instanceUnitNormScaler (.fin 2) n).fitTransformPartial () x =
      .ok (fun i => .fin (unitVector x i)) () := by
    simp [instanceUnitNormScaler, Transformer.inherited, instanceUnitNorm, npNorm, Except.map,
      Res.ofExcept, npDiv, if_neg hs, unitVector]
  show Transformer.inherited (fun s _ => .ok () s) (unitNormed.transform n) () x = _
  unfold Transformer.inherited unitNormed.transform
  simp [hv, Num.finite?]

private theorem traced_inOrder {β : Type*} (env : InqEnv ℝ n d) (rho : Fin d → Fin d → ℝ)
    (X : List (Fin n → ℝ)) (s : InqState ℝ d) (hb : s.batchSize ≠ 0) (ht : s.traced = some rho) :
    ∃ s', inOrder (fitAndScore (Inqmad.detector (β := β) env)) s X =
      .ok (X.map fun x => Inqmad.collapse (Inqmad.feature env x) rho) s' := by
  induction X generalizing s with
  | nil => exact ⟨s, rfl⟩
  | cons x X ih =>
    obtain ⟨s', h⟩ := ih { s with
      rho := some (Inqmad.computeTraining env x 1 s.rho)
      numSamples := s.numSamples + 1 } hb ht
    refine ⟨s', ?_⟩
    simp only [inOrder, fitAndScore, Detector.fitScorePartial, Inqmad.detector, Inqmad.fitPartial,
      if_neg hb, Res.bind_ok, Inqmad.scorePartial, ht] at h ⊢
    rw [h]
    rfl

/-- Fitting and scoring in turn: the scores are those against the first instance. -/
private theorem inqmad_inOrder {β : Type*} (weights : Fin n → Fin d → ℝ) (offset : Fin d → ℝ)
    (z : Fin n → ℝ) (X : List (Fin n → ℝ))
    (hX : ∀ x ∈ z :: X, ∃ k, randomFeatures weights offset x k ≠ 0) :
    ∃ s', inOrder (fitAndScore (Inqmad.detector (β := β) (realInqEnv weights offset)))
        (Inqmad.new 300) (z :: X) =
      .ok ((z :: X).map fun x => squaredCosine (randomFeatures weights offset x)
        (randomFeatures weights offset z)) s' := by
  set env := realInqEnv weights offset with henv
  set rho : Fin d → Fin d → ℝ :=
    fun i j => Inqmad.trainPure (Inqmad.feature env z) i j / ((0 + 1 : ℕ) : ℝ) with hrho
  have hval : ∀ x ∈ z :: X, Inqmad.collapse (Inqmad.feature env x) rho =
      squaredCosine (randomFeatures weights offset x) (randomFeatures weights offset z) := by
    intro x hx
    obtain ⟨r, h1, h2, -⟩ := (C89_inqmad_scores_partial (β := β) weights offset 300 (by norm_num)
      [.fit z none] z rfl (hX z (by simp))).2 x (hX x hx)
    have h3 : (Inqmad.scorePartial env (calls (Inqmad.detector (β := β) env) (Inqmad.new 300)
        [.fit z none]).2 x).out = .ok (Inqmad.collapse (Inqmad.feature env x) rho) := rfl
    rw [h3] at h1
    injection h1 with h1
    rw [h1, h2]
    simp [fittedAtFirstScore]
  obtain ⟨s', h⟩ := traced_inOrder (β := β) env rho X
    ⟨300, some (Inqmad.trainPure (Inqmad.feature env z)), 0 + 1, some rho⟩ (by norm_num) rfl
  refine ⟨s', ?_⟩
  have h0 : fitAndScore (Inqmad.detector (β := β) env) (Inqmad.new 300) z =
      .ok (Inqmad.collapse (Inqmad.feature env z) rho)
        ⟨300, some (Inqmad.trainPure (Inqmad.feature env z)), 0 + 1, some rho⟩ := rfl
  simp only [inOrder, h0, h]
  congr 1
  rw [List.map_cons, hval z (by simp)]
  congr 1
  exact List.map_congr_left fun x hx => hval x (List.mem_cons_of_mem _ hx)

/-- **C199, partial: what the example gives to the metric.** For all random draws and all data:
the score of the `i`-th instance is the mean of how much the last five instances are like the very
first one. Nothing that is fitted after the first instance matters. -/
theorem C199_scores_partial (weights : Fin n → Fin d → ℝ) (offset : Fin d → ℝ) (z : Fin n → ℝ)
    (X : List (Fin n → ℝ)) (hX : ∀ x ∈ z :: X, HasFeatures weights offset x) :
    ∃ scores s', inOrder (inqmadBody (realInqEnv weights offset)) (inqmadObjects d) (z :: X) =
        .ok scores s' ∧ scores.length = (z :: X).length ∧
      ∀ i, i < (z :: X).length → scores[i]? = some (meanOf (lastN 5
        (((z :: X).take (i + 1)).map (likeness weights offset z)) : List ℝ)) := by
  obtain ⟨s1, h1⟩ := inqmad_inOrder (β := Bool) weights offset (unitVector z) (X.map unitVector) (by
    intro x hx
    rw [← List.map_cons, List.mem_map] at hx
    obtain ⟨y, hy, rfl⟩ := hx
    exact (hX y hy).2)
  obtain ⟨out, s2, h2, h3, h4⟩ := C35_average (K := ℝ) 5 (by norm_num)
    ((z :: X).map (likeness weights offset z))
  refine ⟨out, ((), s1, s2), ?_, by rw [h3, List.length_map], fun i hi => ?_⟩
  · have e : inOrder (inqmadBody (realInqEnv weights offset)) (inqmadObjects d) (z :: X) =
        Pipeline.stream (unitNormed n) (Inqmad.detector (β := Bool) (realInqEnv weights offset))
          (runningAveragePostprocessor ℝ 5) (inqmadObjects d) (z :: X) none :=
      C129_pipeline _ _ _ _ _
    rw [e]
    refine (C90_pipeline _ _ _ _ _ _ _ (by trivial) _).1 ?_
    have ht : (unitNormed n).fitTransform () (z :: X) = .ok ((z :: X).map unitVector) () := by
      have : ∀ Y : List (Fin n → ℝ), (∀ x ∈ Y, x ≠ 0) →
          (unitNormed n).fitTransform () Y = .ok (Y.map unitVector) () := by
        intro Y hY
        unfold Transformer.fitTransform
        rw [iterate_none, Gen.forEach_ofList]
        induction Y with
        | nil => rfl
        | cons y Y ih =>
          have := ih fun x hx => hY x (List.mem_cons_of_mem _ hx)
          simp only [pairs, List.map_cons, inOrder] at this ⊢
          rw [unitNormed_ok y (hY y (by simp))]
          simp only [this]
      exact this _ fun x hx => (hX x hx).1
    have hs : (Inqmad.detector (β := Bool) (realInqEnv weights offset)).fitScore (Inqmad.new 300)
        ((z :: X).map unitVector) none = .ok ((z :: X).map (likeness weights offset z)) s1 := by
      rw [← C129_scores, List.map_cons, h1, ← List.map_cons, List.map_map]
      rfl
    unfold Pipeline.batch inqmadObjects
    simp only [ht, Res.mapState_ok, Res.bind_ok, hs, h2]
  · rw [h4 i (by simpa using hi), List.map_take]

/-- The claim of **C199**: the example rates a clear anomaly well. For all random draws: on a stream
of equal instances followed by one that is less like them than they are, labelled as an anomaly,
the printed rating is at least 1/2. -/
def C199_statement : Prop :=
  ∀ (n d : ℕ) (weights : Fin n → Fin d → ℝ) (offset : Fin d → ℝ) (x z : Fin n → ℝ) (m : ℕ)
    (g : Gen ((Fin n → ℝ) × Bool)) (v : ℝ),
    HasFeatures weights offset x → HasFeatures weights offset z → likeness weights offset x z < 1 →
    g.toList = .ok (List.replicate (m + 1) (x, false) ++ [(z, true)]) →
    (evaluate (inqmadBody (realInqEnv weights offset)) (aurocMetric rocAucCurve)
      (inqmadObjects d, ([], [])) g).out = .ok v → 1 / 2 ≤ v

private theorem mean_ones (k : ℕ) (hk : k ≠ 0) : meanOf ((List.replicate k (1 : ℝ) : List ℝ) : Multiset ℝ) = 1 := by
  have : (k : ℝ) ≠ 0 := by exact_mod_cast hk
  simp [meanOf, this]

/-- **C199, partial: the example rates such an anomaly as badly as possible**, with 0: for all
random draws and however many equal instances came before. -/
theorem C199_clear_anomaly_partial (weights : Fin n → Fin d → ℝ) (offset : Fin d → ℝ)
    (x z : Fin n → ℝ) (m : ℕ) (g : Gen ((Fin n → ℝ) × Bool)) (hx : HasFeatures weights offset x)
    (hz : HasFeatures weights offset z) (hxz : likeness weights offset x z < 1)
    (hg : g.toList = .ok (List.replicate (m + 1) (x, false) ++ [(z, true)])) :
    (evaluate (inqmadBody (realInqEnv weights offset)) (aurocMetric rocAucCurve)
      (inqmadObjects d, ([], [])) g).out = .ok 0 := by
  have hX : (List.replicate (m + 1) (x, false) ++ [(z, true)]).map Prod.fst =
      x :: (List.replicate m x ++ [z]) := by
    simp [List.replicate_succ]
  have hY : (List.replicate (m + 1) (x, false) ++ [(z, true)]).map Prod.snd =
      List.replicate (m + 1) false ++ [true] := by
    simp
  have hmem : ∀ y ∈ x :: (List.replicate m x ++ [z]), HasFeatures weights offset y := by
    intro y hy
    simp only [List.mem_cons, List.mem_append, List.mem_replicate, List.not_mem_nil, or_false] at hy
    rcases hy with rfl | ⟨-, rfl⟩ | rfl
    · exact hx
    · exact hx
    · exact hz
  obtain ⟨scores, s', h1, h2, h3⟩ := C199_scores_partial weights offset x _ hmem
  have hself : likeness weights offset x x = 1 := by
    obtain ⟨k, hk⟩ := hx.2
    exact squaredCosine_self (Finset.sum_pos' (fun j _ => sq_nonneg _)
      ⟨k, Finset.mem_univ _, by positivity⟩)
  set c := likeness weights offset x z with hc
  have hmap : ∀ i, (((x :: (List.replicate m x ++ [z])).take (i + 1)).map
      (likeness weights offset x)) = (List.replicate (m + 1) 1 ++ [c]).take (i + 1) := by
    intro i
    rw [List.map_take]
    congr 1
    simp [List.replicate_succ, hself, ← hc]
  have hlen : (x :: (List.replicate m x ++ [z])).length = m + 2 := by simp
  rw [hlen] at h2 h3
  -- the last score
  obtain ⟨v, hv, hv1⟩ : ∃ v, scores[m + 1]? = some v ∧ v < 1 := by
    refine ⟨_, h3 (m + 1) (by omega), ?_⟩
    rw [hmap, List.take_of_length_le (by simp)]
    have e : lastN 5 (List.replicate (m + 1) (1 : ℝ) ++ [c]) =
        List.replicate (min (m + 1) 4) 1 ++ [c] := by
      unfold lastN
      rw [List.drop_append_of_le_length (by simp; omega), List.drop_replicate]
      congr 2
      simp
      omega
    rw [e]
    unfold meanOf
    rw [Multiset.coe_card, Multiset.sum_coe, List.sum_append, List.sum_replicate, List.sum_singleton,
      List.length_append, List.length_replicate, List.length_singleton, div_lt_one (by positivity)]
    push_cast
    simp only [nsmul_eq_mul, mul_one]
    push_cast
    linarith
  have hscores : scores = List.replicate (m + 1) 1 ++ [v] := by
    apply List.ext_getElem?
    intro i
    rcases Nat.lt_trichotomy i (m + 1) with hi | rfl | hi
    · rw [h3 i (by omega), hmap, List.getElem?_append_left (by simpa using hi),
        List.getElem?_replicate, if_pos hi, List.take_append_of_le_length (by simp; omega),
        List.take_replicate]
      unfold lastN
      rw [List.drop_replicate, mean_ones]
      simp
      omega
    · rw [hv]; simp
    · rw [List.getElem?_eq_none (by omega), List.getElem?_eq_none (by simp; omega)]
  refine (C129_evaluate _ _ _ _ rfl g _ hg _).2 ⟨scores, s', by rw [hX]; exact h1, ?_⟩
  rw [hY, auroc_reported _ _ (by simp [h2]) (by simp) (by simp), hscores]
  congr 1
  have ha : anomalies ((List.replicate (m + 1) false ++ [true]).zip
      (List.replicate (m + 1) (1 : ℝ) ++ [v])) = [v] := by
    rw [List.zip_append (by simp)]
    simp [anomalies]
  have hn : normals ((List.replicate (m + 1) false ++ [true]).zip
      (List.replicate (m + 1) (1 : ℝ) ++ [v])) = List.replicate (m + 1) 1 := by
    rw [List.zip_append (by simp)]
    simp [normals]
  unfold rankingProbability
  rw [ha, hn]
  have hd : duel v (1 : ℝ) = 0 := by
    unfold duel
    rw [if_neg (by linarith), if_neg (by linarith)]
  simp [hd]

/-- Random draws for two features and two random features: `cos (x₁ π/2)` and `cos ((x₁ + 1) π/2)`. -/
private noncomputable def exWeights : Fin 2 → Fin 2 → ℝ :=
  fun i _ => if i = 1 then Real.pi / 2 else 0
private noncomputable def exOffset : Fin 2 → ℝ := fun k => if k = 0 then 0 else Real.pi / 2

private theorem ex_unit : unitVector (![1, 0] : Fin 2 → ℝ) = ![1, 0] ∧
    unitVector (![0, 1] : Fin 2 → ℝ) = ![0, 1] := by
  constructor <;> (funext i; fin_cases i <;> simp [unitVector, Fin.sum_univ_two])

private theorem ex_features : randomFeatures exWeights exOffset ![1, 0] = ![1, 0] ∧
    randomFeatures exWeights exOffset ![0, 1] = ![0, -1] := by
  have h : Real.pi / 2 + Real.pi / 2 = Real.pi := by ring
  constructor <;>
    (funext k; fin_cases k <;> simp [randomFeatures, exWeights, exOffset, h])

private theorem ex_has : HasFeatures exWeights exOffset ![1, 0] ∧
    HasFeatures exWeights exOffset ![0, 1] := by
  refine ⟨⟨fun h => ?_, 0, ?_⟩, ⟨fun h => ?_, 1, ?_⟩⟩
  · simpa using congrFun h 0
  · rw [ex_unit.1, ex_features.1]; simp
  · simpa using congrFun h 1
  · rw [ex_unit.2, ex_features.2]; simp

private theorem ex_likeness : likeness exWeights exOffset ![1, 0] ![0, 1] = 0 := by
  simp [likeness, ex_unit.1, ex_unit.2, ex_features.1, ex_features.2, squaredCosine,
    Fin.sum_univ_two]

/-- **C199 is false**: two instances `(1, 0)` and the anomaly `(0, 1)`, which has nothing in common
with them, are rated 0. -/
theorem C199_refuted : ¬ C199_statement := by
  intro hst
  have hg : (Gen.ofList (List.replicate (1 + 1) ((![1, 0] : Fin 2 → ℝ), false) ++
      [(![0, 1], true)])).toList =
      .ok (List.replicate (1 + 1) ((![1, 0] : Fin 2 → ℝ), false) ++ [(![0, 1], true)]) := by
    simp [List.replicate_succ, Gen.ofList, Gen.toList]
  have hl : likeness exWeights exOffset ![1, 0] ![0, 1] < 1 := by rw [ex_likeness]; norm_num
  have h := hst 2 2 exWeights exOffset ![1, 0] ![0, 1] 1 _ 0 ex_has.1 ex_has.2 hl hg
    (C199_clear_anomaly_partial exWeights exOffset _ _ 1 _ ex_has.1 ex_has.2 hl hg)
  norm_num at h

end

/-! ### C200 -/

section
open Spec
variable {G M α β S : Type*}

/-- **C200.** For every detector class that can be trained on every nonempty array, and all data
with more than 100 rows: the score that the example gives to the metric for row `100 + i` is the
decision of a detector trained on the last (at most) 240 of the rows before row
`100 + ((i + 1) / 30) * 30`, that is, on the most recent rows as of at most 29 rows ago. -/
theorem C200_scores {b : BatchDetector G M α β S} (hb : Trainable b) (g : G) (X : List α)
    (hX : 100 < X.length) (s0 s' : RefWindowState G M α β) (scores : List S)
    (h0 : RefWindow.new b g 240 30 (some (X.take 100)) none = .ok () s0)
    (h : inOrder (fitAndScore (RefWindow.detector b)) s0 (X.drop 100) = .ok scores s') :
    scores.length = X.length - 100 ∧ ∀ i v, scores[i]? = some v →
      ∃ x m g1 g2, X[100 + i]? = some x ∧
        b.train g1 (lastN 240 (X.take (100 + (i + 1) / 30 * 30))) none = .ok m g2 ∧
        b.decision m x = .ok v := by
  obtain ⟨h1, h2⟩ := inOrder_fitAndScore _ _ _ _ _ h
  refine ⟨by rw [h1, List.length_drop], fun i v hv => ?_⟩
  obtain ⟨x, hx, hs⟩ := h2 i v hv
  have hne : X.take 100 ≠ [] := by
    intro h'
    have := congrArg List.length h'
    rw [List.length_take, List.length_nil] at this
    omega
  have hi : i < (X.drop 100).length := by
    by_contra h'
    rw [List.getElem?_eq_none (by omega)] at hx
    cases hx
  obtain ⟨g1, m, g2, ht, hm⟩ := C55_refwindow_training_initial hb g 240 30 (by norm_num) (by norm_num)
    false (X.take 100) [] hne s0 h0 (fitScoreCalls ((X.drop 100).take i) ++ [.fit x none])
    ((labelled_append _ _ _).2 ⟨labelled_fitScoreCalls _, by simp [Labelled]⟩)
  have hfit : fitted (fitScoreCalls ((X.drop 100).take i) ++ [.fit x none] : List (Call α β)) =
      (X.drop 100).take (i + 1) := by
    rw [fitted_append, fitted_fitScoreCalls, List.take_add_one, hx]
    rfl
  have hset : trainingSetFrom 240 30 (X.take 100) ((X.drop 100).take (i + 1)) =
      lastN 240 (X.take (100 + (i + 1) / 30 * 30)) := by
    have hl : ((X.drop 100).take (i + 1)).length = i + 1 := by
      rw [List.length_take]; omega
    have hle := Nat.div_mul_le_self (i + 1) 30
    unfold trainingSetFrom
    rw [hl]
    split
    · rename_i hlt
      rw [Nat.div_eq_of_lt hlt, lastN_of_le (by rw [List.length_take]; omega)]
    · rw [List.take_take, min_eq_left hle, ← List.take_add]
  rw [hfit, hset] at ht
  refine ⟨x, m, g1, g2, ?_, ht, ?_⟩
  · rw [List.getElem?_drop] at hx; exact hx
  · have : (RefWindow.scorePartial b _ x).out = .ok v := hs
    unfold RefWindow.scorePartial at this
    rw [hm, Res.out_ofExcept] at this
    exact this

/-- **C200.** If moreover the decisions of a trained detector never fail, then neither does the
example: the model is constructed, and every row after the first 100 gets a score. -/
theorem C200_runs {b : BatchDetector G M α β S} (hb : Trainable b)
    (hd : ∀ m x, ∃ v, b.decision m x = .ok v) (g : G) (X : List α) (hX : 100 < X.length) :
    ∃ s0 scores s', RefWindow.new b g 240 30 (some (X.take 100)) (none : Option (List β)) = .ok () s0 ∧
      inOrder (fitAndScore (RefWindow.detector b)) s0 (X.drop 100) = .ok scores s' := by
  have hne : X.take 100 ≠ [] := by
    intro h'
    have := congrArg List.length h'
    rw [List.length_take, List.length_nil] at this
    omega
  obtain ⟨m, g', ht⟩ := hb g (X.take 100) none hne
  have h0 : ∃ s0, RefWindow.new b g 240 30 (some (X.take 100)) (none : Option (List β)) = .ok () s0 := by
    simp [RefWindow.new, RefWindow.fitModel, ht]
  obtain ⟨s0, h0⟩ := h0
  refine ⟨s0, ?_⟩
  have key : ∀ (l : List α) (cs : List (Call α β)), Labelled false cs →
      ∃ scores s', inOrder (fitAndScore (RefWindow.detector b))
        (calls (RefWindow.detector b) s0 cs).2 l = .ok scores s' := by
    intro l
    induction l with
    | nil => exact fun cs _ => ⟨[], _, rfl⟩
    | cons x l ih =>
      intro cs hL
      have hfit := C57_refwindow_never_fails_initial_partial hb g 240 30 (by norm_num) (by norm_num)
        false (X.take 100) [] hne s0 h0 cs hL x none rfl
      have hL1 : Labelled false (cs ++ [.fit x none]) :=
        (labelled_append _ _ _).2 ⟨hL, by simp [Labelled]⟩
      have hL2 : Labelled false ((cs ++ [.fit x none]) ++ [.score x]) :=
        (labelled_append _ _ _).2 ⟨hL1, by simp [Labelled]⟩
      obtain ⟨g1, m1, g2, -, hm⟩ := C55_refwindow_training_initial hb g 240 30 (by norm_num)
        (by norm_num) false (X.take 100) [] hne s0 h0 _ hL1
      obtain ⟨v, hv⟩ := hd m1 x
      obtain ⟨scores, s', hrest⟩ := ih _ hL2
      rw [calls_snoc] at hm
      rw [calls_snoc, calls_snoc] at hrest
      cases hf : (RefWindow.detector b).fitPartial (calls (RefWindow.detector b) s0 cs).2 x none with
      | err e s1 => rw [hf] at hfit; cases hfit
      | ok u s1 =>
        have hc : (call (RefWindow.detector b) (calls (RefWindow.detector b) s0 cs).2
            (.fit x none)).2 = s1 := by simp [call, hf]
        rw [hc] at hm hrest
        have hsc : (RefWindow.detector b).scorePartial s1 x = .ok v s1 := by
          show RefWindow.scorePartial b s1 x = _
          unfold RefWindow.scorePartial
          rw [hm]
          show Res.ofExcept (b.decision m1 x) s1 = _
          rw [hv]; rfl
        have hc2 : (call (RefWindow.detector b) s1 (.score x)).2 = s1 := by simp [call, hsc]
        rw [hc2] at hrest
        have hfs : fitAndScore (RefWindow.detector b) (calls (RefWindow.detector b) s0 cs).2 x =
            .ok v s1 := by
          unfold fitAndScore Detector.fitScorePartial
          rw [hf, Res.bind_ok]
          exact hsc
        simp only [inOrder, hfs, hrest]
        exact ⟨_, _, rfl⟩
  obtain ⟨scores, s', h⟩ := key (X.drop 100) [] trivial
  exact ⟨scores, s', h0, h⟩

/-- The detector that scores with the rows that it was trained on. -/
private def rowsDetector : BatchDetector Unit (List ℕ) ℕ Unit (List ℕ) :=
  ⟨fun g D _ => .ok D g, fun m _ => .ok m⟩

private theorem rowsDetector_scores (X : List ℕ) (hX : 100 < X.length) :
    ∃ s0 scores s', RefWindow.new rowsDetector () 240 30 (some (X.take 100)) none = .ok () s0 ∧
      inOrder (fitAndScore (RefWindow.detector rowsDetector)) s0 (X.drop 100) = .ok scores s' ∧
      ∀ i v, scores[i]? = some v → v = lastN 240 (X.take (100 + (i + 1) / 30 * 30)) := by
  have hb : Trainable rowsDetector := fun g D _ _ => ⟨D, g, rfl⟩
  obtain ⟨s0, scores, s', h0, h⟩ := C200_runs hb (fun m _ => ⟨m, rfl⟩) () X hX
  refine ⟨s0, scores, s', h0, h, fun i v hv => ?_⟩
  obtain ⟨x, m, g1, g2, -, ht, hm⟩ := (C200_scores hb () _ hX s0 s' scores h0 h).2 i v hv
  generalize lastN 240 (X.take (100 + (i + 1) / 30 * 30)) = D at ht ⊢
  have h1 : D = m := by
    have : (Res.ok D g1 : Res Unit (List ℕ)) = .ok m g2 := ht
    injection this
  have h2 : (.ok m : Except PyErr (List ℕ)) = .ok v := hm
  injection h2 with h2
  rw [← h2, h1]

/-- Both theorems apply to it and 400 rows: row `100 + i` is scored with the last 240 of the rows
before row `100 + (i + 1) / 30 * 30`. -/
example : ∃ s0 scores s',
    RefWindow.new rowsDetector () 240 30 (some ((List.range 400).take 100)) none = .ok () s0 ∧
      inOrder (fitAndScore (RefWindow.detector rowsDetector)) s0 ((List.range 400).drop 100) =
        .ok scores s' ∧
      ∀ i v, scores[i]? = some v →
        v = lastN 240 ((List.range 400).take (100 + (i + 1) / 30 * 30)) :=
  rowsDetector_scores _ (by rw [List.length_range]; norm_num)

end

/-! ### C201 -/

section
open Spec

/-- **C201.** The statistics example prints the mean of the numbers and the square root of their
mean squared deviation from it, for every nonempty list of numbers. -/
theorem C201_statistics {K : Type*} [Field K] [LinearOrder K] [IsStrictOrderedRing K]
    (sqrt : K → K) (X : List K) (hX : X ≠ []) :
    statistics sqrt X = .ok (meanOf (X : Multiset K), sqrt (varianceOf (X : Multiset K))) := by
  have key : ∀ (l : List K) (a : AverageState K) (v : VarianceState K),
      l.foldl (fun (s : AverageState K × VarianceState K) x =>
        ((averageMeter K).update s.1 x, (varianceMeter K).update s.2 x)) (a, v) =
      ((averageMeter K).updates a l, (varianceMeter K).updates v l) := by
    intro l
    induction l with
    | nil => intro a v; rfl
    | cons x l ih => intro a v; exact ih _ _
  have ra := average_refines.updates X 0 _ (average_refines (K := K)).init
  have rv := variance_refines.updates X 0 _ (variance_refines (K := K)).init
  rw [zero_add] at ra rv
  unfold statistics
  simp only [key, meanValue_ok (average_refines.get_out ra) hX,
    varianceValue_ok (variance_refines.get_out rv) hX]
  rfl

/-- The numbers 1, 2, 6 have mean 3 and mean squared deviation 14/3. -/
example : statistics (fun v : ℚ => 3 * v) [1, 2, 6] = .ok (3, 14) := by decide +kernel

end

end Pysad
