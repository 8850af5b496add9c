import Verif.Model.Defaults
import Verif.Props.Calibration
import Verif.Props.Deviation
import Verif.Props.HalfSpaceTrees
import Verif.Props.Integrations
import Verif.Props.KitNet
import Verif.Props.Loda
import Verif.Props.RelativeEntropy
import Verif.Props.Rrcf
import Verif.Props.RsHashInit
import Verif.Props.Scalers
import Verif.Props.SimpleModels
import Mathlib.Analysis.Complex.ExponentialBounds

/-! Property C140: what the documented default arguments amount to. -/

namespace Pysad

open Spec

/-- **C140.** `ExactStorm()`: the fraction of the instances within 0.1, among the last 10000 without
the newest. -/
theorem C140_storm_default {α β K : Type*} [Field K] [LinearOrder K] (dist : α → α → K)
    (cs : List (Call α β)) (x : α) :
    ((exactStorm (β := β) dist).scorePartial
      (calls (exactStorm dist) Defaults.exactStorm cs).2 x).out =
      .ok (nearFraction dist (1 / 10) (lastN 10000 (fitted cs)).dropLast x) := by
  have h := C50_storm_score (β := β) dist 10000 (1 / 10) cs x
  unfold Defaults.exactStorm
  simp only at h
  rw [h]
  rfl

/-- **C140.** `KitNet()`: with 1 to 50000 instances fitted every score is 0, with 50001 it is nan,
with more it is a nonnegative number. -/
theorem C140_kitnet_default {β K : Type*} [Field K] [LinearOrder K] [IsStrictOrderedRing K]
    [FloorRing K] {n : ℕ} {env : KnEnv K} (law : LinkageLaws env) (hsq : ∀ y, 0 ≤ env.sqrt y)
    (hn : 2 ≤ n) (cs : List (Call (Fin n → K) β)) (x : Fin n → K) :
    let out := (KitNet.scorePartial env
      (calls (KitNet.detector env) (Defaults.kitNet n) cs).2 x).out
    (1 ≤ (fitted cs).length → (fitted cs).length ≤ 50000 → out = .ok (.fin 0)) ∧
    ((fitted cs).length = 50001 → out = .ok .nan) ∧
    (50001 < (fitted cs).length → ∃ v, out = .ok (.fin v) ∧ 0 ≤ v) := by
  obtain ⟨h1, h2, h3⟩ := C83_kitnet_numbers_partial law hsq hn 10 none 50000 (1 / 10) (3 / 4)
    (by norm_num) cs x
  refine ⟨fun ha hb => h1 ?_ hb, fun ha => h2 ?_ (Or.inl ?_), fun ha => h3 ha (by norm_num)⟩
  · intro h0
    rw [h0] at ha
    simp at ha
  · rw [Option.getD_none, ha]
    norm_num
  · rw [Option.getD_none, ha]

/-- **C140.** `LODA()`: once something was fitted, every score lies between 0 and 0.278. -/
theorem C140_loda_default {G β : Type*} (rng : LodaRng G ℝ) (hr : RandnShape rng) (g : G)
    (cs : List (Call (List ℝ) β)) (x0 : List ℝ) (X : List (List ℝ)) (hX : fitted cs = x0 :: X)
    (x : List ℝ) (hx : x.length = x0.length) :
    ∃ v : ℝ, ((Loda.detector (β := β) rng npLog).scorePartial
        (calls (Loda.detector rng npLog) (Defaults.loda g) cs).2 x).out = .ok (.fin v) ∧
      0 ≤ v ∧ v ≤ 278 / 1000 := by
  obtain ⟨v, h1, h2, h3⟩ := C65_loda_finite rng hr 10 100 (by norm_num) (by norm_num) g cs x0 X hX x hx
  refine ⟨v, h3, h1, h2.trans ?_⟩
  have hle : -Real.log (lodaEmpty 10) ≤ 40 * Real.log 2 := by
    rw [← Real.log_inv, show (40 : ℝ) * Real.log 2 = Real.log (2 ^ 40) by
      rw [Real.log_pow]; norm_num]
    apply Real.log_le_log (inv_pos.2 (lodaEmpty_pos 10))
    unfold lodaEmpty
    norm_num
  have := Real.log_two_lt_d9
  rw [div_le_iff₀ (by norm_num)]
  push_cast
  linarith

/-- **C140.** `MedianAbsoluteDeviation()`: the distance to the median of the values fitted, over 1.4826
times the median of their running deviations (plus 1e-10). -/
theorem C140_mad_default {β K : Type*} [Field K] [LinearOrder K] [IsStrictOrderedRing K]
    (cs : List (Call (List K) β)) (hne : univariate (fitted cs) ≠ []) (X : List K) :
    ∃ m ds mad, medianOf (univariate (fitted cs) : Multiset K) = some m ∧
      RunningDeviations (univariate (fitted cs)) ds ∧ medianOf (ds : Multiset K) = some mad ∧
      ((medianAbsoluteDeviation (β := β)).scorePartial
        (calls medianAbsoluteDeviation Defaults.medianAbsoluteDeviation cs).2 X).out
        = .ok (X.map fun x => .fin |(x - m) / (14826 / 10000 * mad + 1 / 10 ^ 10)|) := by
  obtain ⟨m, ds, mad, h1, h2, h3, h4⟩ := C67_mad_score (14826 / 10000 : K) (by norm_num) true cs hne X
  exact ⟨m, ds, mad, h1, h2, h3, h4⟩

/-- **C140.** `StandardAbsoluteDeviation()`: the distance to the mean, over the standard deviation
(plus 1e-10). -/
theorem C140_sad_default {β : Type*} :
    ∃ s0, Defaults.standardAbsoluteDeviation = .ok s0 ∧
      ∀ (cs : List (Call (List ℝ) β)) (X : List ℝ), univariate (fitted cs) ≠ [] →
        ((SadObject.detector (β := β) Real.sqrt).scorePartial
          (calls (SadObject.detector Real.sqrt) s0 cs).2 X).out
        = .ok (X.map fun x => .fin |(x - meanOf (K := ℝ) (univariate (fitted cs))) /
            (Real.sqrt (varianceOf (K := ℝ) (univariate (fitted cs))) + 1 / 10 ^ 10)|) :=
  (C68_sad_statistic (β := β) "mean" true).1 rfl

/-- **C140.** `RobustRandomCutForest()`: four trees, each with the first and the 256 most recent
instances (all of them while there are at most 257). -/
theorem C140_rrcf_default {τ α K G β : Type*} [Field K] [LinearOrder K] (api : RcTreeApi τ α K G) (g : G)
    (cs : List (Call α β)) :
    let s := (calls (Rrcf.detector api) (Defaults.robustRandomCutForest api g) cs).2
    s.forest.length = 4 ∧
    ∀ t ∈ s.forest, (api.leaves t).map Prod.snd =
      if (fitted cs).length ≤ 257 then fitted cs else (fitted cs).take 1 ++ lastN 256 (fitted cs) := by
  obtain ⟨h1, h2, -⟩ := C71_rrcf_recent_partial (β := β) api g 4 256 (by norm_num) cs
  exact ⟨h1, h2⟩

/-- **C140.** `IForestASD()`, unlabelled: the forest is trained on all instances while there are fewer
than 2048, then on the last complete block of 2048. -/
theorem C140_iforest_default {G M α β S : Type*} {b : BatchDetector G M α β S} (hb : Trainable b)
    (g : G) : ∃ s0, Defaults.iforestASD b g = .ok () s0 ∧
      ∀ cs : List (Call α β), Labelled false cs → fitted cs ≠ [] →
        TrainedOn b (calls (RefWindow.detector b) s0 cs).2.model
          (if (fitted cs).length < 2048 then fitted cs
            else ((fitted cs).take ((fitted cs).length / 2048 * 2048)).drop
              (((fitted cs).length / 2048 - 1) * 2048)) none :=
  ⟨_, rfl, fun cs hL hne => C55_iforest_asd hb g 2048 (by norm_num) _ rfl cs hL hne⟩

/-- **C140.** `RelativeEntropy(lo, hi)`: 0 until 52 values were fitted; then the histogram with 5 bins
of the last 52 is compared with that of the first 52, against the threshold for 4 degrees of
freedom. -/
theorem C140_relent_default {K β : Type*} [Field K] [LinearOrder K] [IsStrictOrderedRing K]
    [FloorRing K] (entropy : List (Num K) → List (Num K) → Num K) (isf : ℤ → Num K) (lo hi : K)
    (hne : lo ≠ hi) :
    ∃ s0, Defaults.relativeEntropy isf lo hi = .ok s0 ∧ ∀ (cs : List (Call K β)) (x : K),
      let freq := frequencies lo ((hi - lo) / 5) 5
      let statistic := scaled (2 * 52)
        (entropy (freq (lastN 52 (fitted cs))) (freq ((fitted cs).take 52)))
      ((RelEnt.detector (β := β) entropy).scorePartial
        (calls (RelEnt.detector entropy) s0 cs).2 x).out =
      .ok (if (fitted cs).length < 52 then 0
        else if Below statistic (isf 4) ∧ Below statistic .posInf then 0 else -1) := by
  obtain ⟨s0, h0⟩ : ∃ s0, Defaults.relativeEntropy isf lo hi = .ok s0 := ⟨_, rfl⟩
  refine ⟨s0, h0, fun cs x => ?_⟩
  have h := C69_relent_score (β := β) entropy isf lo hi hne 5 52 (by norm_num) (by norm_num) s0 h0 cs x
  simp only at h
  rw [h]
  norm_num

/-- **C140.** `HalfSpaceTrees(mins, maxes)`, with one lower and upper bound for each of one or more
features, can be constructed, and every score lies between `-25 * 100 * (2^16 - 1)` and 0. -/
theorem C140_hst_default {G K β : Type*} [Field K] [LinearOrder K] [IsStrictOrderedRing K]
    (randint : G → ℕ → ℕ × G) (hr : InRange randint) (mins maxes : List K)
    (hl : mins.length = maxes.length) (hd : 1 ≤ maxes.length) (g : G) :
    ∃ s0, Defaults.halfSpaceTrees randint mins maxes g = .ok s0 ∧
      ∀ (cs : List (Call (List K) β)), (∀ x ∈ fitted cs, x.length = maxes.length) →
      ∀ x : List K, x.length = maxes.length →
        ∃ v, ((Hst.detector K β).scorePartial (calls (Hst.detector K β) s0 cs).2 x).out = .ok v ∧
          -163837500 ≤ v ∧ v ≤ 0 := by
  obtain ⟨s0, h0, -⟩ := C54_hst_complete randint hr mins maxes hd hl 100 25 15 g
  refine ⟨s0, h0, fun cs hX x hx => ?_⟩
  obtain ⟨v, h1, h2, h3⟩ := C53_hst_range randint hr mins maxes hd 100 25 15 (by norm_num) g s0 h0 cs
    hX x hx
  refine ⟨v, h1, ?_, h3⟩
  norm_num at h2
  linarith

/-- **C140.** `ConformalProbabilityCalibrator()`: the fraction of the last 300 scores above the given
one. -/
theorem C140_conformal_default {α K : Type*} [LinearOrder α] [Field K] [LinearOrder K]
    [IsStrictOrderedRing K] (xs : List α) (h : xs ≠ []) :
    ∃ s, (Conformal.postprocessor K).fit Defaults.conformal xs = .ok () s ∧
      ∀ y, ((Conformal.postprocessor K).transformPartial s y).out =
        .ok (.fin (tailFraction K (lastN 300 xs) y)) := by
  have hr : retained true 300 xs = lastN 300 xs := by simp [retained]
  have hne : retained true 300 xs ≠ [] := by
    rw [hr, ← List.length_pos_iff, lastN_length]
    have := List.length_pos_iff.2 h
    omega
  obtain ⟨s, h1, h2⟩ := C37_conformal (K := K) true 300 xs hne
  refine ⟨s, h1, fun y => ?_⟩
  rw [h2 y, hr]
  rfl

/-- **C140.** `GaussianTailProbabilityCalibrator()`: the Gaussian tail at the mean and standard
deviation of the last 6400 scores. -/
theorem C140_gaussian_default (xs : List ℝ) (hxs : xs ≠ [])
    (hvar : varianceOf (K := ℝ) (lastN 6400 xs : List ℝ) ≠ 0) :
    let (calibrator, s0) := Defaults.gaussianTail Real.sqrt Spec.erfc
    ∃ s, calibrator.fit s0 xs = .ok () s ∧
      ∀ y, (calibrator.transformPartial s y).out =
        .ok (1 - 1 / 2 * Spec.erfc ((y - meanOf (lastN 6400 xs : List ℝ)) /
          √(varianceOf (K := ℝ) (lastN 6400 xs : List ℝ)) / √2)) :=
  C38_value 6400 (by norm_num) xs hxs hvar

/-- With the default decay, the effective sample size of `RSHash` is 1000. -/
theorem effectiveSize_default : effectiveSize (15 / 1000) = 1000 := by
  unfold effectiveSize
  apply max_eq_left
  have h1 : (2 : ℝ) ^ (-(15 / 1000) : ℝ) ≤ 999 / 1000 := by
    rw [Real.rpow_neg (by norm_num), inv_le_comm₀ (by positivity) (by norm_num),
      Real.rpow_def_of_pos (by norm_num)]
    have := Real.add_one_le_exp (Real.log 2 * (15 / 1000))
    have := Real.log_two_gt_d9
    norm_num at *
    linarith
  rw [div_le_iff₀ (by linarith)]
  linarith

/-- **C140.** `RSHash(mins, maxes)`: construction succeeds whatever is drawn; there are 100 components,
each with cells at most 1 and at least 0.03 wide in at most nine features; and the score of a fitted
instance is its mean log count, halved every 1/0.015 instances. -/
theorem C140_rshash_default {G β : Type*} {dim : ℕ} (rnd : RsRandom G ℝ dim) (hdim : 1 ≤ dim)
    (bounds : RsBounds ℝ dim) (g : G) :
    ∃ s0 g' comps, Defaults.rsHash realPow2 Real.log Real.sqrt rnd bounds g = (.ok s0, g') ∧
      comps.length = 100 ∧
      (∀ c ∈ comps, 3 / 100 ≤ c.f ∧ c.f < 1 ∧ 1 ≤ c.dims.length ∧ c.dims.length ≤ 9) ∧
      ∀ (cs : List (Call (Fin dim → ℝ) β)) (earlier : List (Fin dim → ℝ)) (x z : Fin dim → ℝ),
        fitted cs = earlier ++ [x] →
        ((RsHash.detector (β := β) realPow2 Real.log).scorePartial
          (calls (RsHash.detector realPow2 Real.log) s0 cs).2 z).out =
          .ok (some (rsScore realPow2 Real.log (15 / 1000) comps earlier x)) := by
  obtain ⟨comps, g', h1, h2, h3, -⟩ := C94_rshash_init rnd hdim bounds 1000 (15 / 1000) (by norm_num)
    100 1 g
  refine ⟨_, g', comps, h1, h2, ?_, ?_⟩
  · intro c hc
    have hs := h3 c hc
    rw [effectiveSize_default] at hs
    refine ⟨le_trans ?_ hs.width_ge, hs.width_lt, List.length_pos_iff.2 hs.dims_ne, ?_⟩
    · rw [div_le_div_iff₀ (by norm_num) (by positivity)]
      have : √1000 ≤ 100 / 3 := by
        rw [Real.sqrt_le_left (by norm_num)]
        norm_num
      linarith
    · have hl2 : 0 < Real.log 2 := Real.log_pos (by norm_num)
      have hmax : Real.log 2 ≤ Real.log (max 2 (1 / c.f)) :=
        Real.log_le_log (by norm_num) (le_max_left _ _)
      have h10 : Real.log 1000 < 10 * Real.log 2 := by
        rw [show (10 : ℝ) * Real.log 2 = Real.log (2 ^ 10) by rw [Real.log_pow]; norm_num]
        exact Real.log_lt_log (by norm_num) (by norm_num)
      have hlt : (c.dims.length : ℝ) < 10 := by
        refine lt_of_le_of_lt hs.dims_le ?_
        rw [div_lt_iff₀ (by linarith)]
        linarith
      have : c.dims.length < 10 := by exact_mod_cast hlt
      omega
  · intro cs earlier x z hx
    have hne : comps ≠ [] := by
      rintro rfl
      simp at h2
    have := C72_rshash_score (β := β) comps hne 1000 (15 / 1000) 1 le_rfl cs earlier x z hx
    simp only at this
    rw [this]
    rfl

/-- **C140.** `InstanceUnitNormScaler()` divides by the Euclidean norm. -/
theorem C140_unit_norm_default {d : ℕ} (x : Fin d → ℝ) (hx : x ≠ 0) (s : Unit) :
    (Defaults.instanceUnitNormScaler d).transformPartial s x =
      .ok (fun i => .fin (x i / √(∑ j, x j ^ 2))) s := by
  have hsum : ∑ j, x j * x j ≠ 0 := by
    intro h0
    apply hx
    funext i
    have := (Finset.sum_eq_zero_iff_of_nonneg fun j _ => mul_self_nonneg (x j)).1 h0 i (Finset.mem_univ i)
    simpa using this
  have hpos : 0 < ∑ j, x j * x j :=
    lt_of_le_of_ne (Finset.sum_nonneg fun j _ => mul_self_nonneg (x j)) (Ne.symm hsum)
  have hne : √(∑ j, x j * x j) ≠ 0 := (Real.sqrt_pos.2 hpos).ne'
  simp only [Defaults.instanceUnitNormScaler, Pysad.instanceUnitNormScaler, instanceUnitNorm, npNorm]
  norm_num [Except.map, Res.ofExcept, npDiv, hne, pow_two]

/-- Two instances within 0.1 of 0 and one further away were fitted before the last one. -/
example : (calls (exactStorm (β := Unit) fun a b : ℚ => |a - b|) Defaults.exactStorm
    [.fit 0 none, .fit (1 / 20) none, .fit 3 none, .fit 7 none, .score 0]).1.getLast? =
    some (.value (2 / 3)) := by decide +kernel

example : (calls (medianAbsoluteDeviation (β := Unit)) (Defaults.medianAbsoluteDeviation (K := ℚ))
    [.fit [1] none, .fit [3] none, .score [2]]).1.getLast? = some (.value [.fin 0]) := by
  decide +kernel

end Pysad
