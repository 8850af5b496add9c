import Verif.Props.UnitsMore
import Verif.Props.FeatureOrder
import Verif.Props.KnnCad
import Verif.Props.Loda
import Verif.Props.Inqmad
import Verif.Props.HalfSpaceTrees
import Verif.Props.RelativeEntropy

/-! **C202.** Which way a scale points does not matter: if the features are negated, scores stay the
same. -/

namespace Pysad

open Spec

namespace Mirror

section lists
variable {K : Type*} [Field K] [LinearOrder K] [IsStrictOrderedRing K]

theorem sort_mirror (b : K) (m : Multiset K) :
    (m.map fun v => b - v).sort (· ≤ ·) = ((m.sort (· ≤ ·)).map fun v => b - v).reverse := by
  refine List.Perm.eq_of_pairwise' (r := (· ≤ ·)) (Multiset.pairwise_sort _ _) ?_ ?_
  · rw [List.pairwise_reverse, List.pairwise_map]
    exact (Multiset.pairwise_sort m (· ≤ ·)).imp fun h => sub_le_sub_left h b
  · rw [← Multiset.coe_eq_coe, Multiset.sort_eq, Multiset.coe_reverse, ← Multiset.map_coe,
      Multiset.sort_eq]

theorem medianOf_mirror (b : K) (m : Multiset K) :
    medianOf (m.map fun v => b - v) = (medianOf m).map fun v => b - v := by
  unfold medianOf
  rw [sort_mirror]
  generalize m.sort (· ≤ ·) = l
  simp only [List.length_reverse, List.length_map]
  rcases Nat.eq_zero_or_pos l.length with h0 | h0
  · rw [List.length_eq_zero_iff] at h0
    subst h0
    rfl
  · split
    · rename_i h
      rw [List.getElem?_reverse (by rw [List.length_map]; omega), List.length_map,
        List.getElem?_map, show l.length - 1 - l.length / 2 = l.length / 2 by omega]
    · rename_i h
      rw [List.getElem?_reverse (by rw [List.length_map]; omega),
        List.getElem?_reverse (by rw [List.length_map]; omega), List.length_map,
        List.getElem?_map, List.getElem?_map,
        show l.length - 1 - (l.length / 2 - 1) = l.length / 2 by omega,
        show l.length - 1 - l.length / 2 = l.length / 2 - 1 by omega]
      cases l[l.length / 2 - 1]? with
      | none => cases l[l.length / 2]? <;> rfl
      | some u =>
        cases l[l.length / 2]? with
        | none => rfl
        | some v => simp only [Option.map_some]; congr 1; ring

theorem runningDeviations_mirror {xs ds : List K} (b : K) (h : RunningDeviations xs ds) :
    RunningDeviations (xs.map fun v => b - v) ds := by
  refine ⟨by simpa using h.1, fun i x hx => ?_⟩
  rw [List.getElem?_map] at hx
  obtain ⟨v, hv, rfl⟩ := Option.map_eq_some_iff.1 hx
  obtain ⟨m, h1, h2⟩ := h.2 i v hv
  refine ⟨b - m, ?_, ?_⟩
  · rw [← List.map_take, ← Multiset.map_coe, medianOf_mirror, h1]
    rfl
  · rw [h2, show b - v - (b - m) = -(v - m) by ring, abs_neg]

theorem meanOf_mirror (b : K) {l : List K} (hl : l ≠ []) :
    meanOf ((l.map fun v => b - v : List K) : Multiset K) = b - meanOf (l : Multiset K) := by
  have h : (l.length : K) ≠ 0 := by
    exact_mod_cast fun h => hl (List.length_eq_zero_iff.1 h)
  have hs : (l.map fun v => b - v).sum = l.length * b - l.sum := by
    induction l with
    | nil => simp
    | cons x l ih =>
      rcases eq_or_ne l [] with rfl | hl'
      · simp
      · rw [List.map_cons, List.sum_cons, ih hl' (by
          exact_mod_cast fun h => hl' (List.length_eq_zero_iff.1 h)), List.sum_cons,
          List.length_cons]
        push_cast
        ring
  unfold meanOf
  rw [Multiset.sum_coe, Multiset.sum_coe, Multiset.coe_card, Multiset.coe_card, List.length_map, hs]
  field_simp

theorem varianceOf_mirror (b : K) {l : List K} (hl : l ≠ []) :
    varianceOf ((l.map fun v => b - v : List K) : Multiset K) = varianceOf (l : Multiset K) := by
  unfold varianceOf
  rw [meanOf_mirror b hl]
  simp only [Multiset.map_coe, Multiset.coe_card, List.length_map, List.map_map]
  congr 2
  refine congrArg _ (List.map_congr_left fun v _ => ?_)
  simp only [Function.comp_apply]
  ring

end lists

end Mirror

open Mirror

/-! ### The deviation detectors -/

section
variable {K : Type*} [Field K] [LinearOrder K] [IsStrictOrderedRing K] {β : Type*}

/-- The scores of the mirrored data: the same ones, or with the opposite signs if signs are kept. -/
def Spec.mirroredScores {K : Type*} [Neg K] (absolute : Bool) (vs : List K) : List K :=
  if absolute then vs else vs.map fun v => -v

private theorem mirrored_scores (absolute : Bool) (b m D : K) (X : List K) :
    (X.map fun x => b - x).map (fun x => (if absolute then |(x - (b - m)) / D| else (x - (b - m)) / D)) =
    mirroredScores absolute (X.map fun x => if absolute then |(x - m) / D| else (x - m) / D) := by
  have h : ∀ x : K, (b - x - (b - m)) / D = -((x - m) / D) := fun x => by ring
  unfold mirroredScores
  cases absolute
  · simp only [List.map_map, Function.comp_def, h, Bool.false_eq_true, if_false]
  · simp only [List.map_map, Function.comp_def, h, abs_neg, if_true]

/-- **C202.** MedianAbsoluteDeviation: if every value `v` is replaced by `b - v`, the scores are the
same (with the opposite signs if `absolute` is off). -/
theorem C202_mad (k : K) (hk : 0 ≤ k) (absolute : Bool) (b : K) (cs : List (Call (List K) β))
    (hne : univariate (fitted cs) ≠ []) (X : List K) :
    let d := medianAbsoluteDeviation (β := β) (K := K)
    let mirror := List.map fun v : K => b - v
    ∃ vs : List K,
      (d.scorePartial (calls d (MadState.new absolute k) cs).2 X).out = .ok (vs.map .fin) ∧
      (d.scorePartial (calls d (MadState.new absolute k) (cs.map (Call.on mirror))).2
        (mirror X)).out = .ok ((mirroredScores absolute vs).map .fin) := by
  intro d mirror
  have hu : univariate (fitted (cs.map (Call.on mirror))) =
      (univariate (fitted cs)).map fun v => b - v := by rw [fitted_on, univariate_map]
  have hne' : univariate (fitted (cs.map (Call.on mirror))) ≠ [] := by rw [hu]; simpa using hne
  obtain ⟨m, ds, mad, h1, h2, h3, h4⟩ := C67_mad_score k hk absolute cs hne X
  obtain ⟨m', ds', mad', h1', h2', h3', h4'⟩ := C67_mad_score k hk absolute _ hne' (mirror X)
  rw [hu, ← Multiset.map_coe, medianOf_mirror, h1] at h1'
  obtain rfl : b - m = m' := Option.some.inj h1'
  rw [hu] at h2'
  obtain rfl := runningDeviations_unique (runningDeviations_mirror b h2) h2'
  obtain rfl : mad = mad' := Option.some.inj (h3.symm.trans h3')
  refine ⟨X.map fun x => if absolute then |(x - m) / (k * mad + 1 / 10 ^ 10)|
    else (x - m) / (k * mad + 1 / 10 ^ 10), by rw [h4, List.map_map]; rfl, ?_⟩
  rw [h4', ← mirrored_scores absolute b]
  simp only [mirror, List.map_map]
  rfl

/-- **C202.** StandardAbsoluteDeviation: the same with the mean ... -/
theorem C202_sad_mean (absolute : Bool) (b : ℝ) (cs : List (Call (List ℝ) β))
    (hne : univariate (fitted cs) ≠ []) (X : List ℝ) :
    let d := standardAbsoluteDeviation (β := β) Real.sqrt (averageMeter ℝ)
    let mirror := List.map fun v : ℝ => b - v
    ∃ vs : List ℝ,
      (d.scorePartial (calls d (SadState.new (averageMeter ℝ) absolute) cs).2 X).out =
        .ok (vs.map .fin) ∧
      (d.scorePartial (calls d (SadState.new (averageMeter ℝ) absolute) (cs.map (Call.on mirror))).2
        (mirror X)).out = .ok ((mirroredScores absolute vs).map .fin) := by
  intro d mirror
  have hu : univariate (fitted (cs.map (Call.on mirror))) =
      (univariate (fitted cs)).map fun v => b - v := by rw [fitted_on, univariate_map]
  have hne' : univariate (fitted (cs.map (Call.on mirror))) ≠ [] := by rw [hu]; simpa using hne
  refine ⟨X.map fun x => if absolute then
      |(x - meanOf (K := ℝ) (univariate (fitted cs))) /
        (Real.sqrt (varianceOf (K := ℝ) (univariate (fitted cs))) + 1 / 10 ^ 10)|
    else (x - meanOf (K := ℝ) (univariate (fitted cs))) /
      (Real.sqrt (varianceOf (K := ℝ) (univariate (fitted cs))) + 1 / 10 ^ 10),
    by rw [C68_sad_mean absolute cs hne X, List.map_map]; rfl, ?_⟩
  rw [C68_sad_mean absolute _ hne' (mirror X), hu, meanOf_mirror b hne, varianceOf_mirror b hne,
    ← mirrored_scores absolute b]
  simp only [mirror, List.map_map]
  rfl

/-- **C202.** ... and with the median. -/
theorem C202_sad_median (absolute : Bool) (b : ℝ) (cs : List (Call (List ℝ) β))
    (hne : univariate (fitted cs) ≠ []) (X : List ℝ) :
    let d := standardAbsoluteDeviation (β := β) Real.sqrt (medianMeter ℝ)
    let mirror := List.map fun v : ℝ => b - v
    ∃ vs : List ℝ,
      (d.scorePartial (calls d (SadState.new (medianMeter ℝ) absolute) cs).2 X).out =
        .ok (vs.map .fin) ∧
      (d.scorePartial (calls d (SadState.new (medianMeter ℝ) absolute) (cs.map (Call.on mirror))).2
        (mirror X)).out = .ok ((mirroredScores absolute vs).map .fin) := by
  intro d mirror
  have hu : univariate (fitted (cs.map (Call.on mirror))) =
      (univariate (fitted cs)).map fun v => b - v := by rw [fitted_on, univariate_map]
  have hne' : univariate (fitted (cs.map (Call.on mirror))) ≠ [] := by rw [hu]; simpa using hne
  obtain ⟨m, h1, h2⟩ := C68_sad_median absolute cs hne X
  obtain ⟨m', h1', h2'⟩ := C68_sad_median absolute _ hne' (mirror X)
  rw [hu, ← Multiset.map_coe, medianOf_mirror, h1] at h1'
  obtain rfl : b - m = m' := Option.some.inj h1'
  refine ⟨X.map fun x => if absolute then
      |(x - m) / (Real.sqrt (varianceOf (K := ℝ) (univariate (fitted cs))) + 1 / 10 ^ 10)|
    else (x - m) / (Real.sqrt (varianceOf (K := ℝ) (univariate (fitted cs))) + 1 / 10 ^ 10),
    by rw [h2, List.map_map]; rfl, ?_⟩
  rw [h2', hu, varianceOf_mirror b hne, ← mirrored_scores absolute b]
  simp only [mirror, List.map_map]
  rfl

end

/-! ### `ExactStorm` -/

/-- Some of the features read in the opposite direction: `turned i` says whether the `i`-th one
is. -/
def Spec.turn {n : ℕ} {K : Type*} [Neg K] (turned : Fin n → Bool) (x : Fin n → K) : Fin n → K :=
  fun i => if turned i then -x i else x i

/-- **C202.** ExactStorm: whichever features are turned, all answers are the same. -/
theorem C202_storm {β : Type*} {n : ℕ} (turned : Fin n → Bool) (w : ℕ) (r : ℝ)
    (cs : List (Call (Fin n → ℝ) β)) :
    (calls (exactStorm euclid) (StormState.new w r) (cs.map (Call.on (turn turned)))).1 =
      (calls (exactStorm euclid) (StormState.new w r) cs).1 := by
  refine C105_storm_units euclid euclid (turn turned) w r r (fun x z => ?_) cs
  have : euclid (turn turned x) (turn turned z) = euclid x z := by
    unfold euclid turn
    congr 1
    refine Finset.sum_congr rfl fun i _ => ?_
    split
    · ring
    · rfl
  rw [this]

/-! ### `Inqmad` -/

/-- The same draws with the weights of the turned features negated. (The weights are normal with
mean 0, so these draws are as likely as the given ones.) -/
def Spec.turnInqmad {K : Type*} [Neg K] {n d : ℕ} (turned : Fin n → Bool) (env : InqEnv K n d) :
    InqEnv K n d :=
  { env with weights := fun i k => if turned i then -env.weights i k else env.weights i k }

/-- **C202.** Inqmad: whichever features are turned, all answers are those with the turned draws. -/
theorem C202_inqmad {K β : Type*} [Field K] {n d : ℕ} (turned : Fin n → Bool) (env : InqEnv K n d)
    (batchSize : ℕ) (cs : List (Call (Fin n → K) β)) :
    (calls (Inqmad.detector (turnInqmad turned env)) (Inqmad.new batchSize)
      (cs.map (Call.on (turn turned)))).1 =
      (calls (Inqmad.detector env) (Inqmad.new batchSize) cs).1 := by
  have hf : ∀ x, Inqmad.feature (turnInqmad turned env) (turn turned x) = Inqmad.feature env x := by
    intro x
    have hc : Inqmad.compute (turnInqmad turned env) (turn turned x) = Inqmad.compute env x := by
      funext k
      unfold Inqmad.compute turnInqmad turn
      have : ∀ i, (if turned i then -x i else x i) *
          (if turned i then -env.weights i k else env.weights i k) = x i * env.weights i k := by
        intro i
        split
        · ring
        · rfl
      simp only [this]
    unfold Inqmad.feature
    rw [hc]
    rfl
  refine answers_of_sim (turn turned) (fun s t => t = s) ?_ _ _ rfl cs
  rintro s t c h
  subst h
  cases c with
  | fit x y =>
    have : (Inqmad.detector (β := β) (turnInqmad turned env)).fitPartial t (turn turned x) y =
        (Inqmad.detector env).fitPartial t x y := by
      simp only [Inqmad.detector, Inqmad.fitPartial, Inqmad.computeTraining, hf]
    simp [call, Call.on, this]
  | score x =>
    have : (Inqmad.detector (β := β) (turnInqmad turned env)).scorePartial t (turn turned x) =
        (Inqmad.detector (β := β) env).scorePartial t x := by
      simp only [Inqmad.detector, Inqmad.scorePartial, hf]
    simp [call, Call.on, this]

/-! ### `KNNCAD` -/

section
variable {K : Type*} [Field K] [LinearOrder K] {β : Type*}

private def negAll {K : Type*} [Field K] (l : List K) : List K := l.map fun v => -v

omit [LinearOrder K] in
private theorem negAll_length (l : List K) : (negAll l).length = l.length := List.length_map _

omit [LinearOrder K] in
private theorem gram_negAll (tr : List (List K)) :
    KnnCad.gram (tr.map negAll) = KnnCad.gram tr := by
  have h : ∀ (t : List K) i, (negAll t).getD i 0 = -t.getD i 0 := by
    intro t i
    simp only [negAll, List.getD_eq_getElem?_getD, List.getElem?_map]
    cases t[i]? <;> simp
  unfold KnnCad.gram
  simp only [List.map_map, Function.comp_def, h, neg_mul_neg]

omit [LinearOrder K] in
private theorem dot_neg_left (a b : List K) : KnnCad.dot (negAll a) b = -KnnCad.dot a b := by
  unfold KnnCad.dot negAll
  induction a generalizing b with
  | nil => simp
  | cons x a ih =>
    cases b with
    | nil => simp
    | cons y b =>
      simp only [List.map_cons, List.zipWith_cons_cons, List.sum_cons, ih]
      ring

omit [LinearOrder K] in
private theorem dot_neg_both (a b : List K) : KnnCad.dot (negAll a) (negAll b) = KnnCad.dot a b := by
  unfold KnnCad.dot negAll
  induction a generalizing b with
  | nil => simp
  | cons x a ih =>
    cases b with
    | nil => simp
    | cons y b =>
      simp only [List.map_cons, List.zipWith_cons_cons, List.sum_cons, ih]
      ring

omit [LinearOrder K] in
private theorem metric_negAll (sigma : List (List K)) (a b : List K) :
    KnnCad.metric sigma (negAll a) (negAll b) = KnnCad.metric sigma a b := by
  have hd : List.zipWith (· - ·) (negAll a) (negAll b) = negAll (List.zipWith (· - ·) a b) := by
    unfold negAll
    induction a generalizing b with
    | nil => simp
    | cons x a ih =>
      cases b with
      | nil => simp
      | cons y b =>
        simp only [List.map_cons, List.zipWith_cons_cons, ih]
        congr 1
        ring
  unfold KnnCad.metric
  simp only [hd, dot_neg_left]
  rw [← dot_neg_both ((List.range KnnCad.dim).map _)]
  simp only [negAll, List.map_map, Function.comp_def, neg_neg, List.map_id']

private theorem ncm_negAll (sigma tr : List (List K)) (item : List K) (inArray : Bool) :
    KnnCad.ncm sigma (tr.map negAll) (negAll item) inArray = KnnCad.ncm sigma tr item inArray := by
  unfold KnnCad.ncm
  simp only [List.map_map, Function.comp_def, metric_negAll]

private theorem ncmAll_negAll (sigma tr : List (List K)) :
    KnnCad.ncmAll sigma (tr.map negAll) = KnnCad.ncmAll sigma tr := by
  unfold KnnCad.ncmAll
  rw [List.mapM_map]
  simp only [Function.comp_def, ncm_negAll]

omit [LinearOrder K] in
private theorem newItem_negAll (buf : List K) :
    KnnCad.newItem (negAll buf) = negAll (KnnCad.newItem buf) := by
  unfold KnnCad.newItem
  rw [negAll_length, negAll, negAll, List.map_drop]

private def negState {K : Type*} [Field K] (s : KnnCadState K) : KnnCadState K :=
  { s with
    buf := negAll s.buf
    training := s.training.map negAll
    calibration := s.calibration.map negAll }

/-- The same result with a mirrored state left behind. -/
private def negRes {K : Type*} [Field K] {A : Type*} : Res (KnnCadState K) A → Res (KnnCadState K) A
  | .ok a s => .ok a (negState s)
  | .err e s => .err e (negState s)

omit [LinearOrder K] in
private theorem rotate_neg (s : KnnCadState K) (item : List K) (v : K) :
    KnnCad.rotate (negState s) (negAll item) v = negRes (KnnCad.rotate s item v) := by
  obtain ⟨buf, tr, cal, sc, rc, pred, sigma, P⟩ := s
  unfold KnnCad.rotate negState
  simp only
  split
  · cases tr with
    | nil => rfl
    | cons t tr =>
      cases cal with
      | nil => rfl
      | cons c cal =>
        cases sc with
        | nil => simp [negRes, negState]
        | cons u sc => simp [negRes, negState]
  · cases sc with
    | nil => rfl
    | cons u sc => simp [negRes, negState]

private theorem monitor_neg (inv : List (List K) → Option (List (List K))) (s : KnnCadState K)
    (sigma : List (List K)) :
    KnnCad.monitor inv (negState s) sigma = negRes (KnnCad.monitor inv s sigma) := by
  have h1 : KnnCad.newSigma inv (negState s) sigma = KnnCad.newSigma inv s sigma := by
    simp only [KnnCad.newSigma, negState, gram_negAll]
  have h2 : ∀ sg, KnnCad.initScores { negState s with sigma := some sg } sg =
      KnnCad.initScores { s with sigma := some sg } sg := by
    intro sg
    simp only [KnnCad.initScores, negState, ncmAll_negAll]
  unfold KnnCad.monitor
  by_cases hP : s.probationaryPeriod = 0
  · rw [if_pos hP, if_pos (show (negState s).probationaryPeriod = 0 from hP)]
    rfl
  · rw [if_neg hP, if_neg (show ¬ (negState s).probationaryPeriod = 0 from hP)]
    simp only [h1, h2]
    cases KnnCad.initScores { s with sigma := some (KnnCad.newSigma inv s sigma) }
        (KnnCad.newSigma inv s sigma) with
    | error e => rfl
    | ok sc =>
      simp only
      have h3 : KnnCad.ncm (KnnCad.newSigma inv s sigma) (negState s).training
          (KnnCad.newItem (negState s).buf) false =
          KnnCad.ncm (KnnCad.newSigma inv s sigma) s.training (KnnCad.newItem s.buf) false := by
        show KnnCad.ncm _ (s.training.map negAll) (KnnCad.newItem (negAll s.buf)) false = _
        rw [newItem_negAll, ncm_negAll]
      rw [h3]
      cases KnnCad.ncm (KnnCad.newSigma inv s sigma) s.training (KnnCad.newItem s.buf) false with
      | error e => rfl
      | ok v =>
        show KnnCad.rotate _ (KnnCad.newItem (negAll s.buf)) v = _
        rw [newItem_negAll]
        exact rotate_neg { s with sigma := some (KnnCad.newSigma inv s sigma), scores := sc } _ v

private theorem knncad_fit_neg (inv : List (List K) → Option (List (List K))) (s : KnnCadState K)
    (x : List K) :
    KnnCad.fitPartial inv (negState s) (negAll x) = negRes (KnnCad.fitPartial inv s x) := by
  cases x with
  | nil => rfl
  | cons v x =>
    have hb : negAll s.buf ++ [-v] = negAll (s.buf ++ [v]) := by simp [negAll]
    unfold KnnCad.fitPartial
    simp only [negAll, List.map_cons]
    show (if (negAll s.buf ++ [-v]).length < KnnCad.dim then _ else _) = _
    rw [hb, negAll_length]
    split
    · simp [negRes, negState, negAll]
    · show (if s.recordCount + 1 < s.probationaryPeriod then _ else _) = _
      split
      · simp [negRes, negState, negAll, KnnCad.newItem, List.map_drop]
      · rw [← monitor_neg]
        simp [negState, negAll]

private theorem knncad_score_neg (s : KnnCadState K) :
    KnnCad.scorePartial (negState s) = negRes (KnnCad.scorePartial s) := by
  obtain ⟨buf, tr, cal, sc, rc, pred, sigma, P⟩ := s
  unfold KnnCad.scorePartial negState
  simp only [negAll_length, newItem_negAll, ncm_negAll]
  cases sigma with
  | none => rfl
  | some sigma =>
    simp only
    split
    · rfl
    · cases KnnCad.ncm sigma tr (KnnCad.newItem buf) false with
      | error e => rfl
      | ok v =>
        simp only
        split
        · rfl
        · split
          · rfl
          · split <;> rfl

/-- **C202.** KNNCAD: if all values are negated, all answers are the same. -/
theorem C202_knncad (inv : List (List K) → Option (List (List K))) (P : ℕ)
    (cs : List (Call (List K) β)) :
    (calls (KnnCad.detector inv) (KnnCad.new P) (cs.map (Call.on (List.map fun v => -v)))).1 =
      (calls (KnnCad.detector inv) (KnnCad.new P) cs).1 := by
  refine answers_of_sim (List.map fun v => -v) (fun s t => t = negState s) ?_ _ _ rfl cs
  rintro s t c rfl
  cases c with
  | fit x y =>
    have h : (KnnCad.detector (β := β) inv).fitPartial (negState s) (x.map fun v => -v) y =
        negRes ((KnnCad.detector inv).fitPartial s x y) := knncad_fit_neg inv s x
    simp only [call, Call.on, h]
    cases (KnnCad.detector inv).fitPartial s x y <;> exact ⟨rfl, rfl⟩
  | score x =>
    have h : (KnnCad.detector (β := β) inv).scorePartial (negState s) (x.map fun v => -v) =
        negRes ((KnnCad.detector (β := β) inv).scorePartial s x) := knncad_score_neg s
    simp only [call, Call.on, h]
    cases (KnnCad.detector (β := β) inv).scorePartial s x <;> exact ⟨rfl, rfl⟩

/-! ### `LODA` -/

/-- The same random draws with all projections negated. (They are normal with mean 0, so these
draws are as likely as the given ones.) -/
def Spec.turnLoda {G K : Type*} [Neg K] (rng : LodaRng G K) : LodaRng G K :=
  { rng with randn := fun g r c =>
      ((rng.randn g r c).1.map (List.map fun v => -v), (rng.randn g r c).2) }

private def negCut (c : LodaCut K) : LodaCut K := { c with projection := negAll c.projection }

private def negLoda {G : Type*} (s : LodaState G K) : LodaState G K :=
  { s with arrays := s.arrays.map fun p => (p.1, p.2.map negCut) }

omit [LinearOrder K] in
private theorem zeroAt_neg (rands : List ℕ) (p : List K) :
    Loda.zeroAt rands (negAll p) = negAll (Loda.zeroAt rands p) := by
  unfold Loda.zeroAt negAll
  apply List.ext_getElem?
  intro j
  simp only [List.getElem?_mapIdx, List.getElem?_map, Option.map_map]
  congr 1
  funext v
  simp only [Function.comp_apply]
  split <;> simp

omit [LinearOrder K] in
private theorem project_neg (p x : List K) :
    Loda.project (negAll p) (negAll x) = Loda.project p x := by
  have h := dot_neg_both p x
  unfold KnnCad.dot at h
  unfold Loda.project
  rw [negAll_length, negAll_length, h]

private theorem refit_neg (nBins : ℕ) (c : LodaCut K) (v : K) :
    Loda.refit nBins (negCut c) v = (Loda.refit nBins c v).map negCut := by
  unfold Loda.refit
  cases npHistogram [v] nBins <;> rfl

private theorem fitCuts_neg {G : Type*} (rng : LodaRng G K) (nBins d : ℕ) (x : List K) (g : G)
    (cs : List (LodaCut K)) :
    Loda.fitCuts (turnLoda rng) nBins d (negAll x) g (cs.map negCut) =
      (Loda.fitCuts rng nBins d x g cs).mapState fun p => (p.1, p.2.map negCut) := by
  induction cs generalizing g with
  | nil => rfl
  | cons c cs ih =>
    have hp : (turnLoda rng).permutation = rng.permutation := rfl
    simp only [List.map_cons, Loda.fitCuts, hp]
    have hc : (negCut c).projection = negAll c.projection := rfl
    rw [hc, zeroAt_neg]
    generalize hz : Loda.zeroAt (List.take (d - d.sqrt) (rng.permutation g d).1) c.projection = z
    have h1 : ({ negCut c with projection := negAll z } : LodaCut K) =
        negCut { c with projection := z } := rfl
    simp only [h1, project_neg]
    cases Loda.project z x with
    | error e => rfl
    | ok v =>
      simp only [Except.bind]
      rw [refit_neg]
      cases Loda.refit nBins { c with projection := z } v with
      | error e => rfl
      | ok c' =>
        simp only [Except.map]
        rw [ih]
        cases Loda.fitCuts rng nBins d x (rng.permutation g d).2 cs <;> rfl

private theorem loda_fit_neg {G : Type*} (rng : LodaRng G K) (s : LodaState G K) (x : List K) :
    Loda.fitPartial (turnLoda rng) (negLoda s) (negAll x) =
      (Loda.fitPartial rng s x).mapState negLoda := by
  obtain ⟨g, nBins, nCuts, arrays⟩ := s
  unfold Loda.fitPartial negLoda
  cases arrays with
  | some p =>
    simp only [Option.map_some, fitCuts_neg]
    cases Loda.fitCuts rng nBins p.1 x g p.2 <;> rfl
  | none =>
    simp only [Option.map_none, negAll_length]
    have h : ((turnLoda rng).randn g nCuts x.length).1.map (fun r =>
        (⟨r, List.replicate nBins 0, List.replicate (nBins + 1) 0⟩ : LodaCut K)) =
        ((rng.randn g nCuts x.length).1.map (fun r =>
          (⟨r, List.replicate nBins 0, List.replicate (nBins + 1) 0⟩ : LodaCut K))).map negCut := by
      simp only [turnLoda, List.map_map]
      rfl
    rw [h, fitCuts_neg]
    show Res.mapState _ (Res.mapState _ (Loda.fitCuts rng nBins x.length x
      (rng.randn g nCuts x.length).2 _)) = _
    cases Loda.fitCuts rng nBins x.length x (rng.randn g nCuts x.length).2 _ <;> rfl

private theorem loda_score_neg {G : Type*} (log : K → Num K) (s : LodaState G K) (x : List K) :
    Loda.scorePartial log (negLoda s) (negAll x) =
      (Loda.scorePartial log s x).mapState negLoda := by
  obtain ⟨g, nBins, nCuts, arrays⟩ := s
  unfold Loda.scorePartial negLoda
  cases arrays with
  | none => simp only [Option.map_none]; split <;> rfl
  | some p =>
    have h : ∀ (cs : List (LodaCut K)) a,
        (cs.map negCut).foldlM (Loda.scoreCut log nBins nCuts (negAll x)) a =
        cs.foldlM (Loda.scoreCut log nBins nCuts x) a := by
      intro cs
      have hs : ∀ a c, Loda.scoreCut log nBins nCuts (negAll x) a (negCut c) =
          Loda.scoreCut log nBins nCuts x a c := by
        intro a c
        unfold Loda.scoreCut
        show (Loda.project (negAll c.projection) (negAll x)).bind _ = _
        rw [project_neg]
        rfl
      induction cs with
      | nil => intro a; rfl
      | cons c cs ih =>
        intro a
        simp only [List.map_cons, List.foldlM_cons, hs]
        cases Loda.scoreCut log nBins nCuts x a c with
        | error e => rfl
        | ok b => exact ih b
    simp only [Option.map_some, h]
    cases p.2.foldlM (Loda.scoreCut log nBins nCuts x) (.fin 0) <;> rfl

/-- **C202.** LODA: if all features are negated, all answers are those with the negated draws. -/
theorem C202_loda {G : Type*} (rng : LodaRng G K) (log : K → Num K) (g : G) (numBins numCuts : ℕ)
    (cs : List (Call (List K) β)) :
    (calls (Loda.detector (turnLoda rng) log) (Loda.new g numBins numCuts)
      (cs.map (Call.on (List.map fun v => -v)))).1 =
      (calls (Loda.detector rng log) (Loda.new g numBins numCuts) cs).1 := by
  refine answers_of_sim (List.map fun v => -v) (fun s t => t = negLoda s) ?_ _ _ rfl cs
  rintro s t c rfl
  cases c with
  | fit x y =>
    have h : (Loda.detector (β := β) (turnLoda rng) log).fitPartial (negLoda s)
        (x.map fun v => -v) y = ((Loda.detector rng log).fitPartial s x y).mapState negLoda :=
      loda_fit_neg rng s x
    simp only [call, Call.on, h]
    cases (Loda.detector rng log).fitPartial s x y <;> exact ⟨rfl, rfl⟩
  | score x =>
    have h : (Loda.detector (β := β) (turnLoda rng) log).scorePartial (negLoda s)
        (x.map fun v => -v) =
        ((Loda.detector (β := β) rng log).scorePartial s x).mapState negLoda :=
      loda_score_neg log s x
    simp only [call, Call.on, h]
    cases (Loda.detector (β := β) rng log).scorePartial s x <;> exact ⟨rfl, rfl⟩

end

/-! ### `HalfSpaceTrees` -/

section
variable {K : Type*} [Field K] [LinearOrder K] [IsStrictOrderedRing K] {β : Type*}

/-- The tree for the negated features: at every node the half-spaces are exchanged. -/
def Spec.turnTree {K : Type*} [Neg K] : HsTree K → HsTree K
  | .nil => .nil
  | .node l r rMass lMass q p k => .node (turnTree r) (turnTree l) rMass lMass q (-p) k

/-- The instance does not lie on any border between two half-spaces of the tree. -/
def Spec.OffBorders {K : Type*} (x : List K) : HsTree K → Prop
  | .nil => True
  | .node l r _ _ q p _ => ((l = .nil ∧ r = .nil) ∨ x[q]? ≠ some p) ∧ OffBorders x l ∧ OffBorders x r

/-- The same object with all trees turned. -/
def Spec.turnHst {K : Type*} [Neg K] (s : HstState K) : HstState K :=
  { s with roots := s.roots.map turnTree }

private theorem turn_lt {p v : K} (h : v ≠ p) : -p < -v ↔ ¬ p < v := by
  rw [neg_lt_neg_iff, not_lt]
  exact ⟨le_of_lt, fun h' => lt_of_le_of_ne h' h⟩

omit [LinearOrder K] [IsStrictOrderedRing K] in
private theorem getElem?_neg (x : List K) (q : ℕ) : (negAll x)[q]? = x[q]?.map fun v => -v := by
  simp [negAll]

private theorem updateMass_turn (D : ℕ) (x : List K) (b : Bool) (t : HsTree K)
    (h : OffBorders x t) :
    Hst.updateMass D (negAll x) b (turnTree t) = (Hst.updateMass D x b t).mapState turnTree := by
  induction t with
  | nil => rfl
  | node l r rM lM q p k ihl ihr =>
    obtain ⟨h1, h2, h3⟩ := h
    simp only [turnTree, Hst.updateMass, getElem?_neg]
    split
    · cases hq : x[q]? with
      | none => rfl
      | some v =>
        simp only [Option.map_some]
        rcases h1 with ⟨rfl, rfl⟩ | h1
        · simp only [turnTree, Hst.updateMass, Res.mapState, ite_self]
        · have hv : v ≠ p := fun h => h1 (by rw [hq, h])
          by_cases hp : p < v
          · rw [if_neg (by rw [turn_lt hv]; exact not_not.2 hp), if_pos hp, ihr h3]
            cases Hst.updateMass D x b r <;> rfl
          · rw [if_pos ((turn_lt hv).2 hp), if_neg hp, ihl h2]
            cases Hst.updateMass D x b l <;> rfl
    · rfl

private theorem scoreTree_turn (x : List K) (t : HsTree K) (h : OffBorders x t) :
    Hst.scoreTree (negAll x) (turnTree t) = Hst.scoreTree x t := by
  induction t with
  | nil => rfl
  | node l r rM lM q p k ihl ihr =>
    obtain ⟨h1, h2, h3⟩ := h
    simp only [turnTree, Hst.scoreTree, getElem?_neg]
    cases hq : x[q]? with
    | none => rfl
    | some v =>
      simp only [Option.map_some]
      rcases h1 with ⟨rfl, rfl⟩ | h1
      · simp only [turnTree, Hst.scoreTree, ite_self]
      · have hv : v ≠ p := fun h => h1 (by rw [hq, h])
        by_cases hp : p < v
        · rw [if_neg (by rw [turn_lt hv]; exact not_not.2 hp), if_pos hp, ihr h3]
        · rw [if_pos ((turn_lt hv).2 hp), if_neg hp, ihl h2]

omit [Field K] [IsStrictOrderedRing K] in
/-- The tree left behind has the same borders. -/
private theorem offBorders_updateMass (D : ℕ) (x y : List K) (b : Bool) (t : HsTree K)
    (h : OffBorders y t) :
    ((Hst.updateMass D x b t).state = .nil ↔ t = .nil) ∧
      OffBorders y (Hst.updateMass D x b t).state := by
  induction t with
  | nil => exact ⟨Iff.rfl, trivial⟩
  | node l r rM lM q p k ihl ihr =>
    obtain ⟨h1, h2, h3⟩ := h
    simp only [Hst.updateMass]
    split
    · cases x[q]? with
      | none => exact ⟨by simp [Res.state], h1, h2, h3⟩
      | some v =>
        simp only
        split
        · obtain ⟨i1, i2⟩ := ihr h3
          cases hr : Hst.updateMass D x b r with
          | ok u t' =>
            rw [hr] at i1 i2
            exact ⟨by simp [Res.mapState, Res.state],
              h1.imp (fun h => ⟨h.1, i1.2 h.2⟩) id, h2, i2⟩
          | err e t' =>
            rw [hr] at i1 i2
            exact ⟨by simp [Res.mapState, Res.state],
              h1.imp (fun h => ⟨h.1, i1.2 h.2⟩) id, h2, i2⟩
        · obtain ⟨i1, i2⟩ := ihl h2
          cases hl : Hst.updateMass D x b l with
          | ok u t' =>
            rw [hl] at i1 i2
            exact ⟨by simp [Res.mapState, Res.state],
              h1.imp (fun h => ⟨i1.2 h.1, h.2⟩) id, i2, h3⟩
          | err e t' =>
            rw [hl] at i1 i2
            exact ⟨by simp [Res.mapState, Res.state],
              h1.imp (fun h => ⟨i1.2 h.1, h.2⟩) id, i2, h3⟩
    · exact ⟨by simp [Res.state], h1, h2, h3⟩

omit [LinearOrder K] [IsStrictOrderedRing K] in
private theorem updateModel_turn (t : HsTree K) :
    Hst.updateModel (turnTree t) = turnTree (Hst.updateModel t) := by
  induction t with
  | nil => rfl
  | node l r rM lM q p k ihl ihr => simp only [turnTree, Hst.updateModel, ihl, ihr]

omit [Field K] [LinearOrder K] [IsStrictOrderedRing K] in
private theorem offBorders_updateModel (y : List K) (t : HsTree K) (h : OffBorders y t) :
    OffBorders y (Hst.updateModel t) := by
  induction t with
  | nil => trivial
  | node l r rM lM q p k ihl ihr =>
    obtain ⟨h1, h2, h3⟩ := h
    refine ⟨h1.imp ?_ id, ihl h2, ihr h3⟩
    rintro ⟨rfl, rfl⟩
    exact ⟨rfl, rfl⟩

private theorem fitRoots_turn (D : ℕ) (x : List K) (b : Bool) (ts : List (HsTree K))
    (h : ∀ t ∈ ts, OffBorders x t) :
    Hst.fitRoots D (negAll x) b (ts.map turnTree) =
      (Hst.fitRoots D x b ts).mapState (List.map turnTree) := by
  induction ts with
  | nil => rfl
  | cons t ts ih =>
    simp only [List.map_cons, Hst.fitRoots, updateMass_turn D x b t (h t (by simp))]
    cases Hst.updateMass D x b t with
    | err e t' => rfl
    | ok u t' =>
      simp only [Res.mapState]
      rw [ih fun t ht => h t (List.mem_cons_of_mem _ ht)]
      cases Hst.fitRoots D x b ts <;> rfl

omit [Field K] [IsStrictOrderedRing K] in
private theorem offBorders_fitRoots (D : ℕ) (x y : List K) (b : Bool) (ts : List (HsTree K))
    (h : ∀ t ∈ ts, OffBorders y t) : ∀ t ∈ (Hst.fitRoots D x b ts).state, OffBorders y t := by
  induction ts with
  | nil => exact h
  | cons t ts ih =>
    have ht := (offBorders_updateMass D x y b t (h t (by simp))).2
    have hts : ∀ t ∈ ts, OffBorders y t := fun t ht => h t (List.mem_cons_of_mem _ ht)
    simp only [Hst.fitRoots]
    cases hu : Hst.updateMass D x b t with
    | err e t' =>
      rw [hu] at ht
      exact List.forall_mem_cons.2 ⟨ht, hts⟩
    | ok u t' =>
      rw [hu] at ht
      have := ih hts
      simp only
      cases hf : Hst.fitRoots D x b ts with
      | ok u ts' => rw [hf] at this; exact List.forall_mem_cons.2 ⟨ht, this⟩
      | err e ts' => rw [hf] at this; exact List.forall_mem_cons.2 ⟨ht, this⟩

private theorem hst_fit_turn (s : HstState K) (x : List K) (h : ∀ t ∈ s.roots, OffBorders x t) :
    Hst.fitPartial (turnHst s) (negAll x) = (Hst.fitPartial s x).mapState turnHst := by
  obtain ⟨w, D, roots, first, step⟩ := s
  unfold Hst.fitPartial turnHst
  simp only at h ⊢
  rw [fitRoots_turn D x first roots h]
  cases Hst.fitRoots D x first roots with
  | err e ts => rfl
  | ok u ts =>
    simp only [Res.mapState, Res.bind]
    split
    · rfl
    · split
      · simp [List.map_map, Function.comp_def, updateModel_turn]
      · rfl

omit [Field K] [IsStrictOrderedRing K] in
private theorem offBorders_fit (s : HstState K) (x y : List K) (h : ∀ t ∈ s.roots, OffBorders y t) :
    ∀ t ∈ (Hst.fitPartial s x).state.roots, OffBorders y t := by
  have h1 := offBorders_fitRoots s.maxDepth x y s.isFirstWindow s.roots h
  unfold Hst.fitPartial
  simp only
  cases hf : Hst.fitRoots s.maxDepth x s.isFirstWindow s.roots with
  | err e ts => rw [hf] at h1; exact h1
  | ok u ts =>
    rw [hf] at h1
    simp only [Res.mapState, Res.bind]
    split
    · exact h1
    · split
      · intro t ht
        obtain ⟨t', ht', rfl⟩ := List.mem_map.1 ht
        exact offBorders_updateModel y t' (h1 t' ht')
      · exact h1

private theorem hst_score_turn (s : HstState K) (x : List K) (h : ∀ t ∈ s.roots, OffBorders x t) :
    Hst.scorePartial (turnHst s) (negAll x) = (Hst.scorePartial s x).mapState turnHst := by
  have : ∀ (ts : List (HsTree K)) (a : K), (∀ t ∈ ts, OffBorders x t) →
      (ts.map turnTree).foldlM (fun acc t => (Hst.scoreTree (negAll x) t).map (acc + ·)) a =
      ts.foldlM (fun acc t => (Hst.scoreTree x t).map (acc + ·)) a := by
    intro ts
    induction ts with
    | nil => intro a _; rfl
    | cons t ts ih =>
      intro a ha
      simp only [List.map_cons, List.foldlM_cons, scoreTree_turn x t (ha t (by simp))]
      cases (Hst.scoreTree x t).map (a + ·) with
      | error e => rfl
      | ok v => exact ih v fun t ht => ha t (List.mem_cons_of_mem _ ht)
  have hr : (turnHst s).roots = s.roots.map turnTree := rfl
  unfold Hst.scorePartial
  rw [hr, this s.roots 0 h]
  cases s.roots.foldlM (fun acc t => (Hst.scoreTree x t).map (acc + ·)) 0 <;> rfl

/-- The instance of a call. -/
def Spec.calledWith {α β : Type*} : Call α β → α
  | .fit x _ => x
  | .score x => x

/-- **C202, partial: HalfSpaceTrees.** If all features are negated and the trees are turned, all
answers are the same, provided that no instance lies on a border between two half-spaces. Missing:
instances on borders, for which it is false (`C202_hst_refuted`). -/
theorem C202_hst_partial (s0 : HstState K) (cs : List (Call (List K) β))
    (h : ∀ c ∈ cs, ∀ t ∈ s0.roots, OffBorders (calledWith c) t) :
    (calls (Hst.detector K β) (turnHst s0) (cs.map (Call.on (List.map fun v => -v)))).1 =
      (calls (Hst.detector K β) s0 cs).1 := by
  induction cs generalizing s0 with
  | nil => rfl
  | cons c cs ih =>
    have hc := h c (by simp)
    have hcs : ∀ c ∈ cs, ∀ t ∈ s0.roots, OffBorders (calledWith c) t :=
      fun c hc => h c (List.mem_cons_of_mem _ hc)
    have key : (call (Hst.detector K β) (turnHst s0) (Call.on (List.map fun v => -v) c)).1 =
        (call (Hst.detector K β) s0 c).1 ∧
        (call (Hst.detector K β) (turnHst s0) (Call.on (List.map fun v => -v) c)).2 =
          turnHst (call (Hst.detector K β) s0 c).2 ∧
        ∀ c' ∈ cs, ∀ t ∈ (call (Hst.detector K β) s0 c).2.roots, OffBorders (calledWith c') t := by
      cases c with
      | fit x y =>
        have e1 : (Hst.detector K β).fitPartial (turnHst s0) (x.map fun v => -v) y =
            ((Hst.detector K β).fitPartial s0 x y).mapState turnHst := hst_fit_turn s0 x hc
        have e2 : ∀ c' ∈ cs, ∀ t ∈ ((Hst.detector K β).fitPartial s0 x y).state.roots,
            OffBorders (calledWith c') t := fun c' hc' => offBorders_fit s0 x _ (hcs c' hc')
        simp only [call, Call.on, e1]
        cases hf : (Hst.detector K β).fitPartial s0 x y with
        | ok u s' => rw [hf] at e2; exact ⟨rfl, rfl, e2⟩
        | err e s' => rw [hf] at e2; exact ⟨rfl, rfl, e2⟩
      | score x =>
        have e1 : (Hst.detector K β).scorePartial (turnHst s0) (x.map fun v => -v) =
            ((Hst.detector K β).scorePartial s0 x).mapState turnHst := hst_score_turn s0 x hc
        have e2 : ((Hst.detector K β).scorePartial s0 x).state = s0 := by
          show (Hst.scorePartial s0 x).state = s0
          unfold Hst.scorePartial
          split <;> rfl
        simp only [call, Call.on, e1]
        cases hf : (Hst.detector K β).scorePartial s0 x with
        | ok u s' =>
          rw [hf] at e2
          have e2 : s' = s0 := e2
          subst e2
          exact ⟨rfl, rfl, hcs⟩
        | err e s' =>
          rw [hf] at e2
          have e2 : s' = s0 := e2
          subst e2
          exact ⟨rfl, rfl, hcs⟩
    simp only [List.map_cons, calls, key.1, key.2.1, ih _ key.2.2]

omit [LinearOrder K] [IsStrictOrderedRing K] in
private theorem build_one {G : Type*} (randint : G → ℕ → ℕ × G) (h : ∀ g, (randint g 1).1 = 0)
    (rem k : ℕ) (lo hi : K) (g g' : G) : ∃ t g1 g2,
      Hst.build randint 1 rem k [lo] [hi] g = .ok (t, g1) ∧
      Hst.build randint 1 rem k [-hi] [-lo] g' = .ok (turnTree t, g2) := by
  induction rem generalizing k lo hi g g' with
  | zero => exact ⟨_, g, g', rfl, by simp [Hst.build, turnTree]⟩
  | succ rem ih =>
    simp only [Hst.build, h, one_ne_zero, if_false, List.getElem?_cons_zero, List.set_cons_zero]
    have hp : (-lo + -hi) / 2 = -((hi + lo) / 2) := by ring
    rw [hp]
    obtain ⟨tl, gl, _, hl, -⟩ := ih (k + 1) lo ((hi + lo) / 2) (randint g 1).2 (randint g 1).2
    obtain ⟨tr, _, gr', -, hr'⟩ := ih (k + 1) ((hi + lo) / 2) hi gl (randint g' 1).2
    obtain ⟨tr2, gr, _, hr, hr2⟩ := ih (k + 1) ((hi + lo) / 2) hi gl (randint g' 1).2
    rw [hr'] at hr2
    obtain ⟨tl2, _, gl', hl2, hl'⟩ := ih (k + 1) lo ((hi + lo) / 2) (randint g 1).2 gr'
    rw [hl] at hl2
    injection hl2 with hl2
    injection hl2 with hl2 _
    subst hl2
    injection hr2 with hr2
    injection hr2 with hr2 _
    simp only [hl, hr, hr', hl', hr2]
    exact ⟨_, _, _, rfl, rfl⟩

/-- **C202, partial: HalfSpaceTrees with one feature.** Then there is nothing to draw: the object
constructed with the negated bounds answers alike about the negated values, if no value lies on a
border. -/
theorem C202_hst_one_feature_partial {G : Type*} (randint : G → ℕ → ℕ × G)
    (hr : ∀ g, (randint g 1).1 = 0) (lo hi : K) (w n D : ℕ) (g g' : G) :
    ∃ s0 t0, Hst.new randint [lo] [hi] w n D g = .ok s0 ∧
      Hst.new randint [-hi] [-lo] w n D g' = .ok t0 ∧
      ∀ cs : List (Call (List K) β), (∀ c ∈ cs, ∀ t ∈ s0.roots, OffBorders (calledWith c) t) →
        (calls (Hst.detector K β) t0 (cs.map (Call.on (List.map fun v => -v)))).1 =
          (calls (Hst.detector K β) s0 cs).1 := by
  have key : ∀ (n : ℕ) (g g' : G), ∃ ts g1 g2, Hst.buildAll randint D [lo] [hi] n g = .ok (ts, g1) ∧
      Hst.buildAll randint D [-hi] [-lo] n g' = .ok (ts.map turnTree, g2) := by
    intro n
    induction n with
    | zero => exact fun g g' => ⟨[], _, _, rfl, rfl⟩
    | succ n ih =>
      intro g g'
      obtain ⟨t, g1, g2, h1, h2⟩ := build_one randint hr D 0 lo hi g g'
      obtain ⟨ts, g3, g4, h3, h4⟩ := ih g1 g2
      simp only [Hst.buildAll, List.length_singleton, h1, h2, h3, h4]
      exact ⟨_, _, _, rfl, rfl⟩
  obtain ⟨ts, g1, g2, h1, h2⟩ := key n g g'
  refine ⟨⟨w, D, ts, true, 0⟩, turnHst ⟨w, D, ts, true, 0⟩, ?_, ?_, fun cs hcs => C202_hst_partial _ cs hcs⟩
  · simp [Hst.new, h1]
  · simp [Hst.new, h2, turnHst]

/-- The claim of **C202** for HalfSpaceTrees with one feature. -/
def C202_hst_statement : Prop :=
  ∀ (lo hi : ℚ) (w n D : ℕ) (s0 t0 : HstState ℚ),
    Hst.new (fun (g : Unit) _ => (0, g)) [lo] [hi] w n D () = .ok s0 →
    Hst.new (fun (g : Unit) _ => (0, g)) [-hi] [-lo] w n D () = .ok t0 →
    ∀ cs : List (Call (List ℚ) Unit),
      (calls (Hst.detector ℚ Unit) t0 (cs.map (Call.on (List.map fun v => -v)))).1 =
        (calls (Hst.detector ℚ Unit) s0 cs).1

/-- **C202 is false of HalfSpaceTrees** for values on a border: with the bounds -1 and 1, the value 0
belongs to the lower half in both directions. -/
theorem C202_hst_refuted : ¬ C202_hst_statement := by
  intro h
  have := h (-1) 1 2 1 1 _ _ rfl rfl [.fit [1 / 2] none, .score [0]]
  revert this
  decide +kernel

/-- The claim of **C202** for RelativeEntropy: read from the other end of the range. -/
def C202_relent_statement : Prop :=
  ∀ (entropy : List (Num ℚ) → List (Num ℚ) → Num ℚ) (isf : ℤ → Num ℚ) (lo hi : ℚ) (n W : ℕ)
    (s0 : RelEntState ℚ), RelEnt.new isf lo hi n W = .ok s0 →
    (∀ p q, entropy p.reverse q.reverse = entropy p q) → ∀ cs : List (Call ℚ Unit),
      (calls (RelEnt.detector entropy) s0 (cs.map (Call.on fun v => lo + hi - v))).1 =
        (calls (RelEnt.detector entropy) s0 cs).1

/-- **C202 is false of RelativeEntropy**, even off the borders: the values of the two topmost bins are
counted as one, and the lowest bin stays empty. -/
theorem C202_relent_refuted : ¬ C202_relent_statement := by
  intro h
  have := h (fun p q => if p = q then .fin 0 else .fin 1) (fun _ => .fin 1) 0 3 3 1 _ rfl
    (fun p q => by simp) [.fit (1 / 2) none, .fit (3 / 2) none, .score 0]
  revert this
  decide +kernel

/-- `C202_hst_one_feature_partial` applies to the bounds -1 and 1 and the values 1/2 and 1/4. -/
example : ∃ s0 t0, Hst.new (fun (g : Unit) _ => (0, g)) [(-1 : ℚ)] [1] 2 1 1 () = .ok s0 ∧
    Hst.new (fun (g : Unit) _ => (0, g)) [(-1 : ℚ)] [- -1] 2 1 1 () = .ok t0 ∧
    (calls (Hst.detector ℚ Unit) t0 [.fit [-(1 / 2)] none, .score [-(1 / 4)]]).1 =
      (calls (Hst.detector ℚ Unit) s0 [.fit [1 / 2] none, .score [1 / 4]]).1 := by
  obtain ⟨s0, t0, h1, h2, h3⟩ := C202_hst_one_feature_partial (β := Unit)
    (fun (g : Unit) _ => (0, g)) (fun _ => rfl) (-1 : ℚ) 1 2 1 1 () ()
  refine ⟨s0, t0, h1, h2, h3 [.fit [1 / 2] none, .score [1 / 4]] ?_⟩
  injection h1 with h1
  subst h1
  intro c hc t ht
  simp only [List.mem_singleton] at ht
  subst ht
  simp only [List.mem_cons, List.not_mem_nil, or_false] at hc
  rcases hc with rfl | rfl
  · simp only [OffBorders, calledWith]
    norm_num
  · simp only [OffBorders, calledWith]
    norm_num

/-- `C202_mad` applies to the values 0, 2, 7. -/
example : univariate (fitted [(.fit [0] none : Call (List ℚ) Unit), .fit [2] none, .fit [7] none]) ≠ [] := by
  decide

end

end Pysad
