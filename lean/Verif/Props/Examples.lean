import Verif.Model.Examples
import Verif.Props.Baselines
import Verif.Props.Loda
import Verif.Props.Pipeline

/-! Properties C129 and C130: what the example scripts report. -/

namespace Pysad

open Spec Examples

/-! ### C129 -/

section
variable {σ μ κ α Y P V : Type*}

theorem Gen.ofList_of_toList {ι : Type*} {g : Gen ι} {l : List ι} (h : g.toList = .ok l) :
    g = Gen.ofList l := by
  induction g generalizing l with
  | stop => cases h; rfl
  | raise e => cases h
  | yield a r ih =>
    unfold Gen.toList at h
    cases hr : r.toList with
    | error e => rw [hr] at h; cases h
    | ok l' =>
      rw [hr] at h
      cases h
      rw [ih hr]; rfl

theorem evaluate_loop (step : σ → α → Res σ P) (mc : MetricClass κ μ Y P V) (ps : List (α × Y))
    (s : σ) (m : μ) (t : σ × μ) :
    (∃ us, inOrder (evaluateRound step mc) (s, m) ps = .ok us t) ↔
      ∃ scores, inOrder step s (ps.map Prod.fst) = .ok scores t.1 ∧
        mc.updates m ((ps.map Prod.snd).zip scores) = .ok () t.2 := by
  induction ps generalizing s m with
  | nil =>
    obtain ⟨a, b⟩ := t
    simp [inOrder, MetricClass.updates]
  | cons q ps ih =>
    obtain ⟨x, y⟩ := q
    simp only [inOrder, List.map_cons]
    cases h1 : step s x with
    | err e s1 => simp [evaluateRound, h1]
    | ok p s1 =>
      cases h2 : mc.update m y p with
      | err e m1 =>
        simp only [evaluateRound, h1, h2, Res.mapState_ok, Res.bind_ok, Res.mapState_err]
        constructor
        · rintro ⟨us, h⟩; cases h
        · rintro ⟨scores, h, h'⟩
          cases hs : inOrder step s1 (ps.map Prod.fst) with
          | err e s2 => rw [hs] at h; cases h
          | ok as s2 =>
            rw [hs] at h
            cases h
            simp [MetricClass.updates, h2] at h'
      | ok u m1 =>
        simp only [evaluateRound, h1, h2, Res.mapState_ok, Res.bind_ok]
        have ih' := ih s1 m1
        constructor
        · rintro ⟨us, h⟩
          cases hr : inOrder (evaluateRound step mc) (s1, m1) ps with
          | err e s2 => rw [hr] at h; cases h
          | ok as s2 =>
            rw [hr] at h
            cases h
            obtain ⟨scores, h3, h4⟩ := ih'.1 ⟨_, hr⟩
            exact ⟨p :: scores, by rw [h3], by simp [MetricClass.updates, h2, h4]⟩
        · rintro ⟨scores, h, h'⟩
          cases hs : inOrder step s1 (ps.map Prod.fst) with
          | err e s2 => rw [hs] at h; cases h
          | ok as s2 =>
            rw [hs] at h
            cases h
            simp only [List.zip_cons_cons, MetricClass.updates, h2, Res.bind_ok] at h'
            obtain ⟨us, h5⟩ := ih'.2 ⟨as, hs, h'⟩
            exact ⟨() :: us, by rw [h5]⟩

/-- **C129.** Rating while streaming is rating afterwards. For every way to score an instance (a
detector, a pipeline, an ensemble), every metric and every streamer that yields `ps`: the script
reports `v` if and only if scoring the instances alone, in order, succeeds and the metric reports
`v` for the labels and these scores. In particular the labels never influence the scores. -/
theorem C129_evaluate (step : σ → α → Res σ P) (mc : MetricClass κ μ Y P V) (s : σ) (m : μ)
    (hm : mc.new mc.noKwargs = .ok m) (g : Gen (α × Y)) (ps : List (α × Y)) (hg : g.toList = .ok ps)
    (v : V) :
    (evaluate step mc (s, m) g).out = .ok v ↔
      ∃ scores s', inOrder step s (ps.map Prod.fst) = .ok scores s' ∧
        reported mc (ps.map Prod.snd) scores = .ok v := by
  have key := evaluate_loop step mc ps s m
  unfold evaluate
  rw [Gen.ofList_of_toList hg, Gen.forEach_ofList]
  unfold reported
  rw [hm]
  simp only
  constructor
  · intro h
    cases hr : inOrder (evaluateRound step mc) (s, m) ps with
    | err e t => rw [hr] at h; cases h
    | ok us t =>
      rw [hr, Res.bind_ok] at h
      obtain ⟨scores, h1, h2⟩ := (key t).1 ⟨us, hr⟩
      refine ⟨scores, t.1, h1, ?_⟩
      rw [h2]
      simp only
      cases hq : mc.get t.2 with
      | err e m' => rw [hq] at h; cases h
      | ok v' m' => rw [hq] at h; cases h; rfl
  · rintro ⟨scores, s', h1, h2⟩
    cases hu : mc.updates m ((ps.map Prod.snd).zip scores) with
    | err e m' => rw [hu] at h2; cases h2
    | ok u m' =>
      rw [hu] at h2
      simp only at h2
      obtain ⟨us, h3⟩ := (key (s', m')).2 ⟨scores, h1, hu⟩
      rw [h3, Res.bind_ok]
      cases hq : mc.get m' with
      | err e m'' => rw [hq] at h2; cases h2
      | ok v' m'' => rw [hq] at h2; cases h2; simp [hq]

/-- **C129.** For a single detector the scores are those of `fit_score` without labels. -/
theorem C129_scores {β S : Type*} (d : Detector σ α β S) (s : σ) (X : List α) :
    inOrder (fitAndScore d) s X = d.fitScore s X none := by
  unfold Detector.fitScore
  rw [iterate_none, Gen.forEach_ofList]
  induction X generalizing s with
  | nil => rfl
  | cons x X ih =>
    simp only [pairs, List.map_cons, inOrder, fitAndScore] at ih ⊢
    cases d.fitScorePartial s x none with
    | err e s' => rfl
    | ok a s' => simp only [ih s']

/-- **C129.** For a pipeline the scores are those that it streams without labels. -/
theorem C129_pipeline {τ π α' β S T : Type*} (t : Transformer τ α α') (d : Detector σ α' β S)
    (p : Postprocessor π S T) (s : τ × σ × π) (X : List α) :
    inOrder (throughPipeline t d p) s X = Pipeline.stream t d p s X none := by
  unfold Pipeline.stream
  rw [iterate_none, Gen.forEach_ofList]
  induction X generalizing s with
  | nil => rfl
  | cons x X ih =>
    simp only [pairs, List.map_cons, inOrder, throughPipeline] at ih ⊢
    cases Pipeline.round t d p s (x, none) with
    | err e s' => rfl
    | ok a s' => simp only [ih s']

end

/-! ### C130 -/

/-- A stream for LODA: instances of the same length with labels, both classes present. -/
structure Spec.QuickStartData (ps : List (List ℝ × Bool)) (d : ℕ) : Prop where
  features : ∀ q ∈ ps, q.1.length = d
  anomaly : true ∈ ps.map Prod.snd
  normal : false ∈ ps.map Prod.snd

/-- The score of the instance that LODA was just fitted with. -/
noncomputable def lodaConst (nBins nCuts : ℕ) : ℝ :=
  -Real.log (if min (nBins - 1) ((nBins + 1) / 2) = nBins / 2 then lodaFull nBins
    else lodaEmpty nBins) / nCuts

section
variable {G β : Type*}

theorem loda_fit_ok (rng : LodaRng G ℝ) (hr : RandnShape rng) (nBins nCuts : ℕ) (hn : 1 ≤ nBins) (g : G)
    (cs : List (Call (List ℝ) β)) (z : List ℝ) (hd : ∀ x0 ∈ (fitted cs).head?, z.length = x0.length) :
    ∃ s', Loda.fitPartial rng (calls (Loda.detector (β := β) rng npLog) (Loda.new g nBins nCuts) cs).2 z
      = .ok () s' := by
  obtain ⟨hb, -, h⟩ := loda_inv (β := β) rng hr npLog nBins nCuts hn g cs
  generalize (calls (Loda.detector (β := β) rng npLog) (Loda.new g nBins nCuts) cs).2 = s at hb h
  cases hX : fitted cs with
  | nil =>
    rw [hX] at h
    simp only at h
    have hrows := hr s.rng s.nRandomCuts z.length
    obtain ⟨g', cs', h1, -⟩ := fitCuts_ok rng s.nBins z.length (hb ▸ hn) z rfl
      (rng.randn s.rng s.nRandomCuts z.length).2
      ((rng.randn s.rng s.nRandomCuts z.length).1.map fun r =>
        ⟨r, List.replicate s.nBins 0, List.replicate (s.nBins + 1) 0⟩) (by
        intro c hc
        obtain ⟨r, hr', rfl⟩ := List.mem_map.1 hc
        exact hrows.2 r hr')
    refine ⟨⟨g', s.nBins, s.nRandomCuts, some (z.length, cs')⟩, ?_⟩
    simp only [Loda.fitPartial, h, h1, Res.mapState_ok]
  | cons x0 X =>
    rw [hX] at h hd
    obtain ⟨cuts, h1, -, h3⟩ := h
    obtain ⟨g', cs', h4, -⟩ := fitCuts_ok rng s.nBins x0.length (hb ▸ hn) z (hd x0 (by simp)) s.rng cuts
      (fun c hc => (h3 c hc).choose_spec.1)
    refine ⟨⟨g', s.nBins, s.nRandomCuts, some (x0.length, cs')⟩, ?_⟩
    simp only [Loda.fitPartial, h1, h4, Res.mapState_ok]

theorem loda_fitScore_ok (rng : LodaRng G ℝ) (hr : RandnShape rng) (nBins nCuts : ℕ) (hn : 1 ≤ nBins)
    (hc : 1 ≤ nCuts) (g : G) (cs : List (Call (List ℝ) β)) (z : List ℝ)
    (hd : ∀ x0 ∈ (fitted cs).head?, z.length = x0.length) :
    fitAndScore (Loda.detector (β := β) rng npLog)
      (calls (Loda.detector rng npLog) (Loda.new g nBins nCuts) cs).2 z =
      .ok (.fin (lodaConst nBins nCuts))
        (calls (Loda.detector rng npLog) (Loda.new g nBins nCuts) (cs ++ [.fit z none])).2 := by
  obtain ⟨s', h1⟩ := loda_fit_ok (β := β) rng hr nBins nCuts hn g cs z hd
  have h2 := loda_score_last (β := β) rng hr nBins nCuts hn hc g cs z none hd
  have e : (calls (Loda.detector (β := β) rng npLog) (Loda.new g nBins nCuts) (cs ++ [.fit z none])).2
      = s' := by
    rw [calls_snoc]
    simp only [call, Loda.detector] at h1 ⊢
    rw [h1]
  rw [e] at h2 ⊢
  have h3 : (Loda.scorePartial npLog s' z).state = s' := by
    unfold Loda.scorePartial
    split
    · split <;> rfl
    · split <;> rfl
  simp only [fitAndScore, Detector.fitScorePartial, Loda.detector] at h1 h2 ⊢
  rw [h1, Res.bind_ok]
  cases hs : Loda.scorePartial npLog s' z with
  | err e t => rw [hs] at h2; cases h2
  | ok a t =>
    rw [hs] at h2 h3
    simp only [Res.state_ok] at h3
    simp only [Res.out_ok, Except.ok.injEq] at h2
    rw [h2, h3]; rfl

/-- LODA gives the same score to every instance of the stream when fitting and scoring alternate. -/
theorem loda_stream (rng : LodaRng G ℝ) (hr : RandnShape rng) (nBins nCuts : ℕ) (hn : 1 ≤ nBins)
    (hc : 1 ≤ nCuts) (g : G) (d : ℕ) (X : List (List ℝ)) (hX : ∀ x ∈ X, x.length = d) :
    ∃ s', inOrder (fitAndScore (Loda.detector (β := β) rng npLog)) (Loda.new g nBins nCuts) X =
      .ok (X.map fun _ => .fin (lodaConst nBins nCuts)) s' := by
  suffices h : ∀ (X : List (List ℝ)) (cs : List (Call (List ℝ) β)), (∀ x ∈ X, x.length = d) →
      (∀ x ∈ fitted cs, x.length = d) →
      ∃ s', inOrder (fitAndScore (Loda.detector (β := β) rng npLog))
        (calls (Loda.detector rng npLog) (Loda.new g nBins nCuts) cs).2 X =
      .ok (X.map fun _ => .fin (lodaConst nBins nCuts)) s' from h X [] hX (by simp [fitted])
  intro X
  induction X with
  | nil => intro cs _ _; exact ⟨_, rfl⟩
  | cons x X ih =>
    intro cs hX hcs
    have hx : x.length = d := hX x (by simp)
    have hd : ∀ x0 ∈ (fitted cs).head?, x.length = x0.length := by
      intro x0 h0
      rw [hx, hcs x0 (List.mem_of_mem_head? h0)]
    obtain ⟨s', h⟩ := ih (cs ++ [.fit x none]) (fun x h => hX x (by simp [h])) (by
      intro x' hx'
      rw [fitted_append] at hx'
      rcases List.mem_append.1 hx' with h | h
      · exact hcs x' h
      · simp only [fitted, List.mem_singleton] at h
        rw [h, hx])
    refine ⟨s', ?_⟩
    simp only [inOrder]
    rw [loda_fitScore_ok rng hr nBins nCuts hn hc g cs x hd]
    simp only
    rw [h]
    rfl

end

theorem mapM_finite {K : Type*} (l : List K) : (l.map Num.fin).mapM Num.finite? = some l := by
  induction l with
  | nil => rfl
  | cons a l ih => simp [List.mapM_cons, ih, Num.finite?]

theorem aurocNums_reported {K : Type*} [Field K] [LinearOrder K] [IsStrictOrderedRing K] (ys : List Bool)
    (ps : List K) (h : ys.length = ps.length) (h1 : true ∈ ys) (h2 : false ∈ ys) :
    reported (aurocNums K) ys (ps.map .fin) = .ok (rankingProbability (ys.zip ps)) := by
  have := auroc_reported ys ps h h1 h2
  unfold aurocMetric at this
  rw [reported_sklearn _ _ _ h] at this
  unfold aurocNums
  rw [reported_sklearn _ _ _ (by simpa using h), mapM_finite]
  exact this

/-- The claim of **C130**: the rating that the quick start prints for LODA depends on the data. With
the default parameters there are a generator and two data sets that are rated differently. -/
def C130_statement : Prop :=
  ∃ (G : Type) (rng : LodaRng G ℝ) (g : G) (d d' : ℕ) (p q : Gen (List ℝ × Bool))
    (ps qs : List (List ℝ × Bool)),
    RandnShape rng ∧ p.toList = .ok ps ∧ q.toList = .ok qs ∧ QuickStartData ps d ∧
      QuickStartData qs d' ∧
    (evaluate (fitAndScore (Loda.detector (β := Unit) rng npLog)) (aurocNums ℝ)
        (Loda.new g 10 100, ([], [])) p).out ≠
      (evaluate (fitAndScore (Loda.detector (β := Unit) rng npLog)) (aurocNums ℝ)
        (Loda.new g 10 100, ([], [])) q).out

/-- **C130**, partial: what the quick start prints. For every generator, every number of bins and
cuts, every data set with both classes, in every order, it is 1/2. -/
theorem C130_quickstart_partial {G β : Type*} (rng : LodaRng G ℝ) (hr : RandnShape rng) (g : G)
    (nBins nCuts : ℕ) (hn : 1 ≤ nBins) (hc : 1 ≤ nCuts) (d : ℕ) (p : Gen (List ℝ × Bool))
    (ps : List (List ℝ × Bool)) (hp : p.toList = .ok ps) (h : QuickStartData ps d) :
    (evaluate (fitAndScore (Loda.detector (β := β) rng npLog)) (aurocNums ℝ)
      (Loda.new g nBins nCuts, ([], [])) p).out = .ok (1 / 2) := by
  obtain ⟨s', hs⟩ := loda_stream (β := β) rng hr nBins nCuts hn hc g d (ps.map Prod.fst) (by
    intro x hx
    obtain ⟨q, hq, rfl⟩ := List.mem_map.1 hx
    exact h.features q hq)
  refine (C129_evaluate _ _ _ _ rfl p ps hp _).2 ⟨_, s', hs, ?_⟩
  have e : ((ps.map Prod.fst).map fun _ => Num.fin (lodaConst nBins nCuts)) =
      (ps.map fun _ => lodaConst nBins nCuts).map .fin := by
    rw [List.map_map, List.map_map]; rfl
  have hl : (ps.map Prod.snd).length = (ps.map fun _ => lodaConst nBins nCuts).length := by simp
  rw [e, aurocNums_reported _ _ hl h.anomaly h.normal,
    (C121_constant _ (lodaConst nBins nCuts) ?_).1 (anomalies_ne hl h.anomaly) (normals_ne hl h.normal)]
  intro q hq
  have := (List.of_mem_zip hq).2
  obtain ⟨_, -, e⟩ := List.mem_map.1 this
  exact e.symm

/-- **C130 is false.** -/
theorem C130_quickstart_refuted : ¬ C130_statement := by
  rintro ⟨G, rng, g, d, d', p, q, ps, qs, hr, hp, hq, h1, h2, h3⟩
  apply h3
  rw [C130_quickstart_partial rng hr g 10 100 (by norm_num) (by norm_num) d p ps hp h1,
    C130_quickstart_partial rng hr g 10 100 (by norm_num) (by norm_num) d' q qs hq h2]

/-- **C130**, partial: in `example_ensemble.py` LODA adds nothing. If the other detector alone gives
the numbers `us`, the averages of both are rated exactly like `us`. -/
theorem C130_ensemble_partial {G σ β : Type*} (e : Detector σ (List ℝ) β (Num ℝ)) (s0 s1 : σ)
    (rng : LodaRng G ℝ) (hr : RandnShape rng) (g : G)
    (nBins nCuts : ℕ) (hn : 1 ≤ nBins) (hc : 1 ≤ nCuts) (d : ℕ) (p : Gen (List ℝ × Bool))
    (ps : List (List ℝ × Bool)) (hp : p.toList = .ok ps) (h : QuickStartData ps d)
    (us : List ℝ) (hu : inOrder (fitAndScore e) s0 (ps.map Prod.fst) = .ok (us.map .fin) s1) :
    (evaluate (averageOfTwo e (Loda.detector (β := β) rng npLog)) (aurocNums ℝ)
      ((s0, Loda.new g nBins nCuts), ([], [])) p).out =
    (evaluate (fitAndScore e) (aurocNums ℝ) (s0, ([], [])) p).out := by
  have hX : ∀ x ∈ ps.map Prod.fst, x.length = d := by
    intro x hx
    obtain ⟨q, hq, rfl⟩ := List.mem_map.1 hx
    exact h.features q hq
  obtain ⟨s', hs⟩ := loda_stream (β := β) rng hr nBins nCuts hn hc g d (ps.map Prod.fst) hX
  set c := lodaConst nBins nCuts
  have key : ∀ (X : List (List ℝ)) (us : List ℝ) (a a' : σ) (b b' : LodaState G ℝ),
      inOrder (fitAndScore e) a X = .ok (us.map .fin) a' →
      inOrder (fitAndScore (Loda.detector (β := β) rng npLog)) b X = .ok (X.map fun _ => .fin c) b' →
      inOrder (averageOfTwo e (Loda.detector (β := β) rng npLog)) (a, b) X =
        .ok ((us.map fun u => (u + c) / 2).map .fin) (a', b') ∧ us.length = X.length := by
    intro X
    induction X with
    | nil =>
      intro us a a' b b' h1 h2
      simp only [inOrder, Res.ok.injEq] at h1
      cases h2
      obtain ⟨h1, rfl⟩ := h1
      cases us with
      | nil => exact ⟨rfl, rfl⟩
      | cons u us => simp at h1
    | cons x X ih =>
      intro us a a' b b' h1 h2
      simp only [inOrder] at h1 h2 ⊢
      cases e1 : fitAndScore e a x with
      | err _ _ => rw [e1] at h1; cases h1
      | ok u a1 =>
        rw [e1] at h1
        simp only at h1
        cases e2 : inOrder (fitAndScore e) a1 X with
        | err _ _ => rw [e2] at h1; cases h1
        | ok us1 a2 =>
          rw [e2] at h1
          simp only [Res.ok.injEq] at h1
          obtain ⟨h1, rfl⟩ := h1
          cases us with
          | nil => simp at h1
          | cons u0 us =>
            simp only [List.map_cons, List.cons.injEq] at h1
            obtain ⟨rfl, rfl⟩ := h1
            cases e3 : fitAndScore (Loda.detector (β := β) rng npLog) b x with
            | err _ _ => rw [e3] at h2; cases h2
            | ok v b1 =>
              rw [e3] at h2
              simp only at h2
              cases e4 : inOrder (fitAndScore (Loda.detector (β := β) rng npLog)) b1 X with
              | err _ _ => rw [e4] at h2; cases h2
              | ok vs b2 =>
                rw [e4] at h2
                simp only [Res.ok.injEq, List.map_cons, List.cons.injEq] at h2
                obtain ⟨⟨rfl, rfl⟩, rfl⟩ := h2
                obtain ⟨h5, h6⟩ := ih us a1 a2 b1 b2 e2 e4
                have e5 : averageOfTwo e (Loda.detector (β := β) rng npLog) (a, b) x =
                    .ok (.fin ((u0 + c) / 2)) (a1, b1) := by
                  unfold averageOfTwo
                  unfold fitAndScore at e1 e3
                  simp only [e1, e3, Res.mapState_ok, Res.bind_ok, Num.finite?, pyodAverage]
                  simp
                rw [e5]
                simp only [h5, List.map_cons, List.length_cons, h6, true_and]
  obtain ⟨k1, k2⟩ := key _ us _ _ _ _ hu hs
  have hlen : (ps.map Prod.snd).length = us.length := by simp [k2]
  have hlen' : (ps.map Prod.snd).length = (us.map fun u => (u + c) / 2).length := by simp [k2]
  have r1 := (C129_evaluate (averageOfTwo e (Loda.detector (β := β) rng npLog)) (aurocNums ℝ) _
    ([], []) rfl p ps hp _).2 ⟨_, _, k1, aurocNums_reported _ _ hlen' h.anomaly h.normal⟩
  have r2 := (C129_evaluate (fitAndScore e) (aurocNums ℝ) _
    ([], []) rfl p ps hp _).2 ⟨_, _, hu, aurocNums_reported _ _ hlen h.anomaly h.normal⟩
  rw [r1, r2]
  congr 1
  have hz : (ps.map Prod.snd).zip (us.map fun u => (u + c) / 2) =
      ((ps.map Prod.snd).zip us).map fun q => (q.1, (fun u => (u + c) / 2) q.2) := by
    rw [List.zip_map_right]; rfl
  rw [hz, ← rocAucScore_eq, ← rocAucScore_eq]
  exact C33_auroc_invariant _ _ (fun u => (u + c) / 2)
    (fun a b hab => by simp only; linarith) (List.Perm.refl _)

/-- The hypotheses of **C130** are met: the generator `onesRng`, and three instances with labels. -/
example : RandnShape (onesRng ℝ) ∧
    (Gen.ofList [([(1 : ℝ), 5], false), ([2, 0], true), ([7, 7], false)]).toList =
      .ok [([(1 : ℝ), 5], false), ([2, 0], true), ([7, 7], false)] ∧
    QuickStartData [([(1 : ℝ), 5], false), ([2, 0], true), ([7, 7], false)] 2 :=
  ⟨onesRng_shape, rfl, by simp, by simp, by simp⟩

/-- **C129** on a concrete run: instances that are their own scores, rated by AUROC. -/
example : (evaluate (fun (s : ℕ) (x : ℚ) => .ok (Num.fin x) (s + 1)) (aurocNums ℚ) (0, ([], []))
      (Gen.ofList [(1, false), (5, true), (2, false), (1, true)])).out = .ok (5 / 8) ∧
    inOrder (fun (s : ℕ) (x : ℚ) => Res.ok (Num.fin x) (s + 1)) 0 [1, 5, 2, 1] =
      .ok [.fin 1, .fin 5, .fin 2, .fin 1] 4 ∧
    reported (aurocNums ℚ) [false, true, false, true] [.fin 1, .fin 5, .fin 2, .fin 1]
      = .ok (5 / 8) := by
  decide +kernel

end Pysad
