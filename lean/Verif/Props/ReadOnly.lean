import Verif.Props.SimpleModels
import Verif.Props.HalfSpaceTrees
import Verif.Props.XStream
import Verif.Props.RsHash
import Verif.Props.Loda
import Verif.Props.RelativeEntropy
import Verif.Props.SeasonalEsd
import Verif.Props.Integrations
import Verif.Props.KnnCadExample
import Verif.Props.Deviation
import Verif.Props.KitNet
import Verif.Props.Inqmad

/-! Property C24: scoring is read-only. -/

namespace Pysad

open Spec

section
variable {α β K : Type*}

/-- **C24**, `ExactStorm`. -/
theorem C24_storm [Field K] [LinearOrder K] (dist : α → α → K) (w : ℕ) (r : K) :
    ScoringReadOnly (exactStorm (β := β) dist) (StormState.new w r) :=
  scoringReadOnly (fun s x => by simp only [exactStorm]; split <;> rfl) _

/-- **C24**, `NullModel`. -/
theorem C24_null [Field K] : ScoringReadOnly (nullModel α β (K := K)) () :=
  scoringReadOnly (fun _ _ => rfl) _

/-- **C24**, `HalfSpaceTrees`, for every object the constructor returns. -/
theorem C24_hst [Field K] [LinearOrder K] {G : Type*} (randint : G → ℕ → ℕ × G)
    (mins maxes : List K) (w numTrees maxDepth : ℕ) (g : G) (s : HstState K)
    (_ : Hst.new randint mins maxes w numTrees maxDepth g = .ok s) :
    ScoringReadOnly (Hst.detector K β) s :=
  scoringReadOnly (fun s x => by
    simp only [Hst.detector, Hst.scorePartial]; split <;> rfl) _

/-- **C24**, `xStream`. -/
theorem C24_xstream [Field K] [LinearOrder K] [IsStrictOrderedRing K] [FloorRing K] {k : ℕ}
    (mmh3 : String → ℕ → ℕ) (log2 : K → K) (p : StreamhashState K) (w : ℕ)
    (draws : List (XsDraw K k)) :
    ScoringReadOnly (XStream.detector (β := β) mmh3 log2) (XStream.new p w draws) :=
  scoringReadOnly (fun s x => XStream.score_state mmh3 log2 s x) _

/-- **C24**, `RSHash`. -/
theorem C24_rshash [Field K] [LinearOrder K] [IsStrictOrderedRing K] [FloorRing K] {dim : ℕ}
    (pow2 log : K → K) (comps : List (RsComponent K dim)) (sp : ℕ) (decay : K) (nh : ℕ) :
    ScoringReadOnly (RsHash.detector (β := β) pow2 log) (RsHash.new comps sp decay nh) :=
  scoringReadOnly (fun _ _ => rfl) _

/-- **C24**, `LODA`. -/
theorem C24_loda [Field K] [LinearOrder K] {G : Type*} (rng : LodaRng G K) (log : K → Num K)
    (g : G) (numBins numCuts : ℕ) :
    ScoringReadOnly (Loda.detector (β := β) rng log) (Loda.new g numBins numCuts) :=
  scoringReadOnly (fun s x => by
    simp only [Loda.detector, Loda.scorePartial]
    split
    · split <;> rfl
    · split <;> rfl) _

/-- **C24**, `RelativeEntropy`. -/
theorem C24_relent [Field K] [LinearOrder K] [IsStrictOrderedRing K] [FloorRing K]
    (entropy : List (Num K) → List (Num K) → Num K) (isf : ℤ → Num K) (lo hi : K) (n W : ℕ)
    (s : RelEntState K) (_ : RelEnt.new isf lo hi n W = .ok s) :
    ScoringReadOnly (RelEnt.detector (β := β) entropy) s :=
  scoringReadOnly (fun s _ => relEnt_score_state entropy s) _

/-- **C24**, `SeasonalESD` and `SeasonalHybridESD`. -/
theorem C24_sesd [Field K] [LinearOrder K] (env : SesdEnv K) (hybrid : Bool) (period W m : ℤ)
    (alpha : K) (s : SesdState K) (_ : Sesd.new hybrid period W m alpha = .ok s) :
    ScoringReadOnly (Sesd.detector (β := β) env) s :=
  scoringReadOnly (fun s X => sesd_score_state env s X) _

/-- **C24**, `ReferenceWindowModel` and `IForestASD`, for every object the constructor
returns. -/
theorem C24_refwindow {G M S : Type*} (b : BatchDetector G M α β S) (g : G) (w sl : ℕ)
    (I : Option (List α)) (J : Option (List β)) (s : RefWindowState G M α β)
    (_ : RefWindow.new b g w sl I J = .ok () s) : ScoringReadOnly (RefWindow.detector b) s :=
  scoringReadOnly (refWindow_score_state (b := b)) _

/-- **C24**, `OneFitModel`. -/
theorem C24_onefit {G M S : Type*} (b : BatchDetector G M α β S) (g : G) (I : List α)
    (J : Option (List β)) (s : ModelSlot M) (g' : G) (_ : oneFitModel.new b g I J = .ok s g') :
    ScoringReadOnly (oneFitModel b) s :=
  scoringReadOnly (fun s x => by
    simp only [oneFitModel]; cases s.decision b x <;> rfl) _

end

/-! ### `KNNCAD` -/

/-- **C24, the full statement for `KNNCAD`.** -/
def C24_knncad_statement : Prop :=
  ∀ (inv : List (List ℚ) → Option (List (List ℚ))) (P : ℕ), 1 ≤ P →
    ScoringReadOnly (KnnCad.detector (β := Unit) inv) (KnnCad.new P)

/-- If scoring is unnoticed, dropping a score call does not change the next answer. -/
theorem unnoticed_drop {σ α β S : Type*} {d : Detector σ α β S} {s : σ}
    (h : ScoringUnnoticed d s) (cs : List (Call α β)) (x : α) (ds : List (Call α β))
    (c : Call α β) :
    (call d (calls d s (cs ++ .score x :: ds)).2 c).1
      = (call d (calls d s (cs ++ ds)).2 c).1 := by
  obtain ⟨es, hes⟩ : ∃ es, es = ds ++ [c] := ⟨_, rfl⟩
  have h1 := h (cs.map (fun c => (false, c)) ++ (true, .score x) ::
    es.map fun c => (false, c)) (by
    intro p hp hb
    rcases List.mem_append.1 hp with hp | hp
    · obtain ⟨c, -, rfl⟩ := List.mem_map.1 hp; cases hb
    · rcases List.mem_cons.1 hp with rfl | hp
      · rfl
      · obtain ⟨c, -, rfl⟩ := List.mem_map.1 hp; cases hb)
  have hm : ∀ cs : List (Call α β),
      ((cs.map fun c => (false, c)) : List (Bool × Call α β)).map Prod.snd = cs := by
    intro cs
    rw [List.map_map]; exact List.map_id _
  have hf : ∀ cs : List (Call α β),
      ((cs.map fun c => (false, c)) : List (Bool × Call α β)).filter (fun p => !p.1)
      = cs.map fun c => (false, c) := by
    intro cs
    rw [List.filter_eq_self]
    intro p hp
    obtain ⟨c, -, rfl⟩ := List.mem_map.1 hp
    rfl
  have hz : ∀ (cs : List (Call α β)) (as : List (Answer S)),
      (((cs.map fun c => (false, c)) : List (Bool × Call α β)).zip as).filter (fun p => !p.1.1)
      = ((cs.map fun c => (false, c)) : List (Bool × Call α β)).zip as := by
    intro cs as
    rw [List.filter_eq_self]
    rintro ⟨p, a⟩ hp
    obtain ⟨c, -, rfl⟩ := List.mem_map.1 (List.of_mem_zip hp).1
    rfl
  rw [List.map_append, List.filter_append, List.map_append, hf, hm,
    List.filter_cons_of_neg (by simp), hf, List.map_cons, hm, calls_append,
    List.zip_append (by simp [calls_length]), List.filter_append, hz] at h1
  simp only [calls, List.zip_cons_cons] at h1
  rw [List.filter_cons_of_neg (by simp), hz, List.map_append,
    List.map_snd_zip (by simp [calls_length]), List.map_snd_zip (by simp [calls_length])] at h1
  have h2 := congrArg List.getLast? h1
  rw [hes, calls_append, show cs ++ (ds ++ [c]) = cs ++ ds ++ [c] by simp,
    calls_append (cs := cs ++ ds)] at h2
  simp only [calls, List.getLast?_append, List.getLast?_singleton, Option.or_some,
    Option.some_or, Option.some.injEq] at h2
  rw [calls_append]
  simp only [calls]
  exact h2

/-- If scoring is read-only, scoring again gives the same answer. -/
theorem readOnly_again {σ α β S : Type*} {d : Detector σ α β S} {s : σ}
    (h : ScoringReadOnly d s) (cs : List (Call α β)) (x : α) :
    (call d (calls d s (cs ++ [.score x])).2 (.score x)).1
      = (call d (calls d s cs).2 (.score x)).1 := by
  have := unnoticed_drop (fun l hl => (h l hl).1) cs x [] (.score x)
  rwa [List.append_nil] at this

/-- **C24 is false of `KNNCAD`**: in the run of the example, the score after 96 fits is 1, and
1/2 if an extra score call comes first. -/
theorem C24_knncad_refuted : ¬ C24_knncad_statement := by
  intro h
  have hr := knn_alarm_run
  rw [calls_append, List.drop_append_of_le_length (by simp [calls_length])] at hr
  rw [List.drop_eq_nil_of_le (by simp [calls_length])] at hr
  have h2 := readOnly_again (h (fun _ => some [[1]]) 48 (by norm_num))
    ((List.range 96).map fun i => .fit [if i = 0 ∨ i = 77 then (1 : ℚ) else 0] none) []
  rw [calls_append] at h2
  simp only [List.replicate_succ, calls, List.nil_append, List.cons_append,
    List.cons.injEq] at hr h2
  rw [hr.1, hr.2.1] at h2
  revert h2
  simp

section
variable {K β : Type*} [Field K] [LinearOrder K] (inv : List (List K) → Option (List (List K)))

theorem KnnCad.rotate_pred (s : KnnCadState K) (item : List K) (v : K) (p : ℤ) :
    KnnCad.rotate { s with pred := p } item v
      = (KnnCad.rotate s item v).mapState fun s => { s with pred := p } := by
  obtain ⟨buf, training, calibration, scores, rc, pred, sigma, P⟩ := s
  unfold KnnCad.rotate
  simp only
  split
  · cases training with
    | nil => rfl
    | cons a tr =>
      cases calibration with
      | nil => rfl
      | cons c cal => cases scores <;> rfl
  · cases scores <;> rfl

theorem KnnCad.fit_pred (s : KnnCadState K) (x : List K) (p : ℤ) :
    KnnCad.fitPartial inv { s with pred := p } x
      = (KnnCad.fitPartial inv s x).mapState fun s => { s with pred := p } := by
  unfold KnnCad.fitPartial
  simp only
  cases x with
  | nil => rfl
  | cons v x =>
    simp only
    split
    · rfl
    · split
      · rfl
      · unfold KnnCad.monitor
        simp only
        split
        · rfl
        · simp only [KnnCad.newSigma, KnnCad.initScores]
          split
          · rfl
          · split
            · rfl
            · exact KnnCad.rotate_pred (K := K) { s with buf := _, recordCount := _, sigma := _, scores := _ } _ _ p

/-- The answer to a score call depends on the countdown only in that it may be 1/2. -/
theorem KnnCad.score_pred (s : KnnCadState K) (x : List K) (p : ℤ) :
    let a := (call (KnnCad.detector (β := β) inv) s (.score x)).1
    let b := (call (KnnCad.detector (β := β) inv) { s with pred := p } (.score x)).1
    a = b ∨ a = .value (1 / 2) ∨ b = .value (1 / 2) := by
  obtain ⟨buf, training, calibration, scores, rc, pred, sigma, P⟩ := s
  simp only [call, KnnCad.detector, KnnCad.scorePartial]
  cases sigma with
  | none => exact Or.inl rfl
  | some sigma =>
    simp only
    by_cases h0 : buf.length < KnnCad.dim ∨ rc < P
    · simp only [if_pos h0]; exact Or.inl trivial
    · simp only [if_neg h0]
      cases KnnCad.ncm sigma training (KnnCad.newItem buf) false with
      | error e => exact Or.inl rfl
      | ok v =>
        simp only
        by_cases hl : scores.length = 0
        · simp only [if_pos hl]; exact Or.inl trivial
        · simp only [if_neg hl]
          by_cases h1 : 0 < pred
          · simp only [if_pos h1]; exact Or.inr (Or.inl trivial)
          · simp only [if_neg h1]
            by_cases h2 : 0 < p
            · simp only [if_pos h2]; exact Or.inr (Or.inr trivial)
            · simp only [if_neg h2]
              left
              split_ifs <;> rfl

/-- **C24 for `KNNCAD`, partial.** Missing: the countdown of the cool-down, which score calls
change. With or without the extra score calls, everything learnt is the same, and the answers
to the other calls agree unless one of the two is the 1/2 of a cool-down. -/
theorem C24_knncad_partial (h : List (Bool × Call (List K) β)) :
    ∀ (s t : KnnCadState K), t = { s with pred := t.pred } →
    (∀ p ∈ h, p.1 = true → p.2.isScore = true) →
    let d := KnnCad.detector (β := β) inv
    let all := calls d s (h.map Prod.snd)
    let kept := calls d t ((h.filter fun p => !p.1).map Prod.snd)
    List.Forall₂ (fun a b => a = b ∨ a = .value (1 / 2) ∨ b = .value (1 / 2))
      (((h.zip all.1).filter fun p => !p.1.1).map Prod.snd) kept.1 ∧
    kept.2 = { all.2 with pred := kept.2.pred } := by
  induction h with
  | nil => intro s t hst _; exact ⟨.nil, hst⟩
  | cons p h ih =>
    intro s t hst hp
    obtain ⟨b, c⟩ := p
    have hp' : ∀ p ∈ h, p.1 = true → p.2.isScore = true := fun p hm => hp p (by simp [hm])
    have hscore : ∀ (s : KnnCadState K) (x : List K),
        ∃ q, (call (KnnCad.detector (β := β) inv) s (.score x)).2 = { s with pred := q } := by
      intro s x
      rw [KnnCad.call_score_state]
      exact KnnCad.score_state s
    cases b with
    | true =>
      have hc := hp (true, c) (by simp) rfl
      cases c with
      | fit x y => cases hc
      | score x =>
        obtain ⟨q, hq⟩ := hscore s x
        have := ih { s with pred := q } t hst hp'
        simp only [List.map_cons, calls, List.zip_cons_cons, List.filter_cons, Bool.not_true, hq]
        exact this
    | false =>
      cases c with
      | fit x y =>
        have he : KnnCad.fitPartial inv t x
            = (KnnCad.fitPartial inv s x).mapState fun s => { s with pred := t.pred } := by
          rw [← KnnCad.fit_pred]; rw [← hst]
        have h1 : (call (KnnCad.detector (β := β) inv) s (.fit x y)).1
            = (call (KnnCad.detector (β := β) inv) t (.fit x y)).1 ∧
            (call (KnnCad.detector (β := β) inv) t (.fit x y)).2
            = { (call (KnnCad.detector (β := β) inv) s (.fit x y)).2 with pred := t.pred } := by
          simp only [call, KnnCad.detector, he]
          cases KnnCad.fitPartial inv s x <;> exact ⟨rfl, rfl⟩
        have := ih _ (call (KnnCad.detector (β := β) inv) t (.fit x y)).2
          (by rw [h1.2]) hp'
        simp only [List.map_cons, calls, List.zip_cons_cons, List.filter_cons, Bool.not_false,
          if_true, List.map_cons]
        exact ⟨.cons (Or.inl h1.1) this.1, this.2⟩
      | score x =>
        obtain ⟨q, hq⟩ := hscore s x
        obtain ⟨q', hq'⟩ := hscore t x
        have := ih { s with pred := q } { t with pred := q' } (by rw [hst]) hp'
        simp only [List.map_cons, calls, List.zip_cons_cons, List.filter_cons, Bool.not_false,
          if_true, List.map_cons, hq, hq']
        refine ⟨.cons ?_ this.1, this.2⟩
        have h3 := KnnCad.score_pred (β := β) inv s x t.pred
        rw [← hst] at h3
        exact h3

end

/-! ### `MedianAbsoluteDeviation`, `StandardAbsoluteDeviation`, `KitNet`

Score calls sort the values the deviation models keep and advance a counter of `KitNet`, so the
state does change; the answers do not. -/

section
variable {β K : Type*} [Field K] [LinearOrder K] [IsStrictOrderedRing K]

omit [IsStrictOrderedRing K] in
theorem runningDeviations_unique {xs ds ds' : List K} (h : RunningDeviations xs ds)
    (h' : RunningDeviations xs ds') : ds = ds' := by
  apply List.ext_getElem?
  intro i
  cases hx : xs[i]? with
  | none =>
    have : xs.length ≤ i := by simpa using hx
    rw [List.getElem?_eq_none (by rw [h.1]; exact this),
      List.getElem?_eq_none (by rw [h'.1]; exact this)]
  | some x =>
    obtain ⟨m, h1, h2⟩ := h.2 i x hx
    obtain ⟨m', h1', h2'⟩ := h'.2 i x hx
    rw [h1] at h1'
    cases h1'
    rw [h2, h2']

/-- Two objects that were fitted with the same values. -/
def MadAlike (β : Type*) (b : K) (absolute : Bool) (s t : MadState K) : Prop :=
  ∃ cs : List (Call (List K) β), MadInv b absolute (univariate (fitted cs)) s ∧
    MadInv b absolute (univariate (fitted cs)) t

theorem mad_fit_done (b : K) (absolute : Bool) (cs : List (Call (List K) β)) (u : MadState K)
    (h : MadInv b absolute (univariate (fitted cs)) u) (x : K) (y : Option β) :
    (call (medianAbsoluteDeviation (β := β)) u (.fit [x] y)).1 = .done := by
  obtain ⟨-, -, hm, -⟩ := h
  have hu := median_refines.update hm x
  rw [← coe_snoc] at hu
  obtain ⟨m, e, -⟩ := medianValue_ok (median_refines.get_out hu) (by simp)
  cases hg : (medianMeter K).get ((medianMeter K).update u.medianMeter x) with
  | err e' t => rw [hg] at e; simp at e
  | ok a t => simp [call, medianAbsoluteDeviation, hg]

theorem mad_alike (b : K) (absolute : Bool) (s t : MadState K) (c : Call (List K) β)
    (h : MadAlike β b absolute s t) :
    (call (medianAbsoluteDeviation (β := β)) s c).1 = (call medianAbsoluteDeviation t c).1 ∧
    MadAlike β b absolute (call (medianAbsoluteDeviation (β := β)) s c).2
      (call (medianAbsoluteDeviation (β := β)) t c).2 := by
  obtain ⟨cs, h1, h2⟩ := h
  refine ⟨?_, cs ++ [c], mad_step b absolute cs s c h1, mad_step b absolute cs t c h2⟩
  cases c with
  | score X =>
    rcases eq_or_ne (univariate (fitted cs)) [] with hx | hx
    · obtain ⟨s', e1, -⟩ := (mad_score (β := β) b absolute _ s h1 X).1 hx
      obtain ⟨t', e2, -⟩ := (mad_score (β := β) b absolute _ t h2 X).1 hx
      simp [call, e1, e2]
    · obtain ⟨s', m, ds, mad, e1, -, a1, b1, c1⟩ :=
        (mad_score (β := β) b absolute _ s h1 X).2 hx
      obtain ⟨t', m', ds', mad', e2, -, a2, b2, c2⟩ :=
        (mad_score (β := β) b absolute _ t h2 X).2 hx
      rw [a1] at a2
      cases a2
      rw [runningDeviations_unique b1 b2, c2] at c1
      cases c1
      simp only [call, e1, e2]
  | fit X y =>
    match X with
    | [] => rfl
    | _ :: _ :: _ => rfl
    | [x] =>
      rw [mad_fit_done b absolute cs s h1 x y, mad_fit_done b absolute cs t h2 x y]

/-- **C24**, `MedianAbsoluteDeviation`. -/
theorem C24_mad (absolute : Bool) (b : K) :
    ScoringUnnoticed (medianAbsoluteDeviation (β := β)) (MadState.new absolute b) := by
  refine scoringUnnoticed_of_sim (d := medianAbsoluteDeviation (β := β))
    (R := MadAlike β b absolute) (fun s t c h => mad_alike b absolute s t c h) ?_ _
    ⟨[], mad_inv b absolute [], mad_inv b absolute []⟩
  · rintro s t x ⟨cs, h1, h2⟩
    refine ⟨cs ++ [.score x], mad_step b absolute cs s (.score x) h1, ?_⟩
    rw [fitted_append]
    simpa [fitted] using h2

end

/-- Two objects that were fitted with the same values. -/
def SadAlike {σ : Type*} (β : Type*) (R : Multiset ℝ → σ → Prop) (absolute : Bool)
    (s t : SadState σ ℝ) : Prop :=
  ∃ cs : List (Call (List ℝ) β), SadInv R absolute (univariate (fitted cs)) s ∧
    SadInv R absolute (univariate (fitted cs)) t

theorem sad_alike {β σ : Type*} {V : Multiset ℝ → Except PyErr ℝ → Prop}
    {R : Multiset ℝ → σ → Prop} {sub : Statistic σ ℝ ℝ} (hr : Refines sub V R)
    (hV : ∀ xs : List ℝ, (∃ e, ∀ r, V xs r → r = .error e) ∨
      (xs ≠ [] ∧ ∃ m, ∀ r, V xs r → r = .ok m)) (absolute : Bool) (s t : SadState σ ℝ)
    (c : Call (List ℝ) β) (h : SadAlike β R absolute s t) :
    (call (standardAbsoluteDeviation (β := β) Real.sqrt sub) s c).1
      = (call (standardAbsoluteDeviation Real.sqrt sub) t c).1 ∧
    SadAlike β R absolute (call (standardAbsoluteDeviation (β := β) Real.sqrt sub) s c).2
      (call (standardAbsoluteDeviation (β := β) Real.sqrt sub) t c).2 := by
  obtain ⟨cs, h1, h2⟩ := h
  refine ⟨?_, cs ++ [c], sad_step hr absolute cs s c h1, sad_step hr absolute cs t c h2⟩
  cases c with
  | score X =>
    have out : ((standardAbsoluteDeviation (β := β) Real.sqrt sub).scorePartial s X).out
        = ((standardAbsoluteDeviation (β := β) Real.sqrt sub).scorePartial t X).out := by
      obtain ⟨-, ok1, er1⟩ := sad_score (β := β) hr absolute _ s h1 X
      obtain ⟨-, ok2, er2⟩ := sad_score (β := β) hr absolute _ t h2 X
      rcases hV (univariate (fitted cs)) with ⟨e, he⟩ | ⟨hne, m, hm⟩
      · rw [er1 e (he _ (hr.get_out h1.2.1)), er2 e (he _ (hr.get_out h2.2.1))]
      · rw [ok1 m (hm _ (hr.get_out h1.2.1)) hne, ok2 m (hm _ (hr.get_out h2.2.1)) hne]
    simp only [call]
    cases e1 : (standardAbsoluteDeviation (β := β) Real.sqrt sub).scorePartial s X <;>
      cases e2 : (standardAbsoluteDeviation (β := β) Real.sqrt sub).scorePartial t X <;>
      rw [e1, e2] at out <;> simp_all
  | fit X y =>
    match X with
    | [] => rfl
    | _ :: _ :: _ => rfl
    | [x] => rfl

theorem sad_unnoticed {β σ : Type*} {V : Multiset ℝ → Except PyErr ℝ → Prop}
    {R : Multiset ℝ → σ → Prop} {sub : Statistic σ ℝ ℝ} (hr : Refines sub V R)
    (hV : ∀ xs : List ℝ, (∃ e, ∀ r, V xs r → r = .error e) ∨
      (xs ≠ [] ∧ ∃ m, ∀ r, V xs r → r = .ok m)) (absolute : Bool) :
    ScoringUnnoticed (standardAbsoluteDeviation (β := β) Real.sqrt sub)
      (SadState.new sub absolute) := by
  refine scoringUnnoticed_of_sim (d := standardAbsoluteDeviation (β := β) Real.sqrt sub)
    (R := SadAlike β R absolute) (fun s t c h => sad_alike hr hV absolute s t c h) ?_ _
    ⟨[], sad_inv hr absolute [], sad_inv hr absolute []⟩
  · rintro s t x ⟨cs, h1, h2⟩
    refine ⟨cs ++ [.score x], sad_step hr absolute cs s (.score x) h1, ?_⟩
    rw [fitted_append]
    simpa [fitted] using h2

theorem meanValue_cases (xs : List ℝ) :
    (∃ e, ∀ r, MeanValue (K := ℝ) xs r → r = .error e) ∨
      (xs ≠ [] ∧ ∃ m, ∀ r, MeanValue (K := ℝ) xs r → r = .ok m) := by
  rcases eq_or_ne xs [] with rfl | h
  · left
    refine ⟨.zeroDivision, ?_⟩
    rintro r (⟨-, h⟩ | ⟨h, -⟩)
    · exact h
    · exact absurd rfl h
  · exact Or.inr ⟨h, _, fun r hr => meanValue_ok hr h⟩

/-- **C24**, `StandardAbsoluteDeviation` with the mean. -/
theorem C24_sad_mean {β : Type*} (absolute : Bool) :
    ScoringUnnoticed (standardAbsoluteDeviation (β := β) Real.sqrt (averageMeter ℝ))
      (SadState.new (averageMeter ℝ) absolute) := by
  exact sad_unnoticed average_refines meanValue_cases absolute

theorem medianValue_cases (xs : List ℝ) :
    (∃ e, ∀ r, MedianValue (K := ℝ) xs r → r = .error e) ∨
      (xs ≠ [] ∧ ∃ m, ∀ r, MedianValue (K := ℝ) xs r → r = .ok m) := by
  rcases eq_or_ne xs [] with rfl | h
  · left
    refine ⟨.indexError, ?_⟩
    rintro r (⟨-, h⟩ | ⟨m, h, -⟩)
    · exact h
    · simp [medianOf] at h
  · right
    obtain ⟨m, hm⟩ := medianOf_isSome (K := ℝ) h
    refine ⟨h, m, fun r hr => ?_⟩
    obtain ⟨b, e, h2⟩ := medianValue_ok hr h
    rw [hm] at h2
    cases h2
    exact e

/-- **C24**, `StandardAbsoluteDeviation` with the median. -/
theorem C24_sad_median {β : Type*} (absolute : Bool) :
    ScoringUnnoticed (standardAbsoluteDeviation (β := β) Real.sqrt (medianMeter ℝ))
      (SadState.new (medianMeter ℝ) absolute) := by
  exact sad_unnoticed median_refines medianValue_cases absolute

section
variable {β K : Type*} [Field K] [LinearOrder K] {n : ℕ}

/-- The counter of executions set to `q`. -/
abbrev KnState.counting (m : KnState K n) (q : ℕ) : KnState K n := { m with nExecuted := q }

/-- Equal up to the counter of executions. -/
def KitNet.Alike (s t : KitNetState K n) : Prop :=
  ∃ q, t = { s with model := s.model.map fun m => m.counting q }

theorem KitNET.createEnsemble_counting [FloorRing K] (env : KnEnv K) (q : ℕ) :
    ∀ (parts : List (List (Fin n))) (m : KnState K n),
    KitNET.createEnsemble env (m.counting q) parts
      = (KitNET.createEnsemble env m parts).mapState fun m => m.counting q
  | [], m => rfl
  | p :: ps, m => by
    simp only [KitNET.createEnsemble, KnState.counting]
    cases Da.new env p.length m.lr m.hr with
    | error e => rfl
    | ok a => exact KitNET.createEnsemble_counting env q ps { m with ensemble := m.ensemble ++ [a] }

theorem KitNET.train_counting [FloorRing K] (env : KnEnv K) (m : KnState K n) (q : ℕ)
    (x : Fin n → K) :
    KitNET.train env (m.counting q) x = (KitNET.train env m x).mapState fun m => m.counting q := by
  have hmap : KitNET.trainMap env (m.counting q) x
      = (KitNET.trainMap env m x).mapState fun m => m.counting q := by
    simp only [KitNET.trainMap, KnState.counting]
    by_cases hg : m.nTrained = m.fmGrace
    · rw [if_pos hg, if_pos hg]
      cases (m.fm.update x).cluster env m.m with
      | error e => rfl
      | ok v =>
        simp only [KitNET.createAD]
        have := KitNET.createEnsemble_counting env q v { m with fm := m.fm.update x, v := some v }
        simp only [KnState.counting] at this
        rw [this]
        cases KitNET.createEnsemble env { m with fm := m.fm.update x, v := some v } v with
        | err e s => rfl
        | ok u s =>
          simp only [Res.mapState_ok, Res.bind_ok]
          cases Da.new env v.length s.lr s.hr <;> rfl
    · rw [if_neg hg, if_neg hg]; rfl
  have hlay : KitNET.trainLayers env (m.counting q) x
      = (KitNET.trainLayers env m x).mapState fun m => m.counting q := by
    simp only [KitNET.trainLayers, KnState.counting]
    cases m.output <;> rfl
  unfold KitNET.train
  rw [hmap, hlay]
  simp only [KnState.counting]
  split
  · cases KitNET.trainMap env m x <;> rfl
  · cases KitNET.trainLayers env m x <;> rfl

theorem KitNet.alike_call [FloorRing K] (env : KnEnv K) (s t : KitNetState K n)
    (c : Call (Fin n → K) β) (h : KitNet.Alike s t) :
    (call (KitNet.detector env) s c).1 = (call (KitNet.detector env) t c).1 ∧
      KitNet.Alike (call (KitNet.detector env) s c).2 (call (KitNet.detector env) t c).2 := by
  obtain ⟨q, rfl⟩ := h
  obtain ⟨a, b, c', d, e, model⟩ := s
  cases c with
  | score x =>
    simp only [call, KitNet.detector, KitNet.scorePartial]
    cases model with
    | none => exact ⟨rfl, q, rfl⟩
    | some m =>
      obtain ⟨m1, m2, m3, m4, m5, m6, m7, v, fm, ens, out⟩ := m
      cases v with
      | none => exact ⟨by simp, q, by simp⟩
      | some v =>
        cases out with
        | none => exact ⟨by simp [KitNET.execute], q + 1, by simp [KitNET.execute]⟩
        | some o => exact ⟨by simp [KitNET.execute], q + 1, by simp [KitNET.execute]⟩
  | fit x y =>
    simp only [call, KitNet.detector, KitNet.fitPartial]
    have key : ∀ (m : KnState K n), ∃ q',
        KitNET.process env (m.counting q) x
          = (KitNET.process env m x).mapState fun m => m.counting q' := by
      intro m
      have ht := KitNET.train_counting env m q x
      simp only [KitNET.process]
      by_cases hg : m.nTrained > m.fmGrace + m.adGrace
      · rw [if_pos hg, if_pos hg]
        obtain ⟨m1, m2, m3, m4, m5, m6, m7, v, fm, ens, out⟩ := m
        cases v with
        | none => exact ⟨q, rfl⟩
        | some v => cases out <;> exact ⟨q + 1, rfl⟩
      · rw [if_neg hg, if_neg hg]
        exact ⟨q, ht⟩
    cases model with
    | none =>
      simp only [Option.map_none, KitNet.init, Option.getD_none]
      refine ⟨trivial, ?_⟩
      cases KitNET.process env _ x with
      | ok v r => exact ⟨r.nExecuted, rfl⟩
      | err v r => exact ⟨r.nExecuted, rfl⟩
    | some m =>
      obtain ⟨q', hq⟩ := key m
      simp only [KitNet.init, Option.map_some, Option.getD_some]
      rw [hq]
      cases KitNET.process env m x with
      | ok v r => exact ⟨rfl, q', rfl⟩
      | err v r => exact ⟨rfl, q', rfl⟩

/-- **C24**, `KitNet`. -/
theorem C24_kitnet [FloorRing K] (env : KnEnv K) (maxSize : ℤ) (fm : Option ℕ) (ad : ℕ)
    (lr hr : K) :
    ScoringUnnoticed (KitNet.detector (β := β) env) (KitNet.new n maxSize fm ad lr hr) := by
  refine scoringUnnoticed_of_sim (d := KitNet.detector (β := β) env) (R := KitNet.Alike)
    (fun s t c h => KitNet.alike_call env s t c h) ?_ _ ⟨0, rfl⟩
  rintro s t x ⟨q, rfl⟩
  refine ⟨q, ?_⟩
  obtain ⟨a, b, c', d, e, model⟩ := s
  simp only [call, KitNet.detector, KitNet.scorePartial]
  cases model with
  | none => rfl
  | some m =>
    simp only
    by_cases hv : m.v = none
    · simp only [if_pos hv]
    · simp only [if_neg hv, KitNET.execute]
      cases hv' : m.v with
      | none => exact absurd hv' hv
      | some v =>
        simp only
        cases ho : m.output with
        | none => simp [KnState.counting, hv', ho]
        | some o => simp [KnState.counting, hv', ho]

end

/-! ### `PerfectModel`, `RandomModel`, `Inqmad` -/

/-- **C24, the full statement for `PerfectModel`.** -/
def C24_perfect_statement : Prop := ScoringUnnoticed (perfectModel Unit ℕ) []

/-- **C24 is false of `PerfectModel`**: each score uses up a label. Fitted with labels 1 and 2,
its first score is 1, its second 2. -/
theorem C24_perfect_refuted : ¬ C24_perfect_statement := by
  intro h
  have := unnoticed_drop h [.fit () (some 1), .fit () (some 2)] () [] (.score ())
  revert this
  decide +kernel

/-- **C24, the full statement for `Inqmad`.** -/
def C24_inqmad_statement : Prop :=
  ∀ (n d b : ℕ) (weights : Fin n → Fin d → ℝ) (offset : Fin d → ℝ), b ≠ 0 →
    ScoringUnnoticed (Inqmad.detector (β := Unit) (realInqEnv weights offset)) (Inqmad.new b)

/-- **C24 is false of `Inqmad`**: fit 0, fit pi/2, score 0 gives 0, but 1 if something was scored
after the first fit. -/
theorem C24_inqmad_refuted : ¬ C24_inqmad_statement := by
  intro h
  have h1 := unnoticed_drop (h 1 2 300 (fun _ _ => 1) (fun k => if k = 0 then 0 else Real.pi / 2)
    (by norm_num)) [.fit (fun _ => 0) none] (fun _ => 0) [.fit (fun _ => Real.pi / 2) none]
    (.score fun _ => 0)
  change (call (Inqmad.detector inqExample) (calls (Inqmad.detector inqExample) _ _).2 _).1
    = (call (Inqmad.detector inqExample) (calls (Inqmad.detector inqExample) _ _).2 _).1 at h1
  have key : ∀ (cs : List (Call (Fin 1 → ℝ) Unit)) (v : ℝ),
      (Inqmad.scorePartial inqExample (calls (Inqmad.detector inqExample) (Inqmad.new 300) cs).2
        fun _ => 0).out = .ok v →
      (call (Inqmad.detector inqExample) (calls (Inqmad.detector inqExample)
        (Inqmad.new 300) cs).2 (.score fun _ => 0 : Call (Fin 1 → ℝ) Unit)).1 = .value v := by
    intro cs v hv
    simp only [call, Inqmad.detector] at hv ⊢
    cases e : Inqmad.scorePartial inqExample _ (fun _ => 0) with
    | ok a t => rw [e] at hv; simpa using hv
    | err a t => rw [e] at hv; simp at hv
  have ha := C85_inqmad_scores_partial (β := Unit) inqExample 300 (by norm_num)
    [.fit (fun _ => 0) none, .score (fun _ => 0), .fit (fun _ => Real.pi / 2) none] (fun _ => 0)
  have hb := C85_inqmad_scores_partial (β := Unit) inqExample 300 (by norm_num)
    [.fit (fun _ => 0) none, .fit (fun _ => Real.pi / 2) none] (fun _ => 0)
  simp only [List.cons_append, List.nil_append] at h1
  rw [key _ _ ha, key _ _ hb] at h1
  simp [fittedAtFirstScore, lastMeasure, inqExample_measure, projector,
    inqExample_feature] at h1

/-! A history with extra score calls to which the theorems apply. -/
example : ∀ p ∈ ([(false, .fit 1 none), (true, .score 2), (false, .score 3)] :
    List (Bool × Call ℕ Unit)), p.1 = true → p.2.isScore = true := by decide

end Pysad
