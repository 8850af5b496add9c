import Verif.Props.ReadOnly
import Verif.Props.Rrcf

/-! Property C91: a call that raises leaves no trace. -/

namespace Pysad

open Spec

section
variable {σ α β S K : Type*} {d : Detector σ α β S}

/-- Rejections are unnoticed if, on reachable states, a fit either succeeds or leaves the state
as it was, and scores never change it. -/
theorem rejectionsUnnoticed_of_parts {I : σ → Prop}
    (hfit : ∀ s x y, I s → (∃ s', d.fitPartial s x y = .ok () s' ∧ I s') ∨
      ∃ e, d.fitPartial s x y = .err e s)
    (hscore : ∀ s x, I s → (d.scorePartial s x).state = s) (s : σ) (h0 : I s) :
    RejectionsUnnoticed d s := by
  have hs : ∀ s x, I s → (call d s (.score x)).2 = s := by
    intro s x h
    have := hscore s x h
    simp only [call]
    cases hx : d.scorePartial s x <;> rw [hx] at this <;> exact this
  refine rejectionsUnnoticed_of_inv (I := I) ?_ ?_ s h0
  · intro s c h
    cases c with
    | score x => rw [hs s x h]; exact h
    | fit x y =>
      rcases hfit s x y h with ⟨s', e, h'⟩ | ⟨e, he⟩
      · simpa [call, e] using h'
      · simpa [call, he] using h
  · intro s c h hx
    cases c with
    | score x => exact hs s x h
    | fit x y =>
      rcases hfit s x y h with ⟨s', e, h'⟩ | ⟨e, he⟩
      · simp [call, e, Answer.isRaised] at hx
      · simp [call, he]

/-- **C91**, `ExactStorm`. -/
theorem C91_storm [Field K] [LinearOrder K] (dist : α → α → K) (w : ℕ) (r : K) :
    RejectionsUnnoticed (exactStorm (β := β) dist) (StormState.new w r) :=
  rejectionsUnnoticed_of_parts (I := fun _ => True) (fun _ _ _ _ => Or.inl ⟨_, rfl, trivial⟩)
    (fun s x _ => by simp only [exactStorm]; split <;> rfl) _ trivial

/-- **C91**, `PerfectModel`: fits without a label and scores without a label left raise. -/
theorem C91_perfect : RejectionsUnnoticed (perfectModel α β) [] :=
  rejectionsUnnoticed (fun s c hx => by
    cases c with
    | fit x y => cases y <;> simp [call, perfectModel, Answer.isRaised] at hx ⊢
    | score x => cases s <;> simp [call, perfectModel, Answer.isRaised] at hx ⊢) _

/-- **C91**, `OneFitModel`. -/
theorem C91_onefit {G M S : Type*} (b : BatchDetector G M α β S) (s : ModelSlot M) :
    RejectionsUnnoticed (oneFitModel b) s :=
  rejectionsUnnoticed_of_parts (I := fun _ => True) (fun _ _ _ _ => Or.inl ⟨_, rfl, trivial⟩)
    (fun s x _ => by simp only [oneFitModel]; cases s.decision b x <;> rfl) _ trivial

/-- **C91**, `SeasonalESD` and `SeasonalHybridESD`: instances that are not a single number are
rejected, and a failing decomposition makes scores raise. -/
theorem C91_sesd [Field K] [LinearOrder K] (env : SesdEnv K) (hybrid : Bool) (period W m : ℤ)
    (alpha : K) (s : SesdState K) (_ : Sesd.new hybrid period W m alpha = .ok s) :
    RejectionsUnnoticed (Sesd.detector (β := β) env) s :=
  rejectionsUnnoticed_of_parts (I := fun _ => True) (fun s x _ _ => by
    simp only [Sesd.detector, Sesd.fitPartial]
    cases Sesd.asValue x with
    | error e => exact Or.inr ⟨e, rfl⟩
    | ok v => exact Or.inl ⟨_, rfl, trivial⟩) (fun s X _ => sesd_score_state env s X) _ trivial

/-- **C91**, `Inqmad`. -/
theorem C91_inqmad [Field K] {n k : ℕ} (env : InqEnv K n k) (b : ℕ) :
    RejectionsUnnoticed (Inqmad.detector (β := β) env) (Inqmad.new b) :=
  rejectionsUnnoticed (fun s c hx => by
    cases c with
    | fit x y =>
      simp only [call, Inqmad.detector, Inqmad.fitPartial] at hx ⊢
      by_cases hb : s.batchSize = 0
      · simp [hb]
      · simp [hb, Answer.isRaised] at hx
    | score x =>
      simp only [call, Inqmad.detector, Inqmad.scorePartial] at hx ⊢
      cases ht : s.traced with
      | some rho => simp only
      | none =>
        rw [ht] at hx
        cases hr : Inqmad.trace s with
        | error e => simp only [hr]
        | ok rho => simp [hr, Answer.isRaised] at hx) _

/-- **C91**, `xStream` (with a positive window size). -/
theorem C91_xstream [Field K] [LinearOrder K] [IsStrictOrderedRing K] [FloorRing K] {k : ℕ}
    (mmh3 : String → ℕ → ℕ) (log2 : K → K) (p : StreamhashState K) (w : ℕ) (hw : 1 ≤ w)
    (draws : List (XsDraw K k)) :
    RejectionsUnnoticed (XStream.detector (β := β) mmh3 log2) (XStream.new p w draws) :=
  rejectionsUnnoticed_of_parts (I := fun s => ∃ xs, XStream.Inv p w draws xs s)
    (fun s x _ ⟨xs, h⟩ => by
      obtain ⟨s', h1, h2⟩ := XStream.inv_fit mmh3 p w hw draws xs s h x
      exact Or.inl ⟨s', h1, _, h2⟩)
    (fun s x _ => XStream.score_state mmh3 log2 s x) _ ⟨[], XStream.inv_new p w hw draws⟩

/-- **C91**, `RSHash` (with at least one component and one hash function). -/
theorem C91_rshash {dim : ℕ} (comps : List (RsComponent ℝ dim)) (hm : comps ≠ []) (sp : ℕ)
    (decay : ℝ) (nh : ℕ) (hnh : 1 ≤ nh) :
    RejectionsUnnoticed (RsHash.detector (β := β) realPow2 Real.log)
      (RsHash.new comps sp decay nh) :=
  rejectionsUnnoticed_of_parts
    (I := fun s => ∃ X, RsHash.Inv realPow2 Real.log comps decay (1 - (sp : ℤ)) X s)
    (fun s x _ ⟨X, h⟩ => by
      obtain ⟨s', h1, h2⟩ := RsHash.fit_inv (pow2 := realPow2) (log := Real.log)
        (fun a b => Real.rpow_add two_pos a b) comps hm decay _ X s h x
      exact Or.inl ⟨s', h1, _, h2⟩)
    (fun _ _ _ => rfl) _ ⟨_, RsHash.inv (β := β) (fun a b => Real.rpow_add two_pos a b) comps hm sp decay nh hnh []⟩

end

/-! ### `RobustRandomCutForest` -/

theorem Rrcf.scoreTree_ok {τ α K G : Type*} [Field K] (api : RcTreeApi τ α K G) (n : ℕ) (x : α)
    (g : G) (t : τ) (T : ℕ) (xs : List α) (h : api.leaves t = Rrcf.kept T xs)
    (hne : Rrcf.kept T xs ≠ []) :
    ∃ v g' t', Rrcf.scoreTree api n x g t = .ok v (g', t') := by
  have hk : RcKey.testPoint ∉ (api.leaves t).map Prod.fst := by
    rw [h]
    intro hm
    obtain ⟨i, _, he⟩ := Rrcf.kept_keys hm
    cases he
  obtain ⟨t1, g1, h1, h2⟩ := api.insert_new g t x .testPoint hk
  obtain ⟨t2, h3, h4⟩ := api.forget_old t1 .testPoint (by rw [h2]; simp)
  obtain ⟨b, hb⟩ := api.find_some t x (by rw [h]; exact hne)
  unfold Rrcf.scoreTree
  rw [hb]
  cases b with
  | true => exact ⟨_, _, _, rfl⟩
  | false => simp only [h1, h3]; exact ⟨_, _, _, rfl⟩

/-- **C91**, `RobustRandomCutForest` (with trees of size at least 1): only scores before the
first fit raise. -/
theorem C91_rrcf {τ α β K G : Type*} [Field K] (api : RcTreeApi τ α K G) (g : G) (T m : ℕ)
    (hT : 1 ≤ T) : RejectionsUnnoticed (Rrcf.detector (β := β) api) (Rrcf.new api g m T) := by
  refine rejectionsUnnoticed_of_inv (I := fun s => ∃ xs, Rrcf.Inv api T m xs s) ?_ ?_ _
    ⟨_, Rrcf.inv_calls (β := β) api g T m hT []⟩
  · rintro s c ⟨xs, h⟩
    exact ⟨_, Rrcf.inv_step (β := β) api T m hT xs s h c⟩
  · rintro s c ⟨xs, h⟩ hx
    cases c with
    | fit x y =>
      obtain ⟨s', h1, -⟩ := Rrcf.inv_fit api T m hT xs s h x
      simp [call, Rrcf.detector, h1, Answer.isRaised] at hx
    | score x =>
      by_cases hxs : xs = []
      · subst hxs
        have hl : ∀ t ∈ s.forest, api.leaves t = [] := fun t ht => by
          rw [h.leaves t ht]; rfl
        obtain ⟨rng, ts, nt, forest, index⟩ := s
        simp only at hl
        cases forest with
        | nil => simp [call, Rrcf.detector, Rrcf.scorePartial, Rrcf.scoreTrees, Answer.isRaised] at hx
        | cons t ts =>
          have := api.find_none t x (hl t (by simp))
          simp [call, Rrcf.detector, Rrcf.scorePartial, Rrcf.scoreTrees, Rrcf.scoreTree, this]
      · exfalso
        have hl : ∀ t ∈ s.forest, api.leaves t = Rrcf.kept T xs := h.leaves
        have hk : Rrcf.kept T xs ≠ [] := by
          intro h0
          have := Rrcf.kept_length T xs
          rw [h0] at this
          have : 0 < xs.length := List.length_pos_iff.2 hxs
          simp at *
          omega
        have key : ∀ (ts : List τ) (acc : K) (g : G), (∀ t ∈ ts, api.leaves t = Rrcf.kept T xs) →
            ∃ v u, Rrcf.scoreTrees api s.numTrees x acc g ts = .ok v u := by
          intro ts
          induction ts with
          | nil => intro acc g _; exact ⟨_, _, rfl⟩
          | cons t ts ih =>
            intro acc g ht
            obtain ⟨v, g', t', e⟩ := Rrcf.scoreTree_ok api s.numTrees x g t T xs
              (ht t (by simp)) hk
            obtain ⟨w, u, e'⟩ := ih (acc + v) g' (fun t h => ht t (by simp [h]))
            simp [Rrcf.scoreTrees, e, e']
        obtain ⟨v, u, e⟩ := key s.forest 0 s.rng hl
        simp [call, Rrcf.detector, Rrcf.scorePartial, e, Answer.isRaised] at hx

/-! ### `RelativeEntropy` -/

/-- With an empty range every fit that fills the window divides by zero. -/
theorem relEnt_fit_degenerate {K : Type*} [Field K] [LinearOrder K] [IsStrictOrderedRing K]
    [FloorRing K] (s : RelEntState K) (x : K) (h : s.stepSize = 0) :
    RelEnt.fitPartial s x = if s.W ≤ s.util.length + 1
      then .err .zeroDivision { s with util := s.util ++ [x] }
      else .ok () { s with util := s.util ++ [x] } := by
  simp only [RelEnt.fitPartial, List.length_append, List.length_singleton]
  split
  · rename_i hw
    have hne : RelEnt.current s.W (s.util ++ [x]) ≠ [] := by
      unfold RelEnt.current
      split
      · simp
      · intro h0
        have := congrArg List.length h0
        simp at this
        omega
    cases hc : RelEnt.current s.W (s.util ++ [x]) with
    | nil => exact absurd hc hne
    | cons a l =>
      rw [List.mapM_cons]
      simp only [RelEnt.quantize, h, if_true]
      rfl
  · rfl

/-- **C91**, `RelativeEntropy`. -/
theorem C91_relent {β K : Type*} [Field K] [LinearOrder K] [IsStrictOrderedRing K] [FloorRing K]
    (entropy : List (Num K) → List (Num K) → Num K) (isf : ℤ → Num K) (lo hi : K) (n W : ℕ)
    (s : RelEntState K) (h0 : RelEnt.new isf lo hi n W = .ok s) :
    RejectionsUnnoticed (RelEnt.detector (β := β) entropy) s := by
  have hn : n ≠ 0 := by
    rintro rfl
    simp [RelEnt.new] at h0
  have hs : ∀ s x, (call (RelEnt.detector (β := β) entropy) s (.score x)).2 = s := by
    intro s x
    have := relEnt_score_state entropy s
    simp only [call, RelEnt.detector]
    cases hx : RelEnt.scorePartial entropy s <;> rw [hx] at this <;> exact this
  by_cases hstep : s.stepSize = 0
  · -- no fit that fills the window succeeds, so there never is a hypothesis
    refine rejectionsUnnoticed_of_sim (R := fun s t => s.stepSize = 0 ∧ t.stepSize = 0 ∧
      s.m = 0 ∧ t.m = 0 ∧ s.W = t.W ∧ (s.util.length = t.util.length ∨
        (s.W ≤ s.util.length + 1 ∧ s.W ≤ t.util.length + 1))) ?_ ?_ s ?_
    · rintro s t c ⟨a1, a2, a3, a4, a5, a6⟩
      cases c with
      | score x =>
        refine ⟨?_, by rw [hs, hs]; exact ⟨a1, a2, a3, a4, a5, a6⟩⟩
        simp [call, RelEnt.detector, RelEnt.scorePartial, a3, a4]
      | fit x y =>
        simp only [call, RelEnt.detector, relEnt_fit_degenerate s x a1,
          relEnt_fit_degenerate t x a2]
        by_cases h : s.W ≤ s.util.length + 1
        · have h' : t.W ≤ t.util.length + 1 := by omega
          rw [if_pos h, if_pos h']
          refine ⟨rfl, a1, a2, a3, a4, a5, Or.inr ?_⟩
          simp only [List.length_append, List.length_singleton]
          omega
        · have h' : ¬ t.W ≤ t.util.length + 1 := by omega
          rw [if_neg h, if_neg h']
          refine ⟨rfl, a1, a2, a3, a4, a5, Or.inl ?_⟩
          simp only [List.length_append, List.length_singleton]
          omega
    · rintro s t c ⟨a1, a2, a3, a4, a5, a6⟩ hx
      cases c with
      | score x => rw [hs]; exact ⟨a1, a2, a3, a4, a5, a6⟩
      | fit x y =>
        simp only [call, RelEnt.detector, relEnt_fit_degenerate s x a1] at hx ⊢
        by_cases h : s.W ≤ s.util.length + 1
        · rw [if_pos h]
          refine ⟨a1, a2, a3, a4, a5, Or.inr ?_⟩
          simp only [List.length_append, List.length_singleton]
          omega
        · rw [if_neg h] at hx
          simp [Answer.isRaised] at hx
    · simp only [RelEnt.new, if_neg hn, Except.ok.injEq] at h0
      subst h0
      exact ⟨hstep, hstep, rfl, rfl, rfl, Or.inl rfl⟩
  · refine rejectionsUnnoticed_of_parts (I := fun s => s.stepSize ≠ 0) ?_
      (fun s _ _ => relEnt_score_state entropy s) s hstep
    intro s x _ h
    left
    simp only [RelEnt.detector, RelEnt.fitPartial]
    have hm : ∀ l : List K, ∃ bs, l.mapM (RelEnt.quantize s.minVal s.stepSize) = .ok bs := by
      intro l
      induction l with
      | nil => exact ⟨[], rfl⟩
      | cons a l ih =>
        obtain ⟨bs, hb⟩ := ih
        refine ⟨⌈(a - s.minVal) / s.stepSize⌉ :: bs, ?_⟩
        rw [List.mapM_cons, hb]
        simp [RelEnt.quantize, h]
        rfl
    obtain ⟨bs, hb⟩ := hm (RelEnt.current s.W (s.util ++ [x]))
    split
    · rw [hb]
      simp only
      split
      · exact ⟨_, rfl, h⟩
      · exact ⟨_, rfl, h⟩
    · exact ⟨_, rfl, h⟩

/-! ### `MedianAbsoluteDeviation` and `StandardAbsoluteDeviation` -/

section
variable {β K : Type*} [Field K] [LinearOrder K] [IsStrictOrderedRing K]

/-- **C91**, `MedianAbsoluteDeviation`: instances that are not a single number are rejected, and
scores before the first fit raise. -/
theorem C91_mad (absolute : Bool) (b : K) :
    RejectionsUnnoticed (medianAbsoluteDeviation (β := β)) (MadState.new absolute b) := by
  refine rejectionsUnnoticed_of_sim (R := MadAlike β b absolute)
    (fun s t c h => mad_alike b absolute s t c h) ?_ _
    ⟨[], mad_inv b absolute [], mad_inv b absolute []⟩
  rintro s t c ⟨cs, h1, h2⟩ hx
  have hk := mad_alike b absolute s t c ⟨cs, h1, h2⟩
  refine ⟨cs ++ [c], mad_step b absolute cs s c h1, ?_⟩
  rw [fitted_append, univariate_append]
  cases c with
  | score x => simpa [fitted, univariate] using h2
  | fit X y =>
    match X with
    | [] => simpa [fitted, univariate] using h2
    | _ :: _ :: _ => simpa [fitted, univariate] using h2
    | [x] =>
      rw [mad_fit_done b absolute cs s h1 x y] at hx
      simp [Answer.isRaised] at hx

end

theorem sad_rejections {β σ : Type*} {V : Multiset ℝ → Except PyErr ℝ → Prop}
    {R : Multiset ℝ → σ → Prop} {sub : Statistic σ ℝ ℝ} (hr : Refines sub V R)
    (hV : ∀ xs : List ℝ, (∃ e, ∀ r, V xs r → r = .error e) ∨
      (xs ≠ [] ∧ ∃ m, ∀ r, V xs r → r = .ok m)) (absolute : Bool) :
    RejectionsUnnoticed (standardAbsoluteDeviation (β := β) Real.sqrt sub)
      (SadState.new sub absolute) := by
  refine rejectionsUnnoticed_of_sim (R := SadAlike β R absolute)
    (fun s t c h => sad_alike hr hV absolute s t c h) ?_ _
    ⟨[], sad_inv hr absolute [], sad_inv hr absolute []⟩
  rintro s t c ⟨cs, h1, h2⟩ hx
  refine ⟨cs ++ [c], sad_step hr absolute cs s c h1, ?_⟩
  rw [fitted_append, univariate_append]
  cases c with
  | score x => simpa [fitted, univariate] using h2
  | fit X y =>
    match X with
    | [] => simpa [fitted, univariate] using h2
    | _ :: _ :: _ => simpa [fitted, univariate] using h2
    | [x] => simp [call, standardAbsoluteDeviation, Answer.isRaised] at hx

/-- **C91**, `StandardAbsoluteDeviation` with the mean. -/
theorem C91_sad_mean {β : Type*} (absolute : Bool) :
    RejectionsUnnoticed (standardAbsoluteDeviation (β := β) Real.sqrt (averageMeter ℝ))
      (SadState.new (averageMeter ℝ) absolute) :=
  sad_rejections average_refines meanValue_cases absolute

/-- **C91**, `StandardAbsoluteDeviation` with the median. -/
theorem C91_sad_median {β : Type*} (absolute : Bool) :
    RejectionsUnnoticed (standardAbsoluteDeviation (β := β) Real.sqrt (medianMeter ℝ))
      (SadState.new (medianMeter ℝ) absolute) :=
  sad_rejections median_refines medianValue_cases absolute

/-! ### Detectors that remember a rejected instance -/

/-- **C91, the full statement for `HalfSpaceTrees`.** -/
def C91_hst_statement : Prop :=
  ∀ (randint : ℕ → ℕ → ℕ × ℕ), InRange randint → ∀ (mins maxes : List ℚ) (w m D g : ℕ)
    (s : HstState ℚ), 1 ≤ w → mins.length = maxes.length → mins ≠ [] →
    Hst.new randint mins maxes w m D g = .ok s → RejectionsUnnoticed (Hst.detector ℚ Unit) s

/-- **C91 is false of `HalfSpaceTrees`**: a vector that is too short has counted for the window
and for the masses of the nodes above the missing feature when it raises. -/
theorem C91_hst_refuted : ¬ C91_hst_statement := by
  intro h
  have h1 := h (fun g n => (g % n, g + 1)) (fun g n hn => Nat.mod_lt _ (by omega)) [0, 0] [8, 8]
    2 1 2 0 _ (by norm_num) rfl (by simp) rfl [.fit [1] none, .fit [1, 1] none, .score [1, 1]]
  revert h1
  decide +kernel

/-- **C91, the full statement for `LODA`.** -/
def C91_loda_statement : Prop :=
  ∀ (rng : LodaRng ℕ ℚ) (nBins nCuts : ℕ), 1 ≤ nBins → 1 ≤ nCuts →
    RejectionsUnnoticed (Loda.detector (β := Unit) rng .fin) (Loda.new 0 nBins nCuts)

/-- A generator for the counterexample: directions of ones, and a permutation that depends on the
number of draws. -/
def turningRng : LodaRng ℕ ℚ where
  randn g r c := (List.replicate r (List.replicate c 1), g)
  permutation g n := ((List.range n).rotate (2 * g), g + 1)

/-- **C91 is false of `LODA`**: a vector of the wrong length has already zeroed more coordinates
of the first direction when it raises. -/
theorem C91_loda_refuted : ¬ C91_loda_statement := by
  intro h
  have h1 := h turningRng 2 1 (by norm_num) (by norm_num)
    [.fit [1, 1, 1, 1] none, .fit [1] none, .score [1, 1, 1, 1]]
  revert h1
  decide +kernel

/-- **C91, the full statement for `KNNCAD`.** -/
def C91_knncad_statement : Prop :=
  ∀ (inv : List (List ℚ) → Option (List (List ℚ))) (P : ℕ), 1 ≤ P →
    RejectionsUnnoticed (KnnCad.detector (β := Unit) inv) (KnnCad.new P)

/-- **C91 is false of `KNNCAD`**: after a rejected empty vector the object passes for fitted. -/
theorem C91_knncad_refuted : ¬ C91_knncad_statement := by
  intro h
  have h1 := h (fun _ => none) 1 le_rfl [.fit [] none, .score [0]]
  revert h1
  decide +kernel

/-- **C91, the full statement for `ReferenceWindowModel`.** -/
def C91_refwindow_statement : Prop :=
  ∀ (b : BatchDetector Unit ℕ ℕ ℕ ℕ) (w sl : ℕ) (s : RefWindowState Unit ℕ ℕ ℕ), 2 ≤ w →
    1 ≤ sl → RefWindow.new b () w sl none none = .ok () s →
    RejectionsUnnoticed (RefWindow.detector b) s

/-- **C91 is false of `ReferenceWindowModel`**: a labelled instance after unlabelled ones is
rejected, but has entered both windows. -/
theorem C91_refwindow_refuted : ¬ C91_refwindow_statement := by
  intro h
  have h1 := h ⟨fun g D _ => .ok D.sum g, fun m x => .ok (m + x)⟩ 2 1 _ le_rfl le_rfl rfl
    [.fit 5 none, .fit 6 none, .fit 7 (some 1), .fit 8 none, .score 0]
  revert h1
  decide +kernel

/-! A run of `PerfectModel` with rejected calls. -/
example : (calls (perfectModel Unit ℕ) [] [.score (), .fit () none, .fit () (some 1), .score (),
    .score ()]).1 = [.raised .indexError, .raised .valueError, .done, .value 1,
    .raised .indexError] := by decide

end Pysad
