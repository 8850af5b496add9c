import Verif.Props.HalfSpaceTrees
import Verif.Props.Integrations
import Verif.Props.Loda
import Verif.Props.Rrcf
import Verif.Props.RsHash
import Verif.Props.SimpleModels
import Verif.Props.XStream

/-! Property C138: arguments that a constructor accepts work. -/

namespace Pysad

open Spec

section
variable {σ α β S : Type*}

/-- No fit raises, after any history, as long as the instances are well formed. -/
def Spec.FitsForever (d : Detector σ α β S) (s0 : σ) (WellFormed : α → Prop) : Prop :=
  ∀ cs : List (Call α β), (∀ x ∈ fitted cs, WellFormed x) → ∀ x y, WellFormed x →
    (call d (calls d s0 cs).2 (.fit x y)).1 = .done

/-- Every fit raises, after any history, whatever the instance. -/
def Spec.NeverFits (d : Detector σ α β S) (s0 : σ) : Prop :=
  ∀ (cs : List (Call α β)) x y, ∃ e, (call d (calls d s0 cs).2 (.fit x y)).1 = .raised e

/-- Every score raises, after any history, whatever the instance. -/
def Spec.NeverScores (d : Detector σ α β S) (s0 : σ) : Prop :=
  ∀ (cs : List (Call α β)) x, ∃ e, (call d (calls d s0 cs).2 (.score x)).1 = .raised e

theorem call_fit_raised {d : Detector σ α β S} {s : σ} {x : α} {y : Option β}
    (h : ∃ e s', d.fitPartial s x y = .err e s') : ∃ e, (call d s (.fit x y)).1 = .raised e := by
  obtain ⟨e, s', h⟩ := h
  exact ⟨e, by simp only [call, h]⟩

/-- An invariant of all calls. -/
theorem calls_keep {d : Detector σ α β S} {I : σ → Prop} (hstep : ∀ s c, I s → I (call d s c).2)
    {s : σ} (h0 : I s) (cs : List (Call α β)) : I (calls d s cs).2 :=
  calls_inv (P := fun _ s => I s) (fun _ s c h => hstep s c h) s h0 cs

theorem call_snd_fit (d : Detector σ α β S) (s : σ) (x : α) (y : Option β) :
    (call d s (.fit x y)).2 = (d.fitPartial s x y).state := by
  simp only [call]
  cases d.fitPartial s x y <;> rfl

theorem call_snd_score (d : Detector σ α β S) (s : σ) (x : α) :
    (call d s (.score x : Call α β)).2 = (d.scorePartial s x).state := by
  simp only [call]
  cases d.scorePartial s x <;> rfl

end

/-! ### RSHash -/

section
variable {β : Type*} {dim : ℕ}

/-- The claim of **C138** about `RSHash`: `fit_partial` works for every number of components and of
hash functions, which the constructor does not check. -/
def C138_rshash_statement : Prop :=
  ∀ (dim : ℕ) (comps : List (RsComponent ℝ dim)) (sp : ℕ) (decay : ℝ) (nh : ℕ),
    FitsForever (RsHash.detector (β := Unit) realPow2 Real.log) (RsHash.new comps sp decay nh)
      fun _ => True

/-- **C138 (partial).** `RSHash` works if there are components and hash functions; without
either, every fit raises. -/
theorem C138_rshash_partial (comps : List (RsComponent ℝ dim)) (sp : ℕ) (decay : ℝ) (nh : ℕ) :
    (comps ≠ [] → 1 ≤ nh → FitsForever (RsHash.detector (β := β) realPow2 Real.log)
      (RsHash.new comps sp decay nh) fun _ => True) ∧
    (comps = [] ∨ nh = 0 → NeverFits (RsHash.detector (β := β) realPow2 Real.log)
      (RsHash.new comps sp decay nh)) := by
  constructor
  · intro hm hnh cs _ x y _
    obtain ⟨s', h1, -⟩ := RsHash.fit_inv (log := Real.log)
      (fun a b => Real.rpow_add (by norm_num : (0 : ℝ) < 2) a b) comps hm decay _ _ _
      (RsHash.inv (β := β) (log := Real.log)
        (fun a b => Real.rpow_add (by norm_num : (0 : ℝ) < 2) a b) comps hm sp decay nh hnh cs) x
    show (call (RsHash.detector realPow2 Real.log) _ _).1 = _
    simp only [call, RsHash.detector]
    simp only [RsHash.detector] at h1
    rw [show RsHash.fitPartial realPow2 Real.log _ x = _ from h1]
  · intro hz cs x y
    have hfit : ∀ (s : RsHashState ℝ dim) (x : Fin dim → ℝ),
        s.components = [] ∨ s.cmsketches = [] →
        ∃ e s', RsHash.fitPartial realPow2 Real.log s x = .err e s' ∧
          (s'.components = [] ∨ s'.cmsketches = []) := by
      intro s x hs
      unfold RsHash.fitPartial
      cases hc : s.components with
      | nil => exact ⟨_, _, rfl, Or.inl rfl⟩
      | cons c l =>
        have hk : s.cmsketches = [] := hs.resolve_left (by simp [hc])
        rw [hk]
        exact ⟨_, _, rfl, Or.inr rfl⟩
    have hinv : (fun s : RsHashState ℝ dim => s.components = [] ∨ s.cmsketches = [])
        (calls (RsHash.detector (β := β) realPow2 Real.log) (RsHash.new comps sp decay nh) cs).2 := by
      refine calls_keep (I := fun s : RsHashState ℝ dim => s.components = [] ∨ s.cmsketches = [])
        ?_ ?_ cs
      · intro s c h
        cases c with
        | fit x y =>
          obtain ⟨e, s', h1, h2⟩ := hfit s x h
          rw [call_snd_fit]
          simp only [RsHash.detector, h1]
          exact h2
        | score x => exact h
      · rcases hz with h | h
        · exact Or.inl h
        · right
          rw [h]
          rfl
    obtain ⟨e, s', h1, -⟩ := hfit _ x hinv
    exact call_fit_raised ⟨e, s', h1⟩

/-- **C138 is false of `RSHash`.** -/
theorem C138_rshash_refuted : ¬ C138_rshash_statement := by
  intro h
  obtain ⟨e, he⟩ := (C138_rshash_partial (β := Unit) (dim := 1) [] 0 0 1).2 (Or.inl rfl) []
    (fun _ => 0) none
  rw [h 1 [] 0 0 1 [] (by simp [fitted]) (fun _ => 0) none trivial] at he
  cases he

end

/-! ### xStream -/

section
variable {β K : Type*} [Field K] [LinearOrder K] [IsStrictOrderedRing K] [FloorRing K] {k : ℕ}

theorem XStream.fitLoop_fs (X : Fin k → K) (l : List (Fin k)) :
    ∀ (c : XsChain K k) (d : ℕ) st, (fitLoop X c d l st).fs = c.fs := by
  induction l with
  | nil => intro c d st; rfl
  | cons f l ih =>
    intro c d st
    unfold fitLoop
    rw [ih]
    unfold record
    split <;> rfl

theorem XStream.chains_fs (mmh3 : String → ℕ → ℕ) (log2 : K → K) (p : StreamhashState K) (W : ℕ)
    (draws : List (XsDraw K k)) (cs : List (Call (List K) β)) :
    (calls (detector mmh3 log2) (new p W draws) cs).2.chains.map (fun c => c.fs) =
      draws.map fun d => d.fs := by
  refine calls_keep (d := detector mmh3 log2)
    (I := fun s : XStreamState K k => s.chains.map (fun c => c.fs) = draws.map fun d => d.fs) ?_ ?_ cs
  · intro s c h
    cases c with
    | score x =>
      rw [call_snd_score]
      simp only [detector, scorePartial]
      split <;> exact h
    | fit x y =>
      rw [call_snd_fit, ← h]
      have e : ∀ (X : Fin k → K), (s.chains.map (fitChain X)).map (fun c => c.fs) =
          s.chains.map fun c => c.fs := by
        intro X
        rw [List.map_map]
        exact List.map_congr_left fun c _ => fitLoop_fs X _ _ _ _
      simp only [detector, fitPartial]
      split
      · exact e _
      · split
        · split
          · exact e _
          · refine Eq.trans ?_ (e (project mmh3 s.streamhash x))
            simp only [Res.state, List.map_map]
            rfl
        · exact e _
  · simp [new, newChain, Function.comp_def]

theorem XStream.scoreChains_error (log2 : K → K) (X : Fin k → K) (l : List (XsChain K k))
    (h : ∃ c ∈ l, c.fs = []) : ∀ acc, ∃ e, scoreChains log2 X l acc = .error e := by
  induction l with
  | nil => simp at h
  | cons c l ih =>
    intro acc
    unfold scoreChains
    cases hc : scoreChain log2 X c with
    | error e => exact ⟨e, rfl⟩
    | ok v =>
      obtain ⟨c', hm, he⟩ := h
      rcases List.mem_cons.1 hm with rfl | hm
      · exfalso
        unfold scoreChain bincount at hc
        rw [he] at hc
        cases hc
      · exact ih ⟨c', hm, he⟩ _

/-- The claim of **C138** about `xStream`: it works for every window size, depth and number of
chains, which the constructor does not check. -/
def C138_xstream_statement : Prop :=
  ∀ (mmh3 : String → ℕ → ℕ) (log2 : ℚ → ℚ) (p : StreamhashState ℚ) (W : ℕ) (draws : List (XsDraw ℚ 1)),
    FitsForever (XStream.detector (β := Unit) mmh3 log2) (XStream.new p W draws) fun _ => True

/-- **C138 (partial).** `xStream`: with windows of one instance or more no fit raises; with windows
of none every fit does; with chains of depth zero every score raises; without chains every score
is nan. -/
theorem C138_xstream_partial (mmh3 : String → ℕ → ℕ) (log2 : K → K) (p : StreamhashState K) (W : ℕ)
    (draws : List (XsDraw K k)) :
    (1 ≤ W → FitsForever (XStream.detector (β := β) mmh3 log2) (XStream.new p W draws)
      fun _ => True) ∧
    (W = 0 → NeverFits (XStream.detector (β := β) mmh3 log2) (XStream.new p W draws)) ∧
    ((∃ d ∈ draws, d.fs = []) →
      NeverScores (XStream.detector (β := β) mmh3 log2) (XStream.new p W draws)) ∧
    (draws = [] → ∀ (cs : List (Call (List K) β)) x,
      (call (XStream.detector mmh3 log2)
        (calls (XStream.detector mmh3 log2) (XStream.new p W draws) cs).2
        (.score x : Call (List K) β)).1 = .value .nan) := by
  refine ⟨?_, ?_, ?_, ?_⟩
  · intro hW cs _ x y _
    exact (C78_xstream_widths mmh3 log2 p W hW draws cs).2 x y
  · intro hW cs x y
    have hinv : (calls (XStream.detector (β := β) mmh3 log2) (XStream.new p W draws)
        cs).2.windowSize = 0 := by
      refine calls_keep (d := XStream.detector mmh3 log2)
        (I := fun s : XStreamState K k => s.windowSize = 0) ?_ hW cs
      intro s c h
      cases c with
      | score x =>
        rw [call_snd_score]
        simp only [XStream.detector, XStream.scorePartial]
        split <;> exact h
      | fit x y =>
        rw [call_snd_fit]
        simp only [XStream.detector, XStream.fitPartial, h, if_true]
        rfl
    apply call_fit_raised
    simp only [XStream.detector, XStream.fitPartial] at hinv ⊢
    rw [if_pos hinv]
    exact ⟨_, _, rfl⟩
  · rintro ⟨d, hd, he⟩ cs x
    have hfs := XStream.chains_fs (β := β) mmh3 log2 p W draws cs
    have hc : ∃ c ∈ (calls (XStream.detector (β := β) mmh3 log2) (XStream.new p W draws) cs).2.chains,
        c.fs = [] := by
      have : ([] : List (Fin k)) ∈ draws.map fun d => d.fs := List.mem_map.2 ⟨d, hd, he⟩
      rw [← hfs] at this
      obtain ⟨c, h1, h2⟩ := List.mem_map.1 this
      exact ⟨c, h1, h2⟩
    obtain ⟨e, h⟩ := XStream.scoreChains_error log2 (XStream.project mmh3
      (calls (XStream.detector (β := β) mmh3 log2) (XStream.new p W draws) cs).2.streamhash x) _ hc 0
    refine ⟨e, ?_⟩
    simp only [call, XStream.detector, XStream.scorePartial] at h ⊢
    rw [h]
  · rintro rfl cs x
    have hfs := XStream.chains_fs (β := β) mmh3 log2 p W ([] : List (XsDraw K k)) cs
    have hc : (calls (XStream.detector (β := β) mmh3 log2) (XStream.new p W ([] : List (XsDraw K k))) cs).2.chains = [] := by
      simpa using hfs
    simp only [call, XStream.detector, XStream.scorePartial] at hc ⊢
    rw [hc]
    simp [XStream.scoreChains, npDiv]

/-- **C138 is false of `xStream`.** -/
theorem C138_xstream_refuted : ¬ C138_xstream_statement := by
  intro h
  obtain ⟨e, he⟩ := (C138_xstream_partial (β := Unit) (fun _ _ => 0) id ⟨1, 1, 1⟩ 0
    ([] : List (XsDraw ℚ 1))).2.1 rfl [] [0] none
  rw [h (fun _ _ => 0) id ⟨1, 1, 1⟩ 0 [] [] (by simp [fitted]) [0] none trivial] at he
  cases he

end

/-! ### HalfSpaceTrees -/

section
variable {β K : Type*} [Field K] [LinearOrder K]

/-- The claim of **C138** about `HalfSpaceTrees`: if the constructor returns, instances with as many
features as the bounds can be fitted. -/
def C138_hst_statement : Prop :=
  ∀ (randint : ℕ → ℕ → ℕ × ℕ) (_ : InRange randint) (mins maxes : List ℚ) (w n D g : ℕ)
    (s0 : HstState ℚ), Hst.new randint mins maxes w n D g = .ok s0 →
    FitsForever (Hst.detector ℚ Unit) s0 fun x => x.length = maxes.length

/-- **C138 (partial).** `HalfSpaceTrees`: with windows of one instance or more no fit raises; with
windows of none every fit does. -/
theorem C138_hst_partial {G : Type*} (randint : G → ℕ → ℕ × G) (hr : InRange randint)
    (mins maxes : List K) (w n D : ℕ) (g : G) (s0 : HstState K)
    (h0 : Hst.new randint mins maxes w n D g = .ok s0) :
    (1 ≤ w → FitsForever (Hst.detector K β) s0 fun x => x.length = maxes.length) ∧
    (w = 0 → NeverFits (Hst.detector K β) s0) := by
  obtain ⟨ts, rfl, -, hf, -⟩ := new_spec randint hr mins maxes w n D g s0 h0
  constructor
  · intro hw cs hX x y hx
    obtain ⟨s', h1, -⟩ := hst_fit maxes.length w D hw ts (fun t h => (hf t h).1) _ _
      (hst_inv (β := β) maxes.length w D hw ts hf cs fun x h => (hX x h).ge) x hx.ge
    simp only [call, Hst.detector] at h1 ⊢
    rw [h1]
  · intro hw cs x y
    have hstate : ∀ (s : HstState K) (x : List K), s.windowSize = 0 →
        ∃ e s', Hst.fitPartial s x = .err e s' ∧ s'.windowSize = 0 := by
      intro s x hs
      unfold Hst.fitPartial
      simp only
      cases Hst.fitRoots s.maxDepth x s.isFirstWindow s.roots with
      | err e ts => exact ⟨_, _, rfl, hs⟩
      | ok _ ts =>
        simp only [Res.mapState_ok, Res.bind_ok, hs, if_true]
        exact ⟨_, _, rfl, rfl⟩
    have hinv : (calls (Hst.detector K β) ⟨w, D, ts, true, 0⟩ cs).2.windowSize = 0 := by
      refine calls_keep (d := Hst.detector K β) (I := fun s : HstState K => s.windowSize = 0) ?_ hw cs
      intro s c h
      cases c with
      | score x =>
        rw [call_snd_score]
        simp only [Hst.detector, Hst.scorePartial]
        split <;> exact h
      | fit x y =>
        obtain ⟨e, s', h1, h2⟩ := hstate s x h
        rw [call_snd_fit]
        simp only [Hst.detector, h1]
        exact h2
    obtain ⟨e, s', h1, -⟩ := hstate _ x hinv
    exact call_fit_raised ⟨e, s', h1⟩

/-- **C138 is false of `HalfSpaceTrees`.** -/
theorem C138_hst_refuted : ¬ C138_hst_statement := by
  intro h
  have hr : InRange (fun (g n : ℕ) => (0, g)) := by
    intro g n hn
    exact hn
  obtain ⟨s0, h0⟩ : ∃ s0 : HstState ℚ,
      Hst.new (fun (g _ : ℕ) => (0, g)) [0] [1] 0 1 1 0 = .ok s0 := ⟨_, rfl⟩
  obtain ⟨e, he⟩ := (C138_hst_partial (β := Unit) _ hr [(0 : ℚ)] [1] 0 1 1 0 _ h0).2 rfl [] [0] none
  rw [h _ hr _ _ _ _ _ _ _ h0 [] (by simp [fitted]) [0] none rfl] at he
  cases he

/-- Windows of two instances, one tree of depth 1 over `[0, 8]`. -/
example : ∃ s0 : HstState ℚ, Hst.new (fun (g _ : ℕ) => (0, g)) [0] [8] 2 1 1 0 = .ok s0 ∧
    FitsForever (Hst.detector ℚ Unit) s0 fun x => x.length = 1 :=
  ⟨_, rfl, (C138_hst_partial (fun (g _ : ℕ) => (0, g)) (fun _ _ hn => hn) [0] [8] 2 1 1 0 _ rfl).1 (by norm_num)⟩

end

/-! ### LODA -/

section
variable {G β : Type*}

/-- The claim of **C138** about `LODA`: it works for every number of bins, which the constructor
does not check. -/
def C138_loda_statement : Prop :=
  ∀ (rng : LodaRng Unit ℝ) (_ : RandnShape rng) (nBins nCuts d : ℕ),
    FitsForever (Loda.detector (β := Unit) rng npLog) (Loda.new () nBins nCuts)
      fun x => x.length = d

theorem Loda.fitCuts_noBins (rng : LodaRng G ℝ) (d : ℕ) (x : List ℝ) (g : G) (cs : List (LodaCut ℝ))
    (h : cs ≠ []) : ∃ e p, fitCuts rng 0 d x g cs = .err e p ∧ p.2.length = cs.length := by
  cases cs with
  | nil => exact absurd rfl h
  | cons c cs =>
    unfold fitCuts
    simp only
    cases project _ x with
    | error e => exact ⟨_, _, rfl, by simp⟩
    | ok v =>
      simp only [Except.bind, refit, npHistogram, if_true]
      exact ⟨_, _, rfl, by simp⟩

/-- **C138 (partial).** `LODA`: with bins no fit raises, for instances of one length; without bins
every fit does (if there are cuts). -/
theorem C138_loda_partial (rng : LodaRng G ℝ) (hr : RandnShape rng) (log : ℝ → Num ℝ)
    (nBins nCuts d : ℕ) (g : G) :
    (1 ≤ nBins → FitsForever (Loda.detector (β := β) rng log) (Loda.new g nBins nCuts)
      fun x => x.length = d) ∧
    (nBins = 0 → 1 ≤ nCuts →
      NeverFits (Loda.detector (β := β) rng log) (Loda.new g nBins nCuts)) := by
  constructor
  · intro hn cs hX x y hx
    obtain ⟨hb, hc, h⟩ := loda_inv (β := β) rng hr log nBins nCuts hn g cs
    generalize (calls (Loda.detector (β := β) rng log) (Loda.new g nBins nCuts) cs).2 = s at hb hc h
    cases hF : fitted cs with
    | nil =>
      rw [hF] at h
      simp only at h
      obtain ⟨hl, hrow⟩ := hr s.rng s.nRandomCuts x.length
      obtain ⟨g', cs', h1, -⟩ := fitCuts_ok rng s.nBins x.length (hb ▸ hn) x rfl
        (rng.randn s.rng s.nRandomCuts x.length).2
        ((rng.randn s.rng s.nRandomCuts x.length).1.map fun r =>
          ⟨r, List.replicate s.nBins 0, List.replicate (s.nBins + 1) 0⟩)
        (by
          intro c hc'
          obtain ⟨r, hr', rfl⟩ := List.mem_map.1 hc'
          exact hrow r hr')
      simp only [call, Loda.detector, Loda.fitPartial, h, h1, Res.mapState_ok]
    | cons x0 X =>
      rw [hF] at h
      simp only at h
      obtain ⟨cs', h1, -, h3⟩ := h
      have hx0 : x0.length = d := hX x0 (by rw [hF]; simp)
      obtain ⟨g', cs'', h4, -⟩ := fitCuts_ok rng s.nBins x0.length (hb ▸ hn) x (hx.trans hx0.symm)
        s.rng cs' (fun c hc => (h3 c hc).choose_spec.1)
      simp only [call, Loda.detector, Loda.fitPartial, h1, h4, Res.mapState_ok]
  · intro hn hc cs x y
    have hfit : ∀ (s : LodaState G ℝ) (x : List ℝ), (s.nBins = 0 ∧ s.nRandomCuts = nCuts ∧
          ∀ p, s.arrays = some p → p.2 ≠ []) →
        ∃ e s', Loda.fitPartial rng s x = .err e s' ∧ s'.nBins = 0 ∧ s'.nRandomCuts = nCuts ∧
          ∀ p, s'.arrays = some p → p.2 ≠ [] := by
      rintro s x ⟨hb, hcu, ha⟩
      unfold Loda.fitPartial
      cases hs : s.arrays with
      | none =>
        simp only
        rw [hb]
        obtain ⟨e, p, h1, h2⟩ := Loda.fitCuts_noBins rng x.length x
          (rng.randn s.rng s.nRandomCuts x.length).2
          ((rng.randn s.rng s.nRandomCuts x.length).1.map fun r =>
            ⟨r, List.replicate 0 0, List.replicate (0 + 1) 0⟩) (by
            intro h0
            have := congrArg List.length h0
            rw [List.length_map, (hr _ _ _).1, hcu] at this
            simp at this
            omega)
        rw [h1]
        refine ⟨_, _, rfl, rfl, hcu, ?_⟩
        intro q hq h0
        obtain rfl := Option.some.inj hq
        rw [show p.2 = [] from h0] at h2
        rw [List.length_map, (hr _ _ _).1, hcu] at h2
        simp at h2
        omega
      | some q =>
        have hq := ha q hs
        obtain ⟨e, p, h1, h2⟩ := Loda.fitCuts_noBins rng q.1 x s.rng q.2 hq
        simp only
        rw [hb, h1]
        refine ⟨_, _, rfl, rfl, hcu, ?_⟩
        intro r hr' h0
        obtain rfl := Option.some.inj hr'
        rw [show p.2 = [] from h0] at h2
        exact hq (List.length_eq_zero_iff.1 h2.symm)
    have hinv := calls_keep (d := Loda.detector (β := β) rng log)
      (I := fun s : LodaState G ℝ => s.nBins = 0 ∧ s.nRandomCuts = nCuts ∧
        ∀ p, s.arrays = some p → p.2 ≠ [])
      (by
        intro s c h
        cases c with
        | fit x y =>
          obtain ⟨e, s', h1, h2⟩ := hfit s x h
          rw [call_snd_fit]
          simp only [Loda.detector, h1]
          exact h2
        | score x =>
          have : ((Loda.detector (β := β) rng log).scorePartial s x).state = s := by
            simp only [Loda.detector, Loda.scorePartial]
            split <;> split <;> rfl
          rw [call_snd_score, this]
          exact h)
      (s := Loda.new g nBins nCuts) ⟨hn, rfl, by simp [Loda.new]⟩ cs
    obtain ⟨e, s', h1, -⟩ := hfit _ x hinv
    exact call_fit_raised ⟨e, s', h1⟩

/-- **C138 is false of `LODA`.** -/
theorem C138_loda_refuted : ¬ C138_loda_statement := by
  intro h
  have hr : RandnShape (⟨fun g r c => (List.replicate r (List.replicate c 0), g),
      fun g n => (List.range n, g)⟩ : LodaRng Unit ℝ) := by
    intro g r c
    refine ⟨by simp, ?_⟩
    intro l hl
    rw [List.eq_of_mem_replicate hl]
    simp
  obtain ⟨e, he⟩ := (C138_loda_partial (β := Unit) _ hr npLog 0 1 1 ()).2 rfl le_rfl [] [0] none
  rw [h _ hr 0 1 1 [] (by simp [fitted]) [0] none rfl] at he
  cases he

end

/-! ### IForestASD -/

section
variable {G M α β S : Type*} (b : BatchDetector G M α β S)

/-- The claim of **C138** about `IForestASD`: it works for every window size, which the constructor
does not check. -/
def C138_iforest_statement : Prop :=
  ∀ (b : BatchDetector Unit Unit ℕ Empty ℕ), Trainable b → ∀ (w : ℕ) s0,
    RefWindow.newIForestASD b () none w = .ok () s0 →
    FitsForever (RefWindow.detector b) s0 fun _ => True

/-- **C138 (partial).** `IForestASD` without initial data: with windows of two or more no fit of an
unlabelled stream raises; with smaller windows every fit does, labelled or not. -/
theorem C138_iforest_partial (hb : Trainable b) (g : G) (w : ℕ) (s0 : RefWindowState G M α β)
    (h0 : RefWindow.newIForestASD b g none w = .ok () s0) :
    (2 ≤ w → ∀ cs : List (Call α β), Labelled false cs → ∀ x,
      (call (RefWindow.detector b) (calls (RefWindow.detector b) s0 cs).2 (.fit x none)).1 = .done) ∧
    (w ≤ 1 → NeverFits (RefWindow.detector b) s0) := by
  constructor
  · intro hw cs hL x
    have h := C57_refwindow_never_fails_partial hb g w w hw (by omega) false s0 h0 cs hL x none rfl
    simp only [call]
    cases hf : (RefWindow.detector b).fitPartial (calls (RefWindow.detector b) s0 cs).2 x none with
    | ok a s => rfl
    | err e s => rw [hf] at h; cases h
  · intro hw cs x y
    have hfit : ∀ (s : RefWindowState G M α β) (x : α) (y : Option β),
        (s.refX = none ∧ s.windowSize = w ∧ s.slidingSize = w) →
        ∃ e s', RefWindow.fitPartial b s x y = .err e s' ∧
          (s'.refX = none ∧ s'.windowSize = w ∧ s'.slidingSize = w) := by
      rintro s x y ⟨h1, h2, h3⟩
      have hst : (RefWindow.store s x y).refX = none ∧ (RefWindow.store s x y).windowSize = w ∧
          (RefWindow.store s x y).slidingSize = w ∧ 1 ≤ (RefWindow.store s x y).curX.length := by
        cases y <;> simp [RefWindow.store, h1, h2, h3]
      obtain ⟨k1, k2, k3, k4⟩ := hst
      unfold RefWindow.fitPartial RefWindow.refresh
      have hlt : decide ((RefWindow.store s x y).curX.length < (RefWindow.store s x y).windowSize)
          = false := by
        rw [decide_eq_false_iff_not, k2]
        omega
      rw [hlt, Bool.and_false, Bool.false_and, if_neg (by simp)]
      split
      · exact ⟨_, _, rfl, k1, k2, k3⟩
      · rename_i hne
        have hw1 : (RefWindow.store s x y).slidingSize = 1 := by omega
        rw [if_pos (by rw [hw1]; omega)]
        unfold RefWindow.slide
        rw [k1]
        exact ⟨_, _, rfl, k1, k2, k3⟩
    have hs0 : s0.refX = none ∧ s0.windowSize = w ∧ s0.slidingSize = w := by
      simp only [RefWindow.newIForestASD, RefWindow.new] at h0
      cases h0
      exact ⟨rfl, rfl, rfl⟩
    have hinv := calls_keep (d := RefWindow.detector b)
      (I := fun s : RefWindowState G M α β => s.refX = none ∧ s.windowSize = w ∧ s.slidingSize = w)
      (by
        intro s c h
        cases c with
        | fit x y =>
          obtain ⟨e, s', h1, h2⟩ := hfit s x y h
          rw [call_snd_fit]
          simp only [RefWindow.detector, h1]
          exact h2
        | score x =>
          rw [call_snd_score]
          simp only [RefWindow.detector, RefWindow.scorePartial]
          cases s.model.decision b x <;> exact h)
      hs0 cs
    obtain ⟨e, s', h1, -⟩ := hfit _ x y hinv
    exact call_fit_raised ⟨e, s', h1⟩

/-- **C138 is false of `IForestASD`.** -/
theorem C138_iforest_refuted : ¬ C138_iforest_statement := by
  intro h
  have hb : Trainable (⟨fun _ _ _ => .ok () (), fun _ x => .ok x⟩ :
      BatchDetector Unit Unit ℕ Empty ℕ) := fun _ _ _ _ => ⟨(), (), rfl⟩
  obtain ⟨e, he⟩ := (C138_iforest_partial _ hb () 1 _ rfl).2 le_rfl [] 7 none
  rw [h _ hb 1 _ rfl [] (by simp [fitted]) 7 none trivial] at he
  cases he

end

/-! ### RobustRandomCutForest -/

section
variable {τ α K G β : Type*} [Field K]

/-- The claim of **C138** about `RobustRandomCutForest`: it works for every tree size, which the
constructor does not check. -/
def C138_rrcf_statement : Prop :=
  ∀ (τ : Type) (api : RcTreeApi τ ℕ ℚ Unit) (m T : ℕ),
    FitsForever (Rrcf.detector (β := Unit) api) (Rrcf.new api () m T) fun _ => True

/-- **C138 (partial).** `RobustRandomCutForest`: with trees of size one or more no fit raises; with
trees of size zero every fit after a first one raises `KeyError`. -/
theorem C138_rrcf_partial (api : RcTreeApi τ α K G) (g : G) (m T : ℕ) :
    (1 ≤ T → FitsForever (Rrcf.detector (β := β) api) (Rrcf.new api g m T) fun _ => True) ∧
    (T = 0 → 1 ≤ m → ∀ cs : List (Call α β), fitted cs ≠ [] → ∀ x (y : Option β),
      (call (Rrcf.detector api) (calls (Rrcf.detector api) (Rrcf.new api g m T) cs).2
        (.fit x y)).1 = .raised .keyError) := by
  constructor
  · intro hT cs _ x y _
    exact (C71_rrcf_recent_partial api g m T hT cs).2.2 x y
  · rintro rfl hm cs hne x y
    have hone : ∀ (x : α) (ts : List τ) (g : G), (∀ t ∈ ts, api.leaves t = Rrcf.kept 0 ([] : List α)) →
        ∃ g' ts', Rrcf.fitTrees api 0 0 x g ts = .ok () (g', ts') ∧ ts'.length = ts.length ∧
          ∀ t ∈ ts', api.leaves t = Rrcf.kept 0 [x] := by
      intro x ts
      induction ts with
      | nil => intro g _; exact ⟨g, [], rfl, rfl, by simp⟩
      | cons t ts ih =>
        intro g h
        have ht : api.leaves t = [] := by
          rw [h t (by simp)]
          exact Rrcf.kept_all 0 [] (by simp)
        obtain ⟨t1, g1, h1, h2⟩ := api.insert_new g t x (.index ((0 : ℕ) : ℤ)) (by rw [ht]; simp)
        obtain ⟨g2, ts2, h3, h4, h5⟩ := ih g1 fun t ht => h t (by simp [ht])
        refine ⟨g2, t1 :: ts2, ?_, by simp [h4], ?_⟩
        · have hft : Rrcf.fitTree api 0 0 x g t = .ok () (g1, t1) := by
            unfold Rrcf.fitTree
            rw [if_neg (by rw [ht]; simp)]
            simp only [h1]
          simp only [Rrcf.fitTrees, hft, h3, Res.mapState_ok]
        · intro t' ht'
          rcases List.mem_cons.1 ht' with rfl | ht'
          · rw [h2, ht, Rrcf.kept_all 0 [x] (by simp)]; rfl
          · exact h5 t' ht'
    have hlater : ∀ (x z : α) (g : G) (ts : List τ), ts ≠ [] →
        (∀ t ∈ ts, api.leaves t = Rrcf.kept 0 [z]) →
        Rrcf.fitTrees api 0 1 x g ts = .err .keyError (g, ts) := by
      intro x z g ts hts h
      cases ts with
      | nil => exact absurd rfl hts
      | cons t ts =>
        have ht : api.leaves t = [(.index 0, z)] := by
          rw [h t (by simp), Rrcf.kept_all 0 [z] (by simp)]
          rfl
        have hf : Rrcf.fitTree api 0 1 x g t = .err .keyError (g, t) := by
          unfold Rrcf.fitTree
          rw [if_pos (by rw [ht]; simp)]
          have : api.forgetPoint t (.index (((1 : ℕ) : ℤ) - ((0 : ℕ) : ℤ))) = .error .keyError :=
            api.forget_new t _ (by rw [ht]; simp)
          rw [this]
        simp only [Rrcf.fitTrees, hf]
    have hinv : Rrcf.Inv api 0 m ((fitted cs).take 1)
        (calls (Rrcf.detector (β := β) api) (Rrcf.new api g m 0) cs).2 := by
      refine calls_inv (d := Rrcf.detector api)
        (P := fun (cs : List (Call α β)) s => Rrcf.Inv api 0 m ((fitted cs).take 1) s) ?_ _ ?_ cs
      · intro cs s c h
        rw [fitted_append]
        cases c with
        | score x =>
          rw [call_snd_score]
          obtain ⟨h1, h2⟩ := Rrcf.scoreTrees_spec api 0 ((fitted cs).take 1) s.numTrees x s.forest 0 s.rng
            h.leaves
          simp only [fitted, List.append_nil]
          unfold Rrcf.detector Rrcf.scorePartial
          simp only
          cases hs : Rrcf.scoreTrees api s.numTrees x 0 s.rng s.forest with
          | ok v p =>
            rw [hs] at h1 h2
            exact ⟨h.size, h.index, h1.trans h.trees, h2⟩
          | err e p =>
            rw [hs] at h1 h2
            exact ⟨h.size, h.index, h1.trans h.trees, h2⟩
        | fit x y =>
          rw [call_snd_fit]
          unfold Rrcf.detector Rrcf.fitPartial
          simp only
          rw [h.size]
          cases hF : fitted cs with
          | nil =>
            rw [hF] at h
            obtain ⟨g', ts', h1, h2, h3⟩ := hone x s.forest s.rng h.leaves
            rw [show s.index = 0 from h.index, h1]
            exact ⟨rfl, rfl, h2.trans h.trees, h3⟩
          | cons z l =>
            rw [hF] at h
            have hne : s.forest ≠ [] := by
              intro h0
              have := h.trees
              rw [h0] at this
              simp at this
              omega
            rw [show s.index = 1 from h.index, hlater x z s.rng s.forest hne h.leaves]
            exact ⟨rfl, rfl, h.trees, h.leaves⟩
      · refine ⟨rfl, rfl, by simp [Rrcf.new], ?_⟩
        intro t ht
        rw [(List.mem_replicate.1 ht).2, api.leaves_empty]
        exact (Rrcf.kept_all 0 ([] : List α) (by simp)).symm
    cases hF : fitted cs with
    | nil => exact absurd hF hne
    | cons z l =>
      rw [hF] at hinv
      have hne' : (calls (Rrcf.detector (β := β) api) (Rrcf.new api g m 0) cs).2.forest ≠ [] := by
        intro h0
        have := hinv.trees
        rw [h0] at this
        simp at this
        omega
      generalize (calls (Rrcf.detector (β := β) api) (Rrcf.new api g m 0) cs).2 = s at hinv hne'
      simp only [call, Rrcf.detector, Rrcf.fitPartial]
      rw [hinv.size, show s.index = 1 from hinv.index, hlater x z s.rng s.forest hne' hinv.leaves]

/-- **C138 is false of `RobustRandomCutForest`.** -/
theorem C138_rrcf_refuted : ¬ C138_rrcf_statement := by
  intro h
  have h1 := (C138_rrcf_partial (K := ℚ) (β := Unit) (Rrcf.listApi ℕ) () 1 0).2 rfl le_rfl [.fit 5 none]
    (by simp [fitted]) 6 none
  rw [h _ (Rrcf.listApi ℕ) 1 0 [.fit 5 none] (by simp) 6 none trivial] at h1
  cases h1

end

/-! ### ExactStorm -/

/-- **C138.** `ExactStorm` accepts every window size and no fit raises; but with windows of none
or one every score is zero, whatever the history. -/
theorem C138_storm_partial {α β K : Type*} [Field K] [LinearOrder K] (dist : α → α → K) (w : ℕ) (r : K) :
    FitsForever (exactStorm (β := β) dist) (StormState.new w r) (fun _ => True) ∧
    (w ≤ 1 → ∀ (cs : List (Call α β)) x,
      (call (exactStorm dist) (calls (exactStorm dist) (StormState.new w r) cs).2
        (.score x : Call α β)).1 = .value 0) := by
  constructor
  · intro cs _ x y _
    rfl
  · intro hw cs x
    have h := C50_storm_score (β := β) dist w r cs x
    have hz : (lastN w (fitted cs)).dropLast = [] := by
      apply List.length_eq_zero_iff.1
      rw [List.length_dropLast, lastN_length]
      omega
    simp only [hz] at h
    simp only [call, h]
    simp [nearFraction]

end Pysad
