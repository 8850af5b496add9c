import Verif.Props.Integrations
import Verif.Model.SimpleModels
import Verif.Model.HalfSpaceTrees
import Verif.Model.XStream
import Verif.Model.RelativeEntropy
import Verif.Model.SeasonalEsd
import Verif.Model.RsHash
import Verif.Model.Loda
import Verif.Model.Rrcf
import Verif.Model.KnnCad
import Verif.Model.KitNet
import Verif.Model.Inqmad
import Verif.Model.Loop

/-! C180: the labels given to `fit_partial` do not influence the scores. -/

namespace Pysad

open Spec

namespace Spec

/-- The call without its label. -/
def Call.withoutLabel {α β : Type*} : Call α β → Call α β
  | .fit x _ => .fit x none
  | .score x => .score x

/-- C180: two histories that differ only in the labels are answered alike, call by call. -/
def LabelsIgnored {σ α β S : Type*} (d : Detector σ α β S) (s0 : σ) : Prop :=
  ∀ cs cs' : List (Call α β), cs.map Call.withoutLabel = cs'.map Call.withoutLabel →
    (calls d s0 cs).1 = (calls d s0 cs').1

end Spec

namespace Labels

theorem ignored {σ α β S : Type*} {d : Detector σ α β S}
    (h : ∀ s x y, d.fitPartial s x y = d.fitPartial s x none) (s0 : σ) : LabelsIgnored d s0 := by
  have key : ∀ (cs : List (Call α β)) s, calls d s cs = calls d s (cs.map Call.withoutLabel) := by
    intro cs
    induction cs with
    | nil => intro s; rfl
    | cons c cs ih =>
      intro s
      have hc : call d s c = call d s c.withoutLabel := by
        cases c with
        | fit x y => simp only [call, Call.withoutLabel, h s x y]
        | score x => rfl
      simp only [calls, List.map_cons, hc, ih]
  intro cs cs' hcs
  rw [key cs, key cs', hcs]

end Labels

open Labels

/-! ### Detectors that ignore labels -/

/-- **C180, `ExactStorm`.** -/
theorem C180_storm {α β K : Type*} [Field K] [LinearOrder K] (dist : α → α → K) (s : StormState α K) :
    LabelsIgnored (exactStorm (β := β) dist) s := ignored (fun _ _ _ => rfl) s

/-- **C180, `HalfSpaceTrees`.** -/
theorem C180_hst {β K : Type*} [Field K] [LinearOrder K] (s : HstState K) :
    LabelsIgnored (Hst.detector K β) s := ignored (fun _ _ _ => rfl) s

/-- **C180, `xStream`.** -/
theorem C180_xstream {β K : Type*} [Field K] [LinearOrder K] [IsStrictOrderedRing K] [FloorRing K] {k : ℕ}
    (mmh3 : String → ℕ → ℕ) (log2 : K → K) (s : XStreamState K k) :
    LabelsIgnored (XStream.detector (β := β) mmh3 log2) s := ignored (fun _ _ _ => rfl) s

/-- **C180, `RSHash`.** -/
theorem C180_rshash {β K : Type*} [Field K] [LinearOrder K] [IsStrictOrderedRing K] [FloorRing K] {dim : ℕ}
    (pow2 log : K → K) (s : RsHashState K dim) :
    LabelsIgnored (RsHash.detector (β := β) pow2 log) s := ignored (fun _ _ _ => rfl) s

/-- **C180, `LODA`.** -/
theorem C180_loda {G β K : Type*} [Field K] [LinearOrder K] (rng : LodaRng G K) (log : K → Num K)
    (s : LodaState G K) : LabelsIgnored (Loda.detector (β := β) rng log) s :=
  ignored (fun _ _ _ => rfl) s

/-- **C180, `KNNCAD`.** -/
theorem C180_knncad {β K : Type*} [Field K] [LinearOrder K]
    (inv : List (List K) → Option (List (List K))) (s : KnnCadState K) :
    LabelsIgnored (KnnCad.detector (β := β) inv) s := ignored (fun _ _ _ => rfl) s

/-- **C180, `KitNet`.** -/
theorem C180_kitnet {β K : Type*} [Field K] [LinearOrder K] [FloorRing K] {n : ℕ} (env : KnEnv K)
    (s : KitNetState K n) : LabelsIgnored (KitNet.detector (β := β) env) s :=
  ignored (fun _ _ _ => rfl) s

/-- **C180, `Inqmad`.** -/
theorem C180_inqmad {β K : Type*} [Field K] {n d : ℕ} (env : InqEnv K n d) (s : InqState K d) :
    LabelsIgnored (Inqmad.detector (β := β) env) s := ignored (fun _ _ _ => rfl) s

/-- **C180, `RobustRandomCutForest`.** -/
theorem C180_rrcf {τ α β K G : Type*} [Field K] (api : RcTreeApi τ α K G) (s : RrcfState τ G) :
    LabelsIgnored (Rrcf.detector (β := β) api) s := ignored (fun _ _ _ => rfl) s

/-- **C180, `RelativeEntropy`.** -/
theorem C180_relent {β K : Type*} [Field K] [LinearOrder K] [IsStrictOrderedRing K] [FloorRing K]
    (entropy : List (Num K) → List (Num K) → Num K) (s : RelEntState K) :
    LabelsIgnored (RelEnt.detector (β := β) entropy) s := ignored (fun _ _ _ => rfl) s

/-- **C180, `SeasonalESD` and `SeasonalHybridESD`.** -/
theorem C180_sesd {β K : Type*} [Field K] [LinearOrder K] (env : SesdEnv K) (s : SesdState K) :
    LabelsIgnored (Sesd.detector (β := β) env) s := ignored (fun _ _ _ => rfl) s

/-- **C180, `MedianAbsoluteDeviation`.** -/
theorem C180_mad {β K : Type*} [Field K] [LinearOrder K] (s : MadState K) :
    LabelsIgnored (medianAbsoluteDeviation (β := β)) s := ignored (fun _ _ _ => rfl) s

/-- **C180, `StandardAbsoluteDeviation`.** -/
theorem C180_sad {β σ K : Type*} [Field K] [LinearOrder K] (sqrt : K → K) (sub : Statistic σ K K)
    (s : SadState σ K) : LabelsIgnored (standardAbsoluteDeviation (β := β) sqrt sub) s :=
  ignored (fun _ _ _ => rfl) s

/-- **C180, `NullModel`, `RandomModel`, `LocalOutlierProbability` and `OneFitModel`.** -/
theorem C180_others {α β G M K S : Type*} [Field K] (uniform : G → K × G) (g : G)
    (lib : LoopLibrary M α S) (m : M) (b : BatchDetector G M α β S) (slot : ModelSlot M) :
    LabelsIgnored (nullModel α β (K := K)) () ∧ LabelsIgnored (randomModel α β uniform) g ∧
    LabelsIgnored (localOutlierProbability (β := β) lib) m ∧ LabelsIgnored (oneFitModel b) slot :=
  ⟨ignored (fun _ _ _ => rfl) _, ignored (fun _ _ _ => rfl) _, ignored (fun _ _ _ => rfl) _,
    ignored (fun _ _ _ => rfl) _⟩

/-- Two histories that differ only in their labels exist. -/
example : ([.fit 1 none, .score 2] : List (Call ℕ Bool)).map Call.withoutLabel =
    ([.fit 1 (some true), .score 2] : List (Call ℕ Bool)).map Call.withoutLabel := rfl

/-! ### `PerfectModel`, which is meant to return them -/

/-- **C180** says nothing of `PerfectModel`, which returns the labels by design. -/
theorem C180_perfect_depends {α β : Type*} (x : α) (y y' : β) (h : y ≠ y') :
    ¬ LabelsIgnored (perfectModel α β) [] := by
  intro hi
  have := hi [.fit x (some y), .score x] [.fit x (some y'), .score x] rfl
  simp [calls, call, perfectModel] at this
  exact h this

/-! ### `ReferenceWindowModel` -/

/-- The underlying detector is unsupervised: it ignores labels itself. -/
def Spec.Unsupervised {G M α β S : Type*} (b : BatchDetector G M α β S) : Prop :=
  ∀ g D Y Y', b.train g D Y = b.train g D Y'

/-- C180 for `ReferenceWindowModel` around an unsupervised detector. -/
def C180_refwindow_statement : Prop :=
  ∀ (b : BatchDetector Unit (List ℕ) ℕ ℕ (List ℕ)), Unsupervised b → ∀ w sl, 2 ≤ w → 1 ≤ sl →
    ∀ s0, RefWindow.new b () w sl none none = .ok () s0 → LabelsIgnored (RefWindow.detector b) s0

/-- **C180 is false of `ReferenceWindowModel`**: a labelled instance after an unlabelled one is
rejected although the detector does not use labels. -/
theorem C180_refwindow_refuted : ¬ C180_refwindow_statement := by
  intro h
  have := h ⟨fun _ D _ => .ok D (), fun m _ => .ok m⟩ (fun _ _ _ _ => rfl) 2 1 le_rfl le_rfl _ rfl
    [.fit 7 none, .fit 8 none] [.fit 7 none, .fit 8 (some 1)] rfl
  exact absurd this (by decide)

namespace Labels
variable {G M α β S : Type*} {b : BatchDetector G M α β S}

/-- The object without its labels. -/
def erase (s : RefWindowState G M α β) : RefWindowState G M α β := { s with curY := [], refY := none }

/-- An object that is only given labelled instances has labels for its reference window. -/
def Good (L : Bool) (s : RefWindowState G M α β) : Prop :=
  L = true → s.refX.isSome = true → s.refY.isSome = true

theorem fitModel_erase (hb : Unsupervised b) (s t : RefWindowState G M α β) (h : erase s = erase t) :
    (RefWindow.fitModel b s).mapState erase = (RefWindow.fitModel b t).mapState erase := by
  obtain ⟨g, m, w, sl, cx, cy, rx, ry, i⟩ := s
  obtain ⟨g', m', w', sl', cx', cy', rx', ry', i'⟩ := t
  simp only [erase, RefWindowState.mk.injEq] at h
  obtain ⟨rfl, rfl, rfl, rfl, rfl, -, rfl, -, rfl⟩ := h
  simp only [RefWindow.fitModel]
  cases rx with
  | none => rfl
  | some D =>
    simp only [hb g D ry ry']
    cases b.train g D ry' <;> rfl

theorem fitModel_good (L : Bool) (s : RefWindowState G M α β) (h : Good L s) :
    Good L (RefWindow.fitModel b s).state := by
  unfold RefWindow.fitModel
  cases hx : s.refX with
  | none => simp [Good]
  | some D =>
    simp only
    cases b.train s.rng D s.refY <;> simpa [Good, hx] using h

theorem fit_erase (hb : Unsupervised b) (L : Bool) (s : RefWindowState G M α β) (hg : Good L s) (x : α)
    (y : Option β) (hy : y.isSome = L) :
    (RefWindow.fitPartial b s x y).mapState erase =
      (RefWindow.fitPartial b (erase s) x none).mapState erase ∧
    Good L (RefWindow.fitPartial b s x y).state := by
  have hst : (RefWindow.store s x y).refX = s.refX ∧ (RefWindow.store s x y).refY = s.refY ∧
      (RefWindow.store s x y).initialRefWindow = s.initialRefWindow ∧
      (RefWindow.store s x y).curX = s.curX ++ [x] ∧
      (RefWindow.store s x y).slidingSize = s.slidingSize ∧
      (RefWindow.store s x y).windowSize = s.windowSize ∧
      erase (RefWindow.store s x y) = erase (RefWindow.store (erase s) x none) := by
    cases y <;> simp [RefWindow.store, erase]
  obtain ⟨h1, h2, h3, h4, h5, h6, h7⟩ := hst
  have hgs : Good L (RefWindow.store s x y) := by simpa [Good, h1, h2] using hg
  unfold RefWindow.fitPartial
  generalize RefWindow.store s x y = t at *
  have e : RefWindow.store (erase s) x none = erase t := by
    rw [h7]; simp [RefWindow.store, erase]
  rw [e]
  have hshort : RefWindow.refShort (erase t) = RefWindow.refShort t := rfl
  unfold RefWindow.refresh
  rw [hshort, show (erase t).initialRefWindow = t.initialRefWindow from rfl,
    show (erase t).curX = t.curX from rfl, show (erase t).windowSize = t.windowSize from rfl,
    show (erase t).slidingSize = t.slidingSize from rfl]
  split
  · refine ⟨fitModel_erase hb _ _ rfl, fitModel_good L _ ?_⟩
    intro hL _
    simp [hy, hL]
  · split
    · exact ⟨rfl, hgs⟩
    · split
      · unfold RefWindow.slide
        rw [show (erase t).refX = t.refX from rfl]
        cases hx : t.refX with
        | none => exact ⟨rfl, hgs⟩
        | some D =>
          simp only [Option.isSome_none, Bool.false_eq_true, if_false]
          cases hL : y.isSome with
          | false =>
            simp only [Bool.false_eq_true, if_false]
            refine ⟨fitModel_erase hb _ _ rfl, fitModel_good L _ ?_⟩
            intro hL' _
            rw [← hy, hL] at hL'
            cases hL'
          | true =>
            simp only [if_true]
            have := hgs (by rw [← hy, hL]) (by simp [hx])
            cases hry : t.refY with
            | none => simp [hry] at this
            | some Y =>
              simp only
              exact ⟨fitModel_erase hb _ _ rfl, fitModel_good L _ fun _ _ => rfl⟩
      · exact ⟨rfl, hgs⟩

theorem erase_erase (s : RefWindowState G M α β) : erase (erase s) = erase s := rfl

theorem answers_eq {σ τ T : Type*} {r : Res σ Unit} {r' : Res σ Unit} {f : σ → τ}
    (h : r.mapState f = r'.mapState f) :
    ((match r with
      | .ok _ s => ((.done : Answer T), s)
      | .err e s => (.raised e, s)).1 =
    (match r' with
      | .ok _ s => ((.done : Answer T), s)
      | .err e s => (.raised e, s)).1) ∧ f r.state = f r'.state := by
  cases r <;> cases r' <;> simp_all [Res.mapState]

/-- Uniformly labelled histories are answered like the history without labels. -/
theorem calls_erase (hb : Unsupervised b) (L : Bool) :
    ∀ (cs : List (Call α β)) (s t : RefWindowState G M α β), erase s = erase t → t.refY = none → Good L s →
      Labelled L cs →
      (calls (RefWindow.detector b) s cs).1 =
        (calls (RefWindow.detector b) t (cs.map Call.withoutLabel)).1
  | [], _, _, _, _, _, _ => rfl
  | .score x :: cs, s, t, h, ht, hg, hL => by
    have hm : s.model = t.model := by
      have := congrArg RefWindowState.model h
      exact this
    have : ∀ u : RefWindowState G M α β, call (RefWindow.detector b) u (.score x) =
        ((match u.model.decision b x with | .ok v => .value v | .error e => .raised e), u) := by
      intro u
      simp only [call, RefWindow.detector, RefWindow.scorePartial, Res.ofExcept]
      cases u.model.decision b x <;> rfl
    simp only [List.map_cons, Call.withoutLabel, calls, this, hm]
    rw [calls_erase hb L cs s t h ht hg hL]
  | .fit x y :: cs, s, t, h, ht, hg, hL => by
    obtain ⟨e1, g1⟩ := fit_erase hb L s hg x y hL.1
    have e2 := (fit_erase hb false t (by simp [Good]) x none rfl).1
    rw [← h, ← e1] at e2
    obtain ⟨a1, a2⟩ := answers_eq (T := S) e2.symm
    have hs : ∀ (u : RefWindowState G M α β) y, (call (RefWindow.detector b) u (.fit x y)).2 =
        (RefWindow.fitPartial b u x y).state := by
      intro u y
      simp only [call, RefWindow.detector]
      cases RefWindow.fitPartial b u x y <;> rfl
    simp only [List.map_cons, Call.withoutLabel, calls]
    rw [calls_erase hb L cs _ (call (RefWindow.detector b) t (.fit x none)).2
      (by rw [hs, hs]; exact a2) ?_ (by rw [hs]; exact g1) hL.2]
    · exact congrArg (· :: _) a1
    · rw [hs]
      unfold RefWindow.fitPartial RefWindow.refresh RefWindow.slide RefWindow.fitModel RefWindow.store
      simp only [Option.isSome_none, Bool.false_eq_true, if_false]
      repeat' split
      all_goals simp_all

end Labels

/-- **C180 (partial), `ReferenceWindowModel` around an unsupervised detector.** If each of the two
histories has either no labels at all or a label for every instance (and for the initial window, if
there is one), they are answered alike. -/
theorem C180_refwindow_partial {G M α β S : Type*} (b : BatchDetector G M α β S) (hb : Unsupervised b)
    (g : G) (w sl : ℕ) (I : Option (List α)) (J J' : Option (List β)) (s s' : RefWindowState G M α β)
    (h : RefWindow.new b g w sl I J = .ok () s) (h' : RefWindow.new b g w sl I J' = .ok () s')
    (L L' : Bool) (cs cs' : List (Call α β)) (hL : Labelled L cs) (hL' : Labelled L' cs')
    (hJ : L = true → I.isSome = true → J.isSome = true)
    (hJ' : L' = true → I.isSome = true → J'.isSome = true)
    (hcs : cs.map Call.withoutLabel = cs'.map Call.withoutLabel) :
    (calls (RefWindow.detector b) s cs).1 = (calls (RefWindow.detector b) s' cs').1 := by
  have key : ∀ (J : Option (List β)) (s : RefWindowState G M α β),
      RefWindow.new b g w sl I J = .ok () s → s.refX = I ∧ s.refY = J ∧
        ∃ s0, RefWindow.new b g w sl I none = .ok () s0 ∧ erase s = erase s0 ∧ s0.refY = none := by
    intro J s h
    cases I with
    | none => cases h; exact ⟨rfl, rfl, _, rfl, rfl, rfl⟩
    | some D =>
      simp only [RefWindow.new, RefWindow.fitModel, hb g D J none] at h ⊢
      cases ht : b.train g D none with
      | err e g' => rw [ht] at h; simp at h
      | ok m g' =>
        rw [ht] at h
        simp only [Res.bind_ok, Res.ok.injEq, true_and] at h
        subst h
        exact ⟨rfl, rfl, _, rfl, rfl, rfl⟩
  obtain ⟨a1, a2, s0, a3, a4, a5⟩ := key J s h
  obtain ⟨b1, b2, s0', b3, b4, b5⟩ := key J' s' h'
  have hs0 : s0 = s0' := by
    rw [a3] at b3
    simpa using b3
  subst hs0
  rw [calls_erase hb L cs s s0 a4 a5 (by rw [Good, a1, a2]; exact hJ) hL,
    calls_erase hb L' cs' s' s0 b4 b5 (by rw [Good, b1, b2]; exact hJ') hL', hcs]

/-- A stream with labels and the same stream without. -/
example : Labelled true ([.fit 1 (some 0), .score 2] : List (Call ℕ ℕ)) ∧
    Labelled false ([.fit 1 none, .score 2] : List (Call ℕ ℕ)) := ⟨⟨rfl, trivial⟩, ⟨rfl, trivial⟩⟩

end Pysad
