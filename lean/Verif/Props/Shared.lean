import Verif.Spec.Shared
import Verif.Model.SimpleModels
import Verif.Model.Loda
import Verif.Model.Rrcf
import Verif.Model.Integrations
import Verif.Model.HalfSpaceTrees
import Verif.Model.XStream
import Verif.Model.RsHash
import Verif.Model.KnnCad
import Verif.Model.RelativeEntropy
import Verif.Model.SeasonalEsd
import Verif.Model.KitNet
import Verif.Model.Inqmad
import Verif.Model.Loop

/-! **C118.** Detectors in one process share numpy's global random generator. -/

namespace Pysad

open Spec

/-! ### Where the generator is kept -/

/-- `RandomModel` has no other state. -/
def randomGlobal (G : Type) : Global G G := ⟨id, fun g _ => g⟩

/-- LODA draws in every `fit_partial`. -/
def lodaGlobal (G K : Type) : Global (LodaState G K) G :=
  ⟨LodaState.rng, fun g s => { s with rng := g }⟩

/-- The trees of RobustRandomCutForest draw in `insert_point`. -/
def rrcfGlobal (τ G : Type) : Global (RrcfState τ G) G :=
  ⟨RrcfState.rng, fun g s => { s with rng := g }⟩

/-- ReferenceWindowModel trains models that may draw. -/
def refWindowGlobal (G M α β : Type) : Global (RefWindowState G M α β) G :=
  ⟨RefWindowState.rng, fun g s => { s with rng := g }⟩

/-! ### What holds -/

/-- The same object except for the generator. -/
def SameButGenerator {σ G : Type} (u : Global σ G) (s t : σ) : Prop := ∀ g, u.set g s = u.set g t

theorem undisturbed_of {G σ α β S : Type} {d : Detector σ α β S} {u : Global σ G}
    (hu : ∀ g h s, u.set g (u.set h s) = u.set g s)
    (hd : ∀ s t c, SameButGenerator u s t → (call d s c).1 = (call d t c).1 ∧
      SameButGenerator u (call d s c).2 (call d t c).2) :
    Undisturbed d u := by
  intro σ' α' β' S' d' u' p cs
  have key : ∀ (cs : List (Call α β ⊕ Call α' β')) (p : Process G σ σ') (t : σ),
      SameButGenerator u p.first t →
      answersOfFirst d u d' u' p cs = (calls d t (firstCalls cs)).1 := by
    intro cs
    induction cs with
    | nil => intros; rfl
    | cons c cs ih =>
      intro p t h
      cases c with
      | inr c => exact ih _ t h
      | inl c =>
        obtain ⟨h1, h2⟩ := hd (u.set p.gen p.first) t c fun g => (hu g _ _).trans (h g)
        simp only [answersOfFirst, firstCalls, calls, callFirst]
        rw [h1, ih _ _ h2]
  exact key cs p _ fun g => (hu g _ _).symm

/-- **C118, what holds.** A detector that draws nothing after its construction is undisturbed. -/
theorem C118_no_draws_partial {σ α β S : Type} (G : Type) (d : Detector σ α β S) :
    Undisturbed (besideGenerator G d) (pairGlobal G σ) := by
  apply undisturbed_of
  · intros; rfl
  · rintro ⟨g, s⟩ ⟨h, t⟩ c hst
    have e : s = t := congrArg Prod.snd (hst g)
    subst e
    cases c with
    | fit x y =>
      simp only [call, besideGenerator]
      cases d.fitPartial s x y <;> exact ⟨rfl, fun _ => rfl⟩
    | score x =>
      simp only [call, besideGenerator]
      cases d.scorePartial s x <;> exact ⟨rfl, fun _ => rfl⟩

/-- **C118, what holds.** ReferenceWindowModel is undisturbed when training does not depend on the
generator, for instance because `random_state` is given. -/
theorem C118_reference_window_partial {G M α β S : Type} (b : BatchDetector G M α β S)
    (hb : ∀ g h D Y, (b.train g D Y).out = (b.train h D Y).out) :
    Undisturbed (RefWindow.detector b) (refWindowGlobal G M α β) := by
  have same : ∀ s t : RefWindowState G M α β, SameButGenerator (refWindowGlobal G M α β) s t →
      t = { s with rng := t.rng } := by
    intro s t h
    exact (h t.rng).symm
  have fitM : ∀ (s : RefWindowState G M α β) (g : G),
      (RefWindow.fitModel b { s with rng := g }).out = (RefWindow.fitModel b s).out ∧
      ∀ k : G, { (RefWindow.fitModel b { s with rng := g }).state with rng := k }
        = { (RefWindow.fitModel b s).state with rng := k } := by
    intro s g
    unfold RefWindow.fitModel
    cases s.refX with
    | none => exact ⟨rfl, fun _ => rfl⟩
    | some D =>
      have := hb g s.rng D s.refY
      revert this
      dsimp only
      cases b.train g D s.refY <;> cases b.train s.rng D s.refY <;> intro h
      · cases h; exact ⟨rfl, fun _ => rfl⟩
      · cases h
      · cases h
      · cases h; exact ⟨rfl, fun _ => rfl⟩
  apply undisturbed_of
  · intros; rfl
  · intro s t c h
    rw [same s t h]
    generalize t.rng = g
    cases c with
    | score x =>
      simp only [call, RefWindow.detector, RefWindow.scorePartial]
      cases s.model.decision b x <;> exact ⟨rfl, fun _ => rfl⟩
    | fit x y =>
      have hfit : (RefWindow.fitPartial b { s with rng := g } x y).out
            = (RefWindow.fitPartial b s x y).out ∧
          ∀ k : G, { (RefWindow.fitPartial b { s with rng := g } x y).state with rng := k }
            = { (RefWindow.fitPartial b s x y).state with rng := k } := by
        have hstore : RefWindow.store { s with rng := g } x y
            = { RefWindow.store s x y with rng := g } := by cases y <;> rfl
        unfold RefWindow.fitPartial
        rw [hstore]
        generalize RefWindow.store s x y = s
        generalize y.isSome = l
        have hslide : (RefWindow.slide b { s with rng := g } l).out
              = (RefWindow.slide b s l).out ∧
            ∀ k : G, { (RefWindow.slide b { s with rng := g } l).state with rng := k }
              = { (RefWindow.slide b s l).state with rng := k } := by
          obtain ⟨r, m, w, sl, cx, cy, rx, ry, ir⟩ := s
          cases rx with
          | none => exact ⟨rfl, fun _ => rfl⟩
          | some D =>
            cases l with
            | false => exact fitM ⟨r, m, w, sl, [], [], some _, ry, ir⟩ g
            | true =>
              cases ry with
              | none => exact ⟨rfl, fun _ => rfl⟩
              | some Y => exact fitM ⟨r, m, w, sl, [], [], some _, some _, ir⟩ g
        unfold RefWindow.refresh
        have hshort : RefWindow.refShort { s with rng := g } = RefWindow.refShort s := rfl
        rw [hshort]
        dsimp only
        split
        · exact fitM { s with refX := some s.curX, refY := if l then some s.curY else none } g
        · split
          · exact ⟨rfl, fun _ => rfl⟩
          · split
            · exact hslide
            · exact ⟨rfl, fun _ => rfl⟩
      simp only [call, RefWindow.detector]
      revert hfit
      cases RefWindow.fitPartial b { s with rng := g } x y <;>
        cases RefWindow.fitPartial b s x y <;> intro h
      · exact ⟨rfl, fun k => (h.2 k).symm⟩
      · cases h.1
      · cases h.1
      · cases h.1; exact ⟨rfl, fun k => (h.2 k).symm⟩

/-- **C118, what holds, by name.** None of these detectors draws after its construction: they are
undisturbed by whatever else happens in the process. (Inqmad and KitNet draw from generators of
their own.) -/
theorem C118_detectors_partial (G : Type) {K : Type} [Field K] [LinearOrder K]
    [IsStrictOrderedRing K] [FloorRing K] (α : Type) (n d : ℕ) :
    (∀ dist : α → α → K,
      Undisturbed (besideGenerator G (exactStorm (β := Unit) dist)) (pairGlobal G _)) ∧
    Undisturbed (besideGenerator G (nullModel (K := K) α Unit)) (pairGlobal G _) ∧
    Undisturbed (besideGenerator G (perfectModel α K)) (pairGlobal G _) ∧
    Undisturbed (besideGenerator G (medianAbsoluteDeviation (β := Unit) (K := K)))
      (pairGlobal G _) ∧
    (∀ sqrt : K → K,
      Undisturbed (besideGenerator G (standardAbsoluteDeviation (β := Unit) sqrt (averageMeter K)))
        (pairGlobal G _) ∧
      Undisturbed (besideGenerator G (standardAbsoluteDeviation (β := Unit) sqrt (medianMeter K)))
        (pairGlobal G _)) ∧
    Undisturbed (besideGenerator G (Hst.detector K Unit)) (pairGlobal G _) ∧
    (∀ (mmh3 : String → ℕ → ℕ) (log2 : K → K),
      Undisturbed (besideGenerator G (XStream.detector (β := Unit) (k := n) mmh3 log2))
        (pairGlobal G _)) ∧
    (∀ pow2 log : K → K,
      Undisturbed (besideGenerator G (RsHash.detector (β := Unit) (dim := n) pow2 log))
        (pairGlobal G _)) ∧
    (∀ inv, Undisturbed (besideGenerator G (KnnCad.detector (β := Unit) (K := K) inv))
        (pairGlobal G _)) ∧
    (∀ entropy, Undisturbed (besideGenerator G (RelEnt.detector (β := Unit) (K := K) entropy))
        (pairGlobal G _)) ∧
    (∀ env : SesdEnv K, Undisturbed (besideGenerator G (Sesd.detector (β := Unit) env))
        (pairGlobal G _)) ∧
    (∀ env : KnEnv K, Undisturbed (besideGenerator G (KitNet.detector (β := Unit) (n := n) env))
        (pairGlobal G _)) ∧
    (∀ env : InqEnv K n d, Undisturbed (besideGenerator G (Inqmad.detector (β := Unit) env))
        (pairGlobal G _)) ∧
    (∀ (M : Type) (b : BatchDetector G M α Unit K),
      Undisturbed (besideGenerator G (oneFitModel b)) (pairGlobal G _)) ∧
    (∀ (M : Type) (lib : LoopLibrary M α K),
      Undisturbed (besideGenerator G (localOutlierProbability (β := Unit) lib))
        (pairGlobal G _)) := by
  refine ⟨?_, ?_, ?_, ?_, fun _ => ⟨?_, ?_⟩, ?_, ?_, ?_, ?_, ?_, ?_, ?_, ?_, ?_, ?_⟩
  all_goals intros; exact C118_no_draws_partial G _

/-! ### What does not -/

/-- A generator for the witnesses: it counts. -/
def counter (g : ℕ) : ℚ × ℕ := (g, g + 1)

/-- The full claim of **C118** for RandomModel. -/
def C118_random_statement : Prop :=
  Undisturbed (randomModel Unit Unit counter) (randomGlobal ℕ)

/-- **C118 is false of RandomModel**: another RandomModel takes the numbers it would have
returned. -/
theorem C118_random_refuted : ¬ C118_random_statement := by
  intro h
  have := h _ _ _ _ (randomModel Unit Unit counter) (randomGlobal ℕ) ⟨0, 0, 0⟩
    [.inr (.score ()), .inl (.score ())]
  revert this
  decide +kernel

/-- A generator for LODA: the projection is the generator's state. -/
def counterLoda : LodaRng ℕ ℚ where
  randn g r c := (List.replicate r (List.replicate c (g : ℚ)), g + 1)
  permutation g n := (List.range n, g + 1)

/-- The full claim of **C118** for LODA. -/
def C118_loda_statement : Prop :=
  Undisturbed (Loda.detector (β := Unit) counterLoda .fin) (lodaGlobal ℕ ℚ)

/-- **C118 is false of LODA**, already beside a RandomModel. -/
theorem C118_loda_refuted : ¬ C118_loda_statement := by
  intro h
  have := h _ _ _ _ (randomModel Unit Unit counter) (randomGlobal ℕ) ⟨0, Loda.new 0 2 1, 0⟩
    [.inr (.score ()), .inl (.fit [1, 1] none), .inl (.score [0, 0])]
  revert this
  decide +kernel

/-- Trees whose displacements are the number drawn when the last point was inserted. -/
def counterApi : RcTreeApi (ℕ × List (RcKey × Unit)) Unit ℚ ℕ where
  empty := (0, [])
  leaves t := t.2
  insertPoint g t x k :=
    (if k ∈ t.2.map Prod.fst then .error .keyError else .ok (g, t.2 ++ [(k, x)]), g + 1)
  forgetPoint t k := if k ∈ t.2.map Prod.fst then .ok (t.1, t.2.filter fun p => p.1 ≠ k)
    else .error .keyError
  findDuplicate t x := if t.2 = [] then .error .attributeError else .ok (x ∈ t.2.map Prod.snd)
  codisp t _ := t.1
  codispOf t _ := t.1
  leaves_empty := rfl
  insert_new g t x k h := ⟨_, _, by rw [if_neg h], rfl⟩
  insert_old g t x k h := ⟨_, by rw [if_pos h]⟩
  forget_old t k h := ⟨_, by rw [if_pos h], rfl⟩
  forget_new t k h := by rw [if_neg h]
  find_some t x h := ⟨_, by rw [if_neg h]⟩
  find_none t x h := by rw [if_pos h]

/-- The full claim of **C118** for RobustRandomCutForest. -/
def C118_rrcf_statement : Prop :=
  Undisturbed (Rrcf.detector (β := Unit) counterApi) (rrcfGlobal _ ℕ)

/-- **C118 is false of RobustRandomCutForest**, also when the other call is only a score. -/
theorem C118_rrcf_refuted : ¬ C118_rrcf_statement := by
  intro h
  have := h _ _ _ _ (randomModel Unit Unit counter) (randomGlobal ℕ) ⟨0, Rrcf.new counterApi 0 1 2, 0⟩
    [.inr (.score ()), .inl (.fit () none), .inl (.score ())]
  revert this
  decide +kernel

/-- A batch detector that remembers a number drawn in training. -/
def counterBatch : BatchDetector ℕ ℕ Unit Unit ℕ where
  train g _ _ := .ok g (g + 1)
  decision m _ := .ok m

/-- The full claim of **C118** for ReferenceWindowModel. -/
def C118_reference_window_statement : Prop :=
  Undisturbed (RefWindow.detector counterBatch) (refWindowGlobal ℕ ℕ Unit Unit)

/-- **C118 is false of ReferenceWindowModel** with a batch detector that draws. -/
theorem C118_reference_window_refuted : ¬ C118_reference_window_statement := by
  intro h
  have := h _ _ _ _ (randomModel Unit Unit counter) (randomGlobal ℕ)
    ⟨0, ⟨0, .none, 2, 1, [], [], none, none, false⟩, 0⟩
    [.inr (.score ()), .inl (.fit () none), .inl (.score ())]
  revert this
  decide +kernel

/-- ExactStorm beside a LODA that raises: nothing changes. -/
example : answersOfFirst (besideGenerator ℕ (exactStorm (β := Unit) fun a b : ℚ => |a - b|))
    (pairGlobal ℕ _) (Loda.detector (β := Unit) counterLoda .fin) (lodaGlobal ℕ ℚ)
    ⟨0, (0, .new 2 1), Loda.new 0 3 1⟩
    [.inl (.fit 5 none), .inl (.fit 6 none), .inr (.score [1]), .inr (.fit [1] none), .inl (.score 5)]
    = [.done, .done, .value 1] := by
  decide +kernel

end Pysad
