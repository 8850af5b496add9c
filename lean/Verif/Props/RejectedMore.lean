import Verif.Props.Rejected

/-! Property C91 again: the remaining detectors, and what holds of those that remember a rejected
instance. -/

namespace Pysad

open Spec

/-- A history in which every fit was accepted; scores may have raised. -/
def Spec.FitsAccepted {σ α β S : Type*} (d : Detector σ α β S) (s : σ) (cs : List (Call α β)) : Prop :=
  ∀ p ∈ cs.zip (calls d s cs).1, p.2.isRaised = true → p.1.isScore = true

section
variable {σ α β S : Type*} {d : Detector σ α β S}

/-- If a score that raises leaves the state as it was, rejected scores are unnoticed. -/
theorem rejectedScores (hs : ∀ s x, (call d s (.score x)).1.isRaised = true → (call d s (.score x)).2 = s) :
    ∀ (cs : List (Call α β)) (s : σ), FitsAccepted d s cs →
      (calls d s (((cs.zip (calls d s cs).1).filter fun p => !p.2.isRaised).map Prod.fst)).1 =
        ((cs.zip (calls d s cs).1).filter fun p => !p.2.isRaised).map Prod.snd := by
  intro cs
  induction cs with
  | nil => intro s _; rfl
  | cons c cs ih =>
    intro s hf
    have hf' : FitsAccepted d (call d s c).2 cs := fun p hp =>
      hf p (by simp only [calls, List.zip_cons_cons]; exact List.mem_cons_of_mem _ hp)
    have hi := ih _ hf'
    cases hx : (call d s c).1.isRaised with
    | true =>
      have hc := hf (c, (call d s c).1) (by simp [calls]) hx
      cases c with
      | fit x y => cases hc
      | score x =>
        simp only [calls, List.zip_cons_cons, List.filter_cons, hx, Bool.not_true]
        rw [hs s x hx] at hi ⊢
        exact hi
    | false =>
      simp only [calls, List.zip_cons_cons, List.filter_cons, hx, Bool.not_false, if_true,
        List.map_cons]
      rw [hi]

end

/-! ### Detectors whose calls are never rejected, or harmlessly -/

/-- **C91**, `NullModel`. -/
theorem C91_null {α β K : Type*} [Field K] : RejectionsUnnoticed (nullModel α β (K := K)) () :=
  rejectionsUnnoticed (fun _ c hx => by cases c <;> simp [call, nullModel, Answer.isRaised] at hx) _

/-- **C91**, `RandomModel`. -/
theorem C91_random {α β G K : Type*} (uniform : G → K × G) (g : G) :
    RejectionsUnnoticed (randomModel α β uniform) g :=
  rejectionsUnnoticed (fun _ c hx => by cases c <;> simp [call, randomModel, Answer.isRaised] at hx) _

/-- **C91**, `KitNet` (with at least two features): only scores before the first fit raise. -/
theorem C91_kitnet {K β : Type*} [Field K] [LinearOrder K] [IsStrictOrderedRing K] [FloorRing K]
    {n : ℕ} {env : KnEnv K} (law : LinkageLaws env) (hn : 2 ≤ n) (maxSize : ℤ) (fmo : Option ℕ)
    (ad : ℕ) (lr hr : K) (hhr : 0 ≤ hr) :
    RejectionsUnnoticed (KitNet.detector (β := β) env) (KitNet.new n maxSize fmo ad lr hr) := by
  refine rejectionsUnnoticed_of_sim (R := fun s t => KitNet.Alike s t ∧
    ∃ h : List (Call (Fin n → K) β),
      s = (calls (KitNet.detector env) (KitNet.new n maxSize fmo ad lr hr) h).2) ?_ ?_ _
    ⟨⟨0, rfl⟩, [], rfl⟩
  · rintro s t c ⟨ha, h, rfl⟩
    obtain ⟨h1, h2⟩ := KitNet.alike_call env _ t c ha
    exact ⟨h1, h2, h ++ [c], (calls_snoc _ h c).symm⟩
  · rintro s t c ⟨ha, h, rfl⟩ hx
    cases c with
    | fit x y =>
      obtain ⟨s', hs'⟩ := (C81_kitnet_score law hn maxSize fmo ad lr hr hhr h x).1
      simp [call, KitNet.detector] at hs' hx
      rw [hs'] at hx
      simp [Answer.isRaised] at hx
    | score x =>
      refine ⟨?_, h ++ [.score x], (calls_snoc _ h _).symm⟩
      obtain ⟨q, rfl⟩ := ha
      generalize (calls (KitNet.detector env) (KitNet.new n maxSize fmo ad lr hr) h).2 = s
      refine ⟨q, ?_⟩
      obtain ⟨a, b, c', d, e, model⟩ := s
      simp only [call, KitNet.detector, KitNet.scorePartial]
      cases model with
      | none => rfl
      | some m =>
        simp only
        by_cases hv : m.v = none
        · simp only [if_pos hv]
        · simp only [if_neg hv, KitNET.execute]
          cases hv' : m.v with
          | none => exact absurd hv' hv
          | some v =>
            simp only
            cases ho : m.output with
            | none => simp [KnState.counting, hv', ho]
            | some o => simp [KnState.counting, hv', ho]

/-! ### Detectors that remember a rejected instance -/

/-- **C91 (partial)**, `HalfSpaceTrees`: as long as all fits are accepted, scores that raise leave no
trace, from every state. Missing: rejected fits (`C91_hst_refuted`). -/
theorem C91_hst_partial {K β : Type*} [Field K] [LinearOrder K] (s : HstState K)
    (cs : List (Call (List K) β)) (h : FitsAccepted (Hst.detector K β) s cs) :
    let kept := (cs.zip (calls (Hst.detector K β) s cs).1).filter fun p => !p.2.isRaised
    (calls (Hst.detector K β) s (kept.map Prod.fst)).1 = kept.map Prod.snd := by
  refine rejectedScores (fun s x _ => ?_) cs s h
  simp only [call, Hst.detector, Hst.scorePartial]
  cases s.roots.foldlM (fun acc t => (Hst.scoreTree x t).map (acc + ·)) (0 : K) <;> rfl

/-- **C91 (partial)**, `LODA`. Missing: rejected fits (`C91_loda_refuted`). -/
theorem C91_loda_partial {G K β : Type*} [Field K] [LinearOrder K] [FloorRing K] (rng : LodaRng G K)
    (log : K → Num K) (s : LodaState G K) (cs : List (Call (List K) β))
    (h : FitsAccepted (Loda.detector rng log) s cs) :
    let kept := (cs.zip (calls (Loda.detector rng log) s cs).1).filter fun p => !p.2.isRaised
    (calls (Loda.detector rng log) s (kept.map Prod.fst)).1 = kept.map Prod.snd := by
  refine rejectedScores (fun s x _ => ?_) cs s h
  simp only [call, Loda.detector, Loda.scorePartial]
  cases s.arrays with
  | none => by_cases h0 : s.nRandomCuts = 0 <;> simp [h0]
  | some q =>
    obtain ⟨n, cs⟩ := q
    simp only
    cases cs.foldlM (Loda.scoreCut log s.nBins s.nRandomCuts x) (.fin 0) <;> rfl

/-- **C91 (partial)**, `KNNCAD`. Missing: rejected fits (`C91_knncad_refuted`). -/
theorem C91_knncad_partial {K β : Type*} [Field K] [LinearOrder K]
    (inv : List (List K) → Option (List (List K))) (s : KnnCadState K) (cs : List (Call (List K) β))
    (h : FitsAccepted (KnnCad.detector inv) s cs) :
    let kept := (cs.zip (calls (KnnCad.detector inv) s cs).1).filter fun p => !p.2.isRaised
    (calls (KnnCad.detector inv) s (kept.map Prod.fst)).1 = kept.map Prod.snd := by
  refine rejectedScores (fun s x hx => ?_) cs s h
  revert hx
  simp only [call, KnnCad.detector, KnnCad.scorePartial]
  cases s.sigma with
  | none => intro _; rfl
  | some sigma =>
    simp only
    by_cases h1 : s.buf.length < KnnCad.dim ∨ s.recordCount < s.probationaryPeriod
    · simp only [if_pos h1]; intro _; trivial
    · simp only [if_neg h1]
      cases KnnCad.ncm sigma s.training (KnnCad.newItem s.buf) false with
      | error e => intro _; rfl
      | ok v =>
        simp only
        split_ifs <;> intro hx <;> trivial

/-- **C91 (partial)**, `ReferenceWindowModel`. Missing: rejected fits (`C91_refwindow_refuted`). -/
theorem C91_refwindow_partial {G M α β S : Type*} (b : BatchDetector G M α β S)
    (s : RefWindowState G M α β) (cs : List (Call α β)) (h : FitsAccepted (RefWindow.detector b) s cs) :
    let kept := (cs.zip (calls (RefWindow.detector b) s cs).1).filter fun p => !p.2.isRaised
    (calls (RefWindow.detector b) s (kept.map Prod.fst)).1 = kept.map Prod.snd := by
  refine rejectedScores (fun s x _ => ?_) cs s h
  simp only [call, RefWindow.detector, RefWindow.scorePartial]
  cases s.model.decision b x <;> rfl

/-- A history with a rejected score and accepted fits. -/
example : FitsAccepted (KnnCad.detector (β := Unit) (fun _ => none)) (KnnCad.new 50 : KnnCadState ℚ)
      [.score [0], .fit [1] none, .score [0]] ∧
    (calls (KnnCad.detector (β := Unit) (fun _ => none)) (KnnCad.new 50 : KnnCadState ℚ)
      [.score [0], .fit [1] none, .score [0]]).1 = [.raised .attributeError, .done, .value 0] := by
  refine ⟨?_, by decide +kernel⟩
  unfold FitsAccepted
  decide +kernel

end Pysad
