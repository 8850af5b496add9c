import Verif.Model.ByReference
import Verif.Spec.Arrays
import Verif.Proofs.Statistics
import Mathlib.Data.Rat.Floor

/-! C114: arrays that are written to after they were passed to a detector. -/

namespace Pysad
open Spec

/-! ### The full claims, and why they are false -/

/-- The full claim of **C114** for `ExactStorm`. -/
def C114_storm_statement : Prop :=
  ∀ (dist : ℚ → ℚ → ℚ) (w : ℕ) (r : ℚ),
    KeepsItsData (β := Unit) (ByRef.exactStorm dist) (StormState.new w r)
      (exactStorm (β := Unit) dist) (StormState.new w r)

/-- **C114 is false** of `ExactStorm`: of `0` and `10`, passed in the same buffer, only the latter
is remembered. -/
theorem C114_storm_refuted : ¬ C114_storm_statement := by
  intro H
  have := H (fun a b => |a - b|) 3 1 (fun _ => 0)
    [.fit 0 none, .write 0 10, .fit 1 none, .score 0]
  exact absurd this (by decide +kernel)

/-- The full claim of **C114** for `MedianAbsoluteDeviation`. -/
def C114_mad_statement : Prop :=
  ∀ (b : ℚ) (absolute : Bool),
    KeepsItsData (β := Unit) ByRef.medianAbsoluteDeviation
      (⟨b, absolute, ⟨[], 0⟩, ⟨[], 0⟩⟩ : ByRef.MadRefs ℚ)
      (medianAbsoluteDeviation (β := Unit)) (MadState.new absolute b)

/-- **C114 is false** of `MedianAbsoluteDeviation`: after `0` and `10` in the same buffer the median
is taken to be 10, so 10 gets the score 0. -/
theorem C114_mad_refuted : ¬ C114_mad_statement := by
  intro H
  have := H 1 true (fun _ => [0]) [.fit 0 none, .write 0 [10], .fit 0 none, .score 0]
  exact absurd this (by decide +kernel)

/-- The full claim of **C114** for `StandardAbsoluteDeviation` with the median. -/
def C114_sad_statement : Prop :=
  ∀ (sqrt : ℚ → ℚ) (absolute : Bool),
    KeepsItsData (β := Unit) (ByRef.standardAbsoluteDeviationMedian sqrt)
      (⟨absolute, (varianceMeter ℚ).init, ⟨[], 0⟩⟩ : SadState (MedianState ℕ) ℚ)
      (standardAbsoluteDeviation (β := Unit) sqrt (medianMeter ℚ))
      (SadState.new (medianMeter ℚ) absolute)

/-- **C114 is false** of `StandardAbsoluteDeviation` with the median: as for
`MedianAbsoluteDeviation`. -/
theorem C114_sad_refuted : ¬ C114_sad_statement := by
  intro H
  have := H (fun v => v) true (fun _ => [0]) [.fit 0 none, .write 0 [10], .fit 0 none, .score 0]
  exact absurd this (by decide +kernel)

/-- The full claim of **C114** for `RelativeEntropy`. -/
def C114_relent_statement : Prop :=
  ∀ (entropy : List (Num ℚ) → List (Num ℚ) → Num ℚ) (isf : ℤ → Num ℚ) (lo hi : ℚ) (n W : ℕ)
    (s : RelEntState ℚ), RelEnt.new isf lo hi n W = .ok s →
    KeepsItsData (β := Unit) (ByRef.relativeEntropy entropy) ⟨[], s⟩
      (RelEnt.detector (β := Unit) entropy) s

/-- **C114 is false** of `RelativeEntropy`: with two bins and windows of two, the windows `[0, 2]`
and `[2, 0]` agree, but in one buffer they are `[2, 2]` and `[0, 0]`. -/
theorem C114_relent_refuted : ¬ C114_relent_statement := by
  intro H
  have := H (fun p q => if p = q then .fin 0 else .posInf) (fun _ => .fin 1) 0 2 2 2 _ rfl
    (fun _ => 0) [.fit 0 none, .write 0 2, .fit 0 none, .write 0 0, .fit 0 none, .score 0]
  exact absurd this (by decide +kernel)

/-- The full claim of **C114** for `ReferenceWindowModel` (and `IForestASD`). -/
def C114_refwindow_statement : Prop :=
  ∀ (b : BatchDetector Unit (List ℕ) ℕ Unit ℕ) (w sl : ℕ),
    KeepsItsData (ByRef.refWindow b) (⟨(), .none, w, sl, [], [], none, none, false⟩)
      (RefWindow.detector b) (⟨(), .none, w, sl, [], [], none, none, false⟩)

/-- **C114 is false** of `ReferenceWindowModel`: the batch detector is trained on the last
contents of the buffer only. -/
theorem C114_refwindow_refuted : ¬ C114_refwindow_statement := by
  intro H
  have := H ⟨fun _ D _ => .ok D (), fun m _ => .ok m.sum⟩ 3 3 (fun _ => 1)
    [.fit 0 none, .write 0 5, .fit 0 none, .score 0]
  exact absurd this (by decide +kernel)

/-! ### What holds: callers that do not write to arrays they passed -/

section
variable {σ σ' α β S : Type*}

/-- A simulation between the run with references and the run with contents. -/
theorem refs_bridge {D : (ℕ → α) → Detector σ ℕ β S} {d : Detector σ' α β S}
    (R : (ℕ → α) → List ℕ → σ → σ' → Prop)
    (hw : ∀ h P s s' a v, R h P s s' → a ∉ P → R (Function.update h a v) P s s')
    (hf : ∀ h P s s' a y, R h P s s' →
      (call (D h) s (.fit a y)).1 = (call d s' (.fit (h a) y)).1 ∧
      R h (a :: P) (call (D h) s (.fit a y)).2 (call d s' (.fit (h a) y)).2)
    (hs : ∀ h P s s' a, R h P s s' →
      (call (D h) s (.score a)).1 = (call d s' (.score (h a))).1 ∧
      R h P (call (D h) s (.score a)).2 (call d s' (.score (h a))).2)
    (es : List (Event α β)) (h : ℕ → α) (P : List ℕ) (s : σ) (s' : σ') (hR : R h P s s')
    (hfresh : Fresh P es) : runRefs D h s es = (calls d s' (valueCalls h es)).1 := by
  induction es generalizing h P s s' with
  | nil => rfl
  | cons e es ih =>
    cases e with
    | write a v =>
      exact ih _ P s s' (hw h P s s' a v hR hfresh.1) hfresh.2
    | fit a y =>
      obtain ⟨h1, h2⟩ := hf h P s s' a y hR
      simp only [runRefs, valueCalls, calls]
      rw [h1, ih _ _ _ _ h2 hfresh]
    | score a =>
      obtain ⟨h1, h2⟩ := hs h P s s' a hR
      simp only [runRefs, valueCalls, calls]
      rw [h1, ih _ _ _ _ h2 hfresh]

theorem map_update_of_not_mem {γ : Type*} (f : α → γ) (h : ℕ → α) (a : ℕ) (v : α) (l P : List ℕ)
    (hl : ∀ x ∈ l, x ∈ P) (ha : a ∉ P) :
    l.map (fun x => f (Function.update h a v x)) = l.map fun x => f (h x) := by
  apply List.map_congr_left
  intro x hx
  rw [Function.update_of_ne]
  rintro rfl
  exact ha (hl x hx)

end

/-- **C114, what holds** of `ExactStorm`: with callers that do not write to arrays they have passed
to `fit_partial`, it answers as for the contents. (Missing: other callers.) -/
theorem C114_storm_partial {α β K : Type*} [Zero K] [NatCast K] [Div K] [LT K] [DecidableLT K]
    (dist : α → α → K) (w : ℕ) (r : K) (h : ℕ → α) (es : List (Event α β)) (hes : Fresh [] es) :
    runRefs (ByRef.exactStorm dist) h (StormState.new w r) es =
      (calls (exactStorm dist) (StormState.new w r) (valueCalls h es)).1 := by
  apply refs_bridge (fun h P (s : StormState ℕ K) (s' : StormState α K) =>
    s' = { window := ⟨s.window.windowSize, s.window.window.map h⟩, maxRadius := s.maxRadius } ∧
      ∀ a ∈ s.window.window, a ∈ P) _ _ _ es h [] _ _ _ hes
  · rintro h P s s' a v ⟨rfl, h2⟩ ha
    refine ⟨?_, h2⟩
    have := map_update_of_not_mem id h a v _ P h2 ha
    simp only [id] at this
    congr 2
    exact this.symm
  · rintro h P s s' a y ⟨rfl, h2⟩
    refine ⟨rfl, ?_, ?_⟩
    · simp only [call, ByRef.exactStorm, exactStorm, Window.update, List.length_append,
        List.length_map, List.length_singleton]
      split
      · simp [pyTail, List.map_drop]
      · simp
    · intro x hx
      simp only [call, ByRef.exactStorm, exactStorm, Window.update] at hx
      have : x ∈ s.window.window ++ [a] := by
        split at hx
        · exact List.mem_of_mem_drop hx
        · exact hx
      rcases List.mem_append.1 this with h3 | h3
      · exact List.mem_cons_of_mem _ (h2 x h3)
      · simp at h3; simp [h3]
  · rintro h P s s' a ⟨rfl, h2⟩
    set s' : StormState α K :=
      { window := ⟨s.window.windowSize, s.window.window.map h⟩, maxRadius := s.maxRadius }
    suffices hv : ∃ v, (ByRef.exactStorm (β := β) dist h).scorePartial s a = .ok v s ∧
        (exactStorm (β := β) dist).scorePartial s' (h a) = .ok v s' by
      obtain ⟨v, e1, e2⟩ := hv
      simp only [call, e1, e2]
      exact ⟨trivial, rfl, h2⟩
    by_cases h0 : s.window.window.dropLast.length = 0
    · refine ⟨0, if_pos h0, if_pos ?_⟩
      simpa [s', Window.get] using h0
    · refine ⟨_, if_neg h0, ?_⟩
      refine (if_neg ?_).trans ?_
      · simpa [s', Window.get] using h0
      · simp only [s', Window.get, ← List.map_dropLast, List.map_map, List.length_map]
        rfl
  · exact ⟨rfl, by simp [StormState.new, Window.new]⟩

section RelEnt
variable {K : Type*} [Field K] [LinearOrder K] [IsStrictOrderedRing K] [FloorRing K]

theorem relent_score_util (entropy : List (Num K) → List (Num K) → Num K) (s : RelEntState K)
    (u : List K) (hu : u.length = s.util.length) :
    (RelEnt.scorePartial entropy { s with util := u }) =
      (RelEnt.scorePartial entropy s).mapState fun t => { t with util := u } := by
  have ha : ∀ p, RelEnt.agreement entropy { s with util := u } p = RelEnt.agreement entropy s p :=
    fun p => rfl
  simp only [RelEnt.scorePartial, hu, ha]
  split
  · obtain ⟨_, _, _, _, _, _, _, _, _, _, pHat⟩ := s
    cases pHat with
    | none => rfl
    | some p =>
      simp only
      generalize RelEnt.agreement entropy _ p = r
      cases r <;> rfl
  · rfl

theorem relent_score_state (entropy : List (Num K) → List (Num K) → Num K) (s : RelEntState K) :
    (RelEnt.scorePartial entropy s).state = s := by
  simp only [RelEnt.scorePartial]
  split
  · cases s.pHat with
    | none => rfl
    | some p =>
      simp only
      generalize RelEnt.agreement entropy s p = r
      cases r <;> rfl
  · rfl

theorem relent_fit_util (s : RelEntState K) (x : K) :
    (RelEnt.fitPartial s x).state.util = s.util ++ [x] := by
  simp only [RelEnt.fitPartial]
  split
  · split
    · rfl
    · split <;> rfl
  · rfl

/-- **C114, what holds** of `RelativeEntropy`. (Missing: callers that write to arrays they have
passed.) -/
theorem C114_relent_partial {β : Type*} (entropy : List (Num K) → List (Num K) → Num K)
    (s : RelEntState K) (hs0 : s.util = []) (h : ℕ → K) (es : List (Event K β))
    (hes : Fresh [] es) :
    runRefs (ByRef.relativeEntropy entropy) h ⟨[], s⟩ es =
      (calls (RelEnt.detector entropy) s (valueCalls h es)).1 := by
  apply refs_bridge (fun h P (r : ByRef.RelEntRefs K) (s' : RelEntState K) =>
    s' = { r.s with util := r.util.map h } ∧ r.s.util.length = r.util.length ∧
      ∀ a ∈ r.util, a ∈ P) _ _ _ es h [] _ _ _ hes
  · rintro h P s s' a v ⟨rfl, h1, h2⟩ ha
    refine ⟨?_, h1, h2⟩
    have := map_update_of_not_mem id h a v _ P h2 ha
    simp only [id] at this
    simp only
    rw [show s.util.map (Function.update h a v) = s.util.map h from this]
  · rintro h P r s' a y ⟨rfl, h1, h2⟩
    have hu := relent_fit_util { r.s with util := r.util.map h } (h a)
    simp only [call, ByRef.relativeEntropy, RelEnt.detector]
    cases hfit : RelEnt.fitPartial { r.s with util := r.util.map h } (h a) with
    | ok o t =>
      rw [hfit] at hu
      simp only [Res.state] at hu
      simp only [Res.mapState_ok, true_and]
      refine ⟨?_, ?_, ?_⟩
      · rw [List.map_append, List.map_singleton, ← hu]
      · rw [hu]; simp
      · intro x hx
        rcases List.mem_append.1 hx with h3 | h3
        · exact List.mem_cons_of_mem _ (h2 x h3)
        · simp at h3; simp [h3]
    | err e t =>
      rw [hfit] at hu
      simp only [Res.state] at hu
      simp only [Res.mapState_err, true_and]
      refine ⟨?_, ?_, ?_⟩
      · rw [List.map_append, List.map_singleton, ← hu]
      · rw [hu]; simp
      · intro x hx
        rcases List.mem_append.1 hx with h3 | h3
        · exact List.mem_cons_of_mem _ (h2 x h3)
        · simp at h3; simp [h3]
  · rintro h P r s' a ⟨rfl, h1, h2⟩
    have hst := relent_score_state entropy r.s
    have hsc := relent_score_util entropy r.s (r.util.map h) (by rw [List.length_map, h1])
    simp only [call, ByRef.relativeEntropy, RelEnt.detector, hsc]
    cases hscore : RelEnt.scorePartial entropy r.s with
    | ok o t =>
      rw [hscore] at hst
      simp only [Res.state] at hst
      subst hst
      exact ⟨rfl, rfl, h1, h2⟩
    | err e t =>
      rw [hscore] at hst
      simp only [Res.state] at hst
      subst hst
      exact ⟨rfl, rfl, h1, h2⟩
  · refine ⟨?_, by simp [hs0], by simp⟩
    simp [← hs0]

end RelEnt

section Mad
variable {K : Type*} [Field K] [LinearOrder K]

theorem byref_siftdown (key : ℕ → K) (heap : List ℕ) (a pos : ℕ) :
    (ByRef.siftdown key heap a pos).map key = siftdown (heap.map key) (key a) pos := by
  induction pos using Nat.strongRecOn generalizing heap with
  | ind pos ih =>
    unfold ByRef.siftdown siftdown
    by_cases h0 : pos = 0
    · simp [h0, List.map_set]
    · simp only [h0, if_false, List.getElem?_map]
      cases hp : heap[(pos - 1) / 2]? with
      | none => simp [List.map_set]
      | some p =>
        simp only [Option.map_some]
        split
        · rw [ih _ (by omega), List.map_set]
        · rw [List.map_set]

theorem byref_siftdown_mem (key : ℕ → K) (heap : List ℕ) (a pos : ℕ) :
    ∀ x ∈ ByRef.siftdown key heap a pos, x ∈ heap ∨ x = a := by
  induction pos using Nat.strongRecOn generalizing heap with
  | ind pos ih =>
    intro x hx
    unfold ByRef.siftdown at hx
    by_cases h0 : pos = 0
    · simp only [h0, if_true] at hx
      exact List.mem_or_eq_of_mem_set hx
    · simp only [h0, if_false] at hx
      cases hp : heap[(pos - 1) / 2]? with
      | none => rw [hp] at hx; exact List.mem_or_eq_of_mem_set hx
      | some p =>
        rw [hp] at hx
        simp only at hx
        split at hx
        · rcases ih _ (by omega) _ x hx with h1 | h1
          · rcases List.mem_or_eq_of_mem_set h1 with h2 | h2
            · exact .inl h2
            · exact .inl (h2 ▸ List.mem_of_getElem? hp)
          · exact .inr h1
        · exact List.mem_or_eq_of_mem_set hx

/-- The meter with the contents instead of the references. -/
def readMedian (key : ℕ → K) (s : MedianState ℕ) : MedianState K := ⟨s.lst.map key, s.numItems⟩

theorem byref_medianUpdate (key : ℕ → K) (s : MedianState ℕ) (a : ℕ) :
    readMedian key (ByRef.medianUpdate key s a) = (medianMeter K).update (readMedian key s) (key a) := by
  simp only [readMedian, ByRef.medianUpdate, medianMeter, heappush, byref_siftdown,
    List.map_append, List.map_singleton, List.length_map]

theorem pyIndex_map {α γ : Type*} (f : α → γ) (l : List α) (i : ℤ) :
    pyIndex (l.map f) i = (pyIndex l i).map f := by
  simp only [pyIndex, List.length_map, List.getElem?_map]
  generalize (if i < 0 then i + (l.length : ℤ) else i) = j
  by_cases hj : j < 0
  · simp only [hj, if_true]; rfl
  · simp only [hj, if_false]
    generalize l[j.toNat]? = o
    cases o <;> rfl

theorem byref_sort (key : ℕ → K) (l : List ℕ) :
    (l.insertionSort fun a b => ¬ key b < key a).map key = pySorted (l.map key) := by
  unfold pySorted
  apply List.map_insertionSort
  intro a _ b _
  exact Iff.rfl

theorem byref_medianGet (key : ℕ → K) (s : MedianState ℕ) :
    (ByRef.medianGet key s).mapState (readMedian key) = (medianMeter K).get (readMedian key s) := by
  simp only [ByRef.medianGet, medianMeter, readMedian]
  rw [← byref_sort]
  generalize (s.lst.insertionSort fun a b => ¬ key b < key a) = L
  simp only [pyIndex_map]
  split
  · cases h1 : pyIndex L (s.numItems / 2) with
    | error e => rfl
    | ok a =>
      simp only [Except.map, Res.ofExcept_ok, Res.bind_ok, pyIndex_map]
      cases h2 : pyIndex L (s.numItems / 2 - 1) with
      | error e => rfl
      | ok b => rfl
  · cases h1 : pyIndex L (s.numItems / 2) with
    | error e => rfl
    | ok a => rfl

theorem byref_medianGet_mem (key : ℕ → K) (s : MedianState ℕ) :
    ∀ x ∈ (ByRef.medianGet key s).state.lst, x ∈ s.lst := by
  have : (ByRef.medianGet key s).state.lst = s.lst.insertionSort fun a b => ¬ key b < key a := by
    simp only [ByRef.medianGet]
    split
    · cases pyIndex _ (s.numItems / 2) with
      | error e => rfl
      | ok a =>
        simp only [Res.ofExcept_ok, Res.bind_ok]
        cases pyIndex _ (s.numItems / 2 - 1) with
        | error e => rfl
        | ok b => rfl
    · cases pyIndex _ (s.numItems / 2) with
      | error e => rfl
      | ok a => rfl
  intro x hx
  rw [this] at hx
  exact (List.perm_insertionSort _ _).mem_iff.1 hx

/-- The model with the contents instead of the references. -/
def readMad (h : ℕ → List K) (s : ByRef.MadRefs K) : MadState K :=
  ⟨s.b, s.absolute, readMedian (ByRef.item h) s.medianMeter, s.madMeter⟩

/-- **C114, what holds** of `MedianAbsoluteDeviation`. (Missing: callers that write to arrays they
have passed.) -/
theorem C114_mad_partial {β : Type*} (b : K) (absolute : Bool) (h : ℕ → List K)
    (es : List (Event (List K) β)) (hes : Fresh [] es) :
    runRefs ByRef.medianAbsoluteDeviation h
        (⟨b, absolute, ⟨[], 0⟩, ⟨[], 0⟩⟩ : ByRef.MadRefs K) es =
      (calls medianAbsoluteDeviation (MadState.new absolute b) (valueCalls h es)).1 := by
  apply refs_bridge (fun h P (s : ByRef.MadRefs K) (s' : MadState K) =>
    s' = readMad h s ∧ ∀ a ∈ s.medianMeter.lst, a ∈ P) _ _ _ es h [] _ _ _ hes
  · rintro h P s s' a v ⟨rfl, h2⟩ ha
    refine ⟨?_, h2⟩
    have := map_update_of_not_mem (fun l : List K => l.headD 0) h a v _ P h2 ha
    simp only [readMad, readMedian]
    congr 2
    exact this.symm
  · rintro h P s s' a y ⟨rfl, h2⟩
    by_cases hx : ∃ x, h a = [x]
    · obtain ⟨x, hx⟩ := hx
      have hkey : ByRef.item h a = x := by simp [ByRef.item, hx]
      have hu := byref_medianUpdate (ByRef.item h) s.medianMeter a
      rw [hkey] at hu
      have hmem : ∀ z ∈ (ByRef.medianUpdate (ByRef.item h) s.medianMeter a).lst, z ∈ a :: P := by
        intro z hz
        rcases byref_siftdown_mem _ _ _ _ z hz with h3 | h3
        · rcases List.mem_append.1 h3 with h4 | h4
          · exact List.mem_cons_of_mem _ (h2 z h4)
          · simp at h4; simp [h4]
        · simp [h3]
      have hg := byref_medianGet (ByRef.item h) (ByRef.medianUpdate (ByRef.item h) s.medianMeter a)
      have hgm := byref_medianGet_mem (ByRef.item h)
        (ByRef.medianUpdate (ByRef.item h) s.medianMeter a)
      rw [hu] at hg
      simp only [call, ByRef.medianAbsoluteDeviation, medianAbsoluteDeviation, readMad, hx, ← hg]
      cases hr : ByRef.medianGet (ByRef.item h)
        (ByRef.medianUpdate (ByRef.item h) s.medianMeter a) with
      | ok m q =>
        rw [hr] at hgm
        exact ⟨rfl, rfl, fun z hz => hmem z (hgm z hz)⟩
      | err e q =>
        rw [hr] at hgm
        exact ⟨rfl, rfl, fun z hz => hmem z (hgm z hz)⟩
    · have e1 : (ByRef.medianAbsoluteDeviation (β := β) h).fitPartial s a y
          = .err .assertionError s := by
        simp only [ByRef.medianAbsoluteDeviation]
        split
        · rename_i x hx'; exact absurd ⟨x, hx'⟩ hx
        · rfl
      have e2 : (medianAbsoluteDeviation (β := β)).fitPartial (readMad h s) (h a) y
          = .err .assertionError (readMad h s) := by
        simp only [medianAbsoluteDeviation]
        split
        · rename_i x hx'; exact absurd ⟨x, hx'⟩ hx
        · rfl
      simp only [call, e1, e2]
      exact ⟨trivial, trivial, fun z hz => List.mem_cons_of_mem _ (h2 z hz)⟩
  · rintro h P s s' a ⟨rfl, h2⟩
    have hg := byref_medianGet (ByRef.item h) s.medianMeter
    have hgm := byref_medianGet_mem (ByRef.item h) s.medianMeter
    simp only [call, ByRef.medianAbsoluteDeviation, medianAbsoluteDeviation, readMad, ← hg]
    cases hr : ByRef.medianGet (ByRef.item h) s.medianMeter with
    | ok m q =>
      rw [hr] at hgm
      simp only [Res.mapState_ok, Res.bind_ok]
      cases hr2 : (medianMeter K).get s.madMeter with
      | ok m2 q2 => exact ⟨rfl, rfl, fun z hz => h2 z (hgm z hz)⟩
      | err e q2 => exact ⟨rfl, rfl, fun z hz => h2 z (hgm z hz)⟩
    | err e q =>
      rw [hr] at hgm
      exact ⟨rfl, rfl, fun z hz => h2 z (hgm z hz)⟩
  · exact ⟨rfl, by simp⟩

/-- The model with the contents instead of the references. -/
def readSad (h : ℕ → List K) (s : SadState (MedianState ℕ) K) : SadState (MedianState K) K :=
  ⟨s.absolute, s.varianceMeter, readMedian (ByRef.item h) s.subMeter⟩

/-- **C114, what holds** of `StandardAbsoluteDeviation` with the median. (Missing: callers that
write to arrays they have passed.) -/
theorem C114_sad_partial {β : Type*} (sqrt : K → K) (absolute : Bool) (h : ℕ → List K)
    (es : List (Event (List K) β)) (hes : Fresh [] es) :
    runRefs (ByRef.standardAbsoluteDeviationMedian sqrt) h
        (⟨absolute, (varianceMeter K).init, ⟨[], 0⟩⟩ : SadState (MedianState ℕ) K) es =
      (calls (standardAbsoluteDeviation sqrt (medianMeter K)) (SadState.new (medianMeter K) absolute)
        (valueCalls h es)).1 := by
  apply refs_bridge (fun h P (s : SadState (MedianState ℕ) K) (s' : SadState (MedianState K) K) =>
    s' = readSad h s ∧ ∀ a ∈ s.subMeter.lst, a ∈ P) _ _ _ es h [] _ _ _ hes
  · rintro h P s s' a v ⟨rfl, h2⟩ ha
    refine ⟨?_, h2⟩
    have := map_update_of_not_mem (fun l : List K => l.headD 0) h a v _ P h2 ha
    simp only [readSad, readMedian]
    congr 2
    exact this.symm
  · rintro h P s s' a y ⟨rfl, h2⟩
    by_cases hx : ∃ x, h a = [x]
    · obtain ⟨x, hx⟩ := hx
      have hkey : ByRef.item h a = x := by simp [ByRef.item, hx]
      have hu := byref_medianUpdate (ByRef.item h) s.subMeter a
      rw [hkey] at hu
      have hmem : ∀ z ∈ (ByRef.medianUpdate (ByRef.item h) s.subMeter a).lst, z ∈ a :: P := by
        intro z hz
        rcases byref_siftdown_mem _ _ _ _ z hz with h3 | h3
        · rcases List.mem_append.1 h3 with h4 | h4
          · exact List.mem_cons_of_mem _ (h2 z h4)
          · simp at h4; simp [h4]
        · simp [h3]
      simp only [call, ByRef.standardAbsoluteDeviationMedian, standardAbsoluteDeviation, readSad, hx,
        ← hu]
      exact ⟨trivial, trivial, hmem⟩
    · have e1 : (ByRef.standardAbsoluteDeviationMedian (β := β) sqrt h).fitPartial s a y
          = .err .assertionError s := by
        simp only [ByRef.standardAbsoluteDeviationMedian]
        split
        · rename_i x hx'; exact absurd ⟨x, hx'⟩ hx
        · rfl
      have e2 : (standardAbsoluteDeviation (β := β) sqrt (medianMeter K)).fitPartial (readSad h s)
          (h a) y = .err .assertionError (readSad h s) := by
        simp only [standardAbsoluteDeviation]
        split
        · rename_i x hx'; exact absurd ⟨x, hx'⟩ hx
        · rfl
      simp only [call, e1, e2]
      exact ⟨trivial, trivial, fun z hz => List.mem_cons_of_mem _ (h2 z hz)⟩
  · rintro h P s s' a ⟨rfl, h2⟩
    have hg := byref_medianGet (ByRef.item h) s.subMeter
    have hgm := byref_medianGet_mem (ByRef.item h) s.subMeter
    simp only [call, ByRef.standardAbsoluteDeviationMedian, standardAbsoluteDeviation, readSad, ← hg]
    cases hr : ByRef.medianGet (ByRef.item h) s.subMeter with
    | ok m q =>
      rw [hr] at hgm
      simp only [Res.mapState_ok, Res.bind_ok]
      cases hr2 : (varianceMeter K).get s.varianceMeter with
      | ok m2 q2 => exact ⟨rfl, rfl, fun z hz => h2 z (hgm z hz)⟩
      | err e q2 => exact ⟨rfl, rfl, fun z hz => h2 z (hgm z hz)⟩
    | err e q =>
      rw [hr] at hgm
      exact ⟨rfl, rfl, fun z hz => h2 z (hgm z hz)⟩
  · exact ⟨rfl, by simp⟩

end Mad

section RefWindow
variable {G M α β S : Type*}

/-- The model with the contents instead of the references. -/
def readWindow (h : ℕ → α) (s : RefWindowState G M (ByRef.Cell α) β) : RefWindowState G M α β :=
  ⟨s.rng, s.model, s.windowSize, s.slidingSize, s.curX.map (ByRef.Cell.read h), s.curY,
    s.refX.map (List.map (ByRef.Cell.read h)), s.refY, s.initialRefWindow⟩

/-- All references kept are among `P`. -/
def refsIn (P : List ℕ) (s : RefWindowState G M (ByRef.Cell α) β) : Prop :=
  (∀ a, ByRef.Cell.ref a ∈ s.curX → a ∈ P) ∧
    ∀ D, s.refX = some D → ∀ a, ByRef.Cell.ref a ∈ D → a ∈ P

theorem byref_fitModel (b : BatchDetector G M α β S) (h : ℕ → α)
    (s : RefWindowState G M (ByRef.Cell α) β) :
    (RefWindow.fitModel (ByRef.readBatch b h) s).mapState (readWindow h)
      = RefWindow.fitModel b (readWindow h s) := by
  simp only [RefWindow.fitModel, readWindow, ByRef.readBatch]
  cases s.refX with
  | none => rfl
  | some D =>
    simp only [Option.map_some]
    cases b.train s.rng (D.map (ByRef.Cell.read h)) s.refY <;> rfl

theorem fitModel_keeps (b : BatchDetector G M α β S) (s : RefWindowState G M α β) :
    (RefWindow.fitModel b s).state.curX = s.curX ∧ (RefWindow.fitModel b s).state.refX = s.refX := by
  unfold RefWindow.fitModel
  cases h : s.refX with
  | none => simp [Res.state, h]
  | some D =>
    simp only
    cases b.train s.rng D s.refY <;> simp [Res.state, h]

theorem refsIn_fitModel (b : BatchDetector G M (ByRef.Cell α) β S) (P : List ℕ)
    (s : RefWindowState G M (ByRef.Cell α) β) (hs : refsIn P s) :
    refsIn P (RefWindow.fitModel b s).state := by
  obtain ⟨h1, h2⟩ := fitModel_keeps b s
  unfold refsIn
  rw [h1, h2]
  exact hs

theorem read_freeze (h : ℕ → α) (l : List (ByRef.Cell α)) (n : ℕ) :
    (RefWindow.keepLast n (l.map fun c => ByRef.Cell.val (ByRef.Cell.read h c))).map
      (ByRef.Cell.read h) = RefWindow.keepLast n (l.map (ByRef.Cell.read h)) := by
  simp only [RefWindow.keepLast, List.map_drop, List.map_map, List.length_map]
  rfl

theorem no_refs_freeze (h : ℕ → α) (l : List (ByRef.Cell α)) (n a : ℕ) :
    ByRef.Cell.ref a ∉ RefWindow.keepLast n
      (l.map fun c => ByRef.Cell.val (ByRef.Cell.read h c)) := by
  intro hc
  have := List.mem_of_mem_drop hc
  obtain ⟨c, -, h2⟩ := List.mem_map.1 this
  cases h2

theorem byref_slide (b : BatchDetector G M α β S) (h : ℕ → α)
    (s : RefWindowState G M (ByRef.Cell α) β) (labelled : Bool) :
    (ByRef.slide b h s labelled).mapState (readWindow h)
      = RefWindow.slide b (readWindow h s) labelled := by
  have hro : ∀ s' : RefWindowState G M (ByRef.Cell α) β, (readWindow h s').refX =
    s'.refX.map (List.map (ByRef.Cell.read h)) := fun _ => rfl
  unfold ByRef.slide RefWindow.slide
  rw [hro]
  cases hD : s.refX with
  | none => rfl
  | some D =>
    simp only [Option.map_some]
    cases labelled with
    | false =>
      simp only [Bool.false_eq_true, if_false]
      rw [byref_fitModel]
      simp only [readWindow, Option.map_some, read_freeze]
      simp only [List.map_append, List.map_nil]
    | true =>
      simp only [if_true]
      have hry : (readWindow h s).refY = s.refY := rfl
      rw [hry]
      cases s.refY with
      | none =>
        simp only [Res.mapState_err, readWindow, Option.map_some, read_freeze]
        simp only [List.map_append]
      | some Y =>
        simp only
        rw [byref_fitModel]
        simp only [readWindow, Option.map_some, read_freeze]
        simp only [List.map_append, List.map_nil]

theorem refsIn_slide (b : BatchDetector G M α β S) (h : ℕ → α) (P : List ℕ)
    (s : RefWindowState G M (ByRef.Cell α) β) (labelled : Bool) (hs : refsIn P s) :
    refsIn P (ByRef.slide b h s labelled).state := by
  unfold ByRef.slide
  cases hD : s.refX with
  | none => exact hs
  | some D =>
    cases labelled with
    | false =>
      simp only [Bool.false_eq_true, if_false]
      apply refsIn_fitModel
      refine ⟨by simp, ?_⟩
      intro D' hD' a ha
      simp only [Option.some.injEq] at hD'
      rw [← hD'] at ha
      exact absurd ha (no_refs_freeze h _ _ _)
    | true =>
      simp only [if_true]
      cases s.refY with
      | none =>
        refine ⟨hs.1, ?_⟩
        intro D' hD' a ha
        simp only [Res.state, Option.some.injEq] at hD'
        rw [← hD'] at ha
        exact absurd ha (no_refs_freeze h _ _ _)
      | some Y =>
        apply refsIn_fitModel
        refine ⟨by simp, ?_⟩
        intro D' hD' a ha
        simp only [Option.some.injEq] at hD'
        rw [← hD'] at ha
        exact absurd ha (no_refs_freeze h _ _ _)

theorem byref_refresh (b : BatchDetector G M α β S) (h : ℕ → α)
    (s : RefWindowState G M (ByRef.Cell α) β) (labelled : Bool) :
    (ByRef.refresh b h s labelled).mapState (readWindow h)
      = RefWindow.refresh b (readWindow h s) labelled := by
  have h1 : RefWindow.refShort (readWindow h s) = RefWindow.refShort s := by
    simp only [RefWindow.refShort, readWindow]
    cases s.refX <;> simp
  have h2 : (readWindow h s).curX.length = s.curX.length := by simp [readWindow]
  have h3 : (readWindow h s).initialRefWindow = s.initialRefWindow := rfl
  have h4 : (readWindow h s).windowSize = s.windowSize := rfl
  have h5 : (readWindow h s).slidingSize = s.slidingSize := rfl
  unfold ByRef.refresh RefWindow.refresh
  rw [h1, h2, h3, h4, h5]
  split
  · rw [byref_fitModel]; rfl
  · split
    · rfl
    · split
      · rw [byref_slide]
      · rfl

theorem refsIn_refresh (b : BatchDetector G M α β S) (h : ℕ → α) (P : List ℕ)
    (s : RefWindowState G M (ByRef.Cell α) β) (labelled : Bool) (hs : refsIn P s) :
    refsIn P (ByRef.refresh b h s labelled).state := by
  unfold ByRef.refresh
  split
  · apply refsIn_fitModel
    refine ⟨hs.1, ?_⟩
    intro D hD a ha
    simp only [Option.some.injEq] at hD
    rw [← hD] at ha
    exact hs.1 a ha
  · split
    · exact hs
    · split
      · exact refsIn_slide b h P s labelled hs
      · exact hs

/-- **C114, what holds** of `ReferenceWindowModel` (and `IForestASD`), for every batch detector,
window and sliding size, without an initial window. (Missing: callers that write to arrays they
have passed.) -/
theorem C114_refwindow_partial (b : BatchDetector G M α β S) (g : G) (w sl : ℕ) (h : ℕ → α)
    (es : List (Event α β)) (hes : Fresh [] es) :
    runRefs (ByRef.refWindow b) h (⟨g, .none, w, sl, [], [], none, none, false⟩) es =
      (calls (RefWindow.detector b) (⟨g, .none, w, sl, [], [], none, none, false⟩)
        (valueCalls h es)).1 := by
  apply refs_bridge (fun h P (s : RefWindowState G M (ByRef.Cell α) β)
    (s' : RefWindowState G M α β) => s' = readWindow h s ∧ refsIn P s) _ _ _ es h [] _ _ _ hes
  · rintro h P s s' a v ⟨rfl, h2⟩ ha
    refine ⟨?_, h2⟩
    have hmap : ∀ l : List (ByRef.Cell α), (∀ x, ByRef.Cell.ref x ∈ l → x ∈ P) →
        l.map (ByRef.Cell.read h) = l.map (ByRef.Cell.read (Function.update h a v)) := by
      intro l hl
      apply List.map_congr_left
      intro c hc
      cases c with
      | val v => rfl
      | ref x =>
        simp only [ByRef.Cell.read]
        rw [Function.update_of_ne]
        rintro rfl
        exact ha (hl _ hc)
    unfold readWindow
    rw [hmap _ h2.1]
    congr 1
    cases hD : s.refX with
    | none => rfl
    | some D => simp only [Option.map_some]; rw [hmap _ (h2.2 D hD)]
  · rintro h P s s' a y ⟨rfl, h2⟩
    have hstore : readWindow h (RefWindow.store s (.ref a) y)
        = RefWindow.store (readWindow h s) (h a) y := by
      cases y <;> simp [RefWindow.store, readWindow, ByRef.Cell.read]
    have hin : refsIn (a :: P) (RefWindow.store s (.ref a) y) := by
      have hc : (RefWindow.store s (.ref a) y).curX = s.curX ++ [.ref a] := by cases y <;> rfl
      have hx : (RefWindow.store s (.ref a) y).refX = s.refX := by cases y <;> rfl
      unfold refsIn
      rw [hc, hx]
      refine ⟨?_, fun D hD x hxD => List.mem_cons_of_mem _ (h2.2 D hD x hxD)⟩
      intro x hxc
      rcases List.mem_append.1 hxc with h3 | h3
      · exact List.mem_cons_of_mem _ (h2.1 x h3)
      · simp at h3; simp [h3]
    have e1 := byref_refresh b h (RefWindow.store s (.ref a) y) y.isSome
    have e2 := refsIn_refresh b h _ _ y.isSome hin
    rw [hstore] at e1
    simp only [call, ByRef.refWindow, RefWindow.detector, RefWindow.fitPartial, ← e1]
    cases hr : ByRef.refresh b h (RefWindow.store s (.ref a) y) y.isSome with
    | ok o t => rw [hr] at e2; exact ⟨rfl, rfl, e2⟩
    | err e t => rw [hr] at e2; exact ⟨rfl, rfl, e2⟩
  · rintro h P s s' a ⟨rfl, h2⟩
    have e : s.model.decision (ByRef.readBatch b h) (.ref a)
        = (readWindow h s).model.decision b (h a) := by
      cases hm : s.model <;> simp [readWindow, hm, ModelSlot.decision, ByRef.readBatch,
        ByRef.Cell.read]
    simp only [call, ByRef.refWindow, RefWindow.detector, RefWindow.scorePartial, e]
    cases (readWindow h s).model.decision b (h a) with
    | ok v => exact ⟨rfl, rfl, h2⟩
    | error e => exact ⟨rfl, rfl, h2⟩
  · exact ⟨rfl, by simp [refsIn]⟩

end RefWindow

/-- The hypothesis of the partial theorems is met by a caller that uses new arrays, and one that
reuses an array for scoring. -/
example : Fresh (β := Unit) [] ([.write 0 1, .fit 0 none, .write 1 2, .score 1, .write 1 3,
    .fit 1 none, .score 0] : List (Event ℕ Unit)) := by
  simp [Fresh]

end Pysad
