import Verif.Props.Integrations

/-! Property C164: `ReferenceWindowModel` on streams in which only some instances have labels. -/

namespace Pysad

open Spec RefWindow

variable {G M α β S : Type*}

/-- No `fit_partial` of the history raised. -/
def Spec.NoFitRaises {σ : Type*} (d : Detector σ α β S) (s0 : σ) (cs : List (Call α β)) : Prop :=
  ∀ before x y after, cs = before ++ Call.fit x y :: after →
    (d.fitPartial (calls d s0 before).2 x y).out = .ok ()

/-- A detector that only remembers its training instances. -/
def remembering : BatchDetector Unit (List α) α β Unit where
  train g D _ := .ok D g
  decision _ _ := .ok ()

theorem remembering_trainable : Trainable (remembering : BatchDetector Unit (List α) α β Unit) :=
  fun g D _ _ => ⟨D, g, rfl⟩

/-- Both went through the same instances; the second without labels. -/
def SameInstances (b : BatchDetector G M α β S) (s : RefWindowState G M α β)
    (r : RefWindowState Unit (List α) α β) : Prop :=
  s.windowSize = r.windowSize ∧ s.slidingSize = r.slidingSize ∧ s.curX = r.curX ∧
  s.refX = r.refX ∧ s.initialRefWindow = r.initialRefWindow ∧ r.refY = none ∧
  ∀ D, r.model = .fitted D → ∃ Y, TrainedOn b s.model D Y

theorem sameInstances_fitModel {b : BatchDetector G M α β S} {s s' : RefWindowState G M α β}
    {r : RefWindowState Unit (List α) α β} (h : fitModel b s = .ok () s')
    (h1 : s.windowSize = r.windowSize) (h2 : s.slidingSize = r.slidingSize) (h3 : s.curX = r.curX)
    (h4 : s.refX = r.refX) (h5 : s.initialRefWindow = r.initialRefWindow) (h6 : r.refY = none) :
    ∃ r', fitModel remembering r = .ok () r' ∧ SameInstances b s' r' := by
  unfold fitModel at h ⊢
  rw [← h4]
  cases hX : s.refX with
  | none => simp [hX] at h
  | some D =>
    simp only [hX] at h
    cases ht : b.train s.rng D s.refY with
    | err e g => simp [ht] at h
    | ok m g =>
      simp only [ht, Res.ok.injEq, true_and] at h
      subst h
      refine ⟨_, rfl, h1, h2, h3, rfl, h5, h6, fun D' hD' => ?_⟩
      simp only [ModelSlot.fitted.injEq] at hD'
      subst hD'
      exact ⟨s.refY, s.rng, m, g, ht, rfl⟩

theorem sameInstances_fit {b : BatchDetector G M α β S} {s s' : RefWindowState G M α β}
    {r : RefWindowState Unit (List α) α β} (hs : SameInstances b s r) (x : α) (y : Option β)
    (h : fitPartial b s x y = .ok () s') :
    ∃ r', fitPartial remembering r x none = .ok () r' ∧ SameInstances b s' r' := by
  obtain ⟨h1, h2, h3, h4, h5, h6, h7⟩ := hs
  unfold fitPartial at h ⊢
  have hst : (store s x y).windowSize = r.windowSize ∧ (store s x y).slidingSize = r.slidingSize ∧
      (store s x y).curX = r.curX ++ [x] ∧ (store s x y).refX = r.refX ∧
      (store s x y).initialRefWindow = r.initialRefWindow ∧ (store s x y).model = s.model := by
    cases y <;> simp [store, h1, h2, h3, h4, h5]
  generalize store s x y = t at h hst
  obtain ⟨g1, g2, g3, g4, g5, g6⟩ := hst
  have hr : store r x none = { r with curX := r.curX ++ [x] } := rfl
  rw [hr]
  unfold refresh at h ⊢
  have hshort : refShort t = refShort { r with curX := r.curX ++ [x] } := by
    unfold refShort; rw [g4, g1]
  simp only [Option.isSome_none, Bool.false_eq_true, if_false]
  rw [hshort] at h
  simp only [g5, g1, g2, g3] at h
  split
  · rename_i hc
    rw [if_pos hc] at h
    exact sameInstances_fitModel h rfl rfl rfl rfl rfl rfl
  · rename_i hc
    rw [if_neg hc] at h
    split
    · rename_i hz
      rw [if_pos hz] at h
      cases h
    · rename_i hz
      rw [if_neg hz] at h
      split
      · rename_i hm
        rw [if_pos hm] at h
        unfold slide at h ⊢
        rw [g4] at h
        cases hX : r.refX with
        | none => simp [hX] at h
        | some D =>
          simp only [hX] at h ⊢
          cases hy : y.isSome with
          | false =>
            simp only [hy, Bool.false_eq_true, if_false, Option.isSome_none] at h ⊢
            refine sameInstances_fitModel h ?_ ?_ ?_ ?_ ?_ ?_ <;> simp [g1, g2, g3, g5, h6]
          | true =>
            simp only [hy, if_true, Option.isSome_none, Bool.false_eq_true, if_false] at h ⊢
            cases hY : t.refY with
            | none => simp [hY] at h
            | some Y =>
              simp only [hY] at h
              refine sameInstances_fitModel h ?_ ?_ ?_ ?_ ?_ ?_ <;> simp [g1, g2, g3, g5, h6]
      · rename_i hm
        rw [if_neg hm] at h
        simp only [Res.ok.injEq, true_and] at h
        subst h
        exact ⟨_, rfl, g1, g2, g3, g4, g5, h6, by rw [g6]; exact h7⟩

/-- The instances without their labels. -/
def unlabelled (cs : List (Call α β)) : List (Call α β) := (fitted cs).map fun x => .fit x none

theorem unlabelled_labelled (cs : List (Call α β)) : Labelled false (unlabelled cs) := by
  unfold unlabelled
  induction fitted cs with
  | nil => trivial
  | cons x X ih => exact ⟨rfl, ih⟩

theorem fitted_unlabelled (cs : List (Call α β)) : fitted (unlabelled cs) = fitted cs := by
  unfold unlabelled
  induction fitted cs with
  | nil => rfl
  | cons x X ih => simp [fitted, ih]

theorem sameInstances_calls {b : BatchDetector G M α β S} (s0 : RefWindowState G M α β)
    (r0 : RefWindowState Unit (List α) α β) (h0 : SameInstances b s0 r0) (cs : List (Call α β))
    (hok : NoFitRaises (RefWindow.detector b) s0 cs) :
    SameInstances b (calls (RefWindow.detector b) s0 cs).2
      (calls (RefWindow.detector remembering) r0 (unlabelled cs)).2 := by
  induction cs using List.reverseRecOn with
  | nil => exact h0
  | append_singleton cs c ih =>
    have h1 := ih fun before x y after e => hok before x y (after ++ [c]) (by rw [e]; simp)
    rw [calls_snoc]
    cases c with
    | score x =>
      rw [call_score_state _ _ _ (refWindow_score_state _ x)]
      simpa [unlabelled, fitted_append, fitted] using h1
    | fit x y =>
      have h2 : ((RefWindow.detector b).fitPartial (calls (RefWindow.detector b) s0 cs).2 x y).out
          = .ok () := hok cs x y [] rfl
      have e : unlabelled (cs ++ [Call.fit x y]) = unlabelled cs ++ [.fit x none] := by
        simp [unlabelled, fitted_append, fitted]
      rw [e, calls_snoc]
      generalize (calls (RefWindow.detector b) s0 cs).2 = u at h1 h2 ⊢
      generalize (calls (RefWindow.detector remembering) r0 (unlabelled cs)).2 = v at h1 ⊢
      cases hf : (RefWindow.detector b).fitPartial u x y with
      | err e u' => rw [hf] at h2; cases h2
      | ok _ u' =>
        obtain ⟨v', h3, h4⟩ := sameInstances_fit h1 x y hf
        have e1 : (call (RefWindow.detector b) u (.fit x y)).2 = u' := by simp only [call, hf]
        have e2 : (call (RefWindow.detector remembering) v (.fit x none)).2 = v' := by
          simp only [call, RefWindow.detector, h3]
        rw [e1, e2]
        exact h4

/-- The history of fits of a stream in which only some instances have labels. -/
def fitsOf (ps : List (ℕ × Option ℕ)) : List (Call ℕ ℕ) := ps.map fun p => .fit p.1 p.2

/-- **C164, as one would expect it, first part**: with `window_size ≥ 2` and `sliding_size ≥ 1`, no
fit raises, also when only some instances have labels. -/
def C164_no_raise_statement : Prop :=
  ∀ w sl, 2 ≤ w → 1 ≤ sl → ∀ s0, RefWindow.new dataDetector () w sl none none = .ok () s0 →
  ∀ ps, NoFitRaises (RefWindow.detector dataDetector) s0 (fitsOf ps)

/-- **C164, second part**: whenever the detector was trained with labels, there is one label for
each training instance. -/
def C164_number_statement : Prop :=
  ∀ w sl, 2 ≤ w → 1 ≤ sl → ∀ s0, RefWindow.new dataDetector () w sl none none = .ok () s0 →
  ∀ ps D Y, (calls (RefWindow.detector dataDetector) s0 (fitsOf ps)).2.model
      = .fitted (D, some Y) → Y.length = D.length

/-- **C164, third part**: if there is one label for each training instance, then the instances
that came with a label are trained with that label. -/
def C164_labels_statement : Prop :=
  ∀ w sl, 2 ≤ w → 1 ≤ sl → ∀ s0, RefWindow.new dataDetector () w sl none none = .ok () s0 →
  ∀ ps D Y, (calls (RefWindow.detector dataDetector) s0 (fitsOf ps)).2.model
      = .fitted (D, some Y) → Y.length = D.length →
  ∀ (i x y : ℕ), (trainingSet w sl ps)[i]? = some (x, some y) → Y[i]? = some y

/-- **C164 is false**: a fit raises. With a window of two sliding by one, the first instance
without and the second with a label, the second fit raises `ValueError`. -/
theorem C164_partly_labelled_raises_refuted : ¬ C164_no_raise_statement := by
  intro h
  have := h 2 1 le_rfl le_rfl _ rfl [(7, none), (8, some 1)] [.fit 7 none] 8 (some 1) [] rfl
  exact absurd this (by decide +kernel)

/-- **C164 is false**: too few labels. While the window fills, the labels given so far are passed
on with all the instances. -/
theorem C164_partly_labelled_number_refuted : ¬ C164_number_statement := by
  intro h
  have := h 3 1 (by norm_num) le_rfl _ rfl [(7, none), (8, some 1)] [7, 8] [1] (by decide +kernel)
  exact absurd this (by decide +kernel)

/-- **C164 is false**: the wrong labels. When an unlabelled instance makes the window slide, the
labels of the previous training set stay: here the instance 8, that was fitted with label 1, is
trained with label 0. -/
theorem C164_partly_labelled_shift_refuted : ¬ C164_labels_statement := by
  intro h
  have := h 2 1 le_rfl le_rfl _ rfl [(7, some 0), (8, some 1), (9, none)] [8, 9] [0, 1]
    (by decide +kernel) rfl 0 8 1 (by decide +kernel)
  exact absurd this (by decide +kernel)

/-- **C164 (partial).** Whatever instances have labels: as long as no fit raised, the *instances*
the detector was trained on are those of the training set of the stream. -/
theorem C164_partly_labelled_instances_partial {b : BatchDetector G M α β S} (g : G) (w sl : ℕ)
    (hw : 2 ≤ w) (hs : 1 ≤ sl) (s0 : RefWindowState G M α β)
    (h0 : RefWindow.new b g w sl none none = .ok () s0) (cs : List (Call α β))
    (hok : NoFitRaises (RefWindow.detector b) s0 cs) (hne : fitted cs ≠ []) :
    ∃ Y, TrainedOn b (calls (RefWindow.detector b) s0 cs).2.model
      (trainingSet w sl (fitted cs)) Y := by
  have hr : RefWindow.new (remembering : BatchDetector Unit (List α) α β Unit) () w sl none none
      = .ok () ⟨(), .none, w, sl, [], [], none, none, false⟩ := rfl
  simp only [RefWindow.new, Res.ok.injEq, true_and] at h0
  subst h0
  have h1 := sameInstances_calls (b := b) _ ⟨(), .none, w, sl, [], [], none, none, false⟩
    ⟨rfl, rfl, rfl, rfl, rfl, rfl, fun D hD => by cases hD⟩ cs hok
  obtain ⟨g1, m1, g2, h2, h3⟩ := C55_refwindow_training remembering_trainable () w sl hw hs false _ hr
    (unlabelled cs) (unlabelled_labelled cs) (by rwa [fitted_unlabelled])
  simp only [remembering, Res.ok.injEq] at h2
  refine h1.2.2.2.2.2.2 _ ?_
  rw [← fitted_unlabelled cs, h2.1]
  exact h3

/-- **C164 (partial).** The same with an initial window, whatever labels it has. -/
theorem C164_partly_labelled_instances_initial_partial {b : BatchDetector G M α β S} (g : G)
    (w sl : ℕ) (hw : 1 ≤ w) (hs : 1 ≤ sl) (I : List α) (J : Option (List β)) (hI : I ≠ [])
    (s0 : RefWindowState G M α β) (h0 : RefWindow.new b g w sl (some I) J = .ok () s0)
    (cs : List (Call α β)) (hok : NoFitRaises (RefWindow.detector b) s0 cs) :
    ∃ Y, TrainedOn b (calls (RefWindow.detector b) s0 cs).2.model
      (trainingSetFrom w sl I (fitted cs)) Y := by
  have hr : RefWindow.new (remembering : BatchDetector Unit (List α) α β Unit) () w sl (some I) none
      = .ok () ⟨(), .fitted I, w, sl, [], [], some I, none, true⟩ := rfl
  have h00 : SameInstances b s0 ⟨(), .fitted I, w, sl, [], [], some I, none, true⟩ := by
    simp only [RefWindow.new, fitModel] at h0
    cases ht : b.train g I J with
    | err e g' => simp [ht, Res.bind] at h0
    | ok m g' =>
      simp only [ht, Res.bind, Res.ok.injEq, true_and] at h0
      subst h0
      refine ⟨rfl, rfl, rfl, rfl, rfl, rfl, fun D hD => ?_⟩
      simp only [ModelSlot.fitted.injEq] at hD
      subst hD
      exact ⟨J, g, m, g', ht, rfl⟩
  have h1 := sameInstances_calls (b := b) _ _ h00 cs hok
  obtain ⟨g1, m1, g2, h2, h3⟩ := C55_refwindow_training_initial remembering_trainable () w sl hw hs
    false I [] hI _ hr (unlabelled cs) (unlabelled_labelled cs)
  simp only [remembering, Res.ok.injEq] at h2
  refine h1.2.2.2.2.2.2 _ ?_
  rw [← fitted_unlabelled cs, h2.1]
  exact h3

/-- A stream with some labels in which no fit raises. -/
example : (match RefWindow.new dataDetector () 3 2 none none with
    | .ok _ s0 => (calls (RefWindow.detector dataDetector) s0
        [.fit 1 (some 10), .fit 2 (some 20), .fit 3 none, .fit 4 (some 40)]).1
    | .err _ _ => []) = [.done, .done, .done, .done] := by decide +kernel

end Pysad
