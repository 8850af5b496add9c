import Verif.Model.RefWindowInterrupt
import Verif.Props.Integrations
import Verif.Props.Interrupt

/-! Property C181: what interrupted fits leave behind in `ReferenceWindowModel` (and `IForestASD`). -/

namespace Pysad

open Spec RefWindow

section
variable {G M α β S : Type*}

/-- The batch detector can be trained on any nonempty data without labels, or with one label for every
instance; it may refuse other labels. -/
def Spec.TrainsMatching (b : BatchDetector G M α β S) : Prop :=
  ∀ g D, D ≠ [] → (∃ m g', b.train g D none = .ok m g') ∧
    ∀ Y : List β, Y.length = D.length → ∃ m g', b.train g D (some Y) = .ok m g'

/-- The calls all come with a label, or all without. -/
def Spec.AllLabelled (L : Bool) (l : List (α × Option β)) : Prop := ∀ c ∈ l, c.2.isSome = L

/-- The labels given with the calls. -/
def Spec.labelsGiven (l : List (α × Option β)) : List β := l.filterMap Prod.snd

/-- The detector in use is trained on the `w` most recent of the instances fitted by `l`, with their own
labels, as of a fit that was followed by fewer than `sl` others. -/
def Spec.UpToDate (b : BatchDetector G M α β S) (w sl : ℕ) (L : Bool) (l : List (α × Option β))
    (s : RefWindowState G M α β) : Prop :=
  ∃ t, t ≤ l.length ∧ l.length < t + sl ∧ w ≤ t ∧
    TrainedOn b s.model (lastN w ((l.take t).map Prod.fst))
      (if L then some (lastN w (labelsGiven (l.take t))) else none)

end

namespace RefWindowRecovery
variable {G M α β S : Type*} (b : BatchDetector G M α β S)

/-- What `_fit_model` leaves in the attribute `model`. -/
def slot (g : G) (D : List α) (Y : Option (List β)) : ModelSlot M :=
  match b.train g D Y with
  | .ok m _ => .fitted m
  | .err _ _ => .unfitted

theorem last_stage {σ : Type*} (l : List σ) (s : σ) :
    runStatements (l.map fun t _ => t) s = l.foldl (fun _ t => t) s := by
  simp only [runStatements, List.foldl_map]

theorem foldl_last_mem {σ : Type*} (l : List σ) (s : σ) : l.foldl (fun _ t => t) s = s ∨ l.foldl (fun _ t => t) s ∈ l := by
  induction l generalizing s with
  | nil => exact Or.inl rfl
  | cons a l ih =>
    right
    rcases ih a with h | h
    · rw [List.foldl_cons, h]; exact List.mem_cons_self
    · exact List.mem_cons_of_mem _ h

theorem fitModelStages_last (s t : RefWindowState G M α β) (D : List α) (h : s.refX = some D) :
    (fitModelStages b s).foldl (fun _ t => t) t = (fitModel b s).state := by
  unfold fitModelStages fitModel
  simp only [h]
  cases b.train s.rng D s.refY <;> rfl

theorem slideStages_last (s : RefWindowState G M α β) (L : Bool) :
    (slideStages b s L).foldl (fun _ t => t) s = (slide b s L).state := by
  unfold slideStages slide
  cases h : s.refX with
  | none => rfl
  | some D =>
    cases L with
    | false =>
      simp only [Bool.false_eq_true, if_false, List.foldl_cons]
      exact fitModelStages_last b _ _ _ rfl
    | true =>
      simp only [if_true, List.foldl_cons]
      cases s.refY with
      | none => rfl
      | some Y =>
        simp only [List.foldl_cons]
        exact fitModelStages_last b _ _ _ rfl

theorem refreshStages_last (s : RefWindowState G M α β) (L : Bool) :
    (refreshStages b s L).foldl (fun _ t => t) s = (refresh b s L).state := by
  unfold refreshStages refresh
  split
  · simp only [List.foldl_cons]
    exact fitModelStages_last b _ _ _ rfl
  · split
    · rfl
    · split
      · exact slideStages_last b s L
      · rfl

/-- All the stores together are `fit_partial`. -/
theorem refwindow_statements_complete (c : α × Option β) (s : RefWindowState G M α β) :
    runStatements (statements b c s) s = (fitPartial b s c.1 c.2).state := by
  unfold statements
  rw [last_stage]
  unfold fitStages fitPartial
  rw [List.cons_append, List.foldl_cons, List.foldl_append]
  rw [← refreshStages_last]
  cases c.2 <;> rfl

/-- What every interrupted object that has a reference window has in common. -/
def Alive (w sl : ℕ) (i L : Bool) (s : RefWindowState G M α β) : Prop :=
  s.windowSize = w ∧ s.slidingSize = sl ∧ s.initialRefWindow = i ∧ s.refX.isSome = true ∧ s.refY.isSome = L

variable {w sl : ℕ} {i L : Bool}

theorem alive_fitModel {s : RefWindowState G M α β} (h : Alive w sl i L s) :
    ∀ t ∈ fitModelStages b s, Alive w sl i L t := by
  obtain ⟨h1, h2, h3, h4, h5⟩ := h
  intro t ht
  unfold fitModelStages at ht
  rw [List.mem_cons] at ht
  rcases ht with rfl | ht
  · exact ⟨h1, h2, h3, h4, h5⟩
  · split at ht
    · cases ht
    · split at ht <;>
      · rw [List.mem_singleton] at ht
        subst ht
        exact ⟨h1, h2, h3, h4, h5⟩

theorem alive_slide {s : RefWindowState G M α β} (h : Alive w sl i L s) :
    ∀ t ∈ slideStages b s L, Alive w sl i L t := by
  obtain ⟨h1, h2, h3, h4, h5⟩ := h
  intro t ht
  unfold slideStages at ht
  split at ht
  · cases ht
  · rename_i D hD
    simp only [List.mem_cons] at ht
    rcases ht with rfl | rfl | ht
    · exact ⟨h1, h2, h3, rfl, h5⟩
    · exact ⟨h1, h2, h3, rfl, h5⟩
    · cases L with
      | false =>
        simp only [Bool.false_eq_true, if_false, List.mem_cons] at ht
        rcases ht with rfl | rfl | ht
        · exact ⟨h1, h2, h3, rfl, h5⟩
        · exact ⟨h1, h2, h3, rfl, h5⟩
        · refine alive_fitModel b ?_ t ht
          exact ⟨h1, h2, h3, rfl, h5⟩
      | true =>
        simp only [if_true] at ht
        split at ht
        · cases ht
        · simp only [List.mem_cons] at ht
          rcases ht with rfl | rfl | rfl | rfl | ht
          · exact ⟨h1, h2, h3, rfl, rfl⟩
          · exact ⟨h1, h2, h3, rfl, rfl⟩
          · exact ⟨h1, h2, h3, rfl, rfl⟩
          · exact ⟨h1, h2, h3, rfl, rfl⟩
          · refine alive_fitModel b ?_ t ht
            exact ⟨h1, h2, h3, rfl, rfl⟩

/-- The refresh of an object whose labels, if any, exist: after any of its stores but the first of the
initial phase, `reference_window_y` is there iff labels are used. -/
theorem alive_refresh {s : RefWindowState G M α β} (h : Alive w sl i L s) :
    ∀ t ∈ refreshStages b s L, Alive w sl i L t := by
  obtain ⟨h1, h2, h3, h4, h5⟩ := h
  intro t ht
  unfold refreshStages at ht
  split at ht
  · simp only [List.mem_cons] at ht
    have e : (if L = true then some s.curY else none).isSome = L := by cases L <;> rfl
    rcases ht with rfl | rfl | ht
    · exact ⟨h1, h2, h3, rfl, h5⟩
    · exact ⟨h1, h2, h3, rfl, e⟩
    · refine alive_fitModel b ?_ t ht
      exact ⟨h1, h2, h3, rfl, e⟩
  · split at ht
    · cases ht
    · split at ht
      · exact alive_slide b ⟨h1, h2, h3, h4, h5⟩ t ht
      · cases ht

theorem alive_store {s : RefWindowState G M α β} (h : Alive w sl i L s) (x : α) (y : Option β) :
    Alive w sl i L (store s x y) := by
  cases y <;> exact h

theorem alive_stage {s : RefWindowState G M α β} (h : Alive w sl i L s) (x : α) (y : Option β)
    (hy : y.isSome = L) : ∀ t ∈ fitStages b s x y, Alive w sl i L t := by
  intro t ht
  unfold fitStages at ht
  rw [List.cons_append, List.mem_cons, List.mem_append] at ht
  rcases ht with rfl | ht | ht
  · exact h
  · cases y with
    | none => cases ht
    | some y =>
      rw [List.mem_singleton] at ht
      subst ht
      exact h
  · rw [hy] at ht
    exact alive_refresh b (alive_store h x y) t ht

theorem alive_run {s : RefWindowState G M α β} (h : Alive w sl i L s) (c : α × Option β)
    (hy : c.2.isSome = L) (k : Option ℕ) :
    Alive w sl i L (match k with
      | none => runStatements (statements b c s) s
      | some k => runStatements ((statements b c s).take k) s) := by
  cases k with
  | none =>
    unfold statements
    rw [last_stage]
    rcases foldl_last_mem (fitStages b s c.1 c.2) s with e | e
    · rw [e]; exact h
    · exact alive_stage b h c.1 c.2 hy _ e
  | some k =>
    unfold statements
    simp only
    rw [← List.map_take, last_stage]
    rcases foldl_last_mem ((fitStages b s c.1 c.2).take k) s with e | e
    · rw [e]; exact h
    · exact alive_stage b h c.1 c.2 hy _ (List.mem_of_mem_take e)

theorem alive_afterCalls (h : List ((α × Option β) × Option ℕ)) (s : RefWindowState G M α β)
    (hs : Alive w sl i L s) (hL : AllLabelled L (h.map Prod.fst)) :
    Alive w sl i L (afterCalls (statements b) s h) := by
  induction h generalizing s with
  | nil => exact hs
  | cons e h ih =>
    have h1 := hL e.1 (by simp)
    have h2 := alive_run b hs e.1 h1 e.2
    exact ih _ h2 fun c hc => hL c (by simp at hc ⊢; exact Or.inr hc)

theorem afterCalls_complete (l : List (α × Option β)) (s : RefWindowState G M α β) :
    afterCalls (statements b) s (l.map fun c => (c, none)) =
      l.foldl (fun s c => (fitPartial b s c.1 c.2).state) s := by
  induction l generalizing s with
  | nil => rfl
  | cons c l ih =>
    rw [List.map_cons, List.foldl_cons, ← ih, ← refwindow_statements_complete]
    rfl

theorem afterCalls_append {σ ι : Type*} (st : ι → σ → List (σ → σ)) (s : σ) (h k : List (ι × Option ℕ)) :
    afterCalls st s (h ++ k) = afterCalls st (afterCalls st s h) k := List.foldl_append

/-! ### Complete fits from any state -/

theorem fitModel_state (s : RefWindowState G M α β) (D : List α) (h : s.refX = some D) :
    ∃ g g', (fitModel b s).state = { s with rng := g', model := slot b g D s.refY } := by
  refine ⟨s.rng, ?_⟩
  unfold fitModel slot
  simp only [h]
  cases b.train s.rng D s.refY with
  | ok m g => exact ⟨g, by simp [Res.state]⟩
  | err e g => exact ⟨g, by simp [Res.state]⟩

theorem slide_state (s : RefWindowState G M α β) (D : List α) (h : s.refX = some D)
    (hy : s.refY.isSome = L) :
    ∃ g g', (slide b s L).state =
      { s with
        rng := g'
        model := slot b g (lastN s.windowSize (D ++ s.curX))
          (s.refY.map fun Y => lastN s.windowSize (Y ++ s.curY))
        curX := []
        curY := []
        refX := some (lastN s.windowSize (D ++ s.curX))
        refY := s.refY.map fun Y => lastN s.windowSize (Y ++ s.curY) } := by
  unfold slide
  simp only [h]
  cases hr : s.refY with
  | none =>
    rw [hr] at hy
    have : L = false := hy.symm
    subst this
    simp only [Bool.false_eq_true, if_false]
    obtain ⟨g, g', e⟩ := fitModel_state b
      { s with refX := some (keepLast s.windowSize (D ++ s.curX)), curX := [], curY := [] } _ rfl
    refine ⟨g, g', ?_⟩
    simp only [hr] at e ⊢
    exact e
  | some Y =>
    rw [hr] at hy
    have : L = true := hy.symm
    subst this
    simp only [if_true]
    obtain ⟨g, g', e⟩ := fitModel_state b
      { s with
        refX := some (keepLast s.windowSize (D ++ s.curX))
        refY := some (keepLast s.windowSize (Y ++ s.curY))
        curX := []
        curY := [] } _ rfl
    exact ⟨g, g', e⟩

/-- The window still fills. -/
def Filling (w : ℕ) (i : Bool) (s : RefWindowState G M α β) : Prop :=
  i = false ∧ s.curX.length + 1 < w ∧ ∃ D, s.refX = some D ∧ D.length < w

theorem store_fields (s : RefWindowState G M α β) (x : α) (y : Option β) :
    (store s x y).curX = s.curX ++ [x] ∧ (store s x y).curY = s.curY ++ y.toList ∧
      (store s x y).refX = s.refX ∧ (store s x y).refY = s.refY ∧ (store s x y).model = s.model := by
  cases y <;> simp [store]

theorem fit_filling {s : RefWindowState G M α β} (h : Alive w sl i L s) (x : α) (y : Option β)
    (hf : Filling w i s) :
    (fitPartial b s x y).state.curX = s.curX ++ [x] ∧
      (fitPartial b s x y).state.curY = s.curY ++ y.toList := by
  obtain ⟨f1, f2, D, f3, f4⟩ := hf
  obtain ⟨h1, h2, h3, h4, h5⟩ := alive_store h x y
  obtain ⟨e1, e2, e3, e4, -⟩ := store_fields s x y
  unfold fitPartial refresh
  rw [if_pos (by
    unfold refShort
    rw [h3, f1, e1, h1, e3, f3]
    simp [f2, f4])]
  obtain ⟨g, g', e⟩ := fitModel_state b
    { store s x y with
      refX := some (store s x y).curX
      refY := if y.isSome then some (store s x y).curY else none } _ rfl
  rw [e]
  exact ⟨e1, e2⟩

theorem fit_waiting {s : RefWindowState G M α β} (h : Alive w sl i L s) (hs : 1 ≤ sl) (x : α) (y : Option β)
    (hf : ¬ Filling w i s) (hm : (s.curX.length + 1) % sl ≠ 0) :
    (fitPartial b s x y).state = store s x y := by
  obtain ⟨h1, h2, h3, h4, h5⟩ := alive_store h x y
  obtain ⟨e1, e2, e3, e4, -⟩ := store_fields s x y
  obtain ⟨D, hD⟩ := Option.isSome_iff_exists.1 h4
  unfold fitPartial refresh
  rw [if_neg, h2, if_neg (by omega), e1, if_neg (by simpa using hm)]
  · rfl
  · intro hc
    apply hf
    unfold refShort at hc
    rw [h3, e1, h1, hD] at hc
    simp at hc
    exact ⟨hc.1.1, hc.1.2, D, by rw [← e3, hD], hc.2⟩

theorem fit_slide {s : RefWindowState G M α β} (h : Alive w sl i L s) (hs : 1 ≤ sl) (x : α) (y : Option β)
    (hy : y.isSome = L) (hf : ¬ Filling w i s) (hm : (s.curX.length + 1) % sl = 0) (D : List α)
    (hD : s.refX = some D) :
    ∃ g g', (fitPartial b s x y).state =
      { s with
        rng := g'
        model := slot b g (lastN w (D ++ (s.curX ++ [x])))
          (s.refY.map fun Y => lastN w (Y ++ (s.curY ++ y.toList)))
        curX := []
        curY := []
        refX := some (lastN w (D ++ (s.curX ++ [x])))
        refY := s.refY.map fun Y => lastN w (Y ++ (s.curY ++ y.toList)) } := by
  obtain ⟨h1, h2, h3, h4, h5⟩ := alive_store h x y
  obtain ⟨e1, e2, e3, e4, -⟩ := store_fields s x y
  have hD' : (store s x y).refX = some D := by rw [e3, hD]
  unfold fitPartial refresh
  rw [if_neg, h2, if_neg (by omega), e1, if_pos (by simpa using hm), hy]
  · obtain ⟨g, g', e⟩ := slide_state (L := L) b (store s x y) D hD' h5
    refine ⟨g, g', ?_⟩
    rw [e]
    have hw' : s.windowSize = w := h.1
    subst hw'
    cases y <;> simp [store]
  · intro hc
    apply hf
    unfold refShort at hc
    rw [h3, e1, h1, hD'] at hc
    simp at hc
    exact ⟨hc.1.1, hc.1.2, D, hD, hc.2⟩

/-- Before the first slide of a run of complete fits `l` from a state with the windows `C` and `E`. -/
def Before (w sl : ℕ) (i L : Bool) (C : List α) (E : List β) (l : List (α × Option β))
    (s : RefWindowState G M α β) : Prop :=
  Alive w sl i L s ∧ s.curX = C ++ l.map Prod.fst ∧ s.curY = E ++ labelsGiven l ∧
  ((l = [] ∨ C.length + l.length < w) ∨
    ((i = true ∨ w ≤ C.length + l.length ∨ ∃ D, s.refX = some D ∧ w ≤ D.length) ∧
      ∃ j, j ≤ l.length ∧ j < w ∧ (C.length + l.length) / sl = (C.length + j) / sl))

/-- After it. -/
def After (b : BatchDetector G M α β S) (w sl : ℕ) (i L : Bool) (l : List (α × Option β))
    (s : RefWindowState G M α β) : Prop :=
  Alive w sl i L s ∧ ∃ t, t ≤ l.length ∧ l.length < t + sl ∧ s.curX = (l.drop t).map Prod.fst ∧
    s.curY = labelsGiven (l.drop t) ∧
    ∃ P Q g, s.refX = some (lastN w (P ++ (l.take t).map Prod.fst)) ∧
      s.refY = (if L then some (lastN w (Q ++ labelsGiven (l.take t))) else none) ∧
      (i = true ∨ w ≤ P.length + t) ∧
      s.model = slot b g (lastN w (P ++ (l.take t).map Prod.fst))
        (if L then some (lastN w (Q ++ labelsGiven (l.take t))) else none)

theorem labelsGiven_append (l m : List (α × Option β)) :
    labelsGiven (l ++ m) = labelsGiven l ++ labelsGiven m := List.filterMap_append

theorem labelsGiven_singleton (c : α × Option β) : labelsGiven [c] = c.2.toList := by
  obtain ⟨x, y⟩ := c
  cases y <;> rfl

theorem refY_map (s : RefWindowState G M α β) (hy : s.refY.isSome = L) (f : List β → List β) :
    ∃ Y, s.refY.map f = if L then some (f Y) else none := by
  cases h : s.refY with
  | none =>
    rw [h] at hy
    have : L = false := hy.symm
    subst this
    exact ⟨[], rfl⟩
  | some Y =>
    rw [h] at hy
    have : L = true := hy.symm
    subst this
    exact ⟨Y, rfl⟩

theorem phase_step (hw : 1 ≤ w) (hs : 1 ≤ sl) (C : List α) (E : List β) (l : List (α × Option β))
    (s : RefWindowState G M α β) (c : α × Option β) (hy : c.2.isSome = L)
    (h : Before w sl i L C E l s ∨ After b w sl i L l s) :
    Before w sl i L C E (l ++ [c]) (fitPartial b s c.1 c.2).state ∨
      After b w sl i L (l ++ [c]) (fitPartial b s c.1 c.2).state := by
  have halive : Alive w sl i L s := by rcases h with h | h <;> exact h.1
  have halive' : Alive w sl i L (fitPartial b s c.1 c.2).state := by
    have := alive_run b halive c hy none
    rw [refwindow_statements_complete] at this
    exact this
  obtain ⟨D, hD⟩ := Option.isSome_iff_exists.1 halive.2.2.2.1
  obtain ⟨e1, e2, e3, e4, e5⟩ := store_fields s c.1 c.2
  rcases h with ⟨-, h1, h2, h3⟩ | ⟨-, t, t1, t2, t3, t4, P, Q, g, t5, t6, t7, t8⟩
  · have hl : s.curX.length = C.length + l.length := by rw [h1]; simp
    by_cases hf : Filling w i s
    · left
      obtain ⟨a1, a2⟩ := fit_filling b halive c.1 c.2 hf
      refine ⟨halive', ?_, ?_, Or.inl (Or.inr ?_)⟩
      · rw [a1, h1]; simp
      · rw [a2, h2, labelsGiven_append, labelsGiven_singleton]; simp
      · have := hf.2.1
        rw [List.length_append, List.length_singleton]; omega
    · have hreg : i = true ∨ w ≤ C.length + l.length + 1 ∨ w ≤ D.length := by
        by_contra hc
        push Not at hc
        exact hf ⟨by simpa using hc.1, by omega, D, hD, by omega⟩
      by_cases hm : (s.curX.length + 1) % sl = 0
      · right
        obtain ⟨g, g', e⟩ := fit_slide b halive hs c.1 c.2 hy hf hm D hD
        obtain ⟨Y, hY⟩ := refY_map s halive.2.2.2.2 fun Y => lastN w (Y ++ (s.curY ++ c.2.toList))
        rw [hY] at e
        rw [e] at halive' ⊢
        refine ⟨halive', (l ++ [c]).length, le_refl _, by omega, by simp, by simp [labelsGiven],
          D ++ C, Y ++ E, g, ?_, ?_, ?_, ?_⟩
        · simp only [List.take_length, h1, List.append_assoc, List.map_append, List.map_cons, List.map_nil]
        · simp only [List.take_length, h2, labelsGiven_append, labelsGiven_singleton, List.append_assoc]
        · rw [List.length_append, List.length_append, List.length_singleton]
          exact hreg.imp_right fun h => by omega
        · simp only [List.take_length, h1, h2, labelsGiven_append, labelsGiven_singleton,
            List.append_assoc, List.map_append, List.map_cons, List.map_nil]
      · left
        rw [fit_waiting b halive hs c.1 c.2 hf hm] at halive' ⊢
        have hdiv : (C.length + (l ++ [c]).length) / sl = (C.length + l.length) / sl := by
          rw [List.length_append, List.length_singleton, ← Nat.add_assoc, Nat.succ_div_of_not_dvd]
          intro hd
          exact hm (by rw [hl]; exact Nat.mod_eq_zero_of_dvd hd)
        refine ⟨halive', ?_, ?_, Or.inr ⟨?_, ?_⟩⟩
        · rw [e1, h1]; simp
        · rw [e2, h2, labelsGiven_append, labelsGiven_singleton]; simp
        · rw [List.length_append, List.length_singleton]
          rcases hreg with h | h | h
          · exact Or.inl h
          · exact Or.inr (Or.inl (by omega))
          · exact Or.inr (Or.inr ⟨D, by rw [e3, hD], h⟩)
        · rw [hdiv, List.length_append, List.length_singleton]
          rcases h3 with h3 | ⟨-, j, j1, j2, j3⟩
          · refine ⟨l.length, by omega, ?_, rfl⟩
            rcases h3 with rfl | h3
            · exact hw
            · omega
          · exact ⟨j, by omega, j2, j3⟩
  · right
    have hl : s.curX.length = l.length - t := by rw [t3]; simp
    have hf : ¬ Filling w i s := by
      rintro ⟨f1, -, D', f3, f4⟩
      rw [t5] at f3
      have f5 := Option.some.inj f3
      rw [← f5, lastN_length, List.length_append, List.length_map, List.length_take] at f4
      rcases t7 with t7 | t7
      · rw [f1] at t7; cases t7
      · omega
    by_cases hm : (s.curX.length + 1) % sl = 0
    · obtain ⟨g, g', e⟩ := fit_slide b halive hs c.1 c.2 hy hf hm _ t5
      have hX : lastN w (lastN w (P ++ (l.take t).map Prod.fst) ++ (s.curX ++ [c.1])) =
          lastN w (P ++ ((l ++ [c]).take (l ++ [c]).length).map Prod.fst) := by
        rw [lastN_lastN_append, t3, List.take_length]
        congr 1
        conv_rhs => rw [← List.take_append_drop t l]
        simp only [List.map_append, List.map_cons, List.map_nil, List.append_assoc]
      have hYs : (s.refY.map fun Y => lastN w (Y ++ (s.curY ++ c.2.toList))) =
          if L then some (lastN w (Q ++ labelsGiven ((l ++ [c]).take (l ++ [c]).length))) else none := by
        rw [t6]
        cases L with
        | false => rfl
        | true =>
          simp only [if_true, Option.map_some]
          rw [lastN_lastN_append, t4, List.take_length]
          congr 2
          conv_rhs => rw [← List.take_append_drop t l]
          simp only [labelsGiven_append, labelsGiven_singleton, List.append_assoc]
      rw [hX, hYs] at e
      rw [e] at halive' ⊢
      refine ⟨halive', (l ++ [c]).length, le_refl _, by omega, by simp, by simp [labelsGiven],
        P, Q, g, rfl, rfl, ?_, rfl⟩
      rw [List.length_append, List.length_singleton]
      exact t7.imp_right fun t7 => by omega
    · rw [fit_waiting b halive hs c.1 c.2 hf hm] at halive' ⊢
      have hne : l.length - t + 1 ≠ sl := by
        intro he
        exact hm (by rw [hl, he, Nat.mod_self])
      have htake : (l ++ [c]).take t = l.take t := List.take_append_of_le_length t1
      have hdrop : (l ++ [c]).drop t = l.drop t ++ [c] := List.drop_append_of_le_length t1
      refine ⟨halive', t, ?_, ?_, ?_, ?_, P, Q, g, ?_, ?_, t7, ?_⟩
      · rw [List.length_append]; omega
      · rw [List.length_append, List.length_singleton]; omega
      · rw [e1, t3, hdrop]; simp
      · rw [e2, t4, hdrop, labelsGiven_append, labelsGiven_singleton]
      · rw [e3, t5, htake]
      · rw [e4, t6, htake]
      · rw [e5, t8, htake]

theorem phase_run (hw : 1 ≤ w) (hs : 1 ≤ sl) (s : RefWindowState G M α β) (h : Alive w sl i L s)
    (l : List (α × Option β)) (hL : AllLabelled L l) :
    Before w sl i L s.curX s.curY l (l.foldl (fun s c => (fitPartial b s c.1 c.2).state) s) ∨
      After b w sl i L l (l.foldl (fun s c => (fitPartial b s c.1 c.2).state) s) := by
  induction l using List.reverseRecOn with
  | nil => exact Or.inl ⟨h, by simp, by simp [labelsGiven], Or.inl (Or.inl rfl)⟩
  | append_singleton l c ih =>
    rw [List.foldl_append]
    exact phase_step b hw hs _ _ l _ c (hL c (by simp)) (ih fun d hd => hL d (by simp [hd]))

theorem labelsGiven_length (l : List (α × Option β)) (h : AllLabelled true l) :
    (labelsGiven l).length = l.length := by
  induction l with
  | nil => rfl
  | cons c l ih =>
    obtain ⟨x, y⟩ := c
    have h1 := h (x, y) (by simp)
    have h2 := ih fun d hd => h d (by simp [hd])
    cases y with
    | none => cases h1
    | some y => simpa [labelsGiven] using h2

/-- From any state that has its windows, `w + sl` complete fits bring the detector up to date. -/
theorem upToDate (hb : TrainsMatching b) (hw : 1 ≤ w) (hs : 1 ≤ sl) (s : RefWindowState G M α β)
    (h : Alive w sl i L s) (l : List (α × Option β)) (hL : AllLabelled L l) (hl : w + sl ≤ l.length) :
    UpToDate b w sl L l (l.foldl (fun s c => (fitPartial b s c.1 c.2).state) s) := by
  rcases phase_run b hw hs s h l hL with ⟨-, -, -, h3⟩ | ⟨-, t, t1, t2, -, -, P, Q, g, -, -, -, t8⟩
  · exfalso
    rcases h3 with (rfl | h3) | ⟨-, j, j1, j2, j3⟩
    · simp at hl; omega
    · omega
    · have a := Nat.div_add_mod (s.curX.length + l.length) sl
      have c := Nat.div_add_mod (s.curX.length + j) sl
      have d := Nat.mod_lt (s.curX.length + l.length) (show 0 < sl by omega)
      rw [j3] at a
      omega
  · have hX : lastN w (P ++ (l.take t).map Prod.fst) = lastN w ((l.take t).map Prod.fst) :=
      lastN_append_of_le (by rw [List.length_map, List.length_take]; omega)
    refine ⟨t, t1, t2, by omega, ?_⟩
    have hlen : (lastN w ((l.take t).map Prod.fst)).length = w := by
      rw [lastN_length, List.length_map, List.length_take]; omega
    have hne : lastN w ((l.take t).map Prod.fst) ≠ [] := by
      intro he
      rw [he, List.length_nil] at hlen
      omega
    obtain ⟨b1, b2⟩ := hb g _ hne
    rw [hX] at t8
    cases L with
    | false =>
      obtain ⟨m, g', e⟩ := b1
      refine ⟨g, m, g', e, ?_⟩
      rw [t8]
      simp only [slot, Bool.false_eq_true, if_false, e]
    | true =>
      have ht : (labelsGiven (l.take t)).length = t := by
        rw [labelsGiven_length _ fun d hd => hL d (List.mem_of_mem_take hd), List.length_take]
        omega
      have hY : lastN w (Q ++ labelsGiven (l.take t)) = lastN w (labelsGiven (l.take t)) :=
        lastN_append_of_le (by omega)
      obtain ⟨m, g', e⟩ := b2 (lastN w (labelsGiven (l.take t))) (by
        rw [hlen, lastN_length]
        omega)
      refine ⟨g, m, g', e, ?_⟩
      rw [t8]
      simp only [slot, if_true, hY, e]

/-- Without a reference window and with a full current window: every further fit leaves it so. -/
def Dead (w : ℕ) (s : RefWindowState G M α β) : Prop :=
  s.windowSize = w ∧ s.initialRefWindow = false ∧ s.model = .none ∧ s.refX = none ∧ w ≤ s.curX.length + 1

theorem dead_fit (s : RefWindowState G M α β) (h : Dead w s) (c : α × Option β) :
    Dead w (fitPartial b s c.1 c.2).state ∧
      (s.slidingSize ≠ 0 → (s.curX.length + 1) % s.slidingSize = 0 →
        ∃ s', fitPartial b s c.1 c.2 = .err .valueError s') := by
  obtain ⟨h1, h2, h3, h4, h5⟩ := h
  obtain ⟨e1, e2, e3, e4, e5⟩ := store_fields s c.1 c.2
  have e6 : (store s c.1 c.2).windowSize = w ∧ (store s c.1 c.2).initialRefWindow = false ∧
      (store s c.1 c.2).slidingSize = s.slidingSize := by
    cases c.2 <;> exact ⟨h1, h2, rfl⟩
  have hd : Dead w (store s c.1 c.2) :=
    ⟨e6.1, e6.2.1, by rw [e5, h3], by rw [e3, h4], by rw [e1]; simp; omega⟩
  unfold fitPartial refresh
  rw [if_neg (by rw [e1, e6.1]; simp; intros; omega)]
  by_cases hz : (store s c.1 c.2).slidingSize = 0
  · rw [if_pos hz]
    exact ⟨hd, fun h => absurd (e6.2.2 ▸ hz) h⟩
  · rw [if_neg hz]
    by_cases hm : (store s c.1 c.2).curX.length % (store s c.1 c.2).slidingSize = 0
    · rw [if_pos hm]
      unfold slide
      rw [e3, h4]
      exact ⟨hd, fun _ _ => ⟨_, rfl⟩⟩
    · rw [if_neg hm]
      refine ⟨hd, fun _ h => absurd ?_ hm⟩
      rw [e1, e6.2.2]
      simpa using h

theorem dead_run (s : RefWindowState G M α β) (h : Dead w s) (l : List (α × Option β)) :
    Dead w (l.foldl (fun s c => (fitPartial b s c.1 c.2).state) s) := by
  induction l generalizing s with
  | nil => exact h
  | cons c l ih => exact ih _ (dead_fit b s h c).1

/-- The fits of `h` were all interrupted when only the instance had been appended. -/
theorem starved (h : List (α × Option β)) (s : RefWindowState G M α β) :
    afterCalls (statements b) s (h.map fun c => (c, some 1)) = { s with curX := s.curX ++ h.map Prod.fst } := by
  induction h generalizing s with
  | nil => simp [afterCalls]
  | cons c h ih =>
    rw [List.map_cons]
    have e := afterCalls_append (statements b) s [(c, some 1)] (h.map fun c => (c, some 1))
    rw [List.singleton_append] at e
    rw [e]
    have e1 : afterCalls (statements b) s [(c, some 1)] = { s with curX := s.curX ++ [c.1] } := by
      simp [afterCalls, statements, fitStages, runStatements]
    rw [e1, ih]
    simp

end RefWindowRecovery

open RefWindowRecovery

section
variable {G M α β S : Type*} (b : BatchDetector G M α β S)

/-- The full claim of **C181**: whatever fits of a reference-window detector were interrupted, and where,
after `window_size + sliding_size` further complete fits the detector in use is again trained on the most
recent instances with their own labels. -/
def C181_statement (b : BatchDetector G M α β S) : Prop :=
  ∀ (g : G) (w sl : ℕ), 2 ≤ w → 1 ≤ sl → ∀ s, new b g w sl none none = .ok () s →
    ∀ (L : Bool) (h : List ((α × Option β) × Option ℕ)) (l : List (α × Option β)),
      AllLabelled L (h.map Prod.fst ++ l) → w + sl ≤ l.length →
      UpToDate b w sl L l (afterCalls (statements b) s (h ++ l.map fun c => (c, none)))

/-- **C181**, what interruptions before the first complete fit can do: after `window_size - 1` fits that
were interrupted when only the instance had been appended, the object never gets a detector. However many
fits follow, `score_partial` raises, and so does every `sliding_size`-th fit. -/
theorem C181_dead (g : G) (w sl : ℕ) (hw : 2 ≤ w) (hs : 1 ≤ sl) (s : RefWindowState G M α β)
    (hn : new b g w sl none none = .ok () s) (h l : List (α × Option β)) (hh : h.length = w - 1) :
    (∀ x, ∃ s', scorePartial b (afterCalls (statements b) s
      ((h.map fun c => (c, some 1)) ++ l.map fun c => (c, none))) x = .err .attributeError s') ∧
    ((w + l.length) % sl = 0 → ∀ c : α × Option β, ∃ s', fitPartial b (afterCalls (statements b) s
      ((h.map fun c => (c, some 1)) ++ l.map fun c => (c, none))) c.1 c.2 = .err .valueError s') := by
  have e : s = ⟨g, .none, w, sl, [], [], none, none, false⟩ := by
    have := congrArg Res.state hn
    exact this.symm
  subst e
  have hst : afterCalls (statements b) (⟨g, .none, w, sl, [], [], none, none, false⟩ :
      RefWindowState G M α β) (h.map fun c => (c, some 1)) =
      ⟨g, .none, w, sl, h.map Prod.fst, [], none, none, false⟩ := by
    rw [starved]
    simp only [List.nil_append]
  rw [afterCalls_append, hst, afterCalls_complete]
  have hd := dead_run (w := w) b (⟨g, .none, w, sl, h.map Prod.fst, [], none, none, false⟩ :
    RefWindowState G M α β)
    ⟨rfl, rfl, rfl, rfl, by simp [hh]; omega⟩ l
  have hlen : ∀ (l : List (α × Option β)) (s : RefWindowState G M α β), Dead w s → s.slidingSize = sl →
      (l.foldl (fun s c => (fitPartial b s c.1 c.2).state) s).curX.length = s.curX.length + l.length ∧
      (l.foldl (fun s c => (fitPartial b s c.1 c.2).state) s).slidingSize = sl := by
    intro l
    induction l with
    | nil => intro s _ h2; exact ⟨rfl, h2⟩
    | cons c l ih =>
      intro s h1 h2
      obtain ⟨d1, d2, d3, d4, d5⟩ := h1
      have e : (fitPartial b s c.1 c.2).state = store s c.1 c.2 := by
        obtain ⟨e1, e2, e3, e4, e5⟩ := store_fields s c.1 c.2
        have e6 : (store s c.1 c.2).windowSize = w := by cases c.2 <;> exact d1
        unfold fitPartial refresh
        rw [if_neg (by rw [e1, e6]; simp; intros; omega)]
        split
        · rfl
        · split
          · unfold slide
            rw [e3, d4]
            rfl
          · rfl
      have hd' := (dead_fit b s ⟨d1, d2, d3, d4, d5⟩ c).1
      obtain ⟨i1, i2⟩ := ih _ hd' (by rw [e]; cases c.2 <;> exact h2)
      refine ⟨?_, i2⟩
      rw [List.foldl_cons, i1, e, (store_fields s c.1 c.2).1]
      simp; omega
  obtain ⟨l1, l2⟩ := hlen l (⟨g, .none, w, sl, h.map Prod.fst, [], none, none, false⟩ :
    RefWindowState G M α β)
    ⟨rfl, rfl, rfl, rfl, by simp [hh]; omega⟩ rfl
  refine ⟨fun x => ?_, fun h1 c => ?_⟩
  · generalize l.foldl _ _ = s' at hd
    refine ⟨s', ?_⟩
    unfold scorePartial
    rw [hd.2.2.1]
    rfl
  · refine (dead_fit (w := w) b _ hd c).2 (by rw [l2]; omega) ?_
    rw [l1, l2]
    simp only [List.length_map, hh]
    have : w - 1 + l.length + 1 = w + l.length := by omega
    rw [this, h1]

/-- **C181**: refuted for every batch detector, with instances at hand. -/
theorem C181_refuted [Inhabited G] [Inhabited α] : ¬ C181_statement b := by
  intro h
  have hst : afterCalls (statements b) (⟨default, .none, 2, 1, [], [], none, none, false⟩ :
      RefWindowState G M α β) [((default, none), some 1)] =
      ⟨default, .none, 2, 1, [default], [], none, none, false⟩ :=
    starved b [(default, none)] _
  have hd := dead_run (w := 2) b
    (⟨default, .none, 2, 1, [default], [], none, none, false⟩ : RefWindowState G M α β)
    ⟨rfl, rfl, rfl, rfl, by simp⟩ [(default, none), (default, none), (default, none)]
  rw [← afterCalls_complete, ← hst, ← afterCalls_append] at hd
  obtain ⟨t, -, -, -, -, m, g', -, hm⟩ := h default 2 1 (le_refl _) (le_refl _) _ rfl false
    [((default, none), some 1)] [(default, none), (default, none), (default, none)] (by
      intro c hc
      simp at hc
      rw [hc]; rfl) (by simp)
  rw [hd.2.2.1] at hm
  cases hm

/-- **C181**, what holds (`_partial`: the first fit must have been complete): after any history of
interrupted and complete fits that began with a complete one, `window_size + sliding_size` complete fits bring
the detector up to date. -/
theorem C181_recovers_partial (hb : TrainsMatching b) (g : G) (w sl : ℕ) (hw : 2 ≤ w) (hs : 1 ≤ sl)
    (s : RefWindowState G M α β) (hn : new b g w sl none none = .ok () s) (L : Bool)
    (c : α × Option β) (h : List ((α × Option β) × Option ℕ)) (l : List (α × Option β))
    (hL : AllLabelled L (c :: h.map Prod.fst ++ l)) (hl : w + sl ≤ l.length) :
    UpToDate b w sl L l (afterCalls (statements b) s ((c, none) :: h ++ l.map fun c => (c, none))) := by
  have e : s = ⟨g, .none, w, sl, [], [], none, none, false⟩ := by
    have := congrArg Res.state hn
    exact this.symm
  subst e
  rw [afterCalls_append, afterCalls_complete]
  refine upToDate b hb (by omega) hs (i := false) _ ?_ l (fun d hd => hL d (by simp [hd])) hl
  refine alive_afterCalls b h _ ?_ fun d hd => hL d (List.mem_append_left _ (List.mem_cons_of_mem _ hd))
  simp only
  rw [refwindow_statements_complete]
  have hc := hL c (by simp)
  obtain ⟨x, y⟩ := c
  unfold fitPartial refresh
  have hcond : (!(store (⟨g, .none, w, sl, [], [], none, none, false⟩ : RefWindowState G M α β) x y).initialRefWindow &&
      decide ((store (⟨g, .none, w, sl, [], [], none, none, false⟩ : RefWindowState G M α β) x y).curX.length <
        (store (⟨g, .none, w, sl, [], [], none, none, false⟩ : RefWindowState G M α β) x y).windowSize) &&
      refShort (store (⟨g, .none, w, sl, [], [], none, none, false⟩ : RefWindowState G M α β) x y)) = true := by
    cases y <;> simp [store, refShort] <;> omega
  rw [if_pos hcond]
  obtain ⟨k, k', e⟩ := fitModel_state b
    { store (⟨g, .none, w, sl, [], [], none, none, false⟩ : RefWindowState G M α β) x y with
      refX := some (store (⟨g, .none, w, sl, [], [], none, none, false⟩ : RefWindowState G M α β) x y).curX
      refY := if y.isSome then
        some (store (⟨g, .none, w, sl, [], [], none, none, false⟩ : RefWindowState G M α β) x y).curY
        else none } _ rfl
  rw [e]
  cases y with
  | none => exact ⟨rfl, rfl, rfl, rfl, hc⟩
  | some y => exact ⟨rfl, rfl, rfl, rfl, hc⟩

/-- **C181** with an initial window (`_partial`: it must have been given, with labels iff the fits have them):
here any fits may have been interrupted. -/
theorem C181_initial_partial (hb : TrainsMatching b) (g : G) (w sl : ℕ) (hw : 1 ≤ w) (hs : 1 ≤ sl)
    (I : List α) (J : Option (List β)) (s : RefWindowState G M α β)
    (hn : new b g w sl (some I) J = .ok () s)
    (h : List ((α × Option β) × Option ℕ)) (l : List (α × Option β))
    (hL : AllLabelled J.isSome (h.map Prod.fst ++ l)) (hl : w + sl ≤ l.length) :
    UpToDate b w sl J.isSome l (afterCalls (statements b) s (h ++ l.map fun c => (c, none))) := by
  have ha : Alive w sl true J.isSome s := by
    unfold new at hn
    simp only at hn
    obtain ⟨k, k', e⟩ := fitModel_state b
      (⟨g, .none, w, sl, [], [], some I, J, false⟩ : RefWindowState G M α β) I rfl
    cases hf : fitModel b (⟨g, .none, w, sl, [], [], some I, J, false⟩ : RefWindowState G M α β) with
    | err e u => rw [hf] at hn; cases hn
    | ok v u =>
      rw [hf] at hn e
      have hu : u = _ := e
      have := congrArg Res.state hn
      have hs' : ({ u with initialRefWindow := true } : RefWindowState G M α β) = s := this
      rw [← hs', hu]
      exact ⟨rfl, rfl, rfl, rfl, rfl⟩
  rw [afterCalls_append, afterCalls_complete]
  exact upToDate b hb hw hs (i := true) _ (alive_afterCalls b h s ha fun d hd => hL d (by simp [hd])) l
    (fun d hd => hL d (by simp [hd])) hl

/-- A batch detector that keeps its training data. -/
def recorder : BatchDetector Unit (List ℕ × Option (List ℕ)) ℕ ℕ ℕ where
  train _ D Y := .ok (D, Y) ()
  decision _ x := .ok x

example : TrainsMatching recorder := fun _ _ _ => ⟨⟨_, _, rfl⟩, fun _ _ => ⟨_, _, rfl⟩⟩

/-- **C181**: it takes the further fits. After an interruption between the lengthening of the reference
window and the emptying of the current one, the next training set has an instance twice. -/
theorem C181_twice : ∃ s, new recorder () 3 1 none none = .ok () s ∧
    (afterCalls (statements recorder) s [((1, none), none), ((2, none), none), ((3, none), none),
      ((4, none), some 3), ((5, none), none)]).model = .fitted ([4, 4, 5], none) :=
  ⟨_, rfl, by decide +kernel⟩

/-- **C181**: after an interruption of the training itself the detector does not score until the next one. -/
theorem C181_unfitted : ∃ s, new recorder () 3 2 none none = .ok () s ∧
    ∀ x, ∃ s', scorePartial recorder (afterCalls (statements recorder) s [((1, none), none), ((2, none), none),
      ((3, none), none), ((4, none), some 6), ((5, none), none)]) x = .err .other s' :=
  ⟨_, rfl, fun _ => ⟨_, rfl⟩⟩

/-- The hypotheses of `C181_recovers_partial` are met: labelled fits, one of them interrupted after the
instance was appended and before its label was. -/
example : ∃ s, new recorder () 2 2 none none = .ok () s ∧
    (afterCalls (statements recorder) s [((1, some 10), none), ((2, some 20), some 1), ((3, some 30), none),
      ((4, some 40), none), ((5, some 50), none), ((6, some 60), none)]).model =
        .fitted ([5, 6], some [50, 60]) :=
  ⟨_, rfl, by decide +kernel⟩

end
end Pysad
