import Verif.Model.Integrations
import Verif.Proofs.Lists
import Verif.Proofs.Calls
import Verif.Props.SimpleModels

/-! Properties C55-C58: `ReferenceWindowModel` (and `IForestASD`) and `OneFitModel`. -/

namespace Pysad

open Spec RefWindow

/-- What the detector in use was trained on, after the stream `X` without an initial
window: all of it before `w` instances came; the first `w - 1` until the first slide,
i.e. the first multiple of `sl` that is at least `w`; and from then on the last `w`
instances up to the latest multiple of `sl`. -/
def Spec.trainingSet {γ : Type*} (w sl : ℕ) (X : List γ) : List γ :=
  if X.length < w then X
  else if X.length / sl * sl < w then X.take (w - 1)
  else lastN w (X.take (X.length / sl * sl))

/-- The same with an initial window `I`. -/
def Spec.trainingSetFrom {γ : Type*} (w sl : ℕ) (I X : List γ) : List γ :=
  if X.length < sl then I else lastN w (I ++ X.take (X.length / sl * sl))

/-- The instances that wait for the next slide. -/
def waiting {γ : Type*} (w sl : ℕ) (X : List γ) : List γ :=
  if X.length / sl * sl < w then X else X.drop (X.length / sl * sl)

section lists
variable {γ : Type*}

theorem div_mul_succ_of_dvd {n sl : ℕ} (hs : 1 ≤ sl) (h : (n + 1) % sl = 0) :
    (n + 1) / sl * sl = n + 1 ∧ ∃ q, n / sl * sl + q = n ∧ (q + 1) % sl = 0 := by
  refine ⟨Nat.div_mul_cancel (Nat.dvd_of_mod_eq_zero h), n % sl, ?_, ?_⟩
  · have := Nat.div_add_mod n sl; rw [Nat.mul_comm] at this; exact this
  · rw [Nat.add_mod, Nat.mod_mod, ← Nat.add_mod]; exact h

theorem div_mul_succ_of_not_dvd {n sl : ℕ} (h : (n + 1) % sl ≠ 0) :
    (n + 1) / sl * sl = n / sl * sl := by
  rw [Nat.succ_div_of_not_dvd]
  exact fun hd => h (Nat.mod_eq_zero_of_dvd hd)

theorem waiting_length_mod {sl w : ℕ} (X : List γ) (x : γ) :
    ((waiting w sl X ++ [x]).length) % sl = (X.length + 1) % sl := by
  unfold waiting
  rw [List.length_append, List.length_singleton]
  split
  · rfl
  · rw [List.length_drop]
    have := Nat.div_mul_le_self X.length sl
    have h2 : X.length + 1 = (X.length - X.length / sl * sl + 1) + X.length / sl * sl := by omega
    conv_rhs => rw [h2]
    rw [Nat.add_mul_mod_self_right]

/-- While the first window fills. -/
theorem filling {w sl : ℕ} (X : List γ) (x : γ) (h : X.length + 1 < w) :
    trainingSet w sl (X ++ [x]) = X ++ [x] ∧ waiting w sl (X ++ [x]) = X ++ [x] ∧
    waiting w sl X = X := by
  have h1 := Nat.div_mul_le_self X.length sl
  have h2 := Nat.div_mul_le_self (X ++ [x]).length sl
  have hl : (X ++ [x]).length = X.length + 1 := by simp
  refine ⟨?_, ?_, ?_⟩
  · unfold trainingSet; rw [if_pos (by omega)]
  · unfold waiting; rw [if_pos (by omega)]
  · unfold waiting; rw [if_pos (by omega)]

/-- A slide. -/
theorem training_slide {w sl : ℕ} (hs : 1 ≤ sl) (hw : 2 ≤ w) (X : List γ) (x : γ) (hl : w ≤ X.length + 1)
    (h : (X.length + 1) % sl = 0) :
    trainingSet w sl (X ++ [x]) = lastN w (trainingSet w sl X ++ (waiting w sl X ++ [x])) ∧
    waiting w sl (X ++ [x]) = [] := by
  obtain ⟨e1, q, e2, -⟩ := div_mul_succ_of_dvd hs h
  have hlen : (X ++ [x]).length = X.length + 1 := by simp
  constructor
  · unfold trainingSet waiting
    rw [if_neg (by omega), hlen, e1, if_neg (by omega), List.take_of_length_le (by omega)]
    by_cases h1 : X.length < w
    · rw [if_pos h1, if_pos (by omega), lastN_append_of_le (l := X) (r := X ++ [x]) (by omega)]
    · rw [if_neg h1]
      by_cases h2 : X.length / sl * sl < w
      · rw [if_pos h2, if_pos h2, lastN_append_of_le (l := X.take (w - 1)) (r := X ++ [x]) (by omega)]
      · rw [if_neg h2, if_neg h2, lastN_lastN_append, ← List.append_assoc, List.take_append_drop]
  · unfold waiting
    rw [hlen, e1, if_neg (by omega), List.drop_eq_nil_of_le (by omega)]

/-- Between slides. -/
theorem between {w sl : ℕ} (hw : 2 ≤ w) (X : List γ) (x : γ) (hl : w ≤ X.length + 1)
    (h : (X.length + 1) % sl ≠ 0) :
    trainingSet w sl (X ++ [x]) = trainingSet w sl X ∧
    waiting w sl (X ++ [x]) = waiting w sl X ++ [x] := by
  have e1 := div_mul_succ_of_not_dvd h
  have hlen : (X ++ [x]).length = X.length + 1 := by simp
  have hle := Nat.div_mul_le_self X.length sl
  constructor
  · unfold trainingSet
    rw [if_neg (by omega), hlen, e1]
    by_cases h1 : X.length < w
    · rw [if_pos h1, if_pos (by omega), List.take_append_of_le_length (by omega),
        List.take_of_length_le (by omega)]
    · rw [if_neg h1]
      by_cases h2 : X.length / sl * sl < w
      · rw [if_pos h2, if_pos h2, List.take_append_of_le_length (by omega)]
      · rw [if_neg h2, if_neg h2, List.take_append_of_le_length (by omega)]
  · unfold waiting
    rw [hlen, e1]
    split
    · rfl
    · rw [List.drop_append_of_le_length hle]

theorem trainingSet_length {w sl : ℕ} (hw : 2 ≤ w) (X : List γ) (hl : w ≤ X.length + 1) :
    ¬ (waiting w sl X).length + 1 < w ∨ (trainingSet w sl X).length = w := by
  by_cases h2 : X.length / sl * sl < w
  · left
    unfold waiting
    rw [if_pos h2]; omega
  · right
    have hle := Nat.div_mul_le_self X.length sl
    unfold trainingSet
    rw [if_neg (by omega), if_neg h2, lastN_length, List.length_take]
    omega

end lists

section
variable {G M α β S : Type*} (b : BatchDetector G M α β S)

/-- The batch detector can be trained on any nonempty data. -/
def Spec.Trainable (b : BatchDetector G M α β S) : Prop :=
  ∀ g D Y, D ≠ [] → ∃ m g', b.train g D Y = .ok m g'

/-- `m` is a detector trained on `D` with labels `Y` (from some state of the generator). -/
def Spec.TrainedOn (b : BatchDetector G M α β S) (m : ModelSlot M) (D : List α)
    (Y : Option (List β)) : Prop :=
  ∃ g m' g', b.train g D Y = .ok m' g' ∧ m = .fitted m'

/-- Either every fitted instance has a label, or none has. -/
def Spec.Labelled (labelled : Bool) : List (Call α β) → Prop
  | [] => True
  | .fit _ y :: cs => y.isSome = labelled ∧ Labelled labelled cs
  | .score _ :: cs => Labelled labelled cs

theorem labelled_append (L : Bool) (cs ds : List (Call α β)) :
    Labelled L (cs ++ ds) ↔ Labelled L cs ∧ Labelled L ds := by
  induction cs with
  | nil => simp [Labelled]
  | cons c cs ih => cases c <;> simp [Labelled, ih, and_assoc]

theorem labelsOf_labelled (cs : List (Call α β)) (h : Labelled true cs) :
    (labelsOf cs).length = (fitted cs).length := by
  induction cs with
  | nil => rfl
  | cons c cs ih =>
    cases c with
    | fit x y =>
      obtain ⟨h1, h2⟩ := h
      cases y with
      | none => simp at h1
      | some y => simp [labelsOf, fitted, ih h2]
    | score x => exact ih h

variable {b}

theorem fitModel_ok (hb : Trainable b) (s : RefWindowState G M α β) (D : List α)
    (hD : s.refX = some D) (hne : D ≠ []) :
    ∃ m g, fitModel b s = .ok () { s with rng := g, model := m } ∧ TrainedOn b m D s.refY := by
  obtain ⟨m, g', h⟩ := hb s.rng D s.refY hne
  refine ⟨.fitted m, g', ?_, s.rng, m, g', h, rfl⟩
  simp [fitModel, hD, h]

/-- The labels kept: those of the given instances, if labels are used at all. -/
def keepLabels (L : Bool) (Y : List β) : Option (List β) := if L then some Y else none

/-- The state after a stream, without an initial window. -/
def RefInv (b : BatchDetector G M α β S) (w sl : ℕ) (L : Bool) (X : List α) (Y : List β)
    (s : RefWindowState G M α β) : Prop :=
  s.windowSize = w ∧ s.slidingSize = sl ∧ s.initialRefWindow = false ∧
  s.curX = waiting w sl X ∧ s.curY = (if L then waiting w sl Y else []) ∧
  (X = [] → s.refX = none ∧ s.model = .none) ∧
  (X ≠ [] → s.refX = some (trainingSet w sl X) ∧ s.refY = keepLabels L (trainingSet w sl Y) ∧
    TrainedOn b s.model (trainingSet w sl X) (keepLabels L (trainingSet w sl Y)))

theorem trainingSet_ne_nil {γ : Type*} {w sl : ℕ} (hw : 2 ≤ w) {X : List γ} (hX : X ≠ []) :
    trainingSet w sl X ≠ [] := by
  have hl : 1 ≤ X.length := by
    rcases X with _ | ⟨a, X⟩
    · exact absurd rfl hX
    · simp
  unfold trainingSet
  split
  · exact hX
  · intro h
    split at h
    · have := congrArg List.length h; rw [List.length_take, List.length_nil] at this; omega
    · have := congrArg List.length h
      rw [lastN_length, List.length_take, List.length_nil] at this
      omega

theorem refWindow_fit (hb : Trainable b) (w sl : ℕ) (hw : 2 ≤ w) (hs : 1 ≤ sl) (L : Bool)
    (X : List α) (Y : List β) (hXY : L = true → Y.length = X.length)
    (s : RefWindowState G M α β) (h : RefInv b w sl L X Y s) (x : α) (y : Option β)
    (hy : y.isSome = L) :
    ∃ s', fitPartial b s x y = .ok () s' ∧ RefInv b w sl L (X ++ [x]) (Y ++ y.toList) s' := by
  obtain ⟨h1, h2, h3, h4, h5, h6, h7⟩ := h
  have hst : ∃ s1, RefWindow.store s x y = s1 ∧ s1.windowSize = w ∧ s1.slidingSize = sl ∧
      s1.initialRefWindow = false ∧ s1.curX = waiting w sl X ++ [x] ∧
      s1.curY = (if L then waiting w sl Y ++ y.toList else []) ∧
      s1.refX = s.refX ∧ s1.refY = s.refY ∧ s1.model = s.model := by
    refine ⟨_, rfl, ?_⟩
    cases y with
    | none =>
      have hL : L = false := by simpa using hy.symm
      subst hL
      exact ⟨h1, h2, h3, by simp [RefWindow.store, h4], h5, rfl, rfl, rfl⟩
    | some y =>
      have hL : L = true := by simpa using hy.symm
      subst hL
      exact ⟨h1, h2, h3, by simp [RefWindow.store, h4], by simp [RefWindow.store, h5], rfl, rfl, rfl⟩
  obtain ⟨s1, hs1, f1, f2, f3, f4, f5, f6, f7, f8⟩ := hst
  unfold RefWindow.fitPartial
  rw [hs1]
  clear hs1
  unfold RefWindow.refresh
  by_cases hlt : X.length + 1 < w
  · -- the first window fills
    obtain ⟨e1, e2, e3⟩ := filling (sl := sl) X x hlt
    have hcond : (!s1.initialRefWindow && decide (s1.curX.length < s1.windowSize) && refShort s1)
        = true := by
      have : refShort s1 = true := by
        unfold refShort
        rw [f6]
        rcases eq_or_ne X [] with hX | hX
        · rw [(h6 hX).1]
        · rw [(h7 hX).1]
          simp only [f1, decide_eq_true_eq]
          unfold trainingSet
          rw [if_pos (by omega)]; omega
      rw [this, f3, f4, f1, e3]
      simp [hlt]
    rw [hcond, if_pos rfl]
    obtain ⟨m, g, hm, ht⟩ := fitModel_ok hb
      { s1 with refX := some s1.curX, refY := if y.isSome then some s1.curY else none }
      s1.curX rfl (by rw [f4]; simp)
    rw [hm]
    have hcurX : s1.curX = trainingSet w sl (X ++ [x]) := by rw [f4, e3, e1]
    have hlabel : (if y.isSome then some s1.curY else none)
        = keepLabels L (trainingSet w sl (Y ++ y.toList)) := by
      unfold keepLabels
      rw [hy]
      cases L with
      | false => rfl
      | true =>
        simp only [if_true]
        cases y with
        | none => simp at hy
        | some y =>
          have hYl := hXY rfl
          obtain ⟨g1, -, g3⟩ := filling (w := w) (sl := sl) Y y (by omega)
          rw [f5]; simp [g1, g3]
    refine ⟨_, rfl, f1, f2, f3, ?_, ?_, by simp, ?_⟩
    · simp only [f4, e2, e3]
    · simp only [f5]
      cases L with
      | false => rfl
      | true =>
        cases y with
        | none => simp at hy
        | some y =>
          obtain ⟨-, g2, g3⟩ := filling (sl := sl) Y y (by rw [hXY rfl]; omega)
          simp [g2, g3]
    · intro _
      refine ⟨by simp only [hcurX], hlabel, ?_⟩
      simp only [← hlabel, ← hcurX]
      exact ht
  · have hXne : X ≠ [] := by
      rintro rfl
      simp at hlt; omega
    obtain ⟨r1, r2, r3⟩ := h7 hXne
    have hge : w ≤ X.length + 1 := by omega
    have hcond : (!s1.initialRefWindow && decide (s1.curX.length < s1.windowSize) && refShort s1)
        = false := by
      rcases trainingSet_length (sl := sl) hw X hge with h | h
      · have : ¬ s1.curX.length < s1.windowSize := by rw [f4, f1]; simpa using h
        simp [this]
      · have : refShort s1 = false := by
          unfold refShort
          rw [f6, r1]
          simp [f1, h]
        simp [this]
    rw [hcond, if_neg (by simp), f2, if_neg (by omega), f4, waiting_length_mod X x]
    by_cases hm : (X.length + 1) % sl = 0
    · -- a slide
      rw [if_pos hm]
      obtain ⟨e1, e2⟩ := training_slide hs hw X x hge hm
      unfold RefWindow.slide
      rw [f6, r1]
      simp only [f1, f4, hy]
      have hkx : keepLast w (trainingSet w sl X ++ (waiting w sl X ++ [x]))
          = trainingSet w sl (X ++ [x]) := e1.symm
      cases y with
      | none =>
        have hL : L = false := by simpa using hy.symm
        subst hL
        simp only [Bool.false_eq_true, if_false]
        obtain ⟨m, g, hmm, ht⟩ := fitModel_ok hb { s1 with
          windowSize := w, refX := some (keepLast w (trainingSet w sl X ++ (waiting w sl X ++ [x]))),
          curX := [], curY := [] } _ rfl (by rw [hkx]; exact trainingSet_ne_nil hw (by simp))
        rw [hmm]
        refine ⟨_, rfl, rfl, f2, f3, e2.symm, rfl, by simp, ?_⟩
        intro _
        have hry : s1.refY = none := by rw [f7, r2]; rfl
        refine ⟨by simp only [hkx], by simp only [hry]; rfl, ?_⟩
        simp only [hry, hkx] at ht
        exact ht
      | some y =>
        have hL : L = true := by simpa using hy.symm
        subst hL
        have hYl := hXY rfl
        obtain ⟨g1, g2⟩ := training_slide hs hw Y y (by omega) (by rw [hYl]; exact hm)
        have hry : s1.refY = some (trainingSet w sl Y) := by rw [f7, r2]; rfl
        rw [hry]
        simp only [f5, if_true, Option.toList_some]
        have hky : keepLast w (trainingSet w sl Y ++ (waiting w sl Y ++ [y]))
            = trainingSet w sl (Y ++ [y]) := g1.symm
        obtain ⟨m, g, hmm, ht⟩ := fitModel_ok hb { s1 with
          windowSize := w, refX := some (keepLast w (trainingSet w sl X ++ (waiting w sl X ++ [x]))),
          refY := some (keepLast w (trainingSet w sl Y ++ (waiting w sl Y ++ [y]))),
          curX := [], curY := [] } _ rfl (by rw [hkx]; exact trainingSet_ne_nil hw (by simp))
        rw [hmm]
        refine ⟨_, rfl, rfl, f2, f3, e2.symm, by simp [g2], by simp, ?_⟩
        intro _
        refine ⟨by simp only [hkx], by simp only [hky]; rfl, ?_⟩
        simp only [hkx, hky] at ht
        exact ht
    · -- no slide
      rw [if_neg hm]
      obtain ⟨e1, e2⟩ := between hw X x hge hm
      refine ⟨s1, rfl, f1, f2, f3, by rw [f4, e2], ?_, by simp, ?_⟩
      · rw [f5]
        cases L with
        | false => rfl
        | true =>
          cases y with
          | none => simp at hy
          | some y =>
            have hYl := hXY rfl
            obtain ⟨-, g2⟩ := between hw Y y (by omega) (by rw [hYl]; exact hm)
            simp [g2]
      · intro _
        rw [f6, f7, f8, e1]
        have : keepLabels L (trainingSet w sl (Y ++ y.toList)) = keepLabels L (trainingSet w sl Y) := by
          cases L with
          | false => rfl
          | true =>
            cases y with
            | none => simp at hy
            | some y =>
              have hYl := hXY rfl
              obtain ⟨g1, -⟩ := between hw Y y (by omega) (by rw [hYl]; exact hm)
              simp [g1]
        rw [this]
        exact ⟨r1, r2, r3⟩

theorem labelsOf_fit (x : α) (y : Option β) :
    labelsOf [(Call.fit x y : Call α β)] = y.toList := by
  cases y <;> rfl

theorem refWindow_score_state (s : RefWindowState G M α β) (x : α) :
    ((RefWindow.detector b).scorePartial s x).state = s := by
  simp only [RefWindow.detector, RefWindow.scorePartial]
  cases s.model.decision b x <;> rfl

theorem call_score_state {σ : Type*} (d : Detector σ α β S) (s : σ) (x : α)
    (h : (d.scorePartial s x).state = s) : (call d s (.score x)).2 = s := by
  unfold call
  cases hx : d.scorePartial s x <;> simpa [hx] using h

theorem refWindow_inv (hb : Trainable b) (g : G) (w sl : ℕ) (hw : 2 ≤ w) (hs : 1 ≤ sl) (L : Bool)
    (s0 : RefWindowState G M α β) (h0 : RefWindow.new b g w sl none none = .ok () s0)
    (cs : List (Call α β)) (hL : Labelled L cs) :
    RefInv b w sl L (fitted cs) (labelsOf cs) (calls (RefWindow.detector b) s0 cs).2 := by
  have key := calls_inv (d := RefWindow.detector b) (P := fun cs s => Labelled L cs →
    RefInv b w sl L (fitted cs) (labelsOf cs) s) ?_ s0 ?_ cs
  · exact key hL
  · intro cs s c h hL
    rw [labelled_append] at hL
    have h1 := h hL.1
    rw [fitted_append, labelsOf_append]
    cases c with
    | score x =>
      rw [call_score_state _ _ _ (refWindow_score_state s x)]
      simpa [fitted, labelsOf] using h1
    | fit x y =>
      have hXY : L = true → (labelsOf cs).length = (fitted cs).length := by
        rintro rfl; exact labelsOf_labelled cs hL.1
      obtain ⟨s', h2, h3⟩ := refWindow_fit hb w sl hw hs L _ _ hXY s h1 x y hL.2.1
      rw [labelsOf_fit]
      have : (call (RefWindow.detector b) s (.fit x y)).2 = s' := by
        simp only [call, RefWindow.detector, h2]
      rw [this]
      exact h3
  · intro _
    simp only [RefWindow.new, Res.ok.injEq, true_and] at h0
    subst h0
    refine ⟨rfl, rfl, rfl, by simp [fitted, waiting], ?_, fun _ => ⟨rfl, rfl⟩, fun h => absurd rfl h⟩
    cases L <;> simp [waiting, labelsOf]

/-- **C55, C56.** Without an initial window, `window_size ≥ 2`, `sliding_size ≥ 1`: after
any stream (all labelled or all unlabelled, scores interleaved), the detector in use was
trained on exactly the training set of the stream, with exactly its labels. -/
theorem C55_refwindow_training (hb : Trainable b) (g : G) (w sl : ℕ) (hw : 2 ≤ w) (hs : 1 ≤ sl)
    (L : Bool) (s0 : RefWindowState G M α β) (h0 : RefWindow.new b g w sl none none = .ok () s0)
    (cs : List (Call α β)) (hL : Labelled L cs) (hne : fitted cs ≠ []) :
    TrainedOn b (calls (RefWindow.detector b) s0 cs).2.model (trainingSet w sl (fitted cs))
      (if L then some (trainingSet w sl (labelsOf cs)) else none) :=
  ((refWindow_inv hb g w sl hw hs L s0 h0 cs hL).2.2.2.2.2.2 hne).2.2

/-! ### With an initial window -/

/-- The state after a stream, with an initial window. -/
def RefInvFrom (b : BatchDetector G M α β S) (w sl : ℕ) (L : Bool) (I : List α) (J : List β)
    (X : List α) (Y : List β) (s : RefWindowState G M α β) : Prop :=
  s.windowSize = w ∧ s.slidingSize = sl ∧ s.initialRefWindow = true ∧
  s.curX = X.drop (X.length / sl * sl) ∧ s.curY = (if L then Y.drop (Y.length / sl * sl) else []) ∧
  s.refX = some (trainingSetFrom w sl I X) ∧ s.refY = keepLabels L (trainingSetFrom w sl J Y) ∧
    TrainedOn b s.model (trainingSetFrom w sl I X) (keepLabels L (trainingSetFrom w sl J Y))

theorem slideFrom {γ : Type*} {w sl : ℕ} (hs : 1 ≤ sl) (I X : List γ) (x : γ)
    (h : (X.length + 1) % sl = 0) :
    trainingSetFrom w sl I (X ++ [x]) =
      lastN w (trainingSetFrom w sl I X ++ (X.drop (X.length / sl * sl) ++ [x])) ∧
    (X ++ [x]).drop ((X ++ [x]).length / sl * sl) = [] := by
  obtain ⟨e1, q, e2, -⟩ := div_mul_succ_of_dvd hs h
  have hlen : (X ++ [x]).length = X.length + 1 := by simp
  have hge : sl ≤ X.length + 1 := Nat.le_of_dvd (by omega) (Nat.dvd_of_mod_eq_zero h)
  constructor
  · unfold trainingSetFrom
    rw [if_neg (by omega), hlen, e1, List.take_of_length_le (by omega)]
    by_cases h1 : X.length < sl
    · rw [if_pos h1, Nat.div_eq_of_lt h1]; simp
    · rw [if_neg h1, lastN_lastN_append, List.append_assoc, ← List.append_assoc (X.take _),
        List.take_append_drop]
  · rw [hlen, e1, List.drop_eq_nil_of_le (by omega)]

theorem betweenFrom {γ : Type*} {w sl : ℕ} (I X : List γ) (x : γ)
    (h : (X.length + 1) % sl ≠ 0) :
    trainingSetFrom w sl I (X ++ [x]) = trainingSetFrom w sl I X ∧
    (X ++ [x]).drop ((X ++ [x]).length / sl * sl) = X.drop (X.length / sl * sl) ++ [x] := by
  have e1 := div_mul_succ_of_not_dvd h
  have hlen : (X ++ [x]).length = X.length + 1 := by simp
  have hle := Nat.div_mul_le_self X.length sl
  constructor
  · unfold trainingSetFrom
    rw [hlen, e1]
    by_cases h1 : X.length < sl
    · have h2 : X.length + 1 < sl := by
        rcases Nat.lt_or_ge (X.length + 1) sl with h' | h'
        · exact h'
        · have : X.length + 1 = sl := by omega
          rw [this, Nat.mod_self] at h
          exact absurd rfl h
      rw [if_pos h1, if_pos h2]
    · rw [if_neg h1, if_neg (by omega), List.take_append_of_le_length hle]
  · rw [hlen, e1, List.drop_append_of_le_length hle]

theorem drop_length_mod {γ : Type*} {sl : ℕ} (X : List γ) (x : γ) :
    ((X.drop (X.length / sl * sl) ++ [x]).length) % sl = (X.length + 1) % sl := by
  rw [List.length_append, List.length_singleton, List.length_drop]
  have := Nat.div_mul_le_self X.length sl
  have h2 : X.length + 1 = (X.length - X.length / sl * sl + 1) + X.length / sl * sl := by omega
  conv_rhs => rw [h2]
  rw [Nat.add_mul_mod_self_right]

theorem trainingSetFrom_ne_nil {γ : Type*} {w sl : ℕ} (hw : 1 ≤ w) {I X : List γ} (hI : I ≠ []) :
    trainingSetFrom w sl I X ≠ [] := by
  have hl : 1 ≤ I.length := by
    rcases I with _ | ⟨a, I⟩
    · exact absurd rfl hI
    · simp
  unfold trainingSetFrom
  split
  · exact hI
  · intro h
    have := congrArg List.length h
    rw [lastN_length, List.length_append, List.length_nil] at this
    omega

theorem refWindow_fitFrom (hb : Trainable b) (w sl : ℕ) (hw : 1 ≤ w) (hs : 1 ≤ sl) (L : Bool)
    (I : List α) (J : List β) (hI : I ≠ []) (X : List α) (Y : List β)
    (hXY : L = true → Y.length = X.length)
    (s : RefWindowState G M α β) (h : RefInvFrom b w sl L I J X Y s) (x : α) (y : Option β)
    (hy : y.isSome = L) :
    ∃ s', fitPartial b s x y = .ok () s' ∧ RefInvFrom b w sl L I J (X ++ [x]) (Y ++ y.toList) s' := by
  obtain ⟨h1, h2, h3, h4, h5, h6, h7, h8⟩ := h
  cases y with
  | none =>
    have hL : L = false := by simpa using hy.symm
    subst hL
    simp only [RefWindow.fitPartial, RefWindow.store, RefWindow.refresh, RefWindow.slide,
      Option.isSome_some, Option.isSome_none, if_true, h1, h2, h3, h4, Bool.not_true, Bool.false_and, Bool.false_eq_true, if_false,
      drop_length_mod X x, if_neg (show ¬ sl = 0 by omega), h6]
    by_cases hm : (X.length + 1) % sl = 0
    · rw [if_pos hm]
      obtain ⟨e1, e2⟩ := slideFrom (w := w) hs I X x hm
      have hkx : keepLast w (trainingSetFrom w sl I X ++ (X.drop (X.length / sl * sl) ++ [x]))
          = trainingSetFrom w sl I (X ++ [x]) := e1.symm
      obtain ⟨m, g, hmm, ht⟩ := fitModel_ok hb { s with
          refX := some (keepLast w (trainingSetFrom w sl I X ++ (X.drop (X.length / sl * sl) ++ [x]))),
          windowSize := w, slidingSize := sl, initialRefWindow := true,
          curX := [], curY := [] } _ rfl (by rw [hkx]; exact trainingSetFrom_ne_nil hw hI)
      rw [hmm]
      refine ⟨_, rfl, rfl, rfl, rfl, e2.symm, rfl, by simp only [hkx], h7, ?_⟩
      simp only [hkx, h7] at ht
      exact ht
    · rw [if_neg hm]
      obtain ⟨e1, e2⟩ := betweenFrom (w := w) I X x hm
      exact ⟨_, rfl, rfl, rfl, rfl, e2.symm, h5, by rw [e1], h7, by rw [e1]; exact h8⟩
  | some y =>
    have hL : L = true := by simpa using hy.symm
    subst hL
    have hYl := hXY rfl
    have h7' : s.refY = some (trainingSetFrom w sl J Y) := h7
    have h5' : s.curY = Y.drop (Y.length / sl * sl) := by simpa using h5
    simp only [RefWindow.fitPartial, RefWindow.store, RefWindow.refresh, RefWindow.slide,
      Option.isSome_some, Option.isSome_none, if_true, h1, h2, h3, h4, Bool.not_true, Bool.false_and, Bool.false_eq_true, if_false,
      drop_length_mod X x, if_neg (show ¬ sl = 0 by omega), h6, h7', h5']
    by_cases hm : (X.length + 1) % sl = 0
    · rw [if_pos hm]
      obtain ⟨e1, e2⟩ := slideFrom (w := w) hs I X x hm
      obtain ⟨g1, g2⟩ := slideFrom (w := w) hs J Y y (by rw [hYl]; exact hm)
      have hkx : keepLast w (trainingSetFrom w sl I X ++ (X.drop (X.length / sl * sl) ++ [x]))
          = trainingSetFrom w sl I (X ++ [x]) := e1.symm
      have hky : keepLast w (trainingSetFrom w sl J Y ++ (Y.drop (Y.length / sl * sl) ++ [y]))
          = trainingSetFrom w sl J (Y ++ [y]) := g1.symm
      obtain ⟨m, g, hmm, ht⟩ := fitModel_ok hb { s with
          refX := some (keepLast w (trainingSetFrom w sl I X ++ (X.drop (X.length / sl * sl) ++ [x]))),
          refY := some (keepLast w (trainingSetFrom w sl J Y ++ (Y.drop (Y.length / sl * sl) ++ [y]))),
          windowSize := w, slidingSize := sl, initialRefWindow := true,
          curX := [], curY := [] } _ rfl (by rw [hkx]; exact trainingSetFrom_ne_nil hw hI)
      rw [hmm]
      refine ⟨_, rfl, rfl, rfl, rfl, e2.symm, ?_, by simp only [hkx], by simp only [hky]; rfl, ?_⟩
      · simp only [Option.toList_some, g2, if_true]
      · simp only [hkx, hky] at ht
        exact ht
    · rw [if_neg hm]
      obtain ⟨e1, e2⟩ := betweenFrom (w := w) I X x hm
      obtain ⟨g1, g2⟩ := betweenFrom (w := w) J Y y (by rw [hYl]; exact hm)
      refine ⟨_, rfl, rfl, rfl, rfl, e2.symm, ?_, by rw [e1], ?_, ?_⟩
      · simp only [Option.toList_some, g2, if_true]
      · simp only [Option.toList_some, g1]; rfl
      · simp only [Option.toList_some, e1, g1]; exact h8

theorem refWindow_invFrom (hb : Trainable b) (g : G) (w sl : ℕ) (hw : 1 ≤ w) (hs : 1 ≤ sl) (L : Bool)
    (I : List α) (J : List β) (hI : I ≠ [])
    (s0 : RefWindowState G M α β)
    (h0 : RefWindow.new b g w sl (some I) (keepLabels L J) = .ok () s0)
    (cs : List (Call α β)) (hL : Labelled L cs) :
    RefInvFrom b w sl L I J (fitted cs) (labelsOf cs) (calls (RefWindow.detector b) s0 cs).2 := by
  have key := calls_inv (d := RefWindow.detector b) (P := fun cs s => Labelled L cs →
    RefInvFrom b w sl L I J (fitted cs) (labelsOf cs) s) ?_ s0 ?_ cs
  · exact key hL
  · intro cs s c h hL
    rw [labelled_append] at hL
    have h1 := h hL.1
    rw [fitted_append, labelsOf_append]
    cases c with
    | score x =>
      rw [call_score_state _ _ _ (refWindow_score_state s x)]
      simpa [fitted, labelsOf] using h1
    | fit x y =>
      have hXY : L = true → (labelsOf cs).length = (fitted cs).length := by
        rintro rfl; exact labelsOf_labelled cs hL.1
      obtain ⟨s', h2, h3⟩ := refWindow_fitFrom hb w sl hw hs L I J hI _ _ hXY s h1 x y hL.2.1
      rw [labelsOf_fit]
      have : (call (RefWindow.detector b) s (.fit x y)).2 = s' := by
        simp only [call, RefWindow.detector, h2]
      rw [this]
      exact h3
  · intro _
    obtain ⟨m, g', hm, ht⟩ := fitModel_ok hb
      ⟨g, .none, w, sl, [], [], some I, keepLabels L J, false⟩ I rfl hI
    simp only [RefWindow.new, hm, Res.bind_ok, Res.ok.injEq, true_and] at h0
    subst h0
    have e1 : trainingSetFrom w sl I (fitted ([] : List (Call α β))) = I := by
      simp [trainingSetFrom, fitted]; omega
    have e2 : trainingSetFrom w sl J (labelsOf ([] : List (Call α β))) = J := by
      simp [trainingSetFrom, labelsOf]; omega
    refine ⟨rfl, rfl, rfl, by simp [fitted], by simp [labelsOf], by rw [e1], by rw [e2], ?_⟩
    rw [e1, e2]
    exact ht

/-- **C55.** With an initial window `I` (labelled as the stream is), any
`window_size ≥ 1`, `sliding_size ≥ 1`: the detector in use was trained on `I` until the
first slide, then on the last `window_size` of `I` and the stream up to the latest
slide. -/
theorem C55_refwindow_training_initial (hb : Trainable b) (g : G) (w sl : ℕ) (hw : 1 ≤ w)
    (hs : 1 ≤ sl) (L : Bool) (I : List α) (J : List β) (hI : I ≠ [])
    (s0 : RefWindowState G M α β)
    (h0 : RefWindow.new b g w sl (some I) (if L then some J else none) = .ok () s0)
    (cs : List (Call α β)) (hL : Labelled L cs) :
    TrainedOn b (calls (RefWindow.detector b) s0 cs).2.model (trainingSetFrom w sl I (fitted cs))
      (if L then some (trainingSetFrom w sl J (labelsOf cs)) else none) :=
  (refWindow_invFrom hb g w sl hw hs L I J hI s0 h0 cs hL).2.2.2.2.2.2.2

/-- **C55.** Consequence: once at least `window_size` instances (the initial ones
included) came before the latest slide, the training set has exactly `window_size`
instances, which are the most recent ones at that time. -/
theorem C55_refwindow_size {γ : Type*} (w sl : ℕ) (I X : List γ) (hX : sl ≤ X.length)
    (hl : w ≤ I.length + X.length / sl * sl) :
    (trainingSetFrom w sl I X).length = w ∧
    trainingSetFrom w sl I X <:+ I ++ X.take (X.length / sl * sl) := by
  have hle := Nat.div_mul_le_self X.length sl
  unfold trainingSetFrom
  rw [if_neg (by omega)]
  refine ⟨?_, lastN_suffix _ _⟩
  rw [lastN_length, List.length_append, List.length_take]
  omega

/-- **C56.** Labelled streams: instances and labels of the training set correspond
position by position. -/
theorem C56_refwindow_labels (hb : Trainable b) (g : G) (w sl : ℕ) (hw : 2 ≤ w) (hs : 1 ≤ sl)
    (s0 : RefWindowState G M α β) (h0 : RefWindow.new b g w sl none none = .ok () s0)
    (ps : List (α × β)) (hne : ps ≠ []) :
    ∃ ts : List (α × β), TrainedOn b (calls (RefWindow.detector b) s0
        (ps.map fun p => .fit p.1 (some p.2))).2.model (ts.map Prod.fst) (some (ts.map Prod.snd)) ∧
      ts = trainingSet w sl ps := by
  have hf : ∀ ps : List (α × β), fitted (ps.map fun p => (Call.fit p.1 (some p.2) : Call α β))
      = ps.map Prod.fst ∧ labelsOf (ps.map fun p => (Call.fit p.1 (some p.2) : Call α β))
      = ps.map Prod.snd ∧ Labelled true (ps.map fun p => (Call.fit p.1 (some p.2) : Call α β)) := by
    intro ps
    induction ps with
    | nil => exact ⟨rfl, rfl, trivial⟩
    | cons p ps ih =>
      refine ⟨by simp [fitted, ih.1], by simp [labelsOf, ih.2.1], rfl, ih.2.2⟩
  obtain ⟨e1, e2, e3⟩ := hf ps
  have h := C55_refwindow_training hb g w sl hw hs true s0 h0 _ e3 (by rw [e1]; simpa using hne)
  refine ⟨_, ?_, rfl⟩
  rw [e1, e2] at h
  have hmap : ∀ {δ : Type _} (f : α × β → δ), trainingSet w sl (ps.map f)
      = (trainingSet w sl ps).map f := by
    intro δ f
    unfold trainingSet
    simp only [List.length_map, ← List.map_take]
    split
    · rfl
    · split
      · rfl
      · simp [lastN, List.map_drop]
  have h1 := hmap Prod.fst
  have h2 : trainingSet w sl (ps.map Prod.snd) = (trainingSet w sl ps).map Prod.snd := by
    unfold trainingSet
    simp only [List.length_map, ← List.map_take]
    split
    · rfl
    · split
      · rfl
      · simp [lastN, List.map_drop]
  rw [h1, h2] at h
  exact h

/-- **C56.** The same with a labelled initial window. -/
theorem C56_refwindow_labels_initial (hb : Trainable b) (g : G) (w sl : ℕ) (hw : 1 ≤ w)
    (hs : 1 ≤ sl) (I : List (α × β)) (hI : I ≠ []) (s0 : RefWindowState G M α β)
    (h0 : RefWindow.new b g w sl (some (I.map Prod.fst)) (some (I.map Prod.snd)) = .ok () s0)
    (ps : List (α × β)) :
    ∃ ts : List (α × β), TrainedOn b (calls (RefWindow.detector b) s0
        (ps.map fun p => .fit p.1 (some p.2))).2.model (ts.map Prod.fst) (some (ts.map Prod.snd)) ∧
      ts = trainingSetFrom w sl I ps := by
  have hf : ∀ ps : List (α × β), fitted (ps.map fun p => (Call.fit p.1 (some p.2) : Call α β))
      = ps.map Prod.fst ∧ labelsOf (ps.map fun p => (Call.fit p.1 (some p.2) : Call α β))
      = ps.map Prod.snd ∧ Labelled true (ps.map fun p => (Call.fit p.1 (some p.2) : Call α β)) := by
    intro ps
    induction ps with
    | nil => exact ⟨rfl, rfl, trivial⟩
    | cons p ps ih =>
      refine ⟨by simp [fitted, ih.1], by simp [labelsOf, ih.2.1], rfl, ih.2.2⟩
  obtain ⟨e1, e2, e3⟩ := hf ps
  have h := C55_refwindow_training_initial hb g w sl hw hs true (I.map Prod.fst) (I.map Prod.snd)
    (by simpa using hI) s0 h0 _ e3
  refine ⟨_, ?_, rfl⟩
  rw [e1, e2] at h
  have h1 : trainingSetFrom w sl (I.map Prod.fst) (ps.map Prod.fst)
      = (trainingSetFrom w sl I ps).map Prod.fst := by
    unfold trainingSetFrom
    simp only [List.length_map, ← List.map_take, ← List.map_append]
    split
    · rfl
    · simp [lastN, List.map_drop]
  have h2 : trainingSetFrom w sl (I.map Prod.snd) (ps.map Prod.snd)
      = (trainingSetFrom w sl I ps).map Prod.snd := by
    unfold trainingSetFrom
    simp only [List.length_map, ← List.map_take, ← List.map_append]
    split
    · rfl
    · simp [lastN, List.map_drop]
  rw [h1, h2] at h
  exact h

/-- **C55.** `IForestASD` without an initial window, unlabelled: trained on the first
`n` instances while `n < w`, then on the latest complete block of `w` instances. -/
theorem C55_iforest_asd (hb : Trainable b) (g : G) (w : ℕ) (hw : 2 ≤ w)
    (s0 : RefWindowState G M α β) (h0 : RefWindow.newIForestASD b g none w = .ok () s0)
    (cs : List (Call α β)) (hL : Labelled false cs) (hne : fitted cs ≠ []) :
    TrainedOn b (calls (RefWindow.detector b) s0 cs).2.model
      (if (fitted cs).length < w then fitted cs
        else ((fitted cs).take ((fitted cs).length / w * w)).drop (((fitted cs).length / w - 1) * w))
      none := by
  have h := C55_refwindow_training hb g w w hw (by omega) false s0 h0 cs hL hne
  have e : trainingSet w w (fitted cs) = (if (fitted cs).length < w then fitted cs
        else ((fitted cs).take ((fitted cs).length / w * w)).drop
          (((fitted cs).length / w - 1) * w)) := by
    unfold trainingSet
    split
    · rfl
    · rename_i hlt
      have h1 : 1 ≤ (fitted cs).length / w := (Nat.one_le_div_iff (by omega)).2 (by omega)
      have h2 : w ≤ (fitted cs).length / w * w := by nlinarith
      have hle := Nat.div_mul_le_self (fitted cs).length w
      rw [if_neg (by omega), lastN, List.length_take, min_eq_left hle]
      congr 1
      rw [Nat.sub_mul, Nat.one_mul]
  rw [e] at h
  exact h

/-! ### C57 -/

/-- **C57, as one would expect it**: no configuration and no stream makes `fit_partial`
raise. -/
def C57_refwindow_never_fails_statement : Prop :=
  ∀ (b : BatchDetector Unit Unit ℕ ℕ ℕ), Trainable b → ∀ w sl, 1 ≤ w → 1 ≤ sl →
  ∀ s0, RefWindow.new b () w sl none none = .ok () s0 →
  ∀ X : List ℕ, ∀ a ∈ (calls (RefWindow.detector b) s0 (X.map fun x => .fit x none)).1, a = .done

/-- A detector for examples: it only remembers the data. -/
def dataDetector : BatchDetector Unit (List ℕ × Option (List ℕ)) ℕ ℕ ℕ where
  train g D Y := .ok (D, Y) g
  decision m x := .ok (m.1.length + x)

/-- **C57 is false**: `window_size = 1`. -/
theorem C57_refwindow_never_fails_refuted : ¬ C57_refwindow_never_fails_statement := by
  intro h
  have := h ⟨fun _ _ _ => .ok () (), fun _ x => .ok x⟩ (fun _ _ _ _ => ⟨(), (), rfl⟩) 1 1 le_rfl le_rfl
    _ rfl [7] (.raised .valueError) (by decide)
  exact absurd this (by decide)

/-- **C57 (partial).** With `window_size ≥ 2` no fit raises, for all-labelled and
all-unlabelled streams. -/
theorem C57_refwindow_never_fails_partial (hb : Trainable b) (g : G) (w sl : ℕ) (hw : 2 ≤ w)
    (hs : 1 ≤ sl) (L : Bool) (s0 : RefWindowState G M α β)
    (h0 : RefWindow.new b g w sl none none = .ok () s0) (cs : List (Call α β))
    (hL : Labelled L cs) (x : α) (y : Option β) (hy : y.isSome = L) :
    ((RefWindow.detector b).fitPartial (calls (RefWindow.detector b) s0 cs).2 x y).out = .ok () := by
  have hXY : L = true → (labelsOf cs).length = (fitted cs).length := by
    rintro rfl; exact labelsOf_labelled cs hL
  obtain ⟨s', h2, -⟩ := refWindow_fit hb w sl hw hs L _ _ hXY _
    (refWindow_inv hb g w sl hw hs L s0 h0 cs hL) x y hy
  simp only [RefWindow.detector] at h2 ⊢
  rw [h2]; rfl

/-- **C57 (partial).** With an initial window no fit raises for any `window_size ≥ 1`. -/
theorem C57_refwindow_never_fails_initial_partial (hb : Trainable b) (g : G) (w sl : ℕ) (hw : 1 ≤ w)
    (hs : 1 ≤ sl) (L : Bool) (I : List α) (J : List β) (hI : I ≠ []) (s0 : RefWindowState G M α β)
    (h0 : RefWindow.new b g w sl (some I) (if L then some J else none) = .ok () s0)
    (cs : List (Call α β)) (hL : Labelled L cs) (x : α) (y : Option β) (hy : y.isSome = L) :
    ((RefWindow.detector b).fitPartial (calls (RefWindow.detector b) s0 cs).2 x y).out = .ok () := by
  have hXY : L = true → (labelsOf cs).length = (fitted cs).length := by
    rintro rfl; exact labelsOf_labelled cs hL
  obtain ⟨s', h2, -⟩ := refWindow_fitFrom hb w sl hw hs L I J hI _ _ hXY _
    (refWindow_invFrom hb g w sl hw hs L I J hI s0 h0 cs hL) x y hy
  simp only [RefWindow.detector] at h2 ⊢
  rw [h2]; rfl

end

/-- A concrete run with windows of 3 sliding by 2: the first slide is at 4. -/
example : (match RefWindow.new dataDetector () 3 2 none none with
    | .ok _ s0 => [1, 2, 3, 4, 5, 6].map fun n =>
      (calls (RefWindow.detector dataDetector) s0
        (([1, 2, 3, 4, 5, 6].take n).map fun x => .fit x (some (10 * x)))).2.model
    | .err _ _ => []) = [.fitted ([1], some [10]), .fitted ([1, 2], some [10, 20]),
      .fitted ([1, 2], some [10, 20]), .fitted ([2, 3, 4], some [20, 30, 40]),
      .fitted ([2, 3, 4], some [20, 30, 40]), .fitted ([4, 5, 6], some [40, 50, 60])] := by
  decide +kernel

/-! ### C58 -/

/-- **C58.** Whatever is fitted or scored after construction, the answers of `OneFitModel`
are those of the detector trained on the initial data: a fit does nothing, and a score
is that detector's. -/
theorem C58_onefit {G M α β S : Type*} (b : BatchDetector G M α β S) (g g' : G) (D : List α)
    (Y : Option (List β)) (m : M) (ht : b.train g D Y = .ok m g') (cs : List (Call α β)) :
    ∃ s0, oneFitModel.new b g D Y = .ok s0 g' ∧
      (calls (oneFitModel b) s0 cs).1 = cs.map fun c => match c with
        | .fit _ _ => .done
        | .score x => match b.decision m x with
          | .ok v => .value v
          | .error e => .raised e := by
  refine ⟨.fitted m, by simp [oneFitModel.new, ht], ?_⟩
  induction cs with
  | nil => rfl
  | cons c cs ih =>
    have hs : (call (oneFitModel b) (.fitted m) c).2 = .fitted m := by
      cases c with
      | fit x y => rfl
      | score x =>
        simp only [call, oneFitModel, ModelSlot.decision]
        cases b.decision m x <;> rfl
    simp only [calls, hs, ih, List.map_cons]
    congr 1
    cases c with
    | fit x y => rfl
    | score x =>
      simp only [call, oneFitModel, ModelSlot.decision]
      cases b.decision m x <;> rfl

/-- **C58.** If the detector cannot be trained on the initial data, construction raises
the same error. -/
theorem C58_onefit_error {G M α β S : Type*} (b : BatchDetector G M α β S) (g g' : G) (D : List α)
    (Y : Option (List β)) (e : PyErr) (ht : b.train g D Y = .err e g') :
    oneFitModel.new b g D Y = .err e g' := by
  simp [oneFitModel.new, ht]

example : (calls (oneFitModel dataDetector) (.fitted ([1, 2], none))
    [.score 5, .fit 9 none, .score 5]).1 = [.value 7, .done, .value 7] := by decide

end Pysad
