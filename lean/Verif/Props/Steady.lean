import Verif.Props.Forgetting
import Verif.Props.HalfSpaceTrees
import Verif.Props.Integrations
import Verif.Props.KitNet
import Verif.Props.XStream

/-! C158: the reference of a detector only changes at the end of a window. -/

namespace Pysad

open Spec

/-- Fitting more instances without completing another block of `w` leaves the score of every
valid instance as it is, once the first block is complete. -/
def Spec.Steady {σ α β S : Type*} (d : Detector σ α β S) (s0 : σ) (valid : α → Prop) (first w : ℕ) :
    Prop :=
  ∀ cs ds : List (Call α β), (∀ x ∈ fitted (cs ++ ds), valid x) → first ≤ (fitted cs).length →
    (fitted (cs ++ ds)).length / w = (fitted cs).length / w →
    ∀ x, valid x → (call d (calls d s0 (cs ++ ds)).2 (.score x : Call α β)).1 =
      (call d (calls d s0 cs).2 (.score x)).1

theorem block_steady {α : Type*} {w : ℕ} {X Y : List α} (hw : w ≤ X.length)
    (h : (X ++ Y).length / w = X.length / w) :
    ((X ++ Y).drop (((X ++ Y).length / w - 1) * w)).take w =
      (X.drop ((X.length / w - 1) * w)).take w := by
  rw [h]
  rcases Nat.eq_zero_or_pos w with rfl | hpos
  · simp
  have h1 : 1 ≤ X.length / w := (Nat.one_le_div_iff hpos).2 hw
  have h2 := Nat.div_mul_le_self X.length w
  have h3 : (X.length / w - 1) * w + w = X.length / w * w := by
    obtain ⟨q, hq⟩ := Nat.exists_eq_add_of_le h1
    rw [hq, show 1 + q - 1 = q by omega]; ring
  rw [List.drop_append_of_le_length (by omega), List.take_append_of_le_length]
  rw [List.length_drop]; omega

/-- **C158 (HalfSpaceTrees).** -/
theorem C158_hst {β K G : Type*} [Field K] [LinearOrder K] (randint : G → ℕ → ℕ × G)
    (hr : InRange randint) (mins maxes : List K) (hd : 1 ≤ maxes.length) (w n D : ℕ) (hw : 1 ≤ w)
    (g : G) (s0 : HstState K) (h0 : Hst.new randint mins maxes w n D g = .ok s0) :
    Steady (Hst.detector K β) s0 (fun x => x.length = maxes.length) w w := by
  intro cs ds hX hl hq x hx
  refine answer_of_out ?_
  have hX' : ∀ x ∈ fitted cs, x.length = maxes.length := fun x h =>
    hX x (by rw [fitted_append]; exact List.mem_append_left _ h)
  rw [C53_hst_score randint hr mins maxes hd w n D hw g s0 h0 _ hX x hx,
    C53_hst_score randint hr mins maxes hd w n D hw g s0 h0 cs hX' x hx]
  have : referenceWindow w (fitted (cs ++ ds)) = referenceWindow w (fitted cs) := by
    rw [fitted_append] at hq ⊢
    unfold referenceWindow
    rw [if_neg (by rw [List.length_append]; omega), if_neg (by omega)]
    exact block_steady hl hq
  rw [this]

/-- **C158 (xStream).** -/
theorem C158_xstream {β K : Type*} [Field K] [LinearOrder K] [IsStrictOrderedRing K] [FloorRing K]
    {k : ℕ} (mmh3 : String → ℕ → ℕ) (log2 : K → K) (p : StreamhashState K) (W : ℕ) (hW : 1 ≤ W)
    (draws : List (XsDraw K k)) (hd : draws ≠ []) (hfs : ∀ draw ∈ draws, draw.fs ≠ []) :
    Steady (XStream.detector (β := β) mmh3 log2) (XStream.new p W draws) (fun _ => True) W W := by
  intro cs ds _ hl hq x _
  rw [C77_xstream_score mmh3 log2 p W hW draws hd hfs cs x,
    C77_xstream_score mmh3 log2 p W hW draws hd hfs (cs ++ ds) x]
  have hi : (XStream.images mmh3 p (cs ++ ds) : List (Fin k → K)) =
      XStream.images mmh3 p cs ++ XStream.images mmh3 p ds := by
    simp [XStream.images, fitted_append]
  have hl' : W ≤ (XStream.images mmh3 p cs : List (Fin k → K)).length := by
    simpa [XStream.images] using hl
  have hq' : (XStream.images mmh3 p (cs ++ ds) : List (Fin k → K)).length / W =
      (XStream.images mmh3 p cs : List (Fin k → K)).length / W := by
    simpa [XStream.images] using hq
  rw [hi] at hq' ⊢
  generalize (XStream.images mmh3 p cs : List (Fin k → K)) = X at hl' hq' ⊢
  generalize (XStream.images mmh3 p ds : List (Fin k → K)) = Y at hq' ⊢
  have hwin : ∀ j < X.length / W, windowAt W (X ++ Y) j = windowAt W X j := by
    intro j hj
    have h1 := Nat.div_mul_le_self X.length W
    have h2 : W * j + W ≤ X.length / W * W := by
      have := Nat.mul_le_mul_right W (Nat.succ_le_of_lt hj)
      rw [Nat.succ_mul] at this
      rw [mul_comm W j]; exact this
    unfold windowAt
    rw [List.drop_append_of_le_length (by omega), List.take_append_of_le_length]
    rw [List.length_drop]; omega
  have hpos : 1 ≤ X.length / W := (Nat.one_le_div_iff (by omega)).2 hl'
  have hwid : ∀ j ≤ X.length / W, widthAt W (X ++ Y) j = widthAt W X j := by
    intro j hj
    cases j with
    | zero => rfl
    | succ j => simp only [widthAt, hwin j (by omega)]
  have hcw : comparedWindow W (X ++ Y) = comparedWindow W X := by
    unfold comparedWindow
    rw [if_neg (by rw [List.length_append]; omega), if_neg (by omega), hq', hwin _ (by omega)]
  have : ∀ fs r y d, foundCount W fs r (X ++ Y) y d = foundCount W fs r X y d := by
    intro fs r y d
    simp only [foundCount, comparedWidth, currentWidth, hq', hcw, hwid _ le_rfl,
      hwid (X.length / W - 1) (by omega)]
  simp only [chainScore, this]

/-- **C158 (ReferenceWindowModel, IForestASD).** The batch detector in use is the same object, not
only one trained on the same data, until `sliding_size` more instances are there. -/
theorem C158_refwindow {G M α β S : Type*} {b : BatchDetector G M α β S} (hb : Trainable b) (g : G)
    (w sl : ℕ) (hw : 2 ≤ w) (hs : 1 ≤ sl) (L : Bool) (s0 : RefWindowState G M α β)
    (h0 : RefWindow.new b g w sl none none = .ok () s0) (cs ds : List (Call α β))
    (hL : Labelled L (cs ++ ds)) (hl : w ≤ (fitted cs).length)
    (hq : (fitted (cs ++ ds)).length / sl = (fitted cs).length / sl) :
    (calls (RefWindow.detector b) s0 (cs ++ ds)).2.model =
      (calls (RefWindow.detector b) s0 cs).2.model := by
  induction ds using List.reverseRecOn with
  | nil => simp
  | append_singleton ds c ih =>
    rw [← List.append_assoc] at hL hq ⊢
    have hL' := (labelled_append L _ _).1 hL
    have hmono : (fitted (cs ++ ds)).length / sl = (fitted cs).length / sl := by
      refine le_antisymm ?_ (Nat.div_le_div_right (by rw [fitted_append, List.length_append]; omega))
      rw [← hq, fitted_append (cs ++ ds)]
      exact Nat.div_le_div_right (by rw [List.length_append]; omega)
    rw [← ih hL'.1 hmono, calls_snoc]
    obtain ⟨i1, i2, i3, i4, i5, -, i6⟩ := refWindow_inv hb g w sl hw hs L s0 h0 (cs ++ ds) hL'.1
    have hlen : w ≤ (fitted (cs ++ ds)).length := by
      rw [fitted_append, List.length_append]; omega
    have hne : fitted (cs ++ ds) ≠ [] := by
      intro h; rw [h] at hlen; simp at hlen; omega
    obtain ⟨i7, -, -⟩ := i6 hne
    generalize (calls (RefWindow.detector b) s0 (cs ++ ds)).2 = s at i1 i2 i3 i4 i5 i7 ⊢
    cases c with
    | score x =>
      simp only [call, RefWindow.detector, RefWindow.scorePartial]
      cases s.model.decision b x <;> rfl
    | fit x y =>
      rw [fitted_append (cs ++ ds), show fitted [(.fit x y : Call α β)] = [x] from rfl,
        List.length_append, List.length_singleton, ← hmono] at hq
      generalize fitted (cs ++ ds) = X at *
      have hX := Nat.div_mul_le_self X.length sl
      have hmod : (X.length + 1) % sl ≠ 0 := by
        intro h
        have h1 := Nat.div_mul_cancel (Nat.dvd_of_mod_eq_zero h)
        rw [hq] at h1
        omega
      have hst : ∀ y : Option β, (RefWindow.store s x y).curX = s.curX ++ [x] ∧
          (RefWindow.store s x y).refX = s.refX ∧ (RefWindow.store s x y).slidingSize = s.slidingSize ∧
          (RefWindow.store s x y).windowSize = s.windowSize ∧ (RefWindow.store s x y).model = s.model := by
        intro y; cases y <;> exact ⟨rfl, rfl, rfl, rfl, rfl⟩
      obtain ⟨e1, e2, e3, e4, e5⟩ := hst y
      have hcur : ((RefWindow.store s x y).curX.length) % sl ≠ 0 := by
        rw [e1, i4, List.length_append, List.length_singleton]
        unfold waiting
        split
        · exact hmod
        · rw [List.length_drop]
          intro h
          apply hmod
          rw [show X.length + 1 = X.length - X.length / sl * sl + 1 + X.length / sl * sl by omega,
            Nat.add_mul_mod_self_right]
          exact h
      have hfirst : (!(RefWindow.store s x y).initialRefWindow &&
          decide ((RefWindow.store s x y).curX.length < (RefWindow.store s x y).windowSize) &&
          RefWindow.refShort (RefWindow.store s x y)) = false := by
        rw [e1, e4, i1, i4]
        by_cases hc : X.length / sl * sl < w
        · have : decide ((waiting w sl X ++ [x]).length < w) = false := by
            rw [decide_eq_false_iff_not]
            unfold waiting
            rw [if_pos hc, List.length_append]
            omega
          rw [this, Bool.and_false, Bool.false_and]
        · have : RefWindow.refShort (RefWindow.store s x y) = false := by
            unfold RefWindow.refShort
            rw [e2, i7, e4, i1]
            simp only [decide_eq_false_iff_not]
            unfold trainingSet
            rw [if_neg (by omega), if_neg hc, lastN_length, List.length_take]
            omega
          rw [this, Bool.and_false]
      have hfit : (RefWindow.detector b).fitPartial s x y = .ok () (RefWindow.store s x y) := by
        simp only [RefWindow.detector, RefWindow.fitPartial, RefWindow.refresh]
        rw [hfirst, if_neg (by decide), e3, i2, if_neg (by omega), if_neg hcur]
      simp only [call, hfit, e5]

/-- **C158 (ReferenceWindowModel with an initial window).** -/
theorem C158_refwindow_initial {G M α β S : Type*} {b : BatchDetector G M α β S} (hb : Trainable b)
    (g : G) (w sl : ℕ) (hw : 1 ≤ w) (hs : 1 ≤ sl) (L : Bool) (I : List α) (J : List β) (hI : I ≠ [])
    (s0 : RefWindowState G M α β)
    (h0 : RefWindow.new b g w sl (some I) (if L then some J else none) = .ok () s0)
    (cs ds : List (Call α β)) (hL : Labelled L (cs ++ ds))
    (hq : (fitted (cs ++ ds)).length / sl = (fitted cs).length / sl) :
    (calls (RefWindow.detector b) s0 (cs ++ ds)).2.model =
      (calls (RefWindow.detector b) s0 cs).2.model := by
  induction ds using List.reverseRecOn with
  | nil => simp
  | append_singleton ds c ih =>
    rw [← List.append_assoc] at hL hq ⊢
    have hL' := (labelled_append L _ _).1 hL
    have hmono : (fitted (cs ++ ds)).length / sl = (fitted cs).length / sl := by
      refine le_antisymm ?_ (Nat.div_le_div_right (by rw [fitted_append, List.length_append]; omega))
      rw [← hq, fitted_append (cs ++ ds)]
      exact Nat.div_le_div_right (by rw [List.length_append]; omega)
    rw [← ih hL'.1 hmono, calls_snoc]
    obtain ⟨-, i2, i3, i4, -⟩ := refWindow_invFrom hb g w sl hw hs L I J hI s0 h0 (cs ++ ds) hL'.1
    generalize (calls (RefWindow.detector b) s0 (cs ++ ds)).2 = s at i2 i3 i4 ⊢
    cases c with
    | score x =>
      simp only [call, RefWindow.detector, RefWindow.scorePartial]
      cases s.model.decision b x <;> rfl
    | fit x y =>
      rw [fitted_append (cs ++ ds), show fitted [(.fit x y : Call α β)] = [x] from rfl,
        List.length_append, List.length_singleton, ← hmono] at hq
      generalize fitted (cs ++ ds) = X at *
      have hX := Nat.div_mul_le_self X.length sl
      have hst : ∀ y : Option β, (RefWindow.store s x y).curX = s.curX ++ [x] ∧
          (RefWindow.store s x y).initialRefWindow = s.initialRefWindow ∧
          (RefWindow.store s x y).slidingSize = s.slidingSize ∧
          (RefWindow.store s x y).model = s.model := by
        intro y; cases y <;> exact ⟨rfl, rfl, rfl, rfl⟩
      obtain ⟨e1, e2, e3, e5⟩ := hst y
      have hcur : ((RefWindow.store s x y).curX.length) % sl ≠ 0 := by
        rw [e1, i4, List.length_append, List.length_singleton, List.length_drop]
        intro h
        have hmod : (X.length + 1) % sl = 0 := by
          rw [show X.length + 1 = X.length - X.length / sl * sl + 1 + X.length / sl * sl by omega,
            Nat.add_mul_mod_self_right]
          exact h
        have h1 := Nat.div_mul_cancel (Nat.dvd_of_mod_eq_zero hmod)
        rw [hq] at h1
        omega
      have hfit : (RefWindow.detector b).fitPartial s x y = .ok () (RefWindow.store s x y) := by
        simp only [RefWindow.detector, RefWindow.fitPartial, RefWindow.refresh]
        rw [e2, i3, Bool.not_true, Bool.false_and, Bool.false_and, if_neg (by decide), e3, i2,
          if_neg (by omega), if_neg hcur]
      simp only [call, hfit, e5]

/-- Hence scores stay the same. -/
theorem C158_refwindow_score {G M α β S : Type*} {b : BatchDetector G M α β S} (hb : Trainable b) (g : G)
    (w sl : ℕ) (hw : 2 ≤ w) (hs : 1 ≤ sl) (L : Bool) (s0 : RefWindowState G M α β)
    (h0 : RefWindow.new b g w sl none none = .ok () s0) (cs ds : List (Call α β))
    (hL : Labelled L (cs ++ ds)) (hl : w ≤ (fitted cs).length)
    (hq : (fitted (cs ++ ds)).length / sl = (fitted cs).length / sl) (x : α) :
    (call (RefWindow.detector b) (calls (RefWindow.detector b) s0 (cs ++ ds)).2 (.score x : Call α β)).1 =
      (call (RefWindow.detector b) (calls (RefWindow.detector b) s0 cs).2 (.score x)).1 := by
  refine answer_of_out ?_
  simp only [RefWindow.detector, RefWindow.scorePartial]
  have h := C158_refwindow hb g w sl hw hs L s0 h0 cs ds hL hl hq
  simp only [RefWindow.detector] at h
  rw [h]
  cases (ModelSlot.decision b x _) <;> rfl

/-- Window 3, sliding 2: after the fourth instance the detector is retrained, after the fifth not. -/
example : (match RefWindow.new dataDetector () 3 2 none none with
    | .err _ _ => []
    | .ok _ s0 => [3, 4, 5, 6].map fun n : ℕ =>
      (calls (RefWindow.detector dataDetector) s0
        ((List.range n).map fun i => .fit i none)).2.model) =
    [.fitted ([0, 1], none), .fitted ([1, 2, 3], none), .fitted ([1, 2, 3], none),
      .fitted ([3, 4, 5], none)] := by decide

end Pysad
