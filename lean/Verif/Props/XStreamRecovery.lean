import Verif.Model.XStreamInterrupt
import Verif.Props.XStream
import Verif.Props.HstRecovery

/-! Property C175: xStream recovers from an interrupted fit. -/

namespace Pysad
open Spec HstRecovery XStream

variable {K : Type*} {k : ℕ}

namespace XStreamRecovery

theorem loopStages_final {σ : Type*} (stages : σ → List σ) (body : σ → σ)
    (h : ∀ c, final (stages c) c = body c) (cs : List σ) :
    final (loopStages stages body cs) cs = cs.map body := by
  induction cs with
  | nil => rfl
  | cons c cs ih =>
    rw [loopStages, final_append, final_map (fun c' => c' :: cs), h,
      final_map (fun cs' => body c :: cs'), ih]
    rfl

/-- What holds of all stages of the body holds, in a sense, of the loop's. -/
theorem loopStages_forall {σ δ : Type*} (R : δ → σ → Prop) (stages : σ → List σ) (body : σ → σ)
    (hs : ∀ d c, R d c → ∀ c' ∈ stages c, R d c') (hb : ∀ d c, R d c → R d (body c)) (ds : List δ) :
    ∀ cs, List.Forall₂ R ds cs → ∀ cs' ∈ loopStages stages body cs, List.Forall₂ R ds cs' := by
  induction ds with
  | nil => intro cs h; cases h; simp [loopStages]
  | cons d ds ih =>
    intro cs h cs' hc
    cases h with
    | @cons _ c _ cs h1 h2 =>
      rcases List.mem_append.1 hc with hc | hc
      · obtain ⟨c', hc', rfl⟩ := List.mem_map.1 hc
        exact .cons (hs d c h1 c' hc') h2
      · obtain ⟨cs', hc', rfl⟩ := List.mem_map.1 hc
        exact .cons (hb d c h1) (ih cs h2 cs' hc')

variable [Field K] [LinearOrder K] [IsStrictOrderedRing K] [FloorRing K]

omit [IsStrictOrderedRing K] in
theorem fitLoopStages_final (X : Fin k → K) (fs : List (Fin k)) : ∀ (c : XsChain K k) (d : ℕ)
    (st : (Fin k → K) × (Fin k → ℕ)), final (fitLoopStages X c d fs st) c = fitLoop X c d fs st := by
  induction fs with
  | nil => intro c d st; rfl
  | cons f fs ih =>
    intro c d st
    rw [fitLoopStages, fitLoop, final_append]
    exact ih _ _ _

end XStreamRecovery

open XStreamRecovery

variable [Field K] [LinearOrder K] [IsStrictOrderedRing K] [FloorRing K]

omit [IsStrictOrderedRing K] in
/-- All the assignments together are `fit_partial`. -/
theorem xstream_statements_complete (mmh3 : String → ℕ → ℕ) (x : List K) (s : XStreamState K k) :
    runStatements (XStream.statements mmh3 x s) s = (XStream.fitPartial mmh3 s x).state := by
  unfold XStream.statements
  rw [run_final]
  unfold XStream.fitStages XStream.fitPartial
  simp only
  rw [final_append, final_append]
  have h1 := loopStages_final (fitChainStages (project mmh3 s.streamhash x))
    (fitChain (project mmh3 s.streamhash x)) (fun c => fitLoopStages_final _ _ _ _ _) s.chains
  set X : Fin k → K := project mmh3 s.streamhash x
  change final _ (final _ ({ s with step := s.step + 1, curWindow := s.curWindow ++ [X] } : XStreamState K k)) = _
  rw [final_map (fun cs => ({ s with step := s.step + 1, curWindow := s.curWindow ++ [X], chains := cs } :
    XStreamState K k)), h1]
  by_cases hw : s.windowSize = 0
  · simp only [if_pos hw]; rfl
  · simp only [if_neg hw]
    by_cases hm : (s.step + 1) % s.windowSize = 0
    · simp only [if_pos hm, Option.getD_some]
      rw [final_append]
      change final _ (⟨s.streamhash, s.windowSize, s.chains.map (fitChain X), s.step + 1, [],
        some (s.curWindow ++ [X])⟩ : XStreamState K k) = _
      cases computeDeltamax (s.curWindow ++ [X]) with
      | error e => rfl
      | ok δ =>
        simp only
        rw [final_append, final_map (fun cs => (⟨s.streamhash, s.windowSize, cs, s.step + 1, [],
            some (s.curWindow ++ [X])⟩ : XStreamState K k)),
          loopStages_final (setDeltamaxStages δ) (setDeltamax δ) (fun c => rfl),
          final_map (fun cs => (⟨s.streamhash, s.windowSize, cs, s.step + 1, [],
            some (s.curWindow ++ [X])⟩ : XStreamState K k)),
          loopStages_final nextWindowStages nextWindow (fun c => rfl)]
        rfl
    · simp only [if_neg hm]; rfl

namespace XStreamRecovery

/-- The chain was made with these random choices. -/
def Made (draw : XsDraw K k) (c : XsChain K k) : Prop := c.fs = draw.fs ∧ c.randArr = draw.randArr

/-- ... it is past its first window and collects `cur`, binned with `δ`, in dicts of its own. -/
structure Collects (draw : XsDraw K k) (δ : Fin k → K) (cur : List (Fin k → K)) (c : XsChain K k) : Prop where
  made : Made draw c
  delta : c.deltamax = δ
  shift : c.shift = fun f => draw.randArr f * δ f
  later : c.isFirstWindow = false
  lt_cur : ∀ d < draw.fs.length, c.cmsketchesCur d < c.fresh
  inj_cur : ∀ d < draw.fs.length, ∀ e < draw.fs.length, c.cmsketchesCur d = c.cmsketchesCur e → d = e
  curCount : ∀ d < draw.fs.length, ∀ b, ((c.heap (c.cmsketchesCur d)) b).getD 0
    = binCount draw.fs draw.randArr δ d cur b

omit [Field K] [LinearOrder K] [IsStrictOrderedRing K] [FloorRing K] in
theorem record_made (draw : XsDraw K k) (c : XsChain K k) (h : Made draw c) (d : ℕ) (l : Fin k → ℤ) :
    Made draw (record c d l) := by
  rw [record_eq]; exact h

omit [IsStrictOrderedRing K] in
theorem fitLoop_made (draw : XsDraw K k) (X : Fin k → K) (fs : List (Fin k)) : ∀ (c : XsChain K k) (d : ℕ)
    (st : (Fin k → K) × (Fin k → ℕ)), Made draw c →
    Made draw (fitLoop X c d fs st) ∧ ∀ c' ∈ fitLoopStages X c d fs st, Made draw c' := by
  induction fs with
  | nil => intro c d st h; exact ⟨h, by simp [fitLoopStages]⟩
  | cons f fs ih =>
    intro c d st h
    have h2 := ih (record c d (binIndex (prebinStep c X f st).1)) (d + 1) (prebinStep c X f st)
      (record_made draw c h _ _)
    refine ⟨h2.1, fun c' hc => ?_⟩
    rw [fitLoopStages] at hc
    rcases List.mem_append.1 hc with hc | hc
    · simp only [recordStages, List.mem_cons, List.not_mem_nil, or_false] at hc
      rcases hc with rfl | rfl | rfl
      · exact h
      · exact h
      · exact record_made draw c h _ _
    · exact h2.2 c' hc

theorem fitChain_collects (draw : XsDraw K k) (δ X : Fin k → K) (hδ : ∀ f, δ f ≠ 0)
    (cur : List (Fin k → K)) (c : XsChain K k) (h : Collects draw δ cur c) :
    Collects draw δ (cur ++ [X]) (fitChain X c) := by
  obtain ⟨⟨a1, a2, a3, a4, a5, a6, a7⟩, h2, h3, h4⟩ :=
    fitLoop_spec draw.randArr δ X hδ c.fs [] c h.delta h.shift
  have hfit : fitLoop X c ([] : List (Fin k)).length c.fs (pre draw.randArr δ X [])
      = fitChain X c := by rw [pre_nil]; rfl
  rw [hfit] at a1 a2 a3 a4 a5 a6 a7 h2 h3 h4
  have ht : target c = c.cmsketchesCur := by unfold target; rw [h.later]; rfl
  have hcur : (fitChain X c).cmsketchesCur = c.cmsketchesCur := by
    funext d
    rw [h2 d, if_neg (by rw [h.later]; simp)]
  refine ⟨⟨by rw [a1, h.made.1], by rw [a5, h.made.2]⟩, by rw [a4, h.delta], by rw [a6, h.shift],
    by rw [a7, h.later], ?_, ?_, ?_⟩
  · intro d hd; rw [hcur, a2]; exact h.lt_cur d hd
  · rw [hcur]; exact h.inj_cur
  · intro d hd b
    have := h4 (by
      intro i hi j hj hij
      rw [h.made.1] at hi hj
      simp only [List.length_nil, Nat.zero_add, ht] at hij
      exact h.inj_cur i hi j hj hij) d (by rw [h.made.1]; exact hd)
    simp only [List.length_nil, Nat.zero_add, ht, List.nil_append, h.made.1] at this
    rw [hcur, this, increment_getD, h.curCount d hd, binCount_snoc]

omit [IsStrictOrderedRing K] in
/-- A chain that starts a new window collects nothing yet, whatever it was before. -/
theorem nextWindow_collects (draw : XsDraw K k) (δ : Fin k → K) (c : XsChain K k) (h : Made draw c) :
    Collects draw δ [] (nextWindow (setDeltamax δ c)) := by
  have hfresh : ∀ d < draw.fs.length, c.fresh + d % draw.fs.length = c.fresh + d := by
    intro d hd; rw [Nat.mod_eq_of_lt hd]
  refine ⟨h, rfl, ?_, rfl, ?_, ?_, ?_⟩
  · simp only [nextWindow, setDeltamax, h.2]
  · intro d hd
    simp only [nextWindow, setDeltamax, newRefs, h.1, hfresh d hd]
    omega
  · intro d hd e he
    simp only [nextWindow, setDeltamax, newRefs, h.1, hfresh d hd, hfresh e he]
    omega
  · intro d hd b
    have hnew : (nextWindow (setDeltamax δ c)).heap
        ((nextWindow (setDeltamax δ c)).cmsketchesCur d) = fun _ => none :=
      if_pos (by simp only [setDeltamax, nextWindow, newRefs]; omega)
    rw [hnew]
    simp [binCount]

omit [IsStrictOrderedRing K] in
/-- ... and one that had collected a window compares with it from then on. -/
theorem nextWindow_compares (draw : XsDraw K k) (δ δ' : Fin k → K) (cur : List (Fin k → K))
    (c : XsChain K k) (h : Collects draw δ cur c) :
    Good draw false δ δ' cur [] (nextWindow (setDeltamax δ' c)) := by
  have hn := nextWindow_collects draw δ' c h.made
  have hlt := h.lt_cur
  have hfresh : ∀ d < draw.fs.length, c.fresh + d % draw.fs.length = c.fresh + d := by
    intro d hd; rw [Nat.mod_eq_of_lt hd]
  refine ⟨hn.made.1, hn.made.2, hn.delta, hn.shift, hn.later, ?_, hn.lt_cur, ?_, hn.inj_cur, ?_, by simp, ?_,
    fun _ => hn.curCount⟩
  · intro d hd
    have := hlt d hd
    simp only [nextWindow, setDeltamax]
    omega
  · intro d hd e he; exact h.inj_cur d hd e he
  · intro _ d hd e he
    have := hlt d hd
    simp only [nextWindow, setDeltamax, newRefs, h.made.1, hfresh e he]
    omega
  · intro d hd b
    have hold : (nextWindow (setDeltamax δ' c)).heap ((nextWindow (setDeltamax δ' c)).cmsketches d)
        = c.heap (c.cmsketchesCur d) :=
      if_neg (by have := hlt d hd; simp only [setDeltamax, nextWindow]; omega)
    rw [hold]
    exact h.curCount d hd b

/-- What is right about the state of a detector that was interrupted, `n` window boundaries ago. -/
def Level (p : StreamhashState K) (W : ℕ) (draws : List (XsDraw K k)) (xs : List (Fin k → K)) (n : ℕ)
    (s : XStreamState K k) : Prop :=
  (s.streamhash = p ∧ s.windowSize = W ∧ s.step = xs.length ∧ List.Forall₂ Made draws s.chains) ∧
  (1 ≤ n → s.curWindow = xs.drop (W * (xs.length / W))) ∧
  (2 ≤ n → List.Forall₂ (fun draw => Collects draw (currentWidth W xs) (xs.drop (W * (xs.length / W))))
    draws s.chains) ∧
  (3 ≤ n → Inv p W draws xs s)

/-- Windows and widths when an instance completes a window. -/
theorem at_boundary (W : ℕ) (hW : 1 ≤ W) (xs : List (Fin k → K)) (X : Fin k → K)
    (hb : (xs.length + 1) % W = 0) :
    (xs ++ [X]).drop (W * ((xs.length + 1) / W)) = [] ∧
    currentWidth W (xs ++ [X]) = binWidth (xs.drop (W * (xs.length / W)) ++ [X]) ∧
    comparedWidth W (xs ++ [X]) = currentWidth W xs ∧
    comparedWindow W (xs ++ [X]) = xs.drop (W * (xs.length / W)) ++ [X] ∧ ¬ xs.length + 1 < W := by
  have hdiv := Nat.div_add_mod xs.length W
  have hmod := Nat.mod_lt xs.length (show W > 0 by omega)
  have hlen : (xs ++ [X]).length = xs.length + 1 := by simp
  have hdvd : W ∣ xs.length + 1 := Nat.dvd_of_mod_eq_zero hb
  have hq : (xs.length + 1) / W = xs.length / W + 1 := by
    rw [Nat.succ_div, if_pos hdvd]
  have hfull : W * (xs.length / W + 1) = xs.length + 1 := by rw [← hq]; exact Nat.mul_div_cancel' hdvd
  set q := xs.length / W with hqdef
  have hnl : ¬ xs.length + 1 < W := by
    intro hlt
    rw [Nat.mod_eq_of_lt hlt] at hb
    omega
  have hwin : xs.drop (W * q) ++ [X] = windowAt W (xs ++ [X]) q := by
    unfold windowAt
    rw [List.take_of_length_le, List.drop_append_of_le_length (by omega)]
    rw [List.length_drop, hlen]
    rw [Nat.mul_succ] at hfull
    omega
  refine ⟨?_, ?_, ?_, ?_, hnl⟩
  · apply List.drop_eq_nil_of_le
    rw [hlen, hq]; omega
  · rw [currentWidth, hlen, hq, hwin]; rfl
  · rw [comparedWidth, currentWidth, hlen, hq, Nat.add_sub_cancel]
    exact widthAt_snoc W xs X q (by omega)
  · rw [comparedWindow, hlen, if_neg hnl, hq, Nat.add_sub_cancel, hwin]

/-- ... and when it does not. -/
theorem off_boundary (W : ℕ) (xs : List (Fin k → K)) (X : Fin k → K)
    (hb : ¬ (xs.length + 1) % W = 0) :
    (xs ++ [X]).drop (W * ((xs.length + 1) / W)) = xs.drop (W * (xs.length / W)) ++ [X] ∧
    currentWidth W (xs ++ [X]) = currentWidth W xs := by
  have hdiv := Nat.div_add_mod xs.length W
  have hlen : (xs ++ [X]).length = xs.length + 1 := by simp
  have hq : (xs.length + 1) / W = xs.length / W := by
    rw [Nat.succ_div, if_neg (fun h => hb (Nat.mod_eq_zero_of_dvd h)), Nat.add_zero]
  constructor
  · rw [hq, List.drop_append_of_le_length (by omega)]
  · rw [currentWidth, currentWidth, hlen, hq]
    exact widthAt_snoc W xs X _ (by omega)

theorem fit_level (mmh3 : String → ℕ → ℕ) (p : StreamhashState K) (W : ℕ) (hW : 1 ≤ W)
    (draws : List (XsDraw K k)) (xs : List (Fin k → K)) (n : ℕ) (s : XStreamState K k)
    (h : Level p W draws xs n s) (x : List K) :
    ∃ s', XStream.fitPartial mmh3 s x = .ok () s' ∧
      Level p W draws (xs ++ [project mmh3 p x]) (n + if (xs.length + 1) % W = 0 then 1 else 0) s' := by
  obtain ⟨⟨hp, hw, hst, hmade⟩, hc1, hc2, hc3⟩ := h
  set X : Fin k → K := project mmh3 p x with hX
  have hlen : (xs ++ [X]).length = xs.length + 1 := by simp
  have hmade' : List.Forall₂ Made draws (s.chains.map (fitChain X)) :=
    forall₂_map_imp (fun draw c hc => (fitLoop_made draw X c.fs c 0 _ hc).1) hmade
  have hcol : 2 ≤ n → List.Forall₂ (fun draw => Collects draw (currentWidth W xs)
      (xs.drop (W * (xs.length / W)) ++ [X])) draws (s.chains.map (fitChain X)) := fun hn =>
    forall₂_map_imp (fun draw c hc => fitChain_collects draw _ X (fun f => (widthAt_pos W xs _ f).ne') _ c hc)
      (hc2 hn)
  by_cases hb : (xs.length + 1) % W = 0
  · obtain ⟨b1, b2, b3, b4, b5⟩ := at_boundary W hW xs X hb
    have hne : s.curWindow ++ [X] ≠ [] := by simp
    have hfit : XStream.fitPartial mmh3 s x = .ok () ⟨s.streamhash, s.windowSize,
        ((s.chains.map (fitChain X)).map (setDeltamax (binWidth (s.curWindow ++ [X])))).map nextWindow,
        s.step + 1, [], some (s.curWindow ++ [X])⟩ := by
      unfold XStream.fitPartial
      simp only [hp, hw, hst, ← hX]
      rw [if_neg (by omega), if_pos hb]
      simp only [Option.getD_some, computeDeltamax_eq _ hne]
    refine ⟨_, hfit, ⟨hp, hw, by rw [hlen]; exact congrArg (· + 1) hst, ?_⟩, ?_, ?_, ?_⟩
    · rw [List.map_map]
      exact forall₂_map_imp (g := nextWindow ∘ setDeltamax _) (fun draw c hc => hc) hmade'
    · intro _; rw [hlen, b1]
    · intro hn
      rw [if_pos hb] at hn
      rw [List.map_map, hlen, b1, b2, hc1 (by omega)]
      exact forall₂_map_imp (fun draw c hc => nextWindow_collects draw _ c hc) hmade'
    · intro hn
      rw [if_pos hb] at hn
      refine ⟨hp, hw, by rw [hlen]; exact congrArg (· + 1) hst, by rw [hlen, b1], ?_⟩
      rw [List.map_map, hlen, b1, b2, b3, b4, decide_eq_false b5, hc1 (by omega)]
      exact forall₂_map_imp (fun draw c hc => nextWindow_compares draw _ _ _ c hc) (hcol (by omega))
  · obtain ⟨b1, b2⟩ := off_boundary W xs X hb
    have hfit : XStream.fitPartial mmh3 s x = .ok () ⟨s.streamhash, s.windowSize,
        s.chains.map (fitChain X), s.step + 1, s.curWindow ++ [X], s.refWindow⟩ := by
      unfold XStream.fitPartial
      simp only [hp, hw, hst, ← hX]
      rw [if_neg (by omega), if_neg hb]
    refine ⟨_, hfit, ⟨hp, hw, by rw [hlen]; exact congrArg (· + 1) hst, hmade'⟩, ?_, ?_, ?_⟩
    · intro hn
      rw [if_neg hb] at hn
      rw [hlen, b1, hc1 (by omega)]
    · intro hn
      rw [if_neg hb] at hn
      rw [hlen, b1, b2]
      exact hcol (by omega)
    · intro hn
      rw [if_neg hb] at hn
      obtain ⟨s', e1, e2⟩ := inv_fit mmh3 p W hW draws xs s (hc3 (by omega)) x
      rw [hfit] at e1
      cases e1
      exact e2

omit [IsStrictOrderedRing K] in
/-- Every intermediate state has counted the instance and has the chains of before. -/
theorem fitStages_level (mmh3 : String → ℕ → ℕ) (p : StreamhashState K) (W : ℕ)
    (draws : List (XsDraw K k)) (xs : List (Fin k → K)) (s : XStreamState K k)
    (h : Level p W draws xs 0 s) (x : List K) (X : Fin k → K) :
    ∀ t ∈ XStream.fitStages mmh3 s x, Level p W draws (xs ++ [X]) 0 t := by
  obtain ⟨⟨hp, hw, hst, hmade⟩, -⟩ := h
  have hlen : (xs ++ [X]).length = xs.length + 1 := by simp
  have key : ∀ t : XStreamState K k, t.streamhash = s.streamhash → t.windowSize = s.windowSize →
      t.step = s.step + 1 → List.Forall₂ Made draws t.chains → Level p W draws (xs ++ [X]) 0 t := by
    intro t h1 h2 h3 h4
    refine ⟨⟨h1.trans hp, h2.trans hw, by rw [h3, hst, hlen], h4⟩, ?_, ?_, ?_⟩ <;> intro hn <;> omega
  intro t ht
  unfold XStream.fitStages at ht
  simp only at ht
  set Y : Fin k → K := project mmh3 s.streamhash x
  have hfit : ∀ d c, Made (K := K) d c → Made d (fitChain Y c) := fun d c hc =>
    (fitLoop_made d Y c.fs c 0 _ hc).1
  have hmade' : List.Forall₂ Made draws (s.chains.map (fitChain Y)) := forall₂_map_imp hfit hmade
  rcases List.mem_append.1 ht with ht | ht
  · rcases List.mem_append.1 ht with ht | ht
    · simp only [List.mem_cons, List.not_mem_nil, or_false] at ht
      rcases ht with rfl | rfl
      · exact key _ rfl rfl rfl hmade
      · exact key _ rfl rfl rfl hmade
    · obtain ⟨cs, hcs, rfl⟩ := List.mem_map.1 ht
      exact key _ rfl rfl rfl (loopStages_forall Made _ _
        (fun d c hc => (fitLoop_made d Y c.fs c 0 _ hc).2) hfit draws _ hmade cs hcs)
  · by_cases hw0 : s.windowSize = 0
    · rw [if_pos hw0] at ht; exact absurd ht List.not_mem_nil
    · rw [if_neg hw0] at ht
      by_cases hm : (s.step + 1) % s.windowSize = 0
      · rw [if_pos hm] at ht
        rcases List.mem_append.1 ht with ht | ht
        · simp only [List.mem_cons, List.not_mem_nil, or_false] at ht
          rcases ht with rfl | rfl
          · exact key _ rfl rfl rfl hmade'
          · exact key _ rfl rfl rfl hmade'
        · cases hd : computeDeltamax (s.curWindow ++ [Y]) with
          | error e => rw [hd] at ht; exact absurd ht List.not_mem_nil
          | ok δ =>
            rw [hd] at ht
            have hset : ∀ d c, Made (K := K) d c → Made d (setDeltamax δ c) := fun d c hc => hc
            have hnext : ∀ d c, Made (K := K) (k := k) d c → Made d (nextWindow c) := fun d c hc => hc
            rcases List.mem_append.1 ht with ht | ht
            · obtain ⟨cs, hcs, rfl⟩ := List.mem_map.1 ht
              refine key _ rfl rfl rfl (loopStages_forall Made _ _ (fun d c hc c' hc' => ?_) hset draws _ hmade' cs hcs)
              simp only [setDeltamaxStages, List.mem_cons, List.not_mem_nil, or_false] at hc'
              rcases hc' with rfl | rfl <;> exact hc
            · obtain ⟨cs, hcs, rfl⟩ := List.mem_map.1 ht
              refine key _ rfl rfl rfl (loopStages_forall Made _ _ (fun d c hc c' hc' => ?_) hnext draws _
                (forall₂_map_imp hset hmade') cs hcs)
              simp only [nextWindowStages, List.mem_cons, List.not_mem_nil, or_false] at hc'
              rcases hc' with rfl | rfl | rfl <;> exact hc
      · rw [if_neg hm] at ht; exact absurd ht List.not_mem_nil

omit [IsStrictOrderedRing K] in
theorem level_zero {p : StreamhashState K} {W : ℕ} {draws : List (XsDraw K k)} {xs : List (Fin k → K)} {n : ℕ}
    {s : XStreamState K k} (h : Level p W draws xs n s) : Level p W draws xs 0 s :=
  ⟨h.1, by omega, by omega, by omega⟩

omit [IsStrictOrderedRing K] in
theorem level_new (p : StreamhashState K) (W : ℕ) (draws : List (XsDraw K k)) :
    Level p W draws [] 0 (XStream.new p W draws) := by
  refine ⟨⟨rfl, rfl, rfl, ?_⟩, by omega, by omega, by omega⟩
  simp only [XStream.new]
  rw [List.forall₂_map_right_iff, List.forall₂_same]
  exact fun draw _ => ⟨rfl, rfl⟩

theorem after_level (mmh3 : String → ℕ → ℕ) (p : StreamhashState K) (W : ℕ) (hW : 1 ≤ W)
    (draws : List (XsDraw K k)) (h : List (List K × Option ℕ)) :
    ∃ l, Reading h l ∧ Level p W draws (l.map (project mmh3 p)) 0
      (afterCalls (XStream.statements mmh3) (XStream.new p W draws) h) := by
  induction h using List.reverseRecOn with
  | nil => exact ⟨[], .nil, level_new p W draws⟩
  | append_singleton h e ih =>
    obtain ⟨l, h1, h2⟩ := ih
    obtain ⟨x, o⟩ := e
    rw [afterCalls_append]
    generalize afterCalls (XStream.statements mmh3) (XStream.new p W draws) h = t at h2 ⊢
    have hl : (l ++ [x]).map (project mmh3 p : List K → Fin k → K) = l.map (project mmh3 p) ++ [project mmh3 p x] := by simp
    cases o with
    | none =>
      refine ⟨l ++ [x], reading_append h1 (.done .nil), ?_⟩
      obtain ⟨t', e1, e2⟩ := fit_level mmh3 p W hW draws _ 0 t h2 x
      change Level p W draws _ 0 (runStatements (XStream.statements mmh3 x t) t)
      rw [xstream_statements_complete, e1, hl]
      exact level_zero e2
    | some j =>
      change ∃ l', Reading _ l' ∧ Level p W draws (l'.map (project mmh3 p)) 0
        (runStatements ((XStream.statements mmh3 x t).take j) t)
      unfold XStream.statements
      rw [← List.map_take, run_final]
      rcases final_mem (List.take j (XStream.fitStages mmh3 t x)) t with ⟨e1, -⟩ | e1
      · rw [e1]
        exact ⟨l, by simpa using reading_append h1 (.lost (x := x) (k := j) .nil), h2⟩
      · refine ⟨l ++ [x], reading_append h1 (.took .nil), ?_⟩
        rw [hl]
        exact fitStages_level mmh3 p W draws _ t h2 x _ _ (List.mem_of_mem_take e1)

theorem later_level (mmh3 : String → ℕ → ℕ) (p : StreamhashState K) (W : ℕ) (hW : 1 ≤ W)
    (draws : List (XsDraw K k)) (l : List (List K)) (t : XStreamState K k)
    (ha : Level p W draws (l.map (project mmh3 p)) 0 t) (X : List (List K)) :
    ∃ n, n + l.length / W = (l.length + X.length) / W ∧ Level p W draws ((l ++ X).map (project mmh3 p)) n
      (afterCalls (XStream.statements mmh3) t (X.map fun x => (x, none))) := by
  induction X using List.reverseRecOn with
  | nil => exact ⟨0, by simp, by rw [List.append_nil]; exact ha⟩
  | append_singleton X x ih =>
    obtain ⟨n, e1, e2⟩ := ih
    obtain ⟨t', f1, f2⟩ := fit_level mmh3 p W hW draws _ n _ e2 x
    rw [List.length_map, List.length_append] at f2
    refine ⟨n + if (l.length + X.length + 1) % W = 0 then 1 else 0, ?_, ?_⟩
    rotate_left
    · rw [List.map_append (l₁ := X), afterCalls_append, ← List.append_assoc, List.map_append (l₁ := l ++ X)]
      generalize afterCalls (XStream.statements mmh3) t (X.map fun x => (x, none)) = u at f1
      change Level p W draws _ _ (runStatements (XStream.statements mmh3 x u) u)
      rw [xstream_statements_complete, f1]
      exact f2
    · rw [List.length_append, List.length_singleton, ← Nat.add_assoc, Nat.succ_div]
      simp only [Nat.dvd_iff_mod_eq_zero]
      omega

theorem inv_score (mmh3 : String → ℕ → ℕ) (log2 : K → K) (p : StreamhashState K) (W : ℕ)
    (draws : List (XsDraw K k)) (hfs : ∀ draw ∈ draws, draw.fs ≠ []) (xs : List (Fin k → K))
    (s : XStreamState K k) (h : Inv p W draws xs s) (y : List K) :
    (XStream.scorePartial mmh3 log2 s y).out = .ok (npDiv (0 + (draws.map fun d =>
      chainScore log2 W d.fs d.randArr xs (project mmh3 p y)).sum) (draws.length : K)) := by
  have hsc := scoreChains_spec log2 W xs (project mmh3 p y) draws _ 0 hfs h.chains
  unfold XStream.scorePartial
  rw [h.hash, hsc, h.chains.length_eq]
  rfl

end XStreamRecovery

/-- What can be asked of an xStream detector: the score of every instance. -/
def XStream.answers (mmh3 : String → ℕ → ℕ) (log2 : K → K) (s : XStreamState K k) (y : List K) :
    Except PyErr (Num K) := (XStream.scorePartial mmh3 log2 s y).out

/-- **C175.** After a history of fits of which some were interrupted, at least `3 * window_size` of which
came, complete, after the last interruption, the scores are those of a detector to which every interrupted fit
either happened or did not. -/
theorem C175_xstream_recovers (mmh3 : String → ℕ → ℕ) (log2 : K → K) (p : StreamhashState K) (W : ℕ) (hW : 1 ≤ W)
    (draws : List (XsDraw K k)) (hfs : ∀ draw ∈ draws, draw.fs ≠ []) (h : List (List K × Option ℕ))
    (X : List (List K)) (hlen : 3 * W ≤ X.length) :
    ∃ l, Reading h l ∧
      XStream.answers mmh3 log2
        (afterCalls (XStream.statements mmh3) (XStream.new p W draws) (h ++ X.map fun x => (x, none))) =
      XStream.answers mmh3 log2 (calls (XStream.detector (β := Unit) mmh3 log2) (XStream.new p W draws)
        ((l ++ X).map fun x => .fit x none)).2 := by
  obtain ⟨l, h1, h2⟩ := after_level mmh3 p W hW draws h
  obtain ⟨n, e1, e2⟩ := later_level mmh3 p W hW draws l _ h2 X
  refine ⟨l, h1, ?_⟩
  have hn : 3 ≤ n := by
    have : l.length / W + 3 ≤ (l.length + X.length) / W := by
      rw [← Nat.add_mul_div_right _ _ (show 0 < W by omega)]
      exact Nat.div_le_div_right (by omega)
    omega
  have hi := e2.2.2.2 hn
  have hu := inv_calls (β := Unit) mmh3 log2 p W hW draws ((l ++ X).map fun x => .fit x none)
  have him : (images mmh3 p (((l ++ X).map fun x => Call.fit (β := Unit) x none)) : List (Fin k → K)) =
      (l ++ X).map (project mmh3 p) := by rw [images, fitted_fits]
  rw [him] at hu
  rw [afterCalls_append]
  funext y
  unfold XStream.answers
  rw [inv_score mmh3 log2 p W draws hfs _ _ hi y, inv_score mmh3 log2 p W draws hfs _ _ hu y]

/-! ### Sooner than that -/

/-- The stronger claim: at all times the scores are those of a detector to which every interrupted fit either
happened or did not. -/
def C175_at_once (K : Type*) [Field K] [LinearOrder K] [IsStrictOrderedRing K] [FloorRing K] : Prop :=
  ∀ (k : ℕ) (mmh3 : String → ℕ → ℕ) (log2 : K → K) (p : StreamhashState K) (W : ℕ), 1 ≤ W →
    ∀ draws : List (XsDraw K k), (∀ draw ∈ draws, draw.fs ≠ []) → ∀ h : List (List K × Option ℕ),
    ∃ l, Reading h l ∧
      XStream.answers mmh3 log2 (afterCalls (XStream.statements mmh3) (XStream.new p W draws) h) =
      XStream.answers mmh3 log2 (calls (XStream.detector (β := Unit) mmh3 log2) (XStream.new p W draws)
        (l.map fun x => .fit x none)).2

/-- A detector with one chain of depth 1 in one dimension and `window_size = 1`. -/
def recoveryXStream : XStreamState ℚ 1 := XStream.new ⟨1, 1, 1⟩ 1 [⟨[0], fun _ => 0⟩]

/-- A fit, one that is interrupted after the instance has been counted and before the windows are switched,
and another. -/
def recoveryFits : List (List ℚ × Option ℕ) := [([0], none), ([0], some 5), ([0], none)]

/-- **C175 is false** without the `3 * window_size` fits: here the score counts two instances in a window
of size 1. -/
theorem C175_soon_refuted : ¬ C175_at_once ℚ := by
  intro hc
  obtain ⟨l, hl, he⟩ := hc 1 (fun _ _ => 0) id ⟨1, 1, 1⟩ 1 (by decide) [⟨[0], fun _ => 0⟩]
    (by simp) recoveryFits
  have h1 : ∀ r ∈ readings recoveryFits,
      XStream.answers (fun _ _ => 0) id
        (afterCalls (XStream.statements fun _ _ => 0) recoveryXStream recoveryFits) [0] ≠
      XStream.answers (fun _ _ => 0) id (calls (XStream.detector (β := Unit) (fun _ _ => 0) id) recoveryXStream
        (r.map fun x => .fit x none)).2 [0] := by
    decide +kernel
  exact h1 l (mem_readings hl) (congrFun he _)

/-- The claim with two windows of complete fits in place of three. -/
def C175_two_windows (K : Type*) [Field K] [LinearOrder K] [IsStrictOrderedRing K] [FloorRing K] : Prop :=
  ∀ (k : ℕ) (mmh3 : String → ℕ → ℕ) (log2 : K → K) (p : StreamhashState K) (W : ℕ), 1 ≤ W →
    ∀ draws : List (XsDraw K k), (∀ draw ∈ draws, draw.fs ≠ []) → ∀ h : List (List K × Option ℕ),
    ∀ X : List (List K), 2 * W ≤ X.length →
    ∃ l, Reading h l ∧
      XStream.answers mmh3 log2
        (afterCalls (XStream.statements mmh3) (XStream.new p W draws) (h ++ X.map fun x => (x, none))) =
      XStream.answers mmh3 log2 (calls (XStream.detector (β := Unit) mmh3 log2) (XStream.new p W draws)
        ((l ++ X).map fun x => .fit x none)).2

/-- A fit, and one of 100 that is interrupted after the instance has been counted and before the windows are
switched: 100 stays in the window from which the next bin widths are computed. -/
def recoveryWide : List (List ℚ × Option ℕ) := [([0], none), ([100], some 5)]

/-- **C175 is false with two windows** in place of three: the second of them is counted in bins whose
widths come from the window with the instance of the interrupted fit. -/
theorem C175_two_windows_refuted : ¬ C175_two_windows ℚ := by
  intro hc
  obtain ⟨l, hl, he⟩ := hc 1 (fun _ _ => 0) id ⟨1, 1, 1⟩ 1 (by decide) [⟨[0], fun _ => 0⟩]
    (by simp) recoveryWide [[0], [5]] (by decide)
  have h1 : ∀ r ∈ readings recoveryWide,
      XStream.answers (fun _ _ => 0) id (afterCalls (XStream.statements fun _ _ => 0) recoveryXStream
        (recoveryWide ++ [[0], [5]].map fun x => (x, none))) [5] ≠
      XStream.answers (fun _ _ => 0) id (calls (XStream.detector (β := Unit) (fun _ _ => 0) id) recoveryXStream
        ((r ++ [[0], [5]]).map fun x => .fit x none)).2 [5] := by
    decide +kernel
  exact h1 l (mem_readings hl) (congrFun he _)

/-- Three more complete fits and the detector has recovered. -/
example : XStream.answers (fun _ _ => 0) id (afterCalls (XStream.statements fun _ _ => 0) recoveryXStream
      (recoveryFits ++ [[0], [0], [0]].map fun x => (x, none))) [0] = .ok (.fin (-3)) ∧
    XStream.answers (fun _ _ => 0) id (afterCalls (XStream.statements fun _ _ => 0) recoveryXStream
      recoveryFits) [0] = .ok (.fin (-4)) := by
  decide +kernel

example := C175_xstream_recovers (fun _ _ => 0) id ⟨1, 1, 1⟩ 1 (by decide)
  [(⟨[0], fun _ => 0⟩ : XsDraw ℚ 1)] (by simp) recoveryFits [[0], [0], [0]] (by decide)

end Pysad
