import Verif.Model.HstInterrupt
import Verif.Props.HalfSpaceTrees
import Verif.Props.Interrupt

/-! Property C174: HalfSpaceTrees recovers from an interrupted fit. -/

namespace Pysad
open Spec

variable {K β : Type*}

namespace HstRecovery

/-- Level 0: forget both masses; level 1: forget the reference masses; from level 2 on nothing. -/
def erase : ℕ → HsTree K → HsTree K
  | _, .nil => .nil
  | n, .node l r rm lm q p k =>
    .node (erase n l) (erase n r) (if n < 2 then 0 else rm) (if n < 1 then 0 else lm) q p k

theorem erase_two (n : ℕ) (hn : 2 ≤ n) (t : HsTree K) : erase n t = t := by
  induction t with
  | nil => rfl
  | node l r rm lm q p k hl hr =>
    simp only [erase, hl, hr, if_neg (show ¬ n < 2 by omega), if_neg (show ¬ n < 1 by omega)]

theorem erase_zero_of (n : ℕ) (a : HsTree K) : erase 0 (erase n a) = erase 0 a := by
  induction a with
  | nil => rfl
  | node l r rm lm q p k hl hr => simp [erase, hl, hr]

variable [Field K] [LinearOrder K]

omit [Field K] [LinearOrder K] in
theorem erase_idem (n : ℕ) (a : HsTree K) : erase n (erase n a) = erase n a := by
  induction a with
  | nil => rfl
  | node l r rm lm q p k hl hr => simp only [erase, hl, hr]; split_ifs <;> rfl

theorem mapState_via {σ τ α : Type*} {r r' : Res σ α} {e : σ → τ} {f f' : σ → σ} {m : τ → τ}
    (h : r.mapState e = r'.mapState e) (h1 : ∀ s, e (f s) = m (e s)) (h2 : ∀ s, e (f' s) = m (e s)) :
    (r.mapState f).mapState e = (r'.mapState f').mapState e := by
  cases r <;> cases r' <;> simp_all [Res.mapState]

omit [Field K] in
/-- What `_update_mass` does below level 2 does not depend on what was forgotten. -/
theorem erase_updateMass (n : ℕ) (hn : n < 2) (D : ℕ) (x : List K) (ref : Bool) (t : HsTree K) :
    (Hst.updateMass D x ref t).mapState (erase n) =
      (Hst.updateMass D x false (erase n t)).mapState (erase n) := by
  induction t with
  | nil => rfl
  | node l r rm lm q p k hl hr =>
    simp only [erase, Hst.updateMass, if_pos hn]
    by_cases hk : k < D
    · simp only [if_pos hk]
      cases hq : x[q]? with
      | none =>
        simp only [Res.mapState, erase, erase_idem, if_pos hn]
        split_ifs <;> simp
      | some v =>
        simp only
        by_cases hp : p < v
        · simp only [if_pos hp]
          refine mapState_via (m := fun c => .node (erase n l) c 0 (if n < 1 then 0 else lm + 1) q p k) hr ?_ ?_
          · intro s; simp only [erase, if_pos hn]
          · intro s; simp only [erase, if_pos hn, erase_idem]; split_ifs <;> rfl
        · simp only [if_neg hp]
          refine mapState_via (m := fun c => .node c (erase n r) 0 (if n < 1 then 0 else lm + 1) q p k) hl ?_ ?_
          · intro s; simp only [erase, if_pos hn]
          · intro s; simp only [erase, if_pos hn, erase_idem]; split_ifs <;> rfl
    · simp only [if_neg hk, Res.mapState, erase, erase_idem, if_pos hn]
      split_ifs <;> simp

omit [Field K] in
theorem erase_fitRoots (n : ℕ) (hn : n < 2) (D : ℕ) (x : List K) (a b : Bool) :
    ∀ (ts us : List (HsTree K)), ts.map (erase n) = us.map (erase n) →
    (Hst.fitRoots D x a ts).mapState (List.map (erase n)) =
      (Hst.fitRoots D x b us).mapState (List.map (erase n))
  | [], [], _ => rfl
  | [], _ :: _, h => by simp at h
  | _ :: _, [], h => by simp at h
  | t :: ts, u :: us, h => by
    simp only [List.map_cons, List.cons.injEq] at h
    have h1 : (Hst.updateMass D x a t).mapState (erase n) = (Hst.updateMass D x b u).mapState (erase n) := by
      rw [erase_updateMass n hn, erase_updateMass n hn D x b, h.1]
    have h2 := erase_fitRoots n hn D x a b ts us h.2
    unfold Hst.fitRoots
    revert h1
    cases Hst.updateMass D x a t <;> cases Hst.updateMass D x b u <;> intro h1 <;>
      simp only [Res.mapState, Res.ok.injEq, Res.err.injEq, reduceCtorEq] at h1
    · rename_i t' _ u'
      simp only
      revert h2
      cases Hst.fitRoots D x a ts <;> cases Hst.fitRoots D x b us <;> intro h2 <;>
        simp_all [Res.mapState]
    · simp [Res.mapState, h1.1, h1.2, h.2]

omit [Field K] [LinearOrder K] in
/-- A boundary turns agreement of one level into agreement of the next. -/
theorem erase_updateModel (n : ℕ) {a b : HsTree K} (h : erase n a = erase n b) :
    erase (n + 1) (Hst.updateModel a) = erase (n + 1) (Hst.updateModel b) := by
  induction a generalizing b with
  | nil => cases b <;> simp_all [erase]
  | node l r rm lm q p k hl hr =>
    cases b with
    | nil => simp [erase] at h
    | node l' r' rm' lm' q' p' k' =>
      simp only [erase, HsTree.node.injEq] at h
      obtain ⟨h1, h2, h3, h4, rfl, rfl, rfl⟩ := h
      simp only [Hst.updateModel, erase, hl h1, hr h2, HsTree.node.injEq, true_and, and_true]
      split_ifs at h4 ⊢ <;> simp_all

/-- The states agree up to what is forgotten at the level. -/
def Agree (n : ℕ) (s t : HstState K) : Prop :=
  t.windowSize = s.windowSize ∧ t.maxDepth = s.maxDepth ∧ t.step = s.step ∧
  s.roots.map (erase n) = t.roots.map (erase n) ∧
  (n = 0 ∨ s.roots = [] ∨ s.isFirstWindow = false ∧ t.isFirstWindow = false)

omit [Field K] in
theorem fitRoots_agree {n : ℕ} {s t : HstState K} (h : Agree n s t) (x : List K) :
    (Hst.fitRoots s.maxDepth x s.isFirstWindow s.roots).mapState (List.map (erase n)) =
      (Hst.fitRoots t.maxDepth x t.isFirstWindow t.roots).mapState (List.map (erase n)) := by
  obtain ⟨-, h2, -, h4, h5⟩ := h
  rw [h2]
  by_cases hn : n < 2
  · exact erase_fitRoots n hn _ x _ _ _ _ h4
  · have he : (erase n : HsTree K → HsTree K) = id := funext (erase_two n (by omega))
    rw [he] at h4 ⊢
    simp only [List.map_id] at h4
    rw [← h4]
    rcases h5 with h5 | h5 | ⟨h5, h6⟩
    · omega
    · rw [h5]; rfl
    · rw [h5, h6]

omit [Field K] in
theorem fitRoots_length (D : ℕ) (x : List K) (a : Bool) (ts ts' : List (HsTree K))
    (h : Hst.fitRoots D x a ts = .ok () ts') : ts'.length = ts.length := by
  induction ts generalizing ts' with
  | nil => cases h; rfl
  | cons t ts ih =>
    unfold Hst.fitRoots at h
    split at h
    · cases h
    · cases hf : Hst.fitRoots D x a ts with
      | err e u => rw [hf] at h; cases h
      | ok v u =>
        rw [hf] at h
        simp only [Res.mapState, Res.ok.injEq, true_and] at h
        rw [← h, List.length_cons, List.length_cons, ih u hf]

omit [Field K] in
theorem fit_agree {n : ℕ} {s t s' : HstState K} (h : Agree n s t) (x : List K)
    (hs : Hst.fitPartial s x = .ok () s') : ∃ t', Hst.fitPartial t x = .ok () t' ∧
      Agree (n + if (s.step + 1) % s.windowSize = 0 then 1 else 0) s' t' := by
  have hf := fitRoots_agree h x
  obtain ⟨h1, h2, h3, h4, h5⟩ := h
  unfold Hst.fitPartial at hs ⊢
  simp only at hs ⊢
  cases ha : Hst.fitRoots s.maxDepth x s.isFirstWindow s.roots with
  | err e u => rw [ha] at hs; cases hs
  | ok v ts =>
    cases hb : Hst.fitRoots t.maxDepth x t.isFirstWindow t.roots with
    | err e u => rw [ha, hb] at hf; cases hf
    | ok v us =>
      have hl := fitRoots_length _ _ _ _ _ ha
      have hl' := fitRoots_length _ _ _ _ _ hb
      rw [ha, hb] at hf
      simp only [Res.mapState, Res.ok.injEq, true_and] at hf
      have hfl : ts.length = us.length := by simpa using congrArg List.length hf
      rw [ha] at hs
      simp only [Res.mapState, Res.bind, h1, h3] at hs ⊢
      split_ifs at hs ⊢ with hw hm
      · cases hs
        refine ⟨_, rfl, rfl, h2, rfl, ?_, Or.inr ?_⟩
        · simp only [List.map_map]
          have : ∀ (as bs : List (HsTree K)), as.map (erase n) = bs.map (erase n) →
              as.map (erase (n + 1) ∘ Hst.updateModel) = bs.map (erase (n + 1) ∘ Hst.updateModel) := by
            intro as
            induction as with
            | nil => intro bs hh; cases bs <;> simp_all
            | cons a as ih =>
              intro bs hh
              cases bs with
              | nil => simp at hh
              | cons b bs =>
                simp only [List.map_cons, List.cons.injEq, Function.comp_apply] at hh ⊢
                exact ⟨erase_updateModel n hh.1, ih bs hh.2⟩
          exact this ts us hf
        · cases ts with
          | nil => left; rfl
          | cons a as =>
            cases us with
            | nil => simp at hfl
            | cons b bs => right; simp
      · cases hs
        refine ⟨_, rfl, rfl, h2, rfl, hf, ?_⟩
        rcases h5 with h5 | h5 | h5
        · exact Or.inl h5
        · right; left
          rw [h5] at hl
          simpa using hl
        · exact Or.inr (Or.inr h5)

omit [Field K] [LinearOrder K] in
theorem agree_zero {n : ℕ} {s t : HstState K} (h : Agree n s t) : Agree 0 s t := by
  obtain ⟨h1, h2, h3, h4, -⟩ := h
  refine ⟨h1, h2, h3, ?_, Or.inl rfl⟩
  have := congrArg (List.map (erase 0)) h4
  simpa only [List.map_map, Function.comp_def, erase_zero_of] using this

theorem state_map {σ τ α : Type*} (f : σ → τ) (r : Res σ α) : (r.mapState f).state = f r.state := by
  cases r <;> rfl

omit [Field K] in
theorem massStages_erase (D : ℕ) (x : List K) (ref : Bool) (t : HsTree K) :
    (∀ u ∈ Hst.massStages D x ref t, erase 0 u = erase 0 t) ∧
      erase 0 (Hst.updateMass D x ref t).state = erase 0 t := by
  induction t with
  | nil => exact ⟨by simp [Hst.massStages], rfl⟩
  | node l r rm lm q p k hl hr =>
    unfold Hst.massStages Hst.updateMass
    constructor
    · intro u hu
      simp only [List.mem_append] at hu
      rcases hu with (hu | hu) | hu
      · split_ifs at hu
        · rw [List.mem_singleton.1 hu]; simp [erase]
        · simp at hu
      · rw [List.mem_singleton.1 hu]; simp [erase]
      · by_cases hk : k < D
        · rw [if_pos hk] at hu
          split at hu
          · exact absurd hu List.not_mem_nil
          · rename_i v _
            by_cases hp : p < v
            · rw [if_pos hp] at hu
              obtain ⟨c, hc, rfl⟩ := List.mem_map.1 hu
              simp [erase, hr.1 c hc]
            · rw [if_neg hp] at hu
              obtain ⟨c, hc, rfl⟩ := List.mem_map.1 hu
              simp [erase, hl.1 c hc]
        · rw [if_neg hk] at hu
          exact absurd hu List.not_mem_nil
    · simp only
      by_cases hk : k < D
      · simp only [if_pos hk]
        split
        · simp [Res.state, erase]
        · rename_i v _
          by_cases hp : p < v
          · simp only [if_pos hp, state_map]
            simp [erase, hr.2]
          · simp only [if_neg hp, state_map]
            simp [erase, hl.2]
      · simp [if_neg hk, Res.state, erase]

omit [Field K] [LinearOrder K] in
theorem modelStages_erase (t : HsTree K) :
    (∀ u ∈ Hst.modelStages t, erase 0 u = erase 0 t) ∧ erase 0 (Hst.updateModel t) = erase 0 t := by
  induction t with
  | nil => exact ⟨by simp [Hst.modelStages], rfl⟩
  | node l r rm lm q p k hl hr =>
    constructor
    · intro u hu
      simp only [Hst.modelStages, List.mem_append, List.mem_cons, List.not_mem_nil, or_false] at hu
      rcases hu with ((rfl | rfl) | hu) | hu
      · simp [erase]
      · simp [erase]
      · obtain ⟨c, hc, rfl⟩ := List.mem_map.1 hu
        simp [erase, hl.1 c hc]
      · obtain ⟨c, hc, rfl⟩ := List.mem_map.1 hu
        simp [erase, hr.1 c hc, hl.2]
    · simp [Hst.updateModel, erase, hl.2, hr.2]

omit [Field K] in
theorem rootStages_erase (D : ℕ) (x : List K) (ref : Bool) (ts : List (HsTree K)) :
    (∀ us ∈ Hst.rootStages D x ref ts, us.map (erase 0) = ts.map (erase 0)) ∧
      (Hst.fitRoots D x ref ts).state.map (erase 0) = ts.map (erase 0) := by
  induction ts with
  | nil => exact ⟨by simp [Hst.rootStages], rfl⟩
  | cons t ts ih =>
    have ht := massStages_erase D x ref t
    unfold Hst.rootStages Hst.fitRoots
    constructor
    · intro us hu
      rcases List.mem_append.1 hu with hu | hu
      · obtain ⟨c, hc, rfl⟩ := List.mem_map.1 hu
        simp [ht.1 c hc]
      · revert hu
        have := ht.2
        revert this
        cases Hst.updateMass D x ref t with
        | err e u => intro _ hu; simp at hu
        | ok v u =>
          intro this hu
          obtain ⟨c, hc, rfl⟩ := List.mem_map.1 hu
          simp only [Res.state] at this
          simp [this, ih.1 c hc]
    · have := ht.2
      revert this
      cases Hst.updateMass D x ref t with
      | err e u => intro this; simp only [Res.state] at this; simp [Res.state, this]
      | ok v u =>
        intro this
        have h2 := ih.2
        revert h2
        simp only [Res.state] at this
        cases Hst.fitRoots D x ref ts <;> intro h2 <;> simp_all [Res.mapState, Res.state]

omit [Field K] [LinearOrder K] in
theorem modelRootStages_erase (ts : List (HsTree K)) :
    (∀ us ∈ Hst.modelRootStages ts, us.map (erase 0) = ts.map (erase 0)) ∧
      (ts.map Hst.updateModel).map (erase 0) = ts.map (erase 0) := by
  induction ts with
  | nil => exact ⟨by simp [Hst.modelRootStages], rfl⟩
  | cons t ts ih =>
    have ht := modelStages_erase t
    constructor
    · intro us hu
      rcases List.mem_append.1 hu with hu | hu
      · obtain ⟨c, hc, rfl⟩ := List.mem_map.1 hu
        simp [ht.1 c hc]
      · obtain ⟨c, hc, rfl⟩ := List.mem_map.1 hu
        simp [ht.2, ih.1 c hc]
    · simp only [List.map_cons, ht.2, ih.2]

omit [Field K] in
/-- Every intermediate state has counted the instance and has the trees of before. -/
theorem fitStages_agree (s : HstState K) (x : List K) : ∀ t ∈ Hst.fitStages s x,
    t.windowSize = s.windowSize ∧ t.maxDepth = s.maxDepth ∧ t.step = s.step + 1 ∧
      t.roots.map (erase 0) = s.roots.map (erase 0) := by
  intro t ht
  have hr := rootStages_erase s.maxDepth x s.isFirstWindow s.roots
  simp only [Hst.fitStages, List.mem_append, List.mem_cons, List.mem_map] at ht
  rcases ht with (rfl | ⟨ts, hts, rfl⟩) | ht
  · exact ⟨rfl, rfl, rfl, rfl⟩
  · exact ⟨rfl, rfl, rfl, hr.1 ts hts⟩
  · have h2 := hr.2
    revert h2 ht
    cases Hst.fitRoots s.maxDepth x s.isFirstWindow s.roots with
    | err e u => intro ht; simp at ht
    | ok v u =>
      intro ht h2
      simp only [Res.state] at h2
      split_ifs at ht with h3 h4
      · exact absurd ht List.not_mem_nil
      · rcases List.mem_append.1 ht with ht | ht
        · by_cases he : u.isEmpty = true
          · rw [if_pos he] at ht
            exact absurd ht List.not_mem_nil
          · rw [if_neg he] at ht
            rw [List.mem_singleton.1 ht]
            exact ⟨rfl, rfl, rfl, h2⟩
        · obtain ⟨us, hus, rfl⟩ := List.mem_map.1 ht
          exact ⟨rfl, rfl, rfl, ((modelRootStages_erase u).1 us hus).trans h2⟩
      · exact absurd ht List.not_mem_nil

omit [Field K] in
theorem fit_erase {s s' : HstState K} (x : List K) (hs : Hst.fitPartial s x = .ok () s') :
    s'.windowSize = s.windowSize ∧ s'.maxDepth = s.maxDepth ∧ s'.step = s.step + 1 ∧
      s'.roots.map (erase 0) = s.roots.map (erase 0) := by
  have hr := (rootStages_erase s.maxDepth x s.isFirstWindow s.roots).2
  unfold Hst.fitPartial at hs
  simp only at hs
  cases ha : Hst.fitRoots s.maxDepth x s.isFirstWindow s.roots with
  | err e u => rw [ha] at hs; cases hs
  | ok v ts =>
    rw [ha] at hs hr
    simp only [Res.mapState, Res.bind, Res.state] at hs hr
    split_ifs at hs with hw hm <;> cases hs
    · exact ⟨rfl, rfl, rfl, (modelRootStages_erase ts).2.trans hr⟩
    · exact ⟨rfl, rfl, rfl, hr⟩

/-- The last of the states `l`, or `d`. -/
def final {σ : Type*} (l : List σ) (d : σ) : σ := l.foldl (fun _ t => t) d

theorem final_append {σ : Type*} (l m : List σ) (d : σ) : final (l ++ m) d = final m (final l d) :=
  List.foldl_append

theorem final_map {σ τ : Type*} (f : σ → τ) (l : List σ) (d : σ) : final (l.map f) (f d) = f (final l d) := by
  induction l generalizing d with
  | nil => rfl
  | cons a l ih => exact ih a

theorem final_mem {σ : Type*} (l : List σ) (d : σ) : final l d = d ∧ l = [] ∨ final l d ∈ l := by
  induction l generalizing d with
  | nil => exact Or.inl ⟨rfl, rfl⟩
  | cons a l ih =>
    right
    rcases ih a with ⟨h, -⟩ | h
    · exact List.mem_cons.2 (Or.inl h)
    · exact List.mem_cons.2 (Or.inr h)

theorem run_final {σ : Type*} (l : List σ) (s : σ) : runStatements (l.map fun t _ => t) s = final l s := by
  simp only [runStatements, List.foldl_map, final]

omit [Field K] in
theorem massStages_final (D : ℕ) (x : List K) (ref : Bool) (t : HsTree K) :
    final (Hst.massStages D x ref t) t = (Hst.updateMass D x ref t).state := by
  induction t with
  | nil => rfl
  | node l r rm lm q p k hl hr =>
    unfold Hst.massStages Hst.updateMass
    simp only [final_append]
    have h1 : ∀ d : HsTree K, final [HsTree.node l r (if ref = true then rm + 1 else rm) (lm + 1) q p k] d =
      .node l r (if ref = true then rm + 1 else rm) (lm + 1) q p k := fun _ => rfl
    rw [h1]
    by_cases hk : k < D
    · simp only [if_pos hk]
      cases hq : x[q]? with
      | none => rfl
      | some v =>
        simp only
        by_cases hp : p < v
        · rw [if_pos hp, if_pos hp, state_map, ← hr]
          exact final_map (fun c => HsTree.node l c (if ref = true then rm + 1 else rm) (lm + 1) q p k) _ r
        · rw [if_neg hp, if_neg hp, state_map, ← hl]
          exact final_map (fun c => HsTree.node c r (if ref = true then rm + 1 else rm) (lm + 1) q p k) _ l
    · rw [if_neg hk, if_neg hk]; rfl

omit [Field K] in
theorem rootStages_final (D : ℕ) (x : List K) (ref : Bool) (ts : List (HsTree K)) :
    final (Hst.rootStages D x ref ts) ts = (Hst.fitRoots D x ref ts).state := by
  induction ts with
  | nil => rfl
  | cons t ts ih =>
    have ht := massStages_final D x ref t
    unfold Hst.rootStages Hst.fitRoots
    rw [final_append, final_map (fun t' => t' :: ts), ht]
    cases Hst.updateMass D x ref t with
    | err e u => rfl
    | ok v u =>
      rw [state_map, ← ih]
      exact final_map (fun ts' => u :: ts') _ ts

omit [Field K] [LinearOrder K] in
theorem modelStages_final (t : HsTree K) : final (Hst.modelStages t) t = Hst.updateModel t := by
  induction t with
  | nil => rfl
  | node l r rm lm q p k hl hr =>
    rw [Hst.modelStages, Hst.updateModel, final_append, final_append]
    change final _ (final _ (HsTree.node l r lm 0 q p k)) = _
    rw [final_map (fun c => HsTree.node c r lm 0 q p k), hl,
      final_map (fun c => HsTree.node (Hst.updateModel l) c lm 0 q p k), hr]

omit [Field K] [LinearOrder K] in
theorem modelRootStages_final (ts : List (HsTree K)) :
    final (Hst.modelRootStages ts) ts = ts.map Hst.updateModel := by
  induction ts with
  | nil => rfl
  | cons t ts ih =>
    unfold Hst.modelRootStages
    rw [final_append, final_map (fun t' => t' :: ts), modelStages_final,
      final_map (fun ts' => Hst.updateModel t :: ts'), ih]
    rfl

end HstRecovery

open HstRecovery

variable [Field K] [LinearOrder K]

omit [Field K] in
/-- All the assignments together are `fit_partial`. -/
theorem hst_statements_complete (x : List K) (s : HstState K) :
    runStatements (Hst.statements x s) s = (Hst.fitPartial s x).state := by
  have hr := rootStages_final s.maxDepth x s.isFirstWindow s.roots
  unfold Hst.statements
  rw [run_final]
  unfold Hst.fitStages Hst.fitPartial
  simp only
  rw [List.cons_append]
  change final _ ({ s with step := s.step + 1 } : HstState K) = _
  rw [final_append, final_map (fun ts => ({ s with step := s.step + 1, roots := ts } : HstState K)), hr]
  cases Hst.fitRoots s.maxDepth x s.isFirstWindow s.roots with
  | err e u => rfl
  | ok v u =>
    simp only [Res.state, Res.mapState, Res.bind]
    by_cases hw : s.windowSize = 0
    · simp only [if_pos hw]; rfl
    · simp only [if_neg hw]
      by_cases hm : (s.step + 1) % s.windowSize = 0
      · simp only [if_pos hm]
        cases u with
        | nil => simp [Hst.modelRootStages, final]
        | cons a u =>
          simp only [List.isEmpty_cons, Bool.and_false]
          rw [final_append]
          change final _ ({ s with step := s.step + 1, roots := a :: u, isFirstWindow := false } : HstState K) = _
          rw [final_map (fun ts => ({ s with step := s.step + 1, roots := ts, isFirstWindow := false } :
            HstState K)), modelRootStages_final]
      · simp only [if_neg hm]; rfl

namespace HstRecovery

theorem afterCalls_append {σ ι : Type*} (st : ι → σ → List (σ → σ)) (s : σ) (h h' : List (ι × Option ℕ)) :
    afterCalls st s (h ++ h') = afterCalls st (afterCalls st s h) h' := List.foldl_append

theorem reading_append {ι : Type*} {h h' : List (ι × Option ℕ)} {l l' : List ι} (a : Reading h l)
    (b : Reading h' l') : Reading (h ++ h') (l ++ l') := by
  induction a with
  | nil => exact b
  | done _ ih => exact .done ih
  | took _ ih => exact .took ih
  | lost _ ih => exact .lost ih

/-- The uninterrupted detector. -/
def run (s : HstState K) (X : List (List K)) : HstState K :=
  (calls (Hst.detector K Unit) s (X.map fun x => .fit x none)).2

theorem run_snoc (s : HstState K) (X : List (List K)) (x : List K) :
    run s (X ++ [x]) = (Hst.fitPartial (run s X) x).state := by
  unfold run
  rw [List.map_append, List.map_singleton, calls_snoc]
  simp only [call, Hst.detector]
  split <;> rename_i heq <;> simp_all [Res.state]

omit [Field K] [LinearOrder K] in
theorem fitted_fits {ι : Type*} (X : List ι) : fitted (X.map fun x => Call.fit (β := Unit) x none) = X := by
  induction X with
  | nil => rfl
  | cons x X ih => simpa [fitted] using ih

theorem run_inv (dims w D : ℕ) (hw : 1 ≤ w) (ts : List (HsTree K)) (hts : FreshTrees dims D ts)
    (X : List (List K)) (hX : ∀ x ∈ X, dims ≤ x.length) :
    HstInv w D ts X (run ⟨w, D, ts, true, 0⟩ X) := by
  have := hst_inv (β := Unit) dims w D hw ts hts (X.map fun x => .fit x none)
    (by rw [fitted_fits]; exact hX)
  rwa [fitted_fits] at this

theorem run_fit (dims w D : ℕ) (hw : 1 ≤ w) (ts : List (HsTree K)) (hts : FreshTrees dims D ts)
    (X : List (List K)) (hX : ∀ x ∈ X, dims ≤ x.length) (x : List K) (hx : dims ≤ x.length) :
    Hst.fitPartial (run ⟨w, D, ts, true, 0⟩ X) x = .ok () (run ⟨w, D, ts, true, 0⟩ (X ++ [x])) := by
  obtain ⟨s', h1, -⟩ := hst_fit dims w D hw ts (fun t h => (hts t h).1) X _
    (run_inv dims w D hw ts hts X hX) x hx
  rw [run_snoc, h1]
  rfl

/-- Whatever was interrupted, the trees have the splits and the instances were counted as by a reading. -/
theorem after_agree (dims w D : ℕ) (hw : 1 ≤ w) (ts : List (HsTree K)) (hts : FreshTrees dims D ts)
    (h : List (List K × Option ℕ)) (hh : ∀ e ∈ h, dims ≤ e.1.length) :
    ∃ l, Reading h l ∧ (∀ x ∈ l, dims ≤ x.length) ∧
      Agree 0 (run ⟨w, D, ts, true, 0⟩ l) (afterCalls Hst.statements ⟨w, D, ts, true, 0⟩ h) := by
  induction h using List.reverseRecOn with
  | nil => exact ⟨[], .nil, by simp, rfl, rfl, rfl, rfl, Or.inl rfl⟩
  | append_singleton h e ih =>
    obtain ⟨l, h1, h2, h3⟩ := ih fun e he => hh e (by simp [he])
    obtain ⟨x, o⟩ := e
    have hx : dims ≤ x.length := hh (x, o) (by simp)
    have hf := run_fit dims w D hw ts hts l h2 x hx
    have h2' : ∀ y ∈ l ++ [x], dims ≤ y.length := by
      intro y hy
      rcases List.mem_append.1 hy with hy | hy
      · exact h2 y hy
      · rw [List.mem_singleton.1 hy]; exact hx
    rw [afterCalls_append]
    generalize afterCalls Hst.statements ⟨w, D, ts, true, 0⟩ h = t at h3 ⊢
    cases o with
    | none =>
      refine ⟨l ++ [x], reading_append h1 (.done .nil), h2', ?_⟩
      obtain ⟨t', e1, e2⟩ := fit_agree h3 x hf
      change Agree 0 _ (runStatements (Hst.statements x t) t)
      rw [hst_statements_complete, e1]
      exact agree_zero e2
    | some k =>
      change ∃ l', Reading _ l' ∧ _ ∧ Agree 0 (run _ l') (runStatements ((Hst.statements x t).take k) t)
      unfold Hst.statements
      rw [← List.map_take, run_final]
      rcases final_mem (List.take k (Hst.fitStages t x)) t with ⟨e1, -⟩ | e1
      · rw [e1]
        exact ⟨l, by simpa using reading_append h1 (.lost (x := x) (k := k) .nil), h2, h3⟩
      · obtain ⟨a1, a2, a3, a4⟩ := fitStages_agree _ x _ (List.mem_of_mem_take e1)
        obtain ⟨b1, b2, b3, b4⟩ := fit_erase x hf
        obtain ⟨c1, c2, c3, c4, -⟩ := h3
        refine ⟨l ++ [x], reading_append h1 (.took .nil), h2', a1.trans (c1.trans b1.symm),
          a2.trans (c2.trans b2.symm), ?_, b4.trans (c4.trans a4.symm), Or.inl rfl⟩
        rw [a3, b3, c3]

/-- Each boundary raises the level of agreement. -/
theorem later_agree (dims w D : ℕ) (hw : 1 ≤ w) (ts : List (HsTree K)) (hts : FreshTrees dims D ts)
    (l : List (List K)) (hl : ∀ x ∈ l, dims ≤ x.length) (t : HstState K)
    (ha : Agree 0 (run ⟨w, D, ts, true, 0⟩ l) t) (X : List (List K)) (hX : ∀ x ∈ X, dims ≤ x.length) :
    ∃ n, n + l.length / w = (l.length + X.length) / w ∧ Agree n (run ⟨w, D, ts, true, 0⟩ (l ++ X))
      (afterCalls Hst.statements t (X.map fun x => (x, none))) := by
  induction X using List.reverseRecOn with
  | nil => exact ⟨0, by simp, by rw [List.append_nil]; exact ha⟩
  | append_singleton X x ih =>
    obtain ⟨n, e1, e2⟩ := ih fun y hy => hX y (by simp [hy])
    have hlX : ∀ y ∈ l ++ X, dims ≤ y.length := by
      intro y hy
      rcases List.mem_append.1 hy with hy | hy
      · exact hl y hy
      · exact hX y (by simp [hy])
    obtain ⟨t', f1, f2⟩ := fit_agree e2 x (run_fit dims w D hw ts hts (l ++ X) hlX x (hX x (by simp)))
    obtain ⟨i1, -, i3, -⟩ := run_inv dims w D hw ts hts (l ++ X) hlX
    rw [i1, i3, List.length_append] at f2
    refine ⟨n + if (l.length + X.length + 1) % w = 0 then 1 else 0, ?_, ?_⟩
    rotate_left
    · rw [List.map_append, afterCalls_append, ← List.append_assoc]
      generalize afterCalls Hst.statements t (X.map fun x => (x, none)) = u at f1
      change Agree _ _ (runStatements (Hst.statements x u) u)
      rw [hst_statements_complete, f1]
      exact f2
    · rw [List.length_append, List.length_singleton, ← Nat.add_assoc, Nat.succ_div]
      simp only [Nat.dvd_iff_mod_eq_zero]
      omega

end HstRecovery

/-- What can be asked of a HalfSpaceTrees detector: the score of every instance. -/
def Hst.answers (s : HstState K) (y : List K) : Except PyErr K := (Hst.scorePartial s y).out

/-- **C174**, for a detector made with these arguments: after a history of fits of which some were
interrupted, at least `2 * window_size` of which came, complete, after the last interruption, the scores are
those of a detector to which every interrupted fit either happened or did not. -/
theorem C174_hst_recovers {G : Type*} (randint : G → ℕ → ℕ × G) (hr : InRange randint) (mins maxes : List K)
    (w n D : ℕ) (hw : 1 ≤ w) (g : G) (s0 : HstState K) (h0 : Hst.new randint mins maxes w n D g = .ok s0)
    (h : List (List K × Option ℕ)) (hh : ∀ e ∈ h, e.1.length = maxes.length)
    (X : List (List K)) (hX : ∀ x ∈ X, x.length = maxes.length) (hlen : 2 * w ≤ X.length) :
    ∃ l, Reading h l ∧
      Hst.answers (afterCalls Hst.statements s0 (h ++ X.map fun x => (x, none))) =
      Hst.answers (calls (Hst.detector K Unit) s0 ((l ++ X).map fun x => .fit x none)).2 := by
  obtain ⟨ts, rfl, -, hf, -⟩ := new_spec randint hr mins maxes w n D g s0 h0
  obtain ⟨l, h1, h2, h3⟩ := after_agree maxes.length w D hw ts hf h fun e he => (hh e he).ge
  obtain ⟨m, e1, e2⟩ := later_agree maxes.length w D hw ts hf l h2 _ h3 X fun x hx => (hX x hx).ge
  refine ⟨l, h1, ?_⟩
  have hm : 2 ≤ m := by
    have : l.length / w + 2 ≤ (l.length + X.length) / w := by
      rw [← Nat.add_mul_div_right _ _ (show 0 < w by omega)]
      exact Nat.div_le_div_right (by omega)
    omega
  have he : (erase m : HsTree K → HsTree K) = id := funext (erase_two m hm)
  have hroots := e2.2.2.2.1
  rw [he, List.map_id, List.map_id] at hroots
  rw [afterCalls_append]
  funext y
  unfold Hst.answers Hst.scorePartial
  unfold HstRecovery.run at hroots
  rw [hroots]
  split <;> rfl

/-! ### Sooner than that -/

/-- The stronger claim: at all times the scores are those of a detector to which every interrupted fit
either happened or did not. -/
def C174_at_once (K : Type*) [Field K] [LinearOrder K] : Prop :=
  ∀ (randint : ℕ → ℕ → ℕ × ℕ), InRange randint → ∀ (mins maxes : List K) (w n D g : ℕ), 1 ≤ maxes.length → 1 ≤ w →
    ∀ s0, Hst.new randint mins maxes w n D g = .ok s0 →
    ∀ h : List (List K × Option ℕ), (∀ e ∈ h, e.1.length = maxes.length) →
    ∃ l, Reading h l ∧ Hst.answers (afterCalls Hst.statements s0 h) =
      Hst.answers (calls (Hst.detector K Unit) s0 (l.map fun x => .fit x none)).2

/-- A detector with one tree of depth 1 over `[0, 1]` and `window_size = 1`. -/
def recoveryHst : HstState ℚ :=
  ⟨1, 1, [.node (.node .nil .nil 0 0 0 0 1) (.node .nil .nil 0 0 0 0 1) 0 0 0 (1 / 2) 0], true, 0⟩

theorem recoveryHst_new :
    Hst.new (fun g _ => (0, g)) [0] [1] 1 1 1 (0 : ℕ) = .ok recoveryHst := by decide +kernel

/-- A fit of 1/4, one of 3/4 that is interrupted before the windows are switched, and another of 1/4. -/
def recoveryHistory : List (List ℚ × Option ℕ) := [([1 / 4], none), ([3 / 4], some 3), ([1 / 4], none)]

/-- **C174 is false** without the `2 * window_size` fits: here the score counts two instances in a window
of size 1. -/
theorem C174_soon_refuted : ¬ C174_at_once ℚ := by
  intro hc
  obtain ⟨l, hl, he⟩ := hc (fun g _ => (0, g)) (fun _ _ hn => hn) [0] [1] 1 1 1 0
    (by decide) (by decide) recoveryHst recoveryHst_new recoveryHistory (by decide)
  have h1 : ∀ k ∈ readings recoveryHistory,
      Hst.answers (afterCalls Hst.statements recoveryHst recoveryHistory) [1 / 4] ≠
      Hst.answers (calls (Hst.detector ℚ Unit) recoveryHst (k.map fun x => .fit x none)).2 [1 / 4] := by
    decide +kernel
  exact h1 l (mem_readings hl) (congrFun he _)

/-- Two more complete fits and the detector has recovered. -/
example : Hst.answers (afterCalls Hst.statements recoveryHst
      (recoveryHistory ++ [[1 / 4], [3 / 4]].map fun x => (x, none))) [3 / 4] = .ok (-3) ∧
    Hst.answers (calls (Hst.detector ℚ Unit) recoveryHst
      ([[1 / 4], [3 / 4], [1 / 4], [1 / 4], [3 / 4]].map fun x => .fit x none)).2 [3 / 4] = .ok (-3) := by
  decide +kernel

example := C174_hst_recovers (fun g _ => (0, g)) (fun _ _ hn => hn) [0] [1] 1 1 1
  (by decide) (0 : ℕ) recoveryHst recoveryHst_new recoveryHistory (by decide) [[1 / 4], [3 / 4]] (by decide)
  (by decide)

end Pysad
