import Verif.Model.HalfSpaceTrees
import Verif.Proofs.Calls
import Mathlib.Algebra.Order.Field.Basic

/-! Property C149: `HalfSpaceTrees` treats a value beyond its bounds like the bound. -/

namespace Pysad

variable {K : Type*} [Field K] [LinearOrder K]

/-- The instance with every feature moved into its bounds. -/
def Spec.clamped (lo hi x : List K) : List K :=
  x.mapIdx fun j v => match lo[j]?, hi[j]? with
    | some a, some b => max a (min b v)
    | _, _ => v

/-- The same call about the clamped instance. -/
def Spec.clampedCall {β : Type*} (lo hi : List K) : Call (List K) β → Call (List K) β
  | .fit x y => .fit (clamped lo hi x) y
  | .score x => .score (clamped lo hi x)

open Spec

/-- Every split of the tree that matters lies within the bounds. -/
def Inside (lo hi : List K) : HsTree K → Prop
  | .nil => True
  | .node l r _ _ q p _ =>
    ((l = .nil ∧ r = .nil) ∨ ∃ a b, lo[q]? = some a ∧ hi[q]? = some b ∧ a ≤ p ∧ p < b) ∧
      Inside lo hi l ∧ Inside lo hi r

theorem clamped_get (lo hi x : List K) (q : ℕ) (a b : K) (ha : lo[q]? = some a)
    (hb : hi[q]? = some b) : (clamped lo hi x)[q]? = x[q]?.map fun v => max a (min b v) := by
  unfold clamped
  rw [List.getElem?_mapIdx]
  simp only [ha, hb]

theorem clamped_none (lo hi x : List K) (q : ℕ) :
    (clamped lo hi x)[q]? = none ↔ x[q]? = none := by
  unfold clamped
  rw [List.getElem?_mapIdx]
  simp

theorem turn_clamped {a b p v : K} (h1 : a ≤ p) (h2 : p < b) : p < max a (min b v) ↔ p < v := by
  rw [lt_max_iff, lt_min_iff]
  constructor
  · rintro (h | h)
    · exact absurd h (not_lt.2 h1)
    · exact h.2
  · intro h; exact .inr ⟨h2, h⟩

theorem updateMass_clamped (lo hi x : List K) (D : ℕ) (ref : Bool) (t : HsTree K)
    (h : Inside lo hi t) :
    Hst.updateMass D (clamped lo hi x) ref t = Hst.updateMass D x ref t := by
  induction t with
  | nil => rfl
  | node l r rm lm q p k hl hr =>
    obtain ⟨hsplit, il, ir⟩ := h
    rw [Hst.updateMass, Hst.updateMass]
    by_cases hk : k < D
    · simp only [hk, if_true]
      rcases hsplit with ⟨rfl, rfl⟩ | ⟨a, b, ha, hb, h1, h2⟩
      · cases hx : x[q]? with
        | none => rw [(clamped_none lo hi x q).2 hx]
        | some v =>
          cases hc : (clamped lo hi x)[q]? with
          | none => rw [(clamped_none lo hi x q).1 hc] at hx; cases hx
          | some w =>
            simp only [Hst.updateMass]
            split_ifs <;> rfl
      · rw [clamped_get lo hi x q a b ha hb]
        cases x[q]? with
        | none => rfl
        | some v => simp only [Option.map_some, turn_clamped h1 h2, hl il, hr ir]
    · simp only [hk, if_false]

theorem scoreTree_clamped (lo hi x : List K) (t : HsTree K) (h : Inside lo hi t) :
    Hst.scoreTree (clamped lo hi x) t = Hst.scoreTree x t := by
  induction t with
  | nil => rfl
  | node l r rm lm q p k hl hr =>
    obtain ⟨hsplit, il, ir⟩ := h
    rw [Hst.scoreTree, Hst.scoreTree]
    rcases hsplit with ⟨rfl, rfl⟩ | ⟨a, b, ha, hb, h1, h2⟩
    · cases hx : x[q]? with
      | none => rw [(clamped_none lo hi x q).2 hx]
      | some v =>
        cases hc : (clamped lo hi x)[q]? with
        | none => rw [(clamped_none lo hi x q).1 hc] at hx; cases hx
        | some w => simp only [Hst.scoreTree, ite_self]
    · rw [clamped_get lo hi x q a b ha hb]
      cases x[q]? with
      | none => rfl
      | some v => simp only [Option.map_some, turn_clamped h1 h2, hl il, hr ir]

theorem updateMass_nil_iff (x : List K) (D : ℕ) (ref : Bool) (t : HsTree K) :
    (Hst.updateMass D x ref t).state = .nil ↔ t = .nil := by
  cases t with
  | nil => exact ⟨fun _ => rfl, fun _ => rfl⟩
  | node l r rm lm q p k =>
    rw [Hst.updateMass]
    have : ∀ (R : Res (HsTree K) Unit) (f : HsTree K → HsTree K), (∀ t, f t ≠ .nil) →
        (R.mapState f).state ≠ .nil := by
      intro R f hf; cases R <;> exact hf _
    constructor
    · intro h
      exfalso
      revert h
      split
      · split
        · exact fun h => by cases h
        · split
          · exact this _ _ fun t h => by cases h
          · exact this _ _ fun t h => by cases h
      · exact fun h => by cases h
    · intro h; cases h

theorem updateMass_inside (lo hi x : List K) (D : ℕ) (ref : Bool) (t : HsTree K)
    (h : Inside lo hi t) : Inside lo hi (Hst.updateMass D x ref t).state := by
  induction t with
  | nil => trivial
  | node l r rm lm q p k hl hr =>
    obtain ⟨hsplit, il, ir⟩ := h
    have hmap : ∀ (R : Res (HsTree K) Unit) (f : HsTree K → HsTree K),
        (R.mapState f).state = f R.state := by intro R f; cases R <;> rfl
    rw [Hst.updateMass]
    by_cases hk : k < D
    · simp only [hk, if_true]
      cases x[q]? with
      | none => exact ⟨hsplit, il, ir⟩
      | some v =>
        simp only
        split
        · rw [hmap]
          refine ⟨?_, il, hr ir⟩
          rcases hsplit with ⟨h1, h2⟩ | h
          · exact .inl ⟨h1, (updateMass_nil_iff x D ref r).2 h2⟩
          · exact .inr h
        · rw [hmap]
          refine ⟨?_, hl il, ir⟩
          rcases hsplit with ⟨h1, h2⟩ | h
          · exact .inl ⟨(updateMass_nil_iff x D ref l).2 h1, h2⟩
          · exact .inr h
    · simp only [hk, if_false]
      exact ⟨hsplit, il, ir⟩

theorem updateModel_inside (lo hi : List K) (t : HsTree K) (h : Inside lo hi t) :
    Inside lo hi (Hst.updateModel t) := by
  induction t with
  | nil => trivial
  | node l r rm lm q p k hl hr =>
    obtain ⟨hsplit, il, ir⟩ := h
    refine ⟨?_, hl il, hr ir⟩
    rcases hsplit with ⟨rfl, rfl⟩ | h
    · exact .inl ⟨rfl, rfl⟩
    · exact .inr h

theorem fitRoots_clamped (lo hi x : List K) (D : ℕ) (ref : Bool) (ts : List (HsTree K))
    (h : ∀ t ∈ ts, Inside lo hi t) :
    Hst.fitRoots D (clamped lo hi x) ref ts = Hst.fitRoots D x ref ts ∧
      ∀ t ∈ (Hst.fitRoots D x ref ts).state, Inside lo hi t := by
  induction ts with
  | nil => exact ⟨rfl, by simp [Hst.fitRoots]⟩
  | cons t ts ih =>
    have ht := h t (by simp)
    obtain ⟨ih1, ih2⟩ := ih fun u hu => h u (by simp [hu])
    have hin := updateMass_inside lo hi x D ref t ht
    rw [Hst.fitRoots, Hst.fitRoots, updateMass_clamped lo hi x D ref t ht, ih1]
    refine ⟨rfl, ?_⟩
    cases hu : Hst.updateMass D x ref t with
    | err e t' =>
      rw [hu] at hin
      intro u hu'
      rcases List.mem_cons.1 hu' with rfl | hu'
      · exact hin
      · exact h u (by simp [hu'])
    | ok o t' =>
      rw [hu] at hin
      intro u hu'
      have : ((Hst.fitRoots D x ref ts).mapState fun ts' => t' :: ts').state =
          t' :: (Hst.fitRoots D x ref ts).state := by cases Hst.fitRoots D x ref ts <;> rfl
      simp only [this] at hu'
      rcases List.mem_cons.1 hu' with rfl | hu'
      · exact hin
      · exact ih2 u hu'

theorem build_inside [IsStrictOrderedRing K] {G : Type*} (randint : G → ℕ → ℕ × G) (dims : ℕ)
    (lo hi : List K) : ∀ (rem k : ℕ) (mins maxes : List K) (g : G) (t : HsTree K) (g' : G),
    (∀ (j : ℕ) (a b : K), mins[j]? = some a → maxes[j]? = some b →
      a < b ∧ ∃ a' b', lo[j]? = some a' ∧ hi[j]? = some b' ∧ a' ≤ a ∧ b ≤ b') →
    Hst.build randint dims rem k mins maxes g = .ok (t, g') → Inside lo hi t := by
  intro rem
  induction rem with
  | zero =>
    intro k mins maxes g t g' _ h
    simp only [Hst.build, Except.ok.injEq, Prod.mk.injEq] at h
    rw [← h.1]
    exact ⟨.inl ⟨rfl, rfl⟩, trivial, trivial⟩
  | succ rem ih =>
    intro k mins maxes g t g' hb h
    rw [Hst.build] at h
    split at h
    · cases h
    · simp only at h
      split at h
      · rename_i b a hmax hmin
        obtain ⟨hab, a', b', e1, e2, c1, c2⟩ := hb _ _ _ hmin hmax
        have hp1 : a < (b + a) / 2 := by linarith
        have hp2 : (b + a) / 2 < b := by linarith
        split at h
        · cases h
        · rename_i left g1 hleft
          split at h
          · cases h
          · rename_i right g2 hright
            simp only [Except.ok.injEq, Prod.mk.injEq] at h
            rw [← h.1]
            refine ⟨.inr ⟨a', b', e1, e2, by linarith, by linarith⟩, ?_, ?_⟩
            · refine ih _ _ _ _ _ _ ?_ hleft
              intro j u w hu hw
              by_cases hj : (randint g dims).1 = j
              · subst hj
                rw [hmin] at hu
                rw [List.getElem?_set] at hw
                split at hw
                · split at hw
                  · cases hw; cases hu
                    exact ⟨hp1, a', b', e1, e2, c1, by linarith⟩
                  · cases hw
                · rename_i hne; exact absurd rfl hne
              · rw [List.getElem?_set_ne hj] at hw
                exact hb j u w hu hw
            · refine ih _ _ _ _ _ _ ?_ hright
              intro j u w hu hw
              by_cases hj : (randint g dims).1 = j
              · subst hj
                rw [hmax] at hw
                rw [List.getElem?_set] at hu
                split at hu
                · split at hu
                  · cases hw; cases hu
                    exact ⟨hp2, a', b', e1, e2, by linarith, c2⟩
                  · cases hu
                · rename_i hne; exact absurd rfl hne
              · rw [List.getElem?_set_ne hj] at hu
                exact hb j u w hu hw
      · cases h

theorem buildAll_inside [IsStrictOrderedRing K] {G : Type*} (randint : G → ℕ → ℕ × G) (D : ℕ)
    (lo hi : List K) (hb : ∀ (j : ℕ) (a b : K), lo[j]? = some a → hi[j]? = some b → a < b) :
    ∀ (N : ℕ) (g : G) (ts : List (HsTree K)) (g' : G),
    Hst.buildAll randint D lo hi N g = .ok (ts, g') → ∀ t ∈ ts, Inside lo hi t := by
  intro N
  induction N with
  | zero =>
    intro g ts g' h
    simp only [Hst.buildAll, Except.ok.injEq, Prod.mk.injEq] at h
    rw [← h.1]; simp
  | succ N ih =>
    intro g ts g' h
    rw [Hst.buildAll] at h
    split at h
    · cases h
    · rename_i t g1 ht
      split at h
      · cases h
      · rename_i us g2 hus
        simp only [Except.ok.injEq, Prod.mk.injEq] at h
        rw [← h.1]
        intro u hu
        rcases List.mem_cons.1 hu with rfl | hu
        · exact build_inside randint hi.length lo hi _ _ _ _ _ _ _
            (fun j a b ha hb' => ⟨hb j a b ha hb', a, b, ha, hb', le_rfl, le_rfl⟩) ht
        · exact ih _ _ _ hus u hu

theorem hst_scorePartial_clamped (lo hi : List K) (s : HstState K)
    (hs : ∀ t ∈ s.roots, Inside lo hi t) (x : List K) :
    Hst.scorePartial s (clamped lo hi x) = Hst.scorePartial s x := by
  have : ∀ (ts : List (HsTree K)), (∀ t ∈ ts, Inside lo hi t) → ∀ acc : K,
      ts.foldlM (fun acc t => (Hst.scoreTree (clamped lo hi x) t).map (acc + ·)) acc =
      ts.foldlM (fun acc t => (Hst.scoreTree x t).map (acc + ·)) acc := by
    intro ts
    induction ts with
    | nil => intro _ _; rfl
    | cons t ts ih =>
      intro ht acc
      rw [List.foldlM_cons, List.foldlM_cons, scoreTree_clamped lo hi x t (ht t (by simp))]
      congr 1
      funext a
      exact ih (fun u hu => ht u (by simp [hu])) a
  simp only [Hst.scorePartial, this s.roots hs 0]

theorem hst_call_clamped {β : Type*} (lo hi : List K) (s : HstState K)
    (hs : ∀ t ∈ s.roots, Inside lo hi t) (c : Call (List K) β) :
    call (Hst.detector K β) s (clampedCall lo hi c) = call (Hst.detector K β) s c ∧
      ∀ t ∈ (call (Hst.detector K β) s c).2.roots, Inside lo hi t := by
  cases c with
  | fit x y =>
    obtain ⟨h1, h2⟩ := fitRoots_clamped lo hi x s.maxDepth s.isFirstWindow s.roots hs
    have he : Hst.fitPartial s (clamped lo hi x) = Hst.fitPartial s x := by
      simp only [Hst.fitPartial, h1]
    refine ⟨by simp only [clampedCall, call, Hst.detector, he], ?_⟩
    have hin : ∀ t ∈ (Hst.fitPartial s x).state.roots, Inside lo hi t := by
      unfold Hst.fitPartial
      simp only
      cases hf : Hst.fitRoots s.maxDepth x s.isFirstWindow s.roots with
      | err e ts =>
        rw [hf] at h2
        exact h2
      | ok o ts =>
        rw [hf] at h2
        simp only [Res.mapState, Res.bind]
        split
        · exact h2
        · split
          · intro t ht
            obtain ⟨u, hu, rfl⟩ := List.mem_map.1 ht
            exact updateModel_inside lo hi u (h2 u hu)
          · exact h2
    simp only [call, Hst.detector]
    cases hx : Hst.fitPartial s x <;> simpa [hx] using hin
  | score x =>
    have he := hst_scorePartial_clamped lo hi s hs x
    refine ⟨by simp only [clampedCall, call, Hst.detector, he], ?_⟩
    have hin : (Hst.scorePartial s x).state = s := by
      unfold Hst.scorePartial
      split <;> rfl
    simp only [call, Hst.detector]
    cases hx : Hst.scorePartial s x <;> (rw [hx] at hin; subst hin; exact hs)

theorem hst_new_inside [IsStrictOrderedRing K] {G : Type*} (randint : G → ℕ → ℕ × G)
    (lo hi : List K) (hb : ∀ (j : ℕ) (a b : K), lo[j]? = some a → hi[j]? = some b → a < b)
    (w numTrees D : ℕ) (g : G) (s0 : HstState K)
    (h0 : Hst.new randint lo hi w numTrees D g = .ok s0) : ∀ t ∈ s0.roots, Inside lo hi t := by
  unfold Hst.new at h0
  split at h0
  · cases h0
  · rename_i ts g' hts
    simp only [Except.ok.injEq] at h0
    rw [← h0]
    exact buildAll_inside randint D lo hi hb _ _ _ _ hts

theorem hst_calls_clamped {β : Type*} (lo hi : List K) (cs : List (Call (List K) β))
    (s : HstState K) (hs : ∀ t ∈ s.roots, Inside lo hi t) :
    calls (Hst.detector K β) s (cs.map (clampedCall lo hi)) = calls (Hst.detector K β) s cs ∧
      ∀ t ∈ (calls (Hst.detector K β) s cs).2.roots, Inside lo hi t := by
  induction cs generalizing s with
  | nil => exact ⟨rfl, hs⟩
  | cons c cs ih =>
    obtain ⟨h1, h2⟩ := hst_call_clamped lo hi s hs c
    rw [List.map_cons, calls, calls, h1]
    simp only [(ih _ h2).1, true_and]
    exact (ih _ h2).2

/-- **C149.** With bounds `lo < hi`, a history of fits and scores and the same history with all
instances moved into the bounds get the same answers and lead to the same state. -/
theorem C149_hst_clamped [IsStrictOrderedRing K] {G β : Type*} (randint : G → ℕ → ℕ × G)
    (lo hi : List K) (hb : ∀ (j : ℕ) (a b : K), lo[j]? = some a → hi[j]? = some b → a < b)
    (w numTrees D : ℕ) (g : G) (s0 : HstState K)
    (h0 : Hst.new randint lo hi w numTrees D g = .ok s0) (cs : List (Call (List K) β)) :
    calls (Hst.detector K β) s0 (cs.map (clampedCall lo hi)) = calls (Hst.detector K β) s0 cs :=
  (hst_calls_clamped lo hi cs s0 (hst_new_inside randint lo hi hb w numTrees D g s0 h0)).1

/-- **C149 (no alarm from afar).** In particular an instance gets the score of an instance within
the bounds, however far away it is. -/
theorem C149_hst_blind [IsStrictOrderedRing K] {G β : Type*} (randint : G → ℕ → ℕ × G)
    (lo hi : List K) (hb : ∀ (j : ℕ) (a b : K), lo[j]? = some a → hi[j]? = some b → a < b)
    (w numTrees D : ℕ) (g : G) (s0 : HstState K)
    (h0 : Hst.new randint lo hi w numTrees D g = .ok s0) (cs : List (Call (List K) β))
    (x : List K) :
    ∃ x', x'.length = x.length ∧
      (∀ (j : ℕ) (a b v : K), lo[j]? = some a → hi[j]? = some b → x'[j]? = some v → a ≤ v ∧ v ≤ b) ∧
      (Hst.scorePartial (calls (Hst.detector K β) s0 cs).2 x).out =
        (Hst.scorePartial (calls (Hst.detector K β) s0 cs).2 x').out := by
  refine ⟨clamped lo hi x, by simp [clamped], ?_, ?_⟩
  · intro j a b v ha hb' hv
    rw [clamped_get lo hi x j a b ha hb'] at hv
    obtain ⟨u, -, rfl⟩ := Option.map_eq_some_iff.1 hv
    exact ⟨le_max_left _ _, max_le (hb j a b ha hb').le (min_le_left _ _)⟩
  · rw [hst_scorePartial_clamped]
    exact (hst_calls_clamped lo hi cs s0 (hst_new_inside randint lo hi hb w numTrees D g s0 h0)).2

/-- The hypotheses of C149 are met, and instances beyond the bounds occur: `[9, -7]` is treated
like `[2, 0]`. -/
example : ∃ s0, Hst.new (fun (g n : ℕ) => (g % n, g + 1)) [0, 0] [2, (3 : ℚ)] 2 2 2 0 = .ok s0 ∧
    clamped [0, 0] [2, (3 : ℚ)] [9, -7] = [2, 0] ∧
    (calls (Hst.detector ℚ Unit) s0 [.fit [9, -7] none, .score [2, 0], .score [0, 3]]).1 =
      [.done, .value (-14), .value (-2)] :=
  ⟨_, rfl, by decide +kernel, by decide +kernel⟩

end Pysad
