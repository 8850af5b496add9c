import Verif.Props.HstClamped

/-! Property C151: `HalfSpaceTrees` sees an instance only through its cell of a grid. -/

namespace Pysad

variable {K : Type*} [Field K] [LinearOrder K]

/-- Two instances in the same cell of the grid which cuts the range of every feature into `2 ^ D`
equal parts: no cut separates them. The outermost cells extend beyond the bounds, and features
without bounds may differ. -/
def Spec.SameGridCell (lo hi : List K) (D : ℕ) (x x' : List K) : Prop :=
  x.length = x'.length ∧
  ∀ (j : ℕ) (a b v v' : K), lo[j]? = some a → hi[j]? = some b → x[j]? = some v → x'[j]? = some v' →
    ∀ m : ℕ, 0 < m → m < 2 ^ D → (a + m * ((b - a) / 2 ^ D) < v ↔ a + m * ((b - a) / 2 ^ D) < v')

/-- The same kind of call about an instance of the same cell. -/
inductive Spec.SameGridCellCall {β : Type*} (lo hi : List K) (D : ℕ) :
    Call (List K) β → Call (List K) β → Prop
  | fit {x x' : List K} {y y' : Option β} : SameGridCell lo hi D x x' →
      SameGridCellCall lo hi D (.fit x y) (.fit x' y')
  | score {x x' : List K} : SameGridCell lo hi D x x' → SameGridCellCall lo hi D (.score x) (.score x')

open Spec

/-- Every split of the tree that matters satisfies `P`. -/
def SplitsIn (P : ℕ → K → Prop) : HsTree K → Prop
  | .nil => True
  | .node l r _ _ q p _ => ((l = .nil ∧ r = .nil) ∨ P q p) ∧ SplitsIn P l ∧ SplitsIn P r

/-- The cuts of the grid. -/
def GridCut (lo hi : List K) (D q : ℕ) (p : K) : Prop :=
  ∃ a b, lo[q]? = some a ∧ hi[q]? = some b ∧
    ∃ m : ℕ, 0 < m ∧ m < 2 ^ D ∧ p = a + m * ((b - a) / 2 ^ D)

/-- No split separates the two instances. -/
def Together (P : ℕ → K → Prop) (x x' : List K) : Prop :=
  x.length = x'.length ∧ ∀ (q : ℕ) (p v v' : K), P q p → x[q]? = some v → x'[q]? = some v' →
    (p < v ↔ p < v')

theorem together_of_sameGridCell {lo hi : List K} {D : ℕ} {x x' : List K}
    (h : SameGridCell lo hi D x x') : Together (GridCut lo hi D) x x' := by
  refine ⟨h.1, ?_⟩
  rintro q p v v' ⟨a, b, ha, hb, m, h1, h2, rfl⟩ hv hv'
  exact h.2 q a b v v' ha hb hv hv' m h1 h2

variable {P : ℕ → K → Prop}

theorem together_cases {x x' : List K} (h : Together P x x') (q : ℕ) :
    (x[q]? = none ∧ x'[q]? = none) ∨ ∃ v v', x[q]? = some v ∧ x'[q]? = some v' := by
  by_cases hq : q < x.length
  · exact .inr ⟨_, _, List.getElem?_eq_getElem hq, List.getElem?_eq_getElem (h.1 ▸ hq)⟩
  · exact .inl ⟨List.getElem?_eq_none (by omega), List.getElem?_eq_none (by have := h.1; omega)⟩

theorem updateMass_together {x x' : List K} (h : Together P x x') (D : ℕ) (ref : Bool)
    (t : HsTree K) (ht : SplitsIn P t) :
    Hst.updateMass D x ref t = Hst.updateMass D x' ref t := by
  induction t with
  | nil => rfl
  | node l r rm lm q p k hl hr =>
    obtain ⟨hsplit, il, ir⟩ := ht
    rw [Hst.updateMass, Hst.updateMass]
    by_cases hk : k < D
    · simp only [hk, if_true]
      rcases together_cases h q with ⟨e, e'⟩ | ⟨v, v', e, e'⟩
      · rw [e, e']
      · simp only [e, e']
        rcases hsplit with ⟨rfl, rfl⟩ | hp
        · simp only [Hst.updateMass]
          split_ifs <;> rfl
        · simp only [h.2 q p v v' hp e e', hl il, hr ir]
    · simp only [hk, if_false]

theorem scoreTree_together {x x' : List K} (h : Together P x x') (t : HsTree K)
    (ht : SplitsIn P t) : Hst.scoreTree x t = Hst.scoreTree x' t := by
  induction t with
  | nil => rfl
  | node l r rm lm q p k hl hr =>
    obtain ⟨hsplit, il, ir⟩ := ht
    rw [Hst.scoreTree, Hst.scoreTree]
    rcases together_cases h q with ⟨e, e'⟩ | ⟨v, v', e, e'⟩
    · rw [e, e']
    · simp only [e, e']
      rcases hsplit with ⟨rfl, rfl⟩ | hp
      · simp only [Hst.scoreTree, ite_self]
      · simp only [h.2 q p v v' hp e e', hl il, hr ir]

theorem updateMass_splitsIn (x : List K) (D : ℕ) (ref : Bool) (t : HsTree K)
    (h : SplitsIn P t) : SplitsIn P (Hst.updateMass D x ref t).state := by
  induction t with
  | nil => trivial
  | node l r rm lm q p k hl hr =>
    obtain ⟨hsplit, il, ir⟩ := h
    have hmap : ∀ (R : Res (HsTree K) Unit) (f : HsTree K → HsTree K),
        (R.mapState f).state = f R.state := by intro R f; cases R <;> rfl
    rw [Hst.updateMass]
    by_cases hk : k < D
    · simp only [hk, if_true]
      cases x[q]? with
      | none => exact ⟨hsplit, il, ir⟩
      | some v =>
        simp only
        split
        · rw [hmap]
          refine ⟨?_, il, hr ir⟩
          rcases hsplit with ⟨h1, h2⟩ | h
          · exact .inl ⟨h1, (updateMass_nil_iff x D ref r).2 h2⟩
          · exact .inr h
        · rw [hmap]
          refine ⟨?_, hl il, ir⟩
          rcases hsplit with ⟨h1, h2⟩ | h
          · exact .inl ⟨(updateMass_nil_iff x D ref l).2 h1, h2⟩
          · exact .inr h
    · simp only [hk, if_false]
      exact ⟨hsplit, il, ir⟩

theorem updateModel_splitsIn (t : HsTree K) (h : SplitsIn P t) :
    SplitsIn P (Hst.updateModel t) := by
  induction t with
  | nil => trivial
  | node l r rm lm q p k hl hr =>
    obtain ⟨hsplit, il, ir⟩ := h
    refine ⟨?_, hl il, hr ir⟩
    rcases hsplit with ⟨rfl, rfl⟩ | h
    · exact .inl ⟨rfl, rfl⟩
    · exact .inr h

theorem fitRoots_together {x x' : List K} (h : Together P x x') (D : ℕ) (ref : Bool)
    (ts : List (HsTree K)) (hts : ∀ t ∈ ts, SplitsIn P t) :
    Hst.fitRoots D x ref ts = Hst.fitRoots D x' ref ts ∧
      ∀ t ∈ (Hst.fitRoots D x ref ts).state, SplitsIn P t := by
  induction ts with
  | nil => exact ⟨rfl, by simp [Hst.fitRoots]⟩
  | cons t ts ih =>
    have ht := hts t (by simp)
    obtain ⟨ih1, ih2⟩ := ih fun u hu => hts u (by simp [hu])
    have hin := updateMass_splitsIn x D ref t ht
    refine ⟨by rw [Hst.fitRoots, Hst.fitRoots, updateMass_together h D ref t ht, ih1], ?_⟩
    rw [Hst.fitRoots]
    cases hu : Hst.updateMass D x ref t with
    | err e t' =>
      rw [hu] at hin
      intro u hu'
      rcases List.mem_cons.1 hu' with rfl | hu'
      · exact hin
      · exact hts u (by simp [hu'])
    | ok o t' =>
      rw [hu] at hin
      intro u hu'
      have : ((Hst.fitRoots D x ref ts).mapState fun ts' => t' :: ts').state =
          t' :: (Hst.fitRoots D x ref ts).state := by cases Hst.fitRoots D x ref ts <;> rfl
      simp only [this] at hu'
      rcases List.mem_cons.1 hu' with rfl | hu'
      · exact hin
      · exact ih2 u hu'

/-- Both bounds of a box at depth `k` are multiples of the range over `2 ^ k`. -/
theorem build_grid [IsStrictOrderedRing K] {G : Type*} (randint : G → ℕ → ℕ × G) (dims : ℕ)
    (lo hi : List K) (D : ℕ) : ∀ (rem k : ℕ) (mins maxes : List K) (g : G) (t : HsTree K) (g' : G),
    k + rem = D →
    (∀ (j : ℕ) (u w : K), mins[j]? = some u → maxes[j]? = some w →
      ∃ a b, lo[j]? = some a ∧ hi[j]? = some b ∧ ∃ m m' : ℕ, m < m' ∧ m' ≤ 2 ^ k ∧
        u = a + m * ((b - a) / 2 ^ k) ∧ w = a + m' * ((b - a) / 2 ^ k)) →
    Hst.build randint dims rem k mins maxes g = .ok (t, g') → SplitsIn (GridCut lo hi D) t := by
  intro rem
  induction rem with
  | zero =>
    intro k mins maxes g t g' _ _ h
    simp only [Hst.build, Except.ok.injEq, Prod.mk.injEq] at h
    rw [← h.1]
    exact ⟨.inl ⟨rfl, rfl⟩, trivial, trivial⟩
  | succ rem ih =>
    intro k mins maxes g t g' hD hb h
    rw [Hst.build] at h
    split at h
    · cases h
    · simp only at h
      split at h
      · rename_i w u hmax hmin
        obtain ⟨a, b, e1, e2, m, m', c1, c2, rfl, rfl⟩ := hb _ _ _ hmin hmax
        have h2 : (2 : K) ^ k ≠ 0 := by positivity
        -- the next depth
        have hfine : ∀ n : ℕ, a + (n : K) * ((b - a) / 2 ^ k) =
            a + ((2 * n : ℕ) : K) * ((b - a) / 2 ^ (k + 1)) := by
          intro n; rw [pow_succ]; push_cast; field_simp
        have hmid : (a + (m' : K) * ((b - a) / 2 ^ k) + (a + (m : K) * ((b - a) / 2 ^ k))) / 2 =
            a + ((m + m' : ℕ) : K) * ((b - a) / 2 ^ (k + 1)) := by
          rw [pow_succ]; push_cast; field_simp; ring
        have hpow : 2 ^ (k + 1) = 2 * 2 ^ k := by rw [pow_succ]; ring
        have hothers : ∀ (j : ℕ) (u w : K), mins[j]? = some u → maxes[j]? = some w →
            ∃ a b, lo[j]? = some a ∧ hi[j]? = some b ∧ ∃ m m' : ℕ, m < m' ∧ m' ≤ 2 ^ (k + 1) ∧
              u = a + m * ((b - a) / 2 ^ (k + 1)) ∧ w = a + m' * ((b - a) / 2 ^ (k + 1)) := by
          intro j u w hu hw
          obtain ⟨a, b, e1, e2, m, m', c1, c2, rfl, rfl⟩ := hb j u w hu hw
          refine ⟨a, b, e1, e2, 2 * m, 2 * m', by omega, by omega, ?_, ?_⟩
          · rw [pow_succ]; push_cast; field_simp
          · rw [pow_succ]; push_cast; field_simp
        rw [hmid] at h
        split at h
        · cases h
        · rename_i left g1 hleft
          split at h
          · cases h
          · rename_i right g2 hright
            simp only [Except.ok.injEq, Prod.mk.injEq] at h
            rw [← h.1]
            refine ⟨.inr ⟨a, b, e1, e2, (m + m') * 2 ^ rem, ?_, ?_, ?_⟩, ?_, ?_⟩
            · have : 0 < m + m' := by omega
              positivity
            · have : m + m' < 2 ^ (k + 1) := by omega
              calc (m + m') * 2 ^ rem < 2 ^ (k + 1) * 2 ^ rem :=
                    Nat.mul_lt_mul_of_pos_right this (by positivity)
                _ = 2 ^ D := by rw [← pow_add, ← hD]; congr 1; omega
            · rw [← hD, show k + (rem + 1) = (k + 1) + rem by omega, pow_add (2 : K) (k + 1) rem]
              push_cast
              field_simp
            · refine ih _ _ _ _ _ _ (by omega) ?_ hleft
              intro j u w hu hw
              by_cases hj : (randint g dims).1 = j
              · subst hj
                rw [hmin] at hu
                rw [List.getElem?_set] at hw
                split at hw
                · split at hw
                  · cases hw; cases hu
                    exact ⟨a, b, e1, e2, 2 * m, m + m', by omega, by omega, hfine m, rfl⟩
                  · cases hw
                · rename_i hne; exact absurd rfl hne
              · rw [List.getElem?_set_ne hj] at hw
                exact hothers j u w hu hw
            · refine ih _ _ _ _ _ _ (by omega) ?_ hright
              intro j u w hu hw
              by_cases hj : (randint g dims).1 = j
              · subst hj
                rw [hmax] at hw
                rw [List.getElem?_set] at hu
                split at hu
                · split at hu
                  · cases hw; cases hu
                    exact ⟨a, b, e1, e2, m + m', 2 * m', by omega, by omega, rfl, hfine m'⟩
                  · cases hu
                · rename_i hne; exact absurd rfl hne
              · rw [List.getElem?_set_ne hj] at hu
                exact hothers j u w hu hw
      · cases h

theorem buildAll_grid [IsStrictOrderedRing K] {G : Type*} (randint : G → ℕ → ℕ × G) (D : ℕ)
    (lo hi : List K) : ∀ (N : ℕ) (g : G) (ts : List (HsTree K)) (g' : G),
    Hst.buildAll randint D lo hi N g = .ok (ts, g') → ∀ t ∈ ts, SplitsIn (GridCut lo hi D) t := by
  intro N
  induction N with
  | zero =>
    intro g ts g' h
    simp only [Hst.buildAll, Except.ok.injEq, Prod.mk.injEq] at h
    rw [← h.1]; simp
  | succ N ih =>
    intro g ts g' h
    rw [Hst.buildAll] at h
    split at h
    · cases h
    · rename_i t g1 ht
      split at h
      · cases h
      · rename_i us g2 hus
        simp only [Except.ok.injEq, Prod.mk.injEq] at h
        rw [← h.1]
        intro u hu
        rcases List.mem_cons.1 hu with rfl | hu
        · exact build_grid randint hi.length lo hi D _ _ _ _ _ _ _ (by omega)
            (fun j a b ha hb' => ⟨a, b, ha, hb', 0, 1, by omega, by simp, by simp, by simp⟩) ht
        · exact ih _ _ _ hus u hu

theorem hst_new_grid [IsStrictOrderedRing K] {G : Type*} (randint : G → ℕ → ℕ × G)
    (lo hi : List K) (w numTrees D : ℕ) (g : G) (s0 : HstState K)
    (h0 : Hst.new randint lo hi w numTrees D g = .ok s0) :
    ∀ t ∈ s0.roots, SplitsIn (GridCut lo hi D) t := by
  unfold Hst.new at h0
  split at h0
  · cases h0
  · rename_i ts g' hts
    simp only [Except.ok.injEq] at h0
    rw [← h0]
    exact buildAll_grid randint D lo hi _ _ _ _ hts

theorem hst_scorePartial_together {x x' : List K} (h : Together P x x') (s : HstState K)
    (hs : ∀ t ∈ s.roots, SplitsIn P t) : Hst.scorePartial s x = Hst.scorePartial s x' := by
  have : ∀ (ts : List (HsTree K)), (∀ t ∈ ts, SplitsIn P t) → ∀ acc : K,
      ts.foldlM (fun acc t => (Hst.scoreTree x t).map (acc + ·)) acc =
      ts.foldlM (fun acc t => (Hst.scoreTree x' t).map (acc + ·)) acc := by
    intro ts
    induction ts with
    | nil => intro _ _; rfl
    | cons t ts ih =>
      intro ht acc
      rw [List.foldlM_cons, List.foldlM_cons, scoreTree_together h t (ht t (by simp))]
      congr 1
      funext a
      exact ih (fun u hu => ht u (by simp [hu])) a
  simp only [Hst.scorePartial, this s.roots hs 0]

theorem hst_fitPartial_splitsIn (s : HstState K) (hs : ∀ t ∈ s.roots, SplitsIn P t) (x : List K) :
    ∀ t ∈ (Hst.fitPartial s x).state.roots, SplitsIn P t := by
  have h2 := (fitRoots_together (P := P) (x := x) (x' := x) ⟨rfl, fun q p v v' _ e e' => by
    rw [e] at e'; cases e'; rfl⟩ s.maxDepth s.isFirstWindow s.roots hs).2
  unfold Hst.fitPartial
  simp only
  cases hf : Hst.fitRoots s.maxDepth x s.isFirstWindow s.roots with
  | err e ts =>
    rw [hf] at h2
    exact h2
  | ok o ts =>
    rw [hf] at h2
    simp only [Res.mapState, Res.bind]
    split
    · exact h2
    · split
      · intro t ht
        obtain ⟨u, hu, rfl⟩ := List.mem_map.1 ht
        exact updateModel_splitsIn u (h2 u hu)
      · exact h2

theorem hst_call_splitsIn {β : Type*} (s : HstState K) (hs : ∀ t ∈ s.roots, SplitsIn P t)
    (c : Call (List K) β) : ∀ t ∈ (call (Hst.detector K β) s c).2.roots, SplitsIn P t := by
  cases c with
  | fit x y =>
    have hin := hst_fitPartial_splitsIn s hs x
    simp only [call, Hst.detector]
    cases hx : Hst.fitPartial s x <;> simpa [hx] using hin
  | score x =>
    have hin : (Hst.scorePartial s x).state = s := by
      unfold Hst.scorePartial
      split <;> rfl
    simp only [call, Hst.detector]
    cases hx : Hst.scorePartial s x <;> (rw [hx] at hin; subst hin; exact hs)

theorem hst_calls_splitsIn {β : Type*} (cs : List (Call (List K) β)) (s : HstState K)
    (hs : ∀ t ∈ s.roots, SplitsIn P t) :
    ∀ t ∈ (calls (Hst.detector K β) s cs).2.roots, SplitsIn P t := by
  induction cs generalizing s with
  | nil => exact hs
  | cons c cs ih => exact ih _ (hst_call_splitsIn s hs c)

theorem hst_call_sameGridCell {β : Type*} {lo hi : List K} {D : ℕ} (s : HstState K)
    (hs : ∀ t ∈ s.roots, SplitsIn (GridCut lo hi D) t) {c c' : Call (List K) β}
    (h : SameGridCellCall lo hi D c c') :
    call (Hst.detector K β) s c = call (Hst.detector K β) s c' := by
  cases h with
  | @fit x x' y y' h =>
    have he : Hst.fitPartial s x = Hst.fitPartial s x' := by
      simp only [Hst.fitPartial,
        (fitRoots_together (together_of_sameGridCell h) s.maxDepth s.isFirstWindow s.roots hs).1]
    simp only [call, Hst.detector, he]
  | score h =>
    simp only [call, Hst.detector, hst_scorePartial_together (together_of_sameGridCell h) s hs]

/-- **C151.** Two histories whose calls are of the same kind and about instances of the same cells
get the same answers and lead to the same state, whatever the trees are. -/
theorem C151_hst_cells [IsStrictOrderedRing K] {G β : Type*} (randint : G → ℕ → ℕ × G)
    (lo hi : List K) (w numTrees D : ℕ) (g : G) (s0 : HstState K)
    (h0 : Hst.new randint lo hi w numTrees D g = .ok s0) (cs cs' : List (Call (List K) β))
    (h : List.Forall₂ (SameGridCellCall lo hi D) cs cs') :
    calls (Hst.detector K β) s0 cs = calls (Hst.detector K β) s0 cs' := by
  have hs := hst_new_grid randint lo hi w numTrees D g s0 h0
  clear h0
  induction h generalizing s0 with
  | nil => rfl
  | @cons c c' cs cs' hc _ ih =>
    have h2 := hst_call_splitsIn s0 hs c
    rw [calls, calls, ← hst_call_sameGridCell s0 hs hc, ih _ h2]

/-- **C151 (resolution).** So the score is the same throughout a cell: `max_depth` bounds the
number of values of a feature that can be told apart by `2 ^ max_depth`. -/
theorem C151_hst_score [IsStrictOrderedRing K] {G β : Type*} (randint : G → ℕ → ℕ × G)
    (lo hi : List K) (w numTrees D : ℕ) (g : G) (s0 : HstState K)
    (h0 : Hst.new randint lo hi w numTrees D g = .ok s0) (cs : List (Call (List K) β))
    (x x' : List K) (h : SameGridCell lo hi D x x') :
    (Hst.scorePartial (calls (Hst.detector K β) s0 cs).2 x).out =
      (Hst.scorePartial (calls (Hst.detector K β) s0 cs).2 x').out := by
  rw [hst_scorePartial_together (together_of_sameGridCell h) _ (hst_calls_splitsIn cs s0
    (hst_new_grid randint lo hi w numTrees D g s0 h0))]

/-- **C151 (blind without depth).** With `max_depth` 0 all instances of the same length get the same
score. -/
theorem C151_hst_depth_zero [IsStrictOrderedRing K] {G β : Type*} (randint : G → ℕ → ℕ × G)
    (lo hi : List K) (w numTrees : ℕ) (g : G) (s0 : HstState K)
    (h0 : Hst.new randint lo hi w numTrees 0 g = .ok s0) (cs : List (Call (List K) β))
    (x x' : List K) (h : x.length = x'.length) :
    (Hst.scorePartial (calls (Hst.detector K β) s0 cs).2 x).out =
      (Hst.scorePartial (calls (Hst.detector K β) s0 cs).2 x').out :=
  C151_hst_score randint lo hi w numTrees 0 g s0 h0 cs x x' ⟨h, by
    intro _ _ _ _ _ _ _ _ _ m h1 h2; simp at h2; omega⟩

/-- Two different instances of one cell; in the next cell the score is another one. -/
example : ∃ s0, Hst.new (fun (g n : ℕ) => (g % n, g + 1)) [0] [(4 : ℚ)] 2 1 2 0 = .ok s0 ∧
    SameGridCell [0] [(4 : ℚ)] 2 [9 / 8] [2] ∧
    (calls (Hst.detector ℚ Unit) s0
      [.fit [3 / 2] none, .score [9 / 8], .score [2], .score [1]]).1 =
      [.done, .value (-7), .value (-7), .value (-3)] := by
  refine ⟨_, rfl, ⟨rfl, ?_⟩, by decide +kernel⟩
  intro j a b v v' ha hb hv hv' m h1 h2
  cases j with
  | succ j => simp at ha
  | zero =>
    simp only [List.getElem?_cons_zero, Option.some.injEq] at ha hb hv hv'
    subst ha hb hv hv'
    have : m = 1 ∨ m = 2 ∨ m = 3 := by omega
    rcases this with rfl | rfl | rfl <;> norm_num

end Pysad
