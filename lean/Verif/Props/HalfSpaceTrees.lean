import Verif.Spec.HalfSpaceTrees
import Verif.Proofs.Calls

/-! Properties C52-C54, C87: `HalfSpaceTrees`. -/

namespace Pysad

open Spec Hst

section
variable {K : Type*} [Field K] [LinearOrder K]

/-- The tree with the masses that the windows `R` (reference) and `C` (latest) give. -/
def counted : HsTree K → List (List K) → List (List K) → HsTree K
  | .nil, _, _ => .nil
  | .node left right _ _ q p k, R, C =>
    .node (counted left (R.filter fun z => !decide (p < feature z q))
        (C.filter fun z => !decide (p < feature z q)))
      (counted right (R.filter fun z => decide (p < feature z q))
        (C.filter fun z => decide (p < feature z q)))
      R.length C.length q p k

theorem getElem?_of_lt {x : List K} {q : ℕ} (h : q < x.length) : x[q]? = some (feature x q) := by
  rw [feature, List.getD_eq_getElem?_getD, List.getElem?_eq_getElem h]; rfl

theorem updateMass_counted (dims D : ℕ) (x : List K) (hx : dims ≤ x.length) (ref : Bool) :
    ∀ (rem k : ℕ) (t : HsTree K) (R C : List (List K)), Complete dims rem k t → k + rem = D →
      updateMass D x ref (counted t R C) = .ok ()
        (counted t (if ref then R ++ [x] else R) (C ++ [x])) := by
  intro rem
  induction rem with
  | zero =>
    intro k t R C hc hD
    match t, hc with
    | .node l r rm lm q p k', hc =>
      obtain ⟨rfl, rfl, rfl, rfl⟩ := hc
      have : ¬ k' < D := by omega
      cases ref <;> simp [counted, updateMass, this]
  | succ rem ih =>
    intro k t R C hc hD
    match t, hc with
    | .node l r rm lm q p k', hc =>
      obtain ⟨rfl, hq, hl, hr⟩ := hc
      have hk : k' < D := by omega
      have hg := getElem?_of_lt (hq.trans_le hx)
      have il := fun R C => ih (k' + 1) l R C hl (by omega)
      have ir := fun R C => ih (k' + 1) r R C hr (by omega)
      by_cases hp : p < feature x q
      · cases ref <;>
        simp [counted, updateMass, hk, hg, hp, ir, List.filter_append]
      · cases ref <;>
        simp [counted, updateMass, hk, hg, hp, il, List.filter_append]

theorem updateModel_counted (t : HsTree K) (R C : List (List K)) :
    updateModel (counted t R C) = counted t C [] := by
  induction t generalizing R C with
  | nil => rfl
  | node l r rm lm q p k ihl ihr => simp [counted, updateModel, ihl, ihr]

theorem counted_zero (dims : ℕ) :
    ∀ (rem k : ℕ) (t : HsTree K), Complete dims rem k t →
      (∀ a b l r q p k', nodeAt t a = .node l r b.1 b.2 q p k' → b = (0, 0)) →
      counted t [] [] = t := by
  intro rem
  induction rem with
  | zero =>
    intro k t hc h
    match t, hc with
    | .node l r rm lm q p k', hc =>
      obtain ⟨rfl, rfl, rfl, rfl⟩ := hc
      have := h [] (rm, lm) .nil .nil 0 p k' rfl
      simp only [Prod.mk.injEq] at this
      simp [counted, this.1, this.2]
  | succ rem ih =>
    intro k t hc h
    match t, hc with
    | .node l r rm lm q p k', hc =>
      obtain ⟨rfl, hq, hl, hr⟩ := hc
      have := h [] (rm, lm) l r q p k' rfl
      simp only [Prod.mk.injEq] at this
      simp only [counted, List.filter_nil, List.length_nil, this.1, this.2]
      rw [ih _ l hl (fun a b l' r' q' p' k'' hn => h (false :: a) b l' r' q' p' k'' (by simpa [nodeAt] using hn)),
        ih _ r hr (fun a b l' r' q' p' k'' hn => h (true :: a) b l' r' q' p' k'' (by simpa [nodeAt] using hn))]

/-- The masses at a node are the numbers of instances in its cell. -/
theorem nodeAt_counted (t : HsTree K) (a : List Bool) (R C : List (List K)) :
    nodeAt (counted t R C) a = counted (nodeAt t a)
      (R.filter fun z => decide (cell t a.length z = a))
      (C.filter fun z => decide (cell t a.length z = a)) := by
  induction t generalizing a R C with
  | nil => cases a <;> simp [nodeAt, counted]
  | node l r rm lm q p k ihl ihr =>
    cases a with
    | nil => simp [nodeAt, cell]
    | cons b a =>
      cases b
      · simp only [nodeAt, counted, List.length_cons, cell]
        rw [if_neg (by simp), if_neg (by simp), ihl]
        simp only [List.filter_filter]
        congr 1 <;>
        · apply List.filter_congr
          intro z _
          by_cases hp : p < feature z q
          · simp [hp]
          · simp [hp]
      · simp only [nodeAt, counted, List.length_cons, cell]
        simp only [if_true, ihr]
        simp only [List.filter_filter]
        congr 1 <;>
        · apply List.filter_congr
          intro z _
          by_cases hp : p < feature z q
          · simp [hp]
          · simp [hp]

/-- The number of instances of `R` that share the depth-`j` cell of `x`. -/
def Spec.neighbours (t : HsTree K) (j : ℕ) (R : List (List K)) (x : List K) : ℕ :=
  R.countP fun z => decide (cell t j z = cell t j x)

theorem scoreTree_counted (dims : ℕ) (h1 : 1 ≤ dims) (x : List K) (hx : dims ≤ x.length) :
    ∀ (rem k : ℕ) (t : HsTree K) (R C : List (List K)), Complete dims rem k t →
      scoreTree x (counted t R C) = .ok ((List.range (rem + 1)).map fun j =>
        (neighbours t j R x : K) * 2 ^ (k + j)).sum := by
  intro rem
  induction rem with
  | zero =>
    intro k t R C hc
    match t, hc with
    | .node l r rm lm q p k', hc =>
      obtain ⟨rfl, rfl, rfl, rfl⟩ := hc
      have hg := getElem?_of_lt (h1.trans hx)
      simp [counted, scoreTree, hg, neighbours, cell, Except.map]
  | succ rem ih =>
    intro k t R C hc
    match t, hc with
    | .node l r rm lm q p k', hc =>
      obtain ⟨rfl, hq, hl, hr⟩ := hc
      have hg := getElem?_of_lt (hq.trans_le hx)
      simp only [counted, scoreTree, hg]
      rw [List.range_succ_eq_map, List.map_cons, List.sum_cons, List.map_map]
      have h0 : neighbours (.node l r rm lm q p k') 0 R x = R.length := by
        simp [neighbours, cell]
      rw [h0]
      by_cases hp : p < feature x q
      · rw [if_pos hp, ih _ r _ _ hr]
        simp only [Except.map, Nat.add_zero]
        congr 3
        apply List.map_congr_left
        intro j _
        simp only [Function.comp, neighbours, cell, if_pos hp, List.countP_filter]
        rw [show k' + 1 + j = k' + (j + 1) by omega]
        congr 2
        apply List.countP_congr
        intro z _
        by_cases hz : p < feature z q <;> simp [hz]
      · rw [if_neg hp, ih _ l _ _ hl]
        simp only [Except.map, Nat.add_zero]
        congr 3
        apply List.map_congr_left
        intro j _
        simp only [Function.comp, neighbours, cell, if_neg hp, List.countP_filter]
        rw [show k' + 1 + j = k' + (j + 1) by omega]
        congr 2
        apply List.countP_congr
        intro z _
        by_cases hz : p < feature z q <;> simp [hz]

end

/-! ### Windows -/

section windows
variable {α : Type*}

theorem window_first (w : ℕ) (X : List α) (h : X.length < w) :
    referenceWindow w X = X ∧ currentWindow w X = X := by
  refine ⟨by simp [referenceWindow, h], ?_⟩
  rw [currentWindow, Nat.div_eq_of_lt h]; simp

theorem window_complete (w : ℕ) (hw : 1 ≤ w) (X : List α) (x : α) (h : (X.length + 1) % w = 0) :
    referenceWindow w (X ++ [x]) = currentWindow w X ++ [x] ∧ currentWindow w (X ++ [x]) = [] := by
  obtain ⟨k, hk⟩ := Nat.dvd_of_mod_eq_zero h
  have hk1 : 1 ≤ k := by
    rcases Nat.eq_zero_or_pos k with h0 | h0
    · subst h0; omega
    · exact h0
  have hd : (X ++ [x]).length / w = k := by
    rw [List.length_append, List.length_singleton, hk, Nat.mul_div_cancel_left _ hw]
  have hd2 : X.length / w = k - 1 := by
    have hX : X.length = w * (k - 1) + (w - 1) := by
      have : w * k = w * (k - 1) + w := by
        conv_lhs => rw [show k = (k - 1) + 1 by omega]
        ring
      omega
    rw [hX, Nat.mul_add_div (by omega), Nat.div_eq_of_lt (by omega)]; omega
  have hge : w ≤ (X ++ [x]).length := by
    rw [List.length_append, List.length_singleton, hk]
    exact Nat.le_mul_of_pos_right _ hk1
  constructor
  · unfold referenceWindow currentWindow
    rw [if_neg (by omega), hd, hd2]
    have hle : (k - 1) * w ≤ X.length := by
      have := Nat.div_mul_le_self X.length w
      rwa [hd2] at this
    rw [List.drop_append_of_le_length hle, List.take_of_length_le]
    rw [List.length_append, List.length_drop, List.length_singleton]
    have : (k - 1) * w + w = X.length + 1 := by
      rw [hk]
      conv_rhs => rw [show k = (k - 1) + 1 by omega]
      ring
    omega
  · unfold currentWindow
    rw [hd, List.drop_eq_nil_of_le]
    rw [List.length_append, List.length_singleton, hk, Nat.mul_comm]

theorem window_inside (w : ℕ) (hw : 1 ≤ w) (X : List α) (x : α) (h : (X.length + 1) % w ≠ 0)
    (hge : w ≤ X.length) :
    referenceWindow w (X ++ [x]) = referenceWindow w X ∧
      currentWindow w (X ++ [x]) = currentWindow w X ++ [x] := by
  have hd : (X ++ [x]).length / w = X.length / w := by
    rw [List.length_append, List.length_singleton]
    rw [Nat.succ_div_of_not_dvd]
    exact fun hdv => h (Nat.mod_eq_zero_of_dvd hdv)
  have hle := Nat.div_mul_le_self X.length w
  have h1 : 1 ≤ X.length / w := (Nat.one_le_div_iff hw).2 hge
  constructor
  · unfold referenceWindow
    rw [if_neg (by simp; omega), if_neg (by omega), hd]
    have : (X.length / w - 1) * w + w ≤ X.length := by
      have : (X.length / w - 1) * w + w = X.length / w * w := by
        conv_rhs => rw [show X.length / w = (X.length / w - 1) + 1 by omega]
        ring
      omega
    rw [List.drop_append_of_le_length (by omega),
      List.take_append_of_le_length (by rw [List.length_drop]; omega)]
  · unfold currentWindow
    rw [hd, List.drop_append_of_le_length hle]

theorem referenceWindow_length_le (w : ℕ) (X : List α) : (referenceWindow w X).length ≤ w := by
  unfold referenceWindow
  split
  · omega
  · simp

end windows

/-! ### The state after a stream -/

section
variable {K β : Type*} [Field K] [LinearOrder K]

/-- What `__init__` leaves: complete trees without any mass. -/
def Spec.FreshTrees (dims D : ℕ) (ts : List (HsTree K)) : Prop :=
  ∀ t ∈ ts, Complete dims D 0 t ∧
    ∀ a l r rm lm q p k, nodeAt t a = .node l r rm lm q p k → rm = 0 ∧ lm = 0

/-- The state after the stream `X`. -/
def HstInv (w D : ℕ) (ts : List (HsTree K)) (X : List (List K)) (s : HstState K) : Prop :=
  s.windowSize = w ∧ s.maxDepth = D ∧ s.step = X.length ∧
  (ts = [] ∨ s.isFirstWindow = decide (X.length < w)) ∧
  s.roots = ts.map fun t => counted t (referenceWindow w X) (currentWindow w X)

theorem fitRoots_counted (dims D : ℕ) (x : List K) (hx : dims ≤ x.length) (ref : Bool)
    (ts : List (HsTree K)) (hts : ∀ t ∈ ts, Complete dims D 0 t) (R C : List (List K)) :
    fitRoots D x ref (ts.map fun t => counted t R C) = .ok ()
      (ts.map fun t => counted t (if ref then R ++ [x] else R) (C ++ [x])) := by
  induction ts with
  | nil => rfl
  | cons t ts ih =>
    have h1 := updateMass_counted dims D x hx ref D 0 t R C (hts t (by simp)) (by omega)
    have h2 := ih (fun t h => hts t (by simp [h]))
    simp only [List.map_cons, fitRoots, h1, h2, Res.mapState_ok]

theorem hst_fit (dims w D : ℕ) (hw : 1 ≤ w) (ts : List (HsTree K))
    (hts : ∀ t ∈ ts, Complete dims D 0 t) (X : List (List K)) (s : HstState K)
    (h : HstInv w D ts X s) (x : List K) (hx : dims ≤ x.length) :
    ∃ s', Hst.fitPartial s x = .ok () s' ∧ HstInv w D ts (X ++ [x]) s' := by
  obtain ⟨h1, h2, h3, h4, h5⟩ := h
  unfold Hst.fitPartial
  simp only [h1, h2, h3, h5]
  rw [fitRoots_counted dims D x hx s.isFirstWindow ts hts]
  simp only [Res.mapState_ok, Res.bind_ok, if_neg (show ¬ w = 0 by omega)]
  by_cases hm : (X.length + 1) % w = 0
  · rw [if_pos hm]
    refine ⟨_, rfl, rfl, rfl, by simp, ?_, ?_⟩
    · rcases h4 with h4 | h4
      · exact Or.inl h4
      · cases ts with
        | nil => exact Or.inl rfl
        | cons t ts =>
          right
          have : ¬ X.length + 1 < w := by
            intro hlt
            rw [Nat.mod_eq_of_lt hlt] at hm
            omega
          simp [this]
    · obtain ⟨e1, e2⟩ := window_complete w hw X x hm
      rw [e1, e2]
      simp only [List.map_map]
      apply List.map_congr_left
      intro t _
      simp only [Function.comp, updateModel_counted]
  · rw [if_neg hm]
    refine ⟨_, rfl, rfl, rfl, by simp, ?_, ?_⟩
    · rcases h4 with h4 | h4
      · exact Or.inl h4
      · right
        simp only [h4, List.length_append, List.length_singleton]
        rcases Nat.lt_or_ge X.length w with hlt | hge
        · have : X.length + 1 < w := by
            rcases Nat.lt_or_ge (X.length + 1) w with h | h
            · exact h
            · have : X.length + 1 = w := by omega
              rw [this, Nat.mod_self] at hm
              exact absurd rfl hm
          simp [hlt, this]
        · have h6 : ¬ X.length < w := by omega
          have h7 : ¬ X.length + 1 < w := by omega
          simp [h6, h7]
    · rcases h4 with h4 | h4
      · subst h4; rfl
      · simp only
        rcases Nat.lt_or_ge X.length w with hlt | hge
        · have hlt2 : (X ++ [x]).length < w := by
            rw [List.length_append, List.length_singleton]
            rcases Nat.lt_or_ge (X.length + 1) w with h | h
            · exact h
            · have : X.length + 1 = w := by omega
              rw [this, Nat.mod_self] at hm
              exact absurd rfl hm
          rw [(window_first w X hlt).1, (window_first w X hlt).2, (window_first w _ hlt2).1,
            (window_first w _ hlt2).2, h4]
          simp [hlt]
        · obtain ⟨e1, e2⟩ := window_inside w hw X x hm hge
          rw [e1, e2, h4]
          simp [show ¬ X.length < w by omega]

theorem hst_inv (dims w D : ℕ) (hw : 1 ≤ w) (ts : List (HsTree K)) (hts : FreshTrees dims D ts)
    (cs : List (Call (List K) β)) (hx : ∀ x ∈ fitted cs, dims ≤ x.length) :
    HstInv w D ts (fitted cs) (calls (Hst.detector K β) ⟨w, D, ts, true, 0⟩ cs).2 := by
  have key := calls_inv (d := Hst.detector K β) (P := fun cs s => (∀ x ∈ fitted cs, dims ≤ x.length) →
    HstInv w D ts (fitted cs) s) ?_ ⟨w, D, ts, true, 0⟩ ?_ cs
  · exact key hx
  · intro cs s c h hx
    rw [fitted_append] at hx ⊢
    have h0 := h (fun x hm => hx x (by simp [hm]))
    cases c with
    | score x =>
      have : (call (Hst.detector K β) s (.score x)).2 = s := by
        simp only [call, Hst.detector, Hst.scorePartial]
        split <;> rename_i heq <;> split at heq <;> cases heq <;> rfl
      rw [this]
      simpa [fitted] using h0
    | fit x y =>
      obtain ⟨s', h1, h2⟩ := hst_fit dims w D hw ts (fun t h => (hts t h).1) _ s h0 x
        (hx x (by simp [fitted]))
      simpa [call, Hst.detector, h1, fitted] using h2
  · intro _
    refine ⟨rfl, rfl, rfl, Or.inr (decide_eq_true (show 0 < w by omega)).symm, ?_⟩
    have hr : referenceWindow w ([] : List (List K)) = [] := by simp [referenceWindow]
    have hc : currentWindow w ([] : List (List K)) = [] := by simp [currentWindow]
    simp only [fitted, hr, hc]
    conv_lhs => rw [← List.map_id ts]
    apply List.map_congr_left
    intro t ht
    rw [counted_zero dims D 0 t (hts t ht).1]
    · rfl
    · intro a b l r q p k hn
      obtain ⟨e1, e2⟩ := (hts t ht).2 a l r b.1 b.2 q p k hn
      exact Prod.ext e1 e2

/-! ### Construction -/

/-- Every split of the tree is the middle of the node's box in the chosen feature. -/
def Halves : ℕ → List K → List K → HsTree K → Prop
  | _, _, _, .nil => False
  | 0, _, _, .node _ _ _ _ _ _ _ => True
  | rem + 1, lo, hi, .node left right _ _ q p _ =>
    (∃ a b, lo[q]? = some a ∧ hi[q]? = some b ∧ p = (a + b) / 2) ∧
    Halves rem lo (hi.set q p) left ∧ Halves rem (lo.set q p) hi right

/-- No node has any mass. -/
def Massless (t : HsTree K) : Prop :=
  ∀ a l r rm lm q p k, nodeAt t a = .node l r rm lm q p k → rm = 0 ∧ lm = 0

theorem massless_node {l r : HsTree K} (hl : Massless l) (hr : Massless r) (q : ℕ) (p : K) (k : ℕ) :
    Massless (.node l r 0 0 q p k) := by
  intro a l' r' rm lm q' p' k' h
  match a with
  | [] => simp only [nodeAt, HsTree.node.injEq] at h; exact ⟨h.2.2.1.symm, h.2.2.2.1.symm⟩
  | true :: a => exact hr a _ _ _ _ _ _ _ (by simpa [nodeAt] using h)
  | false :: a => exact hl a _ _ _ _ _ _ _ (by simpa [nodeAt] using h)

theorem massless_nil : Massless (.nil : HsTree K) := by
  intro a l r rm lm q p k h
  cases a <;> simp [nodeAt] at h

theorem build_spec {G : Type*} (randint : G → ℕ → ℕ × G) (dims : ℕ)
    (hr : ∀ g, 1 ≤ dims → (randint g dims).1 < dims) :
    ∀ (rem k : ℕ) (lo hi : List K) (g : G) (t : HsTree K) (g' : G),
      build randint dims rem k lo hi g = .ok (t, g') →
      Complete dims rem k t ∧ Massless t ∧ Halves rem lo hi t := by
  intro rem
  induction rem with
  | zero =>
    intro k lo hi g t g' h
    simp only [build, Except.ok.injEq, Prod.mk.injEq] at h
    obtain ⟨rfl, rfl⟩ := h
    exact ⟨⟨rfl, rfl, rfl, rfl⟩, massless_node massless_nil massless_nil _ _ _, trivial⟩
  | succ rem ih =>
    intro k lo hi g t g' h
    unfold build at h
    by_cases h0 : dims = 0
    · rw [if_pos h0] at h; cases h
    rw [if_neg h0] at h
    have hq := hr g (by omega)
    simp only at h
    cases hhi : hi[(randint g dims).1]? with
    | none => simp [hhi] at h
    | some b =>
      cases hlo : lo[(randint g dims).1]? with
      | none => simp [hhi, hlo] at h
      | some a =>
        simp only [hhi, hlo] at h
        cases h1 : build randint dims rem (k + 1) lo (hi.set (randint g dims).1 ((b + a) / 2))
            (randint g dims).2 with
        | error e => simp [h1] at h
        | ok p1 =>
          obtain ⟨l, g1⟩ := p1
          simp only [h1] at h
          cases h2 : build randint dims rem (k + 1) (lo.set (randint g dims).1 ((b + a) / 2)) hi g1 with
          | error e => simp [h2] at h
          | ok p2 =>
            obtain ⟨r, g2⟩ := p2
            simp only [h2, Except.ok.injEq, Prod.mk.injEq] at h
            obtain ⟨rfl, rfl⟩ := h
            obtain ⟨c1, m1, s1⟩ := ih _ _ _ _ _ _ h1
            obtain ⟨c2, m2, s2⟩ := ih _ _ _ _ _ _ h2
            exact ⟨⟨rfl, hq, c1, c2⟩, massless_node m1 m2 _ _ _, ⟨a, b, hlo, hhi, by rw [add_comm]⟩,
              s1, s2⟩

theorem build_ok {G : Type*} (randint : G → ℕ → ℕ × G) (dims : ℕ) (hd : 1 ≤ dims)
    (hr : ∀ g, (randint g dims).1 < dims) :
    ∀ (rem k : ℕ) (lo hi : List K) (g : G), lo.length = dims → hi.length = dims →
      ∃ t g', build randint dims rem k lo hi g = .ok (t, g') := by
  intro rem
  induction rem with
  | zero => intro k lo hi g _ _; exact ⟨_, g, rfl⟩
  | succ rem ih =>
    intro k lo hi g hlo hhi
    unfold build
    rw [if_neg (by omega)]
    have hq := hr g
    have e1 : hi[(randint g dims).1]? = some (hi[(randint g dims).1]'(hhi ▸ hq)) :=
      List.getElem?_eq_getElem (hhi ▸ hq)
    have e2 : lo[(randint g dims).1]? = some (lo[(randint g dims).1]'(hlo ▸ hq)) :=
      List.getElem?_eq_getElem (hlo ▸ hq)
    simp only [e1, e2]
    obtain ⟨l, g1, h1⟩ := ih (k + 1) lo (hi.set (randint g dims).1
      ((hi[(randint g dims).1]'(hhi ▸ hq) + lo[(randint g dims).1]'(hlo ▸ hq)) / 2))
      (randint g dims).2 hlo (by simp [hhi])
    rw [h1]
    obtain ⟨r, g2, h2⟩ := ih (k + 1) (lo.set (randint g dims).1
      ((hi[(randint g dims).1]'(hhi ▸ hq) + lo[(randint g dims).1]'(hlo ▸ hq)) / 2)) hi g1
      (by simp [hlo]) hhi
    simp only [h2]
    exact ⟨_, _, rfl⟩

theorem buildAll_spec {G : Type*} (randint : G → ℕ → ℕ × G) (D : ℕ) (mins maxes : List K)
    (hr : ∀ g, 1 ≤ maxes.length → (randint g maxes.length).1 < maxes.length) :
    ∀ (n : ℕ) (g : G) (ts : List (HsTree K)) (g' : G),
      buildAll randint D mins maxes n g = .ok (ts, g') →
      ts.length = n ∧ ∀ t ∈ ts, Complete maxes.length D 0 t ∧ Massless t ∧ Halves D mins maxes t := by
  intro n
  induction n with
  | zero => intro g ts g' h; simp only [buildAll, Except.ok.injEq, Prod.mk.injEq] at h; simp [← h.1]
  | succ n ih =>
    intro g ts g' h
    unfold buildAll at h
    cases h1 : build randint maxes.length D 0 mins maxes g with
    | error e => simp [h1] at h
    | ok p =>
      obtain ⟨t, g1⟩ := p
      simp only [h1] at h
      cases h2 : buildAll randint D mins maxes n g1 with
      | error e => simp [h2] at h
      | ok p2 =>
        obtain ⟨ts2, g2⟩ := p2
        simp only [h2, Except.ok.injEq, Prod.mk.injEq] at h
        obtain ⟨rfl, rfl⟩ := h
        obtain ⟨e1, e2⟩ := ih _ _ _ h2
        refine ⟨by simp [e1], ?_⟩
        intro t' ht'
        rcases List.mem_cons.1 ht' with rfl | ht'
        · exact build_spec randint _ hr _ _ _ _ _ _ _ h1
        · exact e2 t' ht'

/-- `randint` draws a number below its bound. -/
def Spec.InRange {G : Type*} (randint : G → ℕ → ℕ × G) : Prop := ∀ g n, 1 ≤ n → (randint g n).1 < n

theorem new_spec {G : Type*} (randint : G → ℕ → ℕ × G) (hr : InRange randint) (mins maxes : List K)
    (w n D : ℕ) (g : G) (s : HstState K) (h : Hst.new randint mins maxes w n D g = .ok s) :
    ∃ ts, s = ⟨w, D, ts, true, 0⟩ ∧ ts.length = n ∧ FreshTrees maxes.length D ts ∧
      ∀ t ∈ ts, Halves D mins maxes t := by
  unfold Hst.new at h
  cases h1 : buildAll randint D mins maxes n g with
  | error e => simp [h1] at h
  | ok p =>
    obtain ⟨ts, g'⟩ := p
    simp only [h1, Except.ok.injEq] at h
    obtain ⟨e1, e2⟩ := buildAll_spec randint D mins maxes (fun g => hr g _) n g ts g' h1
    exact ⟨ts, h.symm, e1, fun t ht => ⟨(e2 t ht).1, (e2 t ht).2.1⟩, fun t ht => (e2 t ht).2.2⟩

/-! ### C52, C53 -/

/-- **C52.** After any history (scores interleaved) on a detector as constructed, with
`X` the instances fitted: in every tree, the node reached by the turns `a` has as
reference mass the number of instances of the last completed window (of all instances
while the first window is incomplete) whose turns are `a`, and as latest mass the
number of those of the current window. -/
theorem C52_hst_masses {G : Type*} (randint : G → ℕ → ℕ × G) (hr : InRange randint)
    (mins maxes : List K) (w n D : ℕ) (hw : 1 ≤ w) (g : G) (s0 : HstState K)
    (h0 : Hst.new randint mins maxes w n D g = .ok s0) (cs : List (Call (List K) β))
    (hX : ∀ x ∈ fitted cs, x.length = maxes.length) (i : ℕ) (t t0 : HsTree K)
    (ht : (calls (Hst.detector K β) s0 cs).2.roots[i]? = some t) (ht0 : s0.roots[i]? = some t0)
    (a : List Bool) (l r : HsTree K) (rm lm q : ℕ) (p : K) (k : ℕ)
    (hn : nodeAt t a = .node l r rm lm q p k) :
    rm = (referenceWindow w (fitted cs)).countP (fun z => decide (cell t0 a.length z = a)) ∧
    lm = (currentWindow w (fitted cs)).countP (fun z => decide (cell t0 a.length z = a)) := by
  obtain ⟨ts, rfl, -, hf, -⟩ := new_spec randint hr mins maxes w n D g s0 h0
  have hi := hst_inv (β := β) maxes.length w D hw ts hf cs (fun x h => (hX x h).ge)
  rw [hi.2.2.2.2] at ht
  simp only at ht0
  rw [List.getElem?_map, ht0] at ht
  simp only [Option.map_some, Option.some.injEq] at ht
  subst ht
  rw [nodeAt_counted] at hn
  cases hnt : nodeAt t0 a with
  | nil => rw [hnt] at hn; simp [counted] at hn
  | node l' r' rm' lm' q' p' k' =>
    rw [hnt] at hn
    simp only [counted, HsTree.node.injEq] at hn
    exact ⟨by rw [← hn.2.2.1, List.countP_eq_length_filter],
      by rw [← hn.2.2.2.1, List.countP_eq_length_filter]⟩

/-- **C52.** The turns are those of the tree as constructed: fitting never changes a
split, so the cells are fixed. -/
theorem C52_hst_cells_fixed {G : Type*} (randint : G → ℕ → ℕ × G) (hr : InRange randint)
    (mins maxes : List K) (w n D : ℕ) (hw : 1 ≤ w) (g : G) (s0 : HstState K)
    (h0 : Hst.new randint mins maxes w n D g = .ok s0) (cs : List (Call (List K) β))
    (hX : ∀ x ∈ fitted cs, x.length = maxes.length) (i : ℕ) (t t0 : HsTree K)
    (ht : (calls (Hst.detector K β) s0 cs).2.roots[i]? = some t) (ht0 : s0.roots[i]? = some t0)
    (j : ℕ) (x : List K) : cell t j x = cell t0 j x := by
  obtain ⟨ts, rfl, -, hf, -⟩ := new_spec randint hr mins maxes w n D g s0 h0
  have hi := hst_inv (β := β) maxes.length w D hw ts hf cs (fun x h => (hX x h).ge)
  rw [hi.2.2.2.2] at ht
  simp only at ht0
  rw [List.getElem?_map, ht0] at ht
  simp only [Option.map_some, Option.some.injEq] at ht
  subst ht
  generalize referenceWindow w (fitted cs) = R
  generalize currentWindow w (fitted cs) = C
  clear ht0 hi
  induction t0 generalizing j R C with
  | nil => simp [counted, cell]
  | node l r rm lm q p k ihl ihr =>
    cases j with
    | zero => simp [counted, cell]
    | succ j => simp only [counted, cell, ihl, ihr]

theorem foldlM_scoreTree (dims : ℕ) (h1 : 1 ≤ dims) (x : List K) (hx : dims ≤ x.length) (D : ℕ)
    (R C : List (List K)) (ts : List (HsTree K)) (hts : ∀ t ∈ ts, Complete dims D 0 t) (v : K) :
    (ts.map fun t => counted t R C).foldlM (fun acc t => (scoreTree x t).map (acc + ·)) v
      = .ok (v + (ts.map fun t => ((List.range (D + 1)).map fun j =>
          (neighbours t j R x : K) * 2 ^ j).sum).sum) := by
  induction ts generalizing v with
  | nil => simp; rfl
  | cons t ts ih =>
    rw [List.map_cons, List.foldlM_cons, scoreTree_counted dims h1 x hx D 0 t R C (hts t (by simp))]
    simp only [Nat.zero_add]
    change List.foldlM _ _ _ = _
    rw [ih (fun t h => hts t (by simp [h]))]
    simp [add_assoc]

/-- **C53.** The score of `x` is minus the sum, over the trees and the depths `j`, of
`2 ^ j` times the number of instances of the reference window in the same depth-`j`
cell as `x`. -/
theorem C53_hst_score {G : Type*} (randint : G → ℕ → ℕ × G) (hr : InRange randint)
    (mins maxes : List K) (hd : 1 ≤ maxes.length) (w n D : ℕ) (hw : 1 ≤ w) (g : G) (s0 : HstState K)
    (h0 : Hst.new randint mins maxes w n D g = .ok s0) (cs : List (Call (List K) β))
    (hX : ∀ x ∈ fitted cs, x.length = maxes.length) (x : List K) (hx : x.length = maxes.length) :
    ((Hst.detector K β).scorePartial (calls (Hst.detector K β) s0 cs).2 x).out =
      .ok (-(s0.roots.map fun t => ((List.range (D + 1)).map fun j =>
        (neighbours t j (referenceWindow w (fitted cs)) x : K) * 2 ^ j).sum).sum) := by
  obtain ⟨ts, rfl, -, hf, -⟩ := new_spec randint hr mins maxes w n D g s0 h0
  have hi := hst_inv (β := β) maxes.length w D hw ts hf cs (fun x h => (hX x h).ge)
  simp only [Hst.detector, Hst.scorePartial] at hi ⊢
  rw [hi.2.2.2.2, foldlM_scoreTree maxes.length hd x hx.ge D _ _ ts (fun t h => (hf t h).1)]
  simp

theorem sum_two_pow [IsStrictOrderedRing K] (D : ℕ) :
    ((List.range (D + 1)).map fun j => (2 : K) ^ j).sum = 2 ^ (D + 1) - 1 := by
  induction D with
  | zero => norm_num [List.range_succ]
  | succ D ih => rw [List.range_succ, List.map_append, List.sum_append, ih]; simp; ring

theorem neighbours_le (t : HsTree K) (j : ℕ) (R : List (List K)) (x : List K) :
    neighbours t j R x ≤ R.length := List.countP_le_length

/-- **C53.** The score lies in `[-num_trees * w * (2^(d+1) - 1), 0]`. -/
theorem C53_hst_range [IsStrictOrderedRing K] {G : Type*} (randint : G → ℕ → ℕ × G)
    (hr : InRange randint) (mins maxes : List K) (hd : 1 ≤ maxes.length) (w n D : ℕ) (hw : 1 ≤ w)
    (g : G) (s0 : HstState K) (h0 : Hst.new randint mins maxes w n D g = .ok s0)
    (cs : List (Call (List K) β)) (hX : ∀ x ∈ fitted cs, x.length = maxes.length) (x : List K)
    (hx : x.length = maxes.length) :
    ∃ v, ((Hst.detector K β).scorePartial (calls (Hst.detector K β) s0 cs).2 x).out = .ok v ∧
      -((n : K) * w * (2 ^ (D + 1) - 1)) ≤ v ∧ v ≤ 0 := by
  refine ⟨_, C53_hst_score randint hr mins maxes hd w n D hw g s0 h0 cs hX x hx, ?_, ?_⟩
  · obtain ⟨ts, rfl, hn, -, -⟩ := new_spec randint hr mins maxes w n D g s0 h0
    rw [neg_le_neg_iff]
    have hb : ∀ y ∈ ts.map (fun t => ((List.range (D + 1)).map fun j =>
        (neighbours t j (referenceWindow w (fitted cs)) x : K) * 2 ^ j).sum),
        y ≤ (w : K) * (2 ^ (D + 1) - 1) := by
      intro y hy
      obtain ⟨t, -, rfl⟩ := List.mem_map.1 hy
      rw [← sum_two_pow, ← List.sum_map_mul_left]
      apply List.sum_le_sum
      intro j _
      apply mul_le_mul_of_nonneg_right _ (by positivity)
      exact_mod_cast (neighbours_le t j _ x).trans (referenceWindow_length_le w _)
    have := List.sum_le_card_nsmul _ _ hb
    rw [List.length_map, hn, nsmul_eq_mul, ← mul_assoc] at this
    exact this
  · rw [neg_nonpos]
    apply List.sum_nonneg
    intro y hy
    obtain ⟨t, -, rfl⟩ := List.mem_map.1 hy
    apply List.sum_nonneg
    intro y hy
    obtain ⟨j, -, rfl⟩ := List.mem_map.1 hy
    positivity

/-- **C53.** Only the bag of instances of the reference window matters: two streams
whose reference windows are permutations of each other give the same scores. -/
theorem C53_hst_order {G : Type*} (randint : G → ℕ → ℕ × G) (hr : InRange randint)
    (mins maxes : List K) (hd : 1 ≤ maxes.length) (w n D : ℕ) (hw : 1 ≤ w) (g : G) (s0 : HstState K)
    (h0 : Hst.new randint mins maxes w n D g = .ok s0) (cs cs' : List (Call (List K) β))
    (hX : ∀ x ∈ fitted cs, x.length = maxes.length) (hX' : ∀ x ∈ fitted cs', x.length = maxes.length)
    (hp : (referenceWindow w (fitted cs)).Perm (referenceWindow w (fitted cs')))
    (x : List K) (hx : x.length = maxes.length) :
    ((Hst.detector K β).scorePartial (calls (Hst.detector K β) s0 cs).2 x).out =
    ((Hst.detector K β).scorePartial (calls (Hst.detector K β) s0 cs').2 x).out := by
  rw [C53_hst_score randint hr mins maxes hd w n D hw g s0 h0 cs hX x hx,
    C53_hst_score randint hr mins maxes hd w n D hw g s0 h0 cs' hX' x hx]
  congr 5
  funext t
  congr 2
  funext j
  rw [neighbours, neighbours, hp.countP_eq]

/-! ### C54 -/

/-- **C54.** With at least one feature, the construction succeeds and makes `num_trees`
complete binary trees of depth `max_depth`, without mass. -/
theorem C54_hst_complete {G : Type*} (randint : G → ℕ → ℕ × G) (hr : InRange randint)
    (mins maxes : List K) (hd : 1 ≤ maxes.length) (hl : mins.length = maxes.length) (w n D : ℕ)
    (g : G) :
    ∃ s, Hst.new randint mins maxes w n D g = .ok s ∧ s.roots.length = n ∧
      FreshTrees maxes.length D s.roots := by
  have h : ∃ ts g', buildAll randint D mins maxes n g = .ok (ts, g') := by
    induction n generalizing g with
    | zero => exact ⟨[], g, rfl⟩
    | succ n ih =>
      obtain ⟨t, g1, h1⟩ := build_ok randint maxes.length hd (fun g => hr g _ hd) D 0 mins maxes g hl rfl
      obtain ⟨ts, g2, h2⟩ := ih g1
      exact ⟨t :: ts, g2, by simp [buildAll, h1, h2]⟩
  obtain ⟨ts, g', h⟩ := h
  have h2 : Hst.new randint mins maxes w n D g = .ok ⟨w, D, ts, true, 0⟩ := by
    simp [Hst.new, h]
  obtain ⟨ts', e1, e2, e3, -⟩ := new_spec randint hr mins maxes w n D g _ h2
  cases e1
  exact ⟨_, h2, e2, e3⟩

theorem complete_path (dims : ℕ) :
    ∀ (rem k : ℕ) (t : HsTree K), Complete dims rem k t → ∀ (x : List K) (j : ℕ), j ≤ rem →
      (cell t j x).length = j ∧ (cell t rem x).take j = cell t j x ∧
      ∃ l r rm lm q p, nodeAt t (cell t j x) = .node l r rm lm q p (k + j) ∧
        ((l = .nil ∧ r = .nil) ↔ j = rem) := by
  intro rem
  induction rem with
  | zero =>
    intro k t hc x j hj
    obtain rfl : j = 0 := by omega
    match t, hc with
    | .node l r rm lm q p k', hc =>
      obtain ⟨rfl, rfl, rfl, rfl⟩ := hc
      exact ⟨rfl, rfl, .nil, .nil, rm, lm, 0, p, rfl, by simp⟩
  | succ rem ih =>
    intro k t hc x j hj
    match t, hc with
    | .node l r rm lm q p k', hc =>
      obtain ⟨rfl, hq, hl, hr⟩ := hc
      cases j with
      | zero =>
        refine ⟨rfl, rfl, l, r, rm, lm, q, p, rfl, ?_⟩
        constructor
        · rintro ⟨rfl, -⟩
          cases rem <;> simp [Complete] at hl
        · intro h; omega
      | succ j =>
        by_cases hp : p < feature x q
        · obtain ⟨h1, h2, l', r', rm', lm', q', p', h3, h4⟩ := ih _ r hr x j (by omega)
          refine ⟨by simp [cell, hp, h1], by simp [cell, hp, h2], l', r', rm', lm', q', p', ?_, ?_⟩
          · rw [show k' + (j + 1) = k' + 1 + j by omega]
            simpa [cell, hp, nodeAt] using h3
          · rw [h4]; omega
        · obtain ⟨h1, h2, l', r', rm', lm', q', p', h3, h4⟩ := ih _ l hl x j (by omega)
          refine ⟨by simp [cell, hp, h1], by simp [cell, hp, h2], l', r', rm', lm', q', p', ?_, ?_⟩
          · rw [show k' + (j + 1) = k' + 1 + j by omega]
            simpa [cell, hp, nodeAt] using h3
          · rw [h4]; omega

/-- **C54.** In a constructed tree every point has one cell at each depth, the cells of a
point are nested (a path from the root), there is a node of that depth there, and it is
a leaf exactly at depth `max_depth`. -/
theorem C54_hst_path {G : Type*} (randint : G → ℕ → ℕ × G) (hr : InRange randint)
    (mins maxes : List K) (w n D : ℕ) (g : G) (s : HstState K)
    (h : Hst.new randint mins maxes w n D g = .ok s) (t : HsTree K) (ht : t ∈ s.roots)
    (x : List K) (j : ℕ) (hj : j ≤ D) :
    (cell t j x).length = j ∧ (cell t D x).take j = cell t j x ∧
    ∃ l r rm lm q p, nodeAt t (cell t j x) = .node l r rm lm q p j ∧
      ((l = .nil ∧ r = .nil) ↔ j = D) := by
  obtain ⟨ts, rfl, -, hf, -⟩ := new_spec randint hr mins maxes w n D g s h
  have := complete_path maxes.length D 0 t (hf t ht).1 x j hj
  simpa using this

/-- Pointwise order of the bounds. -/
def Spec.BoundsOk (lo hi : List K) : Prop :=
  lo.length = hi.length ∧ ∀ (j : ℕ) (a b : K), lo[j]? = some a → hi[j]? = some b → a ≤ b

theorem getElem?_set_of {l : List K} {q : ℕ} {p v : K} {j : ℕ} (h : (l.set q p)[j]? = some v) :
    (j = q ∧ v = p) ∨ (j ≠ q ∧ l[j]? = some v) := by
  rw [List.getElem?_set] at h
  split at h
  · rename_i hq
    split at h
    · simp only [Option.some.injEq] at h
      exact Or.inl ⟨hq.symm, h.symm⟩
    · simp at h
  · rename_i hq
    exact Or.inr ⟨fun e => hq e.symm, h⟩

variable [IsStrictOrderedRing K]

theorem mid_between {a b : K} (h : a ≤ b) : a ≤ (a + b) / 2 ∧ (a + b) / 2 ≤ b := by
  constructor
  · rw [le_div_iff₀ (by norm_num)]; linarith
  · rw [div_le_iff₀ (by norm_num)]; linarith

theorem boundsOk_left {lo hi : List K} (h : BoundsOk lo hi) {q : ℕ} {a b : K}
    (ha : lo[q]? = some a) (hb : hi[q]? = some b) : BoundsOk lo (hi.set q ((a + b) / 2)) := by
  refine ⟨by simp [h.1], ?_⟩
  intro j c d hc hd
  rcases getElem?_set_of hd with ⟨rfl, rfl⟩ | ⟨-, hd⟩
  · rw [ha] at hc; cases hc
    exact (mid_between (h.2 _ _ _ ha hb)).1
  · exact h.2 j c d hc hd

theorem boundsOk_right {lo hi : List K} (h : BoundsOk lo hi) {q : ℕ} {a b : K}
    (ha : lo[q]? = some a) (hb : hi[q]? = some b) : BoundsOk (lo.set q ((a + b) / 2)) hi := by
  refine ⟨by simp [h.1], ?_⟩
  intro j c d hc hd
  rcases getElem?_set_of hc with ⟨rfl, rfl⟩ | ⟨-, hc⟩
  · rw [hb] at hd; cases hd
    exact (mid_between (h.2 _ _ _ ha hb)).2
  · exact h.2 j c d hc hd

/-- A list of bounds has an entry wherever the other has. -/
theorem bounds_some {lo hi : List K} (h : lo.length = hi.length) {j : ℕ} {a : K}
    (ha : lo[j]? = some a) : ∃ b, hi[j]? = some b := by
  obtain ⟨hj, -⟩ := List.getElem?_eq_some_iff.1 ha
  exact ⟨_, List.getElem?_eq_getElem (h ▸ hj)⟩

theorem halves_boxes :
    ∀ (rem : ℕ) (lo hi : List K) (t : HsTree K), Halves rem lo hi t → BoundsOk lo hi →
      ∀ a : List Bool, a.length ≤ rem →
      BoundsOk (boxAt t lo hi a).1 (boxAt t lo hi a).2 ∧
      (boxAt t lo hi a).1.length = lo.length ∧
      SubBox (boxAt t lo hi a).1 (boxAt t lo hi a).2 lo hi ∧
      (a.length < rem → ∃ l r rm lm q p k, nodeAt t a = .node l r rm lm q p k ∧
        ∃ u v, (boxAt t lo hi a).1[q]? = some u ∧ (boxAt t lo hi a).2[q]? = some v ∧
          p = (u + v) / 2) := by
  intro rem
  induction rem with
  | zero =>
    intro lo hi t ht hb a ha
    have : a = [] := List.length_eq_zero_iff.1 (by omega)
    subst this
    match t, ht with
    | .node l r rm lm q p k, _ =>
      refine ⟨hb, rfl, ?_, by simp⟩
      intro j u v u' v' h1 h2 h3 h4
      simp only [boxAt] at h3 h4
      rw [h1] at h3; cases h3
      rw [h2] at h4; cases h4
      exact ⟨le_rfl, hb.2 j _ _ h1 h2, le_rfl⟩
  | succ rem ih =>
    intro lo hi t ht hb a ha
    match t, ht with
    | .node l r rm lm q p k, ht =>
      obtain ⟨⟨u, v, hu, hv, rfl⟩, hl, hr⟩ := ht
      match a with
      | [] =>
        refine ⟨hb, rfl, ?_, fun _ => ⟨l, r, rm, lm, q, _, k, rfl, u, v, hu, hv, rfl⟩⟩
        intro j u v u' v' h1 h2 h3 h4
        simp only [boxAt] at h3 h4
        rw [h1] at h3; cases h3
        rw [h2] at h4; cases h4
        exact ⟨le_rfl, hb.2 j _ _ h1 h2, le_rfl⟩
      | true :: a =>
        have hb' := boundsOk_right hb hu hv
        obtain ⟨e1, e0, e2, e3⟩ := ih _ _ r hr hb' a (by simpa using ha)
        simp only [boxAt, if_true, nodeAt, List.length_cons, Nat.add_lt_add_iff_right]
        refine ⟨e1, by simpa using e0, ?_, e3⟩
        intro j c d c' d' h1 h2 h3 h4
        by_cases hj : j = q
        · subst hj
          have hset : (lo.set j ((u + v) / 2))[j]? = some ((u + v) / 2) := by
            rw [List.getElem?_set_self]
            exact (List.getElem?_eq_some_iff.1 hu).1
          have := e2 j _ _ _ _ hset h2 h3 h4
          rw [hu] at h1; cases h1
          exact ⟨(mid_between (hb.2 _ _ _ hu hv)).1.trans this.1, this.2⟩
        · exact e2 j _ _ _ _ (by rw [List.getElem?_set_ne (fun h => hj h.symm)]; exact h1) h2 h3 h4
      | false :: a =>
        have hb' := boundsOk_left hb hu hv
        obtain ⟨e1, e0, e2, e3⟩ := ih _ _ l hl hb' a (by simpa using ha)
        simp only [boxAt, nodeAt, List.length_cons, Nat.add_lt_add_iff_right, Bool.false_eq_true,
          if_false]
        refine ⟨e1, e0, ?_, e3⟩
        intro j c d c' d' h1 h2 h3 h4
        by_cases hj : j = q
        · subst hj
          have hset : (hi.set j ((u + v) / 2))[j]? = some ((u + v) / 2) := by
            rw [List.getElem?_set_self]
            exact (List.getElem?_eq_some_iff.1 hv).1
          have := e2 j _ _ _ _ h1 hset h3 h4
          rw [hv] at h2; cases h2
          exact ⟨this.1, this.2.1, this.2.2.trans (mid_between (hb.2 _ _ _ hu hv)).2⟩
        · exact e2 j _ _ _ _ h1 (by rw [List.getElem?_set_ne (fun h => hj h.symm)]; exact h2) h3 h4

/-- **C54.** The box of every node lies inside the feature bounds, and the node splits
it in the middle of the chosen feature. -/
theorem C54_hst_halves {G : Type*} (randint : G → ℕ → ℕ × G) (hr : InRange randint)
    (mins maxes : List K) (hb : BoundsOk mins maxes) (w n D : ℕ) (g : G) (s : HstState K)
    (h : Hst.new randint mins maxes w n D g = .ok s) (t : HsTree K) (ht : t ∈ s.roots)
    (a : List Bool) (ha : a.length ≤ D) :
    SubBox (boxAt t mins maxes a).1 (boxAt t mins maxes a).2 mins maxes ∧
    (a.length < D → ∃ l r rm lm q p k, nodeAt t a = .node l r rm lm q p k ∧
      ∃ u v, (boxAt t mins maxes a).1[q]? = some u ∧ (boxAt t mins maxes a).2[q]? = some v ∧
        p = (u + v) / 2) := by
  obtain ⟨ts, rfl, -, -, hh⟩ := new_spec randint hr mins maxes w n D g s h
  obtain ⟨-, -, h1, h2⟩ := halves_boxes D mins maxes t (hh t ht) hb a ha
  exact ⟨h1, h2⟩

theorem halves_cells :
    ∀ (rem : ℕ) (lo hi : List K) (t : HsTree K), Halves rem lo hi t →
      ∀ (x : List K), x.length = lo.length → InBox x lo hi → ∀ j, j ≤ rem →
      InBox x (boxAt t lo hi (cell t j x)).1 (boxAt t lo hi (cell t j x)).2 := by
  intro rem
  induction rem with
  | zero =>
    intro lo hi t ht x hx hb j hj
    obtain rfl : j = 0 := by omega
    match t, ht with
    | .node l r rm lm q p k, _ => simpa [cell, boxAt] using hb
  | succ rem ih =>
    intro lo hi t ht x hx hb j hj
    match t, ht with
    | .node l r rm lm q p k, ht =>
      obtain ⟨⟨u, v, hu, hv, rfl⟩, hl, hr⟩ := ht
      cases j with
      | zero => simpa [cell, boxAt] using hb
      | succ j =>
        have hq : q < x.length := by rw [hx]; exact (List.getElem?_eq_some_iff.1 hu).1
        have hg := getElem?_of_lt hq
        by_cases hp : (u + v) / 2 < feature x q
        · have : InBox x (lo.set q ((u + v) / 2)) hi := by
            intro i y a b h1 h2 h3
            rcases getElem?_set_of h2 with ⟨rfl, rfl⟩ | ⟨-, h2⟩
            · rw [hg] at h1; cases h1
              exact ⟨hp.le, (hb i _ _ _ hg hu h3).2⟩
            · exact hb i y a b h1 h2 h3
          simpa [cell, hp, boxAt] using ih _ _ r hr x (by simp [hx]) this j (by omega)
        · have : InBox x lo (hi.set q ((u + v) / 2)) := by
            intro i y a b h1 h2 h3
            rcases getElem?_set_of h3 with ⟨rfl, rfl⟩ | ⟨-, h3⟩
            · rw [hg] at h1; cases h1
              exact ⟨(hb i _ _ _ hg h2 hv).1, not_lt.1 hp⟩
            · exact hb i y a b h1 h2 h3
          simpa [cell, hp, boxAt] using ih _ _ l hl x hx this j (by omega)

/-- **C54.** A point within the feature bounds lies in the boxes of all its cells. -/
theorem C54_hst_cells {G : Type*} (randint : G → ℕ → ℕ × G) (hr : InRange randint)
    (mins maxes : List K) (w n D : ℕ) (g : G) (s : HstState K)
    (h : Hst.new randint mins maxes w n D g = .ok s) (t : HsTree K) (ht : t ∈ s.roots)
    (x : List K) (hx : x.length = mins.length) (hin : InBox x mins maxes) (j : ℕ) (hj : j ≤ D) :
    InBox x (boxAt t mins maxes (cell t j x)).1 (boxAt t mins maxes (cell t j x)).2 := by
  obtain ⟨ts, rfl, -, -, hh⟩ := new_spec randint hr mins maxes w n D g s h
  exact halves_cells D mins maxes t (hh t ht) x hx hin j hj

end

/-! ### C87 -/

/-- **C87, as documented**: an initial window given as an array is fitted. -/
def C87_hst_initial_statement : Prop :=
  ∀ (randint : Unit → ℕ → ℕ × Unit), InRange randint → ∀ (mins maxes : List ℚ),
    1 ≤ maxes.length → mins.length = maxes.length → ∀ w n D, 1 ≤ w →
    ∀ rows : List (List ℚ), (∀ x ∈ rows, x.length = maxes.length) →
    ∀ s0, Hst.new randint mins maxes w n D () = .ok s0 →
    Hst.newInitial randint mins maxes w n D () rows
      = .ok (calls (Hst.detector ℚ Unit) s0 (rows.map fun x => .fit x none)).2

/-- **C87 (partial).** What does hold: an array with more than one number makes the
constructor raise `ValueError`, whatever it contains. -/
theorem C87_hst_initial_partial {G K : Type*} [Field K] [LinearOrder K]
    (randint : G → ℕ → ℕ × G) (mins maxes : List K) (w n D : ℕ)
    (g : G) (rows : List (List K)) (hrows : 2 ≤ rows.flatten.length) (s0 : HstState K)
    (h0 : Hst.new randint mins maxes w n D g = .ok s0) :
    Hst.newInitial randint mins maxes w n D g rows = .error .valueError := by
  have : npTruth rows = .error .valueError := by
    unfold npTruth
    match h : rows.flatten, hrows with
    | _ :: _ :: _, _ => rfl
  simp [Hst.newInitial, h0, this]

/-- **C87 (partial).** And the other arrays: an empty one, or a single number that is 0, is
ignored; a single number that is not 0 is fitted, or the constructor raises what fitting raises. -/
theorem C87_hst_initial_small_partial {G K : Type*} [Field K] [LinearOrder K]
    (randint : G → ℕ → ℕ × G) (mins maxes : List K) (w n D : ℕ) (g : G) (s0 : HstState K)
    (h0 : Hst.new randint mins maxes w n D g = .ok s0) :
    (∀ rows : List (List K), rows.flatten = [] →
      Hst.newInitial randint mins maxes w n D g rows = .ok s0) ∧
    Hst.newInitial randint mins maxes w n D g [[0]] = .ok s0 ∧
    ∀ a : K, a ≠ 0 →
      ((calls (Hst.detector K Unit) s0 [.fit [a] none]).1 = [.done] →
        Hst.newInitial randint mins maxes w n D g [[a]]
          = .ok (calls (Hst.detector K Unit) s0 [.fit [a] none]).2) ∧
      ∀ e, (calls (Hst.detector K Unit) s0 [.fit [a] none]).1 = [.raised e] →
        Hst.newInitial randint mins maxes w n D g [[a]] = .error e := by
  refine ⟨?_, ?_, ?_⟩
  · intro rows hr
    simp [Hst.newInitial, h0, npTruth, hr]
  · simp [Hst.newInitial, h0, npTruth]
  · intro a ha
    have e : Hst.newInitial randint mins maxes w n D g [[a]]
        = match Hst.fitPartial s0 [a] with
          | .err e _ => .error e
          | .ok _ s => .ok s := by
      simp only [Hst.newInitial, h0, npTruth, List.flatten_cons, List.flatten_nil, List.append_nil,
        ha, ne_eq, not_false_eq_true, decide_true, Detector.fit, Hst.detector]
      have hit : iterate [[a]] (none : Option (List Unit)) = .yield ([a], none) .stop := rfl
      rw [hit]
      simp only [Gen.forEach]
      cases Hst.fitPartial s0 [a] <;> rfl
    rw [e]
    simp only [calls, call, Hst.detector]
    cases Hst.fitPartial s0 [a] <;> simp

/-- **C87 is false.** -/
theorem C87_hst_initial_refuted : ¬ C87_hst_initial_statement := by
  intro h
  have h1 := h (fun _ _ => (0, ())) (fun _ n hn => hn) [0] [1] (by simp) (by simp) 1 1 0 (by simp)
    [[0], [1]] (by simp) ⟨1, 0, [.node .nil .nil 0 0 0 0 0], true, 0⟩ (by decide +kernel)
  rw [C87_hst_initial_partial _ _ _ _ _ _ _ _ (by simp)
    ⟨1, 0, [.node .nil .nil 0 0 0 0 0], true, 0⟩ (by decide +kernel)] at h1
  cases h1

/-- A concrete run: two features, one tree of depth 2 splitting feature 0 then 1,
windows of 2. -/
def exampleHst : Except PyErr (HstState ℚ) :=
  Hst.new (fun (g n : ℕ) => (g % n, g + 1)) [0, 0] [8, 8] 2 1 2 0

example : exampleHst = .ok ⟨2, 2, [.node
    (.node (.node .nil .nil 0 0 0 0 2) (.node .nil .nil 0 0 0 0 2) 0 0 1 4 1)
    (.node (.node .nil .nil 0 0 0 0 2) (.node .nil .nil 0 0 0 0 2) 0 0 0 6 1) 0 0 0 4 0], true, 0⟩ := by
  decide +kernel

example : (match exampleHst with
    | .ok s => (calls (Hst.detector ℚ Unit) s [.score [1, 1], .fit [1, 1] none, .score [1, 1],
        .fit [7, 7] none, .fit [7, 1] none, .score [7, 7], .score [1, 7]]).1
    | .error _ => []) = [.value 0, .done, .value (-7), .done, .done, .value (-8), .value (-4)] := by
  decide +kernel

end Pysad
