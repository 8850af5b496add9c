import Verif.Model.ThreadScores
import Verif.Props.HstRecovery
import Verif.Props.RsHashRecovery
import Verif.Props.SimpleModels
import Verif.Proofs.Lists

/-! Property C188: a detector is fitted by one thread and scored by another. -/

namespace Pysad
open Spec

/-- While one thread fits a detector with `xs`, another asks it for a score, whose loads happen at the moments
`moment j`. The answer is that of the detector after some number of complete fits: at least those that were
complete at the first load, at most those that were begun at the last. -/
def Spec.ScoresConsistent {σ ι β J : Type*} [Preorder J] (stages : σ → ι → List σ) (next : σ → ι → σ)
    (legal : ι → Prop) (s0 : σ) (serial : σ → β) (live : (J → σ) → β) : Prop :=
  ∀ xs : List ι, (∀ x ∈ xs, legal x) →
  ∀ moment : J → Fin (timeline stages next s0 0 xs).length, Monotone moment →
    ∃ k ≤ xs.length, (∃ j, ((timeline stages next s0 0 xs).get (moment j)).1 ≤ k) ∧
      (∃ j, k ≤ ((timeline stages next s0 0 xs).get (moment j)).1 + 1) ∧
      live (fun j => ((timeline stages next s0 0 xs).get (moment j)).2) = serial ((xs.take k).foldl next s0)

namespace ThreadScores

section
variable {σ ι : Type*} (stages : σ → ι → List σ) (next : σ → ι → σ)

/-- What is on a timeline: states between calls, and during them. -/
theorem mem_timeline : ∀ (xs : List ι) (s : σ) (c : ℕ) (p : ℕ × σ), p ∈ timeline stages next s c xs →
    ∃ k, p.1 = c + k ∧ (k ≤ xs.length ∧ p.2 = (xs.take k).foldl next s ∨
      ∃ x, xs[k]? = some x ∧ p.2 ∈ stages ((xs.take k).foldl next s) x) := by
  intro xs
  induction xs with
  | nil =>
    intro s c p hp
    rw [timeline, List.mem_singleton] at hp
    subst hp
    exact ⟨0, rfl, Or.inl ⟨le_rfl, rfl⟩⟩
  | cons x xs ih =>
    intro s c p hp
    rw [timeline, List.cons_append, List.mem_cons, List.mem_append] at hp
    rcases hp with rfl | hp | hp
    · exact ⟨0, rfl, Or.inl ⟨Nat.zero_le _, rfl⟩⟩
    · obtain ⟨t, ht, rfl⟩ := List.mem_map.1 hp
      exact ⟨0, rfl, Or.inr ⟨x, rfl, ht⟩⟩
    · obtain ⟨k, h1, h2⟩ := ih _ _ _ hp
      refine ⟨k + 1, by omega, ?_⟩
      rcases h2 with ⟨h2, h3⟩ | ⟨y, h2, h3⟩
      · exact Or.inl ⟨by simpa using h2, by simpa using h3⟩
      · exact Or.inr ⟨y, by simpa using h2, by simpa using h3⟩

end

/-! ### HalfSpaceTrees -/

section
variable {K : Type*}

/-- Every reference mass of `u` is that of `t` or that of `t'`. -/
def Mid : HsTree K → HsTree K → HsTree K → Prop
  | .nil, .nil, .nil => True
  | .node l r a _ _ _ _, .node l' r' a' _ _ _ _, .node l'' r'' a'' _ _ _ _ =>
    Mid l l' l'' ∧ Mid r r' r'' ∧ (a'' = a ∨ a'' = a')
  | _, _, _ => False

/-- The same for lists of trees. -/
def MidAll : List (HsTree K) → List (HsTree K) → List (HsTree K) → Prop
  | [], [], [] => True
  | t :: ts, t' :: ts', u :: us => Mid t t' u ∧ MidAll ts ts' us
  | _, _, _ => False

theorem Mid.mass : ∀ {t t' u : HsTree K}, Mid t t' u → u.mass = t.mass ∨ u.mass = t'.mass := by
  intro t t' u h
  cases t <;> cases t' <;> cases u <;> simp_all [Mid, HsTree.mass]

theorem Mid.left {t t' u : HsTree K} (h : Mid t t' u) : Mid t.leftChild t'.leftChild u.leftChild := by
  cases t <;> cases t' <;> cases u <;> simp_all [Mid, HsTree.leftChild]

theorem Mid.right {t t' u : HsTree K} (h : Mid t t' u) : Mid t.rightChild t'.rightChild u.rightChild := by
  cases t <;> cases t' <;> cases u <;> simp_all [Mid, HsTree.rightChild]

theorem MidAll.head {t t' u : List (HsTree K)} (h : MidAll t t' u) :
    Mid (t.headD .nil) (t'.headD .nil) (u.headD .nil) := by
  cases t <;> cases t' <;> cases u <;> simp_all [MidAll, Mid]

theorem MidAll.tail {t t' u : List (HsTree K)} (h : MidAll t t' u) : MidAll t.tail t'.tail u.tail := by
  cases t <;> cases t' <;> cases u <;> simp_all [MidAll]

variable [Field K] [LinearOrder K]

/-- Each load may be taken to see one of the two trees. -/
theorem liveTree_choice (x : List K) (t : HsTree K) : ∀ (A B look : ℕ → HsTree K),
    (∀ d, Mid (A d) (B d) (look d)) →
    ∃ pick : ℕ → Bool, Hst.liveTree x t look = Hst.liveTree x t fun d => if pick d then B d else A d := by
  induction t with
  | nil => intro A B look _; exact ⟨fun _ => true, rfl⟩
  | node l r rm lm q p k hl hr =>
    intro A B look h
    simp only [Hst.liveTree]
    cases hx : x[q]? with
    | none => exact ⟨fun _ => true, rfl⟩
    | some v =>
      have h0 : ∃ b : Bool, (look 0).mass = (if b then B 0 else A 0).mass := by
        rcases (h 0).mass with e | e
        · exact ⟨false, e⟩
        · exact ⟨true, e⟩
      obtain ⟨b, hb⟩ := h0
      by_cases hp : p < v
      · obtain ⟨pick, hpick⟩ := hr (fun d => (A (d + 1)).rightChild) (fun d => (B (d + 1)).rightChild) _
          fun d => (h (d + 1)).right
        refine ⟨fun d => if d = 0 then b else pick (d - 1), ?_⟩
        simp only [if_pos hp, hpick, hb, if_true, Nat.succ_ne_zero, if_false, Nat.add_sub_cancel]
        congr 2
        funext d
        split <;> rfl
      · obtain ⟨pick, hpick⟩ := hl (fun d => (A (d + 1)).leftChild) (fun d => (B (d + 1)).leftChild) _
          fun d => (h (d + 1)).left
        refine ⟨fun d => if d = 0 then b else pick (d - 1), ?_⟩
        simp only [if_neg hp, hpick, hb, if_true, Nat.succ_ne_zero, if_false, Nat.add_sub_cancel]
        congr 2
        funext d
        split <;> rfl

theorem liveRoots_choice (x : List K) (ts : List (HsTree K)) : ∀ (A B look : ℕ → ℕ → List (HsTree K)) (acc : K),
    (∀ i d, MidAll (A i d) (B i d) (look i d)) →
    ∃ pick : ℕ → ℕ → Bool, Hst.liveRoots x ts look acc =
      Hst.liveRoots x ts (fun i d => if pick i d then B i d else A i d) acc := by
  induction ts with
  | nil => intro A B look acc _; exact ⟨fun _ _ => true, rfl⟩
  | cons t ts ih =>
    intro A B look acc h
    obtain ⟨p1, h1⟩ := liveTree_choice x t (fun d => (A 0 d).headD .nil) (fun d => (B 0 d).headD .nil) _
      fun d => (h 0 d).head
    have h1' : Hst.liveTree x t (fun d => (look 0 d).headD .nil) =
        Hst.liveTree x t (fun d => (if p1 d then B 0 d else A 0 d).headD .nil) := by
      rw [h1]
      congr 1
      funext d
      split <;> rfl
    cases hv : Hst.liveTree x t (fun d => (look 0 d).headD .nil) with
    | error e =>
      refine ⟨fun i d => p1 d, ?_⟩
      simp only [Hst.liveRoots, hv, ← h1']
    | ok v =>
      obtain ⟨p2, h2⟩ := ih (fun i d => (A (i + 1) d).tail) (fun i d => (B (i + 1) d).tail)
        (fun i d => (look (i + 1) d).tail) (acc + v) fun i d => (h (i + 1) d).tail
      refine ⟨fun i d => if i = 0 then p1 d else p2 (i - 1) d, ?_⟩
      simp only [Hst.liveRoots, hv, ← h1', if_true, Nat.succ_ne_zero, if_false, Nat.add_sub_cancel, h2]
      congr 1
      funext i d
      split <;> rfl

/-- A tree with the reference masses of `t` or `t'` lies between them. -/
theorem mid_of_counted (t : HsTree K) (R C R' C' C'' : List (List K)) :
    Mid (counted t R C) (counted t R' C') (counted t R C'') ∧
    Mid (counted t R C) (counted t R' C') (counted t R' C'') := by
  induction t generalizing R C R' C' C'' with
  | nil => exact ⟨trivial, trivial⟩
  | node l r rm lm q p k hl hr =>
    simp only [counted, Mid]
    exact ⟨⟨(hl _ _ _ _ _).1, (hr _ _ _ _ _).1, by simp⟩, ⟨(hl _ _ _ _ _).2, (hr _ _ _ _ _).2, by simp⟩⟩

/-- Only the reference masses matter. -/
theorem mid_counted (t : HsTree K) {R C C0 R' C' C0' : List (List K)} : ∀ {u : HsTree K},
    Mid (counted t R C) (counted t R' C') u → Mid (counted t R C0) (counted t R' C0') u := by
  induction t generalizing R C C0 R' C' C0' with
  | nil => intro u h; exact h
  | node l r rm lm q p k hl hr =>
    intro u h
    cases u with
    | nil => simp [counted, Mid] at h
    | node L R'' a b c d e =>
      simp only [counted, Mid] at h ⊢
      exact ⟨hl h.1, hr h.2.1, h.2.2⟩

theorem mid_mass (dims D : ℕ) (x : List K) (hx : dims ≤ x.length) (ref : Bool) :
    ∀ (rem k : ℕ) (t : HsTree K) (R C : List (List K)), Complete dims rem k t → k + rem = D →
      ∀ u ∈ Hst.massStages D x ref (counted t R C),
        Mid (counted t R C) (counted t (if ref then R ++ [x] else R) (C ++ [x])) u := by
  intro rem
  induction rem with
  | zero =>
    intro k t R C hc hD u hu
    match t, hc with
    | .node l r rm lm q p k', hc =>
      obtain ⟨rfl, rfl, rfl, rfl⟩ := hc
      have : ¬ k' < D := by omega
      cases ref <;> simp [counted, Hst.massStages, this] at hu
      · subst hu; simp [counted, Mid]
      · rcases hu with rfl | rfl <;> simp [counted, Mid]
  | succ rem ih =>
    intro k t R C hc hD u hu
    match t, hc with
    | .node l r rm lm q p k', hc =>
      obtain ⟨rfl, hq, hl, hr⟩ := hc
      have hk : k' < D := by omega
      have hg := getElem?_of_lt (hq.trans_le hx)
      have il := fun R C => ih (k' + 1) l R C hl (by omega)
      have ir := fun R C => ih (k' + 1) r R C hr (by omega)
      simp only [counted, Hst.massStages, List.mem_append] at hu
      have hmass : ∀ (u : HsTree K), (∃ L' R' a b, u = .node L' R' a b q p k' ∧
          Mid (counted l (R.filter fun z => !decide (p < feature z q)) (C.filter fun z => !decide (p < feature z q)))
            (counted l ((if ref then R ++ [x] else R).filter fun z => !decide (p < feature z q))
              ((C ++ [x]).filter fun z => !decide (p < feature z q))) L' ∧
          Mid (counted r (R.filter fun z => decide (p < feature z q)) (C.filter fun z => decide (p < feature z q)))
            (counted r ((if ref then R ++ [x] else R).filter fun z => decide (p < feature z q))
              ((C ++ [x]).filter fun z => decide (p < feature z q))) R' ∧
          (a = R.length ∨ a = (if ref then R ++ [x] else R).length)) →
          Mid (counted (.node l r rm lm q p k') R C)
            (counted (.node l r rm lm q p k') (if ref then R ++ [x] else R) (C ++ [x])) u := by
        rintro u ⟨L', R', a, b, rfl, h1, h2, h3⟩
        simp only [counted, Mid]
        exact ⟨h1, h2, h3⟩
      apply hmass
      rcases hu with (hu | hu) | hu
      · split_ifs at hu with href
        · rw [List.mem_singleton.1 hu]
          exact ⟨_, _, _, _, rfl, (mid_of_counted _ _ _ _ _ _).1, (mid_of_counted _ _ _ _ _ _).1,
            Or.inr (by simp [href])⟩
        · simp at hu
      · rw [List.mem_singleton.1 hu]
        exact ⟨_, _, _, _, rfl, (mid_of_counted _ _ _ _ _ _).1, (mid_of_counted _ _ _ _ _ _).1,
          Or.inr (by cases ref <;> simp)⟩
      · rw [if_pos hk, hg] at hu
        simp only at hu
        by_cases hp : p < feature x q
        · rw [if_pos hp] at hu
          obtain ⟨c, hc, rfl⟩ := List.mem_map.1 hu
          refine ⟨_, _, _, _, rfl, (mid_of_counted _ _ _ _ _ _).1, ?_, Or.inr (by cases ref <;> simp)⟩
          have := ir _ _ c hc
          cases ref <;> simpa [List.filter_append, hp] using this
        · rw [if_neg hp] at hu
          obtain ⟨c, hc, rfl⟩ := List.mem_map.1 hu
          refine ⟨_, _, _, _, rfl, ?_, (mid_of_counted _ _ _ _ _ _).1, Or.inr (by cases ref <;> simp)⟩
          have := il _ _ c hc
          cases ref <;> simpa [List.filter_append, hp] using this

theorem mid_model (t : HsTree K) : ∀ (R C : List (List K)), ∀ u ∈ Hst.modelStages (counted t R C),
    Mid (counted t R C) (counted t C []) u := by
  induction t with
  | nil => intro R C u hu; simp [counted, Hst.modelStages] at hu
  | node l r rm lm q p k hl hr =>
    intro R C u hu
    simp only [counted, Hst.modelStages, List.mem_append, List.mem_cons, List.not_mem_nil, or_false,
      updateModel_counted] at hu
    rcases hu with ((rfl | rfl) | hu) | hu
    · simp only [counted, Mid]
      exact ⟨(mid_of_counted _ _ _ _ [] _).1, (mid_of_counted _ _ _ _ [] _).1, by simp⟩
    · simp only [counted, Mid]
      exact ⟨(mid_of_counted _ _ _ _ [] _).1, (mid_of_counted _ _ _ _ [] _).1, by simp⟩
    · obtain ⟨c, hc, rfl⟩ := List.mem_map.1 hu
      simp only [counted, Mid]
      exact ⟨hl _ _ c hc, (mid_of_counted _ _ _ _ [] _).1, by simp⟩
    · obtain ⟨c, hc, rfl⟩ := List.mem_map.1 hu
      simp only [counted, Mid]
      exact ⟨(mid_of_counted _ _ _ _ [] _).2, hr _ _ c hc, by simp⟩

theorem midAll_of_counted (ts : List (HsTree K)) (R C R' C' C'' : List (List K)) :
    MidAll (ts.map fun t => counted t R C) (ts.map fun t => counted t R' C') (ts.map fun t => counted t R C'') ∧
    MidAll (ts.map fun t => counted t R C) (ts.map fun t => counted t R' C') (ts.map fun t => counted t R' C'') := by
  induction ts with
  | nil => exact ⟨trivial, trivial⟩
  | cons t ts ih =>
    exact ⟨⟨(mid_of_counted t R C R' C' C'').1, ih.1⟩, ⟨(mid_of_counted t R C R' C' C'').2, ih.2⟩⟩

theorem midAll_counted (ts : List (HsTree K)) {R C C0 R' C' C0' : List (List K)} : ∀ {us : List (HsTree K)},
    MidAll (ts.map fun t => counted t R C) (ts.map fun t => counted t R' C') us →
    MidAll (ts.map fun t => counted t R C0) (ts.map fun t => counted t R' C0') us := by
  induction ts with
  | nil => intro us h; exact h
  | cons t ts ih =>
    intro us h
    cases us with
    | nil => exact h
    | cons u us => exact ⟨mid_counted t h.1, ih h.2⟩

/-- If one of the two ends has the reference masses of the other, there is nothing in between. -/
theorem midAll_same (ts : List (HsTree K)) {R C C' : List (List K)} (R0 C0 C0' : List (List K)) :
    ∀ {us : List (HsTree K)},
    MidAll (ts.map fun t => counted t R C) (ts.map fun t => counted t R C') us →
    MidAll (ts.map fun t => counted t R0 C0) (ts.map fun t => counted t R C0') us := by
  have one : ∀ (t : HsTree K) (R C C' R0 C0 C0' : List (List K)) (u : HsTree K),
      Mid (counted t R C) (counted t R C') u → Mid (counted t R0 C0) (counted t R C0') u := by
    intro t
    induction t with
    | nil => intro _ _ _ _ _ _ u h; exact h
    | node l r rm lm q p k hl hr =>
      intro R C C' R0 C0 C0' u h
      cases u with
      | nil => simp [counted, Mid] at h
      | node a b c d e f g =>
        simp only [counted, Mid] at h ⊢
        exact ⟨hl _ _ _ _ _ _ _ h.1, hr _ _ _ _ _ _ _ h.2.1, Or.inr (by simpa using h.2.2)⟩
  induction ts with
  | nil => intro us h; exact h
  | cons t ts ih =>
    intro us h
    cases us with
    | nil => exact h
    | cons u us => exact ⟨one t _ _ _ _ _ _ u h.1, ih h.2⟩

theorem midAll_start (ts : List (HsTree K)) {R C C' : List (List K)} (R0 C0 C0' : List (List K)) :
    ∀ {us : List (HsTree K)},
    MidAll (ts.map fun t => counted t R C) (ts.map fun t => counted t R C') us →
    MidAll (ts.map fun t => counted t R C0) (ts.map fun t => counted t R0 C0') us := by
  have one : ∀ (t : HsTree K) (R C C' R0 C0 C0' : List (List K)) (u : HsTree K),
      Mid (counted t R C) (counted t R C') u → Mid (counted t R C0) (counted t R0 C0') u := by
    intro t
    induction t with
    | nil => intro _ _ _ _ _ _ u h; exact h
    | node l r rm lm q p k hl hr =>
      intro R C C' R0 C0 C0' u h
      cases u with
      | nil => simp [counted, Mid] at h
      | node a b c d e f g =>
        simp only [counted, Mid] at h ⊢
        exact ⟨hl _ _ _ _ _ _ _ h.1, hr _ _ _ _ _ _ _ h.2.1, Or.inl (by simpa using h.2.2)⟩
  induction ts with
  | nil => intro us h; exact h
  | cons t ts ih =>
    intro us h
    cases us with
    | nil => exact h
    | cons u us => exact ⟨one t _ _ _ _ _ _ u h.1, ih h.2⟩

theorem midAll_mass (dims D : ℕ) (x : List K) (hx : dims ≤ x.length) (ref : Bool) (ts : List (HsTree K))
    (hts : ∀ t ∈ ts, Complete dims D 0 t) (R C : List (List K)) :
    ∀ us ∈ Hst.rootStages D x ref (ts.map fun t => counted t R C),
      MidAll (ts.map fun t => counted t R C)
        (ts.map fun t => counted t (if ref then R ++ [x] else R) (C ++ [x])) us := by
  induction ts with
  | nil => intro us hu; simp [Hst.rootStages] at hu
  | cons t ts ih =>
    intro us hu
    have h1 := updateMass_counted dims D x hx ref D 0 t R C (hts t (by simp)) (by omega)
    simp only [List.map_cons, Hst.rootStages, h1, List.mem_append] at hu
    rcases hu with hu | hu
    · obtain ⟨c, hc, rfl⟩ := List.mem_map.1 hu
      exact ⟨mid_mass dims D x hx ref D 0 t R C (hts t (by simp)) (by omega) c hc,
        (midAll_of_counted ts _ _ _ _ _).1⟩
    · obtain ⟨c, hc, rfl⟩ := List.mem_map.1 hu
      exact ⟨(mid_of_counted t _ _ _ _ _).2, ih (fun t h => hts t (by simp [h])) c hc⟩

theorem midAll_model (ts : List (HsTree K)) (R C : List (List K)) :
    ∀ us ∈ Hst.modelRootStages (ts.map fun t => counted t R C),
      MidAll (ts.map fun t => counted t R C) (ts.map fun t => counted t C []) us := by
  induction ts with
  | nil => intro us hu; simp [Hst.modelRootStages] at hu
  | cons t ts ih =>
    intro us hu
    simp only [List.map_cons, Hst.modelRootStages, List.mem_append] at hu
    rcases hu with hu | hu
    · obtain ⟨c, hc, rfl⟩ := List.mem_map.1 hu
      exact ⟨mid_model t R C c hc, (midAll_of_counted ts _ _ _ [] _).1⟩
    · obtain ⟨c, hc, rfl⟩ := List.mem_map.1 hu
      rw [updateModel_counted]
      exact ⟨(mid_of_counted t _ _ _ [] _).2, ih c hc⟩

/-- During a fit every reference mass is that of before or that of after it. -/
theorem mid_fit (dims w D : ℕ) (hw : 1 ≤ w) (ts : List (HsTree K)) (hts : FreshTrees dims D ts)
    (X : List (List K)) (hX : ∀ x ∈ X, dims ≤ x.length) (x : List K) (hx : dims ≤ x.length) :
    ∀ t ∈ Hst.fitStages (HstRecovery.run ⟨w, D, ts, true, 0⟩ X) x,
      MidAll (HstRecovery.run ⟨w, D, ts, true, 0⟩ X).roots (HstRecovery.run ⟨w, D, ts, true, 0⟩ (X ++ [x])).roots
        t.roots := by
  obtain ⟨h1, h2, h3, h4, h5⟩ := HstRecovery.run_inv dims w D hw ts hts X hX
  obtain ⟨-, -, -, -, g5⟩ := HstRecovery.run_inv dims w D hw ts hts (X ++ [x]) (by
    intro y hy
    rcases List.mem_append.1 hy with hy | hy
    · exact hX y hy
    · rw [List.mem_singleton.1 hy]; exact hx)
  generalize HstRecovery.run ⟨w, D, ts, true, 0⟩ X = s at *
  generalize HstRecovery.run ⟨w, D, ts, true, 0⟩ (X ++ [x]) = s' at *
  rw [h5, g5]
  rcases ts with _ | ⟨t0, ts0⟩
  · intro t ht
    have := (HstRecovery.fitStages_agree s x t ht).2.2.2
    rw [h5] at this
    simp only [List.map_nil, List.map_eq_nil_iff] at this
    rw [this]
    trivial
  generalize hts0 : t0 :: ts0 = ts at *
  have hne : ts ≠ [] := by rw [← hts0]; simp
  have hfw : s.isFirstWindow = decide (X.length < w) := by
    rcases h4 with h4 | h4
    · exact absurd h4 hne
    · exact h4
  have hcomp : ∀ t ∈ ts, Complete dims D 0 t := fun t h => (hts t h).1
  intro t ht
  simp only [Hst.fitStages, h1, h2, h3, h5, fitRoots_counted dims D x hx s.isFirstWindow ts hcomp,
    List.mem_append, List.mem_cons, List.mem_map] at ht
  rw [if_neg (show ¬ w = 0 by omega)] at ht
  have hmass := midAll_mass dims D x hx s.isFirstWindow ts hcomp (referenceWindow w X) (currentWindow w X)
  obtain ⟨R1, hR1⟩ : ∃ R1, R1 = if s.isFirstWindow = true then referenceWindow w X ++ [x] else referenceWindow w X :=
    ⟨_, rfl⟩
  rw [← hR1] at ht hmass
  -- the masses between the two phases of the fit are those of before, or of after
  have hR : R1 = referenceWindow w X ∨ R1 = referenceWindow w (X ++ [x]) := by
    by_cases hf : X.length < w
    · right
      rw [hfw, decide_eq_true hf, if_pos rfl] at hR1
      obtain ⟨f1, f2⟩ := window_first w X hf
      by_cases hm : (X.length + 1) % w = 0
      · rw [hR1, (window_complete w hw X x hm).1, f1, f2]
      · have : X.length + 1 < w := by
          rcases Nat.lt_or_ge (X.length + 1) w with h | h
          · exact h
          · rw [show X.length + 1 = w by omega, Nat.mod_self] at hm
            exact absurd rfl hm
        rw [hR1, f1, (window_first w (X ++ [x]) (by simpa using this)).1]
    · left
      rw [hR1, hfw, decide_eq_false hf]
      rfl
  have hfirst : ∀ us, MidAll (ts.map fun t => counted t (referenceWindow w X) (currentWindow w X))
      (ts.map fun t => counted t R1 (currentWindow w X ++ [x])) us →
      MidAll (ts.map fun t => counted t (referenceWindow w X) (currentWindow w X))
        (ts.map fun t => counted t (referenceWindow w (X ++ [x])) (currentWindow w (X ++ [x]))) us := by
    intro us hus
    rcases hR with hR | hR
    · rw [hR] at hus
      exact midAll_start ts _ _ _ hus
    · rw [hR] at hus
      exact midAll_counted ts hus
  rcases ht with (rfl | ⟨us, hus, rfl⟩) | ht
  · exact (midAll_of_counted ts _ _ _ _ _).1
  · exact hfirst us (hmass us hus)
  · by_cases hm : (X.length + 1) % w = 0
    · rw [if_pos hm] at ht
      rcases List.mem_append.1 ht with ht | ht
      · by_cases he : (ts.map fun t => counted t R1 (currentWindow w X ++ [x])).isEmpty = true
        · rw [if_pos he] at ht
          exact absurd ht List.not_mem_nil
        · rw [if_neg he] at ht
          rw [List.mem_singleton.1 ht]
          exact hfirst _ (midAll_of_counted ts _ _ _ _ _).2
      · obtain ⟨us, hus, rfl⟩ := List.mem_map.1 ht
        have := midAll_model ts _ _ us hus
        obtain ⟨e1, e2⟩ := window_complete w hw X x hm
        rw [e1] at hR ⊢
        rcases hR with hR | hR
        · rw [hR] at this
          exact midAll_counted ts this
        · rw [hR] at this
          exact midAll_same ts _ _ _ this
    · rw [if_neg hm] at ht
      exact absurd ht List.not_mem_nil

/-- The state after each fit is that of the uninterrupted detector. -/
theorem foldl_run (s : HstState K) (X : List (List K)) :
    X.foldl (fun s x => (Hst.fitPartial s x).state) s = HstRecovery.run s X := by
  induction X using List.reverseRecOn with
  | nil => rfl
  | append_singleton X x ih => rw [List.foldl_append, ih, HstRecovery.run_snoc]; rfl

/-- Without any thread in between, it is the score. -/
theorem liveTree_still (x : List K) (t : HsTree K) : Hst.liveTree x t (fun _ => t) = Hst.scoreTree x t := by
  induction t with
  | nil => rfl
  | node l r rm lm q p k hl hr =>
    simp only [Hst.liveTree, Hst.scoreTree, HsTree.rightChild, HsTree.leftChild, HsTree.mass, hl, hr]
    cases x[q]? <;> rfl

/-- The latest masses do not matter. -/
theorem liveTree_counted (x : List K) (t : HsTree K) : ∀ (t' : HsTree K) (R : List (List K)) (C : ℕ → List (List K)),
    Hst.liveTree x t (fun d => counted t' R (C d)) = Hst.liveTree x t (fun _ => counted t' R []) := by
  induction t with
  | nil => intro _ _ _; rfl
  | node l r rm lm q p k hl hr =>
    intro t' R C
    cases t' with
    | nil => rfl
    | node l' r' rm' lm' q' p' k' =>
      simp only [Hst.liveTree, counted, HsTree.rightChild, HsTree.leftChild, HsTree.mass, List.filter_nil]
      rw [hl l' _ fun d => (C (d + 1)).filter fun z => !decide (p' < feature z q'),
        hr r' _ fun d => (C (d + 1)).filter fun z => decide (p' < feature z q')]

theorem liveRoots_counted (x : List K) (ts : List (HsTree K)) : ∀ (us : List (HsTree K)) (R : List (List K))
    (C : ℕ → ℕ → List (List K)) (acc : K),
    Hst.liveRoots x ts (fun i d => us.map fun t => counted t R (C i d)) acc =
      Hst.liveRoots x ts (fun _ _ => us.map fun t => counted t R []) acc := by
  induction ts with
  | nil => intro _ _ _ _; rfl
  | cons t ts ih =>
    intro us R C acc
    cases us with
    | nil => rfl
    | cons u us =>
      simp only [Hst.liveRoots, List.map_cons, List.headD_cons, List.tail_cons]
      rw [liveTree_counted x t u R fun d => C 0 d]
      cases Hst.liveTree x t (fun _ => counted u R []) with
      | error e => rfl
      | ok v => exact ih us R (fun i d => C (i + 1) d) (acc + v)

/-- Two trees with the same splits are walked alike. -/
theorem liveTree_shape (x : List K) (t : HsTree K) : ∀ (t' : HsTree K) (look : ℕ → HsTree K),
    HstRecovery.erase 0 t = HstRecovery.erase 0 t' → Hst.liveTree x t look = Hst.liveTree x t' look := by
  induction t with
  | nil =>
    intro t' look h
    cases t' with
    | nil => rfl
    | node => simp [HstRecovery.erase] at h
  | node l r rm lm q p k hl hr =>
    intro t' look h
    cases t' with
    | nil => simp [HstRecovery.erase] at h
    | node l' r' rm' lm' q' p' k' =>
      simp only [HstRecovery.erase, HsTree.node.injEq] at h
      obtain ⟨h1, h2, -, -, rfl, rfl, rfl⟩ := h
      simp only [Hst.liveTree]
      rw [hl l' _ h1, hr r' _ h2]

theorem liveRoots_still (x : List K) : ∀ (ts us : List (HsTree K)) (acc : K),
    ts.map (HstRecovery.erase 0) = us.map (HstRecovery.erase 0) →
    Hst.liveRoots x ts (fun _ _ => us) acc = us.foldlM (fun acc t => (Hst.scoreTree x t).map (acc + ·)) acc := by
  intro ts
  induction ts with
  | nil =>
    intro us acc h
    cases us with
    | nil => rfl
    | cons u us => simp at h
  | cons t ts ih =>
    intro us acc h
    cases us with
    | nil => simp at h
    | cons u us =>
      simp only [List.map_cons, List.cons.injEq] at h
      have h1 : Hst.liveTree x t (fun _ => u) = Hst.scoreTree x u := by
        rw [liveTree_shape x t u _ h.1, liveTree_still]
      simp only [Hst.liveRoots, List.headD_cons, List.tail_cons, h1, List.foldlM_cons]
      cases Hst.scoreTree x u with
      | error e => rfl
      | ok v => exact ih us (acc + v) h.2

/-- A score whose loads all see the state `t` is the score of `t`. -/
theorem liveScore_still (x : List K) (s t : HstState K)
    (h : s.roots.map (HstRecovery.erase 0) = t.roots.map (HstRecovery.erase 0)) :
    Hst.liveScore x s (fun _ => t) = Hst.answers t x := by
  unfold Hst.liveScore Hst.answers Hst.scorePartial
  rw [liveRoots_still x _ _ _ h]
  cases List.foldlM (fun acc t => (Hst.scoreTree x t).map (acc + ·)) (0 : K) t.roots <;> rfl

end

end ThreadScores

open ThreadScores

/-! ### HalfSpaceTrees -/

section
variable {K : Type*} [Field K] [LinearOrder K]

/-- `fit_partial` of HalfSpaceTrees. -/
def Hst.nextState (s : HstState K) (x : List K) : HstState K := (Hst.fitPartial s x).state

/-- **C188** for HalfSpaceTrees. -/
def C188_hst_statement (K : Type*) [Field K] [LinearOrder K] : Prop :=
  ∀ (randint : ℕ → ℕ → ℕ × ℕ), InRange randint → ∀ (mins maxes : List K) (w n D g : ℕ), 1 ≤ maxes.length → 1 ≤ w →
    ∀ s0, Hst.new randint mins maxes w n D g = .ok s0 → ∀ x : List K, x.length = maxes.length →
    ScoresConsistent Hst.fitStages Hst.nextState (fun z => z.length = maxes.length) s0
      (fun s => Hst.answers s x) (Hst.liveScore x s0)

/-- What the loads see, node by node. -/
private theorem hst_loads (w D dims : ℕ) (hw : 1 ≤ w) (ts : List (HsTree K)) (hf : FreshTrees dims D ts)
    (xs : List (List K)) (hxs : ∀ z ∈ xs, z.length = dims) (x : List K)
    (look : ℕ ×ₗ ℕ → ℕ × HstState K)
    (hlook : ∀ j, look j ∈ timeline Hst.fitStages Hst.nextState ⟨w, D, ts, true, 0⟩ 0 xs) :
    ∃ ks : ℕ ×ₗ ℕ → ℕ, (∀ j, (look j).1 ≤ ks j ∧ ks j ≤ (look j).1 + 1 ∧ ks j ≤ xs.length) ∧
      Hst.liveScore x ⟨w, D, ts, true, 0⟩ (fun j => (look j).2) =
        Hst.liveScore x ⟨w, D, ts, true, 0⟩ fun j => (xs.take (ks j)).foldl Hst.nextState ⟨w, D, ts, true, 0⟩ := by
  have hrun : ∀ k, (xs.take k).foldl Hst.nextState ⟨w, D, ts, true, 0⟩ =
      HstRecovery.run ⟨w, D, ts, true, 0⟩ (xs.take k) := fun k => foldl_run _ _
  have hlen : ∀ k, ∀ z ∈ xs.take k, dims ≤ z.length := fun k z hz => (hxs z (List.mem_of_mem_take hz)).ge
  have key : ∀ j, ∃ c, (look j).1 = c ∧ c ≤ xs.length ∧
      ∃ c', c ≤ c' ∧ c' ≤ c + 1 ∧ c' ≤ xs.length ∧
      MidAll ((xs.take c).foldl Hst.nextState ⟨w, D, ts, true, 0⟩).roots
        ((xs.take c').foldl Hst.nextState ⟨w, D, ts, true, 0⟩).roots (look j).2.roots := by
    intro j
    obtain ⟨k, h1, h2⟩ := mem_timeline Hst.fitStages Hst.nextState xs _ 0 _ (hlook j)
    rw [Nat.zero_add] at h1
    refine ⟨k, h1, ?_⟩
    rcases h2 with ⟨h2, h3⟩ | ⟨z, h2, h3⟩
    · refine ⟨h2, k, le_rfl, by omega, h2, ?_⟩
      rw [h3, hrun]
      obtain ⟨-, -, -, -, h5⟩ := HstRecovery.run_inv dims w D hw ts hf (xs.take k) (hlen k)
      rw [h5]
      exact (midAll_of_counted ts _ _ _ _ _).1
    · obtain ⟨hk, hz⟩ := List.getElem?_eq_some_iff.1 h2
      refine ⟨hk.le, k + 1, by omega, le_rfl, hk, ?_⟩
      rw [hrun] at h3
      rw [hrun, hrun, List.take_succ_eq_append_getElem hk, hz]
      exact mid_fit dims w D hw ts hf (xs.take k) (hlen k) z
        (hxs z (by rw [← hz]; exact List.getElem_mem hk)).ge _ h3
  choose c hc1 hc2 c' hc3 hc4 hc5 hc6 using key
  obtain ⟨pick, hp⟩ := liveRoots_choice x ts
    (fun i d => ((xs.take (c (toLex (i, d)))).foldl Hst.nextState ⟨w, D, ts, true, 0⟩).roots)
    (fun i d => ((xs.take (c' (toLex (i, d)))).foldl Hst.nextState ⟨w, D, ts, true, 0⟩).roots)
    (fun i d => (look (toLex (i, d))).2.roots) 0 fun i d => hc6 _
  refine ⟨fun j => if pick (ofLex j).1 (ofLex j).2 then c' j else c j, ?_, ?_⟩
  · intro j
    rw [hc1]
    have := hc2 j
    have := hc3 j
    have := hc4 j
    have := hc5 j
    dsimp only
    split <;> omega
  · unfold Hst.liveScore
    dsimp only
    rw [hp]
    congr 2
    funext i d
    simp only [ofLex_toLex]
    by_cases hpk : pick i d = true
    · exact (if_pos hpk).trans (congrArg
        (fun n => (List.foldl Hst.nextState (⟨w, D, ts, true, 0⟩ : HstState K) (xs.take n)).roots) (if_pos hpk).symm)
    · exact (if_neg hpk).trans (congrArg
        (fun n => (List.foldl Hst.nextState (⟨w, D, ts, true, 0⟩ : HstState K) (xs.take n)).roots) (if_neg hpk).symm)

/-- **C188 (partial), HalfSpaceTrees.** Each load sees the mass that the node has after some number of complete
fits — those that are complete at the time, or one more —, but different loads of one score may see
different numbers. -/
theorem C188_hst_partial {G : Type*} (randint : G → ℕ → ℕ × G) (hr : InRange randint) (mins maxes : List K)
    (w n D : ℕ) (hw : 1 ≤ w) (g : G) (s0 : HstState K) (h0 : Hst.new randint mins maxes w n D g = .ok s0)
    (xs : List (List K)) (hxs : ∀ z ∈ xs, z.length = maxes.length) (x : List K)
    (moment : ℕ ×ₗ ℕ → Fin (timeline Hst.fitStages Hst.nextState s0 0 xs).length) :
    ∃ ks : ℕ ×ₗ ℕ → ℕ,
      (∀ j, ((timeline Hst.fitStages Hst.nextState s0 0 xs).get (moment j)).1 ≤ ks j ∧
        ks j ≤ ((timeline Hst.fitStages Hst.nextState s0 0 xs).get (moment j)).1 + 1 ∧ ks j ≤ xs.length) ∧
      Hst.liveScore x s0 (fun j => ((timeline Hst.fitStages Hst.nextState s0 0 xs).get (moment j)).2) =
        Hst.liveScore x s0 fun j => (xs.take (ks j)).foldl Hst.nextState s0 := by
  obtain ⟨ts, rfl, -, hf, -⟩ := new_spec randint hr mins maxes w n D g s0 h0
  exact hst_loads w D maxes.length hw ts hf xs hxs x _ fun j => List.get_mem _ _

/-- If all loads see the same number of fits, the score is the one after these. -/
theorem C188_hst_same {G : Type*} (randint : G → ℕ → ℕ × G) (hr : InRange randint) (mins maxes : List K)
    (w n D : ℕ) (hw : 1 ≤ w) (g : G) (s0 : HstState K) (h0 : Hst.new randint mins maxes w n D g = .ok s0)
    (X : List (List K)) (hX : ∀ z ∈ X, z.length = maxes.length) (x : List K) :
    Hst.liveScore x s0 (fun _ => X.foldl Hst.nextState s0) = Hst.answers (X.foldl Hst.nextState s0) x := by
  obtain ⟨ts, rfl, -, hf, -⟩ := new_spec randint hr mins maxes w n D g s0 h0
  refine liveScore_still x _ _ ?_
  induction X using List.reverseRecOn with
  | nil => rfl
  | append_singleton X z ih =>
    have hX' : ∀ z ∈ X, z.length = maxes.length := fun z hz => hX z (by simp [hz])
    rw [ih hX', List.foldl_append]
    have hfit := HstRecovery.run_fit maxes.length w D hw ts hf X (fun z hz => (hX' z hz).ge) z
      (hX z (by simp)).ge
    rw [← foldl_run] at hfit
    have := (HstRecovery.fit_erase z hfit).2.2.2
    simp only [List.foldl_cons, List.foldl_nil]
    rw [show X.foldl Hst.nextState ⟨w, D, ts, true, 0⟩ =
      X.foldl (fun s x => (Hst.fitPartial s x).state) ⟨w, D, ts, true, 0⟩ from rfl]
    unfold Hst.nextState
    rw [hfit]
    exact this.symm

/-- **C188 (partial), HalfSpaceTrees.** After the first window, while no window is completed, the score does not
notice the fits. -/
theorem C188_hst_inside_partial {G : Type*} (randint : G → ℕ → ℕ × G) (hr : InRange randint) (mins maxes : List K)
    (w n D : ℕ) (hw : 1 ≤ w) (g : G) (s0 : HstState K) (h0 : Hst.new randint mins maxes w n D g = .ok s0)
    (xs : List (List K)) (hxs : ∀ z ∈ xs, z.length = maxes.length) (x : List K)
    (moment : ℕ ×ₗ ℕ → Fin (timeline Hst.fitStages Hst.nextState s0 0 xs).length) (m : ℕ) (hm : 1 ≤ m)
    (hin : ∀ j, m * w ≤ ((timeline Hst.fitStages Hst.nextState s0 0 xs).get (moment j)).1 ∧
      ((timeline Hst.fitStages Hst.nextState s0 0 xs).get (moment j)).1 + 1 < (m + 1) * w) :
    Hst.liveScore x s0 (fun j => ((timeline Hst.fitStages Hst.nextState s0 0 xs).get (moment j)).2) =
      Hst.answers ((xs.take (m * w)).foldl Hst.nextState s0) x := by
  obtain ⟨ks, h1, h2⟩ := C188_hst_partial randint hr mins maxes w n D hw g s0 h0 xs hxs x moment
  rw [h2, ← C188_hst_same randint hr mins maxes w n D hw g s0 h0 (xs.take (m * w))
    (fun z hz => hxs z (List.mem_of_mem_take hz)) x]
  obtain ⟨ts, rfl, -, hf, -⟩ := new_spec randint hr mins maxes w n D g s0 h0
  have hroots : ∀ k, ((xs.take k).foldl Hst.nextState ⟨w, D, ts, true, 0⟩).roots =
      ts.map fun t => counted t (referenceWindow w (xs.take k)) (currentWindow w (xs.take k)) := by
    intro k
    rw [show (xs.take k).foldl Hst.nextState ⟨w, D, ts, true, 0⟩ =
      HstRecovery.run ⟨w, D, ts, true, 0⟩ (xs.take k) from foldl_run _ _]
    exact (HstRecovery.run_inv maxes.length w D hw ts hf (xs.take k)
      fun z hz => (hxs z (List.mem_of_mem_take hz)).ge).2.2.2.2
  have hmw : ∀ k, m * w ≤ k → k < (m + 1) * w → k ≤ xs.length →
      referenceWindow w (xs.take k) = referenceWindow w (xs.take (m * w)) := by
    intro k e1 e2 e3
    have hwm : w ≤ m * w := Nat.le_mul_of_pos_left _ hm
    have hd : k / w = m := Nat.div_eq_of_lt_le e1 e2
    unfold referenceWindow
    simp only [List.length_take]
    rw [Nat.min_eq_left e3, Nat.min_eq_left (e1.trans e3), if_neg (by omega), if_neg (by omega), hd,
      Nat.mul_div_cancel _ hw]
    have hsum : (m - 1) * w + w = m * w := by
      conv_rhs => rw [show m = (m - 1) + 1 by omega]
      ring
    rw [List.drop_take, List.drop_take, List.take_take, List.take_take]
    congr 1
    omega
  unfold Hst.liveScore
  dsimp only
  congr 1
  have : ∀ i d, ((xs.take (ks (toLex (i, d)))).foldl Hst.nextState ⟨w, D, ts, true, 0⟩).roots =
      ts.map fun t => counted t (referenceWindow w (xs.take (m * w)))
        (currentWindow w (xs.take (ks (toLex (i, d))))) := by
    intro i d
    have e1 := h1 (toLex (i, d))
    have e2 := hin (toLex (i, d))
    rw [hroots, hmw _ (by omega) (by omega) e1.2.2]
  simp only [this, hroots]
  rw [liveRoots_counted]
  exact (liveRoots_counted x ts ts _ (fun _ _ => currentWindow w (xs.take (m * w))) 0).symm

end

/-- Two trees of depth 0 and `window_size = 1`. -/
def torn : HstState ℚ := ⟨1, 0, [.node .nil .nil 0 0 0 0 0, .node .nil .nil 0 0 0 0 0], true, 0⟩

theorem torn_new : Hst.new (fun g _ => (0, g)) [0] [1] 1 2 0 (0 : ℕ) = .ok torn := by decide +kernel

private theorem torn_length : (timeline Hst.fitStages Hst.nextState torn 0 [[1]]).length = 12 := by decide +kernel

/-- The first tree is read before the fit, the second after it. -/
private def tornMoment (j : ℕ ×ₗ ℕ) : Fin (timeline Hst.fitStages Hst.nextState torn 0 [[1]]).length :=
  ⟨if (ofLex j).1 = 0 then 0 else 11, by rw [torn_length]; split <;> omega⟩

/-- **C188 is false of HalfSpaceTrees**: a score of -1, between a score of 0 and one of -2. -/
theorem C188_hst_refuted : ¬ C188_hst_statement ℚ := by
  intro h
  have hmono : Monotone tornMoment := by
    intro a b hab
    rw [Fin.le_def]
    unfold tornMoment
    dsimp only
    by_cases ha : (ofLex a).1 = 0
    · rw [if_pos ha]; exact Nat.zero_le _
    · rw [if_neg ha, if_neg]
      intro hb
      rcases Prod.Lex.le_iff.1 hab with h1 | h1
      · omega
      · exact ha (h1.1.trans hb)
  obtain ⟨k, hk, -, -, he⟩ := h (fun g _ => (0, g)) (fun _ _ hn => hn) [0] [1] 1 2 0 0 (by decide) (by decide) torn
    torn_new [1] rfl [[1]] (by simp) tornMoment hmono
  have h1 : Hst.liveScore [1] torn
      (fun j => ((timeline Hst.fitStages Hst.nextState torn 0 [[1]]).get (tornMoment j)).2) = .ok (-1) := by
    decide +kernel
  rw [h1] at he
  have h2 : ∀ k ∈ [0, 1], Except.ok (-1) ≠ Hst.answers (([[1]].take k).foldl Hst.nextState torn) [1] := by
    decide +kernel
  exact h2 k (by simp at hk ⊢; omega) he

/-! ### RSHash -/

/-- **C188, RSHash.** The score is loaded at once, and stored at once: it is that of some fit. -/
theorem C188_rshash {K : Type*} [Field K] [LinearOrder K] [IsStrictOrderedRing K] [FloorRing K] {dim : ℕ}
    (pow2 log : K → K) (s0 : RsHashState K dim) (z : Fin dim → K) :
    ScoresConsistent (RsHash.fitStages pow2 log) (fun s x => (RsHash.fitPartial pow2 log s x).state) (fun _ => True)
      s0 (fun s => ((RsHash.detector (β := Unit) pow2 log).scorePartial s z).out)
      fun look : ℕ → RsHashState K dim => .ok (RsHash.liveScore look) := by
  intro xs _ moment _
  obtain ⟨k, h1, h2⟩ := mem_timeline (RsHash.fitStages pow2 log) (fun s x => (RsHash.fitPartial pow2 log s x).state)
    xs s0 0 _ (List.get_mem _ (moment 0))
  rw [Nat.zero_add] at h1
  rcases h2 with ⟨h2, h3⟩ | ⟨x, h2, h3⟩
  · refine ⟨k, h2, ⟨0, h1.le⟩, ⟨0, by omega⟩, ?_⟩
    simp only [RsHash.liveScore]
    rw [h3]
    rfl
  · obtain ⟨hk, hx⟩ := List.getElem?_eq_some_iff.1 h2
    have hnext : (xs.take (k + 1)).foldl (fun s x => (RsHash.fitPartial pow2 log s x).state) s0 =
        (RsHash.fitPartial pow2 log ((xs.take k).foldl (fun s x => (RsHash.fitPartial pow2 log s x).state) s0) x).state := by
      rw [List.take_succ_eq_append_getElem hk, hx, List.foldl_append]
      rfl
    generalize hs : (xs.take k).foldl (fun s x => (RsHash.fitPartial pow2 log s x).state) s0 = s at *
    generalize hu : (List.get _ (moment 0)) = u at *
    have hor : u.2.lastScore = s.lastScore ∨
        u.2.lastScore = (RsHash.fitPartial pow2 log s x).state.lastScore := by
      unfold RsHash.fitStages at h3
      rcases List.mem_append.1 h3 with h3 | h3
      · obtain ⟨sks, -, h3⟩ := List.mem_map.1 h3
        left
        rw [← h3]
      · unfold RsHash.fitPartial
        revert h3
        cases RsHash.components pow2 log s.decay s.index x 0 s.components 0 s.cmsketches with
        | err e q => intro h3; simp at h3
        | ok v q =>
          intro h3
          simp only at h3
          by_cases hc : s.components.length = 0
          · rw [if_pos hc] at h3
            simp at h3
          · rw [if_neg hc] at h3
            right
            simp only [List.mem_cons, List.not_mem_nil, or_false] at h3
            rcases h3 with h3 | h3 <;> rw [h3] <;> simp [Res.state, hc]
    rcases hor with hor | hor
    · refine ⟨k, hk.le, ⟨0, by rw [hu]; omega⟩, ⟨0, by rw [hu]; omega⟩, ?_⟩
      simp only [RsHash.liveScore, hu]
      rw [hs, hor]
      rfl
    · refine ⟨k + 1, hk, ⟨0, by rw [hu]; omega⟩, ⟨0, by rw [hu]; omega⟩, ?_⟩
      simp only [RsHash.liveScore, hu]
      rw [hnext, hor]
      rfl

/-! ### ExactStorm -/

section
variable {α K : Type*}

/-- `fit_partial` of ExactStorm, on the window and the list it refers to. -/
def Storm.nextState (s : WindowRef × ListStore α) (x : α) : WindowRef × ListStore α := s.1.update s.2 x

/-- What `score_partial` of ExactStorm returns if nothing happens in between. -/
def Storm.answer [Zero K] [NatCast K] [Div K] [LT K] [DecidableLT K] (dist : α → α → K) (radius : K) (x : α)
    (s : WindowRef × ListStore α) : K := Storm.liveScore dist radius x fun _ => s

/-- **C188** for ExactStorm, with every window size of at least 1. -/
def C188_storm_statement (α K : Type*) [Zero K] [NatCast K] [Div K] [LT K] [DecidableLT K] : Prop :=
  ∀ (dist : α → α → K) (radius : K) (x : α) (w : ℕ), 1 ≤ w → ∀ st : ListStore α,
    ScoresConsistent Storm.windowStages Storm.nextState (fun _ => True) (WindowRef.new st w)
      (Storm.answer dist radius x) (Storm.liveScore (K := K) dist radius x)

namespace ThreadScores

/-- The list that a thread holds: the last `w` instances of some moment, or one more. -/
def Seen (w : ℕ) (full : List α) (a b : ℕ × (WindowRef × ListStore α)) : Prop :=
  ∃ m, a.1 ≤ m ∧ m ≤ b.1 + 1 ∧ m ≤ full.length ∧
    (b.2.2.contents a.2.1.ref = lastN w (full.take m) ∨ b.2.2.contents a.2.1.ref = lastN (w + 1) (full.take m))

/-- A list that the window does not use any more stays as it is. -/
theorem storm_frozen (r : ℕ) (l : List α) : ∀ (xs : List α) (s : WindowRef × ListStore α) (c : ℕ),
    s.1.ref < s.2.next → r < s.2.next → r ≠ s.1.ref → s.2.contents r = l →
    ∀ b ∈ timeline Storm.windowStages Storm.nextState s c xs, b.2.2.contents r = l := by
  intro xs
  induction xs with
  | nil =>
    intro s c _ _ _ h b hb
    rw [timeline, List.mem_singleton] at hb
    rw [hb]; exact h
  | cons x xs ih =>
    intro s c h1 h2 h3 h b hb
    obtain ⟨⟨ws, ref⟩, ⟨nx, co⟩⟩ := s
    simp only at h1 h2 h3 h
    have hstep : (Storm.nextState (⟨ws, ref⟩, ⟨nx, co⟩) x).2.contents r = l ∧
        (Storm.nextState (⟨ws, ref⟩, ⟨nx, co⟩) x).1.ref < (Storm.nextState (⟨ws, ref⟩, ⟨nx, co⟩) x).2.next ∧
        r < (Storm.nextState (⟨ws, ref⟩, ⟨nx, co⟩) x).2.next ∧
        r ≠ (Storm.nextState (⟨ws, ref⟩, ⟨nx, co⟩) x).1.ref := by
      unfold Storm.nextState WindowRef.update
      dsimp only
      split
      · refine ⟨?_, by simp, by simp; omega, by simp; omega⟩
        simp only
        rw [Function.update_of_ne (by omega), Function.update_of_ne h3, h]
      · refine ⟨?_, h1, h2, h3⟩
        simp only
        rw [Function.update_of_ne h3, h]
    rw [timeline, List.cons_append, List.mem_cons, List.mem_append] at hb
    rcases hb with rfl | hb | hb
    · exact h
    · obtain ⟨t, ht, rfl⟩ := List.mem_map.1 hb
      simp only [Storm.windowStages, List.mem_cons] at ht
      rcases ht with rfl | ht
      · simp only
        rw [Function.update_of_ne h3, h]
      · split_ifs at ht
        · rw [List.mem_singleton.1 ht]
          exact hstep.1
        · exact absurd ht List.not_mem_nil
    · exact ih _ _ hstep.2.1 hstep.2.2.1 hstep.2.2.2 hstep.1 b hb

/-- One fit: what it does to the list, and whether the list is given up. -/
theorem storm_step (w : ℕ) (X : List α) (x : α) (s : WindowRef × ListStore α) (hs : s.1.windowSize = w)
    (h1 : s.1.ref < s.2.next) (h2 : s.2.contents s.1.ref = lastN w X) :
    (Storm.nextState s x).1.windowSize = w ∧ (Storm.nextState s x).1.ref < (Storm.nextState s x).2.next ∧
    (Storm.nextState s x).2.contents (Storm.nextState s x).1.ref = lastN w (X ++ [x]) ∧
    ((lastN w X).length < w ∧ (Storm.nextState s x).1.ref = s.1.ref ∧
        (∀ t ∈ Storm.windowStages s x, t.1.ref = s.1.ref ∧ t.2.contents s.1.ref = lastN w (X ++ [x])) ∨
      s.1.ref ≠ (Storm.nextState s x).1.ref ∧ s.1.ref < (Storm.nextState s x).2.next ∧
        (Storm.nextState s x).2.contents s.1.ref = lastN (w + 1) (X ++ [x]) ∧
        ∃ t, Storm.windowStages s x = [t, Storm.nextState s x] ∧ t.1.ref = s.1.ref ∧
          t.2.contents s.1.ref = lastN (w + 1) (X ++ [x])) := by
  obtain ⟨⟨ws, ref⟩, ⟨nx, co⟩⟩ := s
  simp only at hs h1 h2
  subst hs
  have hsnoc := lastN_snoc ws X x
  have hlen := lastN_length ws X
  by_cases hl : (lastN ws X).length < ws
  · have hX : X.length < ws := by omega
    have e : lastN ws (X ++ [x]) = lastN ws X ++ [x] := by
      rw [lastN_of_le (by simp; omega), lastN_of_le hX.le]
    have hg : ¬ (co ref ++ [x]).length > ws := by rw [h2]; simp; omega
    have hn : Storm.nextState (⟨ws, ref⟩, ⟨nx, co⟩) x =
        (⟨ws, ref⟩, ⟨nx, Function.update co ref (co ref ++ [x])⟩) := by
      simp only [Storm.nextState, WindowRef.update, if_neg hg]
    rw [hn]
    refine ⟨rfl, h1, by simp [h2, e], Or.inl ⟨hl, rfl, ?_⟩⟩
    intro t ht
    simp only [Storm.windowStages, if_neg hg, List.mem_singleton] at ht
    rw [ht]
    exact ⟨rfl, by simp [h2, e]⟩
  · have hX : ws ≤ X.length := by omega
    have e : lastN (ws + 1) (X ++ [x]) = lastN ws X ++ [x] := by
      unfold lastN
      rw [List.length_append, List.length_singleton, List.drop_append_of_le_length (by omega)]
      congr 2
      omega
    have e' : lastN ws (X ++ [x]) = (lastN ws X ++ [x]).tail := by
      rw [← e]
      unfold lastN
      rw [List.tail_drop, List.length_append, List.length_singleton]
      congr 1
      omega
    have hg : (co ref ++ [x]).length > ws := by rw [h2]; simp; omega
    have hn : Storm.nextState (⟨ws, ref⟩, ⟨nx, co⟩) x =
        (⟨ws, nx⟩, ⟨nx + 1, Function.update (Function.update co ref (co ref ++ [x])) nx
          (pyTail (co ref ++ [x]))⟩) := by
      simp only [Storm.nextState, WindowRef.update, if_pos hg]
    have hst : Storm.windowStages (⟨ws, ref⟩, ⟨nx, co⟩) x =
        [(⟨ws, ref⟩, ⟨nx, Function.update co ref (co ref ++ [x])⟩), Storm.nextState (⟨ws, ref⟩, ⟨nx, co⟩) x] := by
      simp only [Storm.windowStages, if_pos hg]
      rfl
    rw [hst, hn]
    refine ⟨rfl, by simp, by simp [h2, e', pyTail], Or.inr ⟨by simp; omega, by simp; omega, ?_, _, rfl, rfl, ?_⟩⟩
    · simp only
      rw [Function.update_of_ne (by omega), Function.update_self, h2, e]
    · simp only
      rw [Function.update_self, h2, e]

/-- The list of the window at one moment, looked at later. -/
theorem storm_current (w : ℕ) (full : List α) : ∀ (xs X : List α) (s : WindowRef × ListStore α),
    full = X ++ xs → s.1.windowSize = w → s.1.ref < s.2.next → s.2.contents s.1.ref = lastN w X →
    ∀ b ∈ timeline Storm.windowStages Storm.nextState s X.length xs, Seen w full (X.length, s) b := by
  intro xs
  induction xs with
  | nil =>
    intro X s hf hs h1 h2 b hb
    rw [timeline, List.mem_singleton] at hb
    rw [hb]
    exact ⟨X.length, le_rfl, by simp, by simp [hf], Or.inl (by simp [hf, h2])⟩
  | cons x xs ih =>
    intro X s hf hs h1 h2 b hb
    have htake : full.take (X.length + 1) = X ++ [x] := by
      rw [hf, show X ++ x :: xs = (X ++ [x]) ++ xs by simp, List.take_left' (by simp)]
    have hle : X.length + 1 ≤ full.length := by rw [hf]; simp
    obtain ⟨g1, g2, g3, g⟩ := storm_step w X x s hs h1 h2
    rw [timeline, List.cons_append, List.mem_cons, List.mem_append] at hb
    rcases hb with rfl | hb | hb
    · exact ⟨X.length, le_rfl, by simp, by omega, Or.inl (by simp [hf, h2])⟩
    · obtain ⟨t, ht, rfl⟩ := List.mem_map.1 hb
      rcases g with ⟨-, -, g⟩ | ⟨-, -, g5, t', g6, g7, g8⟩
      · exact ⟨X.length + 1, by simp, by simp, hle, Or.inl (by rw [htake]; exact (g t ht).2)⟩
      · rw [g6] at ht
        simp only [List.mem_cons, List.not_mem_nil, or_false] at ht
        rcases ht with rfl | rfl
        · exact ⟨X.length + 1, by simp, by simp, hle, Or.inr (by rw [htake]; exact g8)⟩
        · exact ⟨X.length + 1, by simp, by simp, hle, Or.inr (by rw [htake]; exact g5)⟩
    · have hb' : b ∈ timeline Storm.windowStages Storm.nextState (Storm.nextState s x) (X ++ [x]).length xs := by
        simpa using hb
      rcases g with ⟨-, g, -⟩ | ⟨g4, g5, g6, -⟩
      · obtain ⟨m, e1, e2, e3, e4⟩ := ih (X ++ [x]) _ (by rw [hf]; simp) g1 g2 g3 b hb'
        simp only [List.length_append, List.length_singleton, g] at e1 e4
        exact ⟨m, by simp only; omega, e2, e3, e4⟩
      · have hfr := storm_frozen s.1.ref _ xs _ _ g2 g5 g4 g6 b hb
        obtain ⟨k, hk, -⟩ := mem_timeline _ _ _ _ _ _ hb
        exact ⟨X.length + 1, by simp, by omega, hle, Or.inr (by rw [htake]; exact hfr)⟩

theorem Seen.of_ref {w : ℕ} {full : List α} {a a' b : ℕ × (WindowRef × ListStore α)} (h : Seen w full a b)
    (h1 : a'.1 ≤ a.1) (h2 : a'.2.1.ref = a.2.1.ref) : Seen w full a' b := by
  obtain ⟨m, e1, e2, e3, e4⟩ := h
  exact ⟨m, h1.trans e1, e2, e3, by rw [h2]; exact e4⟩

/-- Any two moments. -/
theorem storm_pairs (w : ℕ) (full : List α) : ∀ (xs X : List α) (s : WindowRef × ListStore α),
    full = X ++ xs → s.1.windowSize = w → s.1.ref < s.2.next → s.2.contents s.1.ref = lastN w X →
    (timeline Storm.windowStages Storm.nextState s X.length xs).Pairwise (Seen w full) ∧
      ∀ a ∈ timeline Storm.windowStages Storm.nextState s X.length xs, Seen w full a a := by
  intro xs
  induction xs with
  | nil =>
    intro X s hf hs h1 h2
    refine ⟨by simp [timeline], ?_⟩
    intro a ha
    have := storm_current w full [] X s hf hs h1 h2 a ha
    rw [timeline, List.mem_singleton] at ha
    rw [ha] at this ⊢
    exact this
  | cons x xs ih =>
    intro X s hf hs h1 h2
    have hcur := storm_current w full (x :: xs) X s hf hs h1 h2
    obtain ⟨g1, g2, g3, g⟩ := storm_step w X x s hs h1 h2
    have hf' : full = (X ++ [x]) ++ xs := by rw [hf]; simp
    obtain ⟨i1, i2⟩ := ih (X ++ [x]) _ hf' g1 g2 g3
    have hnext := storm_current w full xs (X ++ [x]) _ hf' g1 g2 g3
    have hlen : (X ++ [x]).length = X.length + 1 := by simp
    have htake : full.take (X.length + 1) = X ++ [x] := by rw [hf', List.take_left' hlen]
    have hle : X.length + 1 ≤ full.length := by rw [hf]; simp
    rw [hlen] at i1 i2 hnext
    rw [timeline, List.cons_append] at hcur ⊢
    -- a moment during the fit, looked at later
    have hst : ∀ t ∈ Storm.windowStages s x,
        (t.1.ref = s.1.ref ∨ t = Storm.nextState s x) := by
      intro t ht
      rcases g with ⟨-, -, g⟩ | ⟨-, -, -, t', g6, g7, -⟩
      · exact Or.inl (g t ht).1
      · rw [g6] at ht
        simp only [List.mem_cons, List.not_mem_nil, or_false] at ht
        rcases ht with rfl | rfl
        · exact Or.inl g7
        · exact Or.inr rfl
    have hself : Seen w full (X.length, Storm.nextState s x) (X.length, Storm.nextState s x) :=
      ⟨X.length + 1, by simp, by simp, hle, Or.inl (by rw [htake]; exact g3)⟩
    have hlater : ∀ t ∈ Storm.windowStages s x,
        ∀ b ∈ timeline Storm.windowStages Storm.nextState (Storm.nextState s x) (X.length + 1) xs,
        Seen w full (X.length, t) b := by
      intro t ht b hb
      rcases hst t ht with h | rfl
      · exact (hcur b (by simp [hb])).of_ref le_rfl h
      · exact (hnext b hb).of_ref (by simp) rfl
    have hsame : ∀ t ∈ Storm.windowStages s x, Seen w full (X.length, t) (X.length, t) := by
      intro t ht
      rcases hst t ht with h | rfl
      · exact (hcur (X.length, t) (by simp [ht])).of_ref le_rfl h
      · exact hself
    refine ⟨List.pairwise_cons.2 ⟨fun b hb => hcur b (List.mem_cons_of_mem _ hb), ?_⟩, ?_⟩
    · refine List.pairwise_append.2 ⟨?_, i1, ?_⟩
      · rw [List.pairwise_map]
        rcases g with ⟨-, -, g⟩ | ⟨-, -, -, t', g6, g7, -⟩
        · refine List.pairwise_of_forall_mem_list ?_
          intro t ht t2 ht2
          exact (hcur (X.length, t2) (by simp [ht2])).of_ref le_rfl (g t ht).1
        · rw [g6, List.pairwise_cons]
          refine ⟨?_, by simp⟩
          intro b hb
          exact (hcur (X.length, b) (by rw [g6]; simp at hb ⊢; simp [hb])).of_ref le_rfl g7
      · intro a ha b hb
        obtain ⟨t, ht, rfl⟩ := List.mem_map.1 ha
        exact hlater t ht b hb
    · intro a ha
      rcases List.mem_cons.1 ha with rfl | ha
      · exact hcur _ List.mem_cons_self
      · rcases List.mem_append.1 ha with ha | ha
        · obtain ⟨t, ht, rfl⟩ := List.mem_map.1 ha
          exact hsame t ht
        · exact i2 a ha

end ThreadScores

/-- **C188 (partial), ExactStorm.** The score is the near fraction of the last `w`, or of the last `w + 1`, instances
without the most recent one, after some number of fits between those that were complete when it was begun and
those that were begun when it was complete. -/
theorem C188_storm_partial [Zero K] [NatCast K] [Div K] [LT K] [DecidableLT K] (dist : α → α → K) (radius : K)
    (x : α) (w : ℕ) (st : ListStore α) (xs : List α)
    (moment : ℕ → Fin (timeline Storm.windowStages Storm.nextState (WindowRef.new st w) 0 xs).length)
    (hm : Monotone moment) :
    ∃ k ≤ xs.length,
      ((timeline Storm.windowStages Storm.nextState (WindowRef.new st w) 0 xs).get (moment 0)).1 ≤ k ∧
      k ≤ ((timeline Storm.windowStages Storm.nextState (WindowRef.new st w) 0 xs).get (moment 1)).1 + 1 ∧
      ∃ n ∈ [w, w + 1], Storm.liveScore dist radius x
        (fun j => ((timeline Storm.windowStages Storm.nextState (WindowRef.new st w) 0 xs).get (moment j)).2) =
          Storm.near dist radius x (lastN n (xs.take k)).dropLast := by
  obtain ⟨h1, h2⟩ := storm_pairs w xs xs [] (WindowRef.new st w) rfl rfl (by simp [WindowRef.new])
    (by simp [WindowRef.new])
  have hle : moment 0 ≤ moment 1 := hm (Nat.zero_le 1)
  have hseen : Seen w xs ((timeline Storm.windowStages Storm.nextState (WindowRef.new st w) 0 xs).get (moment 0))
      ((timeline Storm.windowStages Storm.nextState (WindowRef.new st w) 0 xs).get (moment 1)) := by
    rcases eq_or_lt_of_le hle with h | h
    · rw [h]
      exact h2 _ (List.get_mem _ _)
    · exact List.pairwise_iff_get.1 h1 _ _ h
  obtain ⟨k, e1, e2, e3, e4⟩ := hseen
  refine ⟨k, e3, e1, e2, ?_⟩
  rcases e4 with e4 | e4
  · exact ⟨w, by simp, by rw [Storm.liveScore, e4]⟩
  · exact ⟨w + 1, by simp, by rw [Storm.liveScore, e4]⟩

/-- The list of the window after the fits `xs`. -/
private theorem storm_run (w : ℕ) : ∀ (xs X : List α) (s : WindowRef × ListStore α), s.1.windowSize = w →
    s.1.ref < s.2.next → s.2.contents s.1.ref = lastN w X →
    (xs.foldl Storm.nextState s).2.contents (xs.foldl Storm.nextState s).1.ref = lastN w (X ++ xs) := by
  intro xs
  induction xs with
  | nil =>
    intro X s _ _ h
    simpa using h
  | cons x xs ih =>
    intro X s hs h1 h2
    obtain ⟨g1, g2, g3, -⟩ := storm_step w X x s hs h1 h2
    simpa using ih (X ++ [x]) _ g1 g2 g3

private theorem storm_answer [Zero K] [NatCast K] [Div K] [LT K] [DecidableLT K] (dist : α → α → K) (radius : K)
    (x : α) (w : ℕ) (st : ListStore α) (xs : List α) :
    Storm.answer dist radius x (xs.foldl Storm.nextState (WindowRef.new st w)) =
      Storm.near dist radius x (lastN w xs).dropLast := by
  have := storm_run w xs [] (WindowRef.new st w) rfl (by simp [WindowRef.new]) (by simp [WindowRef.new])
  rw [List.nil_append] at this
  rw [Storm.answer, Storm.liveScore, this]

/-- With one thread only, this is ExactStorm. -/
theorem C188_storm_alone [Zero K] [NatCast K] [Div K] [LT K] [DecidableLT K] (dist : α → α → K) (radius : K)
    (x : α) (w : ℕ) (st : ListStore α) (cs : List (Call α Unit)) :
    ((exactStorm (β := Unit) dist).scorePartial (calls (exactStorm dist) (StormState.new w radius) cs).2 x).out =
      .ok (Storm.answer dist radius x ((fitted cs).foldl Storm.nextState (WindowRef.new st w))) := by
  rw [storm_answer, storm_state]
  simp only [exactStorm, Storm.near, Window.get, List.length_map]
  split <;> rfl

/-- **C188 (partial), ExactStorm.** As long as the window is not full the score is one of some moment. -/
theorem C188_storm_filling_partial [Zero K] [NatCast K] [Div K] [LT K] [DecidableLT K] (dist : α → α → K)
    (radius : K) (x : α) (w : ℕ) (st : ListStore α) (xs : List α) (hxs : xs.length ≤ w)
    (moment : ℕ → Fin (timeline Storm.windowStages Storm.nextState (WindowRef.new st w) 0 xs).length)
    (hm : Monotone moment) :
    ∃ k ≤ xs.length,
      ((timeline Storm.windowStages Storm.nextState (WindowRef.new st w) 0 xs).get (moment 0)).1 ≤ k ∧
      k ≤ ((timeline Storm.windowStages Storm.nextState (WindowRef.new st w) 0 xs).get (moment 1)).1 + 1 ∧
      Storm.liveScore dist radius x
        (fun j => ((timeline Storm.windowStages Storm.nextState (WindowRef.new st w) 0 xs).get (moment j)).2) =
          Storm.answer dist radius x ((xs.take k).foldl Storm.nextState (WindowRef.new st w)) := by
  obtain ⟨k, h1, h2, h3, n, hn, h4⟩ := C188_storm_partial dist radius x w st xs moment hm
  refine ⟨k, h1, h2, h3, ?_⟩
  have hlen : (xs.take k).length ≤ w := by simp; omega
  rw [h4, storm_answer, lastN_of_le hlen, lastN_of_le]
  simp only [List.mem_cons, List.not_mem_nil, or_false] at hn
  omega

end

private def stormMoment : ℕ → Fin (timeline Storm.windowStages Storm.nextState
    (WindowRef.new (⟨0, fun _ => []⟩ : ListStore ℚ) 1) 0 [0, 0]).length :=
  fun _ => ⟨3, by decide +kernel⟩

/-- **C188 is false of ExactStorm**: between `append` and the removal of the oldest instance the window has one
instance too many. With a window of one instance, of which the most recent is left out, every score is 0; this one
is 1. -/
theorem C188_storm_refuted : ¬ C188_storm_statement ℚ ℚ := by
  intro h
  obtain ⟨k, hk, -, -, he⟩ := h (fun a b => |a - b|) 1 0 1 le_rfl ⟨0, fun _ => []⟩ [0, 0] (by simp) stormMoment
    (fun _ _ _ => le_rfl)
  have h1 : Storm.liveScore (fun a b => |a - b|) 1 (0 : ℚ) (fun j => ((timeline Storm.windowStages Storm.nextState
      (WindowRef.new (⟨0, fun _ => []⟩ : ListStore ℚ) 1) 0 [0, 0]).get (stormMoment j)).2) = (1 : ℚ) := by
    decide +kernel
  rw [h1] at he
  have h2 : ∀ k ∈ [0, 1, 2], (1 : ℚ) ≠ Storm.answer (fun a b => |a - b|) 1 (0 : ℚ)
      (([0, 0].take k).foldl Storm.nextState (WindowRef.new (⟨0, fun _ => []⟩ : ListStore ℚ) 1)) := by
    decide +kernel
  exact h2 k (by simp at hk ⊢; omega) he

end Pysad
