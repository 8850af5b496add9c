import Verif.Props.ReadOnly
import Verif.Props.RsHashInit
import Mathlib.Data.List.Basic

/-! C105: scores and the units of the features. C106: scores and the order of the instances. -/

namespace Pysad

open Spec

/-- The same call with another instance. -/
def Spec.Call.on {α α' β : Type*} (f : α → α') : Call α β → Call α' β
  | .fit x y => .fit (f x) y
  | .score x => .score (f x)

theorem fitted_on {α α' β : Type*} (f : α → α') (cs : List (Call α β)) :
    fitted (cs.map (Call.on f)) = (fitted cs).map f := by
  induction cs with
  | nil => rfl
  | cons c cs ih => cases c <;> simp [fitted, Call.on, ih]

/-- Objects that answer alike, whose states stay related. -/
theorem answers_of_sim {σ σ' α α' β S : Type*} {d : Detector σ α β S} {d' : Detector σ' α' β S}
    (f : α → α') (R : σ → σ' → Prop)
    (h : ∀ s t c, R s t → (call d' t (Call.on f c)).1 = (call d s c).1 ∧
      R (call d s c).2 (call d' t (Call.on f c)).2) (s : σ) (t : σ') (h0 : R s t)
    (cs : List (Call α β)) : (calls d' t (cs.map (Call.on f))).1 = (calls d s cs).1 := by
  induction cs generalizing s t with
  | nil => rfl
  | cons c cs ih =>
    obtain ⟨h1, h2⟩ := h s t c h0
    simp only [List.map_cons, calls, h1, ih _ _ h2]

/-! ### `ExactStorm` -/

/-- **C105.** ExactStorm: if the instances are transformed so that the same pairs as before are
closer than the radius, all answers are the same; in particular if all distances and the radius
are multiplied by one factor, or if distances do not change. -/
theorem C105_storm_units {α α' β K : Type*} [Field K] [LinearOrder K] (dist : α → α → K)
    (dist' : α' → α' → K) (f : α → α') (w : ℕ) (r r' : K)
    (h : ∀ x z, dist' (f x) (f z) < r' ↔ dist x z < r) (cs : List (Call α β)) :
    (calls (exactStorm dist') (StormState.new w r') (cs.map (Call.on f))).1 =
      (calls (exactStorm dist) (StormState.new w r) cs).1 := by
  refine answers_of_sim f (fun (s : StormState α K) (t : StormState α' K) =>
    s.maxRadius = r ∧ t.maxRadius = r' ∧ t.window.windowSize = s.window.windowSize ∧
      t.window.window = s.window.window.map f) ?_ _ _
    ⟨rfl, rfl, rfl, rfl⟩ cs
  rintro s t c ⟨h1, h2, h3, h4⟩
  cases c with
  | fit x y =>
    refine ⟨rfl, h1, h2, ?_⟩
    simp only [call, Call.on, exactStorm, Window.update, h3, h4, List.length_append,
      List.length_map, List.length_cons, List.length_nil]
    split
    · exact ⟨rfl, by simp [pyTail]⟩
    · exact ⟨rfl, by simp⟩
  | score x =>
    have hl : t.window.get.dropLast = s.window.get.dropLast.map f := by
      simp only [Window.get, h4, List.map_dropLast]
    have hcount : (((s.window.get.dropLast.map f).map fun w => dist' w (f x)).filter
        fun d => d < t.maxRadius).length = ((s.window.get.dropLast.map fun w => dist w x).filter
        fun d => d < s.maxRadius).length := by
      rw [← List.countP_eq_length_filter, ← List.countP_eq_length_filter, List.map_map,
        List.countP_map, List.countP_map]
      apply List.countP_congr
      intro z _
      simp [h1, h2, h z x]
    simp only [call, Call.on, exactStorm, hl, List.length_map]
    by_cases h0 : s.window.get.dropLast.length = 0
    · rw [if_pos h0, if_pos h0]
      exact ⟨rfl, h1, h2, h3, h4⟩
    · rw [if_neg h0, if_neg h0, hcount]
      exact ⟨rfl, h1, h2, h3, h4⟩

/-- Values in half the unit, with the radius. -/
example : (∀ x z : ℚ, |2 * x + 3 - (2 * z + 3)| < 2 * 5 ↔ |x - z| < 5) ∧
    (calls (exactStorm (β := Unit) fun p q : ℚ => |p - q|) (StormState.new 3 5)
      [.fit 1 none, .fit 20 none, .fit 3 none, .score 4]).1 = [.done, .done, .done, .value (1 / 2)] := by
  refine ⟨fun x z => ?_, by decide +kernel⟩
  rw [show 2 * x + 3 - (2 * z + 3) = 2 * (x - z) by ring, abs_mul, abs_two]
  constructor <;> intro h <;> linarith

/-! ### `HalfSpaceTrees` -/

section
variable {β K : Type*} [Field K] [LinearOrder K] [IsStrictOrderedRing K]

/-- Feature `i` in another unit: multiplied by `a i`, plus `b i`. -/
def Spec.rescale (a b : ℕ → K) (x : List K) : List K := x.mapIdx fun i v => a i * v + b i

omit [LinearOrder K] [IsStrictOrderedRing K] in
theorem rescale_getElem? (a b : ℕ → K) (x : List K) (q : ℕ) :
    (rescale a b x)[q]? = x[q]?.map fun v => a q * v + b q := by
  simp [rescale, List.getElem?_mapIdx]

omit [LinearOrder K] [IsStrictOrderedRing K] in
theorem rescale_set (a b : ℕ → K) (x : List K) (q : ℕ) (p : K) :
    (rescale a b x).set q (a q * p + b q) = rescale a b (x.set q p) := by
  apply List.ext_getElem?
  intro i
  rw [rescale_getElem?, List.getElem?_set, List.getElem?_set]
  by_cases h : q = i
  · subst h
    by_cases hq : q < x.length
    · simp [rescale, hq]
    · simp [rescale, hq]
  · simp [h, rescale_getElem?]

namespace Hst

/-- The same tree in other units. -/
def Rescaled (D : ℕ) (a b : ℕ → K) : HsTree K → HsTree K → Prop
  | .nil, .nil => True
  | .node l r rm lm q p k, .node l' r' rm' lm' q' p' k' =>
    rm' = rm ∧ lm' = lm ∧ q' = q ∧ k' = k ∧ Rescaled D a b l l' ∧ Rescaled D a b r r' ∧
      (p' = a q * p + b q ∨ (¬ k < D ∧ l = .nil ∧ r = .nil ∧ l' = .nil ∧ r' = .nil))
  | _, _ => False

/-- Two outcomes that are both exceptions, of one kind, or both not. -/
def SameOut {A B : Type*} (P : A → B → Prop) : Except PyErr A → Except PyErr B → Prop
  | .ok a, .ok b => P a b
  | .error e, .error e' => e' = e
  | _, _ => False

omit [LinearOrder K] [IsStrictOrderedRing K] in
theorem build_rescaled {G : Type*} (randint : G → ℕ → ℕ × G) (dims D : ℕ) (a b : ℕ → K)
    (h2 : (2 : K) ≠ 0) :
    ∀ (rem k : ℕ) (mins maxes : List K) (g : G), k + rem = D →
      SameOut (fun u v => v.2 = u.2 ∧ Rescaled D a b u.1 v.1)
        (build randint dims rem k mins maxes g)
        (build randint dims rem k (rescale a b mins) (rescale a b maxes) g) := by
  intro rem
  induction rem with
  | zero =>
    intro k mins maxes g hk
    exact ⟨rfl, rfl, rfl, rfl, rfl, trivial, trivial, Or.inr ⟨by omega, rfl, rfl, rfl, rfl⟩⟩
  | succ rem ih =>
    intro k mins maxes g hk
    unfold build
    by_cases hd : dims = 0
    · simp [hd, SameOut]
    simp only [if_neg hd, rescale_getElem?]
    set q := (randint g dims).1
    cases h1 : maxes[q]? with
    | none => simp [SameOut]
    | some hi =>
      cases h3 : mins[q]? with
      | none => simp [SameOut]
      | some lo =>
        have hp : (a q * hi + b q + (a q * lo + b q)) / 2 = a q * ((hi + lo) / 2) + b q := by
          field_simp; ring
        simp only [Option.map_some, hp, rescale_set]
        have il := ih (k + 1) mins (maxes.set q ((hi + lo) / 2)) (randint g dims).2 (by omega)
        cases hl : build randint dims rem (k + 1) mins (maxes.set q ((hi + lo) / 2))
            (randint g dims).2 with
        | error e =>
          rw [hl] at il
          cases hl' : build randint dims rem (k + 1) (rescale a b mins)
              (rescale a b (maxes.set q ((hi + lo) / 2))) (randint g dims).2 with
          | error e' => rw [hl'] at il; exact il
          | ok v => rw [hl'] at il; exact il.elim
        | ok u =>
          rw [hl] at il
          cases hl' : build randint dims rem (k + 1) (rescale a b mins)
              (rescale a b (maxes.set q ((hi + lo) / 2))) (randint g dims).2 with
          | error e' => rw [hl'] at il; exact il.elim
          | ok v =>
            rw [hl'] at il
            obtain ⟨t, g1⟩ := u
            obtain ⟨t', g1'⟩ := v
            obtain ⟨rfl, ht⟩ : g1' = g1 ∧ Rescaled D a b t t' := il
            simp only
            have ir := ih (k + 1) (mins.set q ((hi + lo) / 2)) maxes g1' (by omega)
            cases hr : build randint dims rem (k + 1) (mins.set q ((hi + lo) / 2)) maxes g1' with
            | error e =>
              rw [hr] at ir
              cases hr' : build randint dims rem (k + 1) (rescale a b (mins.set q ((hi + lo) / 2)))
                  (rescale a b maxes) g1' with
              | error e' => rw [hr'] at ir; exact ir
              | ok v => rw [hr'] at ir; exact ir.elim
            | ok u =>
              rw [hr] at ir
              cases hr' : build randint dims rem (k + 1) (rescale a b (mins.set q ((hi + lo) / 2)))
                  (rescale a b maxes) g1' with
              | error e' => rw [hr'] at ir; exact ir.elim
              | ok v =>
                rw [hr'] at ir
                exact ⟨ir.1, rfl, rfl, rfl, rfl, ht, ir.2, Or.inl rfl⟩

omit [LinearOrder K] [IsStrictOrderedRing K] in
theorem buildAll_rescaled {G : Type*} (randint : G → ℕ → ℕ × G) (D : ℕ) (a b : ℕ → K)
    (h2 : (2 : K) ≠ 0) (mins maxes : List K) : ∀ (n : ℕ) (g : G),
      SameOut (fun u v => v.2 = u.2 ∧ List.Forall₂ (Rescaled D a b) u.1 v.1)
        (buildAll randint D mins maxes n g)
        (buildAll randint D (rescale a b mins) (rescale a b maxes) n g) := by
  intro n
  induction n with
  | zero => intro g; exact ⟨rfl, .nil⟩
  | succ n ih =>
    intro g
    have hb := build_rescaled randint maxes.length D a b h2 D 0 mins maxes g (by omega)
    have hlen : (rescale a b maxes).length = maxes.length := by simp [rescale]
    unfold buildAll
    rw [hlen]
    generalize build randint maxes.length D 0 mins maxes g = r at hb
    generalize build randint maxes.length D 0 (rescale a b mins) (rescale a b maxes) g = r' at hb
    match r, r', hb with
    | .error e, .error e', hb => exact hb
    | .ok (t, g1), .ok (t', g1'), hb =>
      obtain ⟨rfl, ht⟩ : g1' = g1 ∧ Rescaled D a b t t' := hb
      have hi := ih g1'
      simp only
      generalize buildAll randint D mins maxes n g1' = r at hi
      generalize buildAll randint D (rescale a b mins) (rescale a b maxes) n g1' = r' at hi
      match r, r', hi with
      | .error e, .error e', hi => exact hi
      | .ok (ts, g2), .ok (ts', g2'), hi => exact ⟨hi.1, .cons ht hi.2⟩

/-- Two results that show the caller the same and leave related states. -/
def SameRes {σ σ' A : Type*} (P : σ → σ' → Prop) : Res σ A → Res σ' A → Prop
  | .ok a s, .ok a' t => a' = a ∧ P s t
  | .err e s, .err e' t => e' = e ∧ P s t
  | _, _ => False

theorem SameRes.mapState {σ σ' τ τ' A : Type*} {P : σ → σ' → Prop} {Q : τ → τ' → Prop} {f : σ → τ}
    {f' : σ' → τ'} {r : Res σ A} {r' : Res σ' A} (h : SameRes P r r')
    (hf : ∀ s t, P s t → Q (f s) (f' t)) : SameRes Q (r.mapState f) (r'.mapState f') := by
  match r, r', h with
  | .ok _ _, .ok _ _, h => exact ⟨h.1, hf _ _ h.2⟩
  | .err _ _, .err _ _, h => exact ⟨h.1, hf _ _ h.2⟩

theorem SameRes.bind {σ σ' A B : Type*} {P Q : σ → σ' → Prop} {r : Res σ A} {r' : Res σ' A}
    {k : A → σ → Res σ B} {k' : A → σ' → Res σ' B} (h : SameRes P r r')
    (hk : ∀ a s t, P s t → SameRes Q (k a s) (k' a t)) (he : ∀ s t, P s t → Q s t) :
    SameRes Q (r.bind k) (r'.bind k') := by
  match r, r', h with
  | .ok a _, .ok _ _, h => obtain ⟨rfl, h⟩ := h; exact hk _ _ _ h
  | .err _ _, .err _ _, h => exact ⟨h.1, he _ _ h.2⟩

theorem rescaled_lt {a b : ℕ → K} (ha : ∀ i, 0 < a i) (q : ℕ) (p v : K) :
    a q * p + b q < a q * v + b q ↔ p < v := by
  rw [add_lt_add_iff_right, mul_lt_mul_iff_right₀ (ha q)]

theorem updateMass_rescaled (D : ℕ) (a b : ℕ → K) (ha : ∀ i, 0 < a i) (x : List K) (ref : Bool) :
    ∀ t t' : HsTree K, Rescaled D a b t t' →
      SameRes (Rescaled D a b) (updateMass D x ref t) (updateMass D (rescale a b x) ref t') := by
  intro t
  induction t with
  | nil =>
    intro t' h
    cases t' with
    | nil => exact ⟨rfl, trivial⟩
    | node => exact h.elim
  | node l r rm lm q p k ihl ihr =>
    intro t' h
    cases t' with
    | nil => exact h.elim
    | node l' r' rm' lm' q' p' k' =>
      obtain ⟨rfl, rfl, rfl, rfl, hl, hr, hp⟩ := h
      unfold updateMass
      simp only
      by_cases hk : k' < D
      · have hp' : p' = a q' * p + b q' := by
          rcases hp with hp | hp
          · exact hp
          · exact absurd hk hp.1
        rw [if_pos hk, if_pos hk, rescale_getElem?]
        cases x[q']? with
        | none => exact ⟨rfl, rfl, rfl, rfl, rfl, hl, hr, hp⟩
        | some v =>
          simp only [Option.map_some]
          rw [hp']
          by_cases hv : p < v
          · rw [if_pos hv, if_pos ((rescaled_lt ha q' p v).2 hv)]
            exact (ihr r' hr).mapState fun s t h => ⟨rfl, rfl, rfl, rfl, hl, h, Or.inl rfl⟩
          · rw [if_neg hv, if_neg (fun h => hv ((rescaled_lt ha q' p v).1 h))]
            exact (ihl l' hl).mapState fun s t h => ⟨rfl, rfl, rfl, rfl, h, hr, Or.inl rfl⟩
      · rw [if_neg hk, if_neg hk]
        exact ⟨rfl, rfl, rfl, rfl, rfl, hl, hr, hp⟩

theorem fitRoots_rescaled (D : ℕ) (a b : ℕ → K) (ha : ∀ i, 0 < a i) (x : List K) (ref : Bool)
    {ts ts' : List (HsTree K)} (h : List.Forall₂ (Rescaled D a b) ts ts') :
    SameRes (List.Forall₂ (Rescaled D a b)) (fitRoots D x ref ts)
      (fitRoots D (rescale a b x) ref ts') := by
  induction h with
  | nil => exact ⟨rfl, .nil⟩
  | @cons t t' ts ts' ht hts ih =>
    have hu := updateMass_rescaled D a b ha x ref t t' ht
    unfold fitRoots
    generalize updateMass D x ref t = r at hu
    generalize updateMass D (rescale a b x) ref t' = r' at hu
    match r, r', hu with
    | .ok _ _, .ok _ _, hu => exact ih.mapState fun s t h => .cons hu.2 h
    | .err _ _, .err _ _, hu => exact ⟨hu.1, .cons hu.2 hts⟩

omit [LinearOrder K] [IsStrictOrderedRing K] in
theorem updateModel_rescaled (D : ℕ) (a b : ℕ → K) : ∀ t t' : HsTree K, Rescaled D a b t t' →
    Rescaled D a b (updateModel t) (updateModel t') := by
  intro t
  induction t with
  | nil =>
    intro t' h
    cases t' with
    | nil => trivial
    | node => exact h.elim
  | node l r rm lm q p k ihl ihr =>
    intro t' h
    cases t' with
    | nil => exact h.elim
    | node l' r' rm' lm' q' p' k' =>
      obtain ⟨rfl, rfl, rfl, rfl, hl, hr, hp⟩ := h
      refine ⟨rfl, rfl, rfl, rfl, ihl _ hl, ihr _ hr, ?_⟩
      rcases hp with hp | ⟨h1, rfl, rfl, rfl, rfl⟩
      · exact Or.inl hp
      · exact Or.inr ⟨h1, rfl, rfl, rfl, rfl⟩

theorem scoreTree_rescaled (D : ℕ) (a b : ℕ → K) (ha : ∀ i, 0 < a i) (x : List K) :
    ∀ t t' : HsTree K, Rescaled D a b t t' → scoreTree (rescale a b x) t' = scoreTree x t := by
  intro t
  induction t with
  | nil =>
    intro t' h
    cases t' with
    | nil => rfl
    | node => exact h.elim
  | node l r rm lm q p k ihl ihr =>
    intro t' h
    cases t' with
    | nil => exact h.elim
    | node l' r' rm' lm' q' p' k' =>
      obtain ⟨rfl, rfl, rfl, rfl, hl, hr, hp⟩ := h
      unfold scoreTree
      rw [rescale_getElem?]
      cases x[q']? with
      | none => rfl
      | some v =>
        simp only [Option.map_some]
        rw [ihl _ hl, ihr _ hr]
        rcases hp with rfl | ⟨h1, rfl, rfl, rfl, rfl⟩
        · simp only [rescaled_lt ha]
        · simp only [ite_self]

/-- The same detector in other units. -/
def StateRescaled (a b : ℕ → K) (s t : HstState K) : Prop :=
  t.windowSize = s.windowSize ∧ t.maxDepth = s.maxDepth ∧ t.isFirstWindow = s.isFirstWindow ∧
    t.step = s.step ∧ List.Forall₂ (Rescaled s.maxDepth a b) s.roots t.roots

theorem fitPartial_rescaled (a b : ℕ → K) (ha : ∀ i, 0 < a i) (x : List K) (s t : HstState K)
    (h : StateRescaled a b s t) :
    SameRes (StateRescaled a b) (fitPartial s x) (fitPartial t (rescale a b x)) := by
  obtain ⟨w, D, ts, fw, n⟩ := s
  obtain ⟨w', D', ts', fw', n'⟩ := t
  obtain ⟨h1, h2, h3, h4, h5⟩ := h
  simp only at h1 h2 h3 h4 h5
  subst h1 h2 h3 h4
  unfold fitPartial
  simp only
  refine SameRes.bind (P := fun s t => StateRescaled a b s t) ?_ ?_ (fun _ _ h => h)
  · exact (fitRoots_rescaled D' a b ha x fw' h5).mapState fun us us' h => ⟨rfl, rfl, rfl, rfl, h⟩
  · rintro - s t ⟨h1, h2, h3, h4, h5⟩
    rw [h1]
    split
    · exact ⟨rfl, h1, h2, h3, h4, h5⟩
    · rw [h4]
      split
      · refine ⟨rfl, rfl, h2, ?_, rfl, ?_⟩
        · have : t.roots.isEmpty = s.roots.isEmpty := by
            have := h5.length_eq
            rw [Bool.eq_iff_iff, List.isEmpty_iff_length_eq_zero, List.isEmpty_iff_length_eq_zero]
            omega
          simp only [this, h3]
        · simp only
          exact List.forall₂_map_left_iff.2 (List.forall₂_map_right_iff.2
            (h5.imp fun u u' h => updateModel_rescaled _ a b u u' h))
      · exact ⟨rfl, h1, h2, h3, h4, h5⟩

theorem scorePartial_rescaled (a b : ℕ → K) (ha : ∀ i, 0 < a i) (x : List K) (s t : HstState K)
    (h : StateRescaled a b s t) :
    SameRes (StateRescaled a b) (scorePartial s x) (scorePartial t (rescale a b x)) := by
  have hf : ∀ acc : K, t.roots.foldlM (fun acc t => (scoreTree (rescale a b x) t).map (acc + ·)) acc
      = s.roots.foldlM (fun acc t => (scoreTree x t).map (acc + ·)) acc := by
    generalize hs : s.roots = us
    generalize ht : t.roots = us'
    have h5 := h.2.2.2.2
    rw [hs, ht] at h5
    clear hs ht
    induction h5 with
    | nil => intro acc; rfl
    | @cons u u' us us' hu hus ih =>
      intro acc
      simp only [List.foldlM_cons, scoreTree_rescaled _ a b ha x u u' hu]
      cases scoreTree x u with
      | error e => rfl
      | ok v => exact ih _
  unfold scorePartial
  rw [hf]
  cases s.roots.foldlM (fun acc t => (scoreTree x t).map (acc + ·)) (0 : K) with
  | error e => exact ⟨rfl, h⟩
  | ok v => exact ⟨rfl, h⟩

end Hst

theorem call_of_sameRes {σ σ' α α' β S : Type*} {d : Detector σ α β S} {d' : Detector σ' α' β S}
    {R : σ → σ' → Prop} (f : α → α') (s : σ) (t : σ')
    (hfit : ∀ x y, Hst.SameRes R (d.fitPartial s x y) (d'.fitPartial t (f x) y))
    (hscore : ∀ x, Hst.SameRes R (d.scorePartial s x) (d'.scorePartial t (f x))) (c : Call α β) :
    (call d' t (Call.on f c)).1 = (call d s c).1 ∧ R (call d s c).2 (call d' t (Call.on f c)).2 := by
  cases c with
  | fit x y =>
    have h := hfit x y
    simp only [call, Call.on]
    generalize d.fitPartial s x y = r at h
    generalize d'.fitPartial t (f x) y = r' at h
    match r, r', h with
    | .ok _ _, .ok _ _, h => exact ⟨rfl, h.2⟩
    | .err _ _, .err _ _, h => exact ⟨by rw [h.1], h.2⟩
  | score x =>
    have h := hscore x
    simp only [call, Call.on]
    generalize d.scorePartial s x = r at h
    generalize d'.scorePartial t (f x) = r' at h
    match r, r', h with
    | .ok _ _, .ok _ _, h => exact ⟨by rw [h.1], h.2⟩
    | .err _ _, .err _ _, h => exact ⟨by rw [h.1], h.2⟩

/-- **C105.** HalfSpaceTrees: with the same random draws, the bounds of the features and all
instances in other units (each feature multiplied by its own positive factor, and shifted), the
constructor succeeds alike, and every call of every history is answered alike. -/
theorem C105_hst_units {G : Type*} (randint : G → ℕ → ℕ × G) (a b : ℕ → K) (ha : ∀ i, 0 < a i)
    (mins maxes : List K) (w n D : ℕ) (g : G) :
    (∀ e, Hst.new randint mins maxes w n D g = .error e →
      Hst.new randint (rescale a b mins) (rescale a b maxes) w n D g = .error e) ∧
    ∀ s0, Hst.new randint mins maxes w n D g = .ok s0 →
      ∃ t0, Hst.new randint (rescale a b mins) (rescale a b maxes) w n D g = .ok t0 ∧
        ∀ cs : List (Call (List K) β),
          (calls (Hst.detector K β) t0 (cs.map (Call.on (rescale a b)))).1 =
            (calls (Hst.detector K β) s0 cs).1 := by
  have hb := Hst.buildAll_rescaled randint D a b two_ne_zero mins maxes n g
  unfold Hst.new
  generalize Hst.buildAll randint D mins maxes n g = r at hb
  generalize Hst.buildAll randint D (rescale a b mins) (rescale a b maxes) n g = r' at hb
  match r, r', hb with
  | .error e, .error e', hb =>
    obtain rfl : e' = e := hb
    exact ⟨fun e h => h, fun s h => by simp at h⟩
  | .ok (ts, g1), .ok (ts', g1'), hb =>
    refine ⟨fun e h => by simp at h, ?_⟩
    rintro s0 h
    simp only [Except.ok.injEq] at h
    subst h
    refine ⟨_, rfl, fun cs => ?_⟩
    refine answers_of_sim (rescale a b) (Hst.StateRescaled a b) ?_ (⟨w, D, ts, true, 0⟩ : HstState K)
      ⟨w, D, ts', true, 0⟩ ⟨rfl, rfl, rfl, rfl, hb.2⟩ cs
    intro s t c hR
    exact call_of_sameRes (rescale a b) s t (fun x y => Hst.fitPartial_rescaled a b ha x s t hR)
      (fun x => Hst.scorePartial_rescaled a b ha x s t hR) c

end

/-- Two features, the first in another unit: degrees Fahrenheit for degrees Celsius. -/
example : ∃ s0 : HstState ℚ, Hst.new (fun (g : Unit) _ => (0, g)) [0, 0] [100, 1] 2 1 1 () = .ok s0 ∧
    rescale (fun i => if i = 0 then 9 / 5 else 1) (fun i => if i = 0 then 32 else 0) [(20 : ℚ), 7] =
      [68, 7] ∧
    (calls (Hst.detector ℚ Unit) s0 [.fit [20, 0] none, .fit [30, 1] none, .score [70, 0],
      .score [40, 0]]).1 = [.done, .done, .value (-2), .value (-6)] :=
  ⟨_, rfl, by decide +kernel, by decide +kernel⟩

/-! ### `RelativeEntropy` -/

section
variable {β K : Type*} [Field K] [LinearOrder K] [IsStrictOrderedRing K] [FloorRing K]

omit [IsStrictOrderedRing K] [FloorRing K] in
theorem current_map (W : ℕ) (f : K → K) (l : List K) :
    RelEnt.current W (l.map f) = (RelEnt.current W l).map f := by
  unfold RelEnt.current
  split
  · rfl
  · simp [List.map_drop]

theorem quantize_rescaled (a b lo step c : K) (ha : 0 < a) :
    RelEnt.quantize (a * lo + b) (a * step) (a * c + b) = RelEnt.quantize lo step c := by
  unfold RelEnt.quantize
  by_cases h : step = 0
  · simp [h]
  · rw [if_neg h, if_neg (mul_ne_zero ha.ne' h)]
    congr 2
    rw [show a * c + b - (a * lo + b) = a * (c - lo) by ring, mul_div_mul_left _ _ ha.ne']

/-- The same detector in another unit. -/
def RelEntRescaled (a b : K) (s t : RelEntState K) : Prop :=
  t = { s with minVal := a * s.minVal + b, maxVal := a * s.maxVal + b, stepSize := a * s.stepSize,
               util := s.util.map fun v => a * v + b }

theorem relEnt_fit_rescaled (a b : K) (ha : 0 < a) (s t : RelEntState K)
    (h : RelEntRescaled a b s t) (x : K) :
    Hst.SameRes (RelEntRescaled a b) (RelEnt.fitPartial s x) (RelEnt.fitPartial t (a * x + b)) := by
  unfold RelEntRescaled at h
  subst h
  have hq : ∀ l : List K, (l.map fun v => a * v + b).mapM
      (RelEnt.quantize (a * s.minVal + b) (a * s.stepSize)) =
        l.mapM (RelEnt.quantize s.minVal s.stepSize) := by
    intro l
    induction l with
    | nil => rfl
    | cons v l ih => simp only [List.map_cons, List.mapM_cons, quantize_rescaled a b _ _ v ha, ih]
  have hu : (s.util.map fun v => a * v + b) ++ [a * x + b] =
      (s.util ++ [x]).map fun v => a * v + b := by simp
  unfold RelEnt.fitPartial
  simp only [hu, current_map, hq, List.length_map]
  split
  · cases (RelEnt.current s.W (s.util ++ [x])).mapM (RelEnt.quantize s.minVal s.stepSize) with
    | error e => exact ⟨rfl, rfl⟩
    | ok bs =>
      simp only
      split
      · exact ⟨rfl, rfl⟩
      · exact ⟨rfl, rfl⟩
  · exact ⟨rfl, rfl⟩

/-- **C105.** RelativeEntropy: with the bounds and all values in another unit, every call of every
history is answered alike. -/
theorem C105_relent_units (entropy : List (Num K) → List (Num K) → Num K) (isf : ℤ → Num K)
    (a b : K) (ha : 0 < a) (lo hi : K) (n W : ℕ) (hn : 1 ≤ n) :
    ∃ s0 t0, RelEnt.new isf lo hi n W = .ok s0 ∧
      RelEnt.new isf (a * lo + b) (a * hi + b) n W = .ok t0 ∧
      ∀ cs : List (Call K β),
        (calls (RelEnt.detector entropy) t0 (cs.map (Call.on fun v => a * v + b))).1 =
          (calls (RelEnt.detector entropy) s0 cs).1 := by
  have h0 : n ≠ 0 := by omega
  refine ⟨_, _, by unfold RelEnt.new; rw [if_neg h0], by unfold RelEnt.new; rw [if_neg h0], ?_⟩
  intro cs
  refine answers_of_sim _ (RelEntRescaled a b) ?_ _ _ ?_ cs
  · intro s t c hR
    refine call_of_sameRes _ s t (fun x y => relEnt_fit_rescaled a b ha s t hR x) (fun x => ?_) c
    obtain ⟨mn, mx, u, n, W, T, m, st, P, c, pHat⟩ := s
    have hR' := hR
    unfold RelEntRescaled at hR'
    subst hR'
    simp only [RelEnt.detector, RelEnt.scorePartial, List.length_map]
    split
    · cases pHat with
      | none => exact ⟨rfl, rfl⟩
      | some h =>
        simp only
        have hag : ∀ u' mn' mx' st', RelEnt.agreement entropy
            (⟨mn', mx', u', n, W, T, m, st', P, c, some h⟩ : RelEntState K) h =
            RelEnt.agreement entropy ⟨mn, mx, u, n, W, T, m, st, P, c, some h⟩ h :=
          fun _ _ _ _ => rfl
        rw [hag (u.map fun v => a * v + b) (a * mn + b) (a * mx + b) (a * st)]
        cases RelEnt.agreement entropy ⟨mn, mx, u, n, W, T, m, st, P, c, some h⟩ h with
        | ok v => exact ⟨rfl, rfl⟩
        | error e => exact ⟨rfl, rfl⟩
    · exact ⟨rfl, rfl⟩
  · unfold RelEntRescaled
    simp only [List.map_nil]
    congr 1
    rw [show a * hi + b - (a * lo + b) = a * (hi - lo) by ring, mul_div_assoc]

end

/-! ### The deviation detectors -/

section
variable {β K : Type*} [Field K] [LinearOrder K] [IsStrictOrderedRing K]

theorem medianOf_shift (b : K) (m : Multiset K) :
    medianOf (m.map fun v => v + b) = (medianOf m).map fun v => v + b := by
  unfold medianOf
  have hs : (m.map fun v => v + b).sort (· ≤ ·) = (m.sort (· ≤ ·)).map fun v => v + b :=
    (Multiset.map_sort (s := m) (f := fun v => v + b) (r := (· ≤ ·)) (r' := (· ≤ ·))
      (by intro x _ y _; simp)).symm
  simp only [hs, List.length_map, List.getElem?_map]
  split
  · rfl
  · cases (m.sort (· ≤ ·))[(m.sort (· ≤ ·)).length / 2 - 1]? with
    | none => rfl
    | some u =>
      cases (m.sort (· ≤ ·))[(m.sort (· ≤ ·)).length / 2]? with
      | none => rfl
      | some v => simp only [Option.map_some]; congr 1; ring

omit [IsStrictOrderedRing K] [LinearOrder K] in
theorem univariate_map (f : K → K) (X : List (List K)) :
    univariate (X.map (List.map f)) = (univariate X).map f := by
  induction X with
  | nil => rfl
  | cons x X ih =>
    match x with
    | [] => simpa [univariate] using ih
    | [v] => simpa [univariate] using ih
    | _ :: _ :: _ => simpa [univariate] using ih

theorem runningDeviations_shift {xs ds : List K} (b : K)
    (h : RunningDeviations xs ds) : RunningDeviations (xs.map fun v => v + b) ds := by
  refine ⟨by simpa using h.1, fun i x hx => ?_⟩
  rw [List.getElem?_map] at hx
  obtain ⟨v, hv, rfl⟩ := Option.map_eq_some_iff.1 hx
  obtain ⟨m, h1, h2⟩ := h.2 i v hv
  refine ⟨m + b, ?_, by rw [h2]; congr 2; ring⟩
  rw [← List.map_take, ← Multiset.map_coe, medianOf_shift, h1]
  rfl

/-- **C105 (full statement for MedianAbsoluteDeviation, false).** Values in another unit give the
same scores. -/
def C105_mad_statement : Prop :=
  ∀ (absolute : Bool) (k a b : ℚ), 0 ≤ k → 0 < a → ∀ cs : List (Call (List ℚ) Unit),
    (calls medianAbsoluteDeviation (MadState.new absolute k)
        (cs.map (Call.on (List.map fun v => a * v + b)))).1 =
      (calls medianAbsoluteDeviation (MadState.new absolute k) cs).1

/-- **C105 is false of MedianAbsoluteDeviation**: it adds `1e-10` to the deviation whatever the
unit. -/
theorem C105_mad_refuted : ¬ C105_mad_statement := by
  intro h
  have := h true 1 2 0 (by norm_num) (by norm_num) [.fit [0] none, .fit [2] none, .fit [4] none,
    .score [10]]
  revert this
  decide +kernel

/-- **C105, partial: shifts.** The scores of MedianAbsoluteDeviation after any history do not
change if a constant is added to all values. -/
theorem C105_mad_shift_partial (k : K) (hk : 0 ≤ k) (absolute : Bool) (b : K)
    (cs : List (Call (List K) β)) (X : List K) :
    let d := medianAbsoluteDeviation (β := β) (K := K)
    let shift := List.map fun v : K => v + b
    (d.scorePartial (calls d (MadState.new absolute k) (cs.map (Call.on shift))).2 (shift X)).out =
      (d.scorePartial (calls d (MadState.new absolute k) cs).2 X).out := by
  intro d shift
  have hu : univariate (fitted (cs.map (Call.on shift))) =
      (univariate (fitted cs)).map fun v => v + b := by rw [fitted_on, univariate_map]
  by_cases he : univariate (fitted cs) = []
  · rw [C67_mad_unfitted k absolute cs he, C67_mad_unfitted k absolute _ (by rw [hu, he]; rfl)]
  · have he' : univariate (fitted (cs.map (Call.on shift))) ≠ [] := by rw [hu]; simpa using he
    obtain ⟨m, ds, mad, h1, h2, h3, h4⟩ := C67_mad_score k hk absolute cs he X
    obtain ⟨m', ds', mad', h1', h2', h3', h4'⟩ := C67_mad_score k hk absolute _ he' (shift X)
    rw [hu, ← Multiset.map_coe, medianOf_shift, h1] at h1'
    obtain rfl : m + b = m' := Option.some.inj h1'
    rw [hu] at h2'
    obtain rfl : ds = ds' := runningDeviations_unique (runningDeviations_shift b h2) h2'
    obtain rfl : mad = mad' := Option.some.inj (h3.symm.trans h3')
    rw [h4, h4']
    simp only [shift, List.map_map, Function.comp_def]
    congr 1
    apply List.map_congr_left
    intro x _
    rw [show x + b - (m + b) = x - m by ring]

end

section
variable {β : Type*}

/-- **C105, partial: shifts.** The same of StandardAbsoluteDeviation, with the mean ... -/
theorem C105_sad_mean_shift_partial (absolute : Bool) (b : ℝ) (cs : List (Call (List ℝ) β))
    (X : List ℝ) :
    let d := standardAbsoluteDeviation (β := β) Real.sqrt (averageMeter ℝ)
    let shift := List.map fun v : ℝ => v + b
    (d.scorePartial (calls d (SadState.new (averageMeter ℝ) absolute)
      (cs.map (Call.on shift))).2 (shift X)).out =
      (d.scorePartial (calls d (SadState.new (averageMeter ℝ) absolute) cs).2 X).out := by
  intro d shift
  have hu : univariate (fitted (cs.map (Call.on shift))) =
      (univariate (fitted cs)).map fun v => 1 * v + b := by
    rw [fitted_on, univariate_map]; simp
  by_cases he : univariate (fitted cs) = []
  · rw [C68_sad_mean_unfitted absolute cs he,
      C68_sad_mean_unfitted absolute _ (by rw [hu, he]; rfl)]
  · have he' : univariate (fitted (cs.map (Call.on shift))) ≠ [] := by rw [hu]; simpa using he
    have hne : ((univariate (fitted cs) : List ℝ) : Multiset ℝ) ≠ 0 := by simpa using he
    rw [C68_sad_mean absolute cs he X, C68_sad_mean absolute _ he' (shift X), hu,
      ← Multiset.map_coe, meanOf_affine hne, varianceOf_affine hne]
    simp only [shift, List.map_map, Function.comp_def]
    congr 1
    apply List.map_congr_left
    intro x _
    rw [show x + b - (1 * meanOf (K := ℝ) (univariate (fitted cs)) + b) =
      x - meanOf (K := ℝ) (univariate (fitted cs)) by ring, one_pow, one_mul]

/-- ... and with the median. -/
theorem C105_sad_median_shift_partial (absolute : Bool) (b : ℝ) (cs : List (Call (List ℝ) β))
    (X : List ℝ) :
    let d := standardAbsoluteDeviation (β := β) Real.sqrt (medianMeter ℝ)
    let shift := List.map fun v : ℝ => v + b
    (d.scorePartial (calls d (SadState.new (medianMeter ℝ) absolute)
      (cs.map (Call.on shift))).2 (shift X)).out =
      (d.scorePartial (calls d (SadState.new (medianMeter ℝ) absolute) cs).2 X).out := by
  intro d shift
  have hu : univariate (fitted (cs.map (Call.on shift))) =
      (univariate (fitted cs)).map fun v => v + b := by
    rw [fitted_on, univariate_map]
  by_cases he : univariate (fitted cs) = []
  · rw [C68_sad_median_unfitted absolute cs he,
      C68_sad_median_unfitted absolute _ (by rw [hu, he]; rfl)]
  · have he' : univariate (fitted (cs.map (Call.on shift))) ≠ [] := by rw [hu]; simpa using he
    have hne : ((univariate (fitted cs) : List ℝ) : Multiset ℝ) ≠ 0 := by simpa using he
    obtain ⟨m, h1, h2⟩ := C68_sad_median absolute cs he X
    obtain ⟨m', h1', h2'⟩ := C68_sad_median absolute _ he' (shift X)
    rw [hu, ← Multiset.map_coe, medianOf_shift, h1] at h1'
    obtain rfl : m + b = m' := Option.some.inj h1'
    have hv : varianceOf (K := ℝ) ((univariate (fitted cs)).map fun v => v + b) =
        varianceOf (K := ℝ) (univariate (fitted cs)) := by
      have := varianceOf_affine hne 1 b
      simpa using this
    rw [h2, h2', hu, hv]
    simp only [shift, List.map_map, Function.comp_def]
    congr 1
    apply List.map_congr_left
    intro x _
    rw [show x + b - (m + b) = x - m by ring]

/-- **C105 is false of StandardAbsoluteDeviation**, for the same reason: after 0 and 0, instance 1
scores `1e10`, in half the unit `2e10`. -/
theorem C105_sad_refuted : ¬ ∀ (absolute : Bool) (a b : ℝ), 0 < a →
    ∀ (cs : List (Call (List ℝ) Unit)) (X : List ℝ),
    let d := standardAbsoluteDeviation (β := Unit) Real.sqrt (averageMeter ℝ)
    let unit := List.map fun v : ℝ => a * v + b
    (d.scorePartial (calls d (SadState.new (averageMeter ℝ) absolute)
      (cs.map (Call.on unit))).2 (unit X)).out =
      (d.scorePartial (calls d (SadState.new (averageMeter ℝ) absolute) cs).2 X).out := by
  intro h
  have h1 := h false 2 0 (by norm_num) [.fit [0] none] [1]
  simp only at h1
  rw [C68_sad_mean false _ (by simp [fitted, univariate, Call.on]),
    C68_sad_mean false _ (by simp [fitted, univariate])] at h1
  simp [fitted, univariate, Call.on, meanOf, varianceOf] at h1

end

/-! ### `RSHash` -/

section
variable {G K : Type*} [Field K] [LinearOrder K] [IsStrictOrderedRing K] [FloorRing K] {dim : ℕ}

theorem rshash_init_congr (pow2 log sqrt : K → K) (rnd : RsRandom G K dim)
    (bounds bounds' : RsBounds K dim) (h : RsHash.choiceFeats bounds' = RsHash.choiceFeats bounds)
    (sp : ℕ) (decay : K) (m nh : ℕ) (g : G) :
    RsHash.init pow2 log sqrt rnd bounds' sp decay m nh g =
      RsHash.init pow2 log sqrt rnd bounds sp decay m nh g := by
  have hd : ∀ S f g, RsHash.sampleDim log rnd S bounds' f g = RsHash.sampleDim log rnd S bounds f g := by
    intro S f g
    simp only [RsHash.sampleDim, h]
  have hs : ∀ S fs g, RsHash.sampleDims log rnd S bounds' fs g =
      RsHash.sampleDims log rnd S bounds fs g := by
    intro S fs
    induction fs with
    | nil => intro g; rfl
    | cons f fs ih => intro g; simp only [RsHash.sampleDims, hd, ih]
  simp only [RsHash.init, hs]

/-- **C105, partial: the bounds of RSHash.** The bounds given to the constructor do not scale
anything: all that matters is which of them are equal. -/
theorem C105_rshash_bounds_partial (pow2 log sqrt : K → K) (rnd : RsRandom G K dim)
    (mins maxs mins' maxs' : Fin dim → K) (h : ∀ i, mins' i = maxs' i ↔ mins i = maxs i)
    (sp : ℕ) (decay : K) (m nh : ℕ) (g : G) :
    RsHash.init pow2 log sqrt rnd (.arrays mins' maxs') sp decay m nh g =
      RsHash.init pow2 log sqrt rnd (.arrays mins maxs) sp decay m nh g := by
  apply rshash_init_congr
  simp only [RsHash.choiceFeats, ne_eq, h]

end

/-- **C105 (full statement for RSHash, false).** With the same random draws, the bounds of the
features and all instances in other units, every call of every history is answered alike. -/
def C105_rshash_statement : Prop :=
  ∀ (G : Type) (dim : ℕ) (rnd : RsRandom G ℝ dim) (mins maxs a b : Fin dim → ℝ) (sp : ℕ) (decay : ℝ)
    (m nh : ℕ) (g : G) (s0 t0 : RsHashState ℝ dim) (cs : List (Call (Fin dim → ℝ) Unit)),
    (∀ i, 0 < a i) →
    (RsHash.init realPow2 Real.log Real.sqrt rnd (.arrays mins maxs) sp decay m nh g).1 = .ok s0 →
    (RsHash.init realPow2 Real.log Real.sqrt rnd (.arrays (fun i => a i * mins i + b i)
      (fun i => a i * maxs i + b i)) sp decay m nh g).1 = .ok t0 →
    (calls (RsHash.detector realPow2 Real.log) t0
        (cs.map (Call.on fun x i => a i * x i + b i))).1 =
      (calls (RsHash.detector realPow2 Real.log) s0 cs).1

/-- **C105 is false of RSHash**, whatever the random draws: the cells have the same width in every
unit. One component on one feature; two instances in one cell are in different ones when measured
in half the unit. -/
theorem C105_rshash_refuted : ¬ C105_rshash_statement := by
  intro h
  obtain ⟨comps, g', hi, hl, hs, -⟩ := C94_rshash_init (leastDraws 1) le_rfl
    (.arrays (fun _ => 0) fun _ => 1) 1 1 one_ne_zero 1 1 ()
  have hi' := C105_rshash_bounds_partial realPow2 Real.log Real.sqrt (leastDraws 1) (fun _ => 0)
    (fun _ => 1) (fun _ => 2 * 0 + 0) (fun _ => 2 * 1 + 0) (by norm_num) 1 1 1 1 ()
  rw [hi] at hi'
  obtain ⟨c, rfl⟩ := List.length_eq_one_iff.1 hl
  have hc := hs c (by simp)
  obtain ⟨p, hp⟩ := List.exists_mem_of_ne_nil _ hc.dims_ne
  have hone : c.dims = [p] := by
    have h1 : (c.dims.map Prod.fst).length ≤ 1 := by
      have := hc.dims_nodup.length_le_card
      simpa using this
    rw [List.length_map] at h1
    match hd : c.dims, h1, hp with
    | [q], _, hp =>
      rw [List.mem_singleton.1 hp]
  obtain ⟨hp0, hp1⟩ := hc.shifts p hp
  have hf := hc.width_pos
  let x : Fin 1 → ℝ := fun _ => 0
  let z : Fin 1 → ℝ := fun _ => (c.f - p.2) / 2
  let cs : List (Call (Fin 1 → ℝ) Unit) := [.fit x none, .fit z none, .score z]
  have key := h Unit 1 (leastDraws 1) (fun _ => 0) (fun _ => 1) (fun _ => 2) (fun _ => 0) 1 1 1 1 ()
    _ _ cs (by norm_num) (by rw [hi]) (by rw [hi'])
  have score : ∀ u v : Fin 1 → ℝ, (calls (RsHash.detector (β := Unit) realPow2 Real.log)
      (RsHash.new [c] 1 1 1) [.fit u none, .fit v none, .score v]).1.getLast? =
      some (.value (some (rsScore realPow2 Real.log 1 [c] [u] v))) := by
    intro u v
    have := C72_rshash_score (β := Unit) [c] (by simp) 1 1 1 le_rfl [.fit u none, .fit v none] [u] v v
      rfl
    rw [show ([.fit u none, .fit v none, .score v] : List (Call (Fin 1 → ℝ) Unit)) =
      [.fit u none, .fit v none] ++ [.score v] from rfl, calls_append]
    simp only [List.getLast?_append, calls, call] at this ⊢
    rw [this]
    rfl
  have k1 := congrArg List.getLast? key
  rw [score x z] at k1
  rw [show cs.map (Call.on fun x i => (2 : ℝ) * x i + 0) = [.fit (fun i => 2 * x i + 0) none,
    .fit (fun i => 2 * z i + 0) none, .score fun i => 2 * z i + 0] from rfl, score] at k1
  simp only [Option.some.injEq, Answer.value.injEq] at k1
  have c1 : SameCell c x z := by
    intro q hq
    rw [hone, List.mem_singleton] at hq
    subst hq
    rw [Int.floor_eq_zero_iff.2, Int.floor_eq_zero_iff.2]
    · simp only [z, Set.mem_Ico]
      constructor
      · apply div_nonneg _ hf.le; linarith
      · rw [div_lt_one hf]; linarith
    · simp only [x, Set.mem_Ico]
      constructor
      · apply div_nonneg _ hf.le; linarith
      · rw [div_lt_one hf]; linarith
  have c2 : ¬ SameCell c (fun i => 2 * x i + 0) (fun i => 2 * z i + 0) := by
    intro hsame
    have := hsame p hp
    simp only [x, z] at this
    rw [show (2 * 0 + 0 + p.2) / c.f = p.2 / c.f by ring_nf,
      show (2 * ((c.f - p.2) / 2) + 0 + p.2) / c.f = 1 by field_simp; ring,
      Int.floor_eq_zero_iff.2 ⟨div_nonneg hp0 hf.le, (div_lt_one hf).2 hp1⟩] at this
    simp at this
  simp only [rsScore, decayedCount, List.map_cons, List.map_nil, List.zipIdx_cons, List.zipIdx_nil,
    List.filter_cons, List.filter_nil, c1, c2, decide_true, decide_false, if_true] at k1
  simp at k1
  have hpos : (0 : ℝ) < realPow2 (-1) := Real.rpow_pos_of_pos (by norm_num) _
  have := Real.log_pos (x := 1 + realPow2 (-1)) (by linarith)
  linarith

/-! ### C106 -/

section
variable {β : Type*}

/-- **C106.** StandardAbsoluteDeviation with the mean: histories that fitted the same values, in
any order, give the same scores ... -/
theorem C106_sad_mean_order (absolute : Bool) (cs cs' : List (Call (List ℝ) β))
    (h : (univariate (fitted cs)).Perm (univariate (fitted cs'))) (X : List ℝ) :
    let d := standardAbsoluteDeviation (β := β) Real.sqrt (averageMeter ℝ)
    (d.scorePartial (calls d (SadState.new (averageMeter ℝ) absolute) cs).2 X).out =
      (d.scorePartial (calls d (SadState.new (averageMeter ℝ) absolute) cs').2 X).out := by
  intro d
  by_cases he : univariate (fitted cs) = []
  · rw [C68_sad_mean_unfitted absolute cs he, C68_sad_mean_unfitted absolute cs'
      (by rw [he] at h; exact h.symm.eq_nil)]
  · have he' : univariate (fitted cs') ≠ [] := fun h' => he (by rw [h'] at h; exact h.eq_nil)
    rw [C68_sad_mean absolute cs he X, C68_sad_mean absolute cs' he' X, Multiset.coe_eq_coe.2 h]

/-- ... and with the median. -/
theorem C106_sad_median_order (absolute : Bool) (cs cs' : List (Call (List ℝ) β))
    (h : (univariate (fitted cs)).Perm (univariate (fitted cs'))) (X : List ℝ) :
    let d := standardAbsoluteDeviation (β := β) Real.sqrt (medianMeter ℝ)
    (d.scorePartial (calls d (SadState.new (medianMeter ℝ) absolute) cs).2 X).out =
      (d.scorePartial (calls d (SadState.new (medianMeter ℝ) absolute) cs').2 X).out := by
  intro d
  by_cases he : univariate (fitted cs) = []
  · rw [C68_sad_median_unfitted absolute cs he, C68_sad_median_unfitted absolute cs'
      (by rw [he] at h; exact h.symm.eq_nil)]
  · have he' : univariate (fitted cs') ≠ [] := fun h' => he (by rw [h'] at h; exact h.eq_nil)
    obtain ⟨m, h1, h2⟩ := C68_sad_median absolute cs he X
    obtain ⟨m', h1', h2'⟩ := C68_sad_median absolute cs' he' X
    rw [Multiset.coe_eq_coe.2 h] at h1
    obtain rfl : m = m' := Option.some.inj (h1.symm.trans h1')
    rw [h2, h2', Multiset.coe_eq_coe.2 h]

end

/-- **C106 (full statement for MedianAbsoluteDeviation, false).** Histories that fitted the same
values, in any order, give the same scores. -/
def C106_mad_statement : Prop :=
  ∀ (absolute : Bool) (k : ℚ), 0 ≤ k → ∀ (cs cs' : List (Call (List ℚ) Unit)) (X : List ℚ),
    (univariate (fitted cs)).Perm (univariate (fitted cs')) →
    ((medianAbsoluteDeviation (β := Unit)).scorePartial
      (calls (medianAbsoluteDeviation (β := Unit)) (MadState.new absolute k) cs).2 X).out =
    ((medianAbsoluteDeviation (β := Unit)).scorePartial
      (calls (medianAbsoluteDeviation (β := Unit)) (MadState.new absolute k) cs').2 X).out

/-- **C106 is false of MedianAbsoluteDeviation**: a value's deviation is taken from the median at
the time it arrives. Values 0, 2, 4 have deviations 0, 1, 2; in
the order 0, 4, 2 they are 0, 2, 0. -/
theorem C106_mad_refuted : ¬ C106_mad_statement := by
  intro h
  have := h true 1 (by norm_num) [.fit [0] none, .fit [2] none, .fit [4] none]
    [.fit [0] none, .fit [4] none, .fit [2] none] [10] (by decide +kernel)
  revert this
  decide +kernel

/-- **C106, partial for MedianAbsoluteDeviation**: the order only changes the scores of all
instances by one positive factor. -/
theorem C106_mad_order_partial {β K : Type*} [Field K] [LinearOrder K] [IsStrictOrderedRing K]
    (absolute : Bool) (k : K) (hk : 0 ≤ k) (cs cs' : List (Call (List K) β))
    (hne : univariate (fitted cs) ≠ []) (h : (univariate (fitted cs)).Perm (univariate (fitted cs'))) :
    ∃ c > 0, ∀ X : List K, ∃ vs : List K,
      ((medianAbsoluteDeviation (β := β)).scorePartial
        (calls (medianAbsoluteDeviation (β := β)) (MadState.new absolute k) cs).2 X).out =
          .ok (vs.map .fin) ∧
      ((medianAbsoluteDeviation (β := β)).scorePartial
        (calls (medianAbsoluteDeviation (β := β)) (MadState.new absolute k) cs').2 X).out =
          .ok (vs.map fun v => .fin (c * v)) := by
  have hne' : univariate (fitted cs') ≠ [] := fun h' => hne (by rw [h'] at h; exact h.eq_nil)
  obtain ⟨m, ds, mad, h1, h2, h3, -⟩ := C67_mad_score k hk absolute cs hne []
  obtain ⟨m', ds', mad', h1', h2', h3', -⟩ := C67_mad_score k hk absolute cs' hne' []
  have pos : ∀ (xs ds : List K) (mad : K), RunningDeviations xs ds → medianOf (ds : Multiset K) = some mad →
      0 < k * mad + 1 / 10 ^ 10 := by
    intro xs ds mad h2 h3
    have : 0 ≤ mad := by
      refine medianOf_nonneg h3 fun y hy => ?_
      obtain ⟨i, hi, rfl⟩ := List.mem_iff_getElem.1 (show y ∈ ds by simpa using hy)
      have hi' : i < xs.length := h2.1 ▸ hi
      obtain ⟨q, -, h⟩ := h2.2 i _ (List.getElem?_eq_getElem hi')
      rw [List.getElem?_eq_getElem hi] at h
      rw [Option.some.inj h]
      exact abs_nonneg _
    positivity
  have p1 := pos _ _ _ h2 h3
  have p2 := pos _ _ _ h2' h3'
  refine ⟨(k * mad + 1 / 10 ^ 10) / (k * mad' + 1 / 10 ^ 10), div_pos p1 p2, fun X => ?_⟩
  obtain ⟨n, es, nad, e1, e2, e3, e4⟩ := C67_mad_score k hk absolute cs hne X
  obtain ⟨n', es', nad', e1', e2', e3', e4'⟩ := C67_mad_score k hk absolute cs' hne' X
  obtain rfl : m = n := Option.some.inj (h1.symm.trans e1)
  obtain rfl : ds = es := runningDeviations_unique h2 e2
  obtain rfl : mad = nad := Option.some.inj (h3.symm.trans e3)
  rw [← Multiset.coe_eq_coe.2 h] at h1' e1'
  obtain rfl : m = n' := Option.some.inj (h1.symm.trans e1')
  obtain rfl : ds' = es' := runningDeviations_unique h2' e2'
  obtain rfl : mad' = nad' := Option.some.inj (h3'.symm.trans e3')
  refine ⟨X.map fun x => if absolute then |(x - m) / (k * mad + 1 / 10 ^ 10)|
    else (x - m) / (k * mad + 1 / 10 ^ 10), by rw [e4, List.map_map]; rfl, ?_⟩
  rw [e4', List.map_map]
  congr 1
  apply List.map_congr_left
  intro x _
  simp only [Function.comp]
  congr 1
  have e : (x - m) / (k * mad' + 1 / 10 ^ 10) = (k * mad + 1 / 10 ^ 10) / (k * mad' + 1 / 10 ^ 10) *
      ((x - m) / (k * mad + 1 / 10 ^ 10)) := by
    rw [div_mul_div_comm, mul_comm (k * mad + 1 / 10 ^ 10), mul_div_mul_right _ _ p1.ne']
  cases absolute
  · simpa using e
  · simp only [if_true]
    rw [e, abs_mul, abs_of_pos (div_pos p1 p2)]

end Pysad
