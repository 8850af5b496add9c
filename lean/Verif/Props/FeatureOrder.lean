import Verif.Props.Units
import Verif.Props.XStream
import Verif.Props.ProjectionAverage
import Verif.Props.LodaProjections
import Verif.Props.Scalers
import Mathlib.Algebra.BigOperators.Fin
import Mathlib.Logic.Equiv.Fin.Basic

/-! Property C142: the order of the features does not matter. -/

namespace Pysad

open Spec

/-- The instance with its features in another order: feature `i` is the old feature `σ i`. -/
def Spec.reorder {K : Type*} {n : ℕ} (σ : Equiv.Perm (Fin n)) (v : Fin n → K) : Fin n → K := v ∘ σ

/-- The new position of a feature (numbers that are no features stay). -/
def Spec.newPosition {n : ℕ} (σ : Equiv.Perm (Fin n)) (q : ℕ) : ℕ :=
  if h : q < n then σ.symm ⟨q, h⟩ else q

/-! ### `ExactStorm` -/

/-- The Euclidean distance of two vectors. -/
noncomputable def Spec.euclid {n : ℕ} (x z : Fin n → ℝ) : ℝ := Real.sqrt (∑ i, (x i - z i) ^ 2)

/-- **C142.** ExactStorm: every call of every history is answered as with the features in the given
order. -/
theorem C142_storm_order {β : Type*} {n : ℕ} (σ : Equiv.Perm (Fin n)) (w : ℕ) (r : ℝ)
    (cs : List (Call (Fin n → ℝ) β)) :
    (calls (exactStorm euclid) (StormState.new w r) (cs.map (Call.on (reorder σ)))).1 =
      (calls (exactStorm euclid) (StormState.new w r) cs).1 := by
  refine C105_storm_units euclid euclid (reorder σ) w r r (fun x z => ?_) cs
  unfold euclid reorder
  rw [← Equiv.sum_comp σ (fun i => (x i - z i) ^ 2)]
  rfl

/-! ### `InstanceUnitNormScaler`, `InstanceStandardScaler` -/

theorem npNorm_reorder {n : ℕ} (σ : Equiv.Perm (Fin n)) (o : NormOrd) (x : Fin n → ℝ) :
    npNorm o (reorder σ x) = npNorm o x := by
  have hs : ∀ f : ℝ → ℝ, ∑ i, f (reorder σ x i) = ∑ i, f (x i) := fun f => Equiv.sum_comp σ fun i => f (x i)
  unfold npNorm
  match o with
  | .posInf =>
    simp only [npMaxFin]
    split
    · rename_i h
      congr 1
      apply le_antisymm
      · exact Finset.sup'_le _ _ fun i _ => Finset.le_sup' (fun i => |x i|) (Finset.mem_univ (σ i))
      · refine Finset.sup'_le _ _ fun i _ => ?_
        have := Finset.le_sup' (fun i => |reorder σ x i|) (Finset.mem_univ (σ.symm i))
        rwa [show |reorder σ x (σ.symm i)| = |x i| by simp [reorder]] at this
    · rfl
  | .negInf =>
    simp only [npMinFin]
    split
    · rename_i h
      congr 1
      apply le_antisymm
      · refine Finset.le_inf' _ _ fun i _ => ?_
        have := Finset.inf'_le (fun i => |reorder σ x i|) (Finset.mem_univ (σ.symm i))
        rwa [show |reorder σ x (σ.symm i)| = |x i| by simp [reorder]] at this
      · exact Finset.le_inf' _ _ fun i _ => Finset.inf'_le (fun i => |x i|) (Finset.mem_univ (σ i))
    · rfl
  | .fin p =>
    simp only
    split
    · congr 2
      refine Finset.card_bij (fun i _ => σ i) ?_ ?_ ?_
      · intro i hi
        exact Finset.mem_filter.2 ⟨Finset.mem_univ _, (Finset.mem_filter.1 hi).2⟩
      · intro i _ j _ h; exact σ.injective h
      · intro i hi
        refine ⟨σ.symm i, Finset.mem_filter.2 ⟨Finset.mem_univ _, ?_⟩, by simp⟩
        have := (Finset.mem_filter.1 hi).2
        simpa [reorder] using this
    · split
      · rw [hs fun v => |v|]
      · split
        · rw [hs fun v => v * v]
        · rw [hs fun v => |v| ^ p]

/-- **C142.** InstanceUnitNormScaler: the output is the same vector with its entries in the new order
(or the same exception). -/
theorem C142_unit_norm_order {n : ℕ} (σ : Equiv.Perm (Fin n)) (o : NormOrd) (x : Fin n → ℝ) :
    ((instanceUnitNormScaler o n).transformPartial () (reorder σ x)) =
      ((instanceUnitNormScaler o n).transformPartial () x).bind fun y s => .ok (reorder σ y) s := by
  simp only [instanceUnitNormScaler, instanceUnitNorm, npNorm_reorder]
  cases npNorm o x <;> rfl

/-- **C142.** InstanceStandardScaler: likewise. -/
theorem C142_standard_order {K : Type*} [Field K] [LinearOrder K] (sqrt : K → K) {n : ℕ}
    (σ : Equiv.Perm (Fin n)) (x : Fin n → K) :
    ((instanceStandardScaler sqrt n).transformPartial () (reorder σ x)) =
      ((instanceStandardScaler sqrt n).transformPartial () x).bind fun y s => .ok (reorder σ y) s := by
  have h1 : npMeanFin (reorder σ x) = npMeanFin x := by
    unfold npMeanFin; congr 1; exact Equiv.sum_comp σ x
  have h2 : npStdFin sqrt (reorder σ x) = npStdFin sqrt x := by
    unfold npStdFin; rw [h1]; congr 2; exact Equiv.sum_comp σ fun i => (x i - npMeanFin x) ^ 2
  simp only [instanceStandardScaler, Res.bind]
  congr 1
  funext i
  simp only [instanceStandardize, h1, h2]
  rfl

/-! ### `RSHash` -/

/-- The random choices of a component for features in another order. -/
def Spec.RsComponent.reorder {K : Type*} {n : ℕ} (σ : Equiv.Perm (Fin n)) (c : RsComponent K n) :
    RsComponent K n := { c with dims := c.dims.map fun p => (σ.symm p.1, p.2) }

/-- **C142.** RSHash: with the sampled dimensions renamed accordingly, every call of every history is
answered alike. Renaming is a one-to-one correspondence between the possible choices
(`RsComponent.reorder_symm`), and it keeps the number of dimensions, the shifts and the width. -/
theorem C142_rshash_order {β K : Type*} [Field K] [LinearOrder K] [IsStrictOrderedRing K] [FloorRing K]
    (pow2 log : K → K) {n : ℕ} (σ : Equiv.Perm (Fin n)) (comps : List (RsComponent K n)) (sp : ℕ)
    (decay : K) (nh : ℕ) (cs : List (Call (Fin n → K) β)) :
    (calls (RsHash.detector pow2 log) (RsHash.new (comps.map (RsComponent.reorder σ)) sp decay nh)
        (cs.map (Call.on (reorder σ)))).1 =
      (calls (RsHash.detector pow2 log) (RsHash.new comps sp decay nh) cs).1 := by
  have hcell : ∀ r (c : RsComponent K n) (x : Fin n → K),
      RsHash.cell r (RsComponent.reorder σ c) (reorder σ x) = RsHash.cell r c x := by
    intro r c x
    simp [RsHash.cell, RsComponent.reorder, reorder, Function.comp_def]
  have hcomp : ∀ (x : Fin n → K) dec ix (l : List (RsComponent K n)) r acc sk,
      RsHash.components pow2 log dec ix (reorder σ x) r (l.map (RsComponent.reorder σ)) acc sk =
        RsHash.components pow2 log dec ix x r l acc sk := by
    intro x dec ix l
    induction l with
    | nil => intros; rfl
    | cons c l ih =>
      intro r acc sk
      simp only [List.map_cons, RsHash.components, hcell]
      split
      · rfl
      · exact ih _ _ _
  refine answers_of_sim (reorder σ) (fun (s t : RsHashState K n) =>
    t = { s with components := s.components.map (RsComponent.reorder σ) }) ?_
    (RsHash.new comps sp decay nh) (RsHash.new (comps.map (RsComponent.reorder σ)) sp decay nh) rfl cs
  intro s t c h
  subst h
  refine call_of_sameRes (R := fun (s t : RsHashState K n) =>
    t = { s with components := s.components.map (RsComponent.reorder σ) }) (reorder σ) s _
    (fun x y => ?_) (fun x => ?_) c
  swap
  · exact ⟨rfl, rfl⟩
  simp only [RsHash.detector, RsHash.fitPartial, hcomp]
  cases RsHash.components pow2 log s.decay s.index x 0 s.components 0 s.cmsketches with
  | err e sk => exact ⟨rfl, rfl⟩
  | ok score sk =>
    simp only [List.length_map]
    split
    · exact ⟨rfl, rfl⟩
    · exact ⟨rfl, rfl⟩

theorem RsComponent.reorder_symm {K : Type*} {n : ℕ} (σ : Equiv.Perm (Fin n)) (c : RsComponent K n) :
    RsComponent.reorder σ.symm (RsComponent.reorder σ c) = c := by
  obtain ⟨dims, f⟩ := c
  simp [RsComponent.reorder, Function.comp_def]

/-! ### `xStream` -/

theorem calls_two {σ γ α β S : Type*} {d d' : Detector σ α β S} (f f' : γ → α)
    (h : ∀ (s : σ) (c : Call γ β), call d' s (Call.on f' c) = call d s (Call.on f c)) (s : σ)
    (cs : List (Call γ β)) : calls d' s (cs.map (Call.on f')) = calls d s (cs.map (Call.on f)) := by
  induction cs generalizing s with
  | nil => rfl
  | cons c cs ih => simp only [List.map_cons, calls, h, ih]

section
variable {K : Type*} [Field K] [LinearOrder K] [IsStrictOrderedRing K] [FloorRing K] {n k : ℕ}

omit [IsStrictOrderedRing K] [FloorRing K] in
theorem project_ofFn (h : String → ℕ → ℕ) (q : StreamhashState K) (u : Fin n → K) (i : Fin k) :
    (XStream.project h q (List.ofFn u) : Fin k → K) i =
      ∑ j : Fin n, u j * Streamhash.hashString h q i (toString (j : ℕ)) := by
  unfold XStream.project
  rw [← List.sum_ofFn]
  congr 1
  apply List.ext_getElem
  · simp
  · intro j h1 h2
    simp only [List.getElem_zipWith, List.getElem_ofFn, List.getElem_map, List.getElem_range]

omit [IsStrictOrderedRing K] [FloorRing K] in
theorem project_reorder (σ : Equiv.Perm (Fin n)) (mmh3 mmh3' : String → ℕ → ℕ)
    (hm : ∀ (i : Fin n) (c : Fin k), mmh3' (toString (i : ℕ)) c = mmh3 (toString (σ i : ℕ)) c)
    (q : StreamhashState K) (v : Fin n → K) :
    (XStream.project mmh3' q (List.ofFn (reorder σ v)) : Fin k → K) =
      XStream.project mmh3 q (List.ofFn v) := by
  funext i
  rw [project_ofFn, project_ofFn,
    ← Equiv.sum_comp σ fun j => v j * Streamhash.hashString mmh3 q i (toString (j : ℕ))]
  apply Finset.sum_congr rfl
  intro j _
  have : Streamhash.hashString mmh3' q i (toString (j : ℕ)) =
      Streamhash.hashString mmh3 q i (toString (σ j : ℕ)) := by
    unfold Streamhash.hashString
    rw [hm]
  rw [this]
  simp only [reorder, Function.comp_apply]

theorem call_reorder {β : Type*} (log2 : K → K) (mmh3 mmh3' : String → ℕ → ℕ) (s : XStreamState K k)
    (x x' : List K) (h : (XStream.project mmh3' s.streamhash x' : Fin k → K) =
      XStream.project mmh3 s.streamhash x) :
    (∀ y : Option β, call (XStream.detector mmh3' log2) s (.fit x' y) =
      call (XStream.detector mmh3 log2) s (.fit x y)) ∧
    call (XStream.detector (β := β) mmh3' log2) s (.score x') =
      call (XStream.detector (β := β) mmh3 log2) s (.score x) := by
  constructor
  · intro y
    simp only [call, XStream.detector, XStream.fitPartial, h]
  · simp only [call, XStream.detector, XStream.scorePartial, h]

/-- **C142.** xStream: if the names of the features are hashed accordingly, every call of every history
is answered alike. -/
theorem C142_xstream_order {β : Type*} (log2 : K → K) (σ : Equiv.Perm (Fin n)) (mmh3 mmh3' : String → ℕ → ℕ)
    (hm : ∀ (i : Fin n) (c : Fin k), mmh3' (toString (i : ℕ)) c = mmh3 (toString (σ i : ℕ)) c)
    (p : StreamhashState K) (W : ℕ) (draws : List (XsDraw K k)) (cs : List (Call (Fin n → K) β)) :
    (calls (XStream.detector mmh3' log2) (XStream.new p W draws)
        (cs.map (Call.on fun v => List.ofFn (reorder σ v)))).1 =
      (calls (XStream.detector mmh3 log2) (XStream.new p W draws)
        (cs.map (Call.on fun v => List.ofFn v))).1 := by
  rw [calls_two (d := XStream.detector mmh3 log2) (fun v => List.ofFn v)
    (fun v => List.ofFn (reorder σ v)) ?_ _ cs]
  intro s c
  cases c with
  | fit x y =>
    exact (call_reorder log2 mmh3 mmh3' s _ _ (project_reorder σ mmh3 mmh3' hm s.streamhash x)).1 y
  | score x =>
    exact (call_reorder (β := β) log2 mmh3 mmh3' s _ _
      (project_reorder σ mmh3 mmh3' hm s.streamhash x)).2

end

theorem fraction_equiv {Ω : Type*} [Fintype Ω] (e : Ω ≃ Ω) (p : Ω → Prop) :
    fraction (fun v => p (e v)) = fraction p := by
  classical
  unfold fraction
  congr 2
  refine Finset.card_bij (fun v _ => e v) ?_ ?_ ?_
  · intro v hv; simpa using hv
  · intro u _ v _ h; exact e.injective h
  · intro v hv; exact ⟨e.symm v, by simpa using hv, by simp⟩

/-- **C142.** xStream with an ideal hash function (all tables of hash values equally likely): for every
history, any set of answers is as likely with the features in one order as in another. -/
theorem C142_xstream_likely {β : Type*} {n k : ℕ} (σ : Equiv.Perm (Fin n))
    (hash : HashTable k n → String → ℕ → ℕ)
    (hh : ∀ v (c : Fin k) (i : Fin n), hash v (toString (i : ℕ)) (c : ℕ) = v c i)
    (p : StreamhashState ℝ) (W : ℕ) (draws : List (XsDraw ℝ k)) (cs : List (Call (Fin n → ℝ) β))
    (A : List (Answer (Num ℝ)) → Prop) :
    fraction (fun v => A (calls (XStream.detector (hash v) npLog2) (XStream.new p W draws)
        (cs.map (Call.on fun v => List.ofFn (reorder σ v)))).1) =
      fraction (fun v => A (calls (XStream.detector (hash v) npLog2) (XStream.new p W draws)
        (cs.map (Call.on fun v => List.ofFn v))).1) := by
  rw [← fraction_equiv (Equiv.arrowCongr (Equiv.refl (Fin k)) (Equiv.arrowCongr σ (Equiv.refl (Fin (2 ^ 32)))))
    fun v => A (calls (XStream.detector (hash v) npLog2) (XStream.new p W draws)
      (cs.map (Call.on fun v => List.ofFn v))).1]
  congr 1
  funext v
  rw [C142_xstream_order npLog2 σ (hash (Equiv.arrowCongr (Equiv.refl (Fin k))
    (Equiv.arrowCongr σ (Equiv.refl (Fin (2 ^ 32)))) v)) (hash v) ?_]
  intro i c
  rw [hh, hh]
  simp [Equiv.arrowCongr]

/-! ### `HalfSpaceTrees` -/

theorem ofFn_reorder_getElem? {K : Type*} {n : ℕ} (σ : Equiv.Perm (Fin n)) (v : Fin n → K) (q : ℕ) :
    (List.ofFn (reorder σ v))[newPosition σ q]? = (List.ofFn v)[q]? := by
  by_cases h : q < n
  · have h' : newPosition σ q = (σ.symm ⟨q, h⟩ : ℕ) := by unfold newPosition; rw [dif_pos h]
    rw [h', List.getElem?_eq_getElem (by simp), List.getElem?_eq_getElem (by simpa using h)]
    simp [reorder]
  · have h' : newPosition σ q = q := by unfold newPosition; rw [dif_neg h]
    rw [h', List.getElem?_eq_none (by simpa using h), List.getElem?_eq_none (by simpa using h)]

theorem ofFn_set {K : Type*} {n : ℕ} (v : Fin n → K) (q : ℕ) (h : q < n) (p : K) :
    (List.ofFn v).set q p = List.ofFn (Function.update v ⟨q, h⟩ p) := by
  apply List.ext_getElem
  · simp
  · intro i h1 h2
    rw [List.getElem_set, List.getElem_ofFn]
    by_cases hq : q = i
    · subst hq; simp
    · rw [if_neg hq, List.getElem_ofFn, Function.update_of_ne]
      intro he
      exact hq (congrArg Fin.val he).symm

theorem ofFn_reorder_set {K : Type*} {n : ℕ} (σ : Equiv.Perm (Fin n)) (v : Fin n → K) (q : ℕ) (h : q < n)
    (p : K) : (List.ofFn (reorder σ v)).set (newPosition σ q) p =
      List.ofFn (reorder σ (Function.update v ⟨q, h⟩ p)) := by
  have h' : newPosition σ q = (σ.symm ⟨q, h⟩ : ℕ) := by unfold newPosition; rw [dif_pos h]
  rw [h', ofFn_set _ _ (σ.symm ⟨q, h⟩).isLt]
  congr 1
  funext i
  unfold reorder
  by_cases hi : σ i = ⟨q, h⟩
  · have : i = σ.symm ⟨q, h⟩ := by rw [← hi]; simp
    subst this
    simp
  · rw [Function.comp_apply, Function.update_of_ne hi, Function.update_of_ne]
    · rfl
    · intro he
      apply hi
      rw [he]
      simp

namespace Hst
variable {K : Type*} [Field K] [LinearOrder K] {n : ℕ}

/-- The same tree for features in another order. -/
def Reordered (D : ℕ) (σ : Equiv.Perm (Fin n)) : HsTree K → HsTree K → Prop
  | .nil, .nil => True
  | .node l r rm lm q p k, .node l' r' rm' lm' q' p' k' =>
    rm' = rm ∧ lm' = lm ∧ p' = p ∧ k' = k ∧ Reordered D σ l l' ∧ Reordered D σ r r' ∧
      (q' = newPosition σ q ∨ (¬ k < D ∧ q' = q ∧ l = .nil ∧ r = .nil ∧ l' = .nil ∧ r' = .nil))
  | _, _ => False

/-- The generator with the drawn features renamed. -/
def renamed {G : Type*} (σ : Equiv.Perm (Fin n)) (randint : G → ℕ → ℕ × G) : G → ℕ → ℕ × G :=
  fun g m => (newPosition σ (randint g m).1, (randint g m).2)

omit [LinearOrder K] in
theorem build_reordered {G : Type*} (randint : G → ℕ → ℕ × G) (dims D : ℕ) (σ : Equiv.Perm (Fin n)) :
    ∀ (rem k : ℕ) (mins maxes : Fin n → K) (g : G), k + rem = D →
      SameOut (fun u v => v.2 = u.2 ∧ Reordered D σ u.1 v.1)
        (build randint dims rem k (List.ofFn mins) (List.ofFn maxes) g)
        (build (renamed σ randint) dims rem k (List.ofFn (reorder σ mins)) (List.ofFn (reorder σ maxes)) g) := by
  intro rem
  induction rem with
  | zero =>
    intro k mins maxes g hk
    exact ⟨rfl, rfl, rfl, rfl, rfl, trivial, trivial, Or.inr ⟨by omega, rfl, rfl, rfl, rfl, rfl⟩⟩
  | succ rem ih =>
    intro k mins maxes g hk
    unfold build
    by_cases hd : dims = 0
    · simp [hd, SameOut]
    have hq : (renamed σ randint g dims).1 = newPosition σ (randint g dims).1 := rfl
    have hg : (renamed σ randint g dims).2 = (randint g dims).2 := rfl
    simp only [if_neg hd, hq, hg, ofFn_reorder_getElem?]
    generalize (randint g dims).2 = g0
    generalize (randint g dims).1 = q
    by_cases hqn : q < n
    swap
    · rw [List.getElem?_eq_none (by simpa using hqn)]
      simp [SameOut]
    rw [List.getElem?_eq_getElem (by simpa using hqn), List.getElem?_eq_getElem (by simpa using hqn)]
    simp only [List.getElem_ofFn]
    generalize (maxes ⟨q, hqn⟩ + mins ⟨q, hqn⟩) / 2 = p
    rw [ofFn_reorder_set σ maxes q hqn, ofFn_reorder_set σ mins q hqn, ofFn_set maxes q hqn,
      ofFn_set mins q hqn]
    have il := ih (k + 1) mins (Function.update maxes ⟨q, hqn⟩ p) g0 (by omega)
    generalize build randint dims rem (k + 1) (List.ofFn mins)
      (List.ofFn (Function.update maxes ⟨q, hqn⟩ p)) g0 = r at il ⊢
    generalize build (renamed σ randint) dims rem (k + 1) (List.ofFn (reorder σ mins))
      (List.ofFn (reorder σ (Function.update maxes ⟨q, hqn⟩ p))) g0 = r' at il ⊢
    match r, r', il with
    | .error e, .error e', il => exact il
    | .ok (t, g1), .ok (t', g1'), il =>
      obtain ⟨rfl, ht⟩ : g1' = g1 ∧ Reordered D σ t t' := il
      simp only
      have ir := ih (k + 1) (Function.update mins ⟨q, hqn⟩ p) maxes g1' (by omega)
      generalize build randint dims rem (k + 1) (List.ofFn (Function.update mins ⟨q, hqn⟩ p))
        (List.ofFn maxes) g1' = r at ir ⊢
      generalize build (renamed σ randint) dims rem (k + 1)
        (List.ofFn (reorder σ (Function.update mins ⟨q, hqn⟩ p))) (List.ofFn (reorder σ maxes)) g1'
        = r' at ir ⊢
      match r, r', ir with
      | .error e, .error e', ir => exact ir
      | .ok (u, g2), .ok (u', g2'), ir => exact ⟨ir.1, rfl, rfl, rfl, rfl, ht, ir.2, Or.inl rfl⟩

omit [LinearOrder K] in
theorem buildAll_reordered {G : Type*} (randint : G → ℕ → ℕ × G) (D : ℕ) (σ : Equiv.Perm (Fin n))
    (mins maxes : Fin n → K) : ∀ (m : ℕ) (g : G),
      SameOut (fun u v => v.2 = u.2 ∧ List.Forall₂ (Reordered D σ) u.1 v.1)
        (buildAll randint D (List.ofFn mins) (List.ofFn maxes) m g)
        (buildAll (renamed σ randint) D (List.ofFn (reorder σ mins)) (List.ofFn (reorder σ maxes)) m g) := by
  intro m
  induction m with
  | zero => intro g; exact ⟨rfl, .nil⟩
  | succ m ih =>
    intro g
    have hb := build_reordered randint n D σ D 0 mins maxes g (by omega)
    unfold buildAll
    rw [List.length_ofFn, List.length_ofFn]
    generalize build randint n D 0 (List.ofFn mins) (List.ofFn maxes) g = r at hb ⊢
    generalize build (renamed σ randint) n D 0 (List.ofFn (reorder σ mins))
      (List.ofFn (reorder σ maxes)) g = r' at hb ⊢
    match r, r', hb with
    | .error e, .error e', hb => exact hb
    | .ok (t, g1), .ok (t', g1'), hb =>
      obtain ⟨rfl, ht⟩ : g1' = g1 ∧ Reordered D σ t t' := hb
      have hi := ih g1'
      simp only
      generalize buildAll randint D (List.ofFn mins) (List.ofFn maxes) m g1' = r at hi ⊢
      generalize buildAll (renamed σ randint) D (List.ofFn (reorder σ mins))
        (List.ofFn (reorder σ maxes)) m g1' = r' at hi ⊢
      match r, r', hi with
      | .error e, .error e', hi => exact hi
      | .ok (ts, g2), .ok (ts', g2'), hi => exact ⟨hi.1, .cons ht hi.2⟩

omit [Field K] in
theorem updateMass_reordered (D : ℕ) (σ : Equiv.Perm (Fin n)) (x : Fin n → K) (ref : Bool) :
    ∀ t t' : HsTree K, Reordered D σ t t' →
      SameRes (Reordered D σ) (updateMass D (List.ofFn x) ref t)
        (updateMass D (List.ofFn (reorder σ x)) ref t') := by
  intro t
  induction t with
  | nil =>
    intro t' h
    cases t' with
    | nil => exact ⟨rfl, trivial⟩
    | node => exact h.elim
  | node l r rm lm q p k ihl ihr =>
    intro t' h
    cases t' with
    | nil => exact h.elim
    | node l' r' rm' lm' q' p' k' =>
      obtain ⟨rfl, rfl, rfl, rfl, hl, hr, hp⟩ := h
      unfold updateMass
      simp only
      by_cases hk : k' < D
      · have hp' : q' = newPosition σ q := by
          rcases hp with hp | hp
          · exact hp
          · exact absurd hk hp.1
        rw [if_pos hk, if_pos hk, hp', ofFn_reorder_getElem?]
        cases (List.ofFn x)[q]? with
        | none => exact ⟨rfl, rfl, rfl, rfl, rfl, hl, hr, Or.inl rfl⟩
        | some v =>
          simp only
          by_cases hv : p' < v
          · rw [if_pos hv, if_pos hv]
            exact (ihr r' hr).mapState fun s t h => ⟨rfl, rfl, rfl, rfl, hl, h, Or.inl rfl⟩
          · rw [if_neg hv, if_neg hv]
            exact (ihl l' hl).mapState fun s t h => ⟨rfl, rfl, rfl, rfl, h, hr, Or.inl rfl⟩
      · rw [if_neg hk, if_neg hk]
        exact ⟨rfl, rfl, rfl, rfl, rfl, hl, hr, hp⟩

omit [Field K] in
theorem fitRoots_reordered (D : ℕ) (σ : Equiv.Perm (Fin n)) (x : Fin n → K) (ref : Bool)
    {ts ts' : List (HsTree K)} (h : List.Forall₂ (Reordered D σ) ts ts') :
    SameRes (List.Forall₂ (Reordered D σ)) (fitRoots D (List.ofFn x) ref ts)
      (fitRoots D (List.ofFn (reorder σ x)) ref ts') := by
  induction h with
  | nil => exact ⟨rfl, .nil⟩
  | @cons t t' ts ts' ht hts ih =>
    have hu := updateMass_reordered D σ x ref t t' ht
    unfold fitRoots
    generalize updateMass D (List.ofFn x) ref t = r at hu
    generalize updateMass D (List.ofFn (reorder σ x)) ref t' = r' at hu
    match r, r', hu with
    | .ok _ _, .ok _ _, hu => exact ih.mapState fun s t h => .cons hu.2 h
    | .err _ _, .err _ _, hu => exact ⟨hu.1, .cons hu.2 hts⟩

omit [Field K] [LinearOrder K] in
theorem updateModel_reordered (D : ℕ) (σ : Equiv.Perm (Fin n)) : ∀ t t' : HsTree K, Reordered D σ t t' →
    Reordered D σ (updateModel t) (updateModel t') := by
  intro t
  induction t with
  | nil =>
    intro t' h
    cases t' with
    | nil => trivial
    | node => exact h.elim
  | node l r rm lm q p k ihl ihr =>
    intro t' h
    cases t' with
    | nil => exact h.elim
    | node l' r' rm' lm' q' p' k' =>
      obtain ⟨rfl, rfl, rfl, rfl, hl, hr, hp⟩ := h
      refine ⟨rfl, rfl, rfl, rfl, ihl _ hl, ihr _ hr, ?_⟩
      rcases hp with hp | ⟨h1, rfl, rfl, rfl, rfl, rfl⟩
      · exact Or.inl hp
      · exact Or.inr ⟨h1, rfl, rfl, rfl, rfl, rfl⟩

theorem scoreTree_reordered (D : ℕ) (σ : Equiv.Perm (Fin n)) (x : Fin n → K) :
    ∀ t t' : HsTree K, Reordered D σ t t' →
      scoreTree (List.ofFn (reorder σ x)) t' = scoreTree (List.ofFn x) t := by
  intro t
  induction t with
  | nil =>
    intro t' h
    cases t' with
    | nil => rfl
    | node => exact h.elim
  | node l r rm lm q p k ihl ihr =>
    intro t' h
    cases t' with
    | nil => exact h.elim
    | node l' r' rm' lm' q' p' k' =>
      obtain ⟨rfl, rfl, rfl, rfl, hl, hr, hp⟩ := h
      rcases hp with rfl | ⟨h1, rfl, rfl, rfl, rfl, rfl⟩
      · unfold scoreTree
        rw [ofFn_reorder_getElem?, ihl _ hl, ihr _ hr]
      · unfold scoreTree
        by_cases hq : q' < n
        · rw [List.getElem?_eq_getElem (by simpa using hq), List.getElem?_eq_getElem (by simpa using hq)]
          simp only [ite_self, scoreTree]
        · rw [List.getElem?_eq_none (by simpa using hq), List.getElem?_eq_none (by simpa using hq)]

/-- The same detector for features in another order. -/
def StateReordered (σ : Equiv.Perm (Fin n)) (s t : HstState K) : Prop :=
  t.windowSize = s.windowSize ∧ t.maxDepth = s.maxDepth ∧ t.isFirstWindow = s.isFirstWindow ∧
    t.step = s.step ∧ List.Forall₂ (Reordered s.maxDepth σ) s.roots t.roots

omit [Field K] in
theorem fitPartial_reordered (σ : Equiv.Perm (Fin n)) (x : Fin n → K) (s t : HstState K)
    (h : StateReordered σ s t) :
    SameRes (StateReordered σ) (fitPartial s (List.ofFn x)) (fitPartial t (List.ofFn (reorder σ x))) := by
  obtain ⟨w, D, ts, fw, m⟩ := s
  obtain ⟨w', D', ts', fw', m'⟩ := t
  obtain ⟨h1, h2, h3, h4, h5⟩ := h
  simp only at h1 h2 h3 h4 h5
  subst h1 h2 h3 h4
  unfold fitPartial
  simp only
  refine SameRes.bind (P := fun s t => StateReordered σ s t) ?_ ?_ (fun _ _ h => h)
  · exact (fitRoots_reordered D' σ x fw' h5).mapState fun us us' h => ⟨rfl, rfl, rfl, rfl, h⟩
  · rintro - s t ⟨h1, h2, h3, h4, h5⟩
    rw [h1]
    split
    · exact ⟨rfl, h1, h2, h3, h4, h5⟩
    · rw [h4]
      split
      · refine ⟨rfl, rfl, h2, ?_, rfl, ?_⟩
        · have : t.roots.isEmpty = s.roots.isEmpty := by
            have := h5.length_eq
            rw [Bool.eq_iff_iff, List.isEmpty_iff_length_eq_zero, List.isEmpty_iff_length_eq_zero]
            omega
          simp only [this, h3]
        · simp only
          exact List.forall₂_map_left_iff.2 (List.forall₂_map_right_iff.2
            (h5.imp fun u u' h => updateModel_reordered _ σ u u' h))
      · exact ⟨rfl, h1, h2, h3, h4, h5⟩

theorem scorePartial_reordered (σ : Equiv.Perm (Fin n)) (x : Fin n → K) (s t : HstState K)
    (h : StateReordered σ s t) :
    SameRes (StateReordered σ) (scorePartial s (List.ofFn x)) (scorePartial t (List.ofFn (reorder σ x))) := by
  have hf : ∀ acc : K, t.roots.foldlM (fun acc t => (scoreTree (List.ofFn (reorder σ x)) t).map (acc + ·)) acc
      = s.roots.foldlM (fun acc t => (scoreTree (List.ofFn x) t).map (acc + ·)) acc := by
    generalize hs : s.roots = us
    generalize ht : t.roots = us'
    have h5 := h.2.2.2.2
    rw [hs, ht] at h5
    clear hs ht
    induction h5 with
    | nil => intro acc; rfl
    | @cons u u' us us' hu hus ih =>
      intro acc
      simp only [List.foldlM_cons, scoreTree_reordered _ σ x u u' hu]
      cases scoreTree (List.ofFn x) u with
      | error e => rfl
      | ok v => exact ih _
  unfold scorePartial
  rw [hf]
  cases s.roots.foldlM (fun acc t => (scoreTree (List.ofFn x) t).map (acc + ·)) (0 : K) with
  | error e => exact ⟨rfl, h⟩
  | ok v => exact ⟨rfl, h⟩

end Hst

theorem answers_of_sim2 {σ σ' γ α α' β S : Type*} {d : Detector σ α β S} {d' : Detector σ' α' β S}
    (f : γ → α) (f' : γ → α') (R : σ → σ' → Prop)
    (hfit : ∀ s t, R s t → ∀ x y, Hst.SameRes R (d.fitPartial s (f x) y) (d'.fitPartial t (f' x) y))
    (hscore : ∀ s t, R s t → ∀ x, Hst.SameRes R (d.scorePartial s (f x)) (d'.scorePartial t (f' x)))
    (s : σ) (t : σ') (h0 : R s t) (cs : List (Call γ β)) :
    (calls d' t (cs.map (Call.on f'))).1 = (calls d s (cs.map (Call.on f))).1 := by
  induction cs generalizing s t with
  | nil => rfl
  | cons c cs ih =>
    have h : (call d' t (Call.on f' c)).1 = (call d s (Call.on f c)).1 ∧
        R (call d s (Call.on f c)).2 (call d' t (Call.on f' c)).2 := by
      cases c with
      | fit x y =>
        have h := hfit s t h0 x y
        simp only [call, Call.on]
        generalize d.fitPartial s (f x) y = r at h
        generalize d'.fitPartial t (f' x) y = r' at h
        match r, r', h with
        | .ok _ _, .ok _ _, h => exact ⟨rfl, h.2⟩
        | .err _ _, .err _ _, h => exact ⟨by rw [h.1], h.2⟩
      | score x =>
        have h := hscore s t h0 x
        simp only [call, Call.on]
        generalize d.scorePartial s (f x) = r at h
        generalize d'.scorePartial t (f' x) = r' at h
        match r, r', h with
        | .ok _ _, .ok _ _, h => exact ⟨by rw [h.1], h.2⟩
        | .err _ _, .err _ _, h => exact ⟨by rw [h.1], h.2⟩
    simp only [List.map_cons, calls, h.1, ih _ _ h.2]

/-- The answers of HalfSpaceTrees to a history of calls; none if the constructor raises. -/
def Spec.hstAnswers {G K β : Type*} [Field K] [LinearOrder K] (randint : G → ℕ → ℕ × G) (mins maxes : List K)
    (w numTrees D : ℕ) (g : G) (cs : List (Call (List K) β)) : Except PyErr (List (Answer K)) :=
  (Hst.new randint mins maxes w numTrees D g).map fun s => (calls (Hst.detector K β) s cs).1

/-- **C142.** HalfSpaceTrees: with the features of the bounds and of all instances in another order, and
the randomly drawn features renamed accordingly, the constructor succeeds alike and every call of every
history is answered alike. -/
theorem C142_hst_order {G β K : Type*} [Field K] [LinearOrder K] {n : ℕ} (σ : Equiv.Perm (Fin n))
    (randint : G → ℕ → ℕ × G) (mins maxes : Fin n → K) (w numTrees D : ℕ) (g : G)
    (cs : List (Call (Fin n → K) β)) :
    hstAnswers (fun g m => (newPosition σ (randint g m).1, (randint g m).2)) (List.ofFn (reorder σ mins))
        (List.ofFn (reorder σ maxes)) w numTrees D g (cs.map (Call.on fun v => List.ofFn (reorder σ v))) =
      hstAnswers randint (List.ofFn mins) (List.ofFn maxes) w numTrees D g
        (cs.map (Call.on fun v => List.ofFn v)) := by
  have hb := Hst.buildAll_reordered randint D σ mins maxes numTrees g
  unfold hstAnswers Hst.new
  change Hst.SameOut _ _ (Hst.buildAll (fun g m => (newPosition σ (randint g m).1, (randint g m).2)) D _ _ numTrees g) at hb
  generalize Hst.buildAll randint D (List.ofFn mins) (List.ofFn maxes) numTrees g = r at hb ⊢
  generalize Hst.buildAll (fun g m => (newPosition σ (randint g m).1, (randint g m).2)) D
    (List.ofFn (reorder σ mins)) (List.ofFn (reorder σ maxes)) numTrees g = r' at hb ⊢
  match r, r', hb with
  | .error e, .error e', hb =>
    obtain rfl : e' = e := hb
    rfl
  | .ok (ts, g1), .ok (ts', g1'), hb =>
    simp only [Except.map]
    congr 1
    refine answers_of_sim2 (fun v => List.ofFn v) (fun v => List.ofFn (reorder σ v)) (Hst.StateReordered σ)
      (fun s t h x _ => Hst.fitPartial_reordered σ x s t h) (fun s t h x => Hst.scorePartial_reordered σ x s t h)
      (⟨w, D, ts, true, 0⟩ : HstState K) ⟨w, D, ts', true, 0⟩ ⟨rfl, rfl, rfl, rfl, hb.2⟩ cs

/-- A generator that reads its draws from a tape of `N` features (over and over). -/
def Spec.tapeDraws {n N : ℕ} (tape : Fin (N + 1) → Fin n) : ℕ → ℕ → ℕ × ℕ :=
  fun g _ => (tape (Fin.ofNat (N + 1) g), g + 1)

/-- **C142.** HalfSpaceTrees, all sequences of drawn features being equally likely: for every history,
any set of answers is as likely with the features in one order as in another. -/
theorem C142_hst_likely {β K : Type*} [Field K] [LinearOrder K] {n : ℕ} (σ : Equiv.Perm (Fin n)) (N : ℕ)
    (mins maxes : Fin n → K) (w numTrees D : ℕ) (cs : List (Call (Fin n → K) β))
    (A : Except PyErr (List (Answer K)) → Prop) :
    fraction (fun tape : Fin (N + 1) → Fin n => A (hstAnswers (tapeDraws tape) (List.ofFn (reorder σ mins))
        (List.ofFn (reorder σ maxes)) w numTrees D 0 (cs.map (Call.on fun v => List.ofFn (reorder σ v))))) =
      fraction (fun tape : Fin (N + 1) → Fin n => A (hstAnswers (tapeDraws tape) (List.ofFn mins)
        (List.ofFn maxes) w numTrees D 0 (cs.map (Call.on fun v => List.ofFn v)))) := by
  rw [← fraction_equiv (Equiv.arrowCongr (Equiv.refl (Fin (N + 1))) σ) fun tape => A (hstAnswers
    (tapeDraws tape) (List.ofFn mins) (List.ofFn maxes) w numTrees D 0 (cs.map (Call.on fun v => List.ofFn v)))]
  congr 1
  funext tape
  rw [← C142_hst_order σ]
  congr 2
  funext g m
  simp [tapeDraws, newPosition, Equiv.arrowCongr]

/-! ### `LODA` -/

/-- A row of numbers for features in another order. -/
def Spec.reorderRow {K : Type*} [Zero K] {n : ℕ} (σ : Equiv.Perm (Fin n)) (row : List K) : List K :=
  List.ofFn (reorder σ fun i : Fin n => row.getD i 0)

/-- The generator with the entries of the drawn projections, and the drawn features, renamed. -/
def Spec.LodaRng.renamed {G K : Type*} [Zero K] {n : ℕ} (σ : Equiv.Perm (Fin n)) (rng : LodaRng G K) :
    LodaRng G K where
  randn g r c := ((rng.randn g r c).1.map (reorderRow σ), (rng.randn g r c).2)
  permutation g m := ((rng.permutation g m).1.map (newPosition σ), (rng.permutation g m).2)

namespace Loda
variable {G K : Type*} [Field K] [LinearOrder K] {n : ℕ}

/-- The same cut for features in another order. -/
def CutReordered (σ : Equiv.Perm (Fin n)) (c c' : LodaCut K) : Prop :=
  c'.histogram = c.histogram ∧ c'.limits = c.limits ∧
    ∃ u : Fin n → K, c.projection = List.ofFn u ∧ c'.projection = List.ofFn (reorder σ u)

theorem newPosition_injective (σ : Equiv.Perm (Fin n)) : Function.Injective (newPosition σ) := by
  intro a b h
  unfold newPosition at h
  split at h <;> split at h
  · have := σ.symm.injective (Fin.ext h)
    exact congrArg Fin.val this
  · have := (σ.symm ⟨a, ‹_›⟩).isLt; omega
  · have := (σ.symm ⟨b, ‹_›⟩).isLt; omega
  · exact h

omit [LinearOrder K] in
theorem zeroAt_ofFn (rands : List ℕ) (u : Fin n → K) :
    zeroAt rands (List.ofFn u) = List.ofFn fun i : Fin n => if (i : ℕ) ∈ rands then 0 else u i := by
  apply List.ext_getElem
  · simp [zeroAt]
  · intro i h1 h2; simp [zeroAt]

omit [LinearOrder K] in
theorem zeroAt_reorder (σ : Equiv.Perm (Fin n)) (rands : List ℕ) (u : Fin n → K) :
    zeroAt (rands.map (newPosition σ)) (List.ofFn (reorder σ u)) =
      List.ofFn (reorder σ fun i : Fin n => if (i : ℕ) ∈ rands then 0 else u i) := by
  rw [zeroAt_ofFn]
  congr 1
  funext i
  have h : (i : ℕ) = newPosition σ (σ i : ℕ) := by simp [newPosition]
  have : (i : ℕ) ∈ rands.map (newPosition σ) ↔ (σ i : ℕ) ∈ rands := by
    rw [h, List.mem_map_of_injective (newPosition_injective σ)]
  simp only [this, reorder, Function.comp_apply]

omit [LinearOrder K] in
theorem project_reorder (σ : Equiv.Perm (Fin n)) (u x : Fin n → K) :
    project (List.ofFn (reorder σ u)) (List.ofFn (reorder σ x)) = project (List.ofFn u) (List.ofFn x) := by
  have key : ∀ v y : Fin n → K, (List.zipWith (· * ·) (List.ofFn v) (List.ofFn y)).sum = ∑ i, v i * y i := by
    intro v y
    rw [← List.sum_ofFn]
    congr 1
    apply List.ext_getElem
    · simp
    · intro j h1 h2; simp
  unfold project
  rw [key, key]
  simp only [List.length_ofFn]
  congr 2
  exact Equiv.sum_comp σ fun i => u i * x i

theorem refit_reordered (σ : Equiv.Perm (Fin n)) (nBins : ℕ) (c c' : LodaCut K) (h : CutReordered σ c c')
    (v : K) : Hst.SameOut (CutReordered σ) (refit nBins c v) (refit nBins c' v) := by
  unfold refit
  cases npHistogram [v] nBins with
  | error e => rfl
  | ok r => exact ⟨rfl, rfl, h.2.2⟩

theorem fitCuts_reordered (σ : Equiv.Perm (Fin n)) (rng : LodaRng G K) (nBins d : ℕ) (x : Fin n → K)
    {cs cs' : List (LodaCut K)} (h : List.Forall₂ (CutReordered σ) cs cs') :
    ∀ g, Hst.SameRes (fun p p' => p'.1 = p.1 ∧ List.Forall₂ (CutReordered σ) p.2 p'.2)
      (fitCuts rng nBins d (List.ofFn x) g cs)
      (fitCuts (LodaRng.renamed σ rng) nBins d (List.ofFn (reorder σ x)) g cs') := by
  induction h with
  | nil => intro g; exact ⟨rfl, rfl, .nil⟩
  | @cons c c' cs cs' hc hcs ih =>
    intro g
    obtain ⟨hi, li, u, hu, hu'⟩ := hc
    unfold fitCuts
    have e1 : ((LodaRng.renamed σ rng).permutation g d).1.take (d - d.sqrt) =
        ((rng.permutation g d).1.take (d - d.sqrt)).map (newPosition σ) := by
      simp [LodaRng.renamed, List.map_take]
    have e2 : ((LodaRng.renamed σ rng).permutation g d).2 = (rng.permutation g d).2 := rfl
    simp only [e1, e2]
    generalize (rng.permutation g d).1.take (d - d.sqrt) = rands
    generalize (rng.permutation g d).2 = g'
    rw [hu, hu', zeroAt_reorder, zeroAt_ofFn, project_reorder]
    generalize (fun i : Fin n => if (i : ℕ) ∈ rands then 0 else u i) = u1
    have hR : CutReordered σ { c with projection := List.ofFn u1 } { c' with projection := List.ofFn (reorder σ u1) } :=
      ⟨hi, li, u1, rfl, rfl⟩
    generalize ({ c with projection := List.ofFn u1 } : LodaCut K) = c1 at hR ⊢
    generalize ({ c' with projection := List.ofFn (reorder σ u1) } : LodaCut K) = c1' at hR ⊢
    cases project (List.ofFn u1) (List.ofFn x) with
    | error e => exact ⟨rfl, rfl, .cons hR hcs⟩
    | ok v =>
      have hv := refit_reordered σ nBins c1 c1' hR v
      simp only [Except.bind]
      generalize refit nBins c1 v = r at hv ⊢
      generalize refit nBins c1' v = r' at hv ⊢
      match r, r', hv with
      | .error e, .error e', hv => exact ⟨hv, rfl, .cons hR hcs⟩
      | .ok c2, .ok c2', hv =>
        exact (ih g').mapState fun p p' hp => ⟨hp.1, .cons hv hp.2⟩

/-- The same detector for features in another order. -/
def StateReordered (σ : Equiv.Perm (Fin n)) (s t : LodaState G K) : Prop :=
  t.rng = s.rng ∧ t.nBins = s.nBins ∧ t.nRandomCuts = s.nRandomCuts ∧
    match s.arrays, t.arrays with
    | none, none => True
    | some (d, cs), some (d', cs') => d' = d ∧ List.Forall₂ (CutReordered σ) cs cs'
    | _, _ => False

theorem fitPartial_reordered (σ : Equiv.Perm (Fin n)) (rng : LodaRng G K) (hr : RandnShape rng) (x : Fin n → K)
    (s t : LodaState G K) (h : StateReordered σ s t) :
    Hst.SameRes (StateReordered σ) (fitPartial rng s (List.ofFn x))
      (fitPartial (LodaRng.renamed σ rng) t (List.ofFn (reorder σ x))) := by
  obtain ⟨g, nb, nr, arr⟩ := s
  obtain ⟨g', nb', nr', arr'⟩ := t
  obtain ⟨h1, h2, h3, h4⟩ := h
  simp only at h1 h2 h3 h4
  subst h1 h2 h3
  unfold fitPartial
  match arr, arr', h4 with
  | none, none, _ =>
    simp only [List.length_ofFn]
    have hF : List.Forall₂ (CutReordered σ)
        ((rng.randn g' nr' n).1.map fun r => (⟨r, List.replicate nb' 0, List.replicate (nb' + 1) 0⟩ : LodaCut K))
        (((LodaRng.renamed σ rng).randn g' nr' n).1.map fun r =>
          (⟨r, List.replicate nb' 0, List.replicate (nb' + 1) 0⟩ : LodaCut K)) := by
      have hlen := (hr g' nr' n).2
      show List.Forall₂ _ _ (((rng.randn g' nr' n).1.map (reorderRow σ)).map _)
      generalize (rng.randn g' nr' n).1 = rows at hlen ⊢
      induction rows with
      | nil => exact .nil
      | cons row rows ih =>
        refine .cons ⟨rfl, rfl, fun i => row.getD i 0, ?_, rfl⟩ (ih fun r hr => hlen r (by simp [hr]))
        have hl := hlen row (by simp)
        apply List.ext_getElem
        · simp [hl]
        · intro i h1 h2
          rw [List.getElem_ofFn, List.getD_eq_getElem?_getD, List.getElem?_eq_getElem h1]
          rfl
    exact (fitCuts_reordered σ rng nb' n x hF _).mapState fun p p' hp => ⟨hp.1, rfl, rfl, rfl, hp.2⟩
  | some (d, cs), some (d', cs'), h4 =>
    obtain ⟨rfl, h5⟩ : d' = d ∧ List.Forall₂ (CutReordered σ) cs cs' := h4
    exact (fitCuts_reordered σ rng nb' d' x h5 _).mapState fun p p' hp => ⟨hp.1, rfl, rfl, rfl, hp.2⟩

theorem scorePartial_reordered (σ : Equiv.Perm (Fin n)) (log : K → Num K) (x : Fin n → K)
    (s t : LodaState G K) (h : StateReordered σ s t) :
    Hst.SameRes (StateReordered σ) (scorePartial log s (List.ofFn x))
      (scorePartial log t (List.ofFn (reorder σ x))) := by
  obtain ⟨g, nb, nr, arr⟩ := s
  obtain ⟨g', nb', nr', arr'⟩ := t
  have h0 := h
  obtain ⟨h1, h2, h3, h4⟩ := h
  simp only at h1 h2 h3 h4
  subst h1 h2 h3
  unfold scorePartial
  match arr, arr', h4, h0 with
  | none, none, _, h0 =>
    simp only
    split
    · exact ⟨rfl, h0⟩
    · exact ⟨rfl, h0⟩
  | some (d, cs), some (d', cs'), h4, h0 =>
    obtain ⟨rfl, h5⟩ : d' = d ∧ List.Forall₂ (CutReordered σ) cs cs' := h4
    have hf : ∀ acc, cs'.foldlM (scoreCut log nb' nr' (List.ofFn (reorder σ x))) acc =
        cs.foldlM (scoreCut log nb' nr' (List.ofFn x)) acc := by
      clear h0
      induction h5 with
      | nil => intro acc; rfl
      | @cons c c' cs cs' hc hcs ih =>
        intro acc
        obtain ⟨hi, li, u, hu, hu'⟩ := hc
        have e : scoreCut log nb' nr' (List.ofFn (reorder σ x)) acc c' =
            scoreCut log nb' nr' (List.ofFn x) acc c := by
          unfold scoreCut
          rw [hu, hu', hi, li, project_reorder]
        simp only [List.foldlM_cons, e]
        cases scoreCut log nb' nr' (List.ofFn x) acc c with
        | error e => rfl
        | ok v => exact ih _
    simp only [hf]
    cases cs.foldlM (scoreCut log nb' nr' (List.ofFn x)) (.fin 0) with
    | error e => exact ⟨rfl, h0⟩
    | ok v => exact ⟨rfl, h0⟩

end Loda

/-- **C142.** LODA: with the entries of the random projections and the randomly drawn features renamed
accordingly, every call of every history is answered alike. -/
theorem C142_loda_order {G β K : Type*} [Field K] [LinearOrder K] {n : ℕ} (σ : Equiv.Perm (Fin n))
    (rng : LodaRng G K) (hr : RandnShape rng) (log : K → Num K) (g : G) (nBins nCuts : ℕ)
    (cs : List (Call (Fin n → K) β)) :
    (calls (Loda.detector (LodaRng.renamed σ rng) log) (Loda.new g nBins nCuts)
        (cs.map (Call.on fun v => List.ofFn (reorder σ v)))).1 =
      (calls (Loda.detector rng log) (Loda.new g nBins nCuts) (cs.map (Call.on fun v => List.ofFn v))).1 :=
  answers_of_sim2 (fun v => List.ofFn v) (fun v => List.ofFn (reorder σ v)) (Loda.StateReordered σ)
    (fun s t h x _ => Loda.fitPartial_reordered σ rng hr x s t h)
    (fun s t h x => Loda.scorePartial_reordered σ log x s t h)
    (Loda.new g nBins nCuts) (Loda.new g nBins nCuts) ⟨rfl, rfl, rfl, trivial⟩ cs

/-- Swapping two features. -/
example : reorder (Equiv.swap 0 1) ![(3 : ℚ), 5] = ![5, 3] ∧ newPosition (Equiv.swap (0 : Fin 2) 1) 1 = 0 ∧
    (hstAnswers (fun (g : Unit) _ => (1, g)) [(0 : ℚ), 0] [100, 1] 2 1 1 ()
      ([.fit [20, 0] none, .fit [30, 1] none, .score [70, 0]] : List (Call (List ℚ) Unit))) =
      .ok [.done, .done, .value (-4)] ∧
    (hstAnswers (fun (g : Unit) _ => (0, g)) [(0 : ℚ), 0] [1, 100] 2 1 1 ()
      ([.fit [0, 20] none, .fit [1, 30] none, .score [0, 70]] : List (Call (List ℚ) Unit))) =
      .ok [.done, .done, .value (-4)] := by
  refine ⟨?_, by decide, by decide +kernel, by decide +kernel⟩
  funext i
  fin_cases i <;> rfl

end Pysad
