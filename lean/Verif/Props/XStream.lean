import Verif.Spec.XStream
import Verif.Model.XStream
import Verif.Proofs.Calls
import Mathlib.Analysis.SpecialFunctions.Log.Base

/-! Properties C77-C79: `xStream`. -/

namespace Pysad

open Spec

namespace XStream

section
variable {K : Type*} [Field K] [LinearOrder K] [IsStrictOrderedRing K] [FloorRing K] {k : ℕ}

/-- The numbers in a scalar or a vector. -/
def numbersOf {K : Type*} : NdArray K → List K
  | .scalar x => [x]
  | .vec l => l
  | _ => []

/-! ### Bins -/

/-- The loop state of `fit` and `bincount` after the features `pre`. -/
def pre (r δ X : Fin k → K) (used : List (Fin k)) : (Fin k → K) × (Fin k → ℕ) :=
  (fun f => if used.count f = 0 then 0 else 2 ^ (used.count f - 1) * (X f / δ f) + r f,
    fun f => used.count f)

omit [LinearOrder K] [IsStrictOrderedRing K] [FloorRing K] in
theorem pre_nil (r δ X : Fin k → K) : pre r δ X [] = (fun _ => 0, fun _ => 0) := by
  simp [pre]

theorem count_snoc (used : List (Fin k)) (f g : Fin k) :
    (used ++ [f]).count g = if g = f then used.count g + 1 else used.count g := by
  rw [List.count_append]
  by_cases h : g = f
  · subst h; simp
  · rw [if_neg h]; simp [Ne.symm h]

omit [LinearOrder K] [IsStrictOrderedRing K] [FloorRing K] in
theorem prebinStep_pre (c : XsChain K k) (r δ X : Fin k → K) (hδ : ∀ f, δ f ≠ 0)
    (hd : c.deltamax = δ) (hs : c.shift = fun f => r f * δ f) (used : List (Fin k)) (f : Fin k) :
    prebinStep c X f (pre r δ X used) = pre r δ X (used ++ [f]) := by
  have hcnt : Function.update (pre r δ X used).2 f ((pre r δ X used).2 f + 1)
      = (pre r δ X (used ++ [f])).2 := by
    funext g
    simp only [pre, count_snoc]
    by_cases h : g = f
    · subst h; simp
    · simp [h]
  unfold prebinStep
  simp only [hcnt]
  have hf : (pre r δ X (used ++ [f])).2 f = used.count f + 1 := by simp [pre, count_snoc]
  rw [hf]
  split
  · rename_i h0
    have h0 : used.count f = 0 := by omega
    refine Prod.ext (funext fun g => ?_) rfl
    by_cases h : g = f
    · subst h
      simp only [Function.update_self, pre, count_snoc, if_true, h0, hd, hs]
      simp only [Nat.zero_add, Nat.one_ne_zero, if_false, Nat.sub_self, pow_zero, one_mul]
      rw [add_div, mul_div_assoc, div_self (hδ g), mul_one]
    · simp only; rw [Function.update_of_ne h]; simp only [pre, count_snoc, if_neg h]
  · rename_i h0
    have h0 : used.count f ≠ 0 := by omega
    refine Prod.ext (funext fun g => ?_) rfl
    by_cases h : g = f
    · subst h
      simp only [Function.update_self, pre, count_snoc, if_true, hd, hs]
      rw [if_neg h0, if_neg (by omega), mul_div_assoc, div_self (hδ g), mul_one]
      obtain ⟨m, hm⟩ : ∃ m, used.count g = m + 1 := ⟨used.count g - 1, by omega⟩
      rw [hm]
      simp only [Nat.add_sub_cancel]
      rw [pow_succ]; ring
    · simp only; rw [Function.update_of_ne h]; simp only [pre, count_snoc, if_neg h]

theorem binIndex_pre (r δ X : Fin k → K) (used : List (Fin k)) :
    binIndex (pre r δ X used).1 = halfSpaceBin used r δ X := by
  funext f
  simp only [binIndex, pre, halfSpaceBin]
  split <;> simp

/-! ### One chain -/

/-- The references that `fit` counts into. -/
def target (c : XsChain K k) : XsRefs := if c.isFirstWindow then c.cmsketches else c.cmsketchesCur

omit [Field K] [LinearOrder K] [IsStrictOrderedRing K] [FloorRing K] in
theorem record_eq (c : XsChain K k) (d : ℕ) (l : Fin k → ℤ) :
    record c d l = { c with
      heap := Function.update c.heap (target c d) (increment (c.heap (target c d)) l)
      cmsketchesCur := if c.isFirstWindow then Function.update c.cmsketchesCur d (c.cmsketches d)
        else c.cmsketchesCur } := by
  unfold record target
  cases c.isFirstWindow <;> simp

/-- What stays as it is while fitting. -/
structure Same (c c' : XsChain K k) : Prop where
  fs : c'.fs = c.fs
  fresh : c'.fresh = c.fresh
  sketches : c'.cmsketches = c.cmsketches
  delta : c'.deltamax = c.deltamax
  rand : c'.randArr = c.randArr
  shift : c'.shift = c.shift
  first : c'.isFirstWindow = c.isFirstWindow

theorem fitLoop_spec (r δ X : Fin k → K) (hδ : ∀ f, δ f ≠ 0) :
    ∀ (fs used : List (Fin k)) (c : XsChain K k), c.deltamax = δ → (c.shift = fun f => r f * δ f) →
      let c' := fitLoop X c used.length fs (pre r δ X used)
      Same c c' ∧
      (∀ d, c'.cmsketchesCur d =
        if c.isFirstWindow = true ∧ used.length ≤ d ∧ d < used.length + fs.length then
          c.cmsketches d else c.cmsketchesCur d) ∧
      (∀ a, (∀ i < fs.length, target c (used.length + i) ≠ a) → c'.heap a = c.heap a) ∧
      ((∀ i < fs.length, ∀ j < fs.length,
          target c (used.length + i) = target c (used.length + j) → i = j) →
        ∀ i < fs.length, c'.heap (target c (used.length + i)) =
          increment (c.heap (target c (used.length + i)))
            (halfSpaceBin (used ++ fs.take (i + 1)) r δ X)) := by
  intro fs
  induction fs with
  | nil =>
    intro used c _ _
    refine ⟨⟨rfl, rfl, rfl, rfl, rfl, rfl, rfl⟩, fun d => ?_, fun _ _ => rfl, fun _ i hi => ?_⟩
    · rw [if_neg (by simp only [List.length_nil]; omega)]; rfl
    · simp at hi
  | cons f fs ih =>
    intro used c hd hs
    have hstep : fitLoop X c used.length (f :: fs) (pre r δ X used)
        = fitLoop X (record c used.length (halfSpaceBin (used ++ [f]) r δ X))
            (used ++ [f]).length fs (pre r δ X (used ++ [f])) := by
      rw [fitLoop, prebinStep_pre c r δ X hδ hd hs, binIndex_pre]
      simp
    rw [hstep]
    set c1 := record c used.length (halfSpaceBin (used ++ [f]) r δ X) with hc1
    have hrec := record_eq c used.length (halfSpaceBin (used ++ [f]) r δ X)
    rw [← hc1] at hrec
    have hd1 : c1.deltamax = δ := by rw [hrec]; exact hd
    have hs1 : c1.shift = fun f => r f * δ f := by rw [hrec]; exact hs
    have hfirst : c1.isFirstWindow = c.isFirstWindow := by rw [hrec]
    have hsk : c1.cmsketches = c.cmsketches := by rw [hrec]
    have ht : target c1 = target c := by
      unfold target
      rw [hfirst, hsk, hrec]
      cases c.isFirstWindow <;> simp
    have hheap : c1.heap = Function.update c.heap (target c used.length)
        (increment (c.heap (target c used.length)) (halfSpaceBin (used ++ [f]) r δ X)) := by
      rw [hrec]
    have hcur : c1.cmsketchesCur = if c.isFirstWindow then
        Function.update c.cmsketchesCur used.length (c.cmsketches used.length)
        else c.cmsketchesCur := by rw [hrec]
    obtain ⟨h1, h2, h3, h4⟩ := ih (used ++ [f]) c1 hd1 hs1
    have hlen : (used ++ [f]).length = used.length + 1 := by simp
    rw [ht, hlen] at h3 h4
    rw [hfirst, hsk, hlen, hcur] at h2
    rw [hlen]
    refine ⟨?_, fun d => ?_, fun a ha => ?_, fun hinj i hi => ?_⟩
    · obtain ⟨a1, a2, a3, a4, a5, a6, a7⟩ := h1
      rw [hlen] at a1 a2 a3 a4 a5 a6 a7
      exact ⟨by rw [a1, hrec], by rw [a2, hrec], by rw [a3, hrec], by rw [a4, hrec],
        by rw [a5, hrec], by rw [a6, hrec], by rw [a7, hrec]⟩
    · rw [h2 d]
      cases hb : c.isFirstWindow with
      | false => simp
      | true =>
        simp only [true_and, if_true, List.length_cons]
        by_cases hdd : d = used.length
        · subst hdd
          rw [if_neg (by omega), if_pos (by omega)]; simp
        · rw [Function.update_of_ne hdd]
          by_cases hr : used.length + 1 ≤ d ∧ d < used.length + 1 + fs.length
          · rw [if_pos hr, if_pos (by omega)]
          · rw [if_neg hr, if_neg (by omega)]
    · rw [h3 a fun i hi => ?_, hheap, Function.update_of_ne]
      · have := ha 0 (by simp)
        simpa using this.symm
      · have := ha (i + 1) (by simpa using hi)
        rwa [show used.length + 1 + i = used.length + (i + 1) by omega]
    · have hinj' : ∀ i < fs.length, ∀ j < fs.length,
          target c (used.length + 1 + i) = target c (used.length + 1 + j) → i = j := by
        intro i hi j hj h
        have := hinj (i + 1) (by simpa using hi) (j + 1) (by simpa using hj)
          (by rw [show used.length + (i + 1) = used.length + 1 + i by omega,
            show used.length + (j + 1) = used.length + 1 + j by omega]; exact h)
        omega
      cases i with
      | zero =>
        simp only [Nat.add_zero]
        rw [h3 _ fun i hi h => ?_, hheap, Function.update_self]
        · simp
        · have := hinj (i + 1) (by simpa using hi) 0 (by simp)
            (by rw [show used.length + (i + 1) = used.length + 1 + i by omega, h]; rfl)
          omega
      | succ i =>
        have hi' : i < fs.length := by simpa using hi
        have h5 := h4 hinj' i hi'
        rw [show used.length + (i + 1) = used.length + 1 + i by omega, h5, hheap,
          Function.update_of_ne]
        · simp
        · intro h
          have := hinj (i + 1) (by simpa using hi') 0 (by simp)
            (by rw [show used.length + (i + 1) = used.length + 1 + i by omega, h]; rfl)
          omega

theorem bincountLoop_spec (r δ X : Fin k → K) (hδ : ∀ f, δ f ≠ 0) (c : XsChain K k)
    (hd : c.deltamax = δ) (hs : c.shift = fun f => r f * δ f) :
    ∀ (fs used : List (Fin k)),
      bincountLoop X c used.length fs (pre r δ X used) =
        (List.range fs.length).map fun i => ((c.heap (c.cmsketches (used.length + i)))
          (halfSpaceBin (used ++ fs.take (i + 1)) r δ X)).getD 0 := by
  intro fs
  induction fs with
  | nil => intro used; rfl
  | cons f fs ih =>
    intro used
    rw [bincountLoop, prebinStep_pre c r δ X hδ hd hs, binIndex_pre]
    have := ih (used ++ [f])
    simp only [List.length_append, List.length_singleton] at this
    simp only [this, List.length_cons, List.range_succ_eq_map, List.map_cons, List.map_map]
    congr 1
    apply List.map_congr_left
    intro i _
    simp only [Function.comp_apply, Nat.succ_eq_add_one]
    rw [show used.length + 1 + i = used.length + (i + 1) by omega]
    simp

/-! ### The invariant -/

/-- What a chain looks like after some fits: `ref` binned with `ρ` is what it compares with,
`cur` binned with the present widths `δ` is what it collects. -/
structure Good (draw : XsDraw K k) (first : Bool) (ρ δ : Fin k → K) (ref cur : List (Fin k → K))
    (c : XsChain K k) : Prop where
  fs : c.fs = draw.fs
  rand : c.randArr = draw.randArr
  delta : c.deltamax = δ
  shift : c.shift = fun f => draw.randArr f * δ f
  first_eq : c.isFirstWindow = first
  lt_ref : ∀ d < draw.fs.length, c.cmsketches d < c.fresh
  lt_cur : ∀ d < draw.fs.length, c.cmsketchesCur d < c.fresh
  inj_ref : ∀ d < draw.fs.length, ∀ e < draw.fs.length, c.cmsketches d = c.cmsketches e → d = e
  inj_cur : ∀ d < draw.fs.length, ∀ e < draw.fs.length,
    c.cmsketchesCur d = c.cmsketchesCur e → d = e
  apart : first = false → ∀ d < draw.fs.length, ∀ e < draw.fs.length,
    c.cmsketches d ≠ c.cmsketchesCur e
  shared : first = true → ref ≠ [] → ∀ d < draw.fs.length, c.cmsketchesCur d = c.cmsketches d
  refCount : ∀ d < draw.fs.length, ∀ b, ((c.heap (c.cmsketches d)) b).getD 0
    = binCount draw.fs draw.randArr ρ d ref b
  curCount : first = false → ∀ d < draw.fs.length, ∀ b, ((c.heap (c.cmsketchesCur d)) b).getD 0
    = binCount draw.fs draw.randArr δ d cur b

theorem increment_getD (dict : XsDict k) (l b : Fin k → ℤ) :
    ((increment dict l) b).getD 0 = (dict b).getD 0 + if l = b then 1 else 0 := by
  unfold increment
  by_cases h : b = l
  · subst h; simp
  · rw [Function.update_of_ne h, if_neg (Ne.symm h)]; rfl

theorem binCount_snoc (fs : List (Fin k)) (r δ : Fin k → K) (d : ℕ) (w : List (Fin k → K))
    (x : Fin k → K) (b : Fin k → ℤ) :
    binCount fs r δ d (w ++ [x]) b
      = binCount fs r δ d w b + if halfSpaceBin (fs.take (d + 1)) r δ x = b then 1 else 0 := by
  unfold binCount
  rw [List.countP_append]
  congr 1
  by_cases h : halfSpaceBin (fs.take (d + 1)) r δ x = b <;> simp [h]

/-- Fitting in the first window. -/
theorem fitChain_first (draw : XsDraw K k) (δ X : Fin k → K) (hδ : ∀ f, δ f ≠ 0)
    (w : List (Fin k → K)) (c : XsChain K k) (h : Good draw true δ δ w w c) :
    Good draw true δ δ (w ++ [X]) (w ++ [X]) (fitChain X c) := by
  obtain ⟨⟨a1, a2, a3, a4, a5, a6, a7⟩, h2, h3, h4⟩ :=
    fitLoop_spec draw.randArr δ X hδ c.fs [] c h.delta h.shift
  have hfit : fitLoop X c ([] : List (Fin k)).length c.fs (pre draw.randArr δ X [])
      = fitChain X c := by rw [pre_nil]; rfl
  rw [hfit] at a1 a2 a3 a4 a5 a6 a7 h2 h3 h4
  have ht : target c = c.cmsketches := by unfold target; rw [h.first_eq]; rfl
  have hcur : ∀ d < draw.fs.length, (fitChain X c).cmsketchesCur d = c.cmsketches d := by
    intro d hd
    rw [h2 d, if_pos ⟨h.first_eq, by simp, by simpa [h.fs] using hd⟩]
  refine ⟨by rw [a1, h.fs], by rw [a5, h.rand], by rw [a4, h.delta], by rw [a6, h.shift],
    by rw [a7, h.first_eq], ?_, ?_, ?_, ?_, by simp, ?_, ?_, by simp⟩
  · intro d hd; rw [a3, a2]; exact h.lt_ref d hd
  · intro d hd; rw [hcur d hd, a2]; exact h.lt_ref d hd
  · rw [a3]; exact h.inj_ref
  · intro d hd e he; rw [hcur d hd, hcur e he]; exact h.inj_ref d hd e he
  · intro _ _ d hd; rw [hcur d hd, a3]
  · intro d hd b
    have := h4 (by
      intro i hi j hj hij
      rw [h.fs] at hi hj
      simp only [List.length_nil, Nat.zero_add, ht] at hij
      exact h.inj_ref i hi j hj hij) d (by rw [h.fs]; exact hd)
    simp only [List.length_nil, Nat.zero_add, ht, List.nil_append, h.fs] at this
    rw [a3, this, increment_getD, h.refCount d hd, binCount_snoc]

/-- Fitting in a later window. -/
theorem fitChain_later (draw : XsDraw K k) (ρ δ X : Fin k → K) (hδ : ∀ f, δ f ≠ 0)
    (ref cur : List (Fin k → K)) (c : XsChain K k) (h : Good draw false ρ δ ref cur c) :
    Good draw false ρ δ ref (cur ++ [X]) (fitChain X c) := by
  obtain ⟨⟨a1, a2, a3, a4, a5, a6, a7⟩, h2, h3, h4⟩ :=
    fitLoop_spec draw.randArr δ X hδ c.fs [] c h.delta h.shift
  have hfit : fitLoop X c ([] : List (Fin k)).length c.fs (pre draw.randArr δ X [])
      = fitChain X c := by rw [pre_nil]; rfl
  rw [hfit] at a1 a2 a3 a4 a5 a6 a7 h2 h3 h4
  have ht : target c = c.cmsketchesCur := by unfold target; rw [h.first_eq]; rfl
  have hcur : (fitChain X c).cmsketchesCur = c.cmsketchesCur := by
    funext d
    rw [h2 d, if_neg (by rw [h.first_eq]; simp)]
  refine ⟨by rw [a1, h.fs], by rw [a5, h.rand], by rw [a4, h.delta], by rw [a6, h.shift],
    by rw [a7, h.first_eq], ?_, ?_, ?_, ?_, ?_, by simp, ?_, ?_⟩
  · intro d hd; rw [a3, a2]; exact h.lt_ref d hd
  · intro d hd; rw [hcur, a2]; exact h.lt_cur d hd
  · rw [a3]; exact h.inj_ref
  · rw [hcur]; exact h.inj_cur
  · rw [a3, hcur]; exact h.apart
  · intro d hd b
    rw [a3, h3 _ fun i hi => ?_]
    · exact h.refCount d hd b
    · rw [h.fs] at hi
      simp only [List.length_nil, Nat.zero_add, ht]
      exact (h.apart rfl d hd i hi).symm
  · intro _ d hd b
    have := h4 (by
      intro i hi j hj hij
      rw [h.fs] at hi hj
      simp only [List.length_nil, Nat.zero_add, ht] at hij
      exact h.inj_cur i hi j hj hij) d (by rw [h.fs]; exact hd)
    simp only [List.length_nil, Nat.zero_add, ht, List.nil_append, h.fs] at this
    rw [hcur, this, increment_getD, h.curCount rfl d hd, binCount_snoc]

/-- Starting the next window. -/
theorem nextWindow_good (draw : XsDraw K k) (first : Bool) (ρ δ δ' : Fin k → K)
    (ref cur : List (Fin k → K)) (hr : first = true → ref ≠ [] ∧ ρ = δ ∧ cur = ref)
    (c : XsChain K k) (h : Good draw first ρ δ ref cur c) :
    Good draw false δ δ' cur [] (nextWindow (setDeltamax δ' c)) := by
  have hlt := h.lt_cur
  have hfresh : ∀ d < draw.fs.length, c.fresh + d % draw.fs.length = c.fresh + d := by
    intro d hd; rw [Nat.mod_eq_of_lt hd]
  refine ⟨h.fs, h.rand, rfl, ?_, rfl, ?_, ?_, ?_, ?_, ?_, by simp, ?_, ?_⟩
  · simp only [nextWindow, setDeltamax, h.rand]
  · intro d hd
    have := hlt d hd
    simp only [nextWindow, setDeltamax]
    omega
  · intro d hd
    simp only [nextWindow, setDeltamax, newRefs, h.fs, hfresh d hd]
    omega
  · intro d hd e he; exact h.inj_cur d hd e he
  · intro d hd e he
    simp only [nextWindow, setDeltamax, newRefs, h.fs, hfresh d hd, hfresh e he]
    omega
  · intro _ d hd e he
    have := hlt d hd
    simp only [nextWindow, setDeltamax, newRefs, h.fs, hfresh e he]
    omega
  · intro d hd b
    have hold : (nextWindow (setDeltamax δ' c)).heap ((nextWindow (setDeltamax δ' c)).cmsketches d)
        = c.heap (c.cmsketchesCur d) := if_neg (by have := hlt d hd; simp only [setDeltamax, nextWindow]; omega)
    rw [hold]
    cases first with
    | false => exact h.curCount rfl d hd b
    | true =>
      obtain ⟨h1, rfl, rfl⟩ := hr rfl
      rw [h.shared rfl h1 d hd, h.refCount d hd]
  · intro _ d hd b
    have hnew : (nextWindow (setDeltamax δ' c)).heap
        ((nextWindow (setDeltamax δ' c)).cmsketchesCur d) = fun _ => none :=
      if_pos (by simp only [setDeltamax, nextWindow, newRefs]; omega)
    rw [hnew]
    simp [binCount]

theorem newChain_good (draw : XsDraw K k) (δ : Fin k → K) :
    Good draw true δ δ [] [] (newChain δ draw) := by
  have hm : ∀ d < draw.fs.length, d % draw.fs.length = d := fun d hd => Nat.mod_eq_of_lt hd
  refine ⟨rfl, rfl, rfl, rfl, rfl, ?_, ?_, ?_, ?_, by simp, by simp, ?_, by simp⟩
  · intro d hd; simp only [newChain, newRefs, hm d hd]; omega
  · intro d hd; simp only [newChain, newRefs, hm d hd]; omega
  · intro d hd e he; simp only [newChain, newRefs, hm d hd, hm e he]; omega
  · intro d hd e he; simp only [newChain, newRefs, hm d hd, hm e he]; omega
  · intro d hd b; simp [newChain, binCount]

/-! ### Widths -/

theorem foldl_max_map (x : Fin k → K) (rows : List (Fin k → K)) (f : Fin k) :
    (((x :: rows).map fun y => y f).max?).getD 0 = colMax x rows f := by
  simp only [List.map_cons, List.max?_cons', Option.getD_some, colMax, List.foldl_map]

theorem foldl_min_map (x : Fin k → K) (rows : List (Fin k → K)) (f : Fin k) :
    (((x :: rows).map fun y => y f).min?).getD 0 = colMin x rows f := by
  simp only [List.map_cons, List.min?_cons', Option.getD_some, colMin, List.foldl_map]

theorem foldl_min_le (rows : List (Fin k → K)) (f : Fin k) (a : K) :
    rows.foldl (fun m r => min m (r f)) a ≤ a := by
  induction rows generalizing a with
  | nil => exact le_rfl
  | cons y rows ih => exact (ih _).trans (min_le_left _ _)

theorem le_foldl_max (rows : List (Fin k → K)) (f : Fin k) (a : K) :
    a ≤ rows.foldl (fun m r => max m (r f)) a := by
  induction rows generalizing a with
  | nil => exact le_rfl
  | cons y rows ih => exact (le_max_left _ _).trans (ih _)

theorem computeDeltamax_eq (w : List (Fin k → K)) (hw : w ≠ []) :
    computeDeltamax w = .ok (binWidth w) := by
  cases w with
  | nil => exact absurd rfl hw
  | cons x rows =>
    simp only [computeDeltamax]
    congr 1
    funext f
    have h1 : colMin x rows f ≤ x f := foldl_min_le rows f _
    have h2 : x f ≤ colMax x rows f := le_foldl_max rows f _
    have h3 : 0 ≤ (colMax x rows f - colMin x rows f) / 2 := by
      apply div_nonneg <;> linarith
    simp only [clip, binWidth, foldl_max_map, foldl_min_map, abs_of_nonneg h3]

theorem binWidth_pos (w : List (Fin k → K)) (f : Fin k) : 0 < binWidth w f := by
  unfold binWidth
  simp only
  split
  · exact one_pos
  · rename_i h
    have : (0 : K) < 1 / 10000 := by norm_num
    exact this.trans (not_le.1 h)

theorem widthAt_pos (W : ℕ) (xs : List (Fin k → K)) (j : ℕ) (f : Fin k) : 0 < widthAt W xs j f := by
  cases j with
  | zero => norm_num [widthAt]
  | succ j => exact binWidth_pos _ f

theorem clip_half : (clip fun _ => 1 * (1 / 2) : Fin k → K) = fun _ => 1 / 2 := by
  funext f
  have : ¬ |(1 * (1 / 2) : K)| ≤ 1 / 10000 := by
    rw [abs_of_pos (by norm_num)]; norm_num
  simp only [clip, if_neg this]
  exact one_mul _

/-! ### Windows -/

theorem windowAt_snoc {α : Type*} (W : ℕ) (xs : List α) (x : α) (j : ℕ)
    (h : W * (j + 1) ≤ xs.length) : windowAt W (xs ++ [x]) j = windowAt W xs j := by
  unfold windowAt
  rw [Nat.mul_succ] at h
  rw [List.drop_append_of_le_length (by omega), List.take_append_of_le_length]
  rw [List.length_drop]; omega

theorem widthAt_snoc (W : ℕ) (xs : List (Fin k → K)) (x : Fin k → K) (j : ℕ)
    (h : W * j ≤ xs.length) : widthAt W (xs ++ [x]) j = widthAt W xs j := by
  cases j with
  | zero => rfl
  | succ j => simp only [widthAt, windowAt_snoc W xs x j h]

/-- The state after fitting instances with images `xs`. -/
structure Inv (p : StreamhashState K) (W : ℕ) (draws : List (XsDraw K k)) (xs : List (Fin k → K))
    (s : XStreamState K k) : Prop where
  hash : s.streamhash = p
  window : s.windowSize = W
  step : s.step = xs.length
  cur : s.curWindow = xs.drop (W * (xs.length / W))
  chains : List.Forall₂ (fun draw c => Good draw (decide (xs.length < W)) (comparedWidth W xs)
    (currentWidth W xs) (comparedWindow W xs) (xs.drop (W * (xs.length / W))) c) draws s.chains

theorem inv_new (p : StreamhashState K) (W : ℕ) (hW : 1 ≤ W) (draws : List (XsDraw K k)) :
    Inv p W draws [] (new p W draws) := by
  refine ⟨rfl, rfl, rfl, by simp [new], ?_⟩
  simp only [new, clip_half]
  rw [List.forall₂_map_right_iff, List.forall₂_same]
  intro draw _
  have := newChain_good draw (fun _ => (1 / 2 : K))
  simpa [comparedWidth, currentWidth, widthAt, comparedWindow, show 0 < W by omega] using this

theorem forall₂_map_imp {α β γ : Type*} {R : α → β → Prop} {R' : α → γ → Prop} {g : β → γ}
    (h : ∀ a b, R a b → R' a (g b)) {l : List α} {m : List β} (hl : List.Forall₂ R l m) :
    List.Forall₂ R' l (m.map g) := by
  rw [List.forall₂_map_right_iff]
  exact hl.imp h

theorem inv_fit (mmh3 : String → ℕ → ℕ) (p : StreamhashState K) (W : ℕ) (hW : 1 ≤ W)
    (draws : List (XsDraw K k)) (xs : List (Fin k → K)) (s : XStreamState K k)
    (h : Inv p W draws xs s) (x : List K) :
    ∃ s', fitPartial mmh3 s x = .ok () s' ∧ Inv p W draws (xs ++ [project mmh3 p x]) s' := by
  obtain ⟨hp, hw, hst, hcur, hch⟩ := h
  set X : Fin k → K := project mmh3 p x with hX
  have hdiv := Nat.div_add_mod xs.length W
  have hmod := Nat.mod_lt xs.length (show W > 0 by omega)
  have hlen : (xs ++ [X]).length = xs.length + 1 := by simp
  -- the chains after the fit
  have hfit : List.Forall₂ (fun draw c => Good draw (decide (xs.length < W)) (comparedWidth W xs)
      (currentWidth W xs) (if xs.length < W then xs ++ [X] else comparedWindow W xs)
      (xs.drop (W * (xs.length / W)) ++ [X]) c) draws (s.chains.map (fitChain X)) := by
    refine forall₂_map_imp (fun draw c hc => ?_) hch
    by_cases hlt : xs.length < W
    · have h0 : xs.length / W = 0 := Nat.div_eq_of_lt hlt
      simp only [hlt, decide_true, comparedWidth, currentWidth, comparedWindow, h0,
        Nat.mul_zero, List.drop_zero, if_true, Nat.zero_sub] at hc ⊢
      exact fitChain_first draw _ X (fun f => (widthAt_pos W xs 0 f).ne') xs c hc
    · simp only [hlt, decide_false, if_false] at hc ⊢
      exact fitChain_later draw _ _ X (fun f => (widthAt_pos W xs _ f).ne') _ _ c hc
  have hcurX : s.curWindow ++ [X] = (xs ++ [X]).drop (W * (xs.length / W)) := by
    rw [hcur, List.drop_append_of_le_length (by omega)]
  by_cases hb : (xs.length + 1) % W = 0
  · -- a window is complete
    have hm : xs.length % W = W - 1 := by
      by_contra hne
      have : (xs.length + 1) % W = xs.length % W + 1 := by
        rw [Nat.add_mod, Nat.mod_eq_of_lt (a := xs.length % W + 1 % W)]
        · rcases Nat.lt_or_ge 1 W with h1 | h1
          · rw [Nat.mod_eq_of_lt h1]
          · have : W = 1 := by omega
            subst this; omega
        · rcases Nat.lt_or_ge 1 W with h1 | h1
          · rw [Nat.mod_eq_of_lt h1]; omega
          · have : W = 1 := by omega
            subst this; omega
      omega
    have hq : (xs.length + 1) / W = xs.length / W + 1 := by
      rw [Nat.div_eq_iff (by omega)]
      constructor
      · rw [Nat.succ_mul, Nat.mul_comm]; omega
      · rw [Nat.succ_mul, Nat.mul_comm]; omega
    set q := xs.length / W with hqdef
    have hwin : (xs ++ [X]).drop (W * q) = windowAt W (xs ++ [X]) q := by
      unfold windowAt
      rw [List.take_of_length_le]
      rw [List.length_drop, hlen]; omega
    have hne : windowAt W (xs ++ [X]) q ≠ [] := by
      rw [← hwin, ← hcurX]; simp
    have hcd := computeDeltamax_eq _ hne
    refine ⟨{ s with
      step := s.step + 1
      curWindow := []
      refWindow := some (s.curWindow ++ [X])
      chains := ((s.chains.map (fitChain X)).map
        (setDeltamax (binWidth (windowAt W (xs ++ [X]) q)))).map nextWindow }, ?_, ?_⟩
    · unfold fitPartial
      simp only [hp, hw, hst, ← hX]
      rw [if_neg (by omega), if_pos hb]
      simp only [Option.getD_some, hcurX, hwin, hcd]
    · refine ⟨hp, hw, by simp [hst], ?_, ?_⟩
      · rw [hlen, hq]
        symm
        apply List.drop_eq_nil_of_le
        rw [hlen, Nat.mul_succ]; omega
      · rw [List.map_map]
        refine forall₂_map_imp (fun draw c hc => ?_) hfit
        have hnl : ¬ xs.length + 1 < W := by
          intro hlt
          rw [Nat.mod_eq_of_lt hlt] at hb
          omega
        have hdrop : (xs ++ [X]).drop (W * (q + 1)) = [] := by
          apply List.drop_eq_nil_of_le
          rw [hlen, Nat.mul_succ]; omega
        have hcurW : xs.drop (W * q) ++ [X] = windowAt W (xs ++ [X]) q := by
          rw [← hwin, List.drop_append_of_le_length (by omega)]
        have := nextWindow_good draw _ _ _ (binWidth (windowAt W (xs ++ [X]) q)) _ _ ?_ c hc
        · rw [hcurW] at this
          have e1 : comparedWidth W (xs ++ [X]) = currentWidth W xs := by
            rw [comparedWidth, currentWidth, hlen, hq, Nat.add_sub_cancel]
            exact widthAt_snoc W xs X q (by omega)
          have e2 : currentWidth W (xs ++ [X]) = binWidth (windowAt W (xs ++ [X]) q) := by
            rw [currentWidth, hlen, hq]; rfl
          have e3 : comparedWindow W (xs ++ [X]) = windowAt W (xs ++ [X]) q := by
            rw [comparedWindow, hlen, if_neg hnl, hq, Nat.add_sub_cancel]
          simp only [Function.comp_apply]
          rw [e1, e2, e3, hlen, hq, hdrop, decide_eq_false hnl]
          exact this
        · intro hf
          have hlt : xs.length < W := of_decide_eq_true hf
          have h0 : q = 0 := Nat.div_eq_of_lt hlt
          rw [if_pos hlt]
          refine ⟨by simp, ?_, ?_⟩
          · rw [comparedWidth, currentWidth, ← hqdef, h0]
          · rw [h0]; simp
  · -- the window goes on
    have hm : xs.length % W + 1 < W := by
      by_contra hge
      have h1 : xs.length % W + 1 = W := by omega
      apply hb
      rw [show xs.length + 1 = W * (xs.length / W + 1) by rw [Nat.mul_succ]; omega,
        Nat.mul_mod_right]
    have hq : (xs.length + 1) / W = xs.length / W := by
      rw [Nat.div_eq_iff (by omega), Nat.mul_comm]
      constructor <;> omega
    set q := xs.length / W with hqdef
    refine ⟨{ s with
      step := s.step + 1
      curWindow := s.curWindow ++ [X]
      chains := s.chains.map (fitChain X) }, ?_, ?_⟩
    · unfold fitPartial
      simp only [hp, hw, hst, ← hX]
      rw [if_neg (by omega), if_neg hb]
    · refine ⟨hp, hw, by simp [hst], ?_, ?_⟩
      · rw [hlen, hq]; exact hcurX
      · refine hfit.imp fun draw c hc => ?_
        have hdrop : (xs ++ [X]).drop (W * q) = xs.drop (W * q) ++ [X] :=
          List.drop_append_of_le_length (by omega)
        have hiff : xs.length + 1 < W ↔ xs.length < W := by
          constructor
          · omega
          · intro hlt
            rw [Nat.mod_eq_of_lt hlt] at hm
            exact hm
        have e1 : comparedWidth W (xs ++ [X]) = comparedWidth W xs := by
          rw [comparedWidth, comparedWidth, hlen, hq]
          apply widthAt_snoc
          have : W * (q - 1) ≤ W * q := Nat.mul_le_mul le_rfl (Nat.sub_le q 1)
          omega
        have e2 : currentWidth W (xs ++ [X]) = currentWidth W xs := by
          rw [currentWidth, currentWidth, hlen, hq]
          exact widthAt_snoc W xs X q (by omega)
        have e3 : comparedWindow W (xs ++ [X])
            = if xs.length < W then xs ++ [X] else comparedWindow W xs := by
          rw [comparedWindow, hlen]
          by_cases hlt : xs.length < W
          · rw [if_pos hlt, if_pos (hiff.2 hlt)]
          · rw [if_neg hlt, if_neg (fun h => hlt (hiff.1 h)), comparedWindow, if_neg hlt, hq]
            apply windowAt_snoc
            have : 1 ≤ q := by
              rw [hqdef]; exact Nat.div_pos (not_lt.1 hlt) hW
            rw [show q - 1 + 1 = q by omega]
            omega
        rw [hlen, hq, hdrop, e1, e2, e3, show decide (xs.length + 1 < W) = decide (xs.length < W)
          from decide_eq_decide.2 hiff]
        exact hc

theorem score_state (mmh3 : String → ℕ → ℕ) (log2 : K → K) (s : XStreamState K k) (x : List K) :
    (scorePartial mmh3 log2 s x).state = s := by
  unfold scorePartial
  split <;> rfl

/-- The images of the fitted instances. -/
def images {β : Type*} (mmh3 : String → ℕ → ℕ) (p : StreamhashState K)
    (h : List (Call (List K) β)) : List (Fin k → K) := (fitted h).map (project mmh3 p)

theorem inv_calls {β : Type*} (mmh3 : String → ℕ → ℕ) (log2 : K → K) (p : StreamhashState K)
    (W : ℕ) (hW : 1 ≤ W) (draws : List (XsDraw K k)) (h : List (Call (List K) β)) :
    Inv p W draws (images mmh3 p h) (calls (detector mmh3 log2) (new p W draws) h).2 := by
  refine calls_inv (d := detector mmh3 log2)
    (P := fun (cs : List (Call (List K) β)) s => Inv p W draws (images mmh3 p cs) s)
    (fun cs s c hinv => ?_) (new p W draws) (inv_new p W hW draws) h
  cases c with
  | fit x y =>
    obtain ⟨s', h1, h2⟩ := inv_fit mmh3 p W hW draws _ s hinv x
    simp only [call, detector, h1]
    simpa [images, fitted_append, fitted] using h2
  | score x =>
    have hs : (call (detector mmh3 log2) s (Call.score x : Call (List K) β)).2 = s := by
      have := score_state mmh3 log2 s x
      simp only [call, detector]
      revert this
      cases scorePartial mmh3 log2 s x <;> exact fun h => h
    rw [hs]
    simpa [images, fitted_append, fitted] using hinv

theorem forall₂_getElem? {α β : Type*} {R : α → β → Prop} {l : List α} {m : List β}
    (h : List.Forall₂ R l m) (i : ℕ) (a : α) (ha : l[i]? = some a) : ∃ b, m[i]? = some b ∧ R a b := by
  induction h generalizing i with
  | nil => simp at ha
  | @cons x y l m hxy _ ih =>
    cases i with
    | zero =>
      simp only [List.getElem?_cons_zero, Option.some.injEq] at ha
      subst ha
      exact ⟨y, rfl, hxy⟩
    | succ i => simpa using ih i (by simpa using ha)

/-! ### Scores -/

theorem scoreChain_spec (log2 : K → K) (W : ℕ) (draw : XsDraw K k) (hfs : draw.fs ≠ [])
    (xs : List (Fin k → K)) (X : Fin k → K) (c : XsChain K k)
    (h : Good draw (decide (xs.length < W)) (comparedWidth W xs)
      (currentWidth W xs) (comparedWindow W xs) (xs.drop (W * (xs.length / W))) c) :
    scoreChain log2 X c = .ok (chainScore log2 W draw.fs draw.randArr xs X) := by
  have hb : bincount X c = (List.range draw.fs.length).map
      (foundCount W draw.fs draw.randArr xs X) := by
    unfold bincount
    have := bincountLoop_spec draw.randArr (currentWidth W xs) X
      (fun f => (widthAt_pos W xs _ f).ne') c h.delta h.shift c.fs []
    rw [pre_nil] at this
    simp only [List.length_nil, Nat.zero_add, List.nil_append] at this
    rw [this, h.fs]
    apply List.map_congr_left
    intro d hd
    rw [h.refCount d (List.mem_range.1 hd)]
    rfl
  have hl : (bincount X c).zipIdx.map (fun p => log2 (1 + (p.1 : K)) + ((p.2 + 1 : ℕ) : K))
      = (List.range draw.fs.length).map fun d =>
        log2 (1 + (foundCount W draw.fs draw.randArr xs X d : K)) + ((d : K) + 1) := by
    apply List.ext_getElem
    · simp [hb]
    · intro i h1 h2
      simp [hb]
  unfold scoreChain chainScore
  simp only [hl]
  cases hm : (List.range draw.fs.length).map fun d =>
        log2 (1 + (foundCount W draw.fs draw.randArr xs X d : K)) + ((d : K) + 1) with
  | nil =>
    have := congrArg List.length hm
    simp only [List.length_map, List.length_range, List.length_nil] at this
    exact absurd (List.length_eq_zero_iff.1 this) hfs
  | cons a l => simp only [npMin, List.min?_cons', Option.getD_some, Except.map]

theorem scoreChains_spec (log2 : K → K) (W : ℕ) (xs : List (Fin k → K)) (X : Fin k → K) :
    ∀ (draws : List (XsDraw K k)) (chains : List (XsChain K k)) (acc : K),
      (∀ draw ∈ draws, draw.fs ≠ []) →
      List.Forall₂ (fun draw c => Good draw (decide (xs.length < W)) (comparedWidth W xs)
        (currentWidth W xs) (comparedWindow W xs) (xs.drop (W * (xs.length / W))) c) draws chains →
      scoreChains log2 X chains acc =
        .ok (acc + (draws.map fun d => chainScore log2 W d.fs d.randArr xs X).sum) := by
  intro draws
  induction draws with
  | nil =>
    intro chains acc _ h
    cases h
    simp [scoreChains]
  | cons draw draws ih =>
    intro chains acc hfs h
    cases h with
    | @cons _ c _ cs hc hcs =>
      rw [scoreChains, scoreChain_spec log2 W draw (hfs draw (by simp)) xs X c hc]
      simp only
      rw [ih cs _ (fun d hd => hfs d (by simp [hd])) hcs]
      simp [add_assoc]

end

end XStream

open XStream

section
variable {K β : Type*} [Field K] [LinearOrder K] [IsStrictOrderedRing K] [FloorRing K] {k : ℕ}

/-- The projection used is the one of `StreamhashProjector`. -/
theorem xstream_project (mmh3 : String → ℕ → ℕ) (p : StreamhashState K) (hk : p.nComponents = k)
    (h1 : 1 ≤ k) (x : List K) :
    ∃ y, (Streamhash.transformer mmh3).fitTransformPartial p x = .ok y p ∧
      numbersOf y = List.ofFn (project mmh3 p x : Fin k → K) := by
  refine ⟨Streamhash.squeeze (Streamhash.dotRows x (Streamhash.matrix mmh3 p x.length)), ?_, ?_⟩
  · simp only [Streamhash.transformer, Transformer.inherited, Res.bind_ok,
      Streamhash.transformPartial]
    rw [if_neg (by omega)]
  · have : ∀ l : List K, numbersOf (Streamhash.squeeze l) = l := by
      intro l; unfold Streamhash.squeeze; split <;> rfl
    rw [this]
    unfold Streamhash.dotRows Streamhash.matrix
    apply List.ext_getElem
    · simp [hk]
    · intro i h1 h2
      simp [project, Function.comp_def]

/-- **C77 (sketches).** After any history of calls, for any hash function, window size
`W ≥ 1` and random choices: chain `i` still exists, its reference sketch at depth `d` holds,
for each bin, the number of instances of the last completed window (of all instances while
there is none) that fell into it with the bin widths of their time, and sketches of different
depths are different objects. -/
theorem C77_xstream_counts (mmh3 : String → ℕ → ℕ) (log2 : K → K) (p : StreamhashState K)
    (W : ℕ) (hW : 1 ≤ W) (draws : List (XsDraw K k)) (h : List (Call (List K) β)) (i : ℕ)
    (draw : XsDraw K k) (hi : draws[i]? = some draw) :
    let xs := images mmh3 p h
    ∃ c, (calls (detector mmh3 log2) (new p W draws) h).2.chains[i]? = some c ∧
      (∀ d < draw.fs.length, ∀ b, ((c.heap (c.cmsketches d)) b).getD 0 =
        binCount draw.fs draw.randArr (comparedWidth W xs) d (comparedWindow W xs) b) ∧
      (∀ d < draw.fs.length, ∀ e < draw.fs.length, c.cmsketches d = c.cmsketches e → d = e) := by
  intro xs
  obtain ⟨c, h1, h2⟩ := forall₂_getElem? (inv_calls mmh3 log2 p W hW draws h).chains i draw hi
  exact ⟨c, h1, h2.refCount, h2.inj_ref⟩

/-- **C77 (projection).** What is binned is the instance as `StreamhashProjector` returns it. -/
theorem C77_xstream_projected (mmh3 : String → ℕ → ℕ) (p : StreamhashState K)
    (hk : p.nComponents = k) (h1 : 1 ≤ k) (x : List K) :
    ∃ y, (Streamhash.transformer mmh3).fitTransformPartial p x = .ok y p ∧
      numbersOf y = List.ofFn (project mmh3 p x : Fin k → K) :=
  xstream_project mmh3 p hk h1 x

/-- **C77 (scores).** ... and a score is the mean, over the chains, of minus the least
`log2 (1 + count) + depth`, where `count` is the number of instances of that reference window
found in the instance's bin. -/
theorem C77_xstream_score (mmh3 : String → ℕ → ℕ) (log2 : K → K) (p : StreamhashState K)
    (W : ℕ) (hW : 1 ≤ W) (draws : List (XsDraw K k)) (hd : draws ≠ [])
    (hfs : ∀ draw ∈ draws, draw.fs ≠ []) (h : List (Call (List K) β)) (x : List K) :
    (call (detector mmh3 log2) (calls (detector mmh3 log2) (new p W draws) h).2
        (.score x : Call (List K) β)).1
      = .value (.fin ((draws.map fun d =>
          chainScore log2 W d.fs d.randArr (images mmh3 p h) (project mmh3 p x)).sum
            / (draws.length : K))) := by
  have hinv := inv_calls (β := β) mmh3 log2 p W hW draws h
  have hsc := scoreChains_spec log2 W (images mmh3 p h) (project mmh3 p x) draws _ 0 hfs
    hinv.chains
  have hlen : ((calls (detector mmh3 log2) (new p W draws) h).2.chains.length : K)
      = (draws.length : K) := by rw [hinv.chains.length_eq]
  simp only [call, detector, scorePartial] at hsc ⊢
  simp only [detector] at hinv hlen
  rw [hinv.hash, hsc]
  simp only [zero_add]
  rw [hlen, npDiv, if_neg]
  rw [Nat.cast_eq_zero, List.length_eq_zero_iff]
  exact hd

/-- **C78 (no failures).** For window sizes `W ≥ 1`, no call to `fit_partial` raises, after any
history, and no bin width is ever zero, or even less than 0.0001. -/
theorem C78_xstream_widths (mmh3 : String → ℕ → ℕ) (log2 : K → K) (p : StreamhashState K)
    (W : ℕ) (hW : 1 ≤ W) (draws : List (XsDraw K k)) (h : List (Call (List K) β)) :
    (∀ c ∈ (calls (detector mmh3 log2) (new p W draws) h).2.chains, ∀ f,
      1 / 10000 < c.deltamax f) ∧
    ∀ x y, (call (detector mmh3 log2) (calls (detector mmh3 log2) (new p W draws) h).2
      (.fit x y : Call (List K) β)).1 = .done := by
  have hinv := inv_calls (β := β) mmh3 log2 p W hW draws h
  constructor
  · intro c hc f
    obtain ⟨i, hi⟩ := List.mem_iff_getElem?.1 hc
    obtain ⟨draw, _, hg⟩ := forall₂_getElem? (R := fun c draw => _) hinv.chains.flip i c hi
    rw [hg.delta]
    unfold currentWidth
    cases (images mmh3 p h : List (Fin k → K)).length / W with
    | zero => norm_num [widthAt]
    | succ j =>
      simp only [widthAt, binWidth]
      split
      · norm_num
      · rename_i hlt; exact not_le.1 hlt
  · intro x y
    obtain ⟨s', h1, _⟩ := inv_fit mmh3 p W hW draws _ _ hinv x
    simp only [call, detector] at h1 ⊢
    rw [h1]

theorem comparedWindow_length {α : Type*} (W : ℕ) (xs : List α) :
    (comparedWindow W xs).length ≤ W := by
  unfold comparedWindow
  split
  · omega
  · unfold windowAt; rw [List.length_take]; omega

theorem binCount_le (fs : List (Fin k)) (r δ : Fin k → K) (d : ℕ) (w : List (Fin k → K))
    (b : Fin k → ℤ) : binCount fs r δ d w b ≤ w.length := List.countP_le_length

theorem min?_getD_le {l : List K} {a : K} (h : a ∈ l) : l.min?.getD 0 ≤ a := by
  cases hm : l.min? with
  | none =>
    rw [List.min?_eq_none_iff] at hm
    subst hm; simp at h
  | some m => exact (List.min?_eq_some_iff.1 hm).2 a h

theorem le_min?_getD {l : List K} (hl : l ≠ []) {a : K} (h : ∀ x ∈ l, a ≤ x) : a ≤ l.min?.getD 0 := by
  cases hm : l.min? with
  | none =>
    rw [List.min?_eq_none_iff] at hm
    exact absurd hm hl
  | some m => exact h m (List.min?_eq_some_iff.1 hm).1

theorem mean_mem {ι : Type*} (l : List ι) (hl : l ≠ []) (g : ι → K) (a b : K)
    (h : ∀ i ∈ l, a ≤ g i ∧ g i ≤ b) :
    a ≤ (l.map g).sum / (l.length : K) ∧ (l.map g).sum / (l.length : K) ≤ b := by
  have hpos : (0 : K) < (l.length : K) := by
    rw [Nat.cast_pos]; exact List.length_pos_iff.2 hl
  have h1 : (l.length : K) * a ≤ (l.map g).sum := by
    have := List.card_nsmul_le_sum (l.map g) a (by
      intro x hx
      obtain ⟨i, hi, rfl⟩ := List.mem_map.1 hx
      exact (h i hi).1)
    simpa using this
  have h2 : (l.map g).sum ≤ (l.length : K) * b := by
    have := List.sum_le_card_nsmul (l.map g) b (by
      intro x hx
      obtain ⟨i, hi, rfl⟩ := List.mem_map.1 hx
      exact (h i hi).2)
    simpa using this
  exact ⟨by rw [le_div_iff₀ hpos]; linarith, by rw [div_le_iff₀ hpos]; linarith⟩

end

section
variable {β : Type*} {k : ℕ}

/-- numpy's `log2`. -/
noncomputable abbrev npLog2 : ℝ → ℝ := Real.logb 2

theorem npLog2_nonneg (n : ℕ) : 0 ≤ npLog2 (1 + (n : ℝ)) :=
  Real.logb_nonneg (by norm_num) (by have := Nat.cast_nonneg (α := ℝ) n; linarith)

theorem npLog2_mono {m n : ℕ} (h : m ≤ n) : npLog2 (1 + (m : ℝ)) ≤ npLog2 (1 + (n : ℝ)) := by
  apply Real.logb_le_logb_of_le (by norm_num)
  · have := Nat.cast_nonneg (α := ℝ) m; linarith
  · have : (m : ℝ) ≤ n := Nat.cast_le.2 h
    linarith

theorem chainScore_bounds (W : ℕ) (fs : List (Fin k)) (hfs : fs ≠ []) (r : Fin k → ℝ)
    (xs : List (Fin k → ℝ)) (x : Fin k → ℝ) :
    -(1 + npLog2 (1 + (W : ℝ))) ≤ chainScore npLog2 W fs r xs x ∧
      chainScore npLog2 W fs r xs x ≤ -1 := by
  have hpos : 0 < fs.length := List.length_pos_iff.2 hfs
  unfold chainScore
  constructor
  · apply neg_le_neg
    have h0 := min?_getD_le (K := ℝ) (List.mem_map_of_mem (f := fun d : ℕ =>
      npLog2 (1 + (foundCount W fs r xs x d : ℝ)) + ((d : ℝ) + 1)) (List.mem_range.2 hpos))
    refine h0.trans ?_
    have : foundCount W fs r xs x 0 ≤ W :=
      (binCount_le _ _ _ _ _ _).trans (comparedWindow_length W xs)
    have := npLog2_mono this
    simp only [Nat.cast_zero, zero_add]
    linarith
  · apply neg_le_neg
    apply le_min?_getD
    · intro hnil
      have := congrArg List.length hnil
      simp only [List.length_map, List.length_range, List.length_nil] at this
      omega
    · intro a ha
      obtain ⟨d, _, rfl⟩ := List.mem_map.1 ha
      have h1 := npLog2_nonneg (foundCount W fs r xs x d)
      have h2 := Nat.cast_nonneg (α := ℝ) d
      linarith

/-- **C78.** For every hash function, window size `W ≥ 1`, at least one chain, depth at least
1, any history of calls and any instance: `score_partial` returns a number between
`-(1 + log2 (1 + W))` and `-1`. -/
theorem C78_xstream_bounds (mmh3 : String → ℕ → ℕ) (p : StreamhashState ℝ)
    (W : ℕ) (hW : 1 ≤ W) (draws : List (XsDraw ℝ k)) (hd : draws ≠ [])
    (hfs : ∀ draw ∈ draws, draw.fs ≠ []) (h : List (Call (List ℝ) β)) (x : List ℝ) :
    ∃ v, (call (detector mmh3 npLog2) (calls (detector mmh3 npLog2) (new p W draws) h).2
        (.score x : Call (List ℝ) β)).1 = .value (.fin v) ∧
      -(1 + npLog2 (1 + (W : ℝ))) ≤ v ∧ v ≤ -1 := by
  refine ⟨_, C77_xstream_score mmh3 npLog2 p W hW draws hd hfs h x, ?_⟩
  exact mean_mem draws hd _ _ _ fun d hm => chainScore_bounds W d.fs (hfs d hm) d.randArr _ _

/-! ### C79 -/

/-- **C79 (full statement, false).** When an instance of the last completed window is scored
again, every chain finds at least one instance at every depth, so that the score is at most
`-2`. -/
def C79_xstream_same_bins_statement : Prop :=
  ∀ (k : ℕ) (mmh3 : String → ℕ → ℕ) (p : StreamhashState ℝ) (W : ℕ) (draws : List (XsDraw ℝ k))
    (h : List (Call (List ℝ) Unit)) (x : List ℝ) (v : ℝ),
    Streamhash.new Real.sqrt k (1 / 3) = .ok p → 1 ≤ W → draws ≠ [] →
    (∀ draw ∈ draws, draw.fs ≠ [] ∧ ∀ f, 0 ≤ draw.randArr f ∧ draw.randArr f < 1) →
    W ≤ (fitted h).length →
    x ∈ windowAt W (fitted h) ((fitted h).length / W - 1) →
    (call (detector mmh3 npLog2) (calls (detector mmh3 npLog2) (new p W draws) h).2
        (.score x : Call (List ℝ) Unit)).1 = .value (.fin v) → v ≤ -2

/-- **C79 (refuted).** With a window of one instance: the instance is counted with bin width
1/2, and looked up with width 1. -/
theorem C79_xstream_same_bins_refuted : ¬ C79_xstream_same_bins_statement := by
  intro hall
  let p : StreamhashState ℝ := ⟨1, Real.sqrt (1 / (1 / 3)) / Real.sqrt (1 : ℕ), 1 / 3⟩
  let y : ℝ := -(1 / Real.sqrt 3)
  let draws : List (XsDraw ℝ 1) := [⟨[0], fun _ => 0⟩]
  have hproj : (project (fun _ _ => 0) p [y] : Fin 1 → ℝ) = fun _ => 1 := by
    funext i
    have h3 : Real.sqrt 3 ≠ 0 := by norm_num
    have hh : ((0 : ℕ) : ℝ) / (2 ^ 32 - 1) ≤ 1 / 3 / 2 := by norm_num
    simp only [project, p, y, Streamhash.hashString, List.length_singleton, List.range_one,
      List.map_cons, List.map_nil, List.zipWith_cons_cons, List.zipWith_nil_left, List.sum_cons,
      List.sum_nil, if_pos hh]
    rw [show (1 / (1 / 3) : ℝ) = 3 by norm_num, Nat.cast_one, Real.sqrt_one]
    field_simp
    norm_num
  have hsc := C77_xstream_score (β := Unit) (fun _ _ => 0) npLog2 p 1 le_rfl draws (by simp [draws])
    (by simp [draws]) [.fit [y] none] [y]
  have := hall 1 (fun _ _ => 0) p 1 draws [.fit [y] none] [y] _
    (by norm_num [Streamhash.new, p]) le_rfl (by simp [draws])
    (by simp [draws]) (by simp [fitted]) (by simp [fitted, windowAt]) hsc
  have himg : (images (fun _ _ => 0) p ([.fit [y] none] : List (Call (List ℝ) Unit)) :
      List (Fin 1 → ℝ)) = [fun _ => 1] := by
    simp [images, fitted, hproj]
  rw [himg, hproj] at this
  have hc : foundCount 1 [(0 : Fin 1)] (fun _ => (0 : ℝ)) [fun _ => (1 : ℝ)] (fun _ => 1) 0 = 0 := by
    unfold foundCount binCount comparedWindow comparedWidth currentWidth
    simp only [List.length_singleton, Nat.lt_irrefl, if_false, windowAt, Nat.div_self one_pos,
      Nat.sub_self, Nat.mul_zero, List.drop_zero, List.take_succ_cons, List.take_zero,
      List.countP_cons, List.countP_nil, widthAt]
    rw [if_neg]
    rw [decide_eq_true_eq]
    intro h0
    have := congrFun h0 0
    norm_num [halfSpaceBin, binWidth, windowAt] at this
  simp [draws, chainScore, hc] at this

end

section
variable {K β : Type*} [Field K] [LinearOrder K] [IsStrictOrderedRing K] [FloorRing K] {k : ℕ}

/-- **C79 (partial).** If the bin widths have not changed since the reference window was
counted (in particular before the first window is complete), an instance of it is found at
every depth of every chain. The full statement fails for the other states. -/
theorem C79_xstream_same_bins_partial (W : ℕ) (fs : List (Fin k)) (r : Fin k → K)
    (xs : List (Fin k → K)) (hw : currentWidth W xs = comparedWidth W xs) (x : Fin k → K)
    (hx : x ∈ comparedWindow W xs) (d : ℕ) : 1 ≤ foundCount W fs r xs x d := by
  unfold foundCount binCount
  rw [hw]
  exact List.countP_pos_iff.2 ⟨x, hx, by simp⟩

theorem xstream_first_window_widths (W : ℕ) (xs : List (Fin k → K)) (h : xs.length < W) :
    currentWidth W xs = comparedWidth W xs := by
  rw [currentWidth, comparedWidth, Nat.div_eq_of_lt h]

end

/-- **C79 (partial, scores).** ... and its score is at most `-2`. -/
theorem C79_xstream_score_partial {β : Type*} {k : ℕ} (mmh3 : String → ℕ → ℕ)
    (p : StreamhashState ℝ) (W : ℕ) (hW : 1 ≤ W) (draws : List (XsDraw ℝ k)) (hd : draws ≠ [])
    (hfs : ∀ draw ∈ draws, draw.fs ≠ []) (h : List (Call (List ℝ) β))
    (hw : currentWidth W (images mmh3 p h : List (Fin k → ℝ)) = comparedWidth W (images mmh3 p h))
    (x : List ℝ) (hx : x ∈ comparedWindow W (fitted h)) :
    ∃ v, (call (detector mmh3 npLog2) (calls (detector mmh3 npLog2) (new p W draws) h).2
        (.score x : Call (List ℝ) β)).1 = .value (.fin v) ∧ v ≤ -2 := by
  refine ⟨_, C77_xstream_score mmh3 npLog2 p W hW draws hd hfs h x, ?_⟩
  have hx' : (project mmh3 p x : Fin k → ℝ) ∈ comparedWindow W (images mmh3 p h) := by
    have : comparedWindow W (images mmh3 p h : List (Fin k → ℝ))
        = (comparedWindow W (fitted h)).map (project mmh3 p) := by
      unfold comparedWindow images windowAt
      rw [List.length_map]
      split
      · rfl
      · rw [List.map_take, List.map_drop]
    rw [this]
    exact List.mem_map_of_mem hx
  refine (mean_mem draws hd (fun d => chainScore npLog2 W d.fs d.randArr (images mmh3 p h)
    (project mmh3 p x)) (-(1 + npLog2 (1 + (W : ℝ)))) (-2) fun d hm => ⟨?_, ?_⟩).2
  · exact (chainScore_bounds W d.fs (hfs d hm) d.randArr _ _).1
  · unfold chainScore
    apply neg_le_neg
    apply le_min?_getD
    · intro hnil
      have := congrArg List.length hnil
      simp only [List.length_map, List.length_range, List.length_nil] at this
      exact hfs d hm (List.length_eq_zero_iff.1 this)
    · intro a ha
      obtain ⟨e, _, rfl⟩ := List.mem_map.1 ha
      have h1 := npLog2_mono (C79_xstream_same_bins_partial W d.fs d.randArr _ hw _ hx' e)
      have h2 : npLog2 (1 + ((1 : ℕ) : ℝ)) = 1 := by
        rw [show (1 + ((1 : ℕ) : ℝ)) = 2 by norm_num]
        exact Real.logb_self_eq_one (by norm_num)
      have h3 := Nat.cast_nonneg (α := ℝ) e
      rw [h2] at h1
      linarith

/-! The hypotheses are met: one feature, two depths, two instances, windows of two. -/

example : (images (fun _ _ => 0) ⟨1, -1, 1⟩
    [Call.fit [0] none, .fit [(4 : ℚ)] none, (.score [1] : Call (List ℚ) Unit)] :
      List (Fin 1 → ℚ)).length = 2 := by decide +kernel

example : foundCount 2 [(0 : Fin 1), 0] (fun _ => (1 / 2 : ℚ)) [fun _ => 0, fun _ => 4]
    (fun _ => 0) 0 = 1 := by decide +kernel

example : foundCount 2 [(0 : Fin 1), 0] (fun _ => (1 / 2 : ℚ)) [fun _ => 0, fun _ => 4]
    (fun _ => 50) 0 = 0 := by decide +kernel

end Pysad
