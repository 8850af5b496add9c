import Verif.Model.RsHash
import Verif.Proofs.Calls
import Mathlib.Analysis.SpecialFunctions.Pow.Real

/-! Properties C72 and C73: `RSHash`. -/

namespace Pysad

open Spec

section
variable {K β : Type*} [Field K] [LinearOrder K] [IsStrictOrderedRing K] [FloorRing K] {dim : ℕ}

/-- Two instances fall into the same cell of a component. -/
def Spec.SameCell (c : RsComponent K dim) (x y : Fin dim → K) : Prop :=
  ∀ p ∈ c.dims, ⌊(x p.1 + p.2) / c.f⌋ = ⌊(y p.1 + p.2) / c.f⌋

instance (c : RsComponent K dim) (x y : Fin dim → K) : Decidable (SameCell c x y) :=
  inferInstanceAs (Decidable (∀ p ∈ c.dims, _))

/-- The exponentially decayed number of earlier instances (oldest first) in the cell of
`x`: the `j`-th of `n` counts `2 ^ (-decay * (n - j))`. -/
def Spec.decayedCount (pow2 : K → K) (decay : K) (c : RsComponent K dim)
    (earlier : List (Fin dim → K)) (x : Fin dim → K) : K :=
  ((earlier.zipIdx.filter fun p => SameCell c p.1 x).map fun p =>
    pow2 (-(decay * ((earlier.length : K) - (p.2 : K))))).sum

/-- The score of `x`: the mean over the components of `log (1 + decayed count)`. -/
def Spec.rsScore (pow2 log : K → K) (decay : K) (comps : List (RsComponent K dim))
    (earlier : List (Fin dim → K)) (x : Fin dim → K) : K :=
  (comps.map fun c => log (1 + decayedCount pow2 decay c earlier x)).sum / (comps.length : K)

namespace RsHash

/-- The decayed weight, at time `u`, of events at the given times. -/
def weight (pow2 : K → K) (decay : K) (times : List ℤ) (u : ℤ) : K :=
  (times.map fun t => pow2 (-decay * ((u - t : ℤ) : K))).sum

/-- The sketch represents the events `T`. -/
def Good (pow2 : K → K) (decay : K) (T : List ℤ → List ℤ) (sk : RsSketch K) : Prop :=
  ∀ key, match sk key with
    | none => T key = []
    | some v => ∀ u, weight pow2 decay (T key) u = v.2 * pow2 (-decay * ((u - v.1 : ℤ) : K))

variable {pow2 log : K → K} (hpow : ∀ a b, pow2 (a + b) = pow2 a * pow2 b)
include hpow

theorem visit_weight (decay : K) (T : List ℤ → List ℤ) (sk : RsSketch K)
    (h : Good pow2 decay T sk) (t : ℤ) (key : List ℤ) :
    (visit pow2 decay t key sk).1 = weight pow2 decay (T key) t := by
  have hk := h key
  unfold visit
  cases hs : sk key with
  | none =>
    rw [hs] at hk
    simp only [Option.getD_none, zero_mul]
    rw [show T key = [] from hk]
    rfl
  | some v =>
    rw [hs] at hk
    simp only [Option.getD_some]
    exact (hk t).symm

theorem weight_later (decay : K) (T : List ℤ → List ℤ) (sk : RsSketch K)
    (h : Good pow2 decay T sk) (key : List ℤ) (t u : ℤ) :
    weight pow2 decay (T key) u =
      weight pow2 decay (T key) t * pow2 (-decay * ((u - t : ℤ) : K)) := by
  have hk := h key
  cases hs : sk key with
  | none =>
    rw [hs] at hk
    rw [show T key = [] from hk]
    simp [weight]
  | some v =>
    rw [hs] at hk
    rw [hk u, hk t, mul_assoc, ← hpow]
    congr 2
    push_cast
    ring

theorem visit_good (decay : K) (T : List ℤ → List ℤ) (sk : RsSketch K)
    (h : Good pow2 decay T sk) (t : ℤ) (key : List ℤ) :
    Good pow2 decay (Function.update T key (T key ++ [t])) (visit pow2 decay t key sk).2 := by
  intro k
  have hv : (visit pow2 decay t key sk).2 =
      Function.update sk key (some (t, weight pow2 decay (T key) t + 1)) := by
    rw [← visit_weight hpow decay T sk h t key]; rfl
  rw [hv]
  by_cases hk : k = key
  · subst hk
    rw [Function.update_self, Function.update_self]
    intro u
    have hw : weight pow2 decay (T k ++ [t]) u =
        weight pow2 decay (T k) u + pow2 (-decay * ((u - t : ℤ) : K)) := by
      simp [weight]
    rw [hw, weight_later hpow decay T sk h k t u]
    ring
  · rw [Function.update_of_ne hk, Function.update_of_ne hk]
    exact h k

omit hpow in
theorem pyMin_const (l : List K) (w : K) (hne : l ≠ []) (h : ∀ a ∈ l, a = w) : pyMin l = .ok w := by
  cases l with
  | nil => exact absurd rfl hne
  | cons a l =>
    have ha := h a (by simp)
    subst ha
    simp only [pyMin]
    congr 1
    induction l with
    | nil => rfl
    | cons b l ih =>
      have hb := h b (by simp)
      subst hb
      rw [List.foldl_cons, if_neg (lt_irrefl _)]
      exact ih (by simp) fun a ha => h a (by simp at ha ⊢; tauto)

/-- The cells of an instance in components number `r`, `r + 1`, …. -/
def cellsFrom (x : Fin dim → K) (r : ℕ) (cs : List (RsComponent K dim)) : List (List ℤ) :=
  (cs.zipIdx r).map fun p => cell p.2 p.1 x

omit hpow in
theorem cell_head (r : ℕ) (c : RsComponent K dim) (x : Fin dim → K) :
    (cell r c x).head? = some (r : ℤ) := rfl

omit hpow in
theorem not_mem_cellsFrom (x y : Fin dim → K) (c : RsComponent K dim) (q r : ℕ)
    (cs : List (RsComponent K dim)) (h : q < r) : cell q c y ∉ cellsFrom x r cs := by
  intro hm
  obtain ⟨p, hp, he⟩ := List.mem_map.1 hm
  have h1 := List.le_snd_of_mem_zipIdx hp
  have := congrArg List.head? he
  rw [cell_head, cell_head] at this
  simp at this
  omega

/-- The loop over the components. -/
theorem components_ok (decay : K) (t : ℤ) (x : Fin dim → K) (cs : List (RsComponent K dim)) (r : ℕ)
    (acc : K) (T : List ℤ → List ℤ) (sks : List (RsSketch K)) (hne : sks ≠ [])
    (h : ∀ sk ∈ sks, Good pow2 decay T sk) :
    ∃ sks', components pow2 log decay t x r cs acc sks =
        .ok (acc + ((cs.zipIdx r).map fun p =>
          log (1 + weight pow2 decay (T (cell p.2 p.1 x)) t)).sum) sks' ∧
      sks' ≠ [] ∧ ∀ sk ∈ sks', Good pow2 decay
        (fun key => T key ++ if key ∈ cellsFrom x r cs then [t] else []) sk := by
  induction cs generalizing r acc T sks with
  | nil =>
    refine ⟨sks, by simp [components], hne, ?_⟩
    simpa [cellsFrom] using h
  | cons c cs ih =>
    unfold components
    simp only
    have hmin : pyMin ((sks.map (visit pow2 decay t (cell r c x))).map Prod.fst)
        = .ok (weight pow2 decay (T (cell r c x)) t) := by
      apply pyMin_const
      · simpa using hne
      · intro a ha
        simp only [List.map_map, List.mem_map, Function.comp] at ha
        obtain ⟨sk, hsk, rfl⟩ := ha
        exact visit_weight hpow decay T sk (h sk hsk) t _
    rw [hmin]
    obtain ⟨sks', h1, h2, h3⟩ := ih (r + 1) (acc + log (1 + weight pow2 decay (T (cell r c x)) t))
      (Function.update T (cell r c x) (T (cell r c x) ++ [t]))
      ((sks.map (visit pow2 decay t (cell r c x))).map Prod.snd) (by simpa using hne) (by
        intro sk hsk
        simp only [List.map_map, List.mem_map, Function.comp] at hsk
        obtain ⟨sk0, hsk0, rfl⟩ := hsk
        exact visit_good hpow decay T sk0 (h sk0 hsk0) t _)
    refine ⟨sks', ?_, h2, ?_⟩
    · simp only
      rw [h1, List.zipIdx_cons, List.map_cons, List.sum_cons, add_assoc]
      congr 3
      congr 1
      apply List.map_congr_left
      intro p hp
      have hle := List.le_snd_of_mem_zipIdx hp
      rw [Function.update_of_ne]
      intro he
      have := congrArg List.head? he
      rw [cell_head, cell_head] at this
      simp at this
      omega
    · intro sk hsk key
      have := h3 sk hsk key
      have hT : (Function.update T (cell r c x) (T (cell r c x) ++ [t]) key ++
          if key ∈ cellsFrom x (r + 1) cs then [t] else []) =
          (T key ++ if key ∈ cellsFrom x r (c :: cs) then [t] else []) := by
        have hmem : key ∈ cellsFrom x r (c :: cs) ↔ key = cell r c x ∨ key ∈ cellsFrom x (r + 1) cs := by
          simp [cellsFrom, List.zipIdx_cons]
        by_cases hk : key = cell r c x
        · subst hk
          rw [Function.update_self, if_neg (not_mem_cellsFrom x x c r (r + 1) cs (by omega)),
            if_pos (hmem.2 (Or.inl rfl)), List.append_nil]
        · rw [Function.update_of_ne hk]
          by_cases hk2 : key ∈ cellsFrom x (r + 1) cs
          · rw [if_pos hk2, if_pos (hmem.2 (Or.inr hk2))]
          · rw [if_neg hk2, if_neg (by rw [hmem]; tauto)]
      simp only [hT] at this
      exact this

/-- The events of a stream whose first instance has time stamp `i0`. -/
def events (i0 : ℤ) (comps : List (RsComponent K dim)) (X : List (Fin dim → K)) (key : List ℤ) :
    List ℤ :=
  X.zipIdx.flatMap fun p => if key ∈ cellsFrom p.1 0 comps then [i0 + (p.2 : ℤ)] else []

omit hpow in
theorem events_snoc (i0 : ℤ) (comps : List (RsComponent K dim)) (X : List (Fin dim → K))
    (x : Fin dim → K) (key : List ℤ) :
    events i0 comps (X ++ [x]) key =
      events i0 comps X key ++ if key ∈ cellsFrom x 0 comps then [i0 + (X.length : ℤ)] else [] := by
  unfold events
  rw [List.zipIdx_append, List.flatMap_append]
  simp

omit hpow in
/-- The weight of the cell of `x` is the decayed count of the specification. -/
theorem weight_events (decay : K) (i0 : ℤ) (comps : List (RsComponent K dim))
    (X : List (Fin dim → K)) (x : Fin dim → K) (c : RsComponent K dim) (r : ℕ)
    (hc : comps[r]? = some c) :
    weight pow2 decay (events i0 comps X (cell r c x)) (i0 + (X.length : ℤ)) =
      decayedCount pow2 decay c X x := by
  have hmem : ∀ y : Fin dim → K, cell r c x ∈ cellsFrom y 0 comps ↔ SameCell c y x := by
    intro y
    have hcell : cell r c x = cell r c y ↔ SameCell c y x := by
      unfold cell SameCell
      simp only [List.cons.injEq, true_and, List.map_inj_left]
      exact ⟨fun h p hp => (h p hp).symm, fun h p hp => (h p hp).symm⟩
    rw [← hcell]
    constructor
    · intro hm
      obtain ⟨p, hp, he⟩ := List.mem_map.1 hm
      have hhead := congrArg List.head? he
      rw [cell_head, cell_head] at hhead
      simp only [Option.some.injEq, Nat.cast_inj] at hhead
      have h2 := List.mem_zipIdx_iff_getElem?.1 hp
      rw [hhead, hc] at h2
      simp only [Option.some.injEq] at h2
      rw [← he, hhead, ← h2]
    · intro he
      rw [he]
      refine List.mem_map.2 ⟨(c, r), List.mem_zipIdx_iff_getElem?.2 hc, rfl⟩
  unfold weight events decayedCount
  generalize X.length = n
  generalize X.zipIdx = l
  induction l with
  | nil => rfl
  | cons p l ih =>
    rw [List.flatMap_cons, List.map_append, List.sum_append, ih, List.filter_cons]
    by_cases hs : SameCell c p.1 x
    · rw [if_pos ((hmem p.1).2 hs)]
      simp only [hs, decide_true, if_true, List.map_cons, List.map_nil, List.sum_cons, List.sum_nil,
        add_zero]
      congr 2
      push_cast
      ring
    · rw [if_neg (fun h => hs ((hmem p.1).1 h))]
      simp [hs]

/-- The state after the stream `X`. -/
def Inv (pow2 log : K → K) (comps : List (RsComponent K dim)) (decay : K) (i0 : ℤ)
    (X : List (Fin dim → K)) (s : RsHashState K dim) : Prop :=
  s.components = comps ∧ s.decay = decay ∧ s.cmsketches ≠ [] ∧ s.index = i0 + (X.length : ℤ) ∧
  (∀ sk ∈ s.cmsketches, Good pow2 decay (events i0 comps X) sk) ∧
  s.lastScore = match X.getLast? with
    | none => none
    | some x => some (rsScore pow2 log decay comps X.dropLast x)

theorem fit_inv (comps : List (RsComponent K dim)) (hm : comps ≠ []) (decay : K) (i0 : ℤ)
    (X : List (Fin dim → K)) (s : RsHashState K dim) (h : Inv pow2 log comps decay i0 X s)
    (x : Fin dim → K) :
    ∃ s', fitPartial pow2 log s x = .ok () s' ∧ Inv pow2 log comps decay i0 (X ++ [x]) s' := by
  obtain ⟨h1, h2, h3, h4, h5, -⟩ := h
  obtain ⟨sks', g1, g2, g3⟩ := components_ok (log := log) hpow decay s.index x comps 0 0
    (events i0 comps X) s.cmsketches h3 h5
  unfold fitPartial
  simp only [h1, h2, g1]
  rw [if_neg (by simpa using hm)]
  refine ⟨_, rfl, rfl, rfl, g2, ?_, ?_, ?_⟩
  · simp only [h4, List.length_append, List.length_singleton]; push_cast; ring
  · intro sk hsk key
    have := g3 sk hsk key
    simp only [h4, ← events_snoc] at this
    exact this
  · simp only [List.getLast?_append, List.getLast?_singleton, Option.or_some, Option.some_or, List.dropLast_concat]
    congr 1
    unfold rsScore
    congr 1
    rw [zero_add, ← List.zipIdx_map_fst 0 comps, List.map_map]
    rw [List.zipIdx_map_fst 0 comps]
    congr 1
    apply List.map_congr_left
    intro p hp
    have hp' := List.mem_zipIdx_iff_getElem?.1 hp
    simp only [Function.comp]
    rw [h4, weight_events decay i0 comps X x p.1 p.2 hp']

theorem inv (comps : List (RsComponent K dim)) (hm : comps ≠ []) (sp : ℕ) (decay : K) (nh : ℕ)
    (hnh : 1 ≤ nh) (cs : List (Call (Fin dim → K) β)) :
    Inv pow2 log comps decay (1 - (sp : ℤ)) (fitted cs)
      (calls (detector pow2 log) (new comps sp decay nh) cs).2 := by
  refine calls_inv (d := detector (β := β) pow2 log)
    (P := fun cs (s : RsHashState K dim) => Inv pow2 log comps decay (1 - (sp : ℤ)) (fitted cs) s) ?_ _ ?_ cs
  · intro cs s c h
    rw [fitted_append]
    cases c with
    | fit x y =>
      obtain ⟨s', g1, g2⟩ := fit_inv hpow comps hm decay _ _ s h x
      simp only [call, detector, g1]
      exact g2
    | score x => simpa [fitted, call, detector] using h
  · refine ⟨rfl, rfl, ?_, ?_, ?_, rfl⟩
    · simp only [new]
      intro h0
      have := congrArg List.length h0
      simp at this; omega
    · simp [new, fitted]
    · intro sk hsk key
      simp only [new, List.mem_replicate] at hsk
      rw [hsk.2]
      rfl

end RsHash

end

/-! ### C72, C73 -/

section
variable {β : Type*} {dim : ℕ}

/-- Powers of two and logarithms of reals. -/
noncomputable abbrev realPow2 (x : ℝ) : ℝ := (2 : ℝ) ^ x

/-- **C72.** After any history whose last fitted instance is `x`, the score, whatever its
argument, is the mean over the components of the logarithm of one plus the decayed count of
the earlier instances in the cell of `x`. -/
theorem C72_rshash_score (comps : List (RsComponent ℝ dim)) (hm : comps ≠ []) (sp : ℕ) (decay : ℝ)
    (nh : ℕ) (hnh : 1 ≤ nh) (cs : List (Call (Fin dim → ℝ) β)) (earlier : List (Fin dim → ℝ))
    (x z : Fin dim → ℝ) (hx : fitted cs = earlier ++ [x]) :
    let s := (calls (RsHash.detector realPow2 Real.log) (RsHash.new comps sp decay nh) cs).2
    (RsHash.detector (β := β) realPow2 Real.log).scorePartial s z =
      .ok (some (rsScore realPow2 Real.log decay comps earlier x)) s := by
  intro s
  obtain ⟨-, -, -, -, -, h⟩ := RsHash.inv (β := β) (log := Real.log)
    (fun a b => Real.rpow_add (by norm_num : (0 : ℝ) < 2) a b) comps hm sp decay nh hnh cs
  rw [hx] at h
  simp only [RsHash.detector]
  rw [show s.lastScore = _ from h]
  simp

/-- **C72.** The score is `None` before the first fit. -/
theorem C72_rshash_unfitted (comps : List (RsComponent ℝ dim)) (hm : comps ≠ []) (sp : ℕ) (decay : ℝ)
    (nh : ℕ) (hnh : 1 ≤ nh) (cs : List (Call (Fin dim → ℝ) β)) (z : Fin dim → ℝ)
    (hx : fitted cs = []) :
    let s := (calls (RsHash.detector realPow2 Real.log) (RsHash.new comps sp decay nh) cs).2
    (RsHash.detector (β := β) realPow2 Real.log).scorePartial s z = .ok none s := by
  intro s
  obtain ⟨-, -, -, -, -, h⟩ := RsHash.inv (β := β) (log := Real.log)
    (fun a b => Real.rpow_add (by norm_num : (0 : ℝ) < 2) a b) comps hm sp decay nh hnh cs
  rw [hx] at h
  simp only [RsHash.detector]
  rw [show s.lastScore = _ from h]
  rfl

/-- **C72.** Scores are nonnegative, and 0 for an instance alone in its cells. -/
theorem C72_rshash_nonneg (comps : List (RsComponent ℝ dim)) (decay : ℝ)
    (earlier : List (Fin dim → ℝ)) (x : Fin dim → ℝ) :
    0 ≤ rsScore realPow2 Real.log decay comps earlier x ∧
    ((∀ c ∈ comps, ∀ y ∈ earlier, ¬ SameCell c y x) →
      rsScore realPow2 Real.log decay comps earlier x = 0) := by
  have hcount : ∀ c, 0 ≤ decayedCount realPow2 decay c earlier x := by
    intro c
    unfold decayedCount
    apply List.sum_nonneg
    intro a ha
    obtain ⟨p, -, rfl⟩ := List.mem_map.1 ha
    exact (Real.rpow_pos_of_pos (by norm_num) _).le
  constructor
  · unfold rsScore
    apply div_nonneg _ (by positivity)
    apply List.sum_nonneg
    intro a ha
    obtain ⟨c, -, rfl⟩ := List.mem_map.1 ha
    exact Real.log_nonneg (by linarith [hcount c])
  · intro h
    unfold rsScore
    have : (comps.map fun c => Real.log (1 + decayedCount realPow2 decay c earlier x)).sum = 0 := by
      apply List.sum_eq_zero
      intro a ha
      obtain ⟨c, hc, rfl⟩ := List.mem_map.1 ha
      have : decayedCount realPow2 decay c earlier x = 0 := by
        unfold decayedCount
        rw [List.filter_eq_nil_iff.2]
        · rfl
        · intro p hp
          have := h c hc p.1 (List.fst_mem_of_mem_zipIdx hp)
          simpa using this
      rw [this]; simp
    rw [this, zero_div]

/-- **C72.** The more instances in the cell, the higher the score: adding an old instance
never lowers it. -/
theorem C72_rshash_monotone (comps : List (RsComponent ℝ dim)) (decay : ℝ)
    (earlier : List (Fin dim → ℝ)) (old x : Fin dim → ℝ) :
    rsScore realPow2 Real.log decay comps earlier x ≤
      rsScore realPow2 Real.log decay comps (old :: earlier) x := by
  have hcount : ∀ c, 0 ≤ decayedCount realPow2 decay c earlier x := by
    intro c
    unfold decayedCount
    apply List.sum_nonneg
    intro a ha
    obtain ⟨p, -, rfl⟩ := List.mem_map.1 ha
    exact (Real.rpow_pos_of_pos (by norm_num) _).le
  have hle : ∀ c, decayedCount realPow2 decay c earlier x ≤
      decayedCount realPow2 decay c (old :: earlier) x := by
    intro c
    unfold decayedCount
    rw [List.zipIdx_cons, List.filter_cons]
    have hshift : (((earlier.zipIdx (0 + 1)).filter fun p => SameCell c p.1 x).map fun p =>
        realPow2 (-(decay * (((old :: earlier).length : ℝ) - (p.2 : ℝ))))).sum =
        ((earlier.zipIdx.filter fun p => SameCell c p.1 x).map fun p =>
        realPow2 (-(decay * ((earlier.length : ℝ) - (p.2 : ℝ))))).sum := by
      rw [List.zipIdx_succ, List.filter_map, List.map_map]
      congr 1
      have hf : ((fun p : (Fin dim → ℝ) × ℕ => decide (SameCell c p.1 x)) ∘
          fun p : (Fin dim → ℝ) × ℕ => (p.1, p.2 + 1)) = fun p => decide (SameCell c p.1 x) := rfl
      rw [hf]
      apply List.map_congr_left
      intro p _
      simp only [Function.comp, List.length_cons]
      congr 2
      push_cast
      ring
    split
    · rw [List.map_cons, List.sum_cons, hshift]
      have : 0 ≤ realPow2 (-(decay * (((old :: earlier).length : ℝ) - ((0 : ℕ) : ℝ)))) :=
        (Real.rpow_pos_of_pos (by norm_num) _).le
      linarith
    · rw [hshift]
  unfold rsScore
  apply div_le_div_of_nonneg_right _ (by positivity)
  apply List.sum_le_sum
  intro c _
  apply Real.log_le_log
  · linarith [hcount c]
  · linarith [hle c]

/-- **C73.** Two models with the same random choices and decay give the same score after
the same history, whatever their numbers of hash functions (≥ 1) and sampling points. -/
theorem C73_rshash_inert (comps : List (RsComponent ℝ dim)) (hm : comps ≠ []) (sp sp' : ℕ) (decay : ℝ)
    (nh nh' : ℕ) (hnh : 1 ≤ nh) (hnh' : 1 ≤ nh') (cs : List (Call (Fin dim → ℝ) β)) :
    (calls (RsHash.detector realPow2 Real.log) (RsHash.new comps sp decay nh) cs).1 =
      (calls (RsHash.detector realPow2 Real.log) (RsHash.new comps sp' decay nh') cs).1 := by
  have hpow : ∀ a b, realPow2 (a + b) = realPow2 a * realPow2 b :=
    fun a b => Real.rpow_add (by norm_num : (0 : ℝ) < 2) a b
  induction cs using List.reverseRecOn with
  | nil => rfl
  | append_singleton cs c ih =>
    rw [calls_append, calls_append]
    simp only [ih]
    congr 1
    have h1 := RsHash.inv (β := β) (log := Real.log) hpow comps hm sp decay nh hnh cs
    have h2 := RsHash.inv (β := β) (log := Real.log) hpow comps hm sp' decay nh' hnh' cs
    cases c with
    | fit x y =>
      obtain ⟨t1, g1, -⟩ := RsHash.fit_inv hpow comps hm decay _ _ _ h1 x
      obtain ⟨t2, g2, -⟩ := RsHash.fit_inv hpow comps hm decay _ _ _ h2 x
      simp only [calls, call, RsHash.detector] at g1 g2 ⊢
      rw [g1, g2]
    | score x =>
      simp only [calls, call, RsHash.detector]
      have e1 := h1.2.2.2.2.2
      have e2 := h2.2.2.2.2.2
      simp only [RsHash.detector] at e1 e2
      rw [e1, e2]

/-- **C73.** All sketches are always equal. -/
theorem C73_rshash_sketches (comps : List (RsComponent ℝ dim)) (sp : ℕ) (decay : ℝ)
    (nh : ℕ) (cs : List (Call (Fin dim → ℝ) β)) :
    ∀ a ∈ (calls (RsHash.detector realPow2 Real.log) (RsHash.new comps sp decay nh) cs).2.cmsketches,
    ∀ b ∈ (calls (RsHash.detector realPow2 Real.log) (RsHash.new comps sp decay nh) cs).2.cmsketches,
      a = b := by
  have hcomp : ∀ (cs : List (RsComponent ℝ dim)) (d : ℝ) (t : ℤ) (x : Fin dim → ℝ) (r : ℕ) (acc : ℝ)
      (sks : List (RsSketch ℝ)), (∀ a ∈ sks, ∀ b ∈ sks, a = b) →
      ∀ a ∈ (RsHash.components realPow2 Real.log d t x r cs acc sks).state,
      ∀ b ∈ (RsHash.components realPow2 Real.log d t x r cs acc sks).state, a = b := by
    intro cs d t x
    induction cs with
    | nil => intro r acc sks h; simpa [RsHash.components] using h
    | cons c cs ih =>
      intro r acc sks h
      have h' : ∀ a ∈ (sks.map (RsHash.visit realPow2 d t (RsHash.cell r c x))).map Prod.snd,
          ∀ b ∈ (sks.map (RsHash.visit realPow2 d t (RsHash.cell r c x))).map Prod.snd, a = b := by
        intro a ha b hb
        simp only [List.map_map, List.mem_map, Function.comp] at ha hb
        obtain ⟨a0, ha0, rfl⟩ := ha
        obtain ⟨b0, hb0, rfl⟩ := hb
        rw [h a0 ha0 b0 hb0]
      unfold RsHash.components
      simp only
      split
      · exact h'
      · exact ih _ _ _ h'
  refine calls_inv (d := RsHash.detector (β := β) realPow2 Real.log)
    (P := fun _ (s : RsHashState ℝ dim) => ∀ a ∈ s.cmsketches, ∀ b ∈ s.cmsketches, a = b) ?_ _ ?_ cs
  · intro cs s c h
    cases c with
    | score x => simpa [call, RsHash.detector] using h
    | fit x y =>
      have hst := hcomp s.components s.decay s.index x 0 0 s.cmsketches h
      have : (call (RsHash.detector realPow2 Real.log) s (Call.fit x y)).2
          = (RsHash.fitPartial realPow2 Real.log s x).state := by
        simp only [call, RsHash.detector]
        cases RsHash.fitPartial realPow2 Real.log s x <;> rfl
      rw [this]
      unfold RsHash.fitPartial
      cases hx : RsHash.components realPow2 Real.log s.decay s.index x 0 s.components 0 s.cmsketches with
      | err e sk => rw [hx] at hst; exact hst
      | ok v sk =>
        rw [hx] at hst
        simp only
        split <;> exact hst
  · intro a ha b hb
    simp only [RsHash.new, List.mem_replicate] at ha hb
    rw [ha.2, hb.2]

/-- A concrete case: one component on one dimension, width 2, no shift, decay 1; the
instances 1, 3, 0, 1 (the cells are 0, 1, 0, 0): the decayed count of the last is
`2 ^ (-3) + 2 ^ (-1)`. -/
example : decayedCount (K := ℚ) (dim := 1) (fun x => 2 ^ ⌊x⌋) 1 ⟨[(0, 0)], 2⟩
    [fun _ => 1, fun _ => 3, fun _ => 0] (fun _ => 1) = 2 ^ (-3 : ℤ) + 2 ^ (-1 : ℤ) := by
  decide +kernel

example : (calls (RsHash.detector (β := Unit) (dim := 1) (K := ℚ) (fun x => 2 ^ ⌊x⌋) id)
    (RsHash.new [⟨[(0, 0)], 2⟩] 1000 1 3)
    [.fit (fun _ => 1) none, .fit (fun _ => 3) none, .fit (fun _ => 0) none, .fit (fun _ => 1) none,
      .score fun _ => 0]).1.getLast? = some (.value (some (1 + (2 ^ (-3 : ℤ) + 2 ^ (-1 : ℤ))))) := by
  decide +kernel

end

end Pysad
