import Verif.Props.Loda
import Mathlib.Data.Finset.Card
import Mathlib.Data.List.GetD
import Mathlib.Data.List.Nodup
import Mathlib.Data.Finset.Range

/-! C99: the features used by the projections of `LODA`. -/

namespace Pysad

open Spec Loda

/-- The documented shape of `np.random.permutation(n)`. -/
def Spec.PermutationLaw {G K : Type*} (rng : LodaRng G K) : Prop :=
  ∀ g n, (rng.permutation g n).1.Perm (List.range n)

section
variable {G K β : Type*} [Field K] [LinearOrder K] [IsStrictOrderedRing K]

/-- The entries that are not zeroed. -/
def keptSet (d : ℕ) (ρ : List ℕ) : Finset ℕ := (ρ.drop (d - d.sqrt)).toFinset

theorem keptSet_spec {d : ℕ} {ρ : List ℕ} (h : ρ.Perm (List.range d)) :
    keptSet d ρ ⊆ Finset.range d ∧ (keptSet d ρ).card = d.sqrt ∧
      ∀ j < d, (j ∈ ρ.take (d - d.sqrt) ↔ j ∉ keptSet d ρ) := by
  have hnd : ρ.Nodup := h.nodup_iff.2 List.nodup_range
  have hlen : ρ.length = d := by simpa using h.length_eq
  refine ⟨fun j hj => ?_, ?_, fun j hj => ?_⟩
  · rw [keptSet, List.mem_toFinset] at hj
    simpa using h.mem_iff.1 (List.mem_of_mem_drop hj)
  · rw [keptSet, List.toFinset_card_of_nodup (hnd.sublist (List.drop_sublist _ _)),
      List.length_drop, hlen]
    have := Nat.sqrt_le_self d
    omega
  · have hmem : j ∈ ρ := h.mem_iff.2 (by simpa using hj)
    rw [keptSet, List.mem_toFinset]
    rw [← List.take_append_drop (d - d.sqrt) ρ] at hnd hmem
    have hdis := (List.nodup_append'.1 hnd).2.2
    constructor
    · intro h1 h2; exact hdis h1 h2
    · intro h1
      rcases List.mem_append.1 hmem with h2 | h2
      · exact h2
      · exact absurd h2 h1

theorem fitCuts_projections (rng : LodaRng G K) (hp : PermutationLaw rng) (nBins d : ℕ)
    (hn : 1 ≤ nBins) (x : List K) (hx : x.length = d) (g : G) (cs : List (LodaCut K))
    (hc : ∀ c ∈ cs, c.projection.length = d) :
    ∃ (g' : G) (cs' : List (LodaCut K)) (kept : ℕ → Finset ℕ),
      fitCuts rng nBins d x g cs = .ok () (g', cs') ∧ cs'.length = cs.length ∧
      (∀ i, kept i ⊆ Finset.range d ∧ (kept i).card = d.sqrt) ∧
      (∀ c ∈ cs', c.projection.length = d) ∧
      ∀ i c c', cs[i]? = some c → cs'[i]? = some c' →
        ∀ j < d, c'.projection.getD j 0 = if j ∈ kept i then c.projection.getD j 0 else 0 := by
  induction cs generalizing g with
  | nil =>
    refine ⟨g, [], fun _ => Finset.range d.sqrt, rfl, rfl, fun i => ⟨?_, by simp⟩, by simp,
      by simp⟩
    exact Finset.range_subset_range.2 (Nat.sqrt_le_self d)
  | cons c cs ih =>
    have hl := hc c (by simp)
    obtain ⟨g', cs', kept, h1, h2, h3, h4, h5⟩ := ih (rng.permutation g d).2
      (fun c h => hc c (by simp [h]))
    obtain ⟨H, L, hR⟩ := refit_eq (K := K) nBins hn
    set z := zeroAt ((rng.permutation g d).1.take (d - d.sqrt)) c.projection with hz
    have hzl : z.length = d := by simp [hz, hl]
    obtain ⟨k1, k2, k3⟩ := keptSet_spec (hp g d)
    refine ⟨g', ⟨z, H, L (List.zipWith (· * ·) z x).sum⟩ :: cs',
      fun i => match i with | 0 => keptSet d (rng.permutation g d).1 | i + 1 => kept i,
      ?_, by simp [h2], ?_, ?_, ?_⟩
    · simp only [fitCuts, project, ← hz, hzl, hx, if_true, Except.bind, hR, h1, Res.mapState_ok]
    · intro i
      cases i with
      | zero => exact ⟨k1, k2⟩
      | succ i => exact h3 i
    · intro a ha
      rcases List.mem_cons.1 ha with rfl | ha
      · exact hzl
      · exact h4 a ha
    · intro i a a' ha ha' j hj
      cases i with
      | zero =>
        obtain rfl : c = a := by simpa using ha
        obtain rfl := (Option.some.inj ha').symm
        simp only
        have hjl : j < c.projection.length := by omega
        rw [hz, zeroAt, List.getD_eq_getElem _ _ (by simpa using hjl), List.getElem_mapIdx,
          List.getD_eq_getElem _ _ hjl]
        by_cases hk : j ∈ keptSet d (rng.permutation g d).1
        · rw [if_neg (fun h => (k3 j hj).1 h hk), if_pos hk]
        · rw [if_pos ((k3 j hj).2 hk), if_neg hk]
      | succ i => exact h5 i a a' (by simpa using ha) (by simpa using ha') j hj

/-- What the projections are after some fits: the drawn rows, restricted to the features kept in
every fit. -/
def ProjInv (rng : LodaRng G K) (g : G) (nBins nCuts d n : ℕ) (s : LodaState G K) : Prop :=
  s.nBins = nBins ∧ s.nRandomCuts = nCuts ∧
  if n = 0 then s.arrays = none ∧ s.rng = g
  else ∃ arr, s.arrays = some (d, arr) ∧ arr.length = nCuts ∧
    (∀ c ∈ arr, c.projection.length = d) ∧
    ∃ kept : ℕ → ℕ → Finset ℕ, (∀ t i, kept t i ⊆ Finset.range d ∧ (kept t i).card = d.sqrt) ∧
      ∀ i c row, arr[i]? = some c → (rng.randn g nCuts d).1[i]? = some row → ∀ j < d,
        c.projection.getD j 0 = if ∀ t < n, j ∈ kept t i then row.getD j 0 else 0

theorem projInv_fit (rng : LodaRng G K) (hr : RandnShape rng) (hp : PermutationLaw rng) (g : G)
    (nBins nCuts d n : ℕ) (hn : 1 ≤ nBins) (s : LodaState G K)
    (h : ProjInv rng g nBins nCuts d n s) (x : List K) (hx : x.length = d) :
    ProjInv rng g nBins nCuts d (n + 1) (Loda.fitPartial rng s x).state ∧
      (Loda.fitPartial rng s x).out = .ok () := by
  obtain ⟨h1, h2, h3⟩ := h
  obtain ⟨r, b, m, a⟩ := s
  simp only at h1 h2 h3
  subst h1 h2
  by_cases h0 : n = 0
  · rw [if_pos h0] at h3
    obtain ⟨rfl, rfl⟩ := h3
    obtain ⟨g', cs', kept, e1, e2, e3, e4, e5⟩ := fitCuts_projections rng hp b d hn x hx
      (rng.randn r m d).2 ((rng.randn r m d).1.map fun r =>
          ⟨r, List.replicate b 0, List.replicate (b + 1) 0⟩)
      (by
        intro c hc'
        obtain ⟨r', hr', rfl⟩ := List.mem_map.1 hc'
        exact (hr r m d).2 r' hr')
    simp only [Loda.fitPartial, hx, e1, Res.mapState_ok, Res.state_ok, Res.out]
    refine ⟨⟨rfl, rfl, ?_⟩, trivial⟩
    rw [if_neg (by omega)]
    refine ⟨cs', rfl, by rw [e2, List.length_map, (hr r m d).1], e4, fun _ => kept, fun _ => e3, ?_⟩
    intro i c row hi hrow j hj
    rw [e5 i _ c (by rw [List.getElem?_map, hrow]; rfl) hi j hj]
    simp only [h0]
    simp
  · rw [if_neg h0] at h3
    obtain ⟨arr, rfl, f2, f3, kept, f4, f5⟩ := h3
    obtain ⟨g', cs', kept', e1, e2, e3, e4, e5⟩ := fitCuts_projections rng hp b d hn x hx r arr f3
    simp only [Loda.fitPartial, e1, Res.mapState_ok, Res.state_ok, Res.out]
    refine ⟨⟨rfl, rfl, ?_⟩, trivial⟩
    rw [if_neg (by omega)]
    refine ⟨cs', rfl, by rw [e2, f2], e4, fun t => if t = n then kept' else kept t, fun t i => ?_, ?_⟩
    · by_cases htn : t = n
      · simp only [if_pos htn]; exact e3 i
      · simp only [if_neg htn]; exact f4 t i
    · intro i c' row hi hrow j hj
      have hlt : i < arr.length := by
        rw [← e2]; exact (List.getElem?_eq_some_iff.1 hi).1
      rw [e5 i arr[i] c' (List.getElem?_eq_getElem hlt) hi j hj,
        f5 i arr[i] row (List.getElem?_eq_getElem hlt) hrow j hj]
      have key : (∀ t < n + 1, j ∈ (if t = n then kept' else kept t) i) ↔
          j ∈ kept' i ∧ ∀ t < n, j ∈ kept t i := by
        constructor
        · intro h
          refine ⟨by simpa using h n (by omega), fun t ht => ?_⟩
          have := h t (by omega)
          rwa [if_neg (by omega)] at this
        · rintro ⟨ha, hb⟩ t ht
          by_cases htn : t = n
          · rw [if_pos htn]; exact ha
          · rw [if_neg htn]; exact hb t (by omega)
      by_cases ha : j ∈ kept' i
      · rw [if_pos ha]
        by_cases hb : ∀ t < n, j ∈ kept t i
        · rw [if_pos hb, if_pos (key.2 ⟨ha, hb⟩)]
        · rw [if_neg hb, if_neg fun h => hb (key.1 h).2]
      · rw [if_neg ha, if_neg fun h => ha (key.1 h).1]

theorem loda_call_fit (rng : LodaRng G K) (log : K → Num K) (s : LodaState G K) (x : List K)
    (y : Option β) : (call (Loda.detector (β := β) rng log) s (.fit x y)).2 =
      (Loda.fitPartial rng s x).state := by
  simp only [call, Loda.detector]
  cases Loda.fitPartial rng s x <;> rfl

theorem loda_call_score (rng : LodaRng G K) (log : K → Num K) (s : LodaState G K) (x : List K) :
    (call (Loda.detector (β := β) rng log) s (.score x)).2 = s := by
  simp only [call, Loda.detector, Loda.scorePartial]
  split <;> rename_i heq
  · split at heq
    · split at heq <;> cases heq <;> rfl
    · split at heq <;> cases heq <;> rfl
  · split at heq
    · split at heq <;> cases heq <;> rfl
    · split at heq <;> cases heq <;> rfl

theorem loda_projInv (rng : LodaRng G K) (hr : RandnShape rng) (hp : PermutationLaw rng)
    (log : K → Num K) (g : G) (nBins nCuts d : ℕ) (hn : 1 ≤ nBins) (cs : List (Call (List K) β)) :
    (∀ x ∈ fitted cs, x.length = d) → ProjInv rng g nBins nCuts d (fitted cs).length
      (calls (Loda.detector rng log) (Loda.new g nBins nCuts) cs).2 := by
  refine calls_inv (d := Loda.detector rng log) (P := fun cs s =>
    (∀ x ∈ fitted cs, x.length = d) → ProjInv rng g nBins nCuts d (fitted cs).length s) ?_ _
    (fun _ => ⟨rfl, rfl, by simp [fitted, Loda.new]⟩) cs
  intro cs s c h hX
  rw [fitted_append] at hX ⊢
  have h' := h fun x hx => hX x (List.mem_append_left _ hx)
  cases c with
  | score x =>
    rw [loda_call_score]
    simpa [fitted] using h'
  | fit x y =>
    rw [loda_call_fit, List.length_append]
    exact (projInv_fit rng hr hp g nBins nCuts d _ hn s h' x (hX x (by simp [fitted]))).1

/-- **C99 (partial).** What the projections are: in the `t`-th fit each cut `i` keeps
`⌊√d⌋` features, drawn anew, and the projection is the drawn normal vector on the features kept in
every fit so far, 0 elsewhere. Missing: that `⌊√d⌋` features remain; they do after one fit
(`C99_loda_first_fit`). -/
theorem C99_loda_projections_partial (rng : LodaRng G K) (hr : RandnShape rng)
    (hp : PermutationLaw rng) (log : K → Num K) (g : G) (nBins nCuts d : ℕ) (hn : 1 ≤ nBins)
    (cs : List (Call (List K) β)) (hX : ∀ x ∈ fitted cs, x.length = d) (hne : fitted cs ≠ []) :
    ∃ arr, (calls (Loda.detector rng log) (Loda.new g nBins nCuts) cs).2.arrays = some (d, arr) ∧
      arr.length = nCuts ∧ (∀ c ∈ arr, c.projection.length = d) ∧
      ∃ kept : ℕ → ℕ → Finset ℕ,
        (∀ t i, kept t i ⊆ Finset.range d ∧ (kept t i).card = d.sqrt) ∧
        ∀ i c row, arr[i]? = some c → (rng.randn g nCuts d).1[i]? = some row → ∀ j < d,
          c.projection.getD j 0 =
            if ∀ t < (fitted cs).length, j ∈ kept t i then row.getD j 0 else 0 := by
  obtain ⟨_, _, h⟩ := loda_projInv rng hr hp log g nBins nCuts d hn cs hX
  rwa [if_neg (by simpa using hne)] at h

/-- The number of features a projection uses. -/
def Spec.featuresUsed (p : List K) : ℕ := p.countP fun v => decide (v ≠ 0)

/-- Normal draws are never exactly 0 (they are with probability 0). -/
def Spec.RandnNonzero (rng : LodaRng G K) : Prop :=
  ∀ g r c, ∀ row ∈ (rng.randn g r c).1, ∀ v ∈ row, v ≠ 0

theorem featuresUsed_eq (p row : List K) (S : Finset ℕ) (hl : row.length = p.length)
    (hS : S ⊆ Finset.range p.length) (hrow : ∀ v ∈ row, v ≠ 0)
    (h : ∀ j < p.length, p.getD j 0 = if j ∈ S then row.getD j 0 else 0) :
    featuresUsed p = S.card := by
  have hp : p = (List.range p.length).map fun j => p.getD j 0 := by
    refine List.ext_getElem (by simp) fun j h1 h2 => ?_
    rw [List.getElem_map, List.getElem_range, List.getD_eq_getElem _ _ h1]
  unfold featuresUsed
  rw [hp, List.countP_map]
  have hc : (List.range p.length).countP ((fun v => decide (v ≠ 0)) ∘ fun j => p.getD j 0) =
      (List.range p.length).countP fun j => decide (j ∈ S) := by
    refine List.countP_congr fun j hj => ?_
    have hj' := List.mem_range.1 hj
    simp only [Function.comp_apply, decide_eq_true_eq]
    rw [h j hj']
    by_cases hm : j ∈ S
    · have hjr : j < row.length := by omega
      rw [if_pos hm, List.getD_eq_getElem _ _ hjr]
      exact ⟨fun _ => hm, fun _ => hrow _ (List.getElem_mem hjr)⟩
    · rw [if_neg hm]; simp [hm]
  rw [hc, List.countP_eq_length_filter, ← List.toFinset_card_of_nodup
    (List.nodup_range.filter _)]
  congr 1
  ext j
  simp only [List.mem_toFinset, List.mem_filter, List.mem_range, decide_eq_true_eq]
  exact ⟨fun h => h.2, fun h => ⟨Finset.mem_range.1 (hS h), h⟩⟩

/-- **C99 (first fit).** After one fit every projection uses exactly `⌊√d⌋` features. -/
theorem C99_loda_first_fit (rng : LodaRng G K) (hr : RandnShape rng) (hp : PermutationLaw rng)
    (hz : RandnNonzero rng) (log : K → Num K) (g : G) (nBins nCuts : ℕ) (hn : 1 ≤ nBins)
    (x : List K) (y : Option β) :
    ∃ arr, (calls (Loda.detector rng log) (Loda.new g nBins nCuts) [.fit x y]).2.arrays =
        some (x.length, arr) ∧ arr.length = nCuts ∧
      ∀ c ∈ arr, featuresUsed c.projection = x.length.sqrt := by
  obtain ⟨arr, h1, h2, h3, kept, h4, h5⟩ := C99_loda_projections_partial (β := β) rng hr hp log g
    nBins nCuts x.length hn [.fit x y] (by simp [fitted]) (by simp [fitted])
  refine ⟨arr, h1, h2, fun c hc => ?_⟩
  obtain ⟨i, hi, rfl⟩ := List.getElem_of_mem hc
  have hlen := (hr g nCuts x.length).1
  have hi' : i < (rng.randn g nCuts x.length).1.length := by omega
  have hrow := List.getElem_mem hi'
  have hpl := h3 _ hc
  rw [featuresUsed_eq arr[i].projection _ (kept 0 i)
    (((hr g nCuts x.length).2 _ hrow).trans hpl.symm) (by rw [hpl]; exact (h4 0 i).1)
    (hz g nCuts x.length _ hrow), (h4 0 i).2]
  intro j hj
  rw [hpl] at hj
  rw [h5 i _ _ (List.getElem?_eq_getElem hi) (List.getElem?_eq_getElem hi') j hj]
  simp [fitted]

/-- All projections are zero. -/
def Exhausted (d : ℕ) (s : LodaState G K) : Prop :=
  ∃ arr, s.arrays = some (d, arr) ∧
    ∀ c ∈ arr, c.projection.length = d ∧ ∀ j < d, c.projection.getD j 0 = 0

theorem exhausted_fit (rng : LodaRng G K) (hp : PermutationLaw rng) (d : ℕ) (s : LodaState G K)
    (hn : 1 ≤ s.nBins) (h : Exhausted d s) (x : List K) (hx : x.length = d) :
    Exhausted d (Loda.fitPartial rng s x).state ∧
      (Loda.fitPartial rng s x).state.nBins = s.nBins := by
  obtain ⟨arr, h1, h2⟩ := h
  obtain ⟨g', cs', kept, e1, e2, e3, e4, e5⟩ := fitCuts_projections rng hp s.nBins d hn x hx s.rng
    arr fun c hc => (h2 c hc).1
  simp only [Loda.fitPartial, h1, e1, Res.mapState_ok, Res.state_ok, and_true]
  refine ⟨cs', rfl, fun c hc => ⟨e4 c hc, fun j hj => ?_⟩⟩
  obtain ⟨i, hi, rfl⟩ := List.getElem_of_mem hc
  have hi' : i < arr.length := by omega
  rw [e5 i arr[i] _ (List.getElem?_eq_getElem hi') (List.getElem?_eq_getElem hi) j hj,
    (h2 _ (List.getElem_mem hi')).2 j hj, ite_self]

theorem project_zero (p x : List K) (hl : p.length = x.length)
    (h : ∀ j < p.length, p.getD j 0 = 0) : project p x = .ok 0 := by
  rw [project, if_pos hl]
  congr 1
  refine List.sum_eq_zero fun v hv => ?_
  obtain ⟨j, hj, rfl⟩ := List.getElem_of_mem hv
  have hj' : j < p.length := by
    rw [List.length_zipWith] at hj; omega
  rw [List.getElem_zipWith, ← List.getD_eq_getElem p 0 hj', h j hj', zero_mul]

/-- **C99 (exhaustion).** Once the projections use no feature, this remains so, and `LODA` gives
all instances the same score, whatever is fitted from then on. -/
theorem C99_loda_exhausted (rng : LodaRng G K) (hr : RandnShape rng) (hp : PermutationLaw rng)
    (log : K → Num K) (g : G) (nBins nCuts d : ℕ) (hn : 1 ≤ nBins)
    (cs cs' : List (Call (List K) β)) (hX : ∀ x ∈ fitted (cs ++ cs'), x.length = d)
    (arr : List (LodaCut K))
    (harr : (calls (Loda.detector rng log) (Loda.new g nBins nCuts) cs).2.arrays = some (d, arr))
    (h0 : ∀ c ∈ arr, featuresUsed c.projection = 0) (x x' : List K) (hx : x.length = d)
    (hx' : x'.length = d) :
    ((Loda.detector (β := β) rng log).scorePartial
      (calls (Loda.detector rng log) (Loda.new g nBins nCuts) (cs ++ cs')).2 x).out =
    ((Loda.detector (β := β) rng log).scorePartial
      (calls (Loda.detector rng log) (Loda.new g nBins nCuts) (cs ++ cs')).2 x').out := by
  rw [fitted_append] at hX
  have hinv := loda_projInv (β := β) rng hr hp log g nBins nCuts d hn cs
    fun x hx => hX x (List.mem_append_left _ hx)
  have hex : Exhausted d (calls (Loda.detector (β := β) rng log) (Loda.new g nBins nCuts) cs).2 := by
    obtain ⟨_, _, h⟩ := hinv
    split at h
    · rw [h.1] at harr; simp at harr
    · obtain ⟨arr', e1, _, e3, _⟩ := h
      rw [e1] at harr
      obtain rfl : arr' = arr := by simpa using harr
      refine ⟨arr', e1, fun c hc => ⟨e3 c hc, fun j hj => ?_⟩⟩
      have hj' : j < c.projection.length := by rw [e3 c hc]; exact hj
      rw [List.getD_eq_getElem _ _ hj']
      have := h0 c hc
      rw [featuresUsed, List.countP_eq_zero] at this
      simpa using this _ (List.getElem_mem hj')
  have hend : Exhausted d
        (calls (Loda.detector (β := β) rng log) (Loda.new g nBins nCuts) (cs ++ cs')).2 ∧
      (calls (Loda.detector (β := β) rng log) (Loda.new g nBins nCuts) (cs ++ cs')).2.nBins = nBins := by
    have hX' : ∀ x ∈ fitted cs', x.length = d := fun x hx => hX x (List.mem_append_right _ hx)
    clear hX harr
    induction cs' using List.reverseRecOn with
    | nil => rw [List.append_nil]; exact ⟨hex, hinv.1⟩
    | append_singleton cs' c ih =>
      rw [fitted_append] at hX'
      obtain ⟨i1, i2⟩ := ih fun x hx => hX' x (List.mem_append_left _ hx)
      rw [← List.append_assoc, calls_snoc]
      cases c with
      | score x => rw [loda_call_score]; exact ⟨i1, i2⟩
      | fit x y =>
        rw [loda_call_fit]
        obtain ⟨j1, j2⟩ := exhausted_fit rng hp d _ (by rw [i2]; exact hn) i1 x
          (hX' x (by simp [fitted]))
        exact ⟨j1, j2.trans i2⟩
  obtain ⟨⟨a, ha, hz⟩, _⟩ := hend
  have key : ∀ (s : LodaState G K), s.arrays = some (d, a) → ∀ x : List K, x.length = d →
      ((Loda.detector (β := β) rng log).scorePartial s x).out =
        (match a.foldlM (fun acc c => (pyIndex c.histogram (searchLeft s.nBins c.limits 0)).bind
          fun h => .ok (Num.add acc (Num.smul (-(1 / (s.nRandomCuts : K))) (log h)))) (Num.fin 0) with
        | .error e => .error e
        | .ok v => .ok (v.divNat s.nRandomCuts)) := by
    intro s hs x hx
    simp only [Loda.detector, Loda.scorePartial, hs]
    have hfold : ∀ (l : List (LodaCut K)), (∀ c ∈ l, c ∈ a) → ∀ acc : Num K,
        l.foldlM (scoreCut log s.nBins s.nRandomCuts x) acc =
        l.foldlM (fun acc c => (pyIndex c.histogram (searchLeft s.nBins c.limits 0)).bind
          fun h => .ok (Num.add acc (Num.smul (-(1 / (s.nRandomCuts : K))) (log h)))) acc := by
      intro l
      induction l with
      | nil => intro _ acc; rfl
      | cons c l ih =>
        intro hl acc
        obtain ⟨z1, z2⟩ := hz c (hl c (by simp))
        have hc : scoreCut log s.nBins s.nRandomCuts x acc c =
            (pyIndex c.histogram (searchLeft s.nBins c.limits 0)).bind
              fun h => .ok (Num.add acc (Num.smul (-(1 / (s.nRandomCuts : K))) (log h))) := by
          rw [scoreCut, project_zero _ _ (by rw [z1, hx]) (by rw [z1]; exact z2)]
          rfl
        rw [List.foldlM_cons, List.foldlM_cons, hc]
        congr 1
        funext acc'
        exact ih (fun c h => hl c (by simp [h])) acc'
    rw [hfold a (fun c h => h)]
    split <;> simp_all [Res.out]
  rw [key _ ha x hx, key _ ha x' hx']

end

/-- The property one expects: every projection uses `⌊√d⌋` features, as long as the stream lasts. -/
def C99_statement : Prop :=
  ∀ (rng : LodaRng ℕ ℚ), RandnShape rng → PermutationLaw rng → RandnNonzero rng →
    ∀ (g nBins nCuts d : ℕ), 1 ≤ nBins → ∀ cs : List (Call (List ℚ) Unit), fitted cs ≠ [] →
    (∀ x ∈ fitted cs, x.length = d) → ∀ arr,
    (calls (Loda.detector rng .fin) (Loda.new g nBins nCuts) cs).2.arrays = some (d, arr) →
    ∀ c ∈ arr, featuresUsed c.projection = d.sqrt

/-- A generator whose permutations alternate between the identity and the reversal. -/
def flippingRng : LodaRng ℕ ℚ where
  randn g r c := (List.replicate r (List.replicate c 1), g)
  permutation g n := (if g % 2 = 0 then List.range n else (List.range n).reverse, g + 1)

theorem flippingRng_shape : RandnShape flippingRng := by
  intro g r c
  refine ⟨by simp [flippingRng], fun row h => ?_⟩
  simp only [flippingRng] at h
  rw [List.eq_of_mem_replicate h]; simp

theorem flippingRng_perm : PermutationLaw flippingRng := by
  intro g n
  simp only [flippingRng]
  split
  · exact List.Perm.refl _
  · exact List.reverse_perm _

theorem flippingRng_nonzero : RandnNonzero flippingRng := by
  intro g r c row hrow v hv
  simp only [flippingRng] at hrow
  rw [List.eq_of_mem_replicate hrow] at hv
  rw [List.eq_of_mem_replicate hv]
  exact one_ne_zero

/-- Two fits with two features: the projection is used up. -/
theorem flippingRng_run :
    (calls (Loda.detector (β := Unit) flippingRng .fin) (Loda.new 0 1 1)
      [.fit [3, 4] none, .fit [5, 6] none]).2.arrays =
      some (2, [⟨[0, 0], [1], [-1 / 2, 1 / 2]⟩]) := by
  decide +kernel

/-- **C99.** Two features, one cut, two fits: the second fit drops the feature the first one kept. -/
theorem C99_loda_projections_refuted : ¬ C99_statement := by
  intro h
  have := h flippingRng flippingRng_shape flippingRng_perm flippingRng_nonzero 0 1 1 2
    le_rfl _ (by simp [fitted]) (by simp [fitted]) _ flippingRng_run _ (List.mem_singleton_self _)
  revert this
  decide +kernel

/-- The hypotheses of `C99_loda_exhausted` are met after two fits: `[1, 0]` and `[0, 100]` get the
same score. -/
example (cs' : List (Call (List ℚ) Unit)) (h : ∀ x ∈ fitted cs', x.length = 2) :
    ((Loda.detector (β := Unit) flippingRng .fin).scorePartial
      (calls (Loda.detector flippingRng .fin) (Loda.new 0 1 1)
        ([.fit [3, 4] none, .fit [5, 6] none] ++ cs')).2 [1, 0]).out =
    ((Loda.detector (β := Unit) flippingRng .fin).scorePartial
      (calls (Loda.detector flippingRng .fin) (Loda.new 0 1 1)
        ([.fit [3, 4] none, .fit [5, 6] none] ++ cs')).2 [0, 100]).out :=
  C99_loda_exhausted flippingRng flippingRng_shape flippingRng_perm .fin 0 1 1 2 le_rfl
    [.fit [3, 4] none, .fit [5, 6] none] cs'
    (by simpa [fitted] using h) _ flippingRng_run (by decide +kernel) _ _ rfl rfl

end Pysad
