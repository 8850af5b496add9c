import Verif.Props.Deviation
import Verif.Props.HalfSpaceTrees
import Verif.Props.Integrations
import Verif.Props.KnnCad
import Verif.Props.RelativeEntropy
import Verif.Props.Rrcf
import Verif.Props.RsHash
import Verif.Props.SeasonalEsd
import Verif.Props.SimpleModels
import Verif.Props.XStream
import Mathlib.Data.Set.Card

/-! C103: how much the detectors remember of the stream. -/

namespace Pysad

open Spec

/-- Whatever the history of calls, the object never stores more than a fixed number of items. -/
def Spec.BoundedMemory {σ α β S : Type*} (d : Detector σ α β S) (s0 : σ) (stored : σ → ℕ∞) : Prop :=
  ∃ B : ℕ, ∀ cs : List (Call α β), stored (calls d s0 cs).2 ≤ B

/-! ### Detectors with bounded memory -/

/-- **C103.** ExactStorm stores at most `window_size` instances. -/
theorem C103_storm_memory {α β K : Type*} [Field K] [LinearOrder K] (dist : α → α → K) (w : ℕ) (r : K) :
    BoundedMemory (exactStorm (β := β) dist) (StormState.new w r)
      fun s => (s.window.window.length : ℕ∞) := by
  refine ⟨w, fun cs => ?_⟩
  exact Nat.cast_le.2 (C50_storm_memory (β := β) dist w r cs)

/-- The number of nodes of a tree. -/
def Spec.nodeCount {K : Type*} : HsTree K → ℕ
  | .nil => 0
  | .node l r _ _ _ _ _ => nodeCount l + nodeCount r + 1

theorem state_mapState {σ τ A : Type*} (f : σ → τ) (r : Res σ A) : (r.mapState f).state = f r.state := by
  cases r <;> rfl

section
variable {β K : Type*} [Field K] [LinearOrder K]

theorem nodeCount_updateMass (D : ℕ) (x : List K) (b : Bool) (t : HsTree K) :
    nodeCount (Hst.updateMass D x b t).state = nodeCount t := by
  induction t with
  | nil => rfl
  | node l r rm lm q p k ihl ihr =>
    unfold Hst.updateMass
    simp only
    by_cases hk : k < D
    · rw [if_pos hk]
      cases x[q]? with
      | none => rfl
      | some v =>
        simp only
        by_cases hp : p < v
        · rw [if_pos hp, state_mapState, nodeCount, ihr, nodeCount]
        · rw [if_neg hp, state_mapState, nodeCount, ihl, nodeCount]
    · rw [if_neg hk]; rfl

theorem nodeCount_updateModel (t : HsTree K) : nodeCount (Hst.updateModel t) = nodeCount t := by
  induction t with
  | nil => rfl
  | node l r rm lm q p k ihl ihr => simp [Hst.updateModel, nodeCount, ihl, ihr]

theorem nodeCount_fitRoots (D : ℕ) (x : List K) (b : Bool) (ts : List (HsTree K)) :
    (Hst.fitRoots D x b ts).state.map nodeCount = ts.map nodeCount := by
  induction ts with
  | nil => rfl
  | cons t ts ih =>
    have ht := nodeCount_updateMass D x b t
    unfold Hst.fitRoots
    cases h : Hst.updateMass D x b t with
    | err e t' => rw [h] at ht; simpa using ht
    | ok u t' => rw [h] at ht; simp only [state_mapState, List.map_cons, ih]; simpa using ht

/-- **C103.** The trees of HalfSpaceTrees keep their nodes, whatever is fitted, rejected or
scored. -/
theorem C103_hst_memory (s0 : HstState K) (cs : List (Call (List K) β)) :
    (calls (Hst.detector K β) s0 cs).2.roots.map nodeCount = s0.roots.map nodeCount := by
  refine calls_inv (d := Hst.detector K β)
    (P := fun _ (s : HstState K) => s.roots.map nodeCount = s0.roots.map nodeCount) ?_ _ rfl cs
  intro cs s c h
  cases c with
  | score x =>
    have : (call (Hst.detector K β) s (.score x)).2 = s := by
      simp only [call, Hst.detector, Hst.scorePartial]
      cases List.foldlM (fun acc t => (Hst.scoreTree x t).map (acc + ·)) (0 : K) s.roots <;> rfl
    rw [this]; exact h
  | fit x y =>
    have hst : (call (Hst.detector K β) s (.fit x y)).2 = (Hst.fitPartial s x).state := by
      simp only [call, Hst.detector]
      cases Hst.fitPartial s x <;> rfl
    rw [hst]
    have hr := nodeCount_fitRoots s.maxDepth x s.isFirstWindow s.roots
    simp only [Hst.fitPartial]
    cases hf : Hst.fitRoots s.maxDepth x s.isFirstWindow s.roots with
    | err e ts => rw [hf] at hr; simpa using hr.trans h
    | ok u ts =>
      rw [hf] at hr
      simp only [Res.mapState_ok, Res.bind_ok]
      have hr' : ts.map nodeCount = s0.roots.map nodeCount := hr.trans h
      split
      · exact hr'
      · split
        · simp only [Res.state_ok, List.map_map]
          rw [← hr']
          exact List.map_congr_left fun t _ => nodeCount_updateModel t
        · exact hr'

/-- **C103.** SeasonalESD stores at most `window_size` values. -/
theorem C103_sesd_memory {hybrid : Bool} {period W m : ℤ} {alpha : K} {s0 : SesdState K}
    (h0 : Sesd.new hybrid period W m alpha = .ok s0) (env : SesdEnv K) :
    BoundedMemory (Sesd.detector (β := β) env) s0 fun s => (s.window.window.length : ℕ∞) := by
  refine ⟨W.toNat, fun cs => ?_⟩
  rw [sesd_calls h0 env cs]
  simp only [lastN_length]
  exact_mod_cast min_le_left _ _

end

/-- **C103.** Each tree of RobustRandomCutForest holds at most `tree_size + 1` instances, and
their number stays `num_trees`. -/
theorem C103_rrcf_memory {τ α K G β : Type*} [Field K] (api : RcTreeApi τ α K G) (g : G)
    (m T : ℕ) (hT : 1 ≤ T) (cs : List (Call α β)) :
    let s := (calls (Rrcf.detector api) (Rrcf.new api g m T) cs).2
    s.forest.length = m ∧ ∀ t ∈ s.forest, (api.leaves t).length ≤ T + 1 := by
  intro s
  obtain ⟨h1, h2, -⟩ := C71_rrcf_recent_partial (β := β) api g m T hT cs
  refine ⟨h1, fun t ht => ?_⟩
  have := congrArg List.length (h2 t ht)
  rw [List.length_map] at this
  rw [this]
  split
  · assumption
  · rw [List.length_append, lastN_length, List.length_take]; omega

section
variable {G M α β S : Type*} {b : BatchDetector G M α β S}

/-- **C103.** ReferenceWindowModel holds at most `window_size` reference instances, and fewer than
`window_size + sliding_size` waiting ones. -/
theorem C103_refwindow_memory (hb : Trainable b) (g : G) (w sl : ℕ) (hw : 2 ≤ w) (hs : 1 ≤ sl)
    (L : Bool) (s0 : RefWindowState G M α β) (h0 : RefWindow.new b g w sl none none = .ok () s0)
    (cs : List (Call α β)) (hL : Labelled L cs) :
    let s := (calls (RefWindow.detector b) s0 cs).2
    s.curX.length < w + sl ∧ ∀ D, s.refX = some D → D.length ≤ w := by
  intro s
  obtain ⟨-, -, -, h4, -, h6, h7⟩ := refWindow_inv hb g w sl hw hs L s0 h0 cs hL
  have hd := Nat.div_add_mod (fitted cs).length sl
  have hm := Nat.mod_lt (fitted cs).length (show sl > 0 by omega)
  rw [Nat.mul_comm] at hd
  constructor
  · rw [show s.curX = _ from h4]
    unfold waiting
    split
    · omega
    · rw [List.length_drop]; omega
  · intro D hD
    by_cases hX : fitted cs = []
    · rw [show s.refX = _ from (h6 hX).1] at hD; cases hD
    · rw [show s.refX = _ from (h7 hX).1, Option.some.injEq] at hD
      rw [← hD]
      unfold trainingSet
      split
      · omega
      · split
        · rw [List.length_take]; omega
        · rw [lastN_length]; omega

end

/-! ### xStream -/

section
variable {K β : Type*} [Field K] [LinearOrder K] [IsStrictOrderedRing K] [FloorRing K] {k : ℕ}

open XStream

/-- The keys of a dict. -/
def Spec.dictKeys {κ V : Type*} (d : κ → Option V) : Set κ := {b | d b ≠ none}

/-- No dict of the chain holds an explicit 0. -/
def NoZeros (c : XsChain K k) : Prop := ∀ a b, c.heap a b ≠ some 0

theorem noZeros_record (c : XsChain K k) (h : NoZeros c) (d : ℕ) (l : Fin k → ℤ) :
    NoZeros (record c d l) := by
  have key : ∀ ref, ∀ a b, Function.update c.heap ref (increment (c.heap ref) l) a b ≠ some 0 := by
    intro ref a b
    by_cases ha : a = ref
    · subst ha
      rw [Function.update_self, increment]
      by_cases hb : b = l
      · subst hb; simp
      · rw [Function.update_of_ne hb]; exact h _ _
    · rw [Function.update_of_ne ha]; exact h _ _
  unfold record
  split
  · exact key _
  · exact key _

theorem noZeros_fitLoop (X : Fin k → K) (fs : List (Fin k)) (c : XsChain K k) (h : NoZeros c)
    (d : ℕ) (st) : NoZeros (fitLoop X c d fs st) := by
  induction fs generalizing c d st with
  | nil => exact h
  | cons f fs ih => exact ih _ (noZeros_record c h _ _) _ _

theorem noZeros_nextWindow (c : XsChain K k) (h : NoZeros c) : NoZeros (nextWindow c) := by
  intro a b
  simp only [nextWindow]
  split
  · simp
  · exact h a b

theorem noZeros_calls (mmh3 : String → ℕ → ℕ) (log2 : K → K) (p : StreamhashState K)
    (W : ℕ) (draws : List (XsDraw K k)) (cs : List (Call (List K) β)) :
    ∀ c ∈ (calls (detector mmh3 log2) (XStream.new p W draws) cs).2.chains, NoZeros c := by
  refine calls_inv (d := detector (β := β) mmh3 log2)
    (P := fun _ (s : XStreamState K k) => ∀ c ∈ s.chains, NoZeros c) ?_ _ ?_ cs
  · intro cs s c h
    cases c with
    | score x =>
      have : (call (detector (β := β) mmh3 log2) s (.score x)).2 = s := by
        simp only [call, detector, XStream.scorePartial]
        cases scoreChains log2 (project mmh3 s.streamhash x) s.chains 0 <;> rfl
      rw [this]; exact h
    | fit x y =>
      have hst : (call (detector (β := β) mmh3 log2) s (.fit x y)).2
          = (XStream.fitPartial mmh3 s x).state := by
        simp only [call, detector]
        cases XStream.fitPartial mmh3 s x <;> rfl
      rw [hst]
      have h1 : ∀ c ∈ s.chains.map (fitChain (project mmh3 s.streamhash x)), NoZeros c := by
        intro c hc
        obtain ⟨c0, hc0, rfl⟩ := List.mem_map.1 hc
        exact noZeros_fitLoop _ _ _ (h c0 hc0) _ _
      unfold XStream.fitPartial
      simp only
      split
      · exact h1
      · split
        · split
          · exact h1
          · intro c hc
            simp only [Res.state_ok, List.map_map] at hc
            obtain ⟨c0, hc0, rfl⟩ := List.mem_map.1 hc
            exact noZeros_nextWindow _ fun a b => h1 _ (List.mem_map_of_mem hc0) a b
        · exact h1
  · intro c hc
    obtain ⟨d, -, rfl⟩ := List.mem_map.1 hc
    intro a b
    simp [newChain]

theorem dictKeys_encard_le {V : Type*} {n : ℕ} (dict : XsDict k) (hz : ∀ b, dict b ≠ some 0)
    (w : List V) (hw : w.length ≤ n) (f : V → Fin k → ℤ)
    (h : ∀ b, (dict b).getD 0 = w.countP fun x => decide (f x = b)) :
    (dictKeys dict).encard ≤ n := by
  have hsub : dictKeys dict ⊆ ((w.map f).toFinset : Set (Fin k → ℤ)) := by
    intro b hb
    have hpos : 0 < (dict b).getD 0 := by
      cases hd : dict b with
      | none => exact absurd hd hb
      | some v =>
        have := hz b
        rw [hd] at this
        simp at this ⊢
        omega
    rw [h b, List.countP_pos_iff] at hpos
    obtain ⟨x, hx, he⟩ := hpos
    simp only [decide_eq_true_eq] at he
    simp only [List.coe_toFinset, List.mem_map, Set.mem_setOf_eq]
    exact ⟨x, hx, he⟩
  refine (Set.encard_le_encard hsub).trans ?_
  rw [Set.encard_coe_eq_coe_finsetCard]
  have := List.toFinset_card_le (w.map f)
  rw [List.length_map] at this
  exact_mod_cast this.trans hw

/-- **C103.** xStream holds fewer than `window_size` instances of the current window, and at each
depth of each chain the sketch in use and the one being filled have at most `window_size` bins. -/
theorem C103_xstream_memory (mmh3 : String → ℕ → ℕ) (log2 : K → K) (p : StreamhashState K)
    (W : ℕ) (hW : 1 ≤ W) (draws : List (XsDraw K k)) (cs : List (Call (List K) β)) :
    let s := (calls (detector mmh3 log2) (XStream.new p W draws) cs).2
    s.curWindow.length < W ∧ s.chains.length = draws.length ∧
    ∀ (i : ℕ) (draw : XsDraw K k) (c : XsChain K k), draws[i]? = some draw → s.chains[i]? = some c → ∀ d < draw.fs.length,
      (dictKeys (c.heap (c.cmsketches d))).encard ≤ W ∧
      ((fitted cs).length ≥ W → (dictKeys (c.heap (c.cmsketchesCur d))).encard ≤ W) := by
  intro s
  have hinv := inv_calls (β := β) mmh3 log2 p W hW draws cs
  have hm := Nat.mod_lt (fitted cs).length (show W > 0 by omega)
  have hd := Nat.div_add_mod (fitted cs).length W
  have hlen : (images mmh3 p cs : List (Fin k → K)).length = (fitted cs).length := by simp [images]
  have hcur : ((images mmh3 p cs : List (Fin k → K)).drop
      (W * ((images mmh3 p cs : List (Fin k → K)).length / W))).length < W := by
    rw [List.length_drop, hlen]; omega
  refine ⟨?_, hinv.chains.length_eq.symm, ?_⟩
  · rw [show s.curWindow = _ from hinv.cur]; exact hcur
  · intro i draw c hi hc d hdl
    obtain ⟨c', h1, h2⟩ := forall₂_getElem? hinv.chains i draw hi
    rw [hc, Option.some.injEq] at h1
    subst h1
    have hz : NoZeros c := noZeros_calls mmh3 log2 p W draws cs c (List.mem_of_getElem? hc)
    refine ⟨dictKeys_encard_le _ (hz _) _ (comparedWindow_length W _) _ (h2.refCount d hdl), ?_⟩
    intro hge
    exact dictKeys_encard_le _ (hz _) _ hcur.le _
      (h2.curCount (by rw [hlen]; simpa using hge) d hdl)

end

/-! ### Detectors whose memory grows with the stream -/

/-- The property for KNNCAD. -/
def C103_knncad_statement : Prop :=
  ∀ (inv : List (List ℚ) → Option (List (List ℚ))) (P : ℕ), 48 ≤ P →
    BoundedMemory (KnnCad.detector (β := Unit) inv) (KnnCad.new P) fun s => (s.buf.length : ℕ∞)

/-- **C103 (partial).** KNNCAD keeps every value for ever; only its other lists are bounded. -/
theorem C103_knncad_memory_partial {K β : Type*} [Field K] [LinearOrder K] [IsStrictOrderedRing K]
    (inv : List (List K) → Option (List (List K))) (P : ℕ) (hP : 48 ≤ P) (cs : List (Call (List K) β)) :
    let s := (calls (KnnCad.detector inv) (KnnCad.new P) cs).2
    s.buf = firstValues cs ∧ s.training.length ≤ P ∧ s.calibration.length ≤ P ∧
      s.scores.length ≤ P := by
  intro s
  obtain ⟨h1, -, -, h4, h5⟩ := knn_inv (β := β) inv P hP cs
  refine ⟨h1, ?_⟩
  rcases Nat.lt_or_ge (firstValues cs).length P with hlt | hge
  · obtain ⟨a, b, c⟩ := h4 hlt
    rw [show s.training = _ from a, show s.calibration = _ from b, show s.scores = _ from c,
      segments_length]
    simp only [List.length_nil]
    omega
  · obtain ⟨a, b, c⟩ := h5 hge
    rw [show s.training = _ from a, show s.calibration = _ from b, show s.scores.length = _ from c,
      segments_length, segments_length]
    omega

theorem fitted_replicate {α β : Type*} (n : ℕ) (x : α) (y : Option β) :
    fitted (List.replicate n (Call.fit x y)) = List.replicate n x := by
  induction n with
  | zero => rfl
  | succ n ih => simp [List.replicate_succ, fitted, ih]

theorem C103_knncad_refuted : ¬ C103_knncad_statement := by
  intro h
  obtain ⟨B, hB⟩ := h (fun _ => none) 48 le_rfl
  have h1 := hB (List.replicate (B + 1) (.fit [0] none))
  simp only at h1
  rw [(C103_knncad_memory_partial (fun _ => none) 48 le_rfl _).1] at h1
  have : (firstValues (List.replicate (B + 1) (Call.fit [(0 : ℚ)] (none : Option Unit)))).length = B + 1 := by
    rw [firstValues, fitted_replicate]
    generalize B + 1 = n
    induction n with
    | zero => rfl
    | succ n ih => simpa [List.replicate_succ] using ih
  rw [this] at h1
  norm_cast at h1
  omega

/-- The property for RelativeEntropy. -/
def C103_relent_statement : Prop :=
  ∀ (entropy : List (Num ℚ) → List (Num ℚ) → Num ℚ) (isf : ℤ → Num ℚ) (lo hi : ℚ) (n W : ℕ)
    (s0 : RelEntState ℚ), RelEnt.new isf lo hi n W = .ok s0 →
    BoundedMemory (RelEnt.detector (β := Unit) entropy) s0 fun s => (s.util.length : ℕ∞)

/-- **C103.** RelativeEntropy keeps every value, although it only uses the last `W` (partial: what
it keeps). -/
theorem C103_relent_memory_partial {K β : Type*} [Field K] [LinearOrder K] [IsStrictOrderedRing K]
    [FloorRing K] (entropy : List (Num K) → List (Num K) → Num K) (isf : ℤ → Num K) (lo hi : K)
    (hne : lo ≠ hi) (n W : ℕ) (hn : 1 ≤ n) (hW : 1 ≤ W) (s0 : RelEntState K)
    (h0 : RelEnt.new isf lo hi n W = .ok s0) (cs : List (Call K β)) :
    let s := (calls (RelEnt.detector entropy) s0 cs).2
    s.util = fitted cs ∧ s.P.length ≤ 1 := by
  intro s
  obtain ⟨-, h2, -, -, -, -, h7, h8⟩ := relEnt_inv entropy isf lo hi hne n W hn hW s0 h0 cs
  refine ⟨h2, ?_⟩
  rcases Nat.lt_or_ge (fitted cs).length W with hlt | hge
  · rw [show s.P = _ from (h7 hlt).2.1]; simp
  · rw [show s.P = _ from (h8 hge).2.1]; simp

theorem C103_relent_refuted : ¬ C103_relent_statement := by
  intro h
  obtain ⟨B, hB⟩ := h (fun _ _ => .nan) (fun _ => .fin 1) 0 1 2 3 _ rfl
  have h1 := hB (List.replicate (B + 1) (.fit 0 none))
  simp only at h1
  rw [(C103_relent_memory_partial (fun _ _ => .nan) (fun _ => .fin 1) 0 1 (by norm_num) 2 3
    (by norm_num) (by norm_num) _ rfl _).1, fitted_replicate, List.length_replicate] at h1
  norm_cast at h1
  omega

/-- The property for MedianAbsoluteDeviation. -/
def C103_mad_statement : Prop :=
  BoundedMemory (medianAbsoluteDeviation (K := ℚ) (β := Unit)) (MadState.new true 1)
    fun s => (s.medianMeter.lst.length : ℕ∞)

/-- **C103.** MedianAbsoluteDeviation keeps every value and every deviation (partial: exactly
that). -/
theorem C103_mad_memory_partial {K β : Type*} [Field K] [LinearOrder K] [IsStrictOrderedRing K]
    (b : K) (absolute : Bool) (cs : List (Call (List K) β)) :
    let s := (calls medianAbsoluteDeviation (MadState.new absolute b) cs).2
    (s.medianMeter.lst : Multiset K) = (univariate (fitted cs) : Multiset K) ∧
      s.madMeter.lst.length = (univariate (fitted cs)).length := by
  intro s
  obtain ⟨-, -, h1, ds, hd, h2, -⟩ := mad_inv b absolute cs
  refine ⟨h1.1, ?_⟩
  have := congrArg Multiset.card h2
  rw [Multiset.coe_card, Multiset.coe_card, hd.1] at this
  exact this

theorem C103_mad_refuted : ¬ C103_mad_statement := by
  rintro ⟨B, hB⟩
  have h1 := hB (List.replicate (B + 1) (.fit [0] none))
  simp only at h1
  have h2 := congrArg Multiset.card (C103_mad_memory_partial (1 : ℚ) true
    (List.replicate (B + 1) (Call.fit [(0 : ℚ)] (none : Option Unit)))).1
  rw [Multiset.coe_card, Multiset.coe_card] at h2
  rw [h2, fitted_replicate] at h1
  have : (univariate (List.replicate (B + 1) [(0 : ℚ)])).length = B + 1 := by
    simp [univariate]
  rw [this] at h1
  norm_cast at h1
  omega

/-- **C103.** RSHash never forgets a cell: the sketches have a key for every cell any fitted
instance fell into. -/
theorem C103_rshash_cells_partial {dim : ℕ} {β : Type*} (comps : List (RsComponent ℝ dim))
    (hm : comps ≠ []) (sp : ℕ) (decay : ℝ) (nh : ℕ) (hnh : 1 ≤ nh)
    (cs : List (Call (Fin dim → ℝ) β)) (r : ℕ) (c : RsComponent ℝ dim) (hc : comps[r]? = some c) :
    ∀ sk ∈ (calls (RsHash.detector realPow2 Real.log) (RsHash.new comps sp decay nh) cs).2.cmsketches,
    ∀ x ∈ fitted cs, RsHash.cell r c x ∈ dictKeys sk := by
  intro sk hsk x hx
  have hinv := RsHash.inv (β := β) (pow2 := realPow2) (log := Real.log)
    (fun a b => Real.rpow_add (by norm_num) a b) comps hm sp decay nh hnh cs
  have hg := hinv.2.2.2.2.1 sk hsk (RsHash.cell r c x)
  intro hnone
  rw [hnone] at hg
  simp only at hg
  unfold RsHash.events at hg
  rw [List.flatMap_eq_nil_iff] at hg
  obtain ⟨i, hi⟩ := List.mem_iff_getElem?.1 hx
  have := hg (x, i) (List.mem_zipIdx_iff_getElem?.2 hi)
  rw [if_pos] at this
  · simp at this
  · exact List.mem_map.2 ⟨(c, r), List.mem_zipIdx_iff_getElem?.2 hc, rfl⟩

/-- The property for RSHash. -/
def C103_rshash_statement : Prop :=
  ∀ (dim : ℕ) (comps : List (RsComponent ℝ dim)) (sp : ℕ) (decay : ℝ), comps ≠ [] →
    BoundedMemory (RsHash.detector (β := Unit) realPow2 Real.log) (RsHash.new comps sp decay 1)
      fun s => (dictKeys (s.cmsketches.headD fun _ => none)).encard

theorem fitted_map_fits {α β : Type*} (l : List α) :
    fitted (l.map fun x => (Call.fit x none : Call α β)) = l := by
  induction l with
  | nil => rfl
  | cons x l ih => simp [fitted, ih]

theorem C103_rshash_refuted : ¬ C103_rshash_statement := by
  intro h
  set c : RsComponent ℝ 1 := ⟨[(0, 0)], 1⟩ with hcdef
  obtain ⟨B, hB⟩ := h 1 [c] 1000 (1 / 10) (by simp)
  have h1 := hB (((List.range (B + 1)).map fun i : ℕ => fun _ => (i : ℝ)).map fun x => .fit x none)
  simp only at h1
  have hinv := RsHash.inv (β := Unit) (pow2 := realPow2) (log := Real.log)
    (fun a b => Real.rpow_add (by norm_num) a b) [c] (by simp) 1000 (1 / 10) 1 le_rfl
    (((List.range (B + 1)).map fun i : ℕ => fun _ => (i : ℝ)).map fun x => .fit x none)
  have hcells := C103_rshash_cells_partial (β := Unit) [c] (by simp) 1000 (1 / 10) 1 le_rfl
    (((List.range (B + 1)).map fun i : ℕ => fun _ => (i : ℝ)).map fun x => .fit x none) 0 c rfl
  set s := (calls (RsHash.detector (β := Unit) realPow2 Real.log) (RsHash.new [c] 1000 (1 / 10) 1)
    (((List.range (B + 1)).map fun i : ℕ => fun _ => (i : ℝ)).map fun x => .fit x none)).2
  obtain ⟨sk, rest, hsk⟩ := List.exists_cons_of_ne_nil hinv.2.2.1
  rw [hsk] at h1
  simp only [List.headD_cons] at h1
  have hsub : (((Finset.range (B + 1)).image fun i : ℕ => [(0 : ℤ), (i : ℤ)] : Finset (List ℤ)) :
      Set (List ℤ)) ⊆ dictKeys sk := by
    intro key hkey
    simp only [Finset.coe_image, Set.mem_image, Finset.mem_coe, Finset.mem_range] at hkey
    obtain ⟨i, hi, rfl⟩ := hkey
    have := hcells sk (by rw [hsk]; simp) (fun _ => ((i : ℕ) : ℝ)) (by
      rw [fitted_map_fits]; exact List.mem_map.2 ⟨i, List.mem_range.2 hi, rfl⟩)
    simpa [RsHash.cell, hcdef] using this
  have h2 := Set.encard_le_encard hsub
  rw [Set.encard_coe_eq_coe_finsetCard, Finset.card_image_of_injective, Finset.card_range] at h2
  · have := h2.trans h1
    norm_cast at this
    omega
  · intro i j hij
    simpa using hij

end Pysad
