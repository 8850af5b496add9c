import Verif.Spec.KitNet
import Verif.Proofs.Calls
import Verif.Proofs.KitNetVectors
import Verif.Proofs.KitNetCorrelation
import Mathlib.Analysis.SpecialFunctions.Exp
import Mathlib.Tactic.Linarith
import Mathlib.Tactic.Positivity
import Mathlib.Tactic.FieldSimp
import Mathlib.Algebra.Order.BigOperators.Ring.Finset
import Mathlib.Analysis.SpecialFunctions.Sqrt

/-! Properties C80-C84: `KitNet`. -/

namespace Pysad

open Spec

section
variable {K : Type*} [Field K] [LinearOrder K] {n : ℕ}

/-! ### C80 -/

theorem Dendro.count_eq (t : Dendro n) : t.count = t.preOrder.length := by
  induction t with
  | leaf i => rfl
  | node l r hl hr => simp [Dendro.count, Dendro.preOrder, hl, hr]

theorem Dendro.preOrder_ne_nil (t : Dendro n) : t.preOrder ≠ [] := by
  induction t with
  | leaf i => simp [Dendro.preOrder]
  | node l r hl hr => simp [Dendro.preOrder, hl]

/-- **C80 (splitting).** Breaking any dendrogram with any bound `≥ 1` succeeds; the parts are
the leaves in order, none is empty and none exceeds the bound. -/
theorem C80_kitnet_break (m : ℤ) (hm : 1 ≤ m) (t : Dendro n) :
    ∃ v, CorClust.breakClust m t = .ok v ∧ v.flatten = t.preOrder ∧
      ∀ p ∈ v, p ≠ [] ∧ (p.length : ℤ) ≤ m := by
  induction t with
  | leaf i =>
    refine ⟨[[i]], by simp [CorClust.breakClust, hm], by simp [Dendro.preOrder], ?_⟩
    intro p hp
    rw [List.mem_singleton] at hp
    subst hp
    exact ⟨by simp, by simpa using hm⟩
  | node l r hl hr =>
    rw [CorClust.breakClust]
    split
    · rename_i hc
      refine ⟨[(Dendro.node l r).preOrder], rfl, by simp, ?_⟩
      intro p hp
      rw [List.mem_singleton] at hp
      subst hp
      exact ⟨Dendro.preOrder_ne_nil _, by rw [← Dendro.count_eq]; exact hc⟩
    · obtain ⟨a, h1, h2, h3⟩ := hl
      obtain ⟨b, h4, h5, h6⟩ := hr
      refine ⟨a ++ b, by rw [h1, h4]; rfl, by simp [h2, h5, Dendro.preOrder], ?_⟩
      intro p hp
      rcases List.mem_append.1 hp with hp | hp
      · exact h3 p hp
      · exact h6 p hp

theorem leaves_eq (t : Dendro n) : leaves t = t.preOrder := by
  induction t with
  | leaf i => rfl
  | node l r hl hr => rw [leaves, hl, hr]; rfl

theorem breakClust_largest (b : ℤ) (hb : 1 ≤ b) (t : Dendro n) :
    ∃ v, CorClust.breakClust b t = .ok v ∧ LargestSubtrees b t v := by
  induction t with
  | leaf i =>
    exact ⟨[[i]], by rw [CorClust.breakClust, if_pos hb], .whole (t := .leaf i) (by simpa [leaves])⟩
  | node l r hl hr =>
    rw [CorClust.breakClust, Dendro.count_eq, ← leaves_eq]
    by_cases h : ((leaves (.node l r)).length : ℤ) ≤ b
    · exact ⟨_, by rw [if_pos h], .whole h⟩
    · obtain ⟨v, hv, h1⟩ := hl
      obtain ⟨w, hw, h2⟩ := hr
      refine ⟨v ++ w, ?_, .split h h1 h2⟩
      rw [if_neg h, hv, hw]
      rfl

/-- What is clustered, by the distances of the model. -/
theorem clustered (env : KnEnv K)
    (s : CorClust K n) (m : ℤ) (hn : 1 ≤ n) :
    ∃ L : List K, 2 * L.length = n * (n - 1) ∧
      (∀ i j : Fin n, i < j → L[pairIndex n i j]? = some (s.corrDist env.sqrt i j)) ∧
      (∀ e, env.linkageTree n L = .error e → s.cluster env m = .error e) ∧
      ∀ t, env.linkageTree n L = .ok t → t.preOrder.length = n →
        ∃ v, s.cluster env m = .ok v ∧ LargestSubtrees (max 1 m) t v := by
  refine ⟨_, condensed_length (s.corrDist env.sqrt), condensed_get _, ?_, ?_⟩
  · intro e he
    unfold CorClust.cluster
    rw [he]; rfl
  · intro t ht hlen
    unfold CorClust.cluster
    rw [ht]
    simp only [Except.bind]
    obtain ⟨v, hv, hc⟩ := breakClust_largest (max 1 m) (le_max_left _ _) t
    refine ⟨v, ?_, hc⟩
    by_cases hm : max 1 m ≤ n
    · rw [show (if (if m < 1 then 1 else m) > (n : ℤ) then (n : ℤ) else if m < 1 then 1 else m)
        = max 1 m by split_ifs <;> omega]
      exact hv
    · rw [show (if (if m < 1 then 1 else m) > (n : ℤ) then (n : ℤ) else if m < 1 then 1 else m)
        = n by split_ifs <;> omega]
      have hcount : (t.count : ℤ) = n := by rw [Dendro.count_eq, hlen]
      have e1 : ∀ b : ℤ, (n : ℤ) ≤ b → CorClust.breakClust b t = .ok [t.preOrder] := by
        intro b hb
        cases t with
        | leaf i => rw [CorClust.breakClust, if_pos (by omega)]; rfl
        | node l r => rw [CorClust.breakClust, if_pos (by omega)]
      rw [e1 n le_rfl, ← e1 (max 1 m) (by omega)]
      exact hv

theorem cluster_featureMap {env : KnEnv K} (law : LinkageLaws env) (hn : 2 ≤ n)
    (xs : List (Fin n → K)) (m : ℤ) {v : List (List (Fin n))}
    (hv : (xs.foldl CorClust.update (CorClust.new n)).cluster env m = .ok v) :
    FeatureMap env m xs v := by
  obtain ⟨L, h1, h2, _, h4⟩ := clustered env (xs.foldl CorClust.update (CorClust.new n)) m
    (by omega)
  obtain ⟨t, ht, hp⟩ := law.tree n L hn h1
  obtain ⟨w, hw, hc⟩ := h4 t ht (by simpa using hp.length_eq)
  rw [hv] at hw
  cases hw
  exact ⟨L, t, h1, fun i j hij => by rw [h2 i j hij, corrDist_eq], ht, hc⟩

variable [FloorRing K]

/-- **C80 (clustering).** For at least two features, any data and any bound: the map is a
partition of the features into parts of at most `max(1, bound)`. -/
theorem C80_kitnet_cluster {env : KnEnv K} (law : LinkageLaws env) (hn : 2 ≤ n)
    (s : CorClust K n) (m : ℤ) :
    ∃ v, s.cluster env m = .ok v ∧ IsPartition v ∧ ∀ p ∈ v, (p.length : ℤ) ≤ max 1 m := by
  obtain ⟨t, ht, hp⟩ := law.tree n _ hn (condensed_length (s.corrDist env.sqrt))
  unfold CorClust.cluster
  rw [ht]
  simp only [Except.bind]
  have hb : ∃ b : ℤ, (if (if m < 1 then 1 else m) > (n : ℤ) then (n : ℤ)
      else if m < 1 then 1 else m) = b ∧ 1 ≤ b ∧ b ≤ max 1 m := by
    refine ⟨_, rfl, ?_, ?_⟩
    · split_ifs <;> omega
    · split_ifs <;> omega
  obtain ⟨b, hb, h1, h2⟩ := hb
  rw [hb]
  obtain ⟨v, hv, hf, hparts⟩ := C80_kitnet_break b h1 t
  exact ⟨v, hv, ⟨hf ▸ hp, fun p hp => (hparts p hp).1⟩, fun p hp => (hparts p hp).2.trans h2⟩

/-! ### The state after any history -/

theorem partition_ne_nil {v : List (List (Fin n))} (h : IsPartition v) (hn : 0 < n) :
    v ≠ [] := by
  rintro rfl
  have := h.1.length_eq
  simp at this
  omega

theorem da_new_ok [IsStrictOrderedRing K] (env : KnEnv K) (lr hr : K) (hhr : 0 ≤ hr) (p : ℕ)
    (hp : p ≠ 0) : Da.new env p lr hr = .ok (newAutoencoder env lr hr p) := by
  unfold Da.new
  have : (0 : ℤ) ≤ ⌈(p : K) * hr⌉ := Int.ceil_nonneg (mul_nonneg (Nat.cast_nonneg _) hhr)
  rw [if_neg hp, if_neg (not_lt.2 this)]
  rfl

theorem createEnsemble_ok [IsStrictOrderedRing K] (env : KnEnv K) :
    ∀ (v : List (List (Fin n))) (s : KnState K n), 0 ≤ s.hr → (∀ p ∈ v, p ≠ []) →
      KitNET.createEnsemble env s v = .ok () { s with
        ensemble := s.ensemble ++ v.map fun idx => newAutoencoder env s.lr s.hr idx.length } := by
  intro v
  induction v with
  | nil => intro s _ _; simp [KitNET.createEnsemble]
  | cons p v ih =>
    intro s hs hv
    rw [KitNET.createEnsemble, da_new_ok env s.lr s.hr hs p.length
      (by have := hv p (by simp); simpa using this)]
    simp only
    have hs' : 0 ≤ ({ s with ensemble := s.ensemble ++ [newAutoencoder env s.lr s.hr p.length] } :
        KnState K n).hr := hs
    rw [ih _ hs' fun q hq => hv q (by simp [hq])]
    simp

theorem createAD_ok [IsStrictOrderedRing K] (env : KnEnv K) (v : List (List (Fin n)))
    (s : KnState K n) (hs : 0 ≤ s.hr) (hv : ∀ p ∈ v, p ≠ []) (hne : v ≠ []) :
    KitNET.createAD env s v = .ok () { s with
      ensemble := s.ensemble ++ v.map fun idx => newAutoencoder env s.lr s.hr idx.length
      output := some (newAutoencoder env s.lr s.hr v.length) } := by
  unfold KitNET.createAD
  rw [createEnsemble_ok env v s hs hv, Res.bind_ok]
  simp only
  rw [da_new_ok env s.lr s.hr hs v.length (by simpa using hne)]

theorem trainLayer_map (env : KnEnv K) (x : Fin n → K) (f : List (Fin n) → DaState K) :
    ∀ v : List (List (Fin n)), KitNET.trainLayer env x (v.map f) v =
      (v.map fun idx => (Da.train env (f idx) (featuresOf x idx)).1,
        v.map fun idx => (Da.train env (f idx) (featuresOf x idx)).2) := by
  intro v
  induction v with
  | nil => rfl
  | cons p v ih => simp [KitNET.trainLayer, ih, part_eq]

theorem executeLayer_map (env : KnEnv K) (x : Fin n → K) (f : List (Fin n) → DaState K) :
    ∀ v : List (List (Fin n)), KitNET.executeLayer env x (v.map f) v =
      v.map fun idx => Da.execute env (f idx) (featuresOf x idx) := by
  intro v
  induction v with
  | nil => rfl
  | cons p v ih => simp [KitNET.executeLayer, ih, part_eq]

theorem execute_nums (env : KnEnv K) (x : Fin n → K) (f : List (Fin n) → DaState K)
    (v : List (List (Fin n))) :
    ∀ e ∈ v.map fun idx => Da.execute env (f idx) (featuresOf x idx),
      e = .nan ∨ ∃ r, e = .fin r := by
  intro e he
  obtain ⟨idx, _, rfl⟩ := List.mem_map.1 he
  unfold Da.execute
  split
  · exact .inl rfl
  · exact .inr ⟨_, rfl⟩

theorem autoencoderAfter_snoc (env : KnEnv K) (lr hr : K) (T : List (Fin n → K)) (x : Fin n → K)
    (idx : List (Fin n)) : autoencoderAfter env lr hr (T ++ [x]) idx =
      (Da.train env (autoencoderAfter env lr hr T idx) (featuresOf x idx)).2 := by
  simp [autoencoderAfter]

theorem outputAfter_snoc (env : KnEnv K) (lr hr : K) (v : List (List (Fin n)))
    (T : List (Fin n → K)) (x : Fin n → K) : outputAfter env lr hr v (T ++ [x]) =
      (Da.train env (outputAfter env lr hr v T)
        (vectorOf (trainingErrors env lr hr v T x))).2 := by
  simp [outputAfter, outputAfterRev]

/-- What the object looks like after fitting `xs`. -/
structure KitNetInv (env : KnEnv K) (maxSize : ℤ) (fm ad : ℕ) (lr hr : K)
    (xs : List (Fin n → K)) (m : KnState K n) : Prop where
  adGrace_eq : m.adGrace = ad
  fmGrace_eq : m.fmGrace = fm
  m_eq : m.m = if maxSize ≤ 0 then 1 else maxSize
  lr_eq : m.lr = lr
  hr_eq : m.hr = hr
  nTrained_eq : m.nTrained = min xs.length (fm + ad + 1)
  fm_eq : m.fm = (mapInstances fm xs).foldl CorClust.update (CorClust.new n)
  early : xs.length ≤ fm → m.v = none ∧ m.ensemble = [] ∧ m.output = none
  late : fm < xs.length → ∃ v, m.fm.cluster env m.m = .ok v ∧ m.v = some v ∧ IsPartition v ∧
    (∀ p ∈ v, (p.length : ℤ) ≤ max 1 maxSize) ∧
    m.ensemble = v.map (autoencoderAfter env lr hr (trainingInstances fm ad xs)) ∧
    m.output = some (outputAfter env lr hr v (trainingInstances fm ad xs))

variable [IsStrictOrderedRing K]

theorem kitnetInv_nil (env : KnEnv K) (maxSize : ℤ) (fmo : Option ℕ) (ad : ℕ) (lr hr : K) :
    KitNetInv env maxSize (fmo.getD ad) ad lr hr ([] : List (Fin n → K))
      (KitNET.new n maxSize fmo ad lr hr) where
  adGrace_eq := rfl
  fmGrace_eq := rfl
  m_eq := rfl
  lr_eq := rfl
  hr_eq := rfl
  nTrained_eq := by simp [KitNET.new]
  fm_eq := by simp [KitNET.new, mapInstances]
  early := fun _ => ⟨rfl, rfl, rfl⟩
  late := by intro h; simp at h

theorem kitnetInv_execute {env : KnEnv K} {maxSize : ℤ} {fm ad : ℕ} {lr hr : K}
    {xs : List (Fin n → K)} {m : KnState K n} (h : KitNetInv env maxSize fm ad lr hr xs m)
    (x : Fin n → K) : KitNetInv env maxSize fm ad lr hr xs (KitNET.execute env m x).state := by
  have key : (KitNET.execute env m x).state = m ∨
      (KitNET.execute env m x).state = { m with nExecuted := m.nExecuted + 1 } := by
    unfold KitNET.execute
    cases m.v with
    | none => left; rfl
    | some v =>
      right
      simp only
      cases m.output <;> rfl
  rcases key with hk | hk
  · rw [hk]; exact h
  · rw [hk]
    exact ⟨h.adGrace_eq, h.fmGrace_eq, h.m_eq, h.lr_eq, h.hr_eq, h.nTrained_eq, h.fm_eq, h.early, h.late⟩

theorem max_one_if (a : ℤ) : max 1 (if a ≤ 0 then 1 else a) = max 1 a := by
  split_ifs <;> omega

theorem kitnetInv_process {env : KnEnv K} (law : LinkageLaws env) (hn : 2 ≤ n) {maxSize : ℤ}
    {fm ad : ℕ} {lr hr : K} (hhr : 0 ≤ hr) {xs : List (Fin n → K)} {m : KnState K n}
    (h : KitNetInv env maxSize fm ad lr hr xs m) (x : Fin n → K) :
    KitNetInv env maxSize fm ad lr hr (xs ++ [x]) (KitNET.process env m x).state ∧
      ∃ s, KitNET.process env m x = .ok () s := by
  unfold KitNET.process
  rw [h.nTrained_eq, h.fmGrace_eq, h.adGrace_eq]
  by_cases hlen : fm + ad < xs.length
  · -- everything is trained
    rw [if_pos (by omega)]
    obtain ⟨v, hc, hv, hpart, hsz, hens, hout⟩ := h.late (by omega)
    have hinv := kitnetInv_execute h x
    have hT : trainingInstances fm ad (xs ++ [x]) = trainingInstances fm ad xs := by
      unfold trainingInstances
      rw [List.drop_append_of_le_length (by omega), List.take_append_of_le_length]
      rw [List.length_drop]; omega
    have hM : mapInstances fm (xs ++ [x]) = mapInstances fm xs := by
      unfold mapInstances
      rw [List.take_append_of_le_length (by omega)]
    have hex : KitNET.execute env m x = .ok (Da.executeNums env
        (outputAfter env lr hr v (trainingInstances fm ad xs))
        (KitNET.executeLayer env x m.ensemble v)) { m with nExecuted := m.nExecuted + 1 } := by
      unfold KitNET.execute
      rw [hv]
      simp only
      rw [hout]
    rw [hex] at hinv ⊢
    simp only [Res.map_ok, Res.state_ok] at hinv ⊢
    refine ⟨?_, _, rfl⟩
    refine ⟨hinv.adGrace_eq, hinv.fmGrace_eq, hinv.m_eq, hinv.lr_eq, hinv.hr_eq, ?_, ?_, ?_, ?_⟩
    · rw [hinv.nTrained_eq, List.length_append, List.length_singleton]; omega
    · rw [hinv.fm_eq, hM]
    · intro hle; simp at hle; omega
    · intro _; rw [hT]; exact hinv.late (by omega)
  · rw [if_neg (by omega)]
    unfold KitNET.train
    by_cases hle : xs.length ≤ fm
    · obtain ⟨hv, hens, hout⟩ := h.early hle
      rw [if_pos ⟨by rw [h.nTrained_eq, h.fmGrace_eq]; omega, hv⟩]
      unfold KitNET.trainMap
      have hM : mapInstances fm (xs ++ [x]) = mapInstances fm xs ++ [x] := by
        unfold mapInstances
        rw [List.take_of_length_le (by simp; omega), List.take_of_length_le (by omega)]
      have hfm : m.fm.update x
          = (mapInstances fm (xs ++ [x])).foldl CorClust.update (CorClust.new n) := by
        rw [hM, List.foldl_append, ← h.fm_eq]; rfl
      by_cases heq : xs.length = fm
      · have hcond : ({ m with fm := m.fm.update x } : KnState K n).nTrained
            = ({ m with fm := m.fm.update x } : KnState K n).fmGrace := by
          simp only [h.nTrained_eq, h.fmGrace_eq]; omega
        simp only
        rw [if_pos hcond]
        obtain ⟨v, hc, hp, hsz⟩ := C80_kitnet_cluster law hn (m.fm.update x) m.m
        rw [hc]
        simp only
        rw [createAD_ok env v { m with v := some v, fm := m.fm.update x }
          (h.hr_eq ▸ hhr : 0 ≤ m.hr) hp.2 (partition_ne_nil hp (by omega))]
        simp only [Res.bind_ok, Res.state_ok, hens, List.nil_append]
        have hT : trainingInstances fm ad (xs ++ [x]) = [] := by
          unfold trainingInstances
          rw [List.drop_of_length_le (by simp; omega), List.take_nil]
        refine ⟨?_, _, rfl⟩
        refine ⟨h.adGrace_eq, h.fmGrace_eq, h.m_eq, h.lr_eq, h.hr_eq, ?_, hfm, ?_, ?_⟩
        · simp only [h.nTrained_eq, List.length_append, List.length_singleton]; omega
        · intro hle'; simp at hle'; omega
        · intro _
          refine ⟨v, hc, rfl, hp, ?_, ?_, ?_⟩
          · intro p hp'
            have := hsz p hp'
            rwa [h.m_eq, max_one_if] at this
          · rw [hT, h.lr_eq, h.hr_eq]; rfl
          · rw [hT, h.lr_eq, h.hr_eq]; rfl
      · have hcond : ¬ ({ m with fm := m.fm.update x } : KnState K n).nTrained
            = ({ m with fm := m.fm.update x } : KnState K n).fmGrace := by
          simp only [h.nTrained_eq, h.fmGrace_eq]; omega
        simp only
        rw [if_neg hcond]
        simp only [Res.bind_ok, Res.state_ok]
        refine ⟨?_, _, rfl⟩
        refine ⟨h.adGrace_eq, h.fmGrace_eq, h.m_eq, h.lr_eq, h.hr_eq, ?_, hfm, ?_, ?_⟩
        · simp only [h.nTrained_eq, List.length_append, List.length_singleton]; omega
        · intro _; exact ⟨hv, hens, hout⟩
        · intro hlt; simp at hlt; omega
    · obtain ⟨v, hc, hv, hpart, hsz, hens, hout⟩ := h.late (by omega)
      rw [if_neg (by rw [hv]; simp)]
      unfold KitNET.trainLayers
      have hT : trainingInstances fm ad (xs ++ [x]) = trainingInstances fm ad xs ++ [x] := by
        unfold trainingInstances
        rw [List.drop_append_of_le_length (by omega), List.take_of_length_le,
          List.take_of_length_le]
        · rw [List.length_drop]; omega
        · rw [List.length_append, List.length_drop, List.length_singleton]; omega
      have hM : mapInstances fm (xs ++ [x]) = mapInstances fm xs := by
        unfold mapInstances
        rw [List.take_append_of_le_length (by omega)]
      rw [hens, hv, hout]
      simp only [Option.getD_some, trainLayer_map, ofList_eq, Res.bind_ok, Res.state_ok]
      refine ⟨?_, _, rfl⟩
      refine ⟨h.adGrace_eq, h.fmGrace_eq, h.m_eq, h.lr_eq, h.hr_eq, ?_, ?_, ?_, ?_⟩
      · simp only [h.nTrained_eq, List.length_append, List.length_singleton]; omega
      · simp only [h.fm_eq, hM]
      · intro hle'; simp at hle'; omega
      · intro _
        refine ⟨v, hc, rfl, hpart, hsz, ?_, ?_⟩
        · rw [hT]
          simp only
          apply List.map_congr_left
          intro idx _
          rw [autoencoderAfter_snoc]
        · rw [hT, outputAfter_snoc]
          rfl

end

section
variable {K β : Type*} [Field K] [LinearOrder K] [IsStrictOrderedRing K] [FloorRing K] {n : ℕ}
  {env : KnEnv K} (law : LinkageLaws env) (hn : 2 ≤ n) (maxSize : ℤ) (fmo : Option ℕ) (ad : ℕ)
  (lr hr : K) (hhr : 0 ≤ hr)
include law hn hhr

/-- The state after any history of calls. -/
theorem kitnet_calls (h : List (Call (Fin n → K) β)) :
    let s := (calls (KitNet.detector env) (KitNet.new n maxSize fmo ad lr hr) h).2
    (fitted h = [] → s.model = none) ∧ (fitted h ≠ [] → ∃ m, s.model = some m) ∧
      s.maxSizeAe = maxSize ∧ s.graceFeatureMapping = fmo ∧ s.graceAnomalyDetector = ad ∧
      s.learningRate = lr ∧ s.hiddenRatio = hr ∧
      KitNetInv env maxSize (fmo.getD ad) ad lr hr (fitted h) (KitNet.init s) := by
  refine calls_inv (d := KitNet.detector env)
    (P := fun (cs : List (Call (Fin n → K) β)) (s : KitNetState K n) =>
      (fitted cs = [] → s.model = none) ∧ (fitted cs ≠ [] → ∃ m, s.model = some m) ∧
      s.maxSizeAe = maxSize ∧ s.graceFeatureMapping = fmo ∧ s.graceAnomalyDetector = ad ∧
      s.learningRate = lr ∧ s.hiddenRatio = hr ∧
      KitNetInv env maxSize (fmo.getD ad) ad lr hr (fitted cs) (KitNet.init s))
    (fun cs s c hinv => ?_) _ ?_ h
  · obtain ⟨h1, h2, h3, h4, h5, h6, h7, h8⟩ := hinv
    cases c with
    | fit x y =>
      obtain ⟨hi, s', hs'⟩ := kitnetInv_process law hn hhr h8 x
      rw [hs', Res.state_ok] at hi
      have hc : (call (KitNet.detector env) s (Call.fit x y)).2 = { s with model := some s' } := by
        simp only [call, KitNet.detector, KitNet.fitPartial, hs', Res.mapState_ok]
      rw [hc, fitted_append]
      refine ⟨by simp [fitted], fun _ => ⟨s', rfl⟩, h3, h4, h5, h6, h7, ?_⟩
      simpa [fitted, KitNet.init] using hi
    | score x =>
      rw [fitted_append]
      simp only [fitted, List.append_nil]
      cases hm : s.model with
      | none =>
        have hc : (call (KitNet.detector env) s (Call.score x : Call (Fin n → K) β)).2 = s := by
          simp only [call, KitNet.detector, KitNet.scorePartial, hm]
        rw [hc]
        exact ⟨h1, h2, h3, h4, h5, h6, h7, h8⟩
      | some m =>
        have hne : fitted cs ≠ [] := by
          intro he; rw [h1 he] at hm; cases hm
        have hi : KitNet.init s = m := by simp [KitNet.init, hm]
        rw [hi] at h8
        by_cases hv : m.v = none
        · have hc : (call (KitNet.detector env) s (Call.score x : Call (Fin n → K) β)).2 = s := by
            simp only [call, KitNet.detector, KitNet.scorePartial, hm, if_pos hv]
          rw [hc]
          exact ⟨h1, h2, h3, h4, h5, h6, h7, hi ▸ h8⟩
        · have hc : (call (KitNet.detector env) s (Call.score x : Call (Fin n → K) β)).2
              = { s with model := some (KitNET.execute env m x).state } := by
            simp only [call, KitNet.detector, KitNet.scorePartial, hm, if_neg hv]
            cases KitNET.execute env m x <;> rfl
          rw [hc]
          exact ⟨fun he => absurd he hne, fun _ => ⟨_, rfl⟩, h3, h4, h5, h6, h7,
            kitnetInv_execute h8 x⟩
  · exact ⟨fun _ => rfl, fun h => absurd rfl h, rfl, rfl, rfl, rfl, rfl,
      kitnetInv_nil env maxSize fmo ad lr hr⟩

/-- **C80.** In every history: the feature map, once there, is a partition of the features into
parts of at most `max(1, max_size_ae)`. -/
theorem C80_kitnet_map (h : List (Call (Fin n → K) β)) (m : KnState K n)
    (v : List (List (Fin n)))
    (hm : (calls (KitNet.detector env) (KitNet.new n maxSize fmo ad lr hr) h).2.model = some m)
    (hv : m.v = some v) : IsPartition v ∧ ∀ p ∈ v, (p.length : ℤ) ≤ max 1 maxSize := by
  obtain ⟨_, _, _, _, _, _, _, hinv⟩ := kitnet_calls law hn maxSize fmo ad lr hr hhr h
  have hi : KitNet.init (calls (KitNet.detector env) (KitNet.new n maxSize fmo ad lr hr) h).2
      = m := by simp [KitNet.init, hm]
  rw [hi] at hinv
  by_cases hlen : (fitted h).length ≤ fmo.getD ad
  · rw [(hinv.early hlen).1] at hv; cases hv
  · obtain ⟨v', _, hv', hp, hs, _⟩ := hinv.late (by omega)
    rw [hv] at hv'
    cases hv'
    exact ⟨hp, hs⟩

/-- What scores are, by the clustering of the model. -/
theorem kitnet_score_cluster (h : List (Call (Fin n → K) β)) (x : Fin n → K) :
    let fm := fmo.getD ad
    let s := (calls (KitNet.detector env) (KitNet.new n maxSize fmo ad lr hr) h).2
    (∃ s', KitNet.fitPartial env s x = .ok () s') ∧
    (fitted h = [] → (KitNet.scorePartial env s x).out = .error .attributeError) ∧
    (fitted h ≠ [] → (fitted h).length ≤ fm → (KitNet.scorePartial env s x).out = .ok (.fin 0)) ∧
    (fm < (fitted h).length → ∃ v,
      (((mapInstances fm (fitted h)).foldl CorClust.update (CorClust.new n)).cluster env
        (if maxSize ≤ 0 then 1 else maxSize) = .ok v) ∧ IsPartition v ∧
      (KitNet.scorePartial env s x).out
        = .ok (kitnetScore env lr hr v (trainingInstances fm ad (fitted h)) x)) := by
  intro fm s
  obtain ⟨h1, h2, _, _, _, _, _, hinv⟩ := kitnet_calls law hn maxSize fmo ad lr hr hhr h
  refine ⟨?_, ?_, ?_, ?_⟩
  · obtain ⟨_, s', hs'⟩ := kitnetInv_process law hn hhr hinv x
    refine ⟨{ s with model := some s' }, ?_⟩
    unfold KitNet.fitPartial
    rw [hs']
    rfl
  · intro he
    unfold KitNet.scorePartial
    rw [show s.model = none from h1 he]
    rfl
  · intro hne hle
    obtain ⟨m, hm⟩ := h2 hne
    have hi : KitNet.init s = m := by
      unfold KitNet.init; rw [show s.model = some m from hm]; rfl
    have hv := (hinv.early hle).1
    rw [show KitNet.init (calls (KitNet.detector env) _ h).2 = m from hi] at hv
    unfold KitNet.scorePartial
    rw [show s.model = some m from hm]
    simp only
    rw [if_pos hv]
    rfl
  · intro hlt
    obtain ⟨m, hm⟩ := h2 (by intro he; rw [he] at hlt; simp at hlt)
    have hi : KitNet.init s = m := by
      unfold KitNet.init; rw [show s.model = some m from hm]; rfl
    rw [show KitNet.init (calls (KitNet.detector env) _ h).2 = m from hi] at hinv
    obtain ⟨v, hc, hv, hp, _, hens, hout⟩ := hinv.late hlt
    refine ⟨v, ?_, hp, ?_⟩
    · rw [← hinv.fm_eq, ← hinv.m_eq]; exact hc
    · unfold KitNet.scorePartial
      rw [show s.model = some m from hm]
      simp only
      rw [if_neg (by rw [hv]; simp)]
      unfold KitNET.execute
      rw [hv]
      simp only
      rw [hout, hens, executeLayer_map]
      simp only [Res.out]
      rw [executeNums_eq env _ _ (execute_nums env x _ v)]
      rfl

/-- **C81 (every score).** In every history with grace periods `fm` and `ad`: before the first
fit scoring raises `AttributeError`; scores are 0.0 until `fm + 1` instances were fitted; from
then on there is a feature map, learned from the first `fm + 1` instances, and scores are those
of autoencoders trained on exactly the next `ad` instances. No fit raises. -/
theorem C81_kitnet_score (h : List (Call (Fin n → K) β)) (x : Fin n → K) :
    let fm := fmo.getD ad
    let s := (calls (KitNet.detector env) (KitNet.new n maxSize fmo ad lr hr) h).2
    (∃ s', KitNet.fitPartial env s x = .ok () s') ∧
    (fitted h = [] → (KitNet.scorePartial env s x).out = .error .attributeError) ∧
    (fitted h ≠ [] → (fitted h).length ≤ fm → (KitNet.scorePartial env s x).out = .ok (.fin 0)) ∧
    (fm < (fitted h).length → ∃ v, FeatureMap env maxSize (mapInstances fm (fitted h)) v ∧
      IsPartition v ∧ (KitNet.scorePartial env s x).out
        = .ok (kitnetScore env lr hr v (trainingInstances fm ad (fitted h)) x)) := by
  obtain ⟨h1, h2, h3, h4⟩ := kitnet_score_cluster law hn maxSize fmo ad lr hr hhr h x
  refine ⟨h1, h2, h3, fun hlt => ?_⟩
  obtain ⟨v, hv, hp, e⟩ := h4 hlt
  refine ⟨v, ?_, hp, e⟩
  have := cluster_featureMap law hn _ _ hv
  unfold FeatureMap at this ⊢
  rwa [show max 1 (if maxSize ≤ 0 then 1 else maxSize) = max 1 maxSize by split <;> omega] at this

/-- **C81 (frozen).** Hence after `fm + 1 + ad` fits nothing matters any more: whatever is fitted
or scored afterwards, scores stay the same. -/
theorem C81_kitnet_frozen (h h' : List (Call (Fin n → K) β)) (x : Fin n → K)
    (hlen : fmo.getD ad + 1 + ad ≤ (fitted h).length) :
    (KitNet.scorePartial env (calls (KitNet.detector env) (KitNet.new n maxSize fmo ad lr hr)
      (h ++ h')).2 x).out =
    (KitNet.scorePartial env (calls (KitNet.detector env) (KitNet.new n maxSize fmo ad lr hr)
      h).2 x).out := by
  obtain ⟨_, _, _, h1⟩ := kitnet_score_cluster law hn maxSize fmo ad lr hr hhr h x
  obtain ⟨_, _, _, h2⟩ := kitnet_score_cluster law hn maxSize fmo ad lr hr hhr (h ++ h') x
  obtain ⟨v, hv, _, h3⟩ := h1 (by omega)
  obtain ⟨v', hv', _, h4⟩ := h2 (by rw [fitted_append, List.length_append]; omega)
  have hM : mapInstances (fmo.getD ad) (fitted (h ++ h'))
      = mapInstances (fmo.getD ad) (fitted h) := by
    unfold mapInstances
    rw [fitted_append, List.take_append_of_le_length (by omega)]
  have hT : trainingInstances (fmo.getD ad) ad (fitted (h ++ h'))
      = trainingInstances (fmo.getD ad) ad (fitted h) := by
    unfold trainingInstances
    rw [fitted_append, List.drop_append_of_le_length (by omega), List.take_append_of_le_length]
    rw [List.length_drop]; omega
  rw [hM, hv] at hv'
  cases hv'
  rw [h3, h4, hT]

/-- **C81 (training).** In every history, every autoencoder of the ensemble and the output
autoencoder have been trained exactly `min(ad, fitted - fm - 1)` times. -/
theorem C81_kitnet_trained (h : List (Call (Fin n → K) β)) (m : KnState K n)
    (hm : (calls (KitNet.detector env) (KitNet.new n maxSize fmo ad lr hr) h).2.model = some m) :
    (∀ a ∈ m.ensemble, a.n = min ad ((fitted h).length - fmo.getD ad - 1)) ∧
      ∀ o, m.output = some o → o.n = min ad ((fitted h).length - fmo.getD ad - 1) := by
  obtain ⟨_, _, _, _, _, _, _, hinv⟩ := kitnet_calls law hn maxSize fmo ad lr hr hhr h
  have hi : KitNet.init (calls (KitNet.detector env) (KitNet.new n maxSize fmo ad lr hr) h).2
      = m := by simp [KitNet.init, hm]
  rw [hi] at hinv
  have hae : ∀ (T : List (Fin n → K)) idx, (autoencoderAfter env lr hr T idx).n = T.length := by
    intro T idx
    induction T using List.reverseRecOn with
    | nil => rfl
    | append_singleton T x ih =>
      rw [autoencoderAfter_snoc, List.length_append, List.length_singleton, ← ih]; rfl
  have hou : ∀ (v : List (List (Fin n))) (T : List (Fin n → K)),
      (outputAfter env lr hr v T).n = T.length := by
    intro v T
    induction T using List.reverseRecOn with
    | nil => rfl
    | append_singleton T x ih =>
      rw [outputAfter_snoc, List.length_append, List.length_singleton, ← ih]; rfl
  have hT : (trainingInstances (fmo.getD ad) ad (fitted h)).length
      = min ad ((fitted h).length - fmo.getD ad - 1) := by
    unfold trainingInstances
    rw [List.length_take, List.length_drop]
    omega
  by_cases hlen : (fitted h).length ≤ fmo.getD ad
  · obtain ⟨_, h1, h2⟩ := hinv.early hlen
    rw [h1, h2]
    exact ⟨by simp, by simp⟩
  · obtain ⟨v, _, _, _, _, h1, h2⟩ := hinv.late (by omega)
    rw [h1, h2]
    refine ⟨?_, ?_⟩
    · intro a ha
      obtain ⟨idx, _, rfl⟩ := List.mem_map.1 ha
      rw [hae, hT]
    · intro o ho
      cases ho
      rw [hou, hT]

end

/-! ### C82 -/

section
variable {K : Type*} [Field K] [LinearOrder K] [IsStrictOrderedRing K]

/-- **C82 (inputs).** Whatever the autoencoder and the vector it is trained on: the norms in use
enclose the vector, and it lies in `[0, 1]` after normalisation. -/
theorem C82_kitnet_normalised (env : KnEnv K) (s : DaState K) (x : ℕ → K) :
    ∃ mx mn, (Da.train env s x).2.norm = some (mx, mn) ∧
      ∀ i, mn i ≤ x i ∧ x i ≤ mx i ∧
        0 ≤ Da.normalise (mx, mn) x i ∧ Da.normalise (mx, mn) x i ≤ 1 ∧
        Da.normalise (mx, mn) x i = (x i - mn i) / (mx i - mn i + 1 / 10 ^ 16) := by
  have key : ∀ i, (Da.updateNorm s x).2 i ≤ x i ∧ x i ≤ (Da.updateNorm s x).1 i := by
    intro i
    unfold Da.updateNorm
    cases s.norm with
    | none => exact ⟨le_rfl, le_rfl⟩
    | some p =>
      simp only
      constructor
      · split
        · exact le_rfl
        · rename_i h; exact not_lt.1 h
      · split
        · exact le_rfl
        · rename_i h; exact not_lt.1 h
  refine ⟨(Da.updateNorm s x).1, (Da.updateNorm s x).2, rfl, ?_⟩
  intro i
  obtain ⟨h1, h2⟩ := key i
  have he : (0 : K) < 1 / 10 ^ 16 := by positivity
  refine ⟨h1, h2, ?_, ?_, rfl⟩
  · unfold Da.normalise
    exact div_nonneg (by simpa using h1) (by simp only; linarith)
  · unfold Da.normalise
    simp only
    rw [div_le_one (by linarith)]
    linarith

theorem sumTo_nonneg (p : ℕ) (f : ℕ → K) (h : ∀ i, 0 ≤ f i) : 0 ≤ Da.sumTo p f := by
  unfold Da.sumTo
  apply List.sum_nonneg
  intro a ha
  obtain ⟨i, _, rfl⟩ := List.mem_map.1 ha
  exact h i

theorem sumTo_le (p : ℕ) (f : ℕ → K) (h : ∀ i, f i ≤ 1) : Da.sumTo p f ≤ p := by
  unfold Da.sumTo
  induction p with
  | zero => simp
  | succ p ih =>
    rw [List.range_succ, List.map_append, List.sum_append]
    push_cast
    have := h p
    simp
    linarith

theorem meanTo_mem (p : ℕ) (f : ℕ → K) (h0 : ∀ i, 0 ≤ f i) (h1 : ∀ i, f i ≤ 1) :
    0 ≤ Da.meanTo p f ∧ Da.meanTo p f ≤ 1 := by
  unfold Da.meanTo
  have hp : (0 : K) ≤ p := Nat.cast_nonneg p
  refine ⟨div_nonneg (sumTo_nonneg p f h0) hp, ?_⟩
  exact div_le_one_of_le₀ (sumTo_le p f h1) hp

end

/-- The logistic function. -/
noncomputable def Spec.logistic (x : ℝ) : ℝ := 1 / (1 + Real.exp (-x))

theorem logistic_mem (x : ℝ) : 0 ≤ logistic x ∧ logistic x ≤ 1 := by
  have := Real.exp_pos (-x)
  unfold logistic
  constructor
  · positivity
  · rw [div_le_one (by positivity)]; linarith

/-- **C82 (errors).** Over the reals: every training error of every autoencoder, whatever its
weights and norms and the vector, lies in `[0, 1]`. -/
theorem C82_kitnet_rmse (env : KnEnv ℝ) (hsq : env.sqrt = Real.sqrt)
    (hsig : env.sigmoid = logistic) (s : DaState ℝ) (x : ℕ → ℝ) :
    0 ≤ (Da.train env s x).1 ∧ (Da.train env s x).1 ≤ 1 := by
  obtain ⟨mx, mn, hnorm, h⟩ := C82_kitnet_normalised env s x
  have hup : Da.updateNorm s x = (mx, mn) := by
    have : (Da.train env s x).2.norm = some (Da.updateNorm s x) := rfl
    rw [this] at hnorm
    exact Option.some.inj hnorm
  unfold Da.train
  simp only [hsq, hup]
  refine ⟨Real.sqrt_nonneg _, ?_⟩
  rw [Real.sqrt_le_one]
  refine (meanTo_mem _ _ ?_ ?_).2
  · intro i; positivity
  · intro i
    obtain ⟨_, _, h0, h1⟩ := h i
    have hz : 0 ≤ Da.visible env s (Da.hidden env s (Da.normalise (mx, mn) x)) i ∧
        Da.visible env s (Da.hidden env s (Da.normalise (mx, mn) x)) i ≤ 1 := by
      unfold Da.visible
      rw [hsig]
      exact logistic_mem _
    rw [sq_le_one_iff_abs_le_one, abs_le]
    constructor <;> linarith [hz.1, hz.2]

/-- **C82 (ensemble).** In particular all errors the output autoencoder is trained on, for every
feature map and every sequence of training instances. -/
theorem C82_kitnet_errors {n : ℕ} (env : KnEnv ℝ) (hsq : env.sqrt = Real.sqrt)
    (hsig : env.sigmoid = logistic) (lr hr : ℝ) (v : List (List (Fin n)))
    (T : List (Fin n → ℝ)) (x : Fin n → ℝ) :
    ∀ e ∈ trainingErrors env lr hr v T x, 0 ≤ e ∧ e ≤ 1 := by
  intro e he
  obtain ⟨idx, _, rfl⟩ := List.mem_map.1 he
  exact C82_kitnet_rmse env hsq hsig _ _

/-! ### C83 -/

section
variable {K β : Type*} [Field K] [LinearOrder K] [IsStrictOrderedRing K] [FloorRing K] {n : ℕ}

theorem autoencoderAfter_norm (env : KnEnv K) (lr hr : K) (T : List (Fin n → K))
    (idx : List (Fin n)) : (autoencoderAfter env lr hr T idx).norm = none ↔ T = [] := by
  induction T using List.reverseRecOn with
  | nil => exact ⟨fun _ => rfl, fun _ => rfl⟩
  | append_singleton T x ih =>
    rw [autoencoderAfter_snoc]
    simp [Da.train]

theorem outputAfter_norm (env : KnEnv K) (lr hr : K) (v : List (List (Fin n)))
    (T : List (Fin n → K)) : (outputAfter env lr hr v T).norm = none ↔ T = [] := by
  induction T using List.reverseRecOn with
  | nil => exact ⟨fun _ => rfl, fun _ => rfl⟩
  | append_singleton T x ih =>
    rw [outputAfter_snoc]
    simp [Da.train]

theorem kitnetScore_nil (env : KnEnv K) (lr hr : K) (v : List (List (Fin n))) (x : Fin n → K) :
    kitnetScore env lr hr v [] x = .nan := by
  unfold kitnetScore
  dsimp only
  split
  · rfl
  · unfold Da.execute
    rw [(outputAfter_norm env lr hr v []).2 rfl]

theorem da_execute_fin (env : KnEnv K) (hsq : ∀ y, 0 ≤ env.sqrt y) (s : DaState K)
    (h : s.norm ≠ none) (x : ℕ → K) : ∃ r, Da.execute env s x = .fin r ∧ 0 ≤ r := by
  unfold Da.execute
  cases hs : s.norm with
  | none => exact absurd hs h
  | some p => exact ⟨_, rfl, hsq _⟩

theorem kitnetScore_fin (env : KnEnv K) (hsq : ∀ y, 0 ≤ env.sqrt y) (lr hr : K)
    (v : List (List (Fin n))) (T : List (Fin n → K)) (hT : T ≠ []) (x : Fin n → K) :
    ∃ r, kitnetScore env lr hr v T x = .fin r ∧ 0 ≤ r := by
  unfold kitnetScore
  dsimp only
  rw [if_neg]
  · exact da_execute_fin env hsq _ (fun hc => hT ((outputAfter_norm env lr hr v T).1 hc)) _
  · intro hmem
    obtain ⟨idx, _, he⟩ := List.mem_map.1 hmem
    obtain ⟨r, hr', _⟩ := da_execute_fin env hsq (autoencoderAfter env lr hr T idx)
      (fun hc => hT ((autoencoderAfter_norm env lr hr T idx).1 hc)) (featuresOf x idx)
    rw [hr'] at he
    cases he

/-- **C83 (exactly when).** In every history: with at least one but at most `fm` instances
fitted the score is 0.0; with exactly `fm + 1`, or if `ad = 0`, it is `nan`; afterwards it is a
nonnegative number. Missing from the full property: the `nan`. -/
theorem C83_kitnet_numbers_partial {env : KnEnv K} (law : LinkageLaws env)
    (hsq : ∀ y, 0 ≤ env.sqrt y) (hn : 2 ≤ n) (maxSize : ℤ) (fmo : Option ℕ) (ad : ℕ) (lr hr : K)
    (hhr : 0 ≤ hr) (h : List (Call (Fin n → K) β)) (x : Fin n → K) :
    let fm := fmo.getD ad
    let out := (KitNet.scorePartial env
      (calls (KitNet.detector env) (KitNet.new n maxSize fmo ad lr hr) h).2 x).out
    (fitted h ≠ [] → (fitted h).length ≤ fm → out = .ok (.fin 0)) ∧
    (fm < (fitted h).length → (fitted h).length = fm + 1 ∨ ad = 0 → out = .ok .nan) ∧
    (fm + 1 < (fitted h).length → 0 < ad → ∃ r, out = .ok (.fin r) ∧ 0 ≤ r) := by
  intro fm out
  obtain ⟨_, _, h1, h2⟩ := kitnet_score_cluster law hn maxSize fmo ad lr hr hhr h x
  refine ⟨h1, ?_, ?_⟩
  · intro hlt hor
    obtain ⟨v, _, _, hv⟩ := h2 hlt
    have hT : trainingInstances fm ad (fitted h) = [] := by
      unfold trainingInstances
      rcases hor with he | he
      · rw [List.drop_of_length_le (by omega), List.take_nil]
      · rw [he, List.take_zero]
    have hv' : out = .ok (kitnetScore env lr hr v (trainingInstances fm ad (fitted h)) x) := hv
    rw [hv', hT, kitnetScore_nil]
  · intro hlt had
    obtain ⟨v, _, _, hv⟩ := h2 (by omega)
    have hT : trainingInstances fm ad (fitted h) ≠ [] := by
      intro he
      have := congrArg List.length he
      unfold trainingInstances at this
      rw [List.length_take, List.length_drop, List.length_nil] at this
      omega
    obtain ⟨r, hr', hpos⟩ := kitnetScore_fin env hsq lr hr v _ hT x
    have hv' : out = .ok (kitnetScore env lr hr v (trainingInstances fm ad (fitted h)) x) := hv
    exact ⟨r, by rw [hv', hr'], hpos⟩

/-- With a single feature no feature map can be learned: every score after the first fit is 0.0
for ever. -/
theorem C83_kitnet_one_feature {env : KnEnv K} (law : LinkageLaws env) (hn : n < 2)
    (maxSize : ℤ) (fmo : Option ℕ) (ad : ℕ) (lr hr : K) (h : List (Call (Fin n → K) β))
    (x : Fin n → K) (hne : fitted h ≠ []) :
    (KitNet.scorePartial env
      (calls (KitNet.detector env) (KitNet.new n maxSize fmo ad lr hr) h).2 x).out
        = .ok (.fin 0) := by
  have key : ∀ m : KnState K n, m.v = none → m.nTrained ≤ m.fmGrace → ∀ y,
      (KitNET.process env m y).state.v = none ∧
      (KitNET.process env m y).state.nTrained ≤ (KitNET.process env m y).state.fmGrace := by
    intro m hv hle y
    unfold KitNET.process
    rw [if_neg (by omega)]
    unfold KitNET.train
    rw [if_pos ⟨hle, hv⟩]
    unfold KitNET.trainMap
    have hc : (m.fm.update y).cluster env m.m = .error .valueError := by
      unfold CorClust.cluster
      rw [law.small n _ hn (condensed_length _)]
      rfl
    by_cases he : m.nTrained = m.fmGrace
    · simp only [he, if_true, hc, Res.bind_err, Res.state_err]
      exact ⟨hv, le_rfl⟩
    · simp only [he, if_false, Res.bind_ok, Res.state_ok]
      exact ⟨hv, by omega⟩
  have hinv := calls_inv (d := KitNet.detector (β := β) env)
    (P := fun (cs : List (Call (Fin n → K) β)) (s : KitNetState K n) =>
      (fitted cs ≠ [] → ∃ m, s.model = some m) ∧
      (KitNet.init s).v = none ∧ (KitNet.init s).nTrained ≤ (KitNet.init s).fmGrace)
    (fun cs s c hi => by
      obtain ⟨h1, h2, h3⟩ := hi
      cases c with
      | fit y z =>
        have hc : (call (KitNet.detector (β := β) env) s (Call.fit y z)).2
            = { s with model := some (KitNET.process env (KitNet.init s) y).state } := by
          simp only [call, KitNet.detector, KitNet.fitPartial]
          cases KitNET.process env (KitNet.init s) y <;> rfl
        rw [hc]
        exact ⟨fun _ => ⟨_, rfl⟩, key _ h2 h3 y⟩
      | score y =>
        have hc : (call (KitNet.detector env) s (Call.score y : Call (Fin n → K) β)).2 = s := by
          simp only [call, KitNet.detector, KitNet.scorePartial]
          cases hm : s.model with
          | none => rfl
          | some m =>
            have : m.v = none := by simpa [KitNet.init, hm] using h2
            simp only [if_pos this]
        rw [hc, fitted_append]
        simpa [fitted] using ⟨h1, h2, h3⟩)
    (KitNet.new n maxSize fmo ad lr hr)
    ⟨fun h => absurd rfl h, rfl, Nat.zero_le _⟩ h
  obtain ⟨h1, h2, _⟩ := hinv
  obtain ⟨m, hm⟩ := h1 hne
  have hv : m.v = none := by simpa [KitNet.init, hm] using h2
  unfold KitNet.scorePartial
  rw [hm]
  simp only
  rw [if_pos hv]
  rfl

end

/-! A dendrogram library: a chain. -/

def chainTree {n : ℕ} (a : Fin n) : List (Fin n) → Dendro n
  | [] => .leaf a
  | b :: l => .node (.leaf a) (chainTree b l)

theorem chainTree_preOrder {n : ℕ} (l : List (Fin n)) :
    ∀ a, (chainTree a l).preOrder = a :: l := by
  induction l with
  | nil => intro a; rfl
  | cons b l ih => intro a; simp [chainTree, Dendro.preOrder, ih]

def chainLinkage {K : Type*} (n : ℕ) (_ : List K) : Except PyErr (Dendro n) :=
  match List.finRange n with
  | a :: b :: l => .ok (chainTree a (b :: l))
  | _ => .error .valueError

noncomputable def kitnetRealEnv : KnEnv ℝ := ⟨Real.sqrt, logistic, fun _ _ _ _ => 0, chainLinkage⟩

theorem chainLinkage_laws {K : Type*} [Field K] [LinearOrder K] (env : KnEnv K)
    (h : env.linkageTree = chainLinkage) : LinkageLaws env := by
  refine ⟨?_, ?_⟩
  · intro n D hn _
    rw [h]
    unfold chainLinkage
    have hl : (List.finRange n).length = n := List.length_finRange
    match hf : List.finRange n with
    | [] => rw [hf] at hl; simp at hl; omega
    | [a] => rw [hf] at hl; simp at hl; omega
    | a :: b :: l => exact ⟨_, rfl, by rw [chainTree_preOrder]⟩
  · intro n D hn _
    rw [h]
    unfold chainLinkage
    have hl : (List.finRange n).length = n := List.length_finRange
    match hf : List.finRange n with
    | [] => rfl
    | [a] => rfl
    | a :: b :: l => rw [hf] at hl; simp at hl; omega

/-- **C83, the full statement**: in every history with something fitted, scores are numbers. -/
def C83_statement : Prop :=
  ∀ (env : KnEnv ℝ), LinkageLaws env → env.sqrt = Real.sqrt → env.sigmoid = logistic →
  ∀ (n : ℕ) (maxSize : ℤ) (fmo : Option ℕ) (ad : ℕ) (lr hr : ℝ), 2 ≤ n → 0 ≤ hr →
  ∀ (h : List (Call (Fin n → ℝ) Unit)) (x : Fin n → ℝ), fitted h ≠ [] →
  ∃ r, (KitNet.scorePartial env
    (calls (KitNet.detector env) (KitNet.new n maxSize fmo ad lr hr) h).2 x).out = .ok (.fin r)

/-- **C83 is false**: right after the last instance of the first grace period the score is
`nan`. -/
theorem C83_kitnet_numbers_refuted : ¬ C83_statement := by
  intro hst
  have law : LinkageLaws kitnetRealEnv := chainLinkage_laws _ rfl
  obtain ⟨r, hr⟩ := hst kitnetRealEnv law rfl rfl 2 10 (some 0) 5 (1 / 10) (3 / 4) le_rfl
    (by norm_num) [.fit (fun _ => 1) none] (fun _ => 1) (by simp [fitted])
  obtain ⟨_, h2, _⟩ := C83_kitnet_numbers_partial (β := Unit) law (fun y => Real.sqrt_nonneg y)
    (le_refl 2) 10 (some 0) 5 (1 / 10) (3 / 4) (by norm_num) [.fit (fun _ => 1) none] (fun _ => 1)
  rw [h2 (by simp [fitted]) (Or.inl (by simp [fitted]))] at hr
  cases hr

/-! ### C84 -/

section
variable {n : ℕ}

/-- What the sums of `corClust` satisfy. -/
theorem corClust_inv (xs : List (Fin n → ℝ)) :
    let s := xs.foldl CorClust.update (CorClust.new n)
    s.N = xs.length ∧ (∀ i, s.c i = (xs.map fun x => x i).sum) ∧ (∀ i, 0 ≤ s.crs i) ∧
      (∀ i, s.C i i = s.crs i) ∧ (∀ i j, s.C i j = s.C j i) ∧
      (∀ i j, s.C i j ^ 2 ≤ s.crs i * s.crs j) ∧
      (∀ i, s.crs i = 0 ↔ ∀ x ∈ xs, ∀ y ∈ xs, x i = y i) := by
  induction xs using List.reverseRecOn with
  | nil => simp [CorClust.new]
  | append_singleton xs x ih =>
    simp only at ih ⊢
    rw [List.foldl_append]
    simp only [List.foldl_cons, List.foldl_nil]
    obtain ⟨h1, h2, h3, h4, h5, h6, h7⟩ := ih
    set s := xs.foldl CorClust.update (CorClust.new n) with hs
    refine ⟨by simp [CorClust.update, h1], fun i => by simp [CorClust.update, h2], ?_, ?_, ?_,
      ?_, ?_⟩
    · intro i; simp only [CorClust.update]; have := h3 i; positivity
    · intro i; simp only [CorClust.update, h4]; ring
    · intro i j; simp only [CorClust.update, h5 i j]; ring
    · intro i j
      simp only [CorClust.update]
      generalize x i - (s.c i + x i) / ((s.N + 1 : ℕ) : ℝ) = a
      generalize x j - (s.c j + x j) / ((s.N + 1 : ℕ) : ℝ) = b
      have hA := h3 i
      have hB := h3 j
      have hAB := h6 i j
      have hle : |2 * s.C i j * a * b| ≤ s.crs i * b ^ 2 + s.crs j * a ^ 2 := by
        apply abs_le_of_sq_le_sq _ (by positivity)
        have e1 : (2 * s.C i j * a * b) ^ 2 = 4 * (s.C i j ^ 2) * (a ^ 2 * b ^ 2) := by ring
        have e2 : 4 * (s.C i j ^ 2) * (a ^ 2 * b ^ 2)
            ≤ 4 * (s.crs i * s.crs j) * (a ^ 2 * b ^ 2) := by
          apply mul_le_mul_of_nonneg_right _ (by positivity)
          linarith
        have e3 := sq_nonneg (s.crs i * b ^ 2 - s.crs j * a ^ 2)
        nlinarith
      have := (abs_le.1 hle).2
      nlinarith
    · intro i
      simp only [CorClust.update]
      have hN : (0 : ℝ) < ((s.N + 1 : ℕ) : ℝ) := by positivity
      have hz : s.crs i + (x i - (s.c i + x i) / ((s.N + 1 : ℕ) : ℝ)) ^ 2 = 0 ↔
          s.crs i = 0 ∧ (s.N : ℝ) * x i = s.c i := by
        constructor
        · intro h
          have hA := h3 i
          have hq := sq_nonneg (x i - (s.c i + x i) / ((s.N + 1 : ℕ) : ℝ))
          have h0 : s.crs i = 0 := by linarith
          have h1 : (x i - (s.c i + x i) / ((s.N + 1 : ℕ) : ℝ)) ^ 2 = 0 := by linarith
          have h2 := pow_eq_zero_iff (two_ne_zero) |>.1 h1
          refine ⟨h0, ?_⟩
          have h3 : x i = (s.c i + x i) / ((s.N + 1 : ℕ) : ℝ) := by linarith
          rw [eq_div_iff hN.ne'] at h3
          push_cast at h3
          linarith
        · rintro ⟨h0, h1⟩
          rw [h0, ← h1]
          have : ((s.N : ℝ) * x i + x i) / ((s.N + 1 : ℕ) : ℝ) = x i := by
            rw [div_eq_iff hN.ne']; push_cast; ring
          rw [this]; simp
      rw [hz, h7 i, h1, h2 i]
      constructor
      · rintro ⟨hc, hx⟩
        have hall : ∀ y ∈ xs, y i = x i := by
          intro y hy
          have hsum : (xs.map fun x => x i).sum = (xs.length : ℝ) * y i := by
            rw [List.map_congr_left (g := fun _ => y i) fun z hz => hc z hz y hy]
            simp
          rw [hsum] at hx
          have hpos : (0 : ℝ) < xs.length := by
            exact_mod_cast List.length_pos_of_mem hy
          exact (mul_left_cancel₀ hpos.ne' hx).symm
        intro y hy z hz
        simp only [List.mem_append, List.mem_singleton] at hy hz
        rcases hy with hy | rfl <;> rcases hz with hz | rfl
        · exact hc y hy z hz
        · exact hall y hy
        · exact (hall z hz).symm
        · rfl
      · intro hc
        refine ⟨fun y hy z hz => hc y (by simp [hy]) z (by simp [hz]), ?_⟩
        rw [List.map_congr_left (g := fun _ => x i) fun z hz => hc z (by simp [hz]) x (by simp)]
        simp

/-- **C84.** For every stream of real vectors: the correlation distances are symmetric, lie in
`[0, 2]`, and on the diagonal are 0 for the features that are not constant (and 1 for those that
are). -/
theorem C84_kitnet_corrDist (xs : List (Fin n → ℝ)) :
    let D := featureDistance Real.sqrt xs
    (∀ i j, D i j = D j i) ∧ (∀ i j, 0 ≤ D i j ∧ D i j ≤ 2) ∧
      (∀ i, (∃ x ∈ xs, ∃ y ∈ xs, x i ≠ y i) → D i i = 0) ∧
      (∀ i, (∀ x ∈ xs, ∀ y ∈ xs, x i = y i) → D i i = 1) := by
  intro D
  obtain ⟨_, _, h3, h4, h5, h6, h7⟩ := corClust_inv xs
  set s := xs.foldl CorClust.update (CorClust.new n) with hs
  have hD : ∀ i j, D i j = s.corrDist Real.sqrt i j := fun i j =>
    (corrDist_eq Real.sqrt xs i j).symm
  refine ⟨?_, ?_, ?_, ?_⟩
  · intro i j
    rw [hD, hD]
    unfold CorClust.corrDist
    rw [h5 i j, mul_comm (Real.sqrt (s.crs i))]
  · intro i j
    rw [hD]
    unfold CorClust.corrDist
    simp only
    have hC : |s.C i j| ≤ Real.sqrt (s.crs i) * Real.sqrt (s.crs j) := by
      apply abs_le_of_sq_le_sq _ (by positivity)
      rw [mul_pow, Real.sq_sqrt (h3 i), Real.sq_sqrt (h3 j)]
      exact h6 i j
    have hle : ∀ p : ℝ, |s.C i j| ≤ p → 0 < p → -1 ≤ s.C i j / p := by
      intro p hp hpos
      rw [le_div_iff₀ hpos]
      have := neg_abs_le (s.C i j)
      linarith
    have hm : -1 ≤ s.C i j / (if Real.sqrt (s.crs i) * Real.sqrt (s.crs j) = 0
        then 1 / 10 ^ 100 else Real.sqrt (s.crs i) * Real.sqrt (s.crs j)) := by
      split
      · rename_i h0
        rw [h0] at hC
        have : s.C i j = 0 := abs_eq_zero.1 (le_antisymm hC (abs_nonneg _))
        rw [this, zero_div]; norm_num
      · rename_i h0
        exact hle _ hC (lt_of_le_of_ne (by positivity) (Ne.symm h0))
    generalize (if Real.sqrt (s.crs i) * Real.sqrt (s.crs j) = 0 then (1 / 10 ^ 100 : ℝ)
      else Real.sqrt (s.crs i) * Real.sqrt (s.crs j)) = p at hm
    split
    · exact ⟨le_rfl, by norm_num⟩
    · rename_i h; exact ⟨not_lt.1 h, by linarith⟩
  · rintro i ⟨x, hx, y, hy, hne⟩
    have h0 : s.crs i ≠ 0 := fun h => hne ((h7 i).1 h x hx y hy)
    rw [hD]
    unfold CorClust.corrDist
    simp only
    rw [Real.mul_self_sqrt (h3 i), if_neg h0, h4, div_self h0]
    simp
  · intro i hc
    have h0 : s.crs i = 0 := (h7 i).2 hc
    rw [hD]
    unfold CorClust.corrDist
    simp only
    rw [h4, h0, zero_div]
    norm_num

/-- **C84 (what is clustered).** For every stream: the linkage is given one number for every pair
of features, and where it expects the distance of the features `i < j` it finds their distance; if
it raises so does the clustering, and the feature map cuts the tree it returns into its largest
subtrees with at most `max(1, m)` leaves. -/
theorem C84_kitnet_linkage {K : Type*} [Field K] [LinearOrder K] (env : KnEnv K)
    (xs : List (Fin n → K)) (m : ℤ) (hn : 1 ≤ n) :
    ∃ L : List K, 2 * L.length = n * (n - 1) ∧
      (∀ i j : Fin n, i < j → L[pairIndex n i j]? = some (featureDistance env.sqrt xs i j)) ∧
      (∀ e, env.linkageTree n L = .error e →
        (xs.foldl CorClust.update (CorClust.new n)).cluster env m = .error e) ∧
      ∀ t, env.linkageTree n L = .ok t → t.preOrder.length = n →
        ∃ v, (xs.foldl CorClust.update (CorClust.new n)).cluster env m = .ok v ∧
          LargestSubtrees (max 1 m) t v := by
  obtain ⟨L, h1, h2, h3⟩ := clustered env (xs.foldl CorClust.update (CorClust.new n)) m hn
  exact ⟨L, h1, fun i j hij => by rw [h2 i j hij, corrDist_eq], h3⟩

end

/-! Concrete runs. -/

example : pairIndex 4 0 1 = 0 ∧ pairIndex 4 0 3 = 2 ∧ pairIndex 4 1 2 = 3 ∧ pairIndex 4 2 3 = 5 := by
  decide

example : LargestSubtrees 2 (.node (.leaf 0) (.node (.leaf 2) (.leaf 1)) : Dendro 3)
    [[0], [2, 1]] :=
  .split (by decide) (.whole (t := .leaf 0) (by decide))
    (.whole (t := .node (.leaf 2) (.leaf 1)) (by decide))

example : LinkageLaws kitnetRealEnv := chainLinkage_laws _ rfl

def kitnetExampleEnv : KnEnv ℚ := ⟨fun x => |x|, fun _ => 1 / 2, fun _ _ _ _ => 0, chainLinkage⟩

example : LinkageLaws kitnetExampleEnv := chainLinkage_laws _ rfl

def kitnetExampleRun (k : ℕ) : Except PyErr (Num ℚ) :=
  (KitNet.scorePartial kitnetExampleEnv
    (calls (KitNet.detector (β := Unit) kitnetExampleEnv) (KitNet.new 3 2 (some 1) 2 1 (3 / 4))
      ((List.range k).map fun t => Call.fit (fun i => ((t * i.val : ℕ) : ℚ)) none)).2
    (fun _ => 1)).out

example : kitnetExampleRun 0 = .error .attributeError := by decide +kernel
example : kitnetExampleRun 1 = .ok (.fin 0) := by decide +kernel
example : kitnetExampleRun 2 = .ok .nan := by decide +kernel
example : (match kitnetExampleRun 3 with | .ok (.fin r) => decide (0 < r) | _ => false) = true := by
  decide +kernel

end Pysad
