import Verif.Model.KitNetInterrupt
import Verif.Props.Interrupt
import Verif.Props.KitNet

/-! Property C193: interrupted fits of `KitNet`. -/

namespace Pysad

open Spec

private theorem run_const {σ : Type*} (l : List σ) (s : σ) :
    runStatements (l.map fun t _ => t) s = l.getLast?.getD s := by
  induction l generalizing s with
  | nil => rfl
  | cons a l ih =>
    rw [List.map_cons]
    change runStatements (l.map fun t _ => t) a = _
    rw [ih, List.getLast?_cons]
    rfl

private theorem run_take_const {σ : Type*} (l : List σ) (s : σ) (k : ℕ) :
    runStatements ((l.map fun t _ => t).take k) s ∈ s :: l := by
  rw [← List.map_take, run_const]
  cases h : (l.take k).getLast? with
  | none => simp
  | some a =>
    have := List.mem_of_mem_take (List.mem_of_getLast? h)
    simp [this]

private theorem getLast_append {α : Type*} (l r : List α) (a : α) :
    (l ++ r).getLast?.getD a = r.getLast?.getD (l.getLast?.getD a) := by
  rw [List.getLast?_append]
  cases r.getLast? <;> rfl

private theorem getLast_map {α β : Type*} (f : α → β) (l : List α) (a : α) :
    (l.map f).getLast?.getD (f a) = f (l.getLast?.getD a) := by
  rw [List.getLast?_map]
  cases l.getLast? <;> rfl

section
variable {K : Type*} [Field K] [LinearOrder K] {n : ℕ}

namespace KitNET

theorem layerStages_last (env : KnEnv K) (x : Fin n → K) :
    ∀ (as : List (DaState K)) (v : List (List (Fin n))),
      (layerStages env x as v).getLast?.getD as = (trainLayer env x as v).2 := by
  intro as
  induction as with
  | nil => intro v; rfl
  | cons a as ih =>
    intro v
    cases v with
    | nil => rfl
    | cons idx v =>
      rw [layerStages, trainLayer, getLast_append]
      simp only
      rw [← ih v, ← getLast_map (fun as' => (Da.train env a (part x idx)).2 :: as')]
      rfl

variable [FloorRing K]

theorem ensembleStages_last (env : KnEnv K) :
    ∀ (v : List (List (Fin n))) (s : KnState K n),
      (ensembleStages env s v).getLast?.getD s = (createEnsemble env s v).state := by
  intro v
  induction v with
  | nil => intro s; rfl
  | cons p v ih =>
    intro s
    rw [ensembleStages, createEnsemble]
    cases Da.new env p.length s.lr s.hr with
    | error e => rfl
    | ok a =>
      simp only [List.getLast?_cons, Option.getD_some]
      exact ih _

theorem mapStages_last (env : KnEnv K) (s : KnState K n) (x : Fin n → K) :
    (mapStages env s x).getLast?.getD s = (trainMap env s x).state := by
  unfold mapStages trainMap
  simp only
  rw [getLast_append]
  have h1 : ((s.fm.updateStages x).map fun c => { s with fm := c }).getLast?.getD s = { s with fm := s.fm.update x } := rfl
  rw [h1]
  split
  · cases CorClust.cluster env (s.fm.update x) s.m with
    | error e => rfl
    | ok v =>
      simp only
      rw [getLast_append]
      have h2 := ensembleStages_last env v { s with fm := s.fm.update x, v := some v }
      unfold createAD
      rw [List.getLast?_cons, Option.getD_some, h2]
      cases createEnsemble env { s with fm := s.fm.update x, v := some v } v with
      | err e t => rfl
      | ok u t =>
        simp only [Res.bind_ok]
        cases Da.new env v.length t.lr t.hr <;> rfl
  · rfl

omit [FloorRing K] in
theorem layersStages_last (env : KnEnv K) (s : KnState K n) (x : Fin n → K) :
    (layersStages env s x).getLast?.getD s = (trainLayers env s x).state := by
  unfold layersStages trainLayers
  simp only
  have hl : ((layerStages env x s.ensemble (s.v.getD [])).map fun as =>
      ({ s with ensemble := as } : KnState K n)).getLast?.getD s =
      { s with ensemble := (trainLayer env x s.ensemble (s.v.getD [])).2 } := by
    rw [← layerStages_last]
    exact getLast_map (fun as => ({ s with ensemble := as } : KnState K n)) _ s.ensemble
  rw [getLast_append, hl]
  obtain ⟨ad, fm, m, lr, hr, nt, ne, v, c, ens, out⟩ := s
  cases out <;> rfl

theorem processStages_last (env : KnEnv K) (s : KnState K n) (x : Fin n → K) :
    (processStages env s x).getLast?.getD s = (process env s x).state := by
  unfold processStages process
  split
  · unfold execute
    cases s.v with
    | none => rfl
    | some v =>
      simp only [reduceCtorEq, if_false]
      cases s.output <;> rfl
  · rw [getLast_append]
    unfold train
    by_cases h : s.nTrained ≤ s.fmGrace ∧ s.v = none
    · rw [if_pos h, if_pos h, mapStages_last]
      cases trainMap env s x <;> rfl
    · rw [if_neg h, if_neg h, layersStages_last]
      cases trainLayers env s x <;> rfl

end KitNET

namespace KitNet
variable [FloorRing K]

/-- All stores together are the call. -/
theorem statements_complete (env : KnEnv K) (x : Fin n → K) (s : KitNetState K n) :
    runStatements (statements env x s) s = (fitPartial env s x).state := by
  unfold statements fitPartial fitStages
  rw [run_const, getLast_append]
  have h1 : (if s.model = none then [{ s with model := some (init s) }] else []).getLast?.getD s =
      { s with model := some (init s) } := by
    cases hm : s.model with
    | none => rfl
    | some m =>
      simp only [reduceCtorEq, if_false, init, hm, Option.getD_some, List.getLast?_nil, Option.getD_none]
      rw [← hm]
  have h2 := getLast_map (fun m => ({ s with model := some m } : KitNetState K n))
    (KitNET.processStages env (init s) x) (init s)
  rw [h1, h2, KitNET.processStages_last]
  cases KitNET.process env (init s) x <;> rfl

end KitNet

/-! ### The two kinds of states -/

namespace KitNET
variable [FloorRing K]

/-- The autoencoders have seen an instance. -/
def Trained (m : KnState K n) : Prop :=
  ∃ v o, m.v = some v ∧ m.output = some o ∧ o.norm ≠ none ∧ ∀ p ∈ m.ensemble.zip v, p.1.norm ≠ none

/-- A usable state. -/
structure Usable (fm ad : ℕ) (m : KnState K n) : Prop where
  fmGrace : m.fmGrace = fm
  adGrace : m.adGrace = ad
  hr : 0 ≤ m.hr
  unmapped : m.v = none → m.nTrained ≤ fm ∧ m.output = none
  mapped : m.v ≠ none → m.output ≠ none
  trained : fm + 1 < m.nTrained → Trained m

/-- A feature map without output layer. -/
structure Stuck (m : KnState K n) : Prop where
  early : m.nTrained ≤ m.fmGrace + m.adGrace
  mapped : m.v ≠ none
  output : m.output = none

omit [FloorRing K] in
theorem trainStages_norm (env : KnEnv K) (a : DaState K) (x : ℕ → K) (h : a.norm ≠ none) :
    ∀ t ∈ Da.trainStages env a x, t.norm ≠ none := by
  intro t ht
  simp only [Da.trainStages, List.mem_cons, List.not_mem_nil, or_false] at ht
  rcases ht with rfl | rfl | rfl | rfl | rfl
  · exact h
  all_goals simp [Da.train]

omit [FloorRing K] in
theorem train_norm (env : KnEnv K) (a : DaState K) (x : ℕ → K) : (Da.train env a x).2.norm ≠ none := by
  simp [Da.train]

omit [FloorRing K] in
theorem layerStages_norm (env : KnEnv K) (x : Fin n → K) :
    ∀ (as : List (DaState K)) (v : List (List (Fin n))), (∀ p ∈ as.zip v, p.1.norm ≠ none) →
      ∀ as' ∈ layerStages env x as v, ∀ p ∈ as'.zip v, p.1.norm ≠ none := by
  intro as
  induction as with
  | nil => intro v _ as' h; simp [layerStages] at h
  | cons a as ih =>
    intro v
    cases v with
    | nil => intro _ as' h; simp [layerStages] at h
    | cons idx v =>
      intro h as' h' p hp
      rw [layerStages, List.mem_append] at h'
      rcases h' with h' | h'
      · obtain ⟨a', ha', rfl⟩ := List.mem_map.1 h'
        rw [List.zip_cons_cons, List.mem_cons] at hp
        rcases hp with rfl | hp
        · exact trainStages_norm env a _ (h (a, idx) (by simp)) a' ha'
        · exact h p (by rw [List.zip_cons_cons]; exact List.mem_cons_of_mem _ hp)
      · obtain ⟨bs, hb, rfl⟩ := List.mem_map.1 h'
        rw [List.zip_cons_cons, List.mem_cons] at hp
        rcases hp with rfl | hp
        · exact train_norm env a _
        · exact ih v (fun p hp => h p (by rw [List.zip_cons_cons]; exact List.mem_cons_of_mem _ hp)) bs hb p hp

omit [FloorRing K] in
theorem trainLayer_norm (env : KnEnv K) (x : Fin n → K) :
    ∀ (as : List (DaState K)) (v : List (List (Fin n))),
      ∀ p ∈ (trainLayer env x as v).2.zip v, p.1.norm ≠ none := by
  intro as
  induction as with
  | nil => intro v p hp; simp [trainLayer] at hp
  | cons a as ih =>
    intro v
    cases v with
    | nil => intro p hp; simp at hp
    | cons idx v =>
      intro p hp
      rw [trainLayer, List.zip_cons_cons, List.mem_cons] at hp
      rcases hp with rfl | hp
      · exact train_norm env a _
      · exact ih v p hp

theorem ensembleStages_keep (env : KnEnv K) :
    ∀ (v : List (List (Fin n))) (s : KnState K n), ∀ t ∈ ensembleStages env s v,
      t.fmGrace = s.fmGrace ∧ t.adGrace = s.adGrace ∧ t.nTrained = s.nTrained ∧ t.v = s.v ∧ t.output = s.output := by
  intro v
  induction v with
  | nil => intro s t ht; simp [ensembleStages] at ht
  | cons p v ih =>
    intro s t ht
    rw [ensembleStages] at ht
    cases hd : Da.new env p.length s.lr s.hr with
    | error e => rw [hd] at ht; simp at ht
    | ok a =>
      rw [hd] at ht
      simp only [List.mem_cons] at ht
      rcases ht with rfl | ht
      · exact ⟨rfl, rfl, rfl, rfl, rfl⟩
      · have := ih { s with ensemble := s.ensemble ++ [a] } t ht
        exact this

theorem createEnsemble_keep (env : KnEnv K) :
    ∀ (v : List (List (Fin n))) (s t : KnState K n), createEnsemble env s v = .ok () t →
      t.fmGrace = s.fmGrace ∧ t.adGrace = s.adGrace ∧ t.nTrained = s.nTrained ∧ t.v = s.v ∧ t.hr = s.hr := by
  intro v
  induction v with
  | nil => intro s t ht; cases ht; exact ⟨rfl, rfl, rfl, rfl, rfl⟩
  | cons p v ih =>
    intro s t ht
    rw [createEnsemble] at ht
    cases hd : Da.new env p.length s.lr s.hr with
    | error e => rw [hd] at ht; cases ht
    | ok a =>
      rw [hd] at ht
      have := ih { s with ensemble := s.ensemble ++ [a] } t ht
      exact this

theorem createAD_keep (env : KnEnv K) (v : List (List (Fin n))) (s t : KnState K n)
    (h : createAD env s v = .ok () t) :
    t.fmGrace = s.fmGrace ∧ t.adGrace = s.adGrace ∧ t.nTrained = s.nTrained ∧ t.v = s.v ∧ t.hr = s.hr ∧
      t.output ≠ none := by
  unfold createAD at h
  cases hc : createEnsemble env s v with
  | err e u => rw [hc] at h; cases h
  | ok a u =>
    rw [hc, Res.bind_ok] at h
    obtain ⟨h1, h2, h3, h4, h5⟩ := createEnsemble_keep env v s u hc
    cases hd : Da.new env v.length u.lr u.hr with
    | error e => rw [hd] at h; cases h
    | ok b =>
      rw [hd] at h
      cases h
      exact ⟨h1, h2, h3, h4, h5, by simp⟩

variable {fm ad : ℕ}

theorem mapStages_kind (env : KnEnv K) {s : KnState K n} (h : Usable fm ad s) (hv : s.v = none) (x : Fin n → K) :
    ∀ t ∈ mapStages env s x, t.nTrained = s.nTrained ∧ (Usable fm ad t ∨ s.nTrained = fm ∧ Stuck t) := by
  intro t ht
  have hle := h.unmapped hv
  unfold mapStages at ht
  simp only [List.mem_append, List.mem_map] at ht
  rcases ht with ⟨c, _, rfl⟩ | ht
  · exact ⟨rfl, Or.inl ⟨h.fmGrace, h.adGrace, h.hr, h.unmapped, h.mapped, fun hlt => h.trained hlt⟩⟩
  · split at ht
    · rename_i heq
      cases hc : CorClust.cluster env (s.fm.update x) s.m with
      | error e => rw [hc] at ht; simp at ht
      | ok v =>
        rw [hc] at ht
        simp only [List.mem_append, List.mem_cons] at ht
        have early : s.nTrained ≤ s.fmGrace + s.adGrace := by omega
        rcases ht with (rfl | ht) | ht
        · exact ⟨rfl, Or.inr ⟨heq.trans h.fmGrace, early, by simp, hle.2⟩⟩
        · obtain ⟨h1, h2, h3, h4, h5⟩ := ensembleStages_keep env v _ t ht
          refine ⟨h3, Or.inr ⟨heq.trans h.fmGrace, by rw [h1, h2, h3]; exact early, by rw [h4]; simp, by rw [h5]; exact hle.2⟩⟩
        · cases hd : createAD env { s with fm := s.fm.update x, v := some v } v with
          | err e u => rw [hd] at ht; simp at ht
          | ok a u =>
            rw [hd] at ht
            simp only [List.mem_singleton] at ht
            subst ht
            obtain ⟨h1, h2, h3, h4, h5, h6⟩ := createAD_keep env v _ _ hd
            refine ⟨h3, Or.inl ⟨h1.trans h.fmGrace, h2.trans h.adGrace, h5 ▸ h.hr, fun h => ?_, fun _ => h6, fun hlt => ?_⟩⟩
            · rw [h4] at h; simp at h
            · rw [h3] at hlt
              simp only at hlt
              have := h.fmGrace
              omega
    · simp at ht

omit [FloorRing K] in
theorem layersStages_kind (env : KnEnv K) {s : KnState K n} (h : Usable fm ad s) (hv : s.v ≠ none) (x : Fin n → K) :
    ∀ t ∈ layersStages env s x, t.nTrained = s.nTrained ∧ Usable fm ad t := by
  intro t ht
  unfold layersStages at ht
  obtain ⟨v, hv'⟩ := Option.ne_none_iff_exists'.1 hv
  obtain ⟨o, ho⟩ := Option.ne_none_iff_exists'.1 (h.mapped hv)
  simp only [List.mem_append, List.mem_map, hv', Option.getD_some, ho] at ht
  rcases ht with ⟨as, has, rfl⟩ | ⟨o', ho', rfl⟩
  · refine ⟨rfl, h.fmGrace, h.adGrace, h.hr, fun hc => by simp at hc, fun _ => by simp, fun hlt => ?_⟩
    obtain ⟨w, p, h1, h2, h3, h4⟩ := h.trained hlt
    cases hv'.symm.trans h1
    cases ho.symm.trans h2
    exact ⟨v, o, rfl, rfl, h3, layerStages_norm env x _ _ h4 as has⟩
  · refine ⟨rfl, h.fmGrace, h.adGrace, h.hr, fun hc => by simp at hc, fun _ => by simp, fun hlt => ?_⟩
    obtain ⟨w, p, h1, h2, h3, h4⟩ := h.trained hlt
    cases ho.symm.trans h2
    cases hv'.symm.trans h1
    exact ⟨v, o', rfl, rfl, trainStages_norm env o _ h3 o' ho', trainLayer_norm env x _ _⟩

omit [FloorRing K] in
theorem stuck_layers (env : KnEnv K) {s : KnState K n} (h : Stuck s) (x : Fin n → K) :
    ∀ t ∈ layersStages env s x, Stuck t := by
  intro t ht
  unfold layersStages at ht
  simp only [List.mem_append, List.mem_map, h.output, List.not_mem_nil, or_false] at ht
  obtain ⟨as, has, rfl⟩ := ht
  exact ⟨h.early, h.mapped, rfl⟩

theorem stuck_process (env : KnEnv K) {s : KnState K n} (h : Stuck s) (x : Fin n → K) :
    (∃ t, process env s x = .err .attributeError t) ∧ ∀ t ∈ processStages env s x, Stuck t := by
  have h1 : ¬ s.nTrained > s.fmGrace + s.adGrace := not_lt.2 h.early
  have h2 : ¬ (s.nTrained ≤ s.fmGrace ∧ s.v = none) := fun hc => h.mapped hc.2
  have h3 : ∃ t, train env s x = .err .attributeError t := by
    unfold train
    rw [if_neg h2]
    unfold trainLayers
    simp only [h.output]
    exact ⟨_, rfl⟩
  obtain ⟨u, hu⟩ := h3
  refine ⟨⟨u, by unfold process; rw [if_neg h1, hu]⟩, fun t ht => ?_⟩
  unfold processStages at ht
  rw [if_neg h1, if_neg h2, hu, List.append_nil] at ht
  exact stuck_layers env h x t ht

/-- A complete fit in a usable state. -/
theorem usable_process [IsStrictOrderedRing K] {env : KnEnv K} (law : LinkageLaws env) (hn : 2 ≤ n) {s : KnState K n}
    (h : Usable fm ad s) (x : Fin n → K) :
    ∃ t, process env s x = .ok () t ∧ Usable fm ad t ∧
      (t.nTrained = s.nTrained + 1 ∨ fm + ad < s.nTrained ∧ t.nTrained = s.nTrained) := by
  unfold process
  by_cases hx : s.nTrained > s.fmGrace + s.adGrace
  · rw [if_pos hx]
    rw [h.fmGrace, h.adGrace] at hx
    have hv : s.v ≠ none := fun hc => by have := (h.unmapped hc).1; omega
    obtain ⟨v, hv'⟩ := Option.ne_none_iff_exists'.1 hv
    obtain ⟨o, ho⟩ := Option.ne_none_iff_exists'.1 (h.mapped hv)
    unfold execute
    simp only [hv', ho]
    refine ⟨_, rfl, ⟨h.fmGrace, h.adGrace, h.hr, fun hc => by simp at hc, fun _ => by simp, fun hlt => ?_⟩, Or.inr ⟨hx, rfl⟩⟩
    obtain ⟨w, p, h1, h2, h3, h4⟩ := h.trained hlt
    exact ⟨w, p, hv'.symm.trans h1, ho.symm.trans h2, h3, h4⟩
  · rw [if_neg hx]
    unfold train
    by_cases hm : s.nTrained ≤ s.fmGrace ∧ s.v = none
    · rw [if_pos hm]
      unfold trainMap
      simp only
      by_cases he : s.nTrained = s.fmGrace
      · rw [if_pos he]
        obtain ⟨v, hv, hp, _⟩ := C80_kitnet_cluster law hn (s.fm.update x) s.m
        rw [hv]
        simp only
        rw [createAD_ok env v { s with fm := s.fm.update x, v := some v } h.hr (fun p hpv => hp.2 p hpv)
          (partition_ne_nil hp (by omega)), Res.bind_ok]
        refine ⟨_, rfl, ⟨h.fmGrace, h.adGrace, h.hr, fun hc => ?_, fun _ => by simp, fun hlt => ?_⟩, Or.inl rfl⟩
        · simp at hc
        · have := h.fmGrace
          simp only at hlt
          omega
      · rw [if_neg he, Res.bind_ok]
        refine ⟨_, rfl, ⟨h.fmGrace, h.adGrace, h.hr, fun _ => ⟨?_, (h.unmapped hm.2).2⟩, fun hc => (hc hm.2).elim,
          fun hlt => ?_⟩, Or.inl rfl⟩
        · have := h.fmGrace
          simp only
          omega
        · have := h.fmGrace
          simp only at hlt
          omega
    · rw [if_neg hm]
      have hv : s.v ≠ none := fun hc => hm ⟨by have := (h.unmapped hc).1; rw [h.fmGrace]; exact this, hc⟩
      obtain ⟨v, hv'⟩ := Option.ne_none_iff_exists'.1 hv
      obtain ⟨o, ho⟩ := Option.ne_none_iff_exists'.1 (h.mapped hv)
      unfold trainLayers
      simp only [hv', ho, Option.getD_some, Res.bind_ok]
      refine ⟨_, rfl, ⟨h.fmGrace, h.adGrace, h.hr, fun hc => ?_, fun _ => by simp, fun _ => ?_⟩, Or.inl rfl⟩
      · simp only at hc; exact (hv (hv'.trans hc)).elim
      · exact ⟨v, _, rfl, rfl, train_norm env o _, trainLayer_norm env x _ _⟩

/-- Every store of a fit in a usable state. -/
theorem usable_stages [IsStrictOrderedRing K] {env : KnEnv K} (law : LinkageLaws env) (hn : 2 ≤ n) {s : KnState K n}
    (h : Usable fm ad s) (x : Fin n → K) :
    ∀ t ∈ processStages env s x, s.nTrained ≤ t.nTrained ∧ t.nTrained ≤ s.nTrained + 1 ∧
      (Usable fm ad t ∨ s.nTrained = fm ∧ Stuck t) := by
  intro t ht
  unfold processStages at ht
  split at ht
  · split at ht
    · simp at ht
    · simp only [List.mem_singleton] at ht
      subst ht
      exact ⟨le_rfl, Nat.le_succ _,
        Or.inl ⟨h.fmGrace, h.adGrace, h.hr, h.unmapped, h.mapped, fun hlt => h.trained hlt⟩⟩
  · rename_i hx
    rw [List.mem_append] at ht
    rcases ht with ht | ht
    · split at ht
      · rename_i hm
        obtain ⟨h1, h2⟩ := mapStages_kind env h hm.2 x t ht
        exact ⟨h1.ge, h1.le.trans (Nat.le_succ _), h2⟩
      · rename_i hm
        have hv : s.v ≠ none := fun hc => hm ⟨by have := (h.unmapped hc).1; rw [h.fmGrace]; exact this, hc⟩
        obtain ⟨h1, h2⟩ := layersStages_kind env h hv x t ht
        exact ⟨h1.ge, h1.le.trans (Nat.le_succ _), Or.inl h2⟩
    · obtain ⟨u, hu, hu', hc⟩ := usable_process law hn h x
      unfold process at hu
      rw [if_neg hx] at hu
      rw [hu] at ht
      simp only [List.mem_singleton] at ht
      subst ht
      exact ⟨by omega, by omega, Or.inl hu'⟩

theorem trained_score [IsStrictOrderedRing K] (env : KnEnv K) (hsq : ∀ y, 0 ≤ env.sqrt y) {m : KnState K n} (h : Trained m) (x : Fin n → K) :
    ∃ r t, execute env m x = .ok (.fin r) t ∧ 0 ≤ r := by
  obtain ⟨v, o, h1, h2, h3, h4⟩ := h
  have key : ∀ (as : List (DaState K)) (v : List (List (Fin n))), (∀ p ∈ as.zip v, p.1.norm ≠ none) →
      ∃ l, (executeLayer env x as v).mapM Da.finite? = some l := by
    intro as
    induction as with
    | nil => intro v _; exact ⟨[], rfl⟩
    | cons a as ih =>
      intro v
      cases v with
      | nil => intro _; exact ⟨[], rfl⟩
      | cons idx v =>
        intro h
        obtain ⟨l, hl⟩ := ih v fun p hp => h p (by rw [List.zip_cons_cons]; exact List.mem_cons_of_mem _ hp)
        obtain ⟨r, hr, _⟩ := da_execute_fin env hsq a (h (a, idx) (by simp)) (part x idx)
        refine ⟨r :: l, ?_⟩
        rw [executeLayer, hr, List.mapM_cons, hl]
        rfl
  obtain ⟨l, hl⟩ := key m.ensemble v h4
  obtain ⟨r, hr, hpos⟩ := da_execute_fin env hsq o h3 (Da.ofList l)
  refine ⟨r, { m with nExecuted := m.nExecuted + 1 }, ?_, hpos⟩
  have : Da.executeNums env o (executeLayer env x m.ensemble v) = .fin r := by
    unfold Da.executeNums
    rw [hl]
    exact hr
  unfold execute
  simp only [h1, h2]
  rw [this]

end KitNET

/-! ### The property -/

section
variable [FloorRing K]

/-- The detector, after the fits `h` of which some were interrupted, never works again: whatever fits follow,
complete or not, both methods raise `AttributeError`. -/
def Spec.KitNetDead (env : KnEnv K) (s : KitNetState K n) (h : List ((Fin n → K) × Option ℕ)) : Prop :=
  ∀ h' x, (KitNet.fitPartial env (afterCalls (KitNet.statements env) s (h ++ h')) x).out = .error .attributeError ∧
    (KitNet.scorePartial env (afterCalls (KitNet.statements env) s (h ++ h')) x).out = .error .attributeError

/-- The detector with the grace period `fm`, after the fits `h` of which some were interrupted, recovers: no
complete fit that follows raises, and after `fm + 2` of them scores are numbers that are not negative. -/
def Spec.KitNetWorks (env : KnEnv K) (fm : ℕ) (s : KitNetState K n) (h : List ((Fin n → K) × Option ℕ)) : Prop :=
  ∀ (xs : List (Fin n → K)) (x : Fin n → K),
    let t := afterCalls (KitNet.statements env) s (h ++ xs.map fun x => (x, none))
    (KitNet.fitPartial env t x).out = .ok () ∧
      (fm + 2 ≤ xs.length → ∃ r, 0 ≤ r ∧ (KitNet.scorePartial env t x).out = .ok (.fin r))

/-- The number of complete fits. -/
def Spec.completeFits {ι : Type*} (h : List (ι × Option ℕ)) : ℕ := (h.filter fun e => e.2.isNone).length

namespace KitNet
open KitNET
variable {fm ad : ℕ}

private theorem afterCalls_append {σ ι : Type*} (st : ι → σ → List (σ → σ)) (s : σ) (h h' : List (ι × Option ℕ)) :
    afterCalls st s (h ++ h') = afterCalls st (afterCalls st s h) h' := by
  unfold afterCalls
  rw [List.foldl_append]

private theorem completeFits_append {ι : Type*} (h h' : List (ι × Option ℕ)) :
    completeFits (h ++ h') = completeFits h + completeFits h' := by
  simp [completeFits]

/-- The state of a broken detector. -/
def Broken (s : KitNetState K n) : Prop := ∃ m, s.model = some m ∧ Stuck m

theorem broken_stages (env : KnEnv K) {s : KitNetState K n} (h : Broken s) (x : Fin n → K) :
    ∀ t ∈ fitStages env s x, Broken t := by
  obtain ⟨m, hm, hs⟩ := h
  intro t ht
  unfold fitStages at ht
  rw [if_neg (by rw [hm]; simp), List.nil_append, List.mem_map] at ht
  obtain ⟨m', hm', rfl⟩ := ht
  have : init s = m := by simp [init, hm]
  rw [this] at hm'
  exact ⟨m', rfl, (stuck_process env hs x).2 m' hm'⟩

theorem broken_after (env : KnEnv K) : ∀ (h : List ((Fin n → K) × Option ℕ)) (s : KitNetState K n), Broken s →
    Broken (afterCalls (statements env) s h) := by
  intro h
  induction h with
  | nil => intro s hs; exact hs
  | cons e h ih =>
    intro s hs
    obtain ⟨x, k⟩ := e
    refine ih _ ?_
    cases k with
    | none =>
      have := run_take_const (fitStages env s x) s (fitStages env s x).length
      rw [List.take_of_length_le (by simp)] at this
      rcases List.mem_cons.1 this with h | h
      · exact (congrArg Broken h).mpr hs
      · exact broken_stages env hs x _ h
    | some k =>
      rcases List.mem_cons.1 (run_take_const (fitStages env s x) s k) with h | h
      · exact (congrArg Broken h).mpr hs
      · exact broken_stages env hs x _ h

theorem broken_dead (env : KnEnv K) (s : KitNetState K n) (h : List ((Fin n → K) × Option ℕ))
    (hb : Broken (afterCalls (statements env) s h)) : KitNetDead env s h := by
  intro h' x
  rw [afterCalls_append]
  obtain ⟨m, hm, hs⟩ := broken_after env h' _ hb
  obtain ⟨t, ht⟩ := (stuck_process env hs x).1
  constructor
  · unfold fitPartial
    have : init (afterCalls (statements env) (afterCalls (statements env) s h) h') = m := by simp [init, hm]
    rw [this, ht]
    rfl
  · unfold scorePartial
    rw [hm]
    simp only
    rw [if_neg hs.mapped]
    obtain ⟨v, hv⟩ := Option.ne_none_iff_exists'.1 hs.mapped
    unfold execute
    simp only [hv, hs.output]
    rfl

/-- The state of a usable detector with between `a` and `b` instances seen. -/
structure Fine (fm ad a b : ℕ) (s : KitNetState K n) : Prop where
  usable : Usable fm ad (init s)
  seen : a ≤ (init s).nTrained ∨ fm + ad < (init s).nTrained
  most : (init s).nTrained ≤ b
  started : 0 < a → s.model ≠ none

theorem fine_complete [IsStrictOrderedRing K] {env : KnEnv K} (law : LinkageLaws env) (hn : 2 ≤ n) {a b : ℕ}
    {s : KitNetState K n} (h : Fine fm ad a b s) (x : Fin n → K) :
    (fitPartial env s x).out = .ok () ∧ Fine fm ad (a + 1) (b + 1) (runStatements (statements env x s) s) := by
  obtain ⟨t, ht, hu, hc⟩ := usable_process law hn h.usable x
  have h1 := h.seen
  have h2 := h.most
  rw [statements_complete]
  unfold fitPartial
  rw [ht]
  refine ⟨rfl, ?_, ?_, ?_, fun _ => by simp⟩
  · exact hu
  · change a + 1 ≤ t.nTrained ∨ fm + ad < t.nTrained
    omega
  · change t.nTrained ≤ b + 1
    omega

theorem fine_cut [IsStrictOrderedRing K] {env : KnEnv K} (law : LinkageLaws env) (hn : 2 ≤ n) {a b : ℕ}
    {s : KitNetState K n} (h : Fine fm ad a b s) (x : Fin n → K) (k : ℕ) :
    Fine fm ad a (b + 1) (runStatements ((statements env x s).take k) s) ∨
      (init s).nTrained = fm ∧ Broken (runStatements ((statements env x s).take k) s) := by
  have h1 := h.seen
  have h2 := h.most
  rcases List.mem_cons.1 (run_take_const (fitStages env s x) s k) with he | he
  · left
    unfold statements
    rw [he]
    exact ⟨h.usable, h1, h2.trans (Nat.le_succ _), h.started⟩
  · unfold statements
    generalize runStatements ((List.map (fun t x => t) (fitStages env s x)).take k) s = u at he
    unfold fitStages at he
    rw [List.mem_append, List.mem_map] at he
    rcases he with he | ⟨m, hm, rfl⟩
    · left
      split at he
      · simp only [List.mem_singleton] at he
        subst he
        exact ⟨h.usable, h1, h2.trans (Nat.le_succ _), fun _ => by simp⟩
      · simp at he
    · obtain ⟨h3, h4, h5⟩ := usable_stages law hn h.usable x m hm
      rcases h5 with h5 | ⟨h5, h6⟩
      · left
        refine ⟨h5, ?_, ?_, fun _ => by simp⟩
        · change a ≤ m.nTrained ∨ fm + ad < m.nTrained
          omega
        · change m.nTrained ≤ b + 1
          omega
      · exact Or.inr ⟨h5, m, rfl, h6⟩

theorem fine_after [IsStrictOrderedRing K] {env : KnEnv K} (law : LinkageLaws env) (hn : 2 ≤ n) (s : KitNetState K n)
    (h0 : Fine fm ad 0 0 s) (h : List ((Fin n → K) × Option ℕ)) :
    Fine fm ad (completeFits h) h.length (afterCalls (statements env) s h) ∨
      (∃ h1 x k h2, h = h1 ++ (x, some k) :: h2 ∧ completeFits h1 ≤ fm ∧ fm ≤ h1.length) ∧
      Broken (afterCalls (statements env) s h) := by
  induction h using List.reverseRecOn with
  | nil => exact Or.inl h0
  | append_singleton h e ih =>
    obtain ⟨x, k⟩ := e
    rw [afterCalls_append, completeFits_append, List.length_append]
    rcases ih with ih | ⟨⟨h1, y, j, h2, he, hle⟩, ih⟩
    · cases k with
      | none => exact Or.inl (fine_complete law hn ih x).2
      | some k =>
        rcases fine_cut law hn ih x k with h3 | ⟨h3, h4⟩
        · exact Or.inl h3
        · refine Or.inr ⟨⟨h, x, k, [], rfl, ?_, ?_⟩, h4⟩
          · have := ih.seen
            omega
          · have := ih.most
            omega
    · exact Or.inr ⟨⟨h1, y, j, h2 ++ [(x, k)], by rw [he]; simp, hle⟩, broken_after env _ _ ih⟩

theorem fine_works [IsStrictOrderedRing K] {env : KnEnv K} (law : LinkageLaws env) (hn : 2 ≤ n)
    (hsq : ∀ y, 0 ≤ env.sqrt y) (had : 0 < ad) {a b : ℕ} {s : KitNetState K n} {h : List ((Fin n → K) × Option ℕ)}
    (hf : Fine fm ad a b (afterCalls (statements env) s h)) : KitNetWorks env fm s h := by
  intro xs x
  have key : ∀ xs : List (Fin n → K), Fine fm ad (a + xs.length) (b + xs.length)
      (afterCalls (statements env) s (h ++ xs.map fun x => (x, none))) := by
    intro xs
    induction xs using List.reverseRecOn with
    | nil => simpa using hf
    | append_singleton xs y ih =>
      rw [List.map_append, ← List.append_assoc, afterCalls_append, List.length_append]
      exact (fine_complete law hn ih y).2
  have hk := key xs
  simp only
  refine ⟨(fine_complete law hn hk x).1, fun hl => ?_⟩
  obtain ⟨m, hm⟩ := Option.ne_none_iff_exists'.1 (hk.started (by omega))
  have hi : init (afterCalls (statements env) s (h ++ xs.map fun x => (x, none))) = m := by simp [init, hm]
  have h1 := hk.seen
  have h2 := hk.usable
  rw [hi] at h1 h2
  have h3 := h2.trained (by omega)
  obtain ⟨r, t, hr, hpos⟩ := trained_score env hsq h3 x
  refine ⟨r, hpos, ?_⟩
  unfold scorePartial
  rw [hm]
  obtain ⟨v, o, hv, _⟩ := h3
  simp only
  rw [if_neg (by rw [hv]; simp), hr]
  rfl

omit [FloorRing K] in
theorem fine_new (maxSize : ℤ) (fmo : Option ℕ) (ad : ℕ) (lr hr : K) (hhr : 0 ≤ hr) :
    Fine (fmo.getD ad) ad 0 0 (KitNet.new n maxSize fmo ad lr hr) := by
  refine ⟨⟨rfl, rfl, hhr, fun _ => ⟨Nat.zero_le _, rfl⟩, fun hc => (hc rfl).elim, fun hlt => ?_⟩, Or.inl (Nat.zero_le _),
    le_rfl, fun h => (lt_irrefl _ h).elim⟩
  exact (Nat.not_lt_zero _ hlt).elim

/-- A detector after fewer than `fm` fits, none of them interrupted. -/
structure Mapping (fm : ℕ) (j : ℕ) (s : KitNetState K n) : Prop where
  fmGrace : (init s).fmGrace = fm
  seen : (init s).nTrained = j
  map : (init s).v = none
  output : (init s).output = none
  started : s.model = none ↔ j = 0

theorem mapping_step (env : KnEnv K) {j : ℕ} {s : KitNetState K n} (h : Mapping fm j s) (hj : j < fm) (x : Fin n → K) :
    Mapping fm (j + 1) (runStatements (statements env x s) s) := by
  have h1 := h.fmGrace
  have h2 := h.seen
  have hp : process env (init s) x =
      .ok () { init s with fm := (init s).fm.update x, nTrained := (init s).nTrained + 1 } := by
    unfold process train trainMap
    rw [if_neg (by omega), if_pos ⟨by omega, h.map⟩]
    simp only
    rw [if_neg (by omega)]
    rfl
  rw [statements_complete]
  unfold fitPartial
  rw [hp]
  exact ⟨h1, congrArg (· + 1) h2, h.map, h.output, by simp [Res.state, Res.mapState]⟩

theorem mapping_after (env : KnEnv K) (s : KitNetState K n) (h0 : Mapping fm 0 s) (xs : List (Fin n → K))
    (hl : xs.length ≤ fm) : Mapping fm xs.length (afterCalls (statements env) s (xs.map fun x => (x, none))) := by
  induction xs using List.reverseRecOn with
  | nil => exact h0
  | append_singleton xs x ih =>
    rw [List.length_append, List.length_singleton] at hl
    rw [List.map_append, afterCalls_append, List.length_append]
    exact mapping_step env (ih (by omega)) (by omega) x

private theorem run_take_at {σ : Type*} (l r : List σ) (a s : σ) (k : ℕ) (hk : k = l.length + 1) :
    runStatements (((l ++ a :: r).map fun t _ => t).take k) s = a := by
  rw [← List.map_take, run_const, hk, List.take_append, List.take_of_length_le (by omega)]
  simp

theorem mapping_cut [IsStrictOrderedRing K] {env : KnEnv K} (law : LinkageLaws env) (hn : 2 ≤ n)
    {s : KitNetState K n} (h : Mapping fm fm s) (x : Fin n → K) :
    Broken (runStatements ((statements env x s).take (if fm = 0 then 7 else 6)) s) := by
  have h1 := h.fmGrace
  have h2 := h.seen
  obtain ⟨v, hv, -⟩ := C80_kitnet_cluster law hn ((init s).fm.update x) (init s).m
  set m1 : KnState K n := { init s with fm := (init s).fm.update x, v := some v } with hm1
  have hst : ∃ r, fitStages env s x =
      ((if s.model = none then [{ s with model := some (init s) }] else []) ++
        ((((init s).fm.updateStages x).map fun c => { init s with fm := c }).map fun m => { s with model := some m })) ++
        ({ s with model := some m1 } : KitNetState K n) :: r := by
    unfold fitStages processStages mapStages
    rw [if_neg (show ¬ (init s).nTrained > (init s).fmGrace + (init s).adGrace by omega),
      if_pos (⟨by omega, h.map⟩ : (init s).nTrained ≤ (init s).fmGrace ∧ (init s).v = none)]
    simp only
    rw [if_pos (show (init s).nTrained = (init s).fmGrace by omega), hv]
    simp only [List.map_append, List.append_assoc, List.map_cons, List.cons_append]
    exact ⟨_, rfl⟩
  obtain ⟨r, hr⟩ := hst
  unfold statements
  rw [hr, run_take_at]
  · refine ⟨m1, rfl, ?_, by simp [hm1], h.output⟩
    change (init s).nTrained ≤ (init s).fmGrace + (init s).adGrace
    omega
  · have := h.started
    by_cases h0 : fm = 0
    · rw [if_pos h0, if_pos (this.2 h0)]
      simp [CorClust.updateStages]
    · rw [if_neg h0, if_neg fun hc => h0 (this.1 hc)]
      simp [CorClust.updateStages]

end KitNet

variable [IsStrictOrderedRing K] {env : KnEnv K} (law : LinkageLaws env) (hn : 2 ≤ n) (hsq : ∀ y, 0 ≤ env.sqrt y)
include law hn hsq

/-- **C193 (partial).** KitNet recovers from every history of complete and interrupted fits in which the fit
that would find the feature map, the one after `fm` complete ones, was not interrupted: each interrupted fit
has fewer than `fm` fits before it or more than `fm` complete ones. -/
theorem C193_partial (maxSize : ℤ) (fmo : Option ℕ) {ad : ℕ} (had : 0 < ad) (lr : K) {hr : K} (hhr : 0 ≤ hr)
    (h : List ((Fin n → K) × Option ℕ))
    (hh : ∀ h1 x k h2, h = h1 ++ (x, some k) :: h2 → h1.length < fmo.getD ad ∨ fmo.getD ad < completeFits h1) :
    KitNetWorks env (fmo.getD ad) (KitNet.new n maxSize fmo ad lr hr) h := by
  rcases KitNet.fine_after law hn _ (KitNet.fine_new maxSize fmo ad lr hr hhr) h with h1 | ⟨⟨h1, x, k, h2, he, hle⟩, _⟩
  · exact KitNet.fine_works law hn hsq had h1
  · have := hh h1 x k h2 he
    omega

/-- **C193 (partial).** After every history of complete and interrupted fits KitNet either recovers or never
works again. -/
theorem C193_dichotomy (maxSize : ℤ) (fmo : Option ℕ) {ad : ℕ} (had : 0 < ad) (lr : K) {hr : K} (hhr : 0 ≤ hr)
    (h : List ((Fin n → K) × Option ℕ)) :
    KitNetWorks env (fmo.getD ad) (KitNet.new n maxSize fmo ad lr hr) h ∨
      KitNetDead env (KitNet.new n maxSize fmo ad lr hr) h := by
  rcases KitNet.fine_after law hn _ (KitNet.fine_new maxSize fmo ad lr hr hhr) h with h1 | ⟨_, h1⟩
  · exact Or.inl (KitNet.fine_works law hn hsq had h1)
  · exact Or.inr (KitNet.broken_dead env _ h h1)

omit hsq in
/-- One interruption suffices, for every configuration and all instances: after `fm` complete fits, one that
is interrupted after its sixth store, the one of the feature map (the seventh, if it also creates the model),
leaves a detector that never works again. -/
theorem C193_dead (maxSize : ℤ) (fmo : Option ℕ) (ad : ℕ) (lr hr : K) (xs : List (Fin n → K)) (x : Fin n → K)
    (hl : xs.length = fmo.getD ad) :
    KitNetDead env (KitNet.new n maxSize fmo ad lr hr)
      ((xs.map fun x => (x, none)) ++ [(x, some (if fmo.getD ad = 0 then 7 else 6))]) := by
  apply KitNet.broken_dead
  have h0 : KitNet.Mapping (fmo.getD ad) 0 (KitNet.new n maxSize fmo ad lr hr) := ⟨rfl, rfl, rfl, rfl, by simp [KitNet.new]⟩
  have h1 := KitNet.mapping_after env _ h0 xs hl.le
  rw [hl] at h1
  rw [KitNet.afterCalls_append]
  exact KitNet.mapping_cut law hn h1 x

omit hsq in
/-- **C193 is false**, for every configuration: there is a history after which KitNet does not recover. -/
theorem C193_refuted (maxSize : ℤ) (fmo : Option ℕ) (ad : ℕ) (lr hr : K) :
    ¬ ∀ h, KitNetWorks env (fmo.getD ad) (KitNet.new n maxSize fmo ad lr hr) h := by
  intro hw
  have h1 := C193_dead law hn maxSize fmo ad lr hr (List.replicate (fmo.getD ad) fun _ => 0) (fun _ => 0) (by simp)
  generalize (List.replicate (fmo.getD ad) fun (_ : Fin n) => (0 : K)).map _ ++ _ = h at h1
  have h2 := (hw h [] fun _ => 0).1
  cases (h1 [] fun _ => 0).1.symm.trans h2

end

/-! ### The hypotheses can be met -/

example : KitNetWorks kitnetExampleEnv 1 (KitNet.new 3 2 (some 1) 2 1 (3 / 4))
    [(fun _ => 1, some 4), (fun i => i.val, none), (fun _ => 2, none), (fun _ => 3, some 8)] :=
  C193_partial (chainLinkage_laws _ rfl) (by decide) (fun y => abs_nonneg y) 2 (some 1) (by decide) 1 (by norm_num) _ (by
    intro h1 x k h2 he
    match h1, he with
    | [], _ => left; simp
    | [a], he => simp at he
    | [a, b], he => simp at he
    | [a, b, c], he =>
      right
      simp only [List.cons_append, List.nil_append, List.cons.injEq, List.nil_eq] at he
      obtain ⟨rfl, rfl, rfl, -⟩ := he
      simp [completeFits]
    | a :: b :: c :: d :: e, he => simp at he)

example : (KitNet.fitPartial kitnetExampleEnv
    (afterCalls (KitNet.statements kitnetExampleEnv) (KitNet.new 3 2 (some 1) 2 1 (3 / 4))
      [(fun i => i.val, none), (fun _ => 2, some 6), (fun _ => 3, none)]) fun _ => 1).out =
    .error .attributeError := by decide +kernel

example : (KitNet.fitPartial kitnetExampleEnv
    (afterCalls (KitNet.statements kitnetExampleEnv) (KitNet.new 3 2 (some 1) 2 1 (3 / 4))
      [(fun i => i.val, none), (fun _ => 2, some 5), (fun _ => 3, none)]) fun _ => 1).out = .ok () := by decide +kernel

end

end Pysad
