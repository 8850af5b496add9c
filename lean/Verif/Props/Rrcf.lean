import Verif.Model.Rrcf
import Verif.Spec.Calls
import Verif.Proofs.Calls
import Verif.Proofs.Lists

/-! Property C71: `RobustRandomCutForest`. -/

namespace Pysad

open Spec

namespace Rrcf

/-- The instances with their numbers. -/
def numbered {α : Type*} (xs : List α) : List (RcKey × α) :=
  xs.zipIdx.map fun p => (.index p.2, p.1)

theorem numbered_snoc {α : Type*} (xs : List α) (x : α) :
    numbered (xs ++ [x]) = numbered xs ++ [(.index xs.length, x)] := by
  simp [numbered, List.zipIdx_append]

theorem numbered_length {α : Type*} (xs : List α) : (numbered xs).length = xs.length := by
  simp [numbered]

theorem numbered_snd {α : Type*} (xs : List α) : (numbered xs).map Prod.snd = xs := by
  simp [numbered, Function.comp_def]

theorem mem_numbered {α : Type*} {xs : List α} {p : RcKey × α} (h : p ∈ numbered xs) :
    ∃ i < xs.length, p.1 = .index i := by
  obtain ⟨q, hq, rfl⟩ := List.mem_map.1 h
  exact ⟨q.2, by have := List.snd_lt_of_mem_zipIdx hq; omega, rfl⟩

theorem numbered_getElem? {α : Type*} (xs : List α) (i : ℕ) :
    (numbered xs)[i]? = xs[i]?.map fun x => (.index i, x) := by
  simp [numbered, List.getElem?_zipIdx, Function.comp_def]

/-- Is this instance number still held by a tree of size `T` after `n` fits? -/
def keeps (T n : ℕ) : RcKey → Bool
  | .index i => decide (i = 0 ∨ (n : ℤ) ≤ i + T)
  | .testPoint => false

/-- What a tree of size `T` holds after fitting `xs`. -/
def kept {α : Type*} (T : ℕ) (xs : List α) : List (RcKey × α) :=
  (numbered xs).filter fun p => keeps T xs.length p.1

theorem kept_all {α : Type*} (T : ℕ) (xs : List α) (h : xs.length ≤ T + 1) :
    kept T xs = numbered xs := by
  unfold kept
  rw [List.filter_eq_self]
  intro p hp
  obtain ⟨i, hi, hk⟩ := mem_numbered hp
  rw [hk]
  simp only [keeps, decide_eq_true_eq]
  omega

theorem kept_some {α : Type*} (T : ℕ) (xs : List α) (h : T + 1 ≤ xs.length) :
    kept T xs = (numbered xs).take 1 ++ lastN T (numbered xs) := by
  have hl := numbered_length xs
  have hsplit : numbered xs = (numbered xs).take 1 ++
      (((numbered xs).drop 1).take (xs.length - T - 1) ++ (numbered xs).drop (xs.length - T)) := by
    have h1 : (numbered xs).drop (xs.length - T)
        = ((numbered xs).drop 1).drop (xs.length - T - 1) := by
      rw [List.drop_drop]; congr 1; omega
    rw [h1, List.take_append_drop, List.take_append_drop]
  have hk : ∀ (j : ℕ) (p : RcKey × α), (numbered xs)[j]? = some p → p.1 = .index j := by
    intro j p hp
    rw [numbered_getElem?] at hp
    cases hx : xs[j]? with
    | none => rw [hx] at hp; simp at hp
    | some x => rw [hx] at hp; simp only [Option.map_some, Option.some.injEq] at hp; rw [← hp]
  unfold kept
  conv_lhs => rw [hsplit]
  rw [List.filter_append, List.filter_append]
  have e1 : ((numbered xs).take 1).filter (fun p => keeps T xs.length p.1)
      = (numbered xs).take 1 := by
    rw [List.filter_eq_self]
    intro p hp
    obtain ⟨j, hj⟩ := List.mem_iff_getElem?.1 hp
    rw [List.getElem?_take] at hj
    split at hj
    · rw [hk j p hj]; simp only [keeps, decide_eq_true_eq]; omega
    · simp at hj
  have e2 : (((numbered xs).drop 1).take (xs.length - T - 1)).filter
      (fun p => keeps T xs.length p.1) = [] := by
    rw [List.filter_eq_nil_iff]
    intro p hp
    obtain ⟨j, hj⟩ := List.mem_iff_getElem?.1 hp
    rw [List.getElem?_take] at hj
    split at hj
    · rw [List.getElem?_drop] at hj
      rw [hk _ p hj]; simp only [keeps, decide_eq_true_eq]; omega
    · simp at hj
  have e3 : ((numbered xs).drop (xs.length - T)).filter (fun p => keeps T xs.length p.1)
      = (numbered xs).drop (xs.length - T) := by
    rw [List.filter_eq_self]
    intro p hp
    obtain ⟨j, hj⟩ := List.mem_iff_getElem?.1 hp
    rw [List.getElem?_drop] at hj
    rw [hk _ p hj]; simp only [keeps, decide_eq_true_eq]; omega
  rw [e1, e2, e3, List.nil_append, lastN, hl]

theorem kept_length {α : Type*} (T : ℕ) (xs : List α) :
    (kept T xs).length = min xs.length (T + 1) := by
  rcases Nat.le_total xs.length (T + 1) with h | h
  · rw [kept_all T xs h, numbered_length]; omega
  · rw [kept_some T xs h, List.length_append, List.length_take, lastN_length, numbered_length]
    omega

theorem kept_keys {α : Type*} {T : ℕ} {xs : List α} {k : RcKey}
    (h : k ∈ (kept T xs).map Prod.fst) : ∃ i < xs.length, k = .index i := by
  obtain ⟨p, hp, rfl⟩ := List.mem_map.1 h
  exact mem_numbered (List.mem_filter.1 hp).1

section
variable {τ α K G : Type*} (api : RcTreeApi τ α K G)

theorem fitTree_spec (T : ℕ) (hT : 1 ≤ T) (xs : List α) (x : α) (g : G) (t : τ)
    (h : api.leaves t = kept T xs) :
    ∃ g' t', fitTree api T xs.length x g t = .ok () (g', t') ∧
      api.leaves t' = kept T (xs ++ [x]) := by
  have hkeys : ∀ k ∈ (api.leaves t).map Prod.fst, ∃ i < xs.length, k = .index i := by
    rw [h]; exact fun k hk => kept_keys hk
  have hins : ∀ t1, (∀ k ∈ (api.leaves t1).map Prod.fst, ∃ i < xs.length, k = RcKey.index i) →
      ∃ g' t', api.insertPoint g t1 x (.index xs.length) = (.ok t', g') ∧
        api.leaves t' = api.leaves t1 ++ [(.index xs.length, x)] := by
    intro t1 h1
    obtain ⟨t', g', h2, h3⟩ := api.insert_new g t1 x (.index xs.length) (by
      intro hm
      obtain ⟨i, hi, he⟩ := h1 _ hm
      injection he with he
      omega)
    exact ⟨g', t', h2, h3⟩
  have hnew : [((RcKey.index xs.length : RcKey), x)].filter
      (fun p => keeps T (xs.length + 1) p.1) = [(.index xs.length, x)] := by
    rw [List.filter_eq_self]
    intro p hp
    rw [List.mem_singleton] at hp
    subst hp
    simp only [keeps, decide_eq_true_eq]; omega
  unfold fitTree
  by_cases hl : (api.leaves t).length > T
  · have hn : T + 1 ≤ xs.length := by
      rw [h, kept_length] at hl; omega
    have hmem : RcKey.index ((xs.length : ℤ) - (T : ℤ)) ∈ (api.leaves t).map Prod.fst := by
      rw [h, List.mem_map]
      obtain ⟨y, hy⟩ : ∃ y, xs[xs.length - T]? = some y :=
        ⟨_, List.getElem?_eq_getElem (by omega)⟩
      refine ⟨(.index ((xs.length - T : ℕ) : ℤ), y), ?_, ?_⟩
      · rw [kept, List.mem_filter]
        refine ⟨List.mem_iff_getElem?.2 ⟨xs.length - T, by rw [numbered_getElem?, hy]; rfl⟩, ?_⟩
        simp only [keeps, decide_eq_true_eq]; omega
      · simp only [RcKey.index.injEq]; omega
    obtain ⟨t1, hf, hl1⟩ := api.forget_old t _ hmem
    obtain ⟨g', t', hi, hl'⟩ := hins t1 (by
      rw [hl1]
      intro k hk
      obtain ⟨p, hp, rfl⟩ := List.mem_map.1 hk
      exact hkeys _ (List.mem_map_of_mem (List.mem_filter.1 hp).1))
    refine ⟨g', t', ?_, ?_⟩
    · simp only [if_pos hl, hf, hi]
    · rw [hl', hl1, h, kept, kept, numbered_snoc, List.filter_append, List.length_append,
        List.length_singleton, hnew, List.filter_filter]
      congr 1
      apply List.filter_congr
      intro p hp
      obtain ⟨i, hi, hk⟩ := mem_numbered hp
      rw [hk]
      simp only [keeps, ne_eq, RcKey.index.injEq, decide_not]
      rw [Bool.eq_iff_iff]
      simp only [Bool.and_eq_true, Bool.not_eq_true', decide_eq_false_iff_not, decide_eq_true_eq]
      omega
  · have hn : xs.length ≤ T := by
      rw [h, kept_length] at hl; omega
    obtain ⟨g', t', hi, hl'⟩ := hins t hkeys
    refine ⟨g', t', ?_, ?_⟩
    · simp only [if_neg hl, hi]
    · rw [hl', h, kept_all T xs (by omega), kept_all T (xs ++ [x]) (by simp; omega), numbered_snoc]

theorem fitTrees_spec (T : ℕ) (hT : 1 ≤ T) (xs : List α) (x : α) :
    ∀ (ts : List τ) (g : G), (∀ t ∈ ts, api.leaves t = kept T xs) →
      ∃ g' ts', fitTrees api T xs.length x g ts = .ok () (g', ts') ∧ ts'.length = ts.length ∧
        ∀ t ∈ ts', api.leaves t = kept T (xs ++ [x]) := by
  intro ts
  induction ts with
  | nil => intro g _; exact ⟨g, [], rfl, rfl, by simp⟩
  | cons t ts ih =>
    intro g h
    obtain ⟨g1, t1, h1, h2⟩ := fitTree_spec api T hT xs x g t (h t (by simp))
    obtain ⟨g2, ts2, h3, h4, h5⟩ := ih g1 fun t ht => h t (by simp [ht])
    refine ⟨g2, t1 :: ts2, ?_, by simp [h4], ?_⟩
    · simp only [fitTrees, h1, h3, Res.mapState_ok]
    · intro t ht
      rcases List.mem_cons.1 ht with rfl | ht
      · exact h2
      · exact h5 t ht

variable [Field K]

theorem scoreTree_spec (T : ℕ) (xs : List α) (n : ℕ) (x : α) (g : G) (t : τ)
    (h : api.leaves t = kept T xs) :
    api.leaves (scoreTree api n x g t).state.2 = kept T xs := by
  have hk : RcKey.testPoint ∉ (api.leaves t).map Prod.fst := by
    rw [h]
    intro hm
    obtain ⟨i, _, he⟩ := kept_keys hm
    cases he
  obtain ⟨t1, g1, h1, h2⟩ := api.insert_new g t x .testPoint hk
  obtain ⟨t2, h3, h4⟩ := api.forget_old t1 .testPoint (by rw [h2]; simp)
  unfold scoreTree
  split
  · exact h
  · exact h
  · simp only [h1, h3, Res.state_ok]
    rw [h4, h2, List.filter_append, h]
    have e1 : (kept T xs).filter (fun p => decide (p.1 ≠ RcKey.testPoint)) = kept T xs := by
      rw [List.filter_eq_self]
      intro p hp
      obtain ⟨i, _, he⟩ := kept_keys (List.mem_map_of_mem (f := Prod.fst) hp)
      rw [he]; rfl
    rw [e1]
    simp

theorem scoreTrees_spec (T : ℕ) (xs : List α) (n : ℕ) (x : α) :
    ∀ (ts : List τ) (acc : K) (g : G), (∀ t ∈ ts, api.leaves t = kept T xs) →
      (scoreTrees api n x acc g ts).state.2.length = ts.length ∧
      ∀ t ∈ (scoreTrees api n x acc g ts).state.2, api.leaves t = kept T xs := by
  intro ts
  induction ts with
  | nil => intro acc g _; exact ⟨rfl, by simp [scoreTrees]⟩
  | cons t ts ih =>
    intro acc g h
    have h1 := scoreTree_spec api T xs n x g t (h t (by simp))
    unfold scoreTrees
    cases hs : scoreTree api n x g t with
    | err e p =>
      rw [hs] at h1
      simp only [Res.state_err] at h1 ⊢
      refine ⟨by simp, ?_⟩
      intro t' ht
      rcases List.mem_cons.1 ht with rfl | ht
      · exact h1
      · exact h t' (by simp [ht])
    | ok v p =>
      rw [hs] at h1
      simp only [Res.state_ok] at h1
      obtain ⟨h2, h3⟩ := ih (acc + v) p.1 fun t ht => h t (by simp [ht])
      simp only
      cases hr : scoreTrees api n x (acc + v) p.1 ts <;>
      · rw [hr] at h2 h3
        simp only [Res.mapState_ok, Res.mapState_err, Res.state_ok, Res.state_err,
          List.length_cons, List.mem_cons] at h2 h3 ⊢
        refine ⟨by omega, ?_⟩
        rintro t' (rfl | ht)
        · exact h1
        · exact h3 t' ht

/-- The state after fitting `xs`. -/
structure Inv (T m : ℕ) (xs : List α) (s : RrcfState τ G) : Prop where
  size : s.treeSize = T
  index : s.index = xs.length
  trees : s.forest.length = m
  leaves : ∀ t ∈ s.forest, api.leaves t = kept T xs

theorem inv_fit (T m : ℕ) (hT : 1 ≤ T) (xs : List α) (s : RrcfState τ G) (h : Inv api T m xs s)
    (x : α) : ∃ s', fitPartial api s x = .ok () s' ∧ Inv api T m (xs ++ [x]) s' := by
  obtain ⟨g', ts', h1, h2, h3⟩ := fitTrees_spec api T hT xs x s.forest s.rng h.leaves
  refine ⟨{ s with rng := g', forest := ts', index := s.index + 1 }, ?_, ?_⟩
  · unfold fitPartial
    rw [h.size, h.index, h1]
  · exact ⟨h.size, by simp [h.index], by simp [h2, h.trees], h3⟩

theorem inv_step {β : Type*} (T m : ℕ) (hT : 1 ≤ T) (xs : List α) (s : RrcfState τ G)
    (h : Inv api T m xs s) (c : Call α β) :
    Inv api T m (xs ++ fitted [c]) (call (detector api) s c).2 := by
  cases c with
  | fit x y =>
    obtain ⟨s', h1, h2⟩ := inv_fit api T m hT _ s h x
    simp only [call, detector, h1]
    exact h2
  | score x =>
    have hs : (call (detector api) s (Call.score x : Call α β)).2
        = (scorePartial api s x).state := by
      simp only [call, detector]
      cases scorePartial api s x <;> rfl
    rw [hs]
    obtain ⟨h2, h3⟩ := scoreTrees_spec api T (xs) s.numTrees x s.forest 0 s.rng h.leaves
    have hst : (scorePartial api s x).state = { s with
        rng := (scoreTrees api s.numTrees x 0 s.rng s.forest).state.1
        forest := (scoreTrees api s.numTrees x 0 s.rng s.forest).state.2 } := by
      unfold scorePartial
      cases scoreTrees api s.numTrees x 0 s.rng s.forest <;> rfl
    rw [hst]
    simp only [fitted, List.append_nil]
    exact ⟨h.size, h.index, by simp only [h2, h.trees], h3⟩

theorem inv_calls {β : Type*} (g : G) (T m : ℕ) (hT : 1 ≤ T) (h : List (Call α β)) :
    Inv api T m (fitted h) (calls (detector api) (new api g m T) h).2 := by
  refine calls_inv (d := detector api)
    (P := fun (cs : List (Call α β)) s => Inv api T m (fitted cs) s)
    (fun cs s c hinv => ?_) _ ?_ h
  · rw [fitted_append]
    exact inv_step api T m hT _ s hinv c
  · refine ⟨rfl, rfl, by simp [new], ?_⟩
    intro t ht
    simp only [new, List.mem_replicate] at ht
    rw [ht.2, api.leaves_empty]
    rfl

end

/-- A library that meets the description, for the examples: trees are lists of leaves. -/
def listApi (α : Type) [DecidableEq α] : RcTreeApi (List (RcKey × α)) α ℚ Unit where
  empty := []
  leaves t := t
  insertPoint g t x k := (if k ∈ t.map Prod.fst then .error .keyError else .ok (t ++ [(k, x)]), g)
  forgetPoint t k := if k ∈ t.map Prod.fst then .ok (t.filter fun p => p.1 ≠ k)
    else .error .keyError
  findDuplicate t x := if t = [] then .error .attributeError else .ok (x ∈ t.map Prod.snd)
  codisp _ _ := 1
  codispOf _ _ := 1
  leaves_empty := rfl
  insert_new g t x k h := ⟨_, _, by rw [if_neg h], rfl⟩
  insert_old g t x k h := ⟨_, by rw [if_pos h]⟩
  forget_old t k h := ⟨_, by rw [if_pos h], rfl⟩
  forget_new t k h := by rw [if_neg h]
  find_some t x h := ⟨_, by rw [if_neg h]⟩
  find_none t x h := by rw [if_pos h]

end Rrcf

open Rrcf

/-- **C71 (full statement, false).** After `n > T` fits each tree holds exactly the `T` most
recent instances. -/
def C71_rrcf_recent_statement : Prop :=
  ∀ (τ α K G : Type) [Field K] (api : RcTreeApi τ α K G) (g : G) (m T : ℕ)
    (h : List (Call α Unit)), 1 ≤ T → T < (fitted h).length →
    ∀ t ∈ (calls (Rrcf.detector api) (Rrcf.new api g m T) h).2.forest,
      (api.leaves t).map Prod.snd = lastN T (fitted h)

/-- **C71 (refuted).** After fitting 10, 20, 30 a tree of size 1 still holds 10. -/
theorem C71_rrcf_recent_refuted : ¬ C71_rrcf_recent_statement := by
  intro hall
  have := hall _ _ _ _ (listApi ℕ) () 1 1 [.fit 10 none, .fit 20 none, .fit 30 none] le_rfl
    (by decide) [(.index 0, 10), (.index 2, 30)] (by decide +kernel)
  revert this
  decide +kernel

/-- **C71 (partial).** For every tree size `T ≥ 1`, any number of trees, any tree library and
any history of fits and scores: no fit raises, and each tree holds all instances as long as
there are at most `T + 1`, and from then on the very first instance and the `T` most recent
ones. -/
theorem C71_rrcf_recent_partial {τ α K G β : Type*} [Field K] (api : RcTreeApi τ α K G) (g : G)
    (m T : ℕ) (hT : 1 ≤ T) (h : List (Call α β)) :
    let s := (calls (Rrcf.detector api) (Rrcf.new api g m T) h).2
    s.forest.length = m ∧
    (∀ t ∈ s.forest, (api.leaves t).map Prod.snd =
      if (fitted h).length ≤ T + 1 then fitted h
      else (fitted h).take 1 ++ lastN T (fitted h)) ∧
    ∀ x y, (call (Rrcf.detector api) s (.fit x y : Call α β)).1 = .done := by
  intro s
  have hinv : Rrcf.Inv api T m (fitted h) s := inv_calls api g T m hT h
  refine ⟨hinv.trees, ?_, ?_⟩
  · intro t ht
    rw [hinv.leaves t ht]
    split
    · rename_i hl
      rw [kept_all T _ hl, numbered_snd]
    · rename_i hl
      rw [kept_some T _ (by omega), List.map_append, List.map_take, numbered_snd, lastN, lastN,
        List.map_drop, numbered_snd, numbered_length]
  · intro x y
    obtain ⟨s', h1, _⟩ := inv_fit api T m hT _ s hinv x
    simp only [call, Rrcf.detector, h1]

/-- **C71 (partial, size 0).** With `tree_size = 0` the second fit raises `KeyError`. -/
theorem C71_rrcf_size_zero_partial {τ α K G : Type*} [Field K] (api : RcTreeApi τ α K G) (g : G)
    (m : ℕ) (hm : 1 ≤ m) (x y : α) :
    (calls (Rrcf.detector (K := K) (β := Unit) api) (Rrcf.new api g m 0)
      [.fit x none, .fit y none]).1 = [.done, .raised .keyError] := by
  have hone : ∀ (ts : List τ) (g : G), (∀ t ∈ ts, api.leaves t = []) →
      ∃ g' ts', fitTrees api 0 0 x g ts = .ok () (g', ts') ∧ ts'.length = ts.length ∧
        ∀ t ∈ ts', api.leaves t = [(.index 0, x)] := by
    intro ts
    induction ts with
    | nil => intro g _; exact ⟨g, [], rfl, rfl, by simp⟩
    | cons t ts ih =>
      intro g h
      have ht := h t (by simp)
      obtain ⟨t1, g1, h1, h2⟩ := api.insert_new g t x (.index ((0 : ℕ) : ℤ)) (by rw [ht]; simp)
      obtain ⟨g2, ts2, h3, h4, h5⟩ := ih g1 fun t ht => h t (by simp [ht])
      refine ⟨g2, t1 :: ts2, ?_, by simp [h4], ?_⟩
      · have hft : fitTree api 0 0 x g t = .ok () (g1, t1) := by
          unfold fitTree
          rw [if_neg (by rw [ht]; simp)]
          simp only [h1]
        simp only [fitTrees, hft, h3, Res.mapState_ok]
      · intro t' ht'
        rcases List.mem_cons.1 ht' with rfl | ht'
        · rw [h2, ht]; rfl
        · exact h5 t' ht'
  obtain ⟨g1, ts1, h1, h2, h3⟩ := hone (List.replicate m api.empty) g (by
    intro t ht
    rw [(List.mem_replicate.1 ht).2, api.leaves_empty])
  cases ts1 with
  | nil => simp at h2; omega
  | cons t ts =>
    have ht := h3 t (by simp)
    have hf : fitTree api 0 1 y g1 t = .err .keyError (g1, t) := by
      unfold fitTree
      rw [if_pos (by rw [ht]; simp)]
      have : api.forgetPoint t (.index (((1 : ℕ) : ℤ) - ((0 : ℕ) : ℤ))) = .error .keyError :=
        api.forget_new t _ (by rw [ht]; simp)
      rw [this]
    simp only [calls, call, Rrcf.detector, fitPartial, Rrcf.new, h1, Nat.zero_add, fitTrees, hf]

example : (calls (Rrcf.detector (K := ℚ) (β := Unit) (listApi ℕ)) (Rrcf.new (listApi ℕ) () 1 2)
    [.fit 10 none, .fit 20 none, .score 5, .fit 30 none, .fit 40 none, .fit 50 none]).2.forest
    = [[(.index 0, 10), (.index 3, 40), (.index 4, 50)]] := by decide +kernel

/-! ### C93 -/

/-- The displacement of `x` in a tree: that of its duplicate if the tree has one, otherwise
that of `x` itself once inserted (at random) under its own key. -/
def Spec.Displacement {τ α K G : Type*} (api : RcTreeApi τ α K G) (x : α) (t : τ) (v : K) : Prop :=
  (api.findDuplicate t x = .ok true ∧ v = api.codispOf t x) ∨
  (api.findDuplicate t x = .ok false ∧ ∃ g t' g',
    api.insertPoint g t x .testPoint = (.ok t', g') ∧
    api.leaves t' = api.leaves t ++ [(.testPoint, x)] ∧ v = api.codisp t' .testPoint)

theorem rrcf_scoreTree_ok {τ α K G : Type*} [Field K] (api : RcTreeApi τ α K G) (T : ℕ)
    (xs : List α) (hxs : xs ≠ []) (n : ℕ) (x : α) (g : G) (t : τ) (h : api.leaves t = kept T xs) :
    ∃ v p, scoreTree api n x g t = .ok (v / (n : K)) p ∧ Displacement api x t v := by
  have hne : api.leaves t ≠ [] := by
    intro h0
    have := kept_length T xs
    rw [← h, h0, List.length_nil] at this
    have := List.length_pos_of_ne_nil hxs
    omega
  have hk : RcKey.testPoint ∉ (api.leaves t).map Prod.fst := by
    rw [h]
    intro hm
    obtain ⟨i, _, he⟩ := kept_keys hm
    cases he
  obtain ⟨b, hb⟩ := api.find_some t x hne
  obtain ⟨t1, g1, h1, h2⟩ := api.insert_new g t x .testPoint hk
  obtain ⟨t2, h3, h4⟩ := api.forget_old t1 .testPoint (by rw [h2]; simp)
  unfold scoreTree
  cases b with
  | true =>
    simp only [hb, one_mul]
    exact ⟨_, _, rfl, Or.inl ⟨hb, rfl⟩⟩
  | false =>
    simp only [hb, h1, h3, one_mul]
    exact ⟨_, _, rfl, Or.inr ⟨hb, g, t1, g1, h1, h2, rfl⟩⟩

theorem rrcf_scoreTrees_ok {τ α K G : Type*} [Field K] (api : RcTreeApi τ α K G) (T : ℕ)
    (xs : List α) (hxs : xs ≠ []) (n : ℕ) (x : α) (ts : List τ) : ∀ (acc : K) (g : G),
    (∀ t ∈ ts, api.leaves t = kept T xs) →
    ∃ vs, List.Forall₂ (Displacement api x) ts vs ∧
      (scoreTrees api n x acc g ts).out = .ok (acc + vs.sum / (n : K)) := by
  induction ts with
  | nil => intro acc g _; exact ⟨[], .nil, by simp [scoreTrees]⟩
  | cons t ts ih =>
    intro acc g h
    obtain ⟨v, p, h1, h2⟩ := rrcf_scoreTree_ok api T xs hxs n x g t (h t (by simp))
    obtain ⟨vs, h3, h4⟩ := ih (acc + v / (n : K)) p.1 fun t ht => h t (by simp [ht])
    refine ⟨v :: vs, .cons h2 h3, ?_⟩
    unfold scoreTrees
    simp only [h1]
    cases hr : scoreTrees api n x (acc + v / (n : K)) p.1 ts with
    | ok w q =>
      rw [hr] at h4
      simp only [Res.out_ok, Except.ok.injEq] at h4
      simp only [Res.mapState_ok, Res.out_ok, Except.ok.injEq, h4, List.sum_cons]
      rw [add_div, add_assoc]
    | err e q => rw [hr] at h4; simp at h4

theorem rrcf_numTrees {τ α K G β : Type*} [Field K] (api : RcTreeApi τ α K G) (g : G) (m T : ℕ)
    (h : List (Call α β)) :
    (calls (Rrcf.detector api) (Rrcf.new api g m T) h).2.numTrees = m := by
  refine calls_inv (d := Rrcf.detector api) (P := fun (_ : List (Call α β)) s => s.numTrees = m)
    (fun cs s c hs => ?_) _ rfl h
  cases c with
  | fit x y =>
    simp only [call, Rrcf.detector, Rrcf.fitPartial]
    cases fitTrees api s.treeSize s.index x s.rng s.forest <;> exact hs
  | score x =>
    simp only [call, Rrcf.detector, Rrcf.scorePartial]
    cases scoreTrees api s.numTrees x 0 s.rng s.forest <;> exact hs

/-- **C93.** Once something was fitted, scoring never raises, and the score is the mean over the
trees of the displacement of the instance (with C71: in trees that hold the first and the `T`
most recent instances). -/
theorem C93_rrcf_score {τ α K G β : Type*} [Field K] (api : RcTreeApi τ α K G) (g : G)
    (m T : ℕ) (hT : 1 ≤ T) (h : List (Call α β)) (hne : fitted h ≠ []) (x : α) :
    let s := (calls (Rrcf.detector api) (Rrcf.new api g m T) h).2
    ∃ vs, List.Forall₂ (Displacement api x) s.forest vs ∧
      ((Rrcf.detector (β := β) api).scorePartial s x).out = .ok (vs.sum / (m : K)) := by
  intro s
  have hinv : Rrcf.Inv api T m (fitted h) s := inv_calls api g T m hT h
  obtain ⟨vs, h1, h2⟩ := rrcf_scoreTrees_ok api T (fitted h) hne s.numTrees x s.forest 0 s.rng
    hinv.leaves
  refine ⟨vs, h1, ?_⟩
  have hm : s.numTrees = m := rrcf_numTrees api g m T h
  rw [hm, zero_add] at h2
  show (Rrcf.scorePartial api s x).out = _
  unfold Rrcf.scorePartial
  rw [hm, ← h2]
  cases scoreTrees api m x 0 s.rng s.forest <;> rfl

/-- **C93.** Scoring before anything was fitted raises `AttributeError` if there are trees. -/
theorem C93_rrcf_unfitted {τ α K G β : Type*} [Field K] (api : RcTreeApi τ α K G) (g : G)
    (m T : ℕ) (hm : 1 ≤ m) (hT : 1 ≤ T) (h : List (Call α β)) (hne : fitted h = []) (x : α) :
    let s := (calls (Rrcf.detector api) (Rrcf.new api g m T) h).2
    ((Rrcf.detector (K := K) (β := β) api).scorePartial s x).out = .error .attributeError := by
  intro s
  have hinv : Rrcf.Inv api T m (fitted h) s := inv_calls api g T m hT h
  show (Rrcf.scorePartial api s x).out = _
  unfold Rrcf.scorePartial
  have hl := hinv.trees
  have hlv := hinv.leaves
  cases hf : s.forest with
  | nil => rw [hf] at hl; simp at hl; omega
  | cons t ts =>
    have ht := hlv t (by rw [hf]; simp)
    rw [hne] at ht
    have : api.findDuplicate t x = .error .attributeError := api.find_none t x (by rw [ht]; rfl)
    simp only [scoreTrees, scoreTree, this]
    rfl

/-- Two trees: a duplicate is displaced by 1, as is a new instance. -/
example : (calls (Rrcf.detector (K := ℚ) (β := Unit) (listApi ℕ)) (Rrcf.new (listApi ℕ) () 2 2)
    [.score 1, .fit 10 none, .score 10, .score 5]).1
    = [.raised .attributeError, .done, .value 1, .value 1] := by decide +kernel

end Pysad
