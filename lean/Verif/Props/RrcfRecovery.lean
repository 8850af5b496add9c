import Verif.Model.RrcfInterrupt
import Verif.Props.Rrcf
import Verif.Props.RefWindowRecovery

/-! Property C182: what interrupted calls leave behind in `RobustRandomCutForest`. -/

namespace Pysad

open Spec Rrcf

namespace RrcfRecovery
variable {τ α K G : Type*} (api : RcTreeApi τ α K G)

/-- The state that the last of the stages leaves behind. -/
def final {σ : Type*} (s : σ) (l : List σ) : σ := l.foldl (fun _ t => t) s

theorem final_append {σ : Type*} (s : σ) (l m : List σ) : final s (l ++ m) = final (final s l) m := by
  simp [final]

theorem final_map {σ ρ : Type*} (f : σ → ρ) (s : σ) (l : List σ) : final (f s) (l.map f) = f (final s l) := by
  induction l generalizing s with
  | nil => rfl
  | cons a l ih => exact ih a

/-- The stages of one tree end where `fit_partial` leaves it. -/
theorem fitTree_final (T n : ℕ) (x : α) (g : G) (t : τ) :
    final (g, t) (fitTreeStages api T n x g t) = (fitTree api T n x g t).state := by
  unfold fitTreeStages fitTree
  by_cases hl : (api.leaves t).length > T
  · simp only [if_pos hl]
    cases api.forgetPoint t (.index ((n : ℤ) - (T : ℤ))) with
    | error e => rfl
    | ok t1 =>
      simp only
      obtain ⟨r, g'⟩ := api.insertPoint g t1 x (.index n)
      cases r <;> rfl
  · simp only [if_neg hl]
    obtain ⟨r, g'⟩ := api.insertPoint g t x (.index n)
    cases r <;> rfl

theorem fitTrees_final (T n : ℕ) (x : α) (ts : List τ) : ∀ g : G,
    final (g, ts) (fitTreesStages api T n x g ts) = (fitTrees api T n x g ts).state := by
  induction ts with
  | nil => intro g; rfl
  | cons t ts ih =>
    intro g
    unfold fitTreesStages fitTrees
    rw [final_append]
    have h := fitTree_final api T n x g t
    have h1 : final (g, t :: ts) ((fitTreeStages api T n x g t).map fun p => (p.1, p.2 :: ts))
        = ((fitTree api T n x g t).state.1, (fitTree api T n x g t).state.2 :: ts) := by
      rw [← h]
      exact final_map (fun p : G × τ => (p.1, p.2 :: ts)) (g, t) _
    rw [h1]
    cases hf : fitTree api T n x g t with
    | err e p => rfl
    | ok u p =>
      simp only [Res.state_ok]
      have h2 := final_map (fun q : G × List τ => (q.1, p.2 :: q.2)) (p.1, ts) (fitTreesStages api T n x p.1 ts)
      simp only at h2
      rw [h2, ih p.1]
      cases fitTrees api T n x p.1 ts <;> rfl

theorem fit_final (s : RrcfState τ G) (x : α) : final s (fitStages api s x) = (fitPartial api s x).state := by
  unfold fitStages fitPartial
  rw [final_append]
  have h2 := final_map (fun q : G × List τ => { s with rng := q.1, forest := q.2 }) (s.rng, s.forest)
    (fitTreesStages api s.treeSize s.index x s.rng s.forest)
  rw [fitTrees_final] at h2
  change final s _ = _ at h2
  rw [h2]
  cases fitTrees api s.treeSize s.index x s.rng s.forest <;> rfl

section
variable [Field K]

theorem scoreTree_final (n : ℕ) (x : α) (g : G) (t : τ) :
    final (g, t) (scoreTreeStages api x g t) = (scoreTree api n x g t).state := by
  unfold scoreTreeStages scoreTree
  cases api.findDuplicate t x with
  | error e => rfl
  | ok b =>
    cases b with
    | true => rfl
    | false =>
      simp only
      obtain ⟨r, g'⟩ := api.insertPoint g t x .testPoint
      cases r with
      | error e => rfl
      | ok t1 =>
        simp only
        cases api.forgetPoint t1 .testPoint <;> rfl

theorem scoreTrees_final (n : ℕ) (x : α) (ts : List τ) : ∀ (acc : K) (g : G),
    final (g, ts) (scoreTreesStages api n x g ts) = (scoreTrees api n x acc g ts).state := by
  induction ts with
  | nil => intro acc g; rfl
  | cons t ts ih =>
    intro acc g
    unfold scoreTreesStages scoreTrees
    rw [final_append]
    have h := scoreTree_final api n x g t
    have h1 : final (g, t :: ts) ((scoreTreeStages api x g t).map fun p => (p.1, p.2 :: ts))
        = ((scoreTree api n x g t).state.1, (scoreTree api n x g t).state.2 :: ts) := by
      rw [← h]
      exact final_map (fun p : G × τ => (p.1, p.2 :: ts)) (g, t) _
    rw [h1]
    cases hf : scoreTree api n x g t with
    | err e p => rfl
    | ok v p =>
      simp only [Res.state_ok]
      have h2 := final_map (fun q : G × List τ => (q.1, p.2 :: q.2)) (p.1, ts) (scoreTreesStages api n x p.1 ts)
      simp only at h2
      rw [h2, ih (acc + v) p.1]
      cases scoreTrees api n x (acc + v) p.1 ts <;> rfl

theorem score_final (s : RrcfState τ G) (x : α) : final s (scoreStages api s x) = (scorePartial api s x).state := by
  unfold scoreStages scorePartial
  have h2 := final_map (fun q : G × List τ => { s with rng := q.1, forest := q.2 }) (s.rng, s.forest)
    (scoreTreesStages api s.numTrees x s.rng s.forest)
  rw [scoreTrees_final api s.numTrees x s.forest 0] at h2
  change final s _ = _ at h2
  rw [h2]
  cases scoreTrees api s.numTrees x 0 s.rng s.forest <;> rfl

/-- All the stores together are the call. -/
theorem rrcf_statements_complete (c : RrcfCall α) (s : RrcfState τ G) :
    runStatements (statements api c s) s = complete api s c := by
  unfold statements
  rw [RefWindowRecovery.last_stage]
  cases c with
  | fit x => exact fit_final api s x
  | score x => exact score_final api s x

/-- What holds at the start and survives every store survives every history. -/
theorem afterCalls_inv {P : RrcfState τ G → Prop}
    (hP : ∀ s c, P s → ∀ t ∈ stages api s c, P t) (h : List (RrcfCall α × Option ℕ)) :
    ∀ s, P s → P (afterCalls (statements api) s h) := by
  induction h with
  | nil => intro s hs; exact hs
  | cons e h ih =>
    intro s hs
    obtain ⟨c, o⟩ := e
    have key : ∀ l : List (RrcfState τ G), (∀ t ∈ l, t ∈ stages api s c) →
        P (runStatements (l.map fun t _ => t) s) := by
      intro l hl
      rw [RefWindowRecovery.last_stage]
      rcases RefWindowRecovery.foldl_last_mem l s with h1 | h1
      · rw [h1]; exact hs
      · exact hP s c hs _ (hl _ h1)
    cases o with
    | none => exact ih _ (key _ fun t ht => ht)
    | some k =>
      refine ih _ ?_
      simp only [statements]
      rw [← List.map_take]
      exact key _ fun t ht => List.mem_of_mem_take ht

end

/-- The keys a tree holds. -/
abbrev keys (t : τ) : List RcKey := (api.leaves t).map Prod.fst

theorem forget_keys {t t' : τ} {k k' : RcKey} (hne : k' ≠ k) (h : k' ∈ keys api t)
    (hf : api.forgetPoint t k = .ok t') : k' ∈ keys api t' := by
  by_cases hk : k ∈ keys api t
  · obtain ⟨t1, h1, h2⟩ := api.forget_old t k hk
    rw [hf] at h1
    injection h1 with h1
    subst h1
    obtain ⟨p, hp, rfl⟩ := List.mem_map.1 h
    unfold keys
    rw [h2]
    exact List.mem_map_of_mem (List.mem_filter.2 ⟨hp, by simpa using hne⟩)
  · rw [api.forget_new t k hk] at hf
    cases hf

theorem insert_keys {g g' : G} {t t' : τ} {x : α} {k k' : RcKey} (h : k' ∈ keys api t)
    (hi : api.insertPoint g t x k = (.ok t', g')) : k' ∈ keys api t' := by
  by_cases hk : k ∈ keys api t
  · obtain ⟨g1, h1⟩ := api.insert_old g t x k hk
    rw [hi] at h1
    simp at h1
  · obtain ⟨t1, g1, h1, h2⟩ := api.insert_new g t x k hk
    rw [hi] at h1
    simp only [Prod.mk.injEq, Except.ok.injEq] at h1
    obtain ⟨rfl, rfl⟩ := h1
    unfold keys
    rw [h2, List.map_append]
    exact List.mem_append_left _ h

/-- The number of an instance stays where it is while `fit_partial` tries to insert another one under it. -/
theorem fitTreeStages_keys {T n : ℕ} {x : α} {g : G} {t : τ} {k : RcKey}
    (hne : k ≠ .index ((n : ℤ) - (T : ℤ))) (h : k ∈ keys api t) :
    ∀ p ∈ fitTreeStages api T n x g t, k ∈ keys api p.2 := by
  have hins : ∀ t1, k ∈ keys api t1 → ∀ p ∈ (match api.insertPoint g t1 x (.index n) with
    | (.error _, g) => [(g, t1)]
    | (.ok t, g) => [(g, t)]), k ∈ keys api p.2 := by
    intro t1 ht1 p hp
    split at hp <;> rw [List.mem_singleton] at hp <;> subst hp
    · exact ht1
    · rename_i hi
      exact insert_keys api ht1 hi
  intro p hp
  unfold fitTreeStages at hp
  simp only at hp
  split at hp
  · split at hp
    · cases hp
    · rename_i t1 hf
      have h1 := forget_keys api hne h hf
      rcases List.mem_cons.1 hp with rfl | hp
      · exact h1
      · exact hins t1 h1 p hp
  · exact hins t h p hp

theorem fitTree_keys {T n : ℕ} {x : α} {g : G} {t : τ} {k : RcKey}
    (hne : k ≠ .index ((n : ℤ) - (T : ℤ))) (h : k ∈ keys api t) :
    k ∈ keys api (fitTree api T n x g t).state.2 := by
  rw [← fitTree_final]
  rcases RefWindowRecovery.foldl_last_mem (fitTreeStages api T n x g t) (g, t) with h1 | h1
  · unfold final; rw [h1]; exact h
  · exact fitTreeStages_keys api hne h _ h1

/-- An instance cannot be fitted under a number the tree holds. -/
theorem fitTree_old {T n : ℕ} (hT : 1 ≤ T) {x : α} {g : G} {t : τ} (h : .index n ∈ keys api t) :
    ∃ p, fitTree api T n x g t = .err .keyError p := by
  unfold fitTree
  simp only
  by_cases hl : (api.leaves t).length > T
  · rw [if_pos hl]
    cases hf : api.forgetPoint t (.index ((n : ℤ) - (T : ℤ))) with
    | error e =>
      refine ⟨(g, t), ?_⟩
      simp only
      by_cases hk : RcKey.index ((n : ℤ) - (T : ℤ)) ∈ keys api t
      · obtain ⟨t1, h1, _⟩ := api.forget_old t _ hk
        rw [hf] at h1; cases h1
      · rw [api.forget_new t _ hk] at hf
        injection hf with hf
        rw [hf]
    | ok t1 =>
      obtain ⟨g1, h1⟩ := api.insert_old g t1 x (.index n) (forget_keys api (by simp; omega) h hf)
      exact ⟨(g1, t1), by simp only [h1]⟩
  · rw [if_neg hl]
    obtain ⟨g1, h1⟩ := api.insert_old g t x (.index n) h
    exact ⟨(g1, t), by simp only [h1]⟩

theorem scoreTreeStages_keys {x : α} {g : G} {t : τ} {k : RcKey} (hne : k ≠ .testPoint) (h : k ∈ keys api t) :
    ∀ p ∈ scoreTreeStages api x g t, k ∈ keys api p.2 := by
  intro p hp
  unfold scoreTreeStages at hp
  split at hp
  · cases hp
  · cases hp
  · split at hp
    · rw [List.mem_singleton] at hp
      subst hp
      exact h
    · rename_i hi
      have h1 := insert_keys api h hi
      rcases List.mem_cons.1 hp with rfl | hp
      · exact h1
      · split at hp
        · cases hp
        · rename_i hf
          rw [List.mem_singleton] at hp
          subst hp
          exact forget_keys api hne h1 hf

/-- A tree that holds the test point keeps it. -/
theorem scoreTreeStages_test {x : α} {g : G} {t : τ} (h : .testPoint ∈ keys api t) :
    ∀ p ∈ scoreTreeStages api x g t, RcKey.testPoint ∈ keys api p.2 := by
  intro p hp
  unfold scoreTreeStages at hp
  obtain ⟨g1, h1⟩ := api.insert_old g t x .testPoint h
  rw [h1] at hp
  split at hp
  · cases hp
  · cases hp
  · simp only [List.mem_singleton] at hp
    subst hp
    exact h

/-! ### Fits that never succeed again -/

/-- The first tree holds the number that the next instance is to get. -/
def Stuck (s : RrcfState τ G) : Prop :=
  1 ≤ s.treeSize ∧ ∃ t ts, s.forest = t :: ts ∧ .index s.index ∈ keys api t

variable [Field K]

theorem stuck_stages (s : RrcfState τ G) (c : RrcfCall α) (h : Stuck api s) :
    ∀ t ∈ stages api s c, Stuck api t := by
  obtain ⟨hT, t, ts, hf, hk⟩ := h
  intro u hu
  cases c with
  | fit x =>
    obtain ⟨p, hp⟩ := fitTree_old api (T := s.treeSize) hT (x := x) (g := s.rng) hk
    simp only [stages, fitStages, fitTreesStages, fitTrees, hf, hp, List.append_nil, List.map_map,
      List.mem_map, Function.comp_apply] at hu
    obtain ⟨q, hq, rfl⟩ := hu
    exact ⟨hT, q.2, ts, rfl, fitTreeStages_keys api (by simp; omega) hk q hq⟩
  | score x =>
    simp only [stages, scoreStages, scoreTreesStages, hf, List.mem_map, List.mem_append] at hu
    obtain ⟨q, hq, rfl⟩ := hu
    rcases hq with ⟨r, hr, rfl⟩ | hq
    · exact ⟨hT, r.2, ts, rfl, scoreTreeStages_keys api (by simp) hk r hr⟩
    · cases hs : scoreTree api s.numTrees x s.rng t with
      | err e r => rw [hs] at hq; cases hq
      | ok v r =>
        rw [hs] at hq
        simp only [List.mem_map] at hq
        obtain ⟨w, _, rfl⟩ := hq
        refine ⟨hT, r.2, w.2, rfl, ?_⟩
        have := scoreTree_final api s.numTrees x s.rng t
        rw [hs, Res.state_ok] at this
        rw [← this]
        rcases RefWindowRecovery.foldl_last_mem (scoreTreeStages api x s.rng t) (s.rng, t) with h1 | h1
        · unfold final; rw [h1]; exact hk
        · exact scoreTreeStages_keys api (by simp) hk _ h1

omit [Field K] in
theorem stuck_fit {s : RrcfState τ G} (h : Stuck api s) (x : α) :
    (fitPartial api s x).out = .error .keyError := by
  obtain ⟨hT, t, ts, hf, hk⟩ := h
  obtain ⟨p, hp⟩ := fitTree_old api (T := s.treeSize) hT (x := x) (g := s.rng) hk
  simp only [fitPartial, fitTrees, hf, hp, Res.out_err]

/-! ### Scores that never succeed again -/

/-- Some tree holds a test point. -/
def Littered (s : RrcfState τ G) : Prop := ∃ t ∈ s.forest, .testPoint ∈ keys api t

omit [Field K] in
theorem fitTreesStages_test (T n : ℕ) (x : α) (ts : List τ) : ∀ g : G,
    (∃ t ∈ ts, .testPoint ∈ keys api t) →
    ∀ p ∈ fitTreesStages api T n x g ts, ∃ t ∈ p.2, .testPoint ∈ keys api t := by
  induction ts with
  | nil => intro g h; obtain ⟨t, ht, _⟩ := h; cases ht
  | cons t ts ih =>
    intro g h p hp
    obtain ⟨u, hu, hk⟩ := h
    unfold fitTreesStages at hp
    rw [List.mem_append, List.mem_map] at hp
    rcases hp with ⟨q, hq, rfl⟩ | hp
    · rcases List.mem_cons.1 hu with rfl | hu
      · exact ⟨q.2, by simp, fitTreeStages_keys api (by simp) hk q hq⟩
      · exact ⟨u, by simp [hu], hk⟩
    · cases hf : fitTree api T n x g t with
      | err e r => rw [hf] at hp; cases hp
      | ok v r =>
        rw [hf] at hp
        simp only [List.mem_map] at hp
        obtain ⟨q, hq, rfl⟩ := hp
        rcases List.mem_cons.1 hu with rfl | hu
        · refine ⟨r.2, by simp, ?_⟩
          have := fitTree_keys api (T := T) (n := n) (x := x) (g := g) (k := .testPoint) (by simp) hk
          rw [hf] at this
          exact this
        · obtain ⟨w, hw, hk'⟩ := ih r.1 ⟨u, hu, hk⟩ q hq
          exact ⟨w, by simp [hw], hk'⟩

theorem scoreTree_test {n : ℕ} {x : α} {g : G} {t : τ} (h : .testPoint ∈ keys api t) :
    RcKey.testPoint ∈ keys api (scoreTree api n x g t).state.2 := by
  rw [← scoreTree_final]
  rcases RefWindowRecovery.foldl_last_mem (scoreTreeStages api x g t) (g, t) with h1 | h1
  · unfold final; rw [h1]; exact h
  · exact scoreTreeStages_test api h _ h1

theorem scoreTreesStages_test (n : ℕ) (x : α) (ts : List τ) : ∀ g : G,
    (∃ t ∈ ts, .testPoint ∈ keys api t) →
    ∀ p ∈ scoreTreesStages api n x g ts, ∃ t ∈ p.2, .testPoint ∈ keys api t := by
  induction ts with
  | nil => intro g h; obtain ⟨t, ht, _⟩ := h; cases ht
  | cons t ts ih =>
    intro g h p hp
    obtain ⟨u, hu, hk⟩ := h
    unfold scoreTreesStages at hp
    rw [List.mem_append, List.mem_map] at hp
    rcases hp with ⟨q, hq, rfl⟩ | hp
    · rcases List.mem_cons.1 hu with rfl | hu
      · exact ⟨q.2, by simp, scoreTreeStages_test api hk q hq⟩
      · exact ⟨u, by simp [hu], hk⟩
    · cases hf : scoreTree api n x g t with
      | err e r => rw [hf] at hp; cases hp
      | ok v r =>
        rw [hf] at hp
        simp only [List.mem_map] at hp
        obtain ⟨q, hq, rfl⟩ := hp
        rcases List.mem_cons.1 hu with rfl | hu
        · refine ⟨r.2, by simp, ?_⟩
          have := scoreTree_test api (n := n) (x := x) (g := g) hk
          rw [hf] at this
          exact this
        · obtain ⟨w, hw, hk'⟩ := ih r.1 ⟨u, hu, hk⟩ q hq
          exact ⟨w, by simp [hw], hk'⟩

omit [Field K] in
theorem fitTrees_test (T n : ℕ) (x : α) (ts : List τ) (g : G) (h : ∃ t ∈ ts, .testPoint ∈ keys api t) :
    ∃ t ∈ (fitTrees api T n x g ts).state.2, .testPoint ∈ keys api t := by
  rw [← fitTrees_final]
  rcases RefWindowRecovery.foldl_last_mem (fitTreesStages api T n x g ts) (g, ts) with h1 | h1
  · unfold final; rw [h1]; exact h
  · exact fitTreesStages_test api T n x ts g h _ h1

theorem littered_stages (s : RrcfState τ G) (c : RrcfCall α) (h : Littered api s) :
    ∀ t ∈ stages api s c, Littered api t := by
  intro u hu
  cases c with
  | fit x =>
    simp only [stages, fitStages, List.mem_append, List.mem_map] at hu
    rcases hu with ⟨p, hp, rfl⟩ | hu
    · exact fitTreesStages_test api _ _ x s.forest s.rng h p hp
    · have h1 := fitTrees_test api s.treeSize s.index x s.forest s.rng h
      cases hf : fitTrees api s.treeSize s.index x s.rng s.forest with
      | err e p => rw [hf] at hu; cases hu
      | ok v p =>
        rw [hf] at hu h1
        rw [List.mem_singleton] at hu
        subst hu
        exact h1
  | score x =>
    simp only [stages, scoreStages, List.mem_map] at hu
    obtain ⟨p, hp, rfl⟩ := hu
    exact scoreTreesStages_test api _ x s.forest s.rng h p hp

theorem littered_score (n : ℕ) (x : α) (ts : List τ) : ∀ (acc : K) (g : G),
    (∃ t ∈ ts, .testPoint ∈ keys api t) → (∀ t ∈ ts, api.findDuplicate t x = .ok false) →
    (scoreTrees api n x acc g ts).out = .error .keyError := by
  induction ts with
  | nil => intro acc g h; obtain ⟨t, ht, _⟩ := h; cases ht
  | cons t ts ih =>
    intro acc g h hd
    have hdt := hd t (by simp)
    unfold scoreTrees
    by_cases ht : RcKey.testPoint ∈ keys api t
    · obtain ⟨g1, h1⟩ := api.insert_old g t x .testPoint ht
      simp only [scoreTree, hdt, h1, Res.out_err]
    · obtain ⟨t1, g1, h1, h2⟩ := api.insert_new g t x .testPoint ht
      obtain ⟨t2, h3, _⟩ := api.forget_old t1 .testPoint (by rw [h2]; simp)
      obtain ⟨u, hu, hk⟩ := h
      rcases List.mem_cons.1 hu with rfl | hu
      · exact absurd hk ht
      · simp only [scoreTree, hdt, h1, h3]
        have := ih (acc + 1 * api.codisp t1 .testPoint / (n : K)) g1 ⟨u, hu, hk⟩ fun t ht => hd t (by simp [ht])
        revert this
        cases scoreTrees api n x (acc + 1 * api.codisp t1 .testPoint / (n : K)) g1 ts <;> exact id

/-! ### Interrupted scores -/

/-- After an odd number of stores a tree holds a test point; after an even number all trees hold what they
held before. -/
theorem score_cut (n : ℕ) (x : α) (ts : List τ) : ∀ (g : G) (k : ℕ), (∀ t ∈ ts, .testPoint ∉ keys api t) →
    (scoreTreesStages api n x g ts).length % 2 = 0 ∧
    (k % 2 = 1 → k < (scoreTreesStages api n x g ts).length →
      ∃ t ∈ (final (g, ts) ((scoreTreesStages api n x g ts).take k)).2, .testPoint ∈ keys api t) ∧
    (k % 2 = 0 ∨ (scoreTreesStages api n x g ts).length ≤ k →
      (final (g, ts) ((scoreTreesStages api n x g ts).take k)).2.map api.leaves = ts.map api.leaves) := by
  induction ts with
  | nil => intro g k _; exact ⟨rfl, fun _ h => absurd h (by simp [scoreTreesStages]), fun _ => by simp [scoreTreesStages, final]⟩
  | cons t ts ih =>
    intro g k h
    have ht := h t (by simp)
    unfold scoreTreesStages scoreTreeStages scoreTree
    cases hd : api.findDuplicate t x with
    | error e => simp [final]
    | ok b =>
      cases b with
      | true =>
        obtain ⟨h1, h2, h3⟩ := ih g k fun t ht => h t (by simp [ht])
        have h4 := final_map (fun q : G × List τ => (q.1, t :: q.2)) (g, ts)
          ((scoreTreesStages api n x g ts).take k)
        simp only [List.map_nil, List.nil_append, List.length_map, ← List.map_take]
        simp only at h4
        rw [h4]
        refine ⟨h1, fun ho hk => ?_, fun he => ?_⟩
        · obtain ⟨u, hu, hk'⟩ := h2 ho hk
          exact ⟨u, by simp [hu], hk'⟩
        · simp [h3 he]
      | false =>
        obtain ⟨t1, g1, h1, h2⟩ := api.insert_new g t x .testPoint ht
        obtain ⟨t2, h3, h4⟩ := api.forget_old t1 .testPoint (by rw [h2]; simp)
        have hl : api.leaves t2 = api.leaves t := by
          rw [h4, h2, List.filter_append]
          have : (api.leaves t).filter (fun p => decide (p.1 ≠ RcKey.testPoint)) = api.leaves t := by
            rw [List.filter_eq_self]
            intro p hp
            have : p.1 ≠ RcKey.testPoint := fun he => ht (he ▸ List.mem_map_of_mem hp)
            simpa using this
          rw [this]
          simp
        simp only [h1, h3, List.map_cons, List.map_nil, List.length_append, List.length_cons, List.length_nil,
          List.length_map]
        obtain ⟨i1, -, -⟩ := ih g1 0 fun t ht => h t (by simp [ht])
        refine ⟨by omega, ?_⟩
        match k with
        | 0 => exact ⟨fun h => absurd h (by simp), fun _ => rfl⟩
        | 1 =>
          refine ⟨fun _ _ => ⟨t1, by simp [final], ?_⟩, fun h => by omega⟩
          unfold keys
          rw [h2]
          simp
        | k + 2 =>
          obtain ⟨-, i2, i3⟩ := ih g1 k fun t ht => h t (by simp [ht])
          have h5 := final_map (fun q : G × List τ => (q.1, t2 :: q.2)) (g1, ts)
            ((scoreTreesStages api n x g1 ts).take k)
          simp only at h5
          have h6 : ∀ a b : G × List τ, ∀ l : List (G × List τ),
              final (g, t :: ts) (([a, b] ++ l).take (k + 2)) = final b (l.take k) := by
            intro a b l; rfl
          rw [h6, ← List.map_take, h5]
          refine ⟨fun ho hk => ?_, fun he => ?_⟩
          · obtain ⟨u, hu, hk'⟩ := i2 (by omega) (by omega)
            exact ⟨u, by simp [hu], hk'⟩
          · simp [i3 (by omega), hl]

/-! ### Harmless crash points -/

/-- What a tree of size `T` holds between forgetting an old instance and inserting the next one. -/
def forgot (T : ℕ) (xs : List α) : List (RcKey × α) :=
  (kept T xs).filter fun p => p.1 ≠ .index ((xs.length : ℤ) - (T : ℤ))

omit [Field K] in
theorem kept_snoc (T : ℕ) (hT : 1 ≤ T) (xs : List α) (x : α) (hn : T < xs.length) :
    kept T (xs ++ [x]) = forgot T xs ++ [(.index xs.length, x)] := by
  have hnew : [((RcKey.index xs.length : RcKey), x)].filter
      (fun p => keeps T (xs.length + 1) p.1) = [(.index xs.length, x)] := by
    rw [List.filter_eq_self]
    intro p hp
    rw [List.mem_singleton] at hp
    subst hp
    simp only [keeps, decide_eq_true_eq]; omega
  rw [forgot, kept, kept, numbered_snoc, List.filter_append, List.length_append,
    List.length_singleton, hnew, List.filter_filter]
  congr 1
  apply List.filter_congr
  intro p hp
  obtain ⟨i, hi, hk⟩ := mem_numbered hp
  rw [hk]
  simp only [keeps, ne_eq, RcKey.index.injEq, decide_not]
  rw [Bool.eq_iff_iff]
  simp only [Bool.and_eq_true, Bool.not_eq_true', decide_eq_false_iff_not, decide_eq_true_eq]
  omega

omit [Field K] in
theorem forgot_length (T : ℕ) (hT : 1 ≤ T) (xs : List α) (x : α) (hn : T < xs.length) :
    (forgot T xs).length = T := by
  have := congrArg List.length (kept_snoc T hT xs x hn)
  rw [kept_length, List.length_append, List.length_append] at this
  simp only [List.length_singleton] at this
  omega

/-- What the first tree may hold after harmless interruptions. -/
def FirstTree (T : ℕ) (xs : List α) (l : List (RcKey × α)) : Prop :=
  l = kept T xs ∨ (T < xs.length ∧ l = forgot T xs)

omit [Field K] in
theorem firstTree_keys {T : ℕ} {xs : List α} {l : List (RcKey × α)} (h : FirstTree T xs l) {k : RcKey}
    (hk : k ∈ l.map Prod.fst) : ∃ i < xs.length, k = .index i := by
  rcases h with rfl | ⟨_, rfl⟩
  · exact kept_keys hk
  · obtain ⟨p, hp, rfl⟩ := List.mem_map.1 hk
    exact kept_keys (List.mem_map_of_mem (List.mem_filter.1 hp).1)

omit [Field K] in
/-- Fitting the first tree: its stores end with the insertion. -/
theorem first_fit (T : ℕ) (hT : 1 ≤ T) (xs : List α) (x : α) (g : G) (t : τ)
    (h : FirstTree T xs (api.leaves t)) :
    ∃ A g' t', fitTreeStages api T xs.length x g t = A ++ [(g', t')] ∧
      A.length + 1 = (if (api.leaves t).length > T then 2 else 1) ∧
      fitTree api T xs.length x g t = .ok () (g', t') ∧ api.leaves t' = kept T (xs ++ [x]) ∧
      .index xs.length ∈ keys api t' ∧
      ∀ p ∈ A, T < xs.length ∧ api.leaves p.2 = forgot T xs := by
  have hins : ∀ t1, FirstTree T xs (api.leaves t1) → ∃ t' g',
      api.insertPoint g t1 x (.index xs.length) = (.ok t', g') ∧
        api.leaves t' = api.leaves t1 ++ [(.index xs.length, x)] := by
    intro t1 h1
    refine api.insert_new g t1 x (.index xs.length) ?_
    intro hm
    obtain ⟨i, hi, he⟩ := firstTree_keys h1 hm
    injection he with he
    omega
  by_cases hl : (api.leaves t).length > T
  · have h0 : api.leaves t = kept T xs := by
      rcases h with h | ⟨hn, h⟩
      · exact h
      · rw [h, forgot_length T hT xs x hn] at hl; omega
    have hn : T < xs.length := by rw [h0, kept_length] at hl; omega
    have hmem : RcKey.index ((xs.length : ℤ) - (T : ℤ)) ∈ (api.leaves t).map Prod.fst := by
      by_contra hno
      have h2 : forgot T xs = kept T xs := by
        rw [forgot, List.filter_eq_self]
        intro p hp
        have : p.1 ≠ RcKey.index ((xs.length : ℤ) - (T : ℤ)) := fun he =>
          hno (by rw [h0, ← he]; exact List.mem_map_of_mem hp)
        simpa using this
      have h3 := forgot_length T hT xs x hn
      rw [h2, ← h0] at h3
      omega
    obtain ⟨t1, hf, hl1⟩ := api.forget_old t _ hmem
    rw [h0] at hl1
    obtain ⟨t', g', hi, hl'⟩ := hins t1 (Or.inr ⟨hn, hl1⟩)
    refine ⟨[(g, t1)], g', t', ?_, by rw [if_pos hl]; rfl, ?_, ?_, ?_, ?_⟩
    · simp only [fitTreeStages, if_pos hl, hf, hi]; rfl
    · simp only [fitTree, if_pos hl, hf, hi]
    · rw [hl', kept_snoc T hT xs x hn, hl1]; rfl
    · unfold keys; rw [hl']; simp
    · intro p hp
      rw [List.mem_singleton] at hp
      subst hp
      exact ⟨hn, hl1⟩
  · obtain ⟨t', g', hi, hl'⟩ := hins t h
    refine ⟨[], g', t', ?_, by rw [if_neg hl]; rfl, ?_, ?_, ?_, by simp⟩
    · simp only [fitTreeStages, if_neg hl, hi]; rfl
    · simp only [fitTree, if_neg hl, hi]
    · rcases h with h | ⟨hn, h⟩
      · rw [h, kept_length] at hl
        rw [hl', h, kept_all T xs (by omega), kept_all T (xs ++ [x]) (by simp; omega), numbered_snoc]
      · rw [hl', h, kept_snoc T hT xs x hn]
    · unfold keys; rw [hl']; simp

/-- The state after fitting `xs` with harmless interruptions. -/
structure Good (T m : ℕ) (xs : List α) (s : RrcfState τ G) : Prop where
  size : s.treeSize = T
  index : s.index = xs.length
  leaves : ∃ first, s.forest.map api.leaves = first :: List.replicate m (kept T xs) ∧ FirstTree T xs first

omit [Field K] in
/-- A fit of the whole forest: the stores before the first insertion, those after it with the number of
instances still the old one, and the last one. -/
theorem good_fit {T m : ℕ} (hT : 1 ≤ T) {xs : List α} {s : RrcfState τ G} (h : Good api T m xs s) (x : α) :
    ∃ t ts A B s', s.forest = t :: ts ∧ fitStages api s x = A ++ B ++ [s'] ∧
      A.length + 1 = (if (api.leaves t).length > T then 2 else 1) ∧ B ≠ [] ∧
      (∀ u ∈ A, Good api T m xs u) ∧ (∀ u ∈ B, Stuck api u) ∧
      fitPartial api s x = .ok () s' ∧ Good api T m (xs ++ [x]) s' := by
  obtain ⟨hs, hi, first, hm, hF⟩ := h
  cases hf : s.forest with
  | nil => rw [hf] at hm; cases hm
  | cons t ts =>
    rw [hf, List.map_cons] at hm
    injection hm with ht hts
    subst ht
    have hlen : ts.length = m := by
      have := congrArg List.length hts
      simpa using this
    have hts' : ∀ u ∈ ts, api.leaves u = kept T xs := by
      intro u hu
      have := List.mem_map_of_mem (f := api.leaves) hu
      rw [hts] at this
      exact (List.mem_replicate.1 this).2
    obtain ⟨A, g', t', h1, h2, h3, h4, h5, h6⟩ := first_fit api T hT xs x s.rng t hF
    obtain ⟨g2, ts2, h7, h8, h9⟩ := fitTrees_spec api T hT xs x ts g' hts'
    refine ⟨t, ts, A.map fun p => { s with rng := p.1, forest := p.2 :: ts },
      { s with rng := g', forest := t' :: ts } ::
        (fitTreesStages api T xs.length x g' ts).map fun p => { s with rng := p.1, forest := t' :: p.2 },
      { s with rng := g2, forest := t' :: ts2, index := s.index + 1 }, rfl, ?_, by simpa using h2,
      by simp, ?_, ?_, ?_, ?_⟩
    · unfold fitStages
      simp only [hs, hi, hf, fitTreesStages, fitTrees, h1, h3, h7, Res.mapState_ok, List.map_append,
        List.map_cons, List.map_nil, List.map_map, Function.comp_def, List.append_assoc, List.cons_append,
        List.nil_append]
    · intro u hu
      obtain ⟨p, hp, rfl⟩ := List.mem_map.1 hu
      exact ⟨hs, hi, _, by rw [List.map_cons, hts], Or.inr (h6 p hp)⟩
    · intro u hu
      rcases List.mem_cons.1 hu with rfl | hu
      · exact ⟨by simpa [hs] using hT, t', ts, rfl, by simpa [hi] using h5⟩
      · obtain ⟨p, hp, rfl⟩ := List.mem_map.1 hu
        exact ⟨by simpa [hs] using hT, t', p.2, rfl, by simpa [hi] using h5⟩
    · simp only [fitPartial, hs, hi, hf, fitTrees, h3, h7, Res.mapState_ok]
    · refine ⟨hs, by simp [hi], kept T (xs ++ [x]), ?_, Or.inl rfl⟩
      rw [List.map_cons, h4]
      congr 1
      rw [List.eq_replicate_iff]
      refine ⟨by simp [h8, hlen], ?_⟩
      intro l hl
      obtain ⟨u, hu, rfl⟩ := List.mem_map.1 hl
      exact h9 u hu

omit [Field K] in
theorem good_noTest {T m : ℕ} {xs : List α} {s : RrcfState τ G} (h : Good api T m xs s) :
    ∀ t ∈ s.forest, .testPoint ∉ keys api t := by
  obtain ⟨_, _, first, hm, hF⟩ := h
  intro t ht hk
  have h1 := List.mem_map_of_mem (f := api.leaves) ht
  rw [hm, List.mem_cons, List.mem_replicate] at h1
  have : FirstTree T xs (api.leaves t) := by
    rcases h1 with h1 | h1
    · rw [h1]; exact hF
    · exact Or.inl h1.2
  obtain ⟨i, _, he⟩ := firstTree_keys this hk
  cases he

omit [Field K] in
theorem good_new (g : G) (T m : ℕ) : Good api T m [] (Rrcf.new api g (m + 1) T) := by
  refine ⟨rfl, rfl, [], ?_, Or.inl rfl⟩
  simp only [Rrcf.new, List.map_replicate, api.leaves_empty]
  rfl

theorem scoreTrees_clean (n : ℕ) (x : α) (ts : List τ) : ∀ (acc : K) (g : G),
    (∀ t ∈ ts, api.leaves t ≠ [] ∧ .testPoint ∉ keys api t) →
    ∃ v p, scoreTrees api n x acc g ts = .ok v p := by
  induction ts with
  | nil => intro acc g _; exact ⟨_, _, rfl⟩
  | cons t ts ih =>
    intro acc g h
    obtain ⟨h0, ht⟩ := h t (by simp)
    obtain ⟨b, hb⟩ := api.find_some t x h0
    obtain ⟨t1, g1, h1, h2⟩ := api.insert_new g t x .testPoint ht
    obtain ⟨t2, h3, h4⟩ := api.forget_old t1 .testPoint (by rw [h2]; simp)
    have key : ∃ v p, scoreTree api n x g t = .ok v p := by
      cases b with
      | true => exact ⟨_, (g, t), by simp only [scoreTree, hb]; rfl⟩
      | false => exact ⟨_, (g1, t2), by simp only [scoreTree, hb, h1, h3]; rfl⟩
    obtain ⟨v, p, hv⟩ := key
    obtain ⟨w, q, hw⟩ := ih (acc + v) p.1 fun t ht => h t (by simp [ht])
    exact ⟨w, (q.1, p.2 :: q.2), by simp only [scoreTrees, hv, hw, Res.mapState_ok]⟩

theorem score_state (s : RrcfState τ G) (x : α) (k : ℕ) :
    final s ((scoreStages api s x).take k) = { s with
      rng := (final (s.rng, s.forest) ((scoreTreesStages api s.numTrees x s.rng s.forest).take k)).1
      forest := (final (s.rng, s.forest) ((scoreTreesStages api s.numTrees x s.rng s.forest).take k)).2 } := by
  unfold scoreStages
  rw [← List.map_take]
  exact final_map (fun q : G × List τ => { s with rng := q.1, forest := q.2 }) (s.rng, s.forest) _

end RrcfRecovery

open RrcfRecovery

namespace Spec
variable {τ α K G : Type*} [Field K] (api : RcTreeApi τ α K G)

/-- Did the call in the state `s` come to its end? -/
def RrcfEnded (s : RrcfState τ G) (c : RrcfCall α) : Option ℕ → Prop
  | none => True
  | some k => (Rrcf.stages api s c).length ≤ k

instance (s : RrcfState τ G) (c : RrcfCall α) (o : Option ℕ) : Decidable (RrcfEnded api s c o) := by
  unfold RrcfEnded; cases o <;> infer_instance

/-- Crash points that do no harm: a fit has ended or has not yet inserted the instance into the first tree
(the second store if an old instance has to be forgotten, otherwise the first); a score has ended or has
forgotten the test point wherever it was inserted (an even number of stores). -/
def RrcfHarmlessPoint (s : RrcfState τ G) (c : RrcfCall α) (o : Option ℕ) : Prop :=
  RrcfEnded api s c o ∨ ∃ k, o = some k ∧
    match c with
    | .fit _ => ∀ t ∈ s.forest.head?, k < if (api.leaves t).length > s.treeSize then 2 else 1
    | .score _ => k % 2 = 0

/-- The state after a call. -/
def rrcfAfter (s : RrcfState τ G) (e : RrcfCall α × Option ℕ) : RrcfState τ G :=
  afterCalls (Rrcf.statements api) s [e]

/-- All interruptions of the history hit harmless points. -/
def RrcfHarmless : RrcfState τ G → List (RrcfCall α × Option ℕ) → Prop
  | _, [] => True
  | s, e :: h => RrcfHarmlessPoint api s e.1 e.2 ∧ RrcfHarmless (rrcfAfter api s e) h

/-- The instances of the fits that came to their end. -/
def rrcfFitted : RrcfState τ G → List (RrcfCall α × Option ℕ) → List α
  | _, [] => []
  | s, e :: h =>
    (match e.1 with
      | .fit x => if RrcfEnded api s e.1 e.2 then [x] else []
      | .score _ => []) ++ rrcfFitted (rrcfAfter api s e) h

end Spec

namespace RrcfRecovery
variable {τ α K G : Type*} [Field K] (api : RcTreeApi τ α K G)

theorem after_none (s : RrcfState τ G) (c : RrcfCall α) : rrcfAfter api s (c, none) = complete api s c :=
  rrcf_statements_complete api c s

theorem after_some (s : RrcfState τ G) (c : RrcfCall α) (k : ℕ) :
    rrcfAfter api s (c, some k) = final s ((stages api s c).take k) := by
  show runStatements ((statements api c s).take k) s = _
  unfold statements
  rw [← List.map_take]
  exact RefWindowRecovery.last_stage _ s

theorem after_final (s : RrcfState τ G) (c : RrcfCall α) : final s (stages api s c) = complete api s c := by
  cases c with
  | fit x => exact fit_final api s x
  | score x => exact score_final api s x

theorem after_ended {s : RrcfState τ G} {c : RrcfCall α} {o : Option ℕ} (h : RrcfEnded api s c o) :
    rrcfAfter api s (c, o) = complete api s c := by
  cases o with
  | none => exact after_none api s c
  | some k =>
    rw [after_some, List.take_of_length_le h]
    exact after_final api s c

theorem final_mem {σ : Type*} {P : σ → Prop} {s : σ} {l : List σ} (hs : P s) (hl : ∀ t ∈ l, P t) :
    P (final s l) := by
  rcases RefWindowRecovery.foldl_last_mem l s with h | h
  · unfold final; rw [h]; exact hs
  · exact hl _ h

theorem good_score_cut {T m : ℕ} {xs : List α} {s : RrcfState τ G} (h : Good api T m xs s) (x : α) (k : ℕ)
    (hk : k % 2 = 0 ∨ (scoreStages api s x).length ≤ k) :
    Good api T m xs (final s ((scoreStages api s x).take k)) := by
  have hl : (scoreStages api s x).length = (scoreTreesStages api s.numTrees x s.rng s.forest).length := by
    simp [scoreStages]
  rw [hl] at hk
  obtain ⟨-, -, h3⟩ := score_cut api s.numTrees x s.forest s.rng k (good_noTest api h)
  rw [score_state]
  obtain ⟨first, hm, hF⟩ := h.leaves
  exact ⟨h.size, h.index, first, by rw [h3 hk, hm], hF⟩

/-- A harmless event. -/
theorem good_event {T m : ℕ} (hT : 1 ≤ T) {xs : List α} {s : RrcfState τ G} (h : Good api T m xs s)
    (e : RrcfCall α × Option ℕ) (hp : RrcfHarmlessPoint api s e.1 e.2) :
    Good api T m (xs ++ match e.1 with
      | .fit x => if RrcfEnded api s e.1 e.2 then [x] else []
      | .score _ => []) (rrcfAfter api s e) := by
  obtain ⟨c, o⟩ := e
  cases c with
  | fit x =>
    obtain ⟨t, ts, A, B, s', h1, h2, h3, h4, h5, h6, h7, h8⟩ := good_fit api hT h x
    by_cases hE : RrcfEnded api s (.fit x) o
    · rw [after_ended api hE]
      simp only [if_pos hE, complete, h7, Res.state_ok]
      exact h8
    · simp only [if_neg hE, List.append_nil]
      rcases hp with hp | ⟨k, rfl, hk⟩
      · exact absurd hp hE
      · simp only [h1, List.head?_cons, Option.mem_def, Option.some.injEq, forall_eq', h.size] at hk
        have hkA : k ≤ A.length := by omega
        rw [after_some]
        simp only [stages, h2, List.append_assoc]
        rw [List.take_append_of_le_length hkA]
        exact final_mem h fun u hu => h5 u (List.mem_of_mem_take hu)
  | score x =>
    simp only [List.append_nil]
    rcases hp with hp | ⟨k, rfl, hk⟩
    · rw [after_ended api hp, ← after_final]
      have := good_score_cut api h x (scoreStages api s x).length (Or.inr le_rfl)
      rwa [List.take_length] at this
    · rw [after_some]
      exact good_score_cut api h x k (Or.inl hk)

theorem afterCalls_cons (s : RrcfState τ G) (e : RrcfCall α × Option ℕ) (h : List (RrcfCall α × Option ℕ)) :
    afterCalls (statements api) s (e :: h) = afterCalls (statements api) (rrcfAfter api s e) h := rfl

theorem good_history {T m : ℕ} (hT : 1 ≤ T) (h : List (RrcfCall α × Option ℕ)) :
    ∀ (xs : List α) (s : RrcfState τ G), Good api T m xs s → RrcfHarmless api s h →
    Good api T m (xs ++ rrcfFitted api s h) (afterCalls (statements api) s h) := by
  induction h with
  | nil => intro xs s hs _; rw [rrcfFitted, List.append_nil]; exact hs
  | cons e h ih =>
    intro xs s hs hh
    rw [afterCalls_cons, rrcfFitted, ← List.append_assoc]
    exact ih _ _ (good_event api hT hs e hh.1) hh.2

/-- A fit interrupted at another point. -/
theorem stuck_event {T m : ℕ} (hT : 1 ≤ T) {xs : List α} {s : RrcfState τ G} (h : Good api T m xs s) (x : α)
    (o : Option ℕ) (hp : ¬ RrcfHarmlessPoint api s (.fit x) o) : Stuck api (rrcfAfter api s (.fit x, o)) := by
  obtain ⟨t, ts, A, B, s', h1, h2, h3, h4, h5, h6, h7, h8⟩ := good_fit api hT h x
  unfold RrcfHarmlessPoint at hp
  rw [not_or] at hp
  obtain ⟨hE, hp⟩ := hp
  cases o with
  | none => exact absurd trivial hE
  | some k =>
    have hk1 : ¬ (k < if (api.leaves t).length > T then 2 else 1) := by
      intro hk
      refine hp ⟨k, rfl, ?_⟩
      simp only [h1, List.head?_cons, Option.mem_def, Option.some.injEq, forall_eq', h.size]
      exact hk
    have hk2 : k < (stages api s (.fit x)).length := not_le.1 hE
    simp only [stages, h2, List.length_append, List.length_singleton] at hk2
    rw [after_some]
    simp only [stages, h2]
    rw [List.take_append_of_le_length (by simp only [List.length_append]; omega),
      List.take_append, List.take_of_length_le (by omega), final_append]
    cases B with
    | nil => exact absurd rfl h4
    | cons b B =>
      obtain ⟨j, hj⟩ : ∃ j, k - A.length = j + 1 := ⟨k - A.length - 1, by omega⟩
      rw [hj, List.take_succ_cons]
      exact final_mem (s := b) (h6 b (by simp)) fun u hu => h6 u (by simp [List.mem_of_mem_take hu])

/-- A score interrupted at another point. -/
theorem littered_event {T m : ℕ} {xs : List α} {s : RrcfState τ G} (h : Good api T m xs s) (x : α)
    (o : Option ℕ) (hp : ¬ RrcfHarmlessPoint api s (.score x) o) :
    Littered api (rrcfAfter api s (.score x, o)) := by
  unfold RrcfHarmlessPoint at hp
  rw [not_or] at hp
  obtain ⟨hE, hp⟩ := hp
  cases o with
  | none => exact absurd trivial hE
  | some k =>
    have hk1 : k % 2 = 1 := by
      by_contra hk
      exact hp ⟨k, rfl, by simp only; omega⟩
    have hk2 : k < (scoreStages api s x).length := not_le.1 hE
    rw [after_some]
    simp only [stages]
    rw [score_state]
    simp only [scoreStages, List.length_map] at hk2
    exact (score_cut api s.numTrees x s.forest s.rng k (good_noTest api h)).2.1 hk1 hk2

theorem good_snd {T : ℕ} (xs : List α) : (kept T xs).map Prod.snd =
    if xs.length ≤ T + 1 then xs else xs.take 1 ++ lastN T xs := by
  split
  · rename_i hl
    rw [kept_all T _ hl, numbered_snd]
  · rename_i hl
    rw [kept_some T _ (by omega), List.map_append, List.map_take, numbered_snd, lastN, lastN,
      List.map_drop, numbered_snd, numbered_length]

theorem forgot_snd {T : ℕ} (hT : 1 ≤ T) (xs : List α) (hn : T < xs.length) :
    (forgot T xs).map Prod.snd = xs.take 1 ++ lastN (T - 1) xs := by
  cases xs with
  | nil => simp at hn
  | cons a l =>
    have h1 := congrArg (List.map Prod.snd) (kept_snoc T hT (a :: l) a hn)
    rw [good_snd, if_neg (by simp at hn ⊢; omega), List.map_append] at h1
    have h2 : lastN T (a :: l ++ [a]) = lastN (T - 1) (a :: l) ++ [a] := by
      unfold lastN
      rw [List.length_append, List.length_singleton, List.drop_append_of_le_length (by simp at hn ⊢; omega)]
      congr 2
      omega
    rw [h2, ← List.append_assoc] at h1
    rw [List.map_cons, List.map_nil] at h1
    have h3 := List.append_cancel_right h1
    rw [← h3]
    simp

end RrcfRecovery

section
variable {τ α K G : Type*} [Field K] (api : RcTreeApi τ α K G)

/-- **C182 (full statement, false).** Whatever calls were interrupted and where: a later complete
`fit_partial` does not raise, and once a complete fit took place neither does `score_partial`. -/
def C182_statement : Prop :=
  ∀ (τ α K G : Type) [Field K] (api : RcTreeApi τ α K G) (g : G) (m T : ℕ) (h : List (RrcfCall α × Option ℕ))
    (x y : α), 1 ≤ T →
    ∃ s, Rrcf.fitPartial api (afterCalls (Rrcf.statements api) (Rrcf.new api g m T) h) x = .ok () s ∧
      ∃ v s', Rrcf.scorePartial api s y = .ok v s'

/-- **C182 (fits).** After any history whose interruptions were harmless, a single `fit_partial` that is
interrupted anywhere between its first insertion into a tree and its end is fatal: whatever is called
afterwards, complete or interrupted, every later `fit_partial` raises `KeyError`. -/
theorem C182_fit_dead (g : G) (m T : ℕ) (hm : 1 ≤ m) (hT : 1 ≤ T) (h : List (RrcfCall α × Option ℕ))
    (hh : RrcfHarmless api (Rrcf.new api g m T) h) (x : α) (o : Option ℕ)
    (hp : ¬ RrcfHarmlessPoint api (afterCalls (Rrcf.statements api) (Rrcf.new api g m T) h) (.fit x) o)
    (later : List (RrcfCall α × Option ℕ)) (y : α) :
    (Rrcf.fitPartial api (afterCalls (Rrcf.statements api) (Rrcf.new api g m T)
      (h ++ (.fit x, o) :: later)) y).out = .error .keyError := by
  obtain ⟨m, rfl⟩ : ∃ k, m = k + 1 := ⟨m - 1, by omega⟩
  have hg := good_history api hT h [] _ (good_new api g T m) hh
  rw [RefWindowRecovery.afterCalls_append, afterCalls_cons]
  exact stuck_fit api (afterCalls_inv api (stuck_stages api) later _ (stuck_event api hT hg x o hp)) y

/-- **C182 (scores).** A single `score_partial` interrupted while a tree holds the test point leaves it
there for good: whatever is called afterwards, every later `score_partial` of an instance the trees
hold no duplicate of raises `KeyError`. -/
theorem C182_score_dead (g : G) (m T : ℕ) (hm : 1 ≤ m) (hT : 1 ≤ T) (h : List (RrcfCall α × Option ℕ))
    (hh : RrcfHarmless api (Rrcf.new api g m T) h) (x : α) (o : Option ℕ)
    (hp : ¬ RrcfHarmlessPoint api (afterCalls (Rrcf.statements api) (Rrcf.new api g m T) h) (.score x) o)
    (later : List (RrcfCall α × Option ℕ)) (y : α) :
    let s := afterCalls (Rrcf.statements api) (Rrcf.new api g m T) (h ++ (.score x, o) :: later)
    (∃ t ∈ s.forest, .testPoint ∈ (api.leaves t).map Prod.fst) ∧
    ((∀ t ∈ s.forest, api.findDuplicate t y = .ok false) →
      (Rrcf.scorePartial api s y).out = .error .keyError) := by
  intro s
  obtain ⟨m, rfl⟩ : ∃ k, m = k + 1 := ⟨m - 1, by omega⟩
  have hg := good_history api hT h [] _ (good_new api g T m) hh
  have hL : Littered api s := by
    show Littered api (afterCalls (Rrcf.statements api) (Rrcf.new api g (m + 1) T) (h ++ (.score x, o) :: later))
    rw [RefWindowRecovery.afterCalls_append, afterCalls_cons]
    exact afterCalls_inv api (littered_stages api) later _ (littered_event api hg x o hp)
  refine ⟨hL, fun hd => ?_⟩
  have := littered_score api s.numTrees y s.forest (0 : K) s.rng hL hd
  unfold Rrcf.scorePartial
  revert this
  cases scoreTrees api s.numTrees y 0 s.rng s.forest <;> exact id

/-- **C182 (partial).** If every interruption was harmless, nothing raises afterwards (scores once a fit
came to its end), and every tree holds what it would hold after the fits that came to their end alone,
except that the first tree may already have forgotten the instance that the next fit has to replace. -/
theorem C182_harmless_partial (g : G) (m T : ℕ) (hm : 1 ≤ m) (hT : 1 ≤ T) (h : List (RrcfCall α × Option ℕ))
    (hh : RrcfHarmless api (Rrcf.new api g m T) h) :
    let s := afterCalls (Rrcf.statements api) (Rrcf.new api g m T) h
    let xs := rrcfFitted api (Rrcf.new api g m T) h
    let held := if xs.length ≤ T + 1 then xs else xs.take 1 ++ lastN T xs
    (∀ x, (Rrcf.fitPartial api s x).out = .ok ()) ∧
    (xs ≠ [] → ∀ x, ∃ v, (Rrcf.scorePartial api s x).out = .ok v) ∧
    s.forest.length = m ∧
    (∀ t ∈ s.forest.drop 1, (api.leaves t).map Prod.snd = held) ∧
    (∀ t ∈ s.forest.head?, (api.leaves t).map Prod.snd = held ∨
      T < xs.length ∧ (api.leaves t).map Prod.snd = xs.take 1 ++ lastN (T - 1) xs) := by
  intro s xs held
  obtain ⟨m, rfl⟩ : ∃ k, m = k + 1 := ⟨m - 1, by omega⟩
  have hg : Good api T m xs s := good_history api hT h [] _ (good_new api g T m) hh
  obtain ⟨first, hl, hF⟩ := hg.leaves
  have hall : ∀ t ∈ s.forest, FirstTree T xs (api.leaves t) := by
    intro t ht
    have h1 := List.mem_map_of_mem (f := api.leaves) ht
    rw [hl, List.mem_cons, List.mem_replicate] at h1
    rcases h1 with h1 | h1
    · rw [h1]; exact hF
    · exact Or.inl h1.2
  refine ⟨fun x => ?_, fun hne x => ?_, ?_, ?_, ?_⟩
  · obtain ⟨t, ts, A, B, s', -, -, -, -, -, -, h7, -⟩ := good_fit api hT hg x
    rw [h7, Res.out_ok]
  · obtain ⟨v, p, hv⟩ := scoreTrees_clean api s.numTrees x s.forest (0 : K) s.rng (by
      intro t ht
      refine ⟨?_, good_noTest api hg t ht⟩
      intro h0
      have hpos := List.length_pos_of_ne_nil hne
      rcases hall t ht with h1 | ⟨hn, h1⟩
      · have := kept_length T xs
        rw [← h1, h0, List.length_nil] at this
        omega
      · have := forgot_length T hT xs x hn
        rw [← h1, h0, List.length_nil] at this
        omega)
    exact ⟨v, by simp only [Rrcf.scorePartial, hv, Res.mapState_ok, Res.out_ok]⟩
  · have := congrArg List.length hl
    simpa using this
  · intro t ht
    have h1 := List.mem_map_of_mem (f := api.leaves) ht
    rw [List.map_drop, hl, List.drop_one, List.tail_cons, List.mem_replicate] at h1
    rw [h1.2, good_snd]
  · intro t ht
    rcases hall t (List.mem_of_mem_head? ht) with h1 | ⟨hn, h1⟩
    · left; rw [h1, good_snd]
    · right; exact ⟨hn, by rw [h1, forgot_snd hT xs hn]⟩

end

/-- **C182 (refuted).** Two trees; the fit of 20 is interrupted when it has inserted 20 into the first. -/
theorem C182_refuted : ¬ C182_statement := by
  intro hall
  obtain ⟨s, h, -⟩ := hall _ _ _ _ (listApi ℕ) () 2 4 [(.fit 10, none), (.fit 20, some 1)] 30 30 (by decide)
  have h1 := congrArg Res.out h
  have h2 := C182_fit_dead (listApi ℕ) () 2 4 (by decide) (by decide) [(.fit 10, none)]
    ⟨Or.inl trivial, trivial⟩ 20 (some 1) (by
      rintro (h | ⟨k, h, hk⟩)
      · revert h; decide +kernel
      · injection h with h
        subst h
        revert hk
        decide +kernel) [] 30
  have h3 := h1.symm.trans h2
  cases h3

/-- Harmless: a fit that had only forgotten an old instance of the first tree, and a score stopped between
two trees. The first tree misses an instance until the next fit. -/
example : RrcfHarmless (listApi ℕ) (Rrcf.new (listApi ℕ) () 2 1)
    [(.fit 10, none), (.fit 20, none), (.fit 30, some 1), (.score 5, some 2)] :=
  ⟨Or.inl trivial, Or.inl trivial, Or.inr ⟨1, rfl, by decide +kernel⟩, Or.inr ⟨2, rfl, by decide +kernel⟩, trivial⟩

example : (afterCalls (Rrcf.statements (listApi ℕ)) (Rrcf.new (listApi ℕ) () 2 1)
      [(.fit 10, none), (.fit 20, none), (.fit 30, some 1), (.score 5, some 2)]).forest
    = [[(.index 0, 10)], [(.index 0, 10), (.index 1, 20)]] := by decide +kernel

example : (afterCalls (Rrcf.statements (listApi ℕ)) (Rrcf.new (listApi ℕ) () 2 1)
      [(.fit 10, none), (.fit 20, none), (.fit 30, some 1), (.fit 40, none)]).forest
    = [[(.index 0, 10), (.index 2, 40)], [(.index 0, 10), (.index 2, 40)]] := by decide +kernel

/-- Fatal for scores: stopped after the third store, the second tree keeps its test point. -/
example : ¬ RrcfHarmlessPoint (listApi ℕ)
    (afterCalls (Rrcf.statements (listApi ℕ)) (Rrcf.new (listApi ℕ) () 2 4) [(.fit 10, none)]) (.score 5) (some 3) := by
  rintro (h | ⟨k, h, hk⟩)
  · revert h; decide +kernel
  · injection h with h
    subst h
    revert hk
    decide +kernel

example : (afterCalls (Rrcf.statements (listApi ℕ)) (Rrcf.new (listApi ℕ) () 2 4)
      [(.fit 10, none), (.score 5, some 3), (.fit 20, none)]).forest
    = [[(.index 0, 10), (.index 1, 20)], [(.index 0, 10), (.testPoint, 5), (.index 1, 20)]] := by decide +kernel

end Pysad
