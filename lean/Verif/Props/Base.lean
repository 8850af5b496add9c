import Verif.Proofs.Base

/-! Properties C17-C23: the batch methods of the base classes. They hold for
every subclass: the model, postprocessor or transformer is an arbitrary state
machine whose methods may raise. -/

namespace Pysad

open Spec

section Detectors
variable {σ α β S : Type*} (d : Detector σ α β S)

/-- **C17.** `fit(X, y)` is `fit_partial(x_i, y_i)` for `i = 0, 1, ...`; it stops
at the first exception, in the state reached there. -/
theorem C17_fit_in_order (s : σ) (X : List α) (y : Option (List β)) (h : WellFormed X y) :
    d.fit s X y = dropValue (inOrder (fun s p => d.fitPartial s p.1 p.2) s (pairs X y)) := by
  unfold Detector.fit
  rw [iterate_wf X y h, Gen.forEach_ofList, forEach_map_unit]

/-- **C18.** `fit_score(X, y)` fits and scores each instance in turn. -/
theorem C18_fit_score_in_order (s : σ) (X : List α) (y : Option (List β)) (h : WellFormed X y) :
    d.fitScore s X y = inOrder (fun s p =>
      match d.fitPartial s p.1 p.2 with
      | .ok _ s' => d.scorePartial s' p.1
      | .err e s' => .err e s') s (pairs X y) := by
  unfold Detector.fitScore
  rw [iterate_wf X y h, Gen.forEach_ofList]
  congr 1
  funext s p
  unfold Detector.fitScorePartial
  cases d.fitPartial s p.1 p.2 <;> rfl

/-- The same for `score`. -/
theorem C18_score_in_order (s : σ) (X : List α) :
    d.score s X = inOrder (fun s x => d.scorePartial s x) s X := by
  unfold Detector.score
  rw [iterate_none, Gen.forEach_ofList]
  simp only [pairs]
  induction X generalizing s with
  | nil => rfl
  | cons x X ih =>
    simp only [List.map_cons, inOrder]
    cases d.scorePartial s x with
    | err e s' => rfl
    | ok b s' => simp only [ih]

/-- **C18**, by position: if `fit_score` returns, it returns one score per
instance, and the `i`-th score is what `score_partial(x_i)` returns right after
`fit_partial(x_i, y_i)`, both executed in the state reached after the first `i`
instances. -/
theorem C18_fit_score_positions (s s' : σ) (X : List α) (y : Option (List β)) (scores : List S)
    (h : WellFormed X y) (hok : d.fitScore s X y = .ok scores s') :
    scores.length = X.length ∧
    ∀ i (hi : i < X.length), ∃ si ti ui,
      (inOrder (fun s p => d.fitScorePartial s p.1 p.2) s ((pairs X y).take i)).state = si ∧
      d.fitPartial si X[i] (y.bind fun y => y[i]?) = .ok () ti ∧
      ∃ sc, scores[i]? = some sc ∧ d.scorePartial ti X[i] = .ok sc ui := by
  have hlen : (pairs X y).length = X.length := by
    cases y with
    | none => simp [pairs]
    | some y => simp only [WellFormed] at h; simp [pairs, h]
  unfold Detector.fitScore at hok
  rw [iterate_wf X y h, Gen.forEach_ofList] at hok
  refine ⟨by rw [inOrder_length hok, hlen], ?_⟩
  intro i hi
  have hi' : i < (pairs X y).length := hlen ▸ hi
  have hpi : (pairs X y)[i] = (X[i], y.bind fun y => y[i]?) := by
    cases y with
    | none => simp [pairs]
    | some y =>
      simp only [WellFormed] at h
      have : i < y.length := h ▸ hi
      simp [pairs, List.getElem?_eq_getElem this]
  have hsplit : pairs X y = (pairs X y).take i ++ (pairs X y)[i] :: (pairs X y).drop (i + 1) := by
    rw [List.getElem_cons_drop, List.take_append_drop]
  rw [hsplit, inOrder_append] at hok
  cases hpre : inOrder (fun s p => d.fitScorePartial s p.1 p.2) s ((pairs X y).take i) with
  | err e t => rw [hpre] at hok; simp at hok
  | ok as si =>
    rw [hpre] at hok
    simp only [Res.bind_ok, inOrder] at hok
    have hlas := inOrder_length hpre
    rw [List.length_take] at hlas
    cases hfs : d.fitScorePartial si (pairs X y)[i].1 (pairs X y)[i].2 with
    | err e t => rw [hfs] at hok; simp at hok
    | ok sc ui =>
      rw [hfs] at hok
      simp only at hok
      unfold Detector.fitScorePartial at hfs
      rw [hpi] at hfs
      simp only at hfs
      cases hf : d.fitPartial si X[i] (y.bind fun y => y[i]?) with
      | err e t => rw [hf] at hfs; simp at hfs
      | ok u ti =>
        rw [hf] at hfs
        simp only [Res.bind_ok] at hfs
        refine ⟨si, ti, ui, rfl, hf, sc, ?_, hfs⟩
        cases hr : inOrder (fun s p => d.fitScorePartial s p.1 p.2) ui ((pairs X y).drop (i + 1)) with
        | err e t => rw [hr] at hok; simp at hok
        | ok bs t =>
          rw [hr] at hok
          simp only [Res.map_ok, Res.ok.injEq] at hok
          rw [← hok.1]
          have : as.length = i := by omega
          rw [List.getElem?_append_right (by omega), this]
          simp

/-- **C19.** `fit`, `fit_score` and `score` on two concatenated batches are the
two consecutive calls. Labelled version. -/
theorem C19_chunks_labelled (s : σ) (X₁ X₂ : List α) (y₁ y₂ : List β)
    (h₁ : X₁.length = y₁.length) (h₂ : X₂.length = y₂.length) :
    d.fit s (X₁ ++ X₂) (some (y₁ ++ y₂)) =
      (match d.fit s X₁ (some y₁) with
       | .ok _ s' => d.fit s' X₂ (some y₂)
       | .err e s' => .err e s') ∧
    d.fitScore s (X₁ ++ X₂) (some (y₁ ++ y₂)) =
      (match d.fitScore s X₁ (some y₁) with
       | .ok sc₁ s' =>
         match d.fitScore s' X₂ (some y₂) with
         | .ok sc₂ s'' => .ok (sc₁ ++ sc₂) s''
         | .err e s'' => .err e s''
       | .err e s' => .err e s') := by
  have hw : WellFormed (X₁ ++ X₂) (some (y₁ ++ y₂)) := by simp [WellFormed, h₁, h₂]
  constructor
  · simp only [C17_fit_in_order d _ _ _ hw, C17_fit_in_order d _ X₁ (some y₁) h₁,
      C17_fit_in_order d _ X₂ (some y₂) h₂]
    rw [pairs_append _ _ _ _ h₁, inOrder_append]
    cases inOrder (fun s p => d.fitPartial s p.1 p.2) s (pairs X₁ (some y₁)) with
    | err e t => rfl
    | ok as t =>
      simp only [Res.bind_ok, dropValue]
      cases inOrder (fun s p => d.fitPartial s p.1 p.2) t (pairs X₂ (some y₂)) <;> rfl
  · unfold Detector.fitScore
    simp only [iterate_wf _ _ hw, iterate_wf X₁ (some y₁) h₁, iterate_wf X₂ (some y₂) h₂,
      Gen.forEach_ofList]
    rw [pairs_append _ _ _ _ h₁, inOrder_append]
    cases inOrder (fun s p => d.fitScorePartial s p.1 p.2) s (pairs X₁ (some y₁)) with
    | err e t => rfl
    | ok as t =>
      simp only [Res.bind_ok]
      cases inOrder (fun s p => d.fitScorePartial s p.1 p.2) t (pairs X₂ (some y₂)) <;> rfl

/-- **C19**, without labels. -/
theorem C19_chunks_unlabelled (s : σ) (X₁ X₂ : List α) :
    d.fit s (X₁ ++ X₂) none =
      (match d.fit s X₁ none with
       | .ok _ s' => d.fit s' X₂ none
       | .err e s' => .err e s') ∧
    d.fitScore s (X₁ ++ X₂) none =
      (match d.fitScore s X₁ none with
       | .ok sc₁ s' =>
         match d.fitScore s' X₂ none with
         | .ok sc₂ s'' => .ok (sc₁ ++ sc₂) s''
         | .err e s'' => .err e s''
       | .err e s' => .err e s') ∧
    d.score s (X₁ ++ X₂) =
      (match d.score s X₁ with
       | .ok sc₁ s' =>
         match d.score s' X₂ with
         | .ok sc₂ s'' => .ok (sc₁ ++ sc₂) s''
         | .err e s'' => .err e s''
       | .err e s' => .err e s') := by
  refine ⟨?_, ?_, ?_⟩
  · simp only [C17_fit_in_order d _ _ none trivial]
    simp only [pairs, List.map_append]
    rw [inOrder_append]
    cases inOrder (fun s (p : α × Option β) => d.fitPartial s p.1 p.2) s
        (X₁.map fun x => (x, none)) with
    | err e t => rfl
    | ok as t =>
      simp only [Res.bind_ok, dropValue]
      cases inOrder (fun s (p : α × Option β) => d.fitPartial s p.1 p.2) t
        (X₂.map fun x => (x, none)) <;> rfl
  · unfold Detector.fitScore
    simp only [iterate_none, Gen.forEach_ofList, pairs, List.map_append]
    rw [inOrder_append]
    cases inOrder (fun s (p : α × Option β) => d.fitScorePartial s p.1 p.2) s
        (X₁.map fun x => (x, none)) with
    | err e t => rfl
    | ok as t =>
      simp only [Res.bind_ok]
      cases inOrder (fun s (p : α × Option β) => d.fitScorePartial s p.1 p.2) t
        (X₂.map fun x => (x, none)) <;> rfl
  · simp only [C18_score_in_order]
    rw [inOrder_append]
    cases inOrder (fun s x => d.scorePartial s x) s X₁ with
    | err e t => rfl
    | ok as t =>
      simp only [Res.bind_ok]
      cases inOrder (fun s x => d.scorePartial s x) t X₂ <;> rfl

/-- **C20.** Two datasets that agree on their first `k` instances and labels get
the same first `k` scores, whatever follows. -/
theorem C20_causal (s : σ) (X X' : List α) (y y' : List β) (k : ℕ)
    (h : X.length = y.length) (h' : X'.length = y'.length)
    (hk : k ≤ X.length) (hk' : k ≤ X'.length)
    (hX : X.take k = X'.take k) (hy : y.take k = y'.take k)
    (sc sc' : List S) (t t' : σ)
    (hs : d.fitScore s X (some y) = .ok sc t) (hs' : d.fitScore s X' (some y') = .ok sc' t') :
    sc.take k = sc'.take k := by
  have key : ∀ (X : List α) (y : List β) (sc : List S) (t : σ), X.length = y.length → k ≤ X.length →
      d.fitScore s X (some y) = .ok sc t →
      ∃ u, d.fitScore s (X.take k) (some (y.take k)) = .ok (sc.take k) u := by
    intro X y sc t h hk hs
    have e1 : X = X.take k ++ X.drop k := (List.take_append_drop k X).symm
    have e2 : y = y.take k ++ y.drop k := (List.take_append_drop k y).symm
    have hc := (C19_chunks_labelled d s (X.take k) (X.drop k) (y.take k) (y.drop k)
      (by simp [h]) (by simp [h])).2
    rw [← e1, ← e2, hs] at hc
    cases hp : d.fitScore s (X.take k) (some (y.take k)) with
    | err e u => rw [hp] at hc; simp at hc
    | ok sc₁ u =>
      rw [hp] at hc
      simp only at hc
      cases hq : d.fitScore u (X.drop k) (some (y.drop k)) with
      | err e v => rw [hq] at hc; simp at hc
      | ok sc₂ v =>
        rw [hq] at hc
        simp only [Res.ok.injEq] at hc
        have hl : sc₁.length = k := by
          have := (C18_fit_score_positions d s u (X.take k) (some (y.take k)) sc₁
            (by simp [WellFormed, h]) hp).1
          rw [this, List.length_take]; omega
        refine ⟨u, ?_⟩
        rw [hc.1, ← hl, List.take_left]
  obtain ⟨u, hu⟩ := key X y sc t h hk hs
  obtain ⟨u', hu'⟩ := key X' y' sc' t' h' hk' hs'
  rw [hX, hy, hu'] at hu
  simp only [Res.ok.injEq] at hu
  exact hu.1.symm

/-- **C20**, for an exception: if instance `k` makes `fit_score` fail on one
dataset, it fails there on every dataset agreeing up to and including it, in the
same state. -/
theorem C20_causal_failure (s : σ) (X₁ X₂ X₂' : List α) (e : PyErr) (t : σ)
    (h : d.fitScore s X₁ none = .err e t) :
    d.fitScore s (X₁ ++ X₂) none = .err e t ∧ d.fitScore s (X₁ ++ X₂') none = .err e t := by
  constructor
  · rw [(C19_chunks_unlabelled d s X₁ X₂).2.1, h]
  · rw [(C19_chunks_unlabelled d s X₁ X₂').2.1, h]

/-- **C20**, without labels. -/
theorem C20_causal_unlabelled (s : σ) (X X' : List α) (k : ℕ) (hX : X.take k = X'.take k)
    (sc sc' : List S) (t t' : σ)
    (hs : d.fitScore s X none = .ok sc t) (hs' : d.fitScore s X' none = .ok sc' t') :
    sc.take k = sc'.take k := by
  have key : ∀ (X : List α) (sc : List S) (t : σ), d.fitScore s X none = .ok sc t →
      ∃ u, d.fitScore s (X.take k) none = .ok (sc.take k) u := by
    intro X sc t hs
    have hc := (C19_chunks_unlabelled d s (X.take k) (X.drop k)).2.1
    rw [List.take_append_drop, hs] at hc
    have hlen := (C18_fit_score_positions d s t X none sc trivial hs).1
    cases hp : d.fitScore s (X.take k) none with
    | err e u => rw [hp] at hc; simp at hc
    | ok sc₁ u =>
      rw [hp] at hc
      simp only at hc
      cases hq : d.fitScore u (X.drop k) none with
      | err e v => rw [hq] at hc; simp at hc
      | ok sc₂ v =>
        rw [hq] at hc
        simp only [Res.ok.injEq] at hc
        have hl : sc₁.length = min k X.length := by
          have := (C18_fit_score_positions d s u (X.take k) none sc₁ trivial hp).1
          rw [this, List.length_take]
        have hl₂ : sc₂.length = X.length - k := by
          have := (C18_fit_score_positions d u v (X.drop k) none sc₂ trivial hq).1
          rw [this, List.length_drop]
        refine ⟨u, ?_⟩
        rw [hc.1]
        rcases le_total k X.length with hk | hk
        · rw [min_eq_left hk] at hl
          rw [← hl, List.take_left]
        · have : sc₂ = [] := List.length_eq_zero_iff.1 (by omega)
          rw [this, List.append_nil, List.take_of_length_le (by rw [hl]; exact min_le_left _ _)]
  obtain ⟨u, hu⟩ := key X sc t hs
  obtain ⟨u', hu'⟩ := key X' sc' t' hs'
  rw [hX, hu'] at hu
  simp only [Res.ok.injEq] at hu
  exact hu.1.symm

/-- **C20**, for an exception in a labelled dataset. -/
theorem C20_causal_failure_labelled (s : σ) (X₁ X₂ : List α) (y₁ y₂ : List β)
    (h₁ : X₁.length = y₁.length) (h₂ : X₂.length = y₂.length) (e : PyErr) (t : σ)
    (h : d.fitScore s X₁ (some y₁) = .err e t) :
    d.fitScore s (X₁ ++ X₂) (some (y₁ ++ y₂)) = .err e t := by
  rw [(C19_chunks_labelled d s X₁ X₂ y₁ y₂ h₁ h₂).2, h]

/-- **C21.** With a wrong number of labels `fit` and `fit_score` raise
`AssertionError` and the model is untouched. -/
theorem C21_mismatch_rejected (s : σ) (X : List α) (y : List β) (h : X.length ≠ y.length) :
    d.fit s X (some y) = .err .assertionError s ∧
    d.fitScore s X (some y) = .err .assertionError s := by
  unfold Detector.fit Detector.fitScore
  rw [iterate_mismatch X y h]
  exact ⟨rfl, rfl⟩

end Detectors

/-- A concrete detector for the examples: its state is the sum of the instances
fitted so far; negative instances are refused with `ValueError`; the score is
the difference to that sum. -/
def exampleDetector : Detector ℤ ℤ ℕ ℤ where
  fitPartial s x _ := if x < 0 then .err .valueError s else .ok () (s + x)
  scorePartial s x := .ok (x - s) s

example : exampleDetector.fitScore 0 [1, 2, 3] (some [0, 1, 0]) = .ok [0, -1, -3] 6 := by decide
example : exampleDetector.fitScore 0 [1, -2, 3] none = .err .valueError 1 := by decide
example : exampleDetector.fit 0 [1, 2, 3] (some [0, 1]) = .err .assertionError 0 := by decide
example : WellFormed [1, 2, 3] (some [0, 1, 0]) ∧ WellFormed [1, 2, 3] (none : Option (List ℕ)) := by
  simp [WellFormed]

/-! ### C22: postprocessors -/

section Post
variable {σ S T : Type*} (p : Postprocessor σ S T)

theorem inOrder_pairs_none {ι γ : Type*} (f : σ → ι → Res σ γ) (s : σ) (l : List ι) :
    inOrder (fun s (q : ι × Option Unit) => f s q.1) s (pairs l none) = inOrder f s l := by
  simp only [pairs]
  induction l generalizing s with
  | nil => rfl
  | cons x l ih =>
    simp only [List.map_cons, inOrder]
    cases f s x with
    | err e s' => rfl
    | ok b s' => simp only [ih]

/-- **C22.** -/
theorem C22_postprocessor_in_order (s : σ) (xs : List S) :
    p.fit s xs = dropValue (inOrder p.fitPartial s xs) ∧
    p.transform s xs = inOrder p.transformPartial s xs ∧
    p.fitTransform s xs = inOrder (fun s x =>
      match p.fitPartial s x with
      | .ok _ s' => p.transformPartial s' x
      | .err e s' => .err e s') s xs := by
  refine ⟨?_, ?_, ?_⟩
  · unfold Postprocessor.fit
    rw [iterate_none, Gen.forEach_ofList, forEach_map_unit, inOrder_pairs_none p.fitPartial]
  · unfold Postprocessor.transform
    rw [iterate_none, Gen.forEach_ofList, inOrder_pairs_none p.transformPartial]
  · unfold Postprocessor.fitTransform
    rw [iterate_none, Gen.forEach_ofList, inOrder_pairs_none p.fitTransformPartial]
    congr 1
    funext s x
    unfold Postprocessor.fitTransformPartial
    cases p.fitPartial s x <;> rfl

/-- **C22**: one output per score. -/
theorem C22_postprocessor_length (s t : σ) (xs : List S) (out : List T) :
    (p.transform s xs = .ok out t → out.length = xs.length) ∧
    (p.fitTransform s xs = .ok out t → out.length = xs.length) := by
  obtain ⟨_, h2, h3⟩ := C22_postprocessor_in_order p s xs
  exact ⟨fun h => inOrder_length (h2 ▸ h), fun h => inOrder_length (h3 ▸ h)⟩

end Post

/-- A running-sum postprocessor, for the example. -/
def examplePost : Postprocessor ℤ ℤ ℤ where
  fitPartial s x := .ok () (s + x)
  transformPartial s _ := .ok s s

example : examplePost.fitTransform 0 [1, 2, 3] = .ok [1, 3, 6] 6 := by decide

/-! ### C23: `BaseTransformer.fit` -/

/-- The full claim of **C23**: `fit(X)` is `fit_partial` on the rows of `X` in
order. -/
def TransformerFitInOrder : Prop :=
  ∀ (t : Transformer (List ℕ) ℕ ℕ) (s : List ℕ) (X : List ℕ),
    t.fit s X = dropValue (inOrder (fun s x => t.fitPartial s (.row x)) s X)

/-- A transformer that needs the feature vector itself: it stores it. Given a
tuple instead, its arithmetic raises `TypeError`. -/
def storingTransformer : Transformer (List ℕ) ℕ ℕ where
  fitPartial s a := match a with
    | .row x => .ok () (s ++ [x])
    | .pair _ => .err .typeError s
  transformPartial s x := .ok x s
  fitTransformPartial s x := .ok x (s ++ [x])

/-- **C23 is false**: `fit` passes the pair `(x, None)`. -/
theorem C23_transformer_fit_refuted : ¬ TransformerFitInOrder := by
  intro h
  have := h storingTransformer [] [1]
  revert this
  decide

/-- The transformer treats `(x, None)` as `x` (by unwrapping or by ignoring its
argument). -/
def UnwrapsPairs {σ α β : Type*} (t : Transformer σ α β) : Prop :=
  ∀ s x, t.fitPartial s (.pair x) = t.fitPartial s (.row x)

/-- **C23, what holds.** For a transformer that unwraps or ignores the tuple,
`fit` is `fit_partial` on the rows in order; `transform` and `fit_transform` are
in order for every transformer. (Missing: `fit` for the other transformers.) -/
theorem C23_transformer_fit_partial {σ α β : Type*} (t : Transformer σ α β) (s : σ) (X : List α) :
    (UnwrapsPairs t → t.fit s X = dropValue (inOrder (fun s x => t.fitPartial s (.row x)) s X)) ∧
    t.transform s X = inOrder t.transformPartial s X ∧
    t.fitTransform s X = inOrder t.fitTransformPartial s X := by
  refine ⟨?_, ?_, ?_⟩
  · intro h
    unfold Transformer.fit
    rw [iterate_none, Gen.forEach_ofList, forEach_map_unit,
      inOrder_pairs_none (fun s x => t.fitPartial s (.pair x))]
    have : (fun s x => t.fitPartial s (.pair x)) = (fun s x => t.fitPartial s (.row x)) := by
      funext s x; exact h s x
    rw [this]
  · unfold Transformer.transform
    rw [iterate_none, Gen.forEach_ofList, inOrder_pairs_none t.transformPartial]
  · unfold Transformer.fitTransform
    rw [iterate_none, Gen.forEach_ofList, inOrder_pairs_none t.fitTransformPartial]

end Pysad
