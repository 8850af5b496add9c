import Verif.Model.Pipeline
import Verif.Props.Base

/-! Property C90: batches through a pipeline are the streaming loop. -/

namespace Pysad

open Spec

section
variable {τ σ π α α' β S T : Type*}

/-- Three machines fed one after the other are three passes: the pass of the first, the pass of
the second over its results, the pass of the third over those. -/
theorem inOrder_cascade {ι A B C : Type*} (f : τ → ι → Res τ A) (g : σ → A → ι → Res σ B)
    (h : π → B → Res π C) (round : τ × σ × π → ι → Res (τ × σ × π) C)
    (hround : ∀ s i r s', round s i = .ok r s' ↔ ∃ a b, f s.1 i = .ok a s'.1 ∧
      g s.2.1 a i = .ok b s'.2.1 ∧ h s.2.2 b = .ok r s'.2.2) :
    ∀ (l : List ι) (s s' : τ × σ × π) (out : List C),
      inOrder round s l = .ok out s' ↔ ∃ as bs, inOrder f s.1 l = .ok as s'.1 ∧
        inOrder (fun s (p : A × ι) => g s p.1 p.2) s.2.1 (as.zip l) = .ok bs s'.2.1 ∧
        inOrder h s.2.2 bs = .ok out s'.2.2
  | [], s, s', out => by
    simp only [inOrder, Res.ok.injEq]
    constructor
    · rintro ⟨rfl, rfl⟩
      exact ⟨[], [], ⟨rfl, rfl⟩, rfl, rfl⟩
    · rintro ⟨as, bs, ⟨h0, h1⟩, h2, h3⟩
      subst h0
      simp only [List.zip_nil_left, inOrder, Res.ok.injEq] at h2
      obtain ⟨rfl, h2⟩ := h2
      simp only [inOrder, Res.ok.injEq] at h3
      exact ⟨h3.1, Prod.ext h1 (Prod.ext h2 h3.2)⟩
  | i :: l, s, s', out => by
    have ih := inOrder_cascade f g h round hround l
    constructor
    · intro e
      simp only [inOrder] at e
      cases hr : round s i with
      | err e' t => rw [hr] at e; simp at e
      | ok r t =>
        rw [hr] at e
        simp only at e
        cases hrest : inOrder round t l with
        | err e' u => rw [hrest] at e; simp at e
        | ok rs u =>
          rw [hrest] at e
          simp only [Res.ok.injEq] at e
          obtain ⟨rfl, rfl⟩ := e
          obtain ⟨a, b, h1, h2, h3⟩ := (hround _ _ _ _).1 hr
          obtain ⟨as, bs, k1, k2, k3⟩ := (ih _ _ _).1 hrest
          refine ⟨a :: as, b :: bs, ?_, ?_, ?_⟩
          · simp [inOrder, h1, k1]
          · simp [inOrder, h2, k2]
          · simp [inOrder, h3, k3]
    · rintro ⟨as, bs, k1, k2, k3⟩
      simp only [inOrder] at k1
      cases h1 : f s.1 i with
      | err e t => rw [h1] at k1; simp at k1
      | ok a t1 =>
        rw [h1] at k1
        simp only at k1
        cases k1' : inOrder f t1 l with
        | err e t => rw [k1'] at k1; simp at k1
        | ok as' u1 =>
          rw [k1'] at k1
          simp only [Res.ok.injEq] at k1
          obtain ⟨rfl, rfl⟩ := k1
          simp only [List.zip_cons_cons, inOrder] at k2
          cases h2 : g s.2.1 a i with
          | err e t => rw [h2] at k2; simp at k2
          | ok b t2 =>
            rw [h2] at k2
            simp only at k2
            cases k2' : inOrder (fun s (p : A × ι) => g s p.1 p.2) t2 (as'.zip l) with
            | err e t => rw [k2'] at k2; simp at k2
            | ok bs' u2 =>
              rw [k2'] at k2
              simp only [Res.ok.injEq] at k2
              obtain ⟨rfl, k2⟩ := k2
              simp only [inOrder] at k3
              cases h3 : h s.2.2 b with
              | err e t => rw [h3] at k3; simp at k3
              | ok r t3 =>
                rw [h3] at k3
                simp only at k3
                cases k3' : inOrder h t3 bs' with
                | err e t => rw [k3'] at k3; simp at k3
                | ok rs u3 =>
                  rw [k3'] at k3
                  simp only [Res.ok.injEq] at k3
                  obtain ⟨rfl, k3⟩ := k3
                  have hr : round s i = .ok r (t1, t2, t3) :=
                    (hround _ _ _ _).2 ⟨a, b, h1, h2, h3⟩
                  have hrest : inOrder round (t1, t2, t3) l = .ok rs s' :=
                    (ih _ _ _).2 ⟨as', bs', k1', by rw [k2', k2], by rw [k3', k3]⟩
                  simp [inOrder, hr, hrest]

theorem zip_pairs (X : List α) (X' : List α') (y : Option (List β)) (h : WellFormed X y)
    (hl : X'.length = X.length) :
    (X'.zip (pairs X y)).map (fun p => (p.1, p.2.2)) = pairs X' y := by
  cases y with
  | none =>
    simp only [pairs]
    induction X' generalizing X with
    | nil => rfl
    | cons x' X' ih =>
      cases X with
      | nil => simp at hl
      | cons x X => simp [ih X (by simpa using hl) trivial]
  | some y =>
    simp only [pairs, WellFormed] at h ⊢
    induction X' generalizing X y with
    | nil => rfl
    | cons x' X' ih =>
      cases X with
      | nil => simp at hl
      | cons x X =>
        cases y with
        | nil => simp at h
        | cons b y => simp [ih X (by simpa using hl) y (by simpa using h)]

theorem inOrder_over_map {ι κ A : Type*} (f : σ → κ → Res σ A) (m : ι → κ) (s : σ) (l : List ι) :
    inOrder f s (l.map m) = inOrder (fun s i => f s (m i)) s l := by
  induction l generalizing s with
  | nil => rfl
  | cons i l ih =>
    simp only [List.map_cons, inOrder]
    cases f s (m i) with
    | err e t => rfl
    | ok a t => simp only [ih]

/-- **C90.** For every preprocessor, model and postprocessor (with separate states), dataset and
labels: the batch calls return certain scores and leave the three objects in certain states if
and only if the instance-by-instance loop does. -/
theorem C90_pipeline (t : Transformer τ α α') (d : Detector σ α' β S) (p : Postprocessor π S T)
    (s s' : τ × σ × π) (X : List α) (y : Option (List β)) (h : WellFormed X y) (out : List T) :
    Pipeline.batch t d p s X y = .ok out s' ↔ Pipeline.stream t d p s X y = .ok out s' := by
  obtain ⟨sa, sb, sc⟩ := s
  have hstream : Pipeline.stream t d p (sa, sb, sc) X y
      = inOrder (Pipeline.round t d p) (sa, sb, sc) (pairs X y) := by
    unfold Pipeline.stream
    rw [iterate_wf X y h, Gen.forEach_ofList]
  rw [hstream, inOrder_cascade (fun s (q : α × Option β) => t.fitTransformPartial s q.1)
    (fun s a q => d.fitScorePartial s a q.2) p.fitTransformPartial]
  · have h1 : ∀ s, t.fitTransform s X
        = inOrder (fun s (q : α × Option β) => t.fitTransformPartial s q.1) s (pairs X y) := by
      intro s
      rw [(C23_transformer_fit_partial t s X).2.2]
      have : X = (pairs X y).map Prod.fst := by
        cases y with
        | none =>
          simp only [pairs, List.map_map]
          exact (List.map_id _).symm
        | some y =>
          simp only [WellFormed] at h
          simp only [pairs]
          rw [List.map_fst_zip (by simp [h])]
      conv_lhs => rw [this]
      rw [inOrder_over_map]
    have h2 : ∀ s (X' : List α'), X'.length = X.length → d.fitScore s X' y
        = inOrder (fun s (q : α' × (α × Option β)) => d.fitScorePartial s q.1 q.2.2) s
          (X'.zip (pairs X y)) := by
      intro s X' hl
      have hw : WellFormed X' y := by
        cases y with
        | none => trivial
        | some y => simp only [WellFormed] at h ⊢; omega
      unfold Detector.fitScore
      rw [iterate_wf X' y hw, Gen.forEach_ofList, ← zip_pairs X X' y h hl, inOrder_over_map]
    have h3 : ∀ s (l : List S), p.fitTransform s l = inOrder p.fitTransformPartial s l := by
      intro s l
      unfold Postprocessor.fitTransform
      rw [iterate_none, Gen.forEach_ofList, inOrder_pairs_none p.fitTransformPartial]
    have hlen : (pairs X y).length = X.length := by
      cases y with
      | none => simp [pairs]
      | some y => simp only [WellFormed] at h; simp [pairs, h]
    unfold Pipeline.batch
    constructor
    · intro e
      cases e1 : t.fitTransform sa X with
      | err x u => simp [e1] at e
      | ok X' u =>
        simp only [e1, Res.mapState_ok, Res.bind_ok] at e
        have hl : X'.length = X.length := by rw [h1] at e1; rw [inOrder_length e1, hlen]
        cases e2 : d.fitScore sb X' y with
        | err x v => simp [e2] at e
        | ok scs v =>
          simp only [e2, Res.mapState_ok, Res.bind_ok] at e
          cases e3 : p.fitTransform sc scs with
          | err x w => simp [e3] at e
          | ok o w =>
            simp only [e3, Res.mapState_ok, Res.ok.injEq] at e
            obtain ⟨rfl, rfl⟩ := e
            exact ⟨X', scs, by rw [← h1]; exact e1, by rw [← h2 _ _ hl]; exact e2,
              by rw [← h3]; exact e3⟩
    · rintro ⟨X', scs, e1, e2, e3⟩
      have hl : X'.length = X.length := by rw [inOrder_length e1, hlen]
      rw [← h1] at e1
      simp only at e2
      rw [← h2 _ _ hl] at e2
      rw [← h3] at e3
      simp only at e1 e2 e3
      simp [e1, e2, e3]
  · rintro ⟨a, b, c⟩ ⟨x, yi⟩ r ⟨a', b', c'⟩
    simp only [Pipeline.round]
    constructor
    · intro e
      cases e1 : t.fitTransformPartial a x with
      | err e' u => simp [e1] at e
      | ok x' u =>
        simp only [e1, Res.mapState_ok, Res.bind_ok] at e
        cases e2 : d.fitScorePartial b x' yi with
        | err e' v => simp [e2] at e
        | ok sc v =>
          simp only [e2, Res.mapState_ok, Res.bind_ok] at e
          cases e3 : p.fitTransformPartial c sc with
          | err e' w => simp [e3] at e
          | ok o w =>
            simp only [e3, Res.mapState_ok, Res.ok.injEq, Prod.mk.injEq] at e
            obtain ⟨rfl, rfl, rfl, rfl⟩ := e
            exact ⟨x', sc, rfl, e2, e3⟩
    · rintro ⟨x', sc, e1, e2, e3⟩
      simp [e1, e2, e3]

/-- **C90**, for exceptions: the batch calls raise if and only if the loop does. -/
theorem C90_pipeline_raises (t : Transformer τ α α') (d : Detector σ α' β S)
    (p : Postprocessor π S T) (s : τ × σ × π) (X : List α) (y : Option (List β))
    (h : WellFormed X y) :
    (∃ e s', Pipeline.batch t d p s X y = .err e s') ↔
      ∃ e s', Pipeline.stream t d p s X y = .err e s' := by
  have key := fun s' out => C90_pipeline t d p s s' X y h out
  cases hb : Pipeline.batch t d p s X y with
  | ok o u =>
    have := (key u o).1 hb
    simp [this]
  | err e u =>
    cases hs : Pipeline.stream t d p s X y with
    | ok o v => have := (key v o).2 hs; rw [hb] at this; cases this
    | err e' v => exact ⟨fun _ => ⟨e', v, rfl⟩, fun _ => ⟨e, u, rfl⟩⟩

/-- **C90**, ensembles. Scoring each instance with several models in turn returns if and only if
each model's own `fit_score` over the dataset does; the scores of model `k` are the `k`-th
entries of the rows. -/
theorem C90_ensemble (ds : List (Detector σ α β S)) (ss : List σ) (hl : ss.length = ds.length)
    (X : List α) (y : Option (List β)) (h : WellFormed X y) (ss' : List σ)
    (rows : List (List S)) :
    Pipeline.ensembleRows ds ss X y = .ok rows ss' ↔
      rows.length = X.length ∧ (∀ row ∈ rows, row.length = ds.length) ∧
      ss'.length = ds.length ∧
      ∀ (k : ℕ) (d : Detector σ α β S) (s : σ), ds[k]? = some d → ss[k]? = some s →
        ∃ (s' : σ) (col : List S), ss'[k]? = some s' ∧ d.fitScore s X y = .ok col s' ∧
          col.map some = rows.map fun row => row[k]? := by
  have hone : ∀ (ds : List (Detector σ α β S)) (ss : List σ) (q : α × Option β) (row : List S)
      (ss' : List σ), ss.length = ds.length →
      (Pipeline.modelScores ds ss q = .ok row ss' ↔ row.length = ds.length ∧
        ss'.length = ds.length ∧ ∀ (k : ℕ) (d : Detector σ α β S) (s : σ), ds[k]? = some d →
          ss[k]? = some s → ∃ (s' : σ) (r : S), ss'[k]? = some s' ∧ row[k]? = some r ∧
            d.fitScorePartial s q.1 q.2 = .ok r s') := by
    intro ds
    induction ds with
    | nil =>
      intro ss q row ss' hl
      have : ss = [] := by simpa using hl
      subst this
      simp only [Pipeline.modelScores, Res.ok.injEq, List.length_nil]
      constructor
      · rintro ⟨rfl, rfl⟩; simp
      · rintro ⟨h1, h2, -⟩
        exact ⟨(List.length_eq_zero_iff.1 h1).symm, (List.length_eq_zero_iff.1 h2).symm⟩
    | cons d ds ih =>
      intro ss q row ss' hl
      cases ss with
      | nil => simp at hl
      | cons s ss =>
        have hl' : ss.length = ds.length := by simpa using hl
        simp only [Pipeline.modelScores]
        constructor
        · intro e
          cases e1 : d.fitScorePartial s q.1 q.2 with
          | err x u => simp [e1] at e
          | ok r u =>
            simp only [e1, Res.mapState_ok, Res.bind_ok] at e
            cases e2 : Pipeline.modelScores ds ss q with
            | err x v => simp [e2] at e
            | ok rs v =>
              simp only [e2, Res.mapState_ok, Res.map_ok, Res.ok.injEq] at e
              obtain ⟨rfl, rfl⟩ := e
              obtain ⟨h1, h2, h3⟩ := (ih ss q rs v hl').1 e2
              refine ⟨by simp [h1], by simp [h2], ?_⟩
              intro k d' s' hd hs
              cases k with
              | zero =>
                simp only [List.getElem?_cons_zero, Option.some.injEq] at hd hs
                subst hd hs
                exact ⟨u, r, rfl, rfl, e1⟩
              | succ k => exact h3 k d' s' hd hs
        · rintro ⟨h1, h2, h3⟩
          cases row with
          | nil => simp at h1
          | cons r row =>
            cases ss' with
            | nil => simp at h2
            | cons u ss' =>
              obtain ⟨u', r', hu, hr, e1⟩ := h3 0 d s rfl rfl
              simp only [List.getElem?_cons_zero, Option.some.injEq] at hu hr
              subst hu hr
              have e2 := (ih ss q row ss' hl').2 ⟨by simpa using h1, by simpa using h2,
                fun k d' s' hd hs => h3 (k + 1) d' s' hd hs⟩
              simp [e1, e2]
  have hfs : ∀ (d : Detector σ α β S) s, d.fitScore s X y
      = inOrder (fun s p => d.fitScorePartial s p.1 p.2) s (pairs X y) := by
    intro d s
    unfold Detector.fitScore
    rw [iterate_wf X y h, Gen.forEach_ofList]
  have hlen : (pairs X y).length = X.length := by
    cases y with
    | none => simp [pairs]
    | some y => simp only [WellFormed] at h; simp [pairs, h]
  unfold Pipeline.ensembleRows
  rw [iterate_wf X y h, Gen.forEach_ofList, ← hlen]
  simp only [hfs]
  generalize pairs X y = l
  clear hfs hlen h
  induction l generalizing ss ss' rows with
  | nil =>
    simp only [inOrder, Res.ok.injEq, List.length_nil]
    constructor
    · rintro ⟨rfl, rfl⟩
      refine ⟨rfl, by simp, hl, ?_⟩
      intro k d s _ hs
      exact ⟨s, [], hs, ⟨rfl, rfl⟩, rfl⟩
    · rintro ⟨h1, -, h2, h3⟩
      refine ⟨(List.length_eq_zero_iff.1 h1).symm, ?_⟩
      apply List.ext_getElem?
      intro k
      cases hs : ss[k]? with
      | none =>
        rw [List.getElem?_eq_none_iff] at hs
        rw [eq_comm, List.getElem?_eq_none_iff]
        omega
      | some s =>
        have hk : k < ds.length := by
          have := (List.getElem?_eq_some_iff.1 hs).1; omega
        obtain ⟨s', col, e1, e2, -⟩ := h3 k _ s (List.getElem?_eq_getElem hk) hs
        rw [e1, e2.2]
  | cons q l ih =>
    constructor
    · intro e
      simp only [inOrder] at e
      cases e1 : Pipeline.modelScores ds ss q with
      | err x u => rw [e1] at e; simp at e
      | ok row u =>
        rw [e1] at e
        simp only at e
        cases e2 : inOrder (Pipeline.modelScores ds) u l with
        | err x v => rw [e2] at e; simp at e
        | ok rows' v =>
          rw [e2] at e
          simp only [Res.ok.injEq] at e
          obtain ⟨rfl, rfl⟩ := e
          obtain ⟨a1, a2, a3⟩ := (hone ds ss q row u hl).1 e1
          obtain ⟨b1, b2, b3, b4⟩ := (ih u a2 v rows').1 e2
          refine ⟨by simp [b1], ?_, b3, ?_⟩
          · intro row' hr
            rcases List.mem_cons.1 hr with rfl | hr
            · exact a1
            · exact b2 _ hr
          · intro k d s hd hs
            obtain ⟨t, r, c1, c2, c3⟩ := a3 k d s hd hs
            obtain ⟨s', col, f1, f2, f3⟩ := b4 k d t hd c1
            refine ⟨s', r :: col, f1, ?_, ?_⟩
            · simp [inOrder, c3, f2]
            · simp [c2, f3]
    · rintro ⟨h1, h2, h3, h4⟩
      cases rows with
      | nil => simp at h1
      | cons row rows =>
        have hmid : ∀ k, k < ds.length → ∃ t : σ, ∀ (d : Detector σ α β S) (s : σ),
            ds[k]? = some d → ss[k]? = some s →
            ∃ (s' : σ) (r : S) (col : List S), ss'[k]? = some s' ∧ d.fitScorePartial s q.1 q.2 = .ok r t ∧
              row[k]? = some r ∧
              inOrder (fun s p => d.fitScorePartial s p.1 p.2) t l = .ok col s' ∧
              col.map some = rows.map fun row => row[k]? := by
          intro k hk
          obtain ⟨s', col, e1, e2, e3⟩ := h4 k ds[k] ss[k] (List.getElem?_eq_getElem hk)
            (List.getElem?_eq_getElem (by omega))
          simp only [inOrder] at e2
          cases f1 : ds[k].fitScorePartial ss[k] q.1 q.2 with
          | err x u => rw [f1] at e2; simp at e2
          | ok r t =>
            rw [f1] at e2
            simp only at e2
            cases f2 : inOrder (fun s p => ds[k].fitScorePartial s p.1 p.2) t l with
            | err x u => rw [f2] at e2; simp at e2
            | ok col' v =>
              rw [f2] at e2
              simp only [Res.ok.injEq] at e2
              obtain ⟨rfl, rfl⟩ := e2
              simp only [List.map_cons, List.cons.injEq] at e3
              refine ⟨t, ?_⟩
              intro d s hd hs
              rw [List.getElem?_eq_getElem hk] at hd
              rw [List.getElem?_eq_getElem (by omega)] at hs
              cases hd; cases hs
              exact ⟨v, r, col', e1, f1, e3.1.symm, f2, e3.2⟩
        choose mid hm using hmid
        let u : List σ := List.ofFn fun k : Fin ds.length => mid k k.2
        have hu : ∀ k (hk : k < ds.length), u[k]? = some (mid k hk) := by
          intro k hk
          simp [u, hk]
        have e1 : Pipeline.modelScores ds ss q = .ok row u := by
          rw [hone ds ss q row u hl]
          refine ⟨h2 row (by simp), by simp [u], ?_⟩
          intro k d s hd hs
          have hk := (List.getElem?_eq_some_iff.1 hd).1
          obtain ⟨s', r, col, -, a, b, -⟩ := hm k hk d s hd hs
          exact ⟨mid k hk, r, hu k hk, b, a⟩
        have e2 : inOrder (Pipeline.modelScores ds) u l = .ok rows ss' := by
          refine (ih u (by simp [u]) ss' rows).2 ?_
          refine ⟨by simpa using h1, fun r hr => h2 r (by simp [hr]), h3, ?_⟩
          intro k d t hd ht
          have hk := (List.getElem?_eq_some_iff.1 hd).1
          rw [hu k hk] at ht
          cases ht
          obtain ⟨s', r, col, a, -, -, b, c⟩ := hm k hk d ss[k] hd
            (List.getElem?_eq_getElem (by omega))
          exact ⟨s', col, a, b, c⟩
        simp [inOrder, e1, e2]

end

/-- A scaler that subtracts the number of instances seen, for the examples. -/
def exampleTransformer : Transformer ℤ ℤ ℤ where
  fitPartial s _ := .ok () (s + 1)
  transformPartial s x := .ok (x - s) s
  fitTransformPartial s x := .ok (x - (s + 1)) (s + 1)

/-! A pipeline that returns, one that raises at the third instance. -/
example : Pipeline.batch exampleTransformer exampleDetector examplePost (0, 0, 0) [1, 4, 9]
    (some [0, 1, 0]) = .ok [0, 0, -2] (3, 8, -2) := by decide
example : Pipeline.stream exampleTransformer exampleDetector examplePost (0, 0, 0) [1, 4, 0]
    none = .err .valueError (3, 2, 0) := by decide
/-! Two models over three instances. -/
example : Pipeline.ensembleRows [exampleDetector, exampleDetector] [0, 5] [1, 2, 3] none
    = .ok [[0, -5], [-1, -6], [-3, -8]] [6, 11] := by decide

end Pysad
