import Verif.Model.TransformArray
import Verif.Props.Projection
import Verif.Proofs.Meters

/-! **C117.** `transform` and `fit_transform` of a whole array. -/

namespace Pysad

open Spec

/-- The result of running `f` on the rows one after the other, collecting the numbers each
result consists of: what a caller gets from a loop over the partial method. -/
def Spec.rowByRow {σ α K : Type*} (f : σ → α → Res σ (NdArray K)) (s : σ) (X : List α) :
    Res σ (List (List K)) :=
  (inOrder f s X).map (List.map numbers)

/-- `transform` and `fit_transform` of arrays with `d` columns are the loop over the partial
methods, and every row they return has `w` numbers. -/
def Spec.RowsOfWidth {σ α K : Type*} (t : Transformer σ α (NdArray K)) (outputDims : ℤ)
    (d w : ℕ) (s : σ) (X : List α) : Prop :=
  t.transformArray outputDims d s X = rowByRow t.transformPartial s X ∧
  t.fitTransformArray outputDims d s X = rowByRow t.fitTransformPartial s X ∧
  (∀ rows s', t.transformArray outputDims d s X = .ok rows s' →
    rows.length = X.length ∧ ∀ r ∈ rows, r.length = w) ∧
  (∀ rows s', t.fitTransformArray outputDims d s X = .ok rows s' →
    rows.length = X.length ∧ ∀ r ∈ rows, r.length = w)

/-- Assigning a result with as many numbers as the row is wide copies it. -/
theorem assignRow_width {K : Type*} {w : ℕ} {r : NdArray K}
    (hr : (∃ l, r = .vec l ∧ l.length = w) ∨ (w = 1 ∧ ∃ v, r = .scalar v)) :
    assignRow w r = .ok (numbers r) := by
  rcases hr with ⟨l, rfl, h⟩ | ⟨rfl, v, rfl⟩
  · simp [assignRow, h, numbers]
  · simp [assignRow, numbers]

/-- The shape of a result that fits a row of width `w`. -/
def Spec.Fits {K : Type*} (w : ℕ) (r : NdArray K) : Prop :=
  (∃ l, r = .vec l ∧ l.length = w) ∨ (w = 1 ∧ ∃ v, r = .scalar v)

theorem numbers_fits {K : Type*} {w : ℕ} {r : NdArray K} (h : Fits w r) :
    (numbers r).length = w := by
  rcases h with ⟨l, rfl, h⟩ | ⟨rfl, v, rfl⟩
  · exact h
  · rfl

theorem assign_loop {σ α K : Type*} {f : σ → α → Res σ (NdArray K)} {w : ℕ} {P : σ → Prop}
    (hf : ∀ s x r s', P s → f s x = .ok r s' → Fits w r ∧ P s') (s : σ) (hs : P s) (X : List α) :
    inOrder (fun s x => (f s x).bind fun r s => .ofExcept (assignRow w r) s) s X
        = rowByRow f s X ∧
      ∀ rows s', rowByRow f s X = .ok rows s' → rows.length = X.length ∧
        ∀ r ∈ rows, r.length = w := by
  unfold rowByRow
  induction X generalizing s with
  | nil => simp [inOrder]
  | cons x X ih =>
    simp only [inOrder]
    cases h : f s x with
    | err e s' => simp
    | ok r s' =>
      obtain ⟨h1, h2⟩ := hf s x r s' hs h
      obtain ⟨h3, h4⟩ := ih s' h2
      simp only [Res.bind_ok, assignRow_width h1, Res.ofExcept_ok]
      rw [h3]
      cases h5 : inOrder f s' X with
      | err e s'' => simp
      | ok rs s'' =>
        rw [h5] at h4
        obtain ⟨h6, h7⟩ := h4 _ _ rfl
        simp only [Res.map_ok, List.map_cons, Res.ok.injEq, List.length_cons, true_and]
        rintro rows s3 ⟨rfl, rfl⟩
        refine ⟨by simpa using h6, ?_⟩
        intro r' hr'
        rcases List.mem_cons.1 hr' with rfl | h8
        · exact numbers_fits h1
        · exact h7 _ h8

/-- A transformer all of whose results fit the width. -/
theorem rowsOfWidth {σ α K : Type*} (t : Transformer σ α (NdArray K)) (outputDims : ℤ) (d w : ℕ)
    (hw : outputWidth outputDims d = w) (P : σ → Prop)
    (h1 : ∀ s x r s', P s → t.transformPartial s x = .ok r s' → Fits w r ∧ P s')
    (h2 : ∀ s x r s', P s → t.fitTransformPartial s x = .ok r s' → Fits w r ∧ P s')
    (s : σ) (hs : P s) (X : List α) : RowsOfWidth t outputDims d w s X := by
  subst hw
  have e1 : t.transformArray outputDims d s X = rowByRow t.transformPartial s X := by
    unfold Transformer.transformArray
    rw [iterate_none, Gen.forEach_ofList]
    simp only [pairs, inOrder_map]
    exact (assign_loop h1 s hs X).1
  have e2 : t.fitTransformArray outputDims d s X = rowByRow t.fitTransformPartial s X := by
    unfold Transformer.fitTransformArray
    rw [iterate_none, Gen.forEach_ofList]
    simp only [pairs, inOrder_map]
    exact (assign_loop h2 s hs X).1
  refine ⟨e1, e2, ?_, ?_⟩
  · rw [e1]; exact (assign_loop h1 s hs X).2
  · rw [e2]; exact (assign_loop h2 s hs X).2

theorem map_eq_ok {σ β γ : Type*} {f : β → γ} {q : Res σ β} {c : γ} {s : σ}
    (h : q.map f = .ok c s) : ∃ b, q = .ok b s ∧ c = f b := by
  cases q with
  | err e s' => cases h
  | ok b s' => cases h; exact ⟨b, rfl, rfl⟩

theorem fits_ofFin {K : Type*} {d : ℕ} (x : Fin d → K) : Fits d (Transformer.ofFin x) :=
  Or.inl ⟨_, rfl, by simp⟩

theorem inOrder_map_out {σ ι β γ : Type*} (f : σ → ι → Res σ β) (g : β → γ) (s : σ) (l : List ι) :
    inOrder (fun s x => (f s x).map g) s l = (inOrder f s l).map (List.map g) := by
  induction l generalizing s with
  | nil => rfl
  | cons x l ih =>
    simp only [inOrder]
    cases f s x with
    | err e s' => rfl
    | ok b s' =>
      simp only [Res.map_ok, ih]
      cases inOrder f s' l <;> rfl

theorem rowByRow_mapOut {σ α β K : Type*} (f : σ → α → Res σ β) (g : β → NdArray K) (s : σ)
    (X : List α) : rowByRow (fun s x => (f s x).map g) s X =
      (inOrder f s X).map (List.map fun b => numbers (g b)) := by
  unfold rowByRow
  rw [inOrder_map_out]
  cases inOrder f s X <;> simp [Res.map, Function.comp_def]

/-- `transform` and `fit_transform` of an array whose rows have `d` entries run the partial methods
of `t` on the rows in turn and return, row by row, the entries of the results in their order. -/
def Spec.EntriesInTurn {σ V W : Type*} {d : ℕ} (t : Transformer σ (Fin d → V) (Fin d → W)) (s : σ)
    (X : List (Fin d → V)) : Prop :=
  (t.mapOut Transformer.ofFin).transformArray (-1) d s X =
    (inOrder t.transformPartial s X).map (List.map List.ofFn) ∧
  (t.mapOut Transformer.ofFin).fitTransformArray (-1) d s X =
    (inOrder t.fitTransformPartial s X).map (List.map List.ofFn)

/-- A transformer of arrays of shape `(d,)` into arrays of shape `(d,)`, with the `output_dims`
of the scalers. -/
theorem rowsOfWidth_ofFin {σ V W : Type*} {d : ℕ}
    (t : Transformer σ (Fin d → V) (Fin d → W)) (s : σ) (X : List (Fin d → V)) :
    RowsOfWidth (t.mapOut Transformer.ofFin) (-1) d d s X ∧ EntriesInTurn t s X := by
  have h : RowsOfWidth (t.mapOut Transformer.ofFin) (-1) d d s X := by
    refine rowsOfWidth _ _ _ _ (by simp [outputWidth]) (fun _ => True) ?_ ?_ s trivial X
    all_goals
      intro s x r s' _ h
      obtain ⟨a, -, rfl⟩ := map_eq_ok h
      exact ⟨fits_ofFin a, trivial⟩
  exact ⟨h, h.1.trans (rowByRow_mapOut _ _ _ _), h.2.1.trans (rowByRow_mapOut _ _ _ _)⟩

/-- **C117, scalers.** In any state and for any array. -/
theorem C117_scalers {V K : Type*} [Field K] [LinearOrder K] (sqrt : K → K) (o : NormOrd) (d : ℕ) :
    (∀ (X : List (Fin d → V)), RowsOfWidth
      ((identityScaler (Fin d → V)).mapOut Transformer.ofFin) (-1) d d () X ∧
      EntriesInTurn (identityScaler (Fin d → V)) () X) ∧
    (∀ (X : List (Fin d → K)), RowsOfWidth
      ((instanceStandardScaler sqrt d).mapOut Transformer.ofFin) (-1) d d () X ∧
      EntriesInTurn (instanceStandardScaler sqrt d) () X) ∧
    (∀ (X : List (Fin d → ℝ)), RowsOfWidth
      ((instanceUnitNormScaler o d).mapOut Transformer.ofFin) (-1) d d () X ∧
      EntriesInTurn (instanceUnitNormScaler o d) () X) ∧
    (∀ (s : DecomposerState K d) (X : List (Fin d → K)), RowsOfWidth
      ((seasonalTrendDecomposer K d).mapOut Transformer.ofFin) (-1) d d s X ∧
      EntriesInTurn (seasonalTrendDecomposer K d) s X) :=
  ⟨fun X => rowsOfWidth_ofFin _ _ X, fun X => rowsOfWidth_ofFin _ _ X,
   fun X => rowsOfWidth_ofFin _ _ X, fun s X => rowsOfWidth_ofFin _ s X⟩

/-- **C117, the residual transformer.** It takes series of one column, and returns one column with
the results of the partial methods. -/
theorem C117_modified_stl {K : Type*} [Field K] [LT K] [DecidableLT K]
    (stl : List K → Except PyErr (List K)) (s : StlState K) (X : List (NdArray K)) :
    RowsOfWidth ((modifiedStlTransformer stl).mapOut NdArray.scalar) (-1) 1 1 s X ∧
    ((modifiedStlTransformer stl).mapOut NdArray.scalar).transformArray (-1) 1 s X =
      (inOrder (fun s x => ModifiedStl.transformPartial stl s (.row x)) s X).map
        (List.map fun v => [v]) ∧
    ((modifiedStlTransformer stl).mapOut NdArray.scalar).fitTransformArray (-1) 1 s X =
      (inOrder (fun s x => ModifiedStl.fitTransformPartial stl s (.row x)) s X).map
        (List.map fun v => [v]) := by
  have h : RowsOfWidth ((modifiedStlTransformer stl).mapOut NdArray.scalar) (-1) 1 1 s X := by
    refine rowsOfWidth _ _ _ _ (by simp [outputWidth]) (fun _ => True) ?_ ?_ s trivial X
    all_goals
      intro s x r s' _ h
      obtain ⟨a, -, rfl⟩ := map_eq_ok h
      exact ⟨Or.inr ⟨rfl, a, rfl⟩, trivial⟩
  exact ⟨h, h.1.trans (rowByRow_mapOut _ _ _ _), h.2.1.trans (rowByRow_mapOut _ _ _ _)⟩

/-- **C117, streamhash projections**, with at least one component. -/
theorem C117_streamhash {K : Type*} [Field K] [LinearOrder K] (mmh3 : String → ℕ → ℕ)
    (sqrt : K → K) (n : ℕ) (hn : 1 ≤ n) (density : K) (s : StreamhashState K)
    (h0 : Streamhash.new sqrt n density = .ok s) (d : ℕ) (X : List (List K)) :
    RowsOfWidth (Streamhash.transformer mmh3) n d n s X := by
  have hs : s.nComponents = n := by
    unfold Streamhash.new at h0
    split at h0
    · cases h0
    · cases h0; rfl
  have key : ∀ (s : StreamhashState K) (x : List K) r s', s.nComponents = n →
      Streamhash.transformPartial mmh3 s x = .ok r s' → Fits n r ∧ s'.nComponents = n := by
    intro s x r s' h1 h2
    unfold Streamhash.transformPartial at h2
    rw [if_neg (by omega)] at h2
    cases h2
    refine ⟨?_, h1⟩
    have hl : (Streamhash.dotRows x (Streamhash.matrix mmh3 s x.length)).length = n := by
      simp [Streamhash.dotRows, Streamhash.matrix, h1]
    revert hl
    generalize Streamhash.dotRows x (Streamhash.matrix mmh3 s x.length) = l
    intro hl
    unfold Streamhash.squeeze
    split
    · exact Or.inr ⟨by simpa using hl.symm, _, rfl⟩
    · exact Or.inl ⟨_, rfl, hl⟩
  refine rowsOfWidth _ _ _ _ ?_ (fun s => s.nComponents = n) key ?_ s hs X
  · unfold outputWidth; rw [if_pos (by omega)]; simp
  · intro s x r s' h1 h2
    exact key s x r s' h1 h2

/-- **C117, random projections**, with a given number of components. -/
theorem C117_random {G K : Type*} [Field K] (rng : ProjectionRng G K) (n : ℕ) (hn : 1 ≤ n)
    (hrng : ∀ d g, (rng.draw n d g).1.length = n) (g : G) (d : ℕ) (X : List (List K)) :
    RowsOfWidth ((SkProjector.transformer rng (some n)).mapOut NdArray.vec) n d n g X := by
  refine rowsOfWidth _ _ _ _ ?_ (fun _ => True) ?_ ?_ g trivial X
  · unfold outputWidth; rw [if_pos (by omega)]; simp
  all_goals
    intro s x r s' _ h
    simp only [Transformer.mapOut, SkProjector.transformer, SkProjector.transformPartial,
      SkProjector.components, if_neg (Nat.ne_of_gt hn),
      Transformer.inherited, Res.bind_ok, Res.map_ok, Res.ok.injEq] at h
    obtain ⟨rfl, rfl⟩ := h
    exact ⟨Or.inl ⟨_, rfl, by simp [hrng]⟩, trivial⟩

/-- The number of columns of the result, `w`: `output_dims` if that is positive, else the number
`d` of columns of the input. -/
def Spec.Columns (outputDims : ℤ) (d w : ℕ) : Prop :=
  (0 < outputDims ∧ outputDims = w) ∨ (outputDims ≤ 0 ∧ w = d)

theorem outputWidth_columns {outputDims : ℤ} {d w : ℕ} (h : Columns outputDims d w) :
    outputWidth outputDims d = w := by
  unfold outputWidth
  rcases h with ⟨h1, h2⟩ | ⟨h1, h2⟩
  · rw [if_pos h1, h2]; rfl
  · rw [if_neg (by omega), h2]

/-- What ends up in a row of `w` entries if the result for it is `r`: a vector of `w` numbers is
copied, a bare number or a vector of one number is repeated, any other vector raises. -/
inductive Spec.Written {K : Type*} (w : ℕ) : NdArray K → Except PyErr (List K) → Prop
  | number (v : K) : Written w (.scalar v) (.ok (List.replicate w v))
  | copied (l : List K) : l.length = w → Written w (.vec l) (.ok l)
  | repeated (v : K) : Written w (.vec [v]) (.ok (List.replicate w v))
  | rejected (l : List K) : l.length ≠ w → l.length ≠ 1 → Written w (.vec l) (.error .valueError)

theorem written_assignRow {K : Type*} {w : ℕ} {r : NdArray K} {q : Except PyErr (List K)}
    (h : Written w r q) : assignRow w r = q := by
  cases h with
  | number v => rfl
  | copied l h => simp [assignRow, h]
  | repeated v =>
    simp only [assignRow]
    split
    · rename_i h
      simp only [List.length_singleton] at h
      subst h
      rfl
    · rfl
  | rejected l h h1 =>
    simp only [assignRow, h, if_false]
    match l with
    | [] => rfl
    | [v] => simp at h1
    | _ :: _ :: _ => rfl

theorem inOrder_snoc_assign {σ α K : Type*} {f : σ → α → Res σ (NdArray K)} {w : ℕ}
    {s s' s'' : σ} {X : List α} {rows : List (List K)}
    (hX : inOrder (fun s x => (f s x).bind fun r s => .ofExcept (assignRow w r) s) s X
      = .ok rows s') {x : α} {r : NdArray K} (h : f s' x = .ok r s'')
    {q : Except PyErr (List K)} (hq : Written w r q) :
    inOrder (fun s x => (f s x).bind fun r s => .ofExcept (assignRow w r) s) s (X ++ [x])
      = .ofExcept (q.map fun l => rows ++ [l]) s'' := by
  rw [inOrder_append, hX]
  simp only [inOrder, h, Res.bind_ok, written_assignRow hq]
  cases q with
  | error e => simp [Res.ofExcept, Except.map]
  | ok l => simp [Res.ofExcept, Except.map]

/-- **C117, other transformers.** The row written after any number of earlier ones: a vector of
another length than the output's width raises `ValueError`, unless it has one entry, which is
then repeated over the whole row like a bare number. -/
theorem C117_other {σ α K : Type*} (t : Transformer σ α (NdArray K)) (outputDims : ℤ) (d w : ℕ)
    (hw : Columns outputDims d w) (s s' s'' : σ) (X : List α) (rows : List (List K)) (x : α)
    (r : NdArray K) (q : Except PyErr (List K)) (hq : Written w r q) :
    (t.transformArray outputDims d s X = .ok rows s' → t.transformPartial s' x = .ok r s'' →
      t.transformArray outputDims d s (X ++ [x]) = .ofExcept (q.map fun l => rows ++ [l]) s'') ∧
    (t.fitTransformArray outputDims d s X = .ok rows s' →
      t.fitTransformPartial s' x = .ok r s'' →
      t.fitTransformArray outputDims d s (X ++ [x])
        = .ofExcept (q.map fun l => rows ++ [l]) s'') := by
  constructor
  · intro hX h
    unfold Transformer.transformArray at hX ⊢
    rw [iterate_none, Gen.forEach_ofList, outputWidth_columns hw] at hX ⊢
    simp only [pairs, inOrder_map] at hX ⊢
    exact inOrder_snoc_assign hX h hq
  · intro hX h
    unfold Transformer.fitTransformArray at hX ⊢
    rw [iterate_none, Gen.forEach_ofList, outputWidth_columns hw] at hX ⊢
    simp only [pairs, inOrder_map] at hX ⊢
    exact inOrder_snoc_assign hX h hq

/-- **C117, inherited methods.** A transformer that defines only `fit_partial` and
`transform_partial` fits the instance before it transforms it: the result is that of the fitted
transformer, and if fitting raises nothing is transformed. -/
theorem C117_inherited {σ α β : Type*} (fit : σ → FitArg α → Res σ Unit) (tr : σ → α → Res σ β)
    (s s' : σ) (x : α) :
    (fit s (.row x) = .ok () s' → Transformer.inherited fit tr s x = tr s' x) ∧
    (∀ e, fit s (.row x) = .err e s' → Transformer.inherited fit tr s x = .err e s') := by
  unfold Transformer.inherited
  constructor
  · intro h; rw [h]; rfl
  · intro e h; rw [h]; rfl

/-- Rows of the decomposer keep their width. -/
example : (((seasonalTrendDecomposer ℚ 2).mapOut Transformer.ofFin).fitTransformArray (-1) 2
    (⟨1, 2, [], none, 0⟩ : DecomposerState ℚ 2) [![1, 2], ![3, 4]]).out
    = .ok [[0, 0], [0, 0]] := by decide +kernel

/-- Three columns projected to two. -/
example : (Streamhash.transformer (K := ℚ) fun _ _ => 0).transformArray 2 3 ⟨2, 1, 1⟩ [[1, 2, 3], [0, 1, 0]]
    = .ok [[-6, -6], [-1, -1]] ⟨2, 1, 1⟩ := by decide +kernel

/-- A transformer that returns its sum as a one-element vector fills the row with it. -/
example : (⟨fun s _ => .ok () s, fun s x => .ok (.vec [x.sum]) s, fun s x => .ok (.vec [x.sum]) s⟩ :
    Transformer Unit (List ℚ) (NdArray ℚ)).transformArray (-1) 2 () [[1, 2], [5, 7]]
    = .ok [[3, 3], [12, 12]] () := by decide +kernel

end Pysad
