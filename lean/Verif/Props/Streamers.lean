import Verif.Proofs.Base

/-! Properties C25-C29: streamers and data loading. -/

namespace Pysad

open Spec

variable {α β : Type*}

/-- **C25.** Without shuffling, `ArrayStreamer.iter` yields the instances (the
pairs) once each in index order. -/
theorem C25_unshuffled_order {γ : Type*} (r : Rng γ) (g : γ) (X : List α) (y : List β)
    (h : X.length = y.length) :
    (ArrayStreamer.iterX (ArrayStreamer.indices r false g X.length).1 X).toList = .ok X ∧
    (ArrayStreamer.iterXY (ArrayStreamer.indices r false g X.length).1 X y).toList
      = .ok (X.zip y) ∧
    (ArrayStreamer.indices r false g X.length).2 = g := by
  refine ⟨?_, ?_, rfl⟩
  · simp only [ArrayStreamer.indices, Bool.false_eq_true, if_false]
    rw [ArrayStreamer.iterX_eq X _ (by simp), filterMap_range, Gen.toList_ofList]
  · simp only [ArrayStreamer.indices, Bool.false_eq_true, if_false, ArrayStreamer.iterXY, h, ne_eq,
      not_true_eq_false]
    rw [ArrayStreamer.loopXY_eq X y _ h (by simp [h])]
    have := filterMap_range (X.zip y)
    rw [List.length_zip, h, Nat.min_self] at this
    rw [this, Gen.toList_ofList]

/-- A shuffle of `0, ..., n-1` is some rearrangement of it. -/
def Rng.ShufflesFairly {γ : Type*} (r : Rng γ) : Prop := ∀ g l, (r.shuffle g l).1.Perm l

theorem perm_filterMap_getElem {γ : Type*} (l : List γ) (idx : List ℕ)
    (h : idx.Perm (List.range l.length)) : (idx.filterMap fun i => l[i]?).Perm l := by
  have := h.filterMap (fun i => l[i]?)
  rwa [filterMap_range] at this

/-- **C26.** With shuffling, whatever rearrangement the RNG produces, every
instance is yielded exactly once, and with its own label. -/
theorem C26_shuffled_perm {γ : Type*} (r : Rng γ) (hr : r.ShufflesFairly) (g : γ)
    (X : List α) (y : List β) (h : X.length = y.length) :
    (∃ l, (ArrayStreamer.iterX (ArrayStreamer.indices r true g X.length).1 X).toList = .ok l ∧
      l.Perm X) ∧
    (∃ l, (ArrayStreamer.iterXY (ArrayStreamer.indices r true g X.length).1 X y).toList = .ok l ∧
      l.Perm (X.zip y)) := by
  simp only [ArrayStreamer.indices, if_true]
  have hp := hr g (List.range X.length)
  set idx := (r.shuffle g (List.range X.length)).1
  have hlt : ∀ i ∈ idx, i < X.length := fun i hi => by simpa using hp.subset hi
  constructor
  · refine ⟨_, ?_, perm_filterMap_getElem X idx hp⟩
    rw [ArrayStreamer.iterX_eq X idx hlt, Gen.toList_ofList]
  · have hp' : idx.Perm (List.range (X.zip y).length) := by
      rw [List.length_zip, ← h, Nat.min_self]; exact hp
    refine ⟨_, ?_, perm_filterMap_getElem (X.zip y) idx hp'⟩
    simp only [ArrayStreamer.iterXY, h, ne_eq, not_true_eq_false, if_false]
    rw [ArrayStreamer.loopXY_eq X y idx h hlt, Gen.toList_ofList]

/-- An RNG whose every shuffle reverses; it meets the hypothesis of C26. -/
def reversingRng : Rng ℕ := ⟨id, fun g l => (l.reverse, g)⟩

example : reversingRng.ShufflesFairly := fun _ l => List.reverse_perm l
example : (ArrayStreamer.iterXY (ArrayStreamer.indices reversingRng true 0 3).1
    ["a", "b", "c"] [0, 1, 2]).toList = .ok [("c", 2), ("b", 1), ("a", 0)] := by decide

/-- **C26/C21**: with or without shuffling a wrong number of labels raises
`AssertionError` before anything is yielded. -/
theorem C26_mismatch (idx : List ℕ) (X : List α) (y : List β) (h : X.length ≠ y.length) :
    ArrayStreamer.iterXY idx X y = .raise .assertionError := by
  simp [ArrayStreamer.iterXY, h]

/-- **C27.** `PandasStreamer` over frames yields what `ArrayStreamer` yields over
their values, for every order of visit, including the rejection of mismatched
lengths; row labels (the index) are irrelevant. -/
theorem C27_pandas_agrees (idx : List ℕ) (X : PandasStreamer.Frame α) (y : PandasStreamer.Frame β) :
    PandasStreamer.iterX idx X = ArrayStreamer.iterX idx X.values ∧
    PandasStreamer.iterXY idx X y = ArrayStreamer.iterXY idx X.values y.values := by
  constructor
  · simp [PandasStreamer.iterX]
  · unfold PandasStreamer.iterXY
    split
    · rename_i h; rw [C26_mismatch idx _ _ h]
    · simp

example : (PandasStreamer.iterXY [1, 0] (⟨[7, 7], [10, 20]⟩ : PandasStreamer.Frame ℕ)
    (⟨[5, 6], [1, 2]⟩ : PandasStreamer.Frame ℕ)).toList = .ok [(20, 2), (10, 1)] := by decide

/-! ### C28 -/

/-- The full claim of **C28**: every rectangular table with at least one column
is split into features and labels from which it can be rebuilt. -/
def TxtSplitLossless : Prop :=
  ∀ (d : ℕ) (table : List (List ℕ)), (∀ r ∈ table, r.length = d + 1) →
    ∃ X y, Data.getDataTxt table = .ok (X, y) ∧
      List.zipWith (fun x l => x ++ [l]) X y = table

/-- **C28 is false** for a file with a single row: `np.loadtxt` squeezes it to a
vector and `X[:, -1]` raises `IndexError`. -/
theorem C28_txt_split_refuted : ¬ TxtSplitLossless := by
  intro h
  obtain ⟨X, y, h1, _⟩ := h 1 [[1, 2]] (by simp)
  simp [Data.getDataTxt, Data.loadViaTxt] at h1

theorem mapM_getLast? (rows : List (List α)) (h : ∀ r ∈ rows, r ≠ []) :
    ∃ y, rows.mapM List.getLast? = some y ∧ y.length = rows.length ∧
      List.zipWith (fun x l => x ++ [l]) (rows.map List.dropLast) y = rows := by
  induction rows with
  | nil => exact ⟨[], rfl, rfl, rfl⟩
  | cons r rs ih =>
    obtain ⟨y, h1, h2, h3⟩ := ih fun r hr => h r (by simp [hr])
    have hr : r ≠ [] := h r (by simp)
    refine ⟨r.getLast hr :: y, ?_, by simp [h2], ?_⟩
    · simp [List.mapM_cons, List.getLast?_eq_some_getLast hr, h1]
    · simp only [List.map_cons, List.zipWith_cons_cons, h3]
      rw [List.dropLast_append_getLast]

/-- **C28, what holds.** With at least two rows and two columns the split is
lossless: every row is its features followed by its label, and there is one
label per row. (Missing: tables with one row or one column, which are
rejected with `IndexError`, see `C28_txt_small_rejected`.) -/
theorem C28_txt_split_partial (d : ℕ) (table : List (List α)) (hrows : 2 ≤ table.length)
    (h : ∀ r ∈ table, r.length = d + 2) :
    ∃ X y, Data.getDataTxt table = .ok (X, y) ∧ X.length = table.length ∧
      y.length = table.length ∧ (∀ x ∈ X, x.length = d + 1) ∧
      List.zipWith (fun x l => x ++ [l]) X y = table := by
  have hload : Data.loadViaTxt table = .matrix table := by
    match table, hrows with
    | r₁ :: r₂ :: rs, _ =>
      have : ¬ ((r₁ :: r₂ :: rs).all (fun r => r.length == 1) = true) := by
        have := h r₁ (by simp)
        simp [this]
      simp only [Data.loadViaTxt, this, if_false]
      rfl
  obtain ⟨y, h1, h2, h3⟩ := mapM_getLast? table fun r hr h0 => by
    have := h r hr; rw [h0] at this; simp at this
  refine ⟨table.map List.dropLast, y, ?_, by simp, h2, ?_, h3⟩
  · simp [Data.getDataTxt, hload, h1]
  · intro x hx
    obtain ⟨r, hr, rfl⟩ := List.mem_map.1 hx
    simp [h r hr]

/-- Tables with one row or with one column are rejected with `IndexError`. -/
theorem C28_txt_small_rejected (table : List (List α))
    (h : table.length ≤ 1 ∨ ∀ r ∈ table, r.length = 1) :
    Data.getDataTxt table = .error .indexError := by
  match table with
  | [] => rfl
  | [[]] => rfl
  | [[_]] => rfl
  | [_ :: _ :: _] => rfl
  | r₁ :: r₂ :: rs =>
    rcases h with h | h
    · simp at h
    · have : (r₁ :: r₂ :: rs).all (fun r => r.length == 1) = true := by
        rw [List.all_eq_true]; intro r hr; simp [h r hr]
      simp only [Data.getDataTxt, Data.loadViaTxt, this, if_true]

example : Data.getDataTxt [[1, 2, 9], [3, 4, 8]] = .ok ([[1, 2], [3, 4]], [9, 8]) := by decide

/-! ### C29 -/

/-- The full claim of **C29**: the order in which a seeded iterator yields
depends only on the seed, whatever the program does with the RNG (`use`) between
the call of `get_iterator` and the iteration, and whatever it did before. -/
def SeededIteratorReproducible : Prop :=
  ∀ (r : Rng ℕ) (_ : r.ShufflesFairly) (seed g g' : ℕ) (use use' : ℕ → ℕ) (X y : List ℕ),
    let a := Data.getIterator r true (some seed) g (X, y)
    let b := Data.getIterator r true (some seed) g' (X, y)
    (a.1 (use a.2)).1 = (b.1 (use' b.2)).1

/-- A generator that alternates between two orders. -/
def alternatingRng : Rng ℕ := ⟨id, fun g l => (if g % 2 = 0 then l else l.reverse, g + 1)⟩

/-- **C29 is false**: seeding happens at the call, shuffling at the first item. -/
theorem C29_seed_refuted : ¬ SeededIteratorReproducible := by
  intro h
  have hf : alternatingRng.ShufflesFairly := by
    intro g l
    simp only [alternatingRng]
    split
    · exact List.Perm.refl _
    · exact List.reverse_perm _
  have := h alternatingRng hf 0 0 0 id (· + 1) [1, 2] [3, 4]
  revert this
  decide

/-- **C29, what holds.** If nothing uses the RNG between the call and the
iteration, the order is determined by the seed alone, for every RNG; without
shuffling it is the file order. (Missing: programs that use the RNG in
between.) -/
theorem C29_seed_partial {γ : Type*} (r : Rng γ) (seed : ℕ) (g g' : γ) (shuffle : Bool)
    (X : List α) (y : List β) :
    (let a := Data.getIterator r shuffle (some seed) g (X, y)
     let b := Data.getIterator r shuffle (some seed) g' (X, y)
     (a.1 a.2).1 = (b.1 b.2).1) ∧
    (X.length = y.length → ∀ g'' : γ,
      ((Data.getIterator r false (some seed) g (X, y)).1 g'').1.toList = .ok (X.zip y)) := by
  refine ⟨rfl, fun h g'' => ?_⟩
  exact (C25_unshuffled_order r g'' X y h).2.1

end Pysad
