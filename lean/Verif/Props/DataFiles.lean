import Verif.Model.DataFiles

/-! C109: which files `Data.get_data` can read. -/

namespace Pysad

/-- Is the file a MATLAB file by its extension? -/
def Spec.IsMatName (name : List Char) : Prop := ['.', 'm', 'a', 't'] <:+ name

instance (name : List Char) : Decidable (Spec.IsMatName name) := by
  unfold Spec.IsMatName; infer_instance

/-- What reading a file by its extension means: MATLAB files give the matrix under `X` and the
entries of `y`, text files are split at their last column. -/
def Spec.ReadByExtension {α : Type*} (r : DataReaders α) (base name : List Char)
    (result : Except PyErr (List (List α) × List α)) : Prop :=
  (Spec.IsMatName name → ∀ f X Y, r.loadmat (base ++ '/' :: name) = .ok f → f.X = some X →
    f.y = some Y → result = .ok (X, Y.flatten)) ∧
  (¬ Spec.IsMatName name → ∀ rows d, r.loadtxt (base ++ '/' :: name) = .ok rows →
    2 ≤ rows.length → 2 ≤ d → (∀ row ∈ rows, row.length = d) →
    ∃ X y, result = .ok (X, y) ∧ List.zipWith (fun x l => x ++ [l]) X y = rows)

/-- The full claim of **C109**. -/
def C109_data_statement : Prop :=
  ∀ (r : DataReaders ℕ) (base name : List Char),
    Spec.ReadByExtension r base name (Data.getData r base name)

/-- **C109 is false**: a text file called `a.mat.txt` is handed to the reader of MATLAB files. -/
theorem C109_data_refuted : ¬ C109_data_statement := by
  intro h
  obtain ⟨X, y, h1, -⟩ := (h ⟨fun _ => .error .valueError, fun _ => .ok [[1, 2], [3, 4]]⟩ []
    ['a', '.', 'm', 'a', 't', '.', 't', 'x', 't']).2 (by decide) [[1, 2], [3, 4]] 2 rfl
    (by decide) le_rfl (by simp)
  have : Data.getData (α := ℕ) ⟨fun _ => .error .valueError, fun _ => .ok [[1, 2], [3, 4]]⟩ []
    ['a', '.', 'm', 'a', 't', '.', 't', 'x', 't'] = .error .valueError := by decide
  rw [this] at h1
  cases h1

/-- **C109, what holds.** Every file is read by its extension if its name does not contain `.mat`
elsewhere than at its end. -/
theorem C109_data_partial {α : Type*} (r : DataReaders α) (base name : List Char)
    (hn : ['.', 'm', 'a', 't'] <:+: name → Spec.IsMatName name) :
    Spec.ReadByExtension r base name (Data.getData r base name) := by
  constructor
  · intro h f X Y h1 h2 h3
    simp only [Data.getData, Data.join]
    rw [if_pos (show ['.', 'm', 'a', 't'] <:+: name from List.IsSuffix.isInfix h), h1]
    simp [Except.bind, Data.getDataMat, h2, h3]
  · intro h rows d h1 h2 h3 h4
    simp only [Data.getData, Data.join]
    rw [if_neg (fun h' => h (hn h')), h1]
    have hload : Data.loadViaTxt rows = .matrix rows := by
      match rows, h2 with
      | r1 :: r2 :: rest, _ =>
        have h5 : r1.length ≠ 1 := by have := h4 r1 (by simp); omega
        unfold Data.loadViaTxt
        simp [h5]
    have hlast : ∀ rows : List (List α), (∀ row ∈ rows, row.length = d) →
        ∃ y, rows.mapM List.getLast? = some y ∧
          List.zipWith (fun x l => x ++ [l]) (rows.map List.dropLast) y = rows := by
      intro rows
      induction rows with
      | nil => intro _; exact ⟨[], rfl, rfl⟩
      | cons row rows ih =>
        intro h4
        obtain ⟨y, e1, e2⟩ := ih fun r hr => h4 r (List.mem_cons_of_mem _ hr)
        have hne : row ≠ [] := by
          rintro rfl
          have := h4 [] (by simp)
          simp at this; omega
        refine ⟨row.getLast hne :: y, by simp [List.getLast?_eq_getLast_of_ne_nil hne, e1], ?_⟩
        simp only [List.map_cons, List.zipWith_cons_cons, e2, List.dropLast_append_getLast hne]
    obtain ⟨y, e1, e2⟩ := hlast rows h4
    exact ⟨rows.map List.dropLast, y, by simp [Except.bind, Data.getDataTxt, hload, e1], e2⟩

/-- **C109, what holds.** All data files known to the class are read by their extensions. -/
theorem C109_data_known_partial {α : Type*} (r : DataReaders α) (base name : List Char)
    (hn : name ∈ Data.dataFiles) : Spec.ReadByExtension r base name (Data.getData r base name) := by
  apply C109_data_partial
  revert name
  decide +kernel

/-- **C109.** Instances and labels stay paired: if a MATLAB file has one label per instance,
the results have the same length. -/
theorem C109_data_mat_pairs {α : Type*} (r : DataReaders α) (base name : List Char)
    (hn : Spec.IsMatName name) (f : MatFile α) (X Y : List (List α))
    (hf : r.loadmat (base ++ '/' :: name) = .ok f) (hX : f.X = some X) (hY : f.y = some Y)
    (hlen : Y.length = X.length) (hone : ∀ row ∈ Y, row.length = 1) :
    ∃ y, Data.getData r base name = .ok (X, y) ∧ y.length = X.length ∧ y.map (fun v => [v]) = Y := by
  refine ⟨Y.flatten, ?_, ?_⟩
  · simp only [Data.getData, Data.join]
    rw [if_pos (show ['.', 'm', 'a', 't'] <:+: name from List.IsSuffix.isInfix hn), hf]
    simp [Except.bind, Data.getDataMat, hX, hY]
  · rw [← hlen]
    clear hlen hY hX hf
    induction Y with
    | nil => simp
    | cons row Y ih =>
      obtain ⟨a, rfl⟩ := List.length_eq_one_iff.1 (hone row (by simp))
      have := ih fun r hr => hone r (List.mem_cons_of_mem _ hr)
      simp [this]

example : Data.getData (α := ℕ)
    ⟨fun _ => .ok ⟨some [[1, 2], [3, 4]], some [[0], [1]]⟩, fun _ => .ok [[5, 6, 1], [7, 8, 0]]⟩
    ['d'] ['x', '.', 'm', 'a', 't'] = .ok ([[1, 2], [3, 4]], [0, 1]) := by decide

example : Data.getData (α := ℕ)
    ⟨fun _ => .ok ⟨some [[1, 2], [3, 4]], some [[0], [1]]⟩, fun _ => .ok [[5, 6, 1], [7, 8, 0]]⟩
    ['d'] ['x', '.', 't', 'x', 't'] = .ok ([[5, 6], [7, 8]], [1, 0]) := by decide

end Pysad
