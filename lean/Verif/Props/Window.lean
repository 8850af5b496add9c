import Verif.Model.Window
import Verif.Proofs.Lists

/-! Properties C01-C03: `pysad/utils/window.py`. -/

namespace Pysad

open Spec

variable {α : Type*}

/-- **C01.** After any history of updates, `Window(w).get()` is the list of the
last `w` items, oldest first. -/
theorem C01_window_last (w : ℕ) (xs : List α) :
    ((Window.new w).updates xs).get = lastN w xs := by
  suffices h : ((Window.new w).updates xs : Window α) = ⟨w, lastN w xs⟩ by rw [h]; rfl
  induction xs using List.reverseRecOn with
  | nil => simp [Window.updates, Window.new]
  | append_singleton xs x ih =>
    unfold Window.updates at ih ⊢
    rw [List.foldl_append, ih, List.foldl_cons, List.foldl_nil, lastN_snoc]
    unfold Window.update
    simp only
    split <;> rfl

/-- **C01**, restated by position: the stored list has `min w n` items and its
`i`-th item from the end is the `i`-th item from the end of the history. -/
theorem C01_window_positions (w : ℕ) (xs : List α) :
    ((Window.new w).updates xs).get.length = min w xs.length ∧
    ∀ i < min w xs.length,
      ((Window.new w).updates xs).get.reverse[i]? = xs.reverse[i]? := by
  rw [C01_window_last]
  refine ⟨lastN_length w xs, ?_⟩
  intro i hi
  have hl := lastN_length w xs
  have hs := lastN_suffix w xs
  have hp : (lastN w xs).reverse <+: xs.reverse := List.reverse_prefix.2 hs
  have : i < (lastN w xs).reverse.length := by simpa [hl] using hi
  obtain ⟨t, ht⟩ := hp
  rw [← ht, List.getElem?_append_left this]

/-- A window is never larger than its size, at any point of any history. -/
theorem C01_window_bounded (w : ℕ) (xs : List α) :
    ((Window.new w).updates xs).get.length ≤ w := by
  rw [C01_window_last, lastN_length]; omega

example : ((Window.new 3).updates [1, 2, 3, 4, 5]).get = [3, 4, 5] := by decide
example : ((Window.new 0).updates [1, 2, 3]).get = [] := by decide

/-- **C02.** `UnlimitedWindow().get()` is the whole history in order. -/
theorem C02_unlimited_all (xs : List α) :
    ((UnlimitedWindow.new).updates xs).get = xs := by
  suffices h : ∀ (xs : List α) (s : UnlimitedWindow α), (s.updates xs).window = s.window ++ xs by
    simpa [UnlimitedWindow.new, UnlimitedWindow.get] using h xs UnlimitedWindow.new
  intro xs
  induction xs with
  | nil => intro s; simp [UnlimitedWindow.updates]
  | cons x xs ih =>
    intro s
    have := ih (s.update x)
    simp only [UnlimitedWindow.updates, List.foldl_cons] at this ⊢
    rw [this]
    simp [UnlimitedWindow.update]

example : ((UnlimitedWindow.new).updates [1, 2, 3]).get = [1, 2, 3] := by decide

/-! ### C03: the list handed out by `get` -/

/-- The full claim of **C03**: a list obtained from `get()` keeps its contents
whatever is added to the window later. -/
def SnapshotStable : Prop :=
  ∀ (w : ℕ) (st0 : ListStore ℕ) (xs ys : List ℕ),
    let a := (WindowRef.new st0 w).1.updates (WindowRef.new st0 w).2 xs
    let snapshot := a.1.get
    (a.1.updates a.2 ys).2.contents snapshot = a.2.contents snapshot

/-- **C03 is false**: the list returned after one update changes at the next. -/
theorem C03_snapshot_refuted : ¬ SnapshotStable := by
  intro h
  have := h 2 ⟨0, fun _ => []⟩ [1] [2]
  revert this
  decide

private theorem updates_frozen (r : ℕ) : ∀ (ys : List α) (w : WindowRef) (st : ListStore α),
    w.ref ≠ r → r < st.next → (w.updates st ys).2.contents r = st.contents r := by
  intro ys
  induction ys with
  | nil => intro w st _ _; rfl
  | cons y ys ih =>
    intro w st hne hlt
    simp only [WindowRef.updates]
    unfold WindowRef.update
    simp only
    split
    · rw [ih _ _ (by simp; omega) (by simp; omega)]
      simp [Function.update, hlt.ne, Ne.symm hne]
    · rw [ih w ⟨st.next, Function.update st.contents w.ref (st.contents w.ref ++ [y])⟩ hne hlt]
      simp [Function.update, Ne.symm hne]

private theorem updates_snapshot : ∀ (ys : List α) (w : WindowRef) (st : ListStore α),
    w.ref < st.next → (st.contents w.ref).length ≤ w.windowSize →
    (w.updates st ys).2.contents w.ref =
      st.contents w.ref ++ ys.take (w.windowSize + 1 - (st.contents w.ref).length) := by
  intro ys
  induction ys with
  | nil => intro w st _ _; simp [WindowRef.updates]
  | cons y ys ih =>
    intro w st hlt hle
    simp only [WindowRef.updates]
    unfold WindowRef.update
    simp only [List.length_append, List.length_cons, List.length_nil]
    split
    · rename_i hgt
      rw [updates_frozen _ _ _ _ (by simp; omega) (by simp; omega)]
      have : w.windowSize + 1 - (st.contents w.ref).length = 1 := by omega
      simp [this, hlt.ne]
    · rename_i hgt
      rw [ih w ⟨st.next, Function.update st.contents w.ref (st.contents w.ref ++ [y])⟩ hlt
        (by simp; omega)]
      simp only [Function.update_self, List.length_append, List.length_cons, List.length_nil]
      have : w.windowSize + 1 - (st.contents w.ref).length
          = (w.windowSize + 1 - ((st.contents w.ref).length + 1)) + 1 := by omega
      rw [this, List.take_succ_cons]
      simp

private theorem updates_inv : ∀ (ys : List α) (w : WindowRef) (st : ListStore α),
    w.ref < st.next →
    (w.updates st ys).1.ref < (w.updates st ys).2.next ∧
    (w.updates st ys).1.windowSize = w.windowSize ∧
    (w.updates st ys).2.contents (w.updates st ys).1.ref =
      ((⟨w.windowSize, st.contents w.ref⟩ : Window α).updates ys).get := by
  intro ys
  induction ys with
  | nil => intro w st h; exact ⟨h, rfl, rfl⟩
  | cons y ys ih =>
    intro w st h
    simp only [WindowRef.updates]
    have hk : (w.update st y).1.ref < (w.update st y).2.next ∧
        (w.update st y).1.windowSize = w.windowSize ∧
        (w.update st y).2.contents (w.update st y).1.ref =
          ((⟨w.windowSize, st.contents w.ref⟩ : Window α).update y).window := by
      unfold WindowRef.update Window.update
      simp only
      split
      · simp
      · exact ⟨h, rfl, by simp⟩
    obtain ⟨h1, h2, h3⟩ := hk
    obtain ⟨g1, g2, g3⟩ := ih _ _ h1
    refine ⟨g1, by rw [g2, h2], ?_⟩
    rw [g3, h2, h3]
    have : ((⟨w.windowSize, st.contents w.ref⟩ : Window α).update y).windowSize = w.windowSize := by
      unfold Window.update; simp only; split <;> rfl
    unfold Window.updates
    rw [List.foldl_cons]
    congr 2
    generalize hu : (⟨w.windowSize, st.contents w.ref⟩ : Window α).update y = u at this ⊢
    cases u
    simp only at this
    rw [this]

/-- **C03, what holds.** The list returned by `get()` after the updates `xs`
holds the last `w` items at that moment. After further updates `ys` it holds
those items followed by the first few items of `ys`: as many as are needed to
reach `w + 1` items. So it changes at the very next update, and it is frozen
once it has `w + 1` items. -/
theorem C03_snapshot_partial (w : ℕ) (st0 : ListStore α) (xs ys : List α) :
    let a := (WindowRef.new st0 w).1.updates (WindowRef.new st0 w).2 xs
    let snapshot := a.1.get
    a.2.contents snapshot = lastN w xs ∧
    (a.1.updates a.2 ys).2.contents snapshot
      = lastN w xs ++ ys.take (w + 1 - min w xs.length) := by
  intro a snapshot
  have hinv := updates_inv xs (WindowRef.new st0 w).1 (WindowRef.new st0 w).2
    (by simp [WindowRef.new])
  obtain ⟨h1, h2, h3⟩ := hinv
  have hc : a.2.contents snapshot = lastN w xs := by
    refine h3.trans ?_
    have := C01_window_last w xs
    simpa [WindowRef.new, Window.new] using this
  refine ⟨hc, ?_⟩
  have hw : a.1.windowSize = w := h2
  have hs : snapshot = a.1.ref := rfl
  have := updates_snapshot ys a.1 a.2 h1 (by
    rw [← hs, hc, lastN_length, hw]; omega)
  rw [← hs, hc, lastN_length, hw] at this
  exact this

example :
    let a := (WindowRef.new (⟨0, fun _ => []⟩ : ListStore ℕ) 2).1.updates
      (WindowRef.new ⟨0, fun _ => []⟩ 2).2 [1, 2, 3]
    (a.1.updates a.2 [4, 5, 6]).2.contents a.1.get = [2, 3, 4] := by decide

end Pysad
