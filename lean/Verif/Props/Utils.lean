import Verif.Model.Utils
import Verif.Proofs.Statistics
import Mathlib.Order.Bounds.Basic

/-! C95: the boundaries computed by `get_minmax_array` and `get_minmax_scalar`. -/

namespace Pysad

open Spec

section
variable {K : Type*} [LinearOrder K]

theorem npMin_cons_isLeast (x : K) (xs : List K) :
    IsLeast {v | v ∈ x :: xs} (xs.foldl (fun m y => if y < m then y else m) x) := by
  have h := npMin_isMin (x :: xs)
  simp only [npMin, IsLeastOf, Multiset.mem_coe] at h
  exact ⟨h.1, fun y hy => h.2 y hy⟩

theorem npMax_cons_isGreatest (x : K) (xs : List K) :
    IsGreatest {v | v ∈ x :: xs} (xs.foldl (fun m y => if m < y then y else m) x) := by
  have h := npMax_isMax (x :: xs)
  simp only [npMax, IsGreatestOf, Multiset.mem_coe] at h
  exact ⟨h.1, fun y hy => h.2 y hy⟩

/-- **C95 (scalar).** On every array with at least one entry `get_minmax_scalar` returns the least
and the greatest entry. -/
theorem C95_minmax_scalar (x : List K) (hx : x ≠ []) :
    ∃ lo hi, Utils.getMinmaxScalar x = .ok (lo, hi) ∧ IsLeast {v | v ∈ x} lo ∧
      IsGreatest {v | v ∈ x} hi := by
  cases x with
  | nil => exact absurd rfl hx
  | cons a as => exact ⟨_, _, rfl, npMin_cons_isLeast a as, npMax_cons_isGreatest a as⟩

/-- **C95 (scalar, no entries).** -/
theorem C95_minmax_scalar_empty : Utils.getMinmaxScalar ([] : List K) = .error .valueError := rfl

/-- **C95 (array).** On every array with at least one instance `get_minmax_array` returns, for
each feature, the least and the greatest value the feature takes in the array. -/
theorem C95_minmax_array {d : ℕ} (X : List (Fin d → K)) (hX : X ≠ []) :
    ∃ lo hi, Utils.getMinmaxArray X = .ok (lo, hi) ∧
      ∀ i, IsLeast {v | ∃ r ∈ X, r i = v} (lo i) ∧ IsGreatest {v | ∃ r ∈ X, r i = v} (hi i) := by
  cases X with
  | nil => exact absurd rfl hX
  | cons a as =>
    refine ⟨_, _, rfl, fun i => ?_⟩
    have hs : {v | ∃ r ∈ a :: as, r i = v} = {v | v ∈ a i :: as.map fun r => r i} := by
      ext v
      simp only [Set.mem_setOf_eq, List.mem_cons, List.mem_map, exists_eq_or_imp]
      rw [eq_comm]
    rw [hs]
    exact ⟨npMin_cons_isLeast _ _, npMax_cons_isGreatest _ _⟩

/-- **C95 (array, no instances).** -/
theorem C95_minmax_array_empty {d : ℕ} (hd : 0 < d) :
    Utils.getMinmaxArray ([] : List (Fin d → K)) = .error .valueError := by
  simp [Utils.getMinmaxArray, hd.ne']

/-- **C95 (streaming).** The boundaries of two arrays put together are the least of the lower and
the greatest of the upper boundaries: they can be kept up to date one array at a time. -/
theorem C95_minmax_append {d : ℕ} (X Y : List (Fin d → K)) (lo hi lo' hi' : Fin d → K)
    (hX : X ≠ []) (hY : Y ≠ [])
    (h : Utils.getMinmaxArray X = .ok (lo, hi)) (h' : Utils.getMinmaxArray Y = .ok (lo', hi')) :
    Utils.getMinmaxArray (X ++ Y) =
      .ok (fun i => min (lo i) (lo' i), fun i => max (hi i) (hi' i)) := by
  obtain ⟨a, b, hab, hA⟩ := C95_minmax_array X hX
  obtain ⟨a', b', hab', hA'⟩ := C95_minmax_array Y hY
  obtain ⟨c, e, hce, hC⟩ := C95_minmax_array (X ++ Y) (by simp [hX])
  rw [h] at hab
  rw [h'] at hab'
  obtain ⟨rfl, rfl⟩ := Prod.mk.inj (Except.ok.inj hab)
  obtain ⟨rfl, rfl⟩ := Prod.mk.inj (Except.ok.inj hab')
  rw [hce]
  have hs : ∀ i, {v | ∃ r ∈ X ++ Y, r i = v} =
      {v | ∃ r ∈ X, r i = v} ∪ {v | ∃ r ∈ Y, r i = v} := by
    intro i
    ext v
    simp only [Set.mem_setOf_eq, Set.mem_union, List.mem_append]
    constructor
    · rintro ⟨r, hr | hr, rfl⟩
      · exact .inl ⟨r, hr, rfl⟩
      · exact .inr ⟨r, hr, rfl⟩
    · rintro (⟨r, hr, rfl⟩ | ⟨r, hr, rfl⟩)
      · exact ⟨r, .inl hr, rfl⟩
      · exact ⟨r, .inr hr, rfl⟩
  congr 2
  · funext i
    have := (hC i).1
    rw [hs i] at this
    exact this.unique ((hA i).1.union (hA' i).1)
  · funext i
    have := (hC i).2
    rw [hs i] at this
    exact this.unique ((hA i).2.union (hA' i).2)

end

/-- Three instances with two features. -/
example : Utils.getMinmaxArray [![(3 : ℤ), 5], ![1, 9], ![2, 7]] = .ok (![1, 5], ![3, 9]) := by
  simp only [Utils.getMinmaxArray]
  congr 2 <;> (funext i; match i with | 0 => rfl | 1 => rfl)

end Pysad
