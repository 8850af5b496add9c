import Verif.Spec.Basic
import Mathlib.Tactic.Linarith
import Mathlib.Tactic.NormNum

/-! Medians of bags most of whose values lie in an interval. -/

namespace Pysad

open Spec

/-- More than half of the values of the bag have the property. -/
def Spec.Mostly {K : Type*} (p : K → Prop) [DecidablePred p] (m : Multiset K) : Prop :=
  m.card < 2 * m.countP p

/-- More than half of the values of the bag lie between `lo` and `hi`. -/
def Spec.MostlyWithin {K : Type*} [LinearOrder K] (lo hi : K) (m : Multiset K) : Prop :=
  Mostly (fun x => lo ≤ x ∧ x ≤ hi) m

instance {K : Type*} [LinearOrder K] (lo hi : K) (m : Multiset K) :
    Decidable (MostlyWithin lo hi m) := inferInstanceAs (Decidable (_ < _))

theorem Spec.Mostly.mono {K : Type*} {p q : K → Prop} [DecidablePred p] [DecidablePred q]
    {m : Multiset K} (h : ∀ x ∈ m, p x → q x) (hp : Mostly p m) : Mostly q m := by
  unfold Mostly at *
  have : m.countP p ≤ m.countP q := by
    rw [Multiset.countP_eq_card_filter, Multiset.countP_eq_card_filter]
    apply Multiset.card_le_card
    rw [Multiset.le_filter]
    refine ⟨Multiset.filter_le _ _, fun x hx => ?_⟩
    obtain ⟨h1, h2⟩ := Multiset.mem_filter.1 hx
    exact h x h1 h2
  omega

section
variable {K : Type*} [Field K] [LinearOrder K] [IsStrictOrderedRing K]

omit [IsStrictOrderedRing K] [Field K] in
theorem sorted_take_countP {l : List K} (hs : l.Pairwise (· ≤ ·)) {b : K} {i : ℕ} (hi : i < l.length)
    (hc : b < l[i]) : l.countP (· ≤ b) ≤ i := by
  have h2 : (l.drop i).countP (· ≤ b) = 0 := by
    rw [List.countP_eq_zero]
    intro a ha
    obtain ⟨j, hj, rfl⟩ := List.mem_iff_getElem.1 ha
    simp only [List.length_drop] at hj
    rw [List.getElem_drop]
    have : l[i] ≤ l[i + j] := by
      rcases Nat.eq_zero_or_pos j with h5 | h5
      · subst h5; exact le_rfl
      · exact List.pairwise_iff_getElem.1 hs i (i + j) _ _ (by omega)
    simpa using hc.trans_le this
  have h3 : l.countP (· ≤ b) = (l.take i).countP (· ≤ b) + (l.drop i).countP (· ≤ b) := by
    rw [← List.countP_append, List.take_append_drop]
  have h4 : (l.take i).countP (· ≤ b) ≤ (l.take i).length := List.countP_le_length
  rw [List.length_take] at h4
  omega

omit [IsStrictOrderedRing K] [Field K] in
theorem sorted_drop_countP {l : List K} (hs : l.Pairwise (· ≤ ·)) {a : K} {i : ℕ} (hi : i < l.length)
    (hc : l[i] < a) : l.countP (a ≤ ·) ≤ l.length - (i + 1) := by
  have h2 : (l.take (i + 1)).countP (a ≤ ·) = 0 := by
    rw [List.countP_eq_zero]
    intro x hx
    obtain ⟨j, hj, rfl⟩ := List.mem_iff_getElem.1 hx
    simp only [List.length_take] at hj
    rw [List.getElem_take]
    have hj' : j ≤ i := by omega
    have : l[j] ≤ l[i] := by
      rcases hj'.lt_or_eq with h5 | h5
      · exact List.pairwise_iff_getElem.1 hs j i _ _ h5
      · subst h5; exact le_rfl
    simpa using this.trans_lt hc
  have h3 : l.countP (a ≤ ·) = (l.take (i + 1)).countP (a ≤ ·) + (l.drop (i + 1)).countP (a ≤ ·) := by
    rw [← List.countP_append, List.take_append_drop]
  have h4 : (l.drop (i + 1)).countP (a ≤ ·) ≤ (l.drop (i + 1)).length := List.countP_le_length
  rw [List.length_drop] at h4
  omega

/-- A median is the mean of two sorted values next to the middle. -/
theorem medianOf_cases {m : Multiset K} {r : K} (hr : medianOf m = some r) :
    ∃ i j, ∃ (hi : i < (m.sort (· ≤ ·)).length) (hj : j < (m.sort (· ≤ ·)).length),
      (m.card ≤ 2 * i + 2 ∧ 2 * i ≤ m.card) ∧ (m.card ≤ 2 * j + 2 ∧ 2 * j ≤ m.card) ∧
      r = ((m.sort (· ≤ ·))[i] + (m.sort (· ≤ ·))[j]) / 2 := by
  have hlen : (m.sort (· ≤ ·)).length = m.card := by simp
  unfold medianOf at hr
  generalize m.sort (· ≤ ·) = l at *
  simp only at hr
  split at hr
  · obtain ⟨h1, rfl⟩ := List.getElem?_eq_some_iff.1 hr
    exact ⟨_, _, h1, h1, by omega, by omega, by ring⟩
  · split at hr
    · rename_i a b ha hb
      obtain ⟨h1, rfl⟩ := List.getElem?_eq_some_iff.1 ha
      obtain ⟨h2, rfl⟩ := List.getElem?_eq_some_iff.1 hb
      exact ⟨_, _, h1, h2, by omega, by omega, by simpa using hr.symm⟩
    · simp at hr

theorem medianOf_le_of_mostly {m : Multiset K} {b r : K} (h : Mostly (· ≤ b) m)
    (hr : medianOf m = some r) : r ≤ b := by
  obtain ⟨i, j, hi, hj, ei, ej, rfl⟩ := medianOf_cases hr
  have hs : (m.sort (· ≤ ·)).Pairwise (· ≤ ·) := Multiset.pairwise_sort _ _
  have hp : ((m.sort (· ≤ ·) : List K) : Multiset K) = m := Multiset.sort_eq _ _
  have hc : (m.sort (· ≤ ·)).countP (· ≤ b) = m.countP (· ≤ b) := by
    conv_rhs => rw [← hp]
    rw [Multiset.coe_countP]
  unfold Mostly at h
  have key : ∀ i, (hi : i < (m.sort (· ≤ ·)).length) → 2 * i ≤ m.card → (m.sort (· ≤ ·))[i] ≤ b := by
    intro i hi h2
    by_contra hn
    have := sorted_take_countP hs hi (not_le.1 hn)
    omega
  have := key i hi ei.2
  have := key j hj ej.2
  rw [div_le_iff₀ (by norm_num)]; linarith

theorem le_medianOf_of_mostly {m : Multiset K} {a r : K} (h : Mostly (a ≤ ·) m)
    (hr : medianOf m = some r) : a ≤ r := by
  obtain ⟨i, j, hi, hj, ei, ej, rfl⟩ := medianOf_cases hr
  have hs : (m.sort (· ≤ ·)).Pairwise (· ≤ ·) := Multiset.pairwise_sort _ _
  have hp : ((m.sort (· ≤ ·) : List K) : Multiset K) = m := Multiset.sort_eq _ _
  have hlen : (m.sort (· ≤ ·)).length = m.card := by simp
  have hc : (m.sort (· ≤ ·)).countP (a ≤ ·) = m.countP (a ≤ ·) := by
    conv_rhs => rw [← hp]
    rw [Multiset.coe_countP]
  unfold Mostly at h
  have key : ∀ i, (hi : i < (m.sort (· ≤ ·)).length) → m.card ≤ 2 * i + 2 → a ≤ (m.sort (· ≤ ·))[i] := by
    intro i hi h2
    by_contra hn
    have := sorted_drop_countP hs hi (not_le.1 hn)
    omega
  have := key i hi ei.1
  have := key j hj ej.1
  rw [le_div_iff₀ (by norm_num)]; linarith

/-- The median lies where most of the values lie. -/
theorem medianOf_mostlyWithin {m : Multiset K} {lo hi r : K} (h : MostlyWithin lo hi m)
    (hr : medianOf m = some r) : lo ≤ r ∧ r ≤ hi :=
  ⟨le_medianOf_of_mostly (h.mono fun _ _ h => h.1) hr,
   medianOf_le_of_mostly (h.mono fun _ _ h => h.2) hr⟩

end

end Pysad
