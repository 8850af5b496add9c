import Verif.Model.StatHistory
import Verif.Spec.Meters

/-! Refinement of the bag-of-values specification by the meters. -/

namespace Pysad

open Spec

/-! ### Lists and heaps -/

theorem siftdown_perm {α : Type*} [LT α] [DecidableLT α] (x : α) :
    ∀ (pos : ℕ) (heap : List α), pos < heap.length →
      (siftdown heap x pos).Perm (heap.set pos x) := by
  intro pos
  induction pos using Nat.strong_induction_on with
  | _ pos ih =>
    intro heap hpos
    rw [siftdown]
    split
    · rename_i h; subst h; exact List.Perm.refl _
    · rename_i h
      have hp : (pos - 1) / 2 < pos := by omega
      have hlt : (pos - 1) / 2 < heap.length := by omega
      rw [List.getElem?_eq_getElem hlt]
      simp only
      split
      · refine (ih _ hp _ (by simpa using hlt)).trans ?_
        -- swap of the hole and the parent
        have key := List.set_set_perm (as := heap.set pos x) (i := pos) (j := (pos - 1) / 2)
          (by simpa using hpos) (by simpa using hlt)
        have hne : pos ≠ (pos - 1) / 2 := by omega
        simpa [List.getElem_set, hne, List.set_set] using key
      · exact List.Perm.refl _

theorem heappush_perm {α : Type*} [LT α] [DecidableLT α] (l : List α) (x : α) :
    (heappush l x).Perm (x :: l) := by
  unfold heappush
  refine (siftdown_perm x l.length (l ++ [x]) (by simp)).trans ?_
  simpa using (List.perm_append_comm (l₁ := l) (l₂ := [x]))

theorem npMax_isMax {α : Type*} [LinearOrder α] (l : List α) : IsGreatestOf (l : Multiset α) (npMax l) := by
  cases l with
  | nil => simp [npMax, IsGreatestOf]
  | cons x xs =>
    simp only [npMax, IsGreatestOf, Multiset.mem_coe]
    suffices h : ∀ (xs : List α) (x : α),
        xs.foldl (fun m y => if m < y then y else m) x ∈ x :: xs ∧
        ∀ y ∈ x :: xs, y ≤ xs.foldl (fun m y => if m < y then y else m) x from h xs x
    intro xs
    induction xs with
    | nil => intro x; simp
    | cons z zs ih =>
      intro x
      simp only [List.foldl_cons]
      have h := ih (if x < z then z else x)
      by_cases hxz : x < z
      · simp only [hxz, if_true] at h ⊢
        refine ⟨List.mem_cons_of_mem _ h.1, ?_⟩
        intro y hy
        rcases List.mem_cons.1 hy with rfl | hy
        · exact hxz.le.trans (h.2 z (by simp))
        · exact h.2 y hy
      · simp only [hxz, if_false] at h ⊢
        refine ⟨?_, ?_⟩
        · rcases List.mem_cons.1 h.1 with h1 | h1
          · rw [h1]; simp
          · exact List.mem_cons_of_mem _ (List.mem_cons_of_mem _ h1)
        · intro y hy
          rcases List.mem_cons.1 hy with rfl | hy
          · exact h.2 _ (by simp)
          · rcases List.mem_cons.1 hy with rfl | hy
            · exact (not_lt.1 hxz).trans (h.2 _ (by simp))
            · exact h.2 y (List.mem_cons_of_mem _ hy)

theorem npMin_isMin {α : Type*} [LinearOrder α] (l : List α) : IsLeastOf (l : Multiset α) (npMin l) := by
  cases l with
  | nil => simp [npMin, IsLeastOf]
  | cons x xs =>
    simp only [npMin, IsLeastOf, Multiset.mem_coe]
    suffices h : ∀ (xs : List α) (x : α),
        xs.foldl (fun m y => if y < m then y else m) x ∈ x :: xs ∧
        ∀ y ∈ x :: xs, xs.foldl (fun m y => if y < m then y else m) x ≤ y from h xs x
    intro xs
    induction xs with
    | nil => intro x; simp
    | cons z zs ih =>
      intro x
      simp only [List.foldl_cons]
      have h := ih (if z < x then z else x)
      by_cases hxz : z < x
      · simp only [hxz, if_true] at h ⊢
        refine ⟨List.mem_cons_of_mem _ h.1, ?_⟩
        intro y hy
        rcases List.mem_cons.1 hy with rfl | hy
        · exact (h.2 z (by simp)).trans hxz.le
        · exact h.2 y hy
      · simp only [hxz, if_false] at h ⊢
        refine ⟨?_, ?_⟩
        · rcases List.mem_cons.1 h.1 with h1 | h1
          · rw [h1]; simp
          · exact List.mem_cons_of_mem _ (List.mem_cons_of_mem _ h1)
        · intro y hy
          rcases List.mem_cons.1 hy with rfl | hy
          · exact h.2 _ (by simp)
          · rcases List.mem_cons.1 hy with rfl | hy
            · exact (h.2 _ (by simp)).trans (not_lt.1 hxz)
            · exact h.2 y (List.mem_cons_of_mem _ hy)

theorem pySorted_eq_sort {α : Type*} [LinearOrder α] (l : List α) :
    pySorted l = (l : Multiset α).sort (· ≤ ·) := by
  have hperm : (pySorted l).Perm ((l : Multiset α).sort (· ≤ ·)) := by
    refine (List.perm_insertionSort _ _).trans ?_
    have := Multiset.sort_eq (s := (l : Multiset α)) (r := (· ≤ ·))
    exact (Multiset.coe_eq_coe.1 this).symm
  refine List.Perm.eq_of_pairwise (le := (· ≤ ·)) (fun a b _ _ h1 h2 => le_antisymm h1 h2) ?_ ?_ hperm
  · have h : (fun a b : α => ¬ b < a) = (· ≤ ·) := by funext a b; simp
    unfold pySorted
    simp only [not_lt]
    exact List.pairwise_insertionSort _ _
  · exact Multiset.pairwise_sort _ _

/-! ### The refinement interface -/

/-- The statistic `st` implements the bag specification `V`, with state relation
`R`. -/
structure Refines {σ α β : Type*} [DecidableEq α] (st : Statistic σ α β)
    (V : Multiset α → Except PyErr β → Prop) (R : Multiset α → σ → Prop) : Prop where
  init : R 0 st.init
  update : ∀ {m s}, R m s → ∀ x, R (x ::ₘ m) (st.update s x)
  remove : ∀ {m s}, R m s → ∀ x ∈ m, ∃ s', st.remove s x = .ok () s' ∧ R (m.erase x) s'
  get_out : ∀ {m s}, R m s → V m (st.get s).out
  get_state : ∀ {m s}, R m s → R m (st.get s).state

/-- Removing an absent value raises `ValueError` and changes nothing. -/
def RejectsAbsent {σ α β : Type*} (st : Statistic σ α β) (R : Multiset α → σ → Prop) : Prop :=
  ∀ {m s}, R m s → ∀ x ∉ m, st.remove s x = .err .valueError s

section
variable {σ α β : Type*} [DecidableEq α] {st : Statistic σ α β}
  {V : Multiset α → Except PyErr β → Prop} {R : Multiset α → σ → Prop}

theorem Refines.trace_legal (hr : Refines st V R) :
    ∀ (h : List (Op α)) (m : Multiset α) (s : σ), R m s → Legal m h →
      IdealTrace V m h (st.observe s h) := by
  intro h
  induction h with
  | nil => intro m s _ _; exact .nil m
  | cons o h ih =>
    intro m s hms hl
    cases o with
    | update x => exact .update m x h _ (ih _ _ (hr.update hms x) hl)
    | remove x =>
      obtain ⟨hx, hl⟩ := hl
      obtain ⟨s', he, hR⟩ := hr.remove hms x hx
      have : st.observe s (.remove x :: h) = .done :: st.observe s' h := by
        simp [Statistic.observe, Statistic.step, he]
      rw [this]
      exact .remove m x h _ hx (ih _ _ hR hl)
    | get =>
      have ho := hr.get_out hms
      have hs := hr.get_state hms
      cases hg : st.get s with
      | ok b s' =>
        have : st.observe s (.get :: h) = .value b :: st.observe s' h := by
          simp [Statistic.observe, Statistic.step, hg]
        rw [this]
        rw [hg] at ho hs
        exact .value m b h _ ho (ih _ _ hs hl)
      | err e s' =>
        have : st.observe s (.get :: h) = .raised e :: st.observe s' h := by
          simp [Statistic.observe, Statistic.step, hg]
        rw [this]
        rw [hg] at ho hs
        exact .fails m e h _ ho (ih _ _ hs hl)

theorem Refines.trace (hr : Refines st V R) (hc : RejectsAbsent st R) :
    ∀ (h : List (Op α)) (m : Multiset α) (s : σ), R m s →
      IdealTrace V m h (st.observe s h) := by
  intro h
  induction h with
  | nil => intro m s _; exact .nil m
  | cons o h ih =>
    intro m s hms
    cases o with
    | update x => exact .update m x h _ (ih _ _ (hr.update hms x))
    | remove x =>
      by_cases hx : x ∈ m
      · obtain ⟨s', he, hR⟩ := hr.remove hms x hx
        have : st.observe s (.remove x :: h) = .done :: st.observe s' h := by
          simp [Statistic.observe, Statistic.step, he]
        rw [this]
        exact .remove m x h _ hx (ih _ _ hR)
      · have he := hc hms x hx
        have : st.observe s (.remove x :: h) = .raised .valueError :: st.observe s h := by
          simp [Statistic.observe, Statistic.step, he]
        rw [this]
        exact .removeAbsent m x h _ hx (ih _ _ hms)
    | get =>
      have ho := hr.get_out hms
      have hs := hr.get_state hms
      cases hg : st.get s with
      | ok b s' =>
        have : st.observe s (.get :: h) = .value b :: st.observe s' h := by
          simp [Statistic.observe, Statistic.step, hg]
        rw [this]
        rw [hg] at ho hs
        exact .value m b h _ ho (ih _ _ hs)
      | err e s' =>
        have : st.observe s (.get :: h) = .raised e :: st.observe s' h := by
          simp [Statistic.observe, Statistic.step, hg]
        rw [this]
        rw [hg] at ho hs
        exact .fails m e h _ ho (ih _ _ hs)

theorem Refines.after (hr : Refines st V R) :
    ∀ (h : List (Op α)) (m : Multiset α) (s : σ), R m s → Legal m h →
      R (live m h) (st.after s h) := by
  intro h
  induction h with
  | nil => intro m s hms _; exact hms
  | cons o h ih =>
    intro m s hms hl
    cases o with
    | update x => exact ih _ _ (hr.update hms x) hl
    | remove x =>
      obtain ⟨hx, hl⟩ := hl
      obtain ⟨s', he, hR⟩ := hr.remove hms x hx
      have := ih _ _ hR hl
      simpa [Statistic.after, Statistic.step, he, live] using this
    | get =>
      have hs := hr.get_state hms
      have := ih _ _ hs hl
      cases hg : st.get s with
      | ok b s' => simpa [Statistic.after, Statistic.step, hg, live] using this
      | err e s' => simpa [Statistic.after, Statistic.step, hg, live] using this

theorem Refines.updates (hr : Refines st V R) :
    ∀ (xs : List α) (m : Multiset α) (s : σ), R m s →
      R (m + (xs : Multiset α)) (st.updates s xs) := by
  intro xs
  induction xs with
  | nil => intro m s h; simpa [Statistic.updates] using h
  | cons x xs ih =>
    intro m s h
    have := ih _ _ (hr.update h x)
    have e : x ::ₘ m + (xs : Multiset α) = m + ((x :: xs : List α) : Multiset α) := by
      rw [← Multiset.cons_coe, Multiset.cons_add, Multiset.add_cons]
    rw [e] at this
    simpa [Statistic.updates] using this

end

/-! ### The meters -/

section Field
variable {K : Type*} [Field K] [LinearOrder K] [IsStrictOrderedRing K]

theorem count_refines {α : Type*} [DecidableEq α] : Refines (countMeter α) CountValue
    (fun m s => s = (m.card : ℤ)) where
  init := by simp [countMeter]
  update := by intro m s h x; simp [countMeter, h]
  remove := by
    intro m s h x hx
    refine ⟨_, rfl, ?_⟩
    have := Multiset.card_pos.2 (fun h0 : m = 0 => by simp [h0] at hx)
    rw [Multiset.card_erase_of_mem hx, h]
    simp only [Nat.pred_eq_sub_one]; omega
  get_out := by intro m s h; simp [countMeter, CountValue, Reads, h]
  get_state := by intro m s h; simpa [countMeter] using h

theorem card_erase_cast {K' : Type*} [DecidableEq K'] {m : Multiset K'} {x : K'} (hx : x ∈ m) :
    ((m.erase x).card : ℤ) = m.card - 1 := by
  have := Multiset.card_pos.2 (fun h0 : m = 0 => by simp [h0] at hx)
  rw [Multiset.card_erase_of_mem hx]
  simp only [Nat.pred_eq_sub_one]; omega

theorem sum_erase_eq {m : Multiset K} {x : K} (hx : x ∈ m) : (m.erase x).sum = m.sum - x := by
  conv_rhs => rw [← Multiset.cons_erase hx]
  simp

theorem sumsq_erase_eq {m : Multiset K} {x : K} (hx : x ∈ m) :
    ((m.erase x).map (· ^ 2)).sum = (m.map (· ^ 2)).sum - x * x := by
  conv_rhs => rw [← Multiset.cons_erase hx]
  simp; ring

theorem sum_refines : Refines (sumMeter K) SumValue
    (fun m s => s.sum = m.sum ∧ s.numItems = (m.card : ℤ)) where
  init := by simp [sumMeter]
  update := by intro m s h x; simp [sumMeter, h.1, h.2, add_comm]
  remove := by
    intro m s h x hx
    exact ⟨_, rfl, by simp [sum_erase_eq hx, h.1], by simp [card_erase_cast hx, h.2]⟩
  get_out := by intro m s h; simp [sumMeter, SumValue, Reads, h]
  get_state := by intro m s h; simpa [sumMeter] using h

theorem sumSquares_refines : Refines (sumSquaresMeter K) SumSquaresValue
    (fun m s => s.sum = (m.map (· ^ 2)).sum ∧ s.numItems = (m.card : ℤ)) where
  init := by simp [sumSquaresMeter]
  update := by intro m s h x; simp [sumSquaresMeter, h.1, h.2, add_comm, pow_two]
  remove := by
    intro m s h x hx
    exact ⟨_, rfl, by simp [sumsq_erase_eq hx, h.1], by simp [card_erase_cast hx, h.2]⟩
  get_out := by intro m s h; simp [sumSquaresMeter, SumSquaresValue, Reads, h]
  get_state := by intro m s h; simpa [sumSquaresMeter] using h

theorem average_refines : Refines (averageMeter K) MeanValue
    (fun m s => s.sum = m.sum ∧ s.numItems = (m.card : ℤ)) where
  init := by simp [averageMeter]
  update := by intro m s h x; simp [averageMeter, h.1, h.2, add_comm]
  remove := by
    intro m s h x hx
    exact ⟨_, rfl, by simp [sum_erase_eq hx, h.1], by simp [card_erase_cast hx, h.2]⟩
  get_out := by
    intro m s h
    by_cases hm : m = 0
    · left; subst hm; simp [averageMeter, h.2]
    · right
      refine ⟨hm, ?_⟩
      have : (m.card : ℤ) ≠ 0 := by simpa using hm
      simp [averageMeter, h.1, h.2, hm, meanOf]
  get_state := by intro m s h; simp only [averageMeter]; split <;> simpa using h

theorem sum_sq_dev (m : Multiset K) (c : K) :
    (m.map fun x => (x - c) ^ 2).sum
      = (m.map (· ^ 2)).sum - 2 * c * m.sum + (m.card : K) * c ^ 2 := by
  induction m using Multiset.induction_on with
  | empty => simp
  | cons a m ih => simp only [Multiset.map_cons, Multiset.sum_cons, ih, Multiset.card_cons]
                   push_cast; ring

theorem variance_formula {m : Multiset K} (hm : m ≠ 0) :
    varianceOf m = ((m.map (· ^ 2)).sum - m.sum * m.sum / (m.card : K)) / (m.card : K) := by
  have hc : (m.card : K) ≠ 0 := by
    have := Multiset.card_pos.2 hm
    positivity
  unfold varianceOf
  rw [sum_sq_dev]
  congr 1
  unfold meanOf
  field_simp
  ring

theorem variance_refines : Refines (varianceMeter K) VarianceValue
    (fun m s => s.sumMeter.sum = m.sum ∧ s.sumSquaresMeter.sum = (m.map (· ^ 2)).sum ∧
      s.countMeter = (m.card : ℤ)) where
  init := by simp [varianceMeter, sumMeter, sumSquaresMeter, countMeter]
  update := by
    intro m s h x
    simp [varianceMeter, sumMeter, sumSquaresMeter, countMeter, h.1, h.2.1, h.2.2, add_comm, pow_two]
  remove := by
    intro m s h x hx
    refine ⟨_, rfl, ?_⟩
    simp [sum_erase_eq hx, sumsq_erase_eq hx, card_erase_cast hx, sumMeter, countMeter, h.1, h.2.1,
      h.2.2]
  get_out := by
    intro m s h
    obtain ⟨h1, h2, h3⟩ := h
    by_cases hm : m = 0
    · left; subst hm; simp [varianceMeter, h3]
    · right
      refine ⟨hm, ?_⟩
      simp [varianceMeter, h1, h2, h3, hm, variance_formula hm]
  get_state := by
    intro m s h; simp only [varianceMeter]; split <;> simpa using h

end Field

section Order
variable {α : Type*} [LinearOrder α]

theorem isMax_cons {m : Multiset α} {g : Option α} (h : IsGreatestOf m g) (l : List α) (x : α) :
    IsGreatestOf (x ::ₘ m) ((maxMeter α).update ⟨g, l⟩ x).ext := by
  simp only [maxMeter]
  cases g with
  | none => simp only [IsGreatestOf] at h; subst h; simp [IsGreatestOf]
  | some g =>
    obtain ⟨h1, h2⟩ := h
    simp only
    split
    · rename_i hlt
      refine ⟨by simp, ?_⟩
      intro y hy
      rcases Multiset.mem_cons.1 hy with rfl | hy
      · exact le_rfl
      · exact (h2 y hy).trans hlt.le
    · rename_i hlt
      refine ⟨by simp [h1], ?_⟩
      intro y hy
      rcases Multiset.mem_cons.1 hy with rfl | hy
      · exact not_lt.1 hlt
      · exact h2 y hy

theorem isMin_cons {m : Multiset α} {g : Option α} (h : IsLeastOf m g) (l : List α) (x : α) :
    IsLeastOf (x ::ₘ m) ((minMeter α).update ⟨g, l⟩ x).ext := by
  simp only [minMeter]
  cases g with
  | none => simp only [IsLeastOf] at h; subst h; simp [IsLeastOf]
  | some g =>
    obtain ⟨h1, h2⟩ := h
    simp only
    split
    · rename_i hlt
      refine ⟨by simp, ?_⟩
      intro y hy
      rcases Multiset.mem_cons.1 hy with rfl | hy
      · exact le_rfl
      · exact hlt.le.trans (h2 y hy)
    · rename_i hlt
      refine ⟨by simp [h1], ?_⟩
      intro y hy
      rcases Multiset.mem_cons.1 hy with rfl | hy
      · exact not_lt.1 hlt
      · exact h2 y hy

theorem coe_heappush (l : List α) (x : α) :
    ((heappush l x : List α) : Multiset α) = x ::ₘ (l : Multiset α) := by
  rw [Multiset.cons_coe]; exact Multiset.coe_eq_coe.2 (heappush_perm l x)

theorem max_refines : Refines (maxMeter α) MaxValue
    (fun m s => (s.lst : Multiset α) = m ∧ IsGreatestOf m s.ext) where
  init := by simp [maxMeter, IsGreatestOf]
  update := by
    intro m s h x
    refine ⟨by simp [maxMeter, coe_heappush, h.1], ?_⟩
    exact isMax_cons h.2 s.lst x
  remove := by
    intro m s h x hx
    obtain ⟨h1, h2⟩ := h
    subst h1
    have hx' : x ∈ s.lst := by simpa using hx
    simp only [maxMeter, pyRemove, hx', if_true]
    refine ⟨_, rfl, ?_⟩
    split
    · exact ⟨by simp, by simpa using npMax_isMax (s.lst.erase x)⟩
    · rename_i hl
      have : s.lst.erase x = [] := by simpa using hl
      refine ⟨by simp, ?_⟩
      simp only [IsGreatestOf, Multiset.coe_erase, Multiset.coe_eq_zero]; exact this
  get_out := by intro m s h; exact ⟨_, h.2, rfl⟩
  get_state := by intro m s h; simpa [maxMeter] using h

theorem max_rejects : RejectsAbsent (maxMeter α)
    (fun m s => (s.lst : Multiset α) = m ∧ IsGreatestOf m s.ext) := by
  intro m s h x hx
  obtain ⟨h1, h2⟩ := h
  subst h1
  have hx' : x ∉ s.lst := by simpa using hx
  simp [maxMeter, pyRemove, hx']

theorem min_refines : Refines (minMeter α) MinValue
    (fun m s => (s.lst : Multiset α) = m ∧ IsLeastOf m s.ext) where
  init := by simp [minMeter, IsLeastOf]
  update := by
    intro m s h x
    refine ⟨by simp [minMeter, coe_heappush, h.1], ?_⟩
    exact isMin_cons h.2 s.lst x
  remove := by
    intro m s h x hx
    obtain ⟨h1, h2⟩ := h
    subst h1
    have hx' : x ∈ s.lst := by simpa using hx
    simp only [minMeter, pyRemove, hx', if_true]
    refine ⟨_, rfl, ?_⟩
    split
    · exact ⟨by simp, by simpa using npMin_isMin (s.lst.erase x)⟩
    · rename_i hl
      have : s.lst.erase x = [] := by simpa using hl
      refine ⟨by simp, ?_⟩
      simp only [IsLeastOf, Multiset.coe_erase, Multiset.coe_eq_zero]; exact this
  get_out := by intro m s h; exact ⟨_, h.2, rfl⟩
  get_state := by intro m s h; simpa [minMeter] using h

theorem min_rejects : RejectsAbsent (minMeter α)
    (fun m s => (s.lst : Multiset α) = m ∧ IsLeastOf m s.ext) := by
  intro m s h x hx
  obtain ⟨h1, h2⟩ := h
  subst h1
  have hx' : x ∉ s.lst := by simpa using hx
  simp [minMeter, pyRemove, hx']

end Order

theorem median_get_state {K : Type*} [LT K] [DecidableLT K] [DecidableEq K] [Add K] [Div K] [IntCast K]
    (s : MedianState K) :
    ((medianMeter K).get s).state = ⟨pySorted s.lst, s.numItems⟩ := by
  simp only [medianMeter]
  split
  · cases h1 : pyIndex (pySorted s.lst) (s.numItems / 2) with
    | error e => simp
    | ok a =>
      cases h2 : pyIndex (pySorted s.lst) (s.numItems / 2 - 1) with
      | error e => simp [h2]
      | ok b => simp [h2]
  · cases h1 : pyIndex (pySorted s.lst) (s.numItems / 2) with
    | error e => simp
    | ok a => simp

section Median
variable {K : Type*} [Field K] [LinearOrder K] [IsStrictOrderedRing K]

theorem pyIndex_nat {α : Type*} (l : List α) (i : ℕ) (h : i < l.length) :
    pyIndex l (i : ℤ) = .ok l[i] := by
  have h1 : ¬ ((i : ℤ) < 0) := by omega
  simp only [pyIndex, h1, if_false, Int.toNat_natCast]
  rw [List.getElem?_eq_getElem h]

/-- Python's negative index `lst[-1]` and index 0 on an empty list. -/
theorem pyIndex_nil {α : Type*} (i : ℤ) : pyIndex ([] : List α) i = .error .indexError := by
  unfold pyIndex; simp

theorem median_get_out (l : List K) :
    MedianValue (l : Multiset K) ((medianMeter K).get ⟨l, (l.length : ℤ)⟩).out := by
  have hs := pySorted_eq_sort l
  have hlen : (pySorted l).length = l.length := by simp [pySorted]
  rcases Nat.even_or_odd' l.length with ⟨k, hk | hk⟩
  · -- even
    have hmod : ((l.length : ℤ) % 2 = 0) := by omega
    by_cases h0 : l = []
    · subst h0
      left
      simp [medianMeter, pySorted, pyIndex_nil]
    · right
      have hpos : 0 < k := by
        rcases Nat.eq_zero_or_pos k with h | h
        · subst h; simp at hk; exact absurd hk h0
        · exact h
      have e1 : (l.length : ℤ) / 2 = (k : ℕ) := by omega
      have e2 : (l.length : ℤ) / 2 - 1 = ((k - 1 : ℕ) : ℤ) := by omega
      have i1 : k < (pySorted l).length := by omega
      have i2 : k - 1 < (pySorted l).length := by omega
      refine ⟨((pySorted l)[k - 1] + (pySorted l)[k]) / 2, ?_, ?_⟩
      · unfold medianOf
        rw [← hs]
        have h2 : (pySorted l).length / 2 = k := by omega
        have h3 : ¬ (pySorted l).length % 2 = 1 := by omega
        simp only [h3, if_false, h2]
        rw [List.getElem?_eq_getElem i1, List.getElem?_eq_getElem i2]
      · simp only [medianMeter, hmod, if_true]
        rw [e1, pyIndex_nat _ _ i1]
        simp only [Res.ofExcept_ok, Res.bind_ok]
        rw [e2, pyIndex_nat _ _ i2]
        simp [add_comm]
  · have hmod : ¬ ((l.length : ℤ) % 2 = 0) := by omega
    right
    have e1 : (l.length : ℤ) / 2 = (k : ℕ) := by omega
    have i1 : k < (pySorted l).length := by omega
    refine ⟨(pySorted l)[k], ?_, ?_⟩
    · unfold medianOf
      rw [← hs]
      have h2 : (pySorted l).length / 2 = k := by omega
      have h3 : (pySorted l).length % 2 = 1 := by omega
      simp only [h3, if_true, h2]
      rw [List.getElem?_eq_getElem i1]
    · simp only [medianMeter, hmod, if_false]
      rw [e1, pyIndex_nat _ _ i1]
      simp

theorem median_refines : Refines (medianMeter K) MedianValue
    (fun m s => (s.lst : Multiset K) = m ∧ s.numItems = (s.lst.length : ℤ)) where
  init := by simp [medianMeter]
  update := by
    intro m s h x
    refine ⟨by simp [medianMeter, coe_heappush, h.1], ?_⟩
    simp [medianMeter, h.2, (heappush_perm s.lst x).length_eq]
  remove := by
    intro m s h x hx
    obtain ⟨h1, h2⟩ := h
    subst h1
    have hx' : x ∈ s.lst := by simpa using hx
    simp only [medianMeter, pyRemove, hx', if_true]
    refine ⟨_, rfl, by simp, ?_⟩
    have := List.length_pos_of_mem hx'
    simp only [List.length_erase_of_mem hx', h2]; omega
  get_out := by
    intro m s h
    obtain ⟨h1, h2⟩ := h
    subst h1
    have := median_get_out s.lst
    rwa [← h2] at this
  get_state := by
    intro m s h
    rw [median_get_state]
    refine ⟨?_, ?_⟩
    · rw [← h.1]; exact Multiset.coe_eq_coe.2 (List.perm_insertionSort _ _)
    · simp [pySorted, h.2]

theorem median_rejects : RejectsAbsent (medianMeter K)
    (fun m s => (s.lst : Multiset K) = m ∧ s.numItems = (s.lst.length : ℤ)) := by
  intro m s h x hx
  obtain ⟨h1, h2⟩ := h
  subst h1
  have hx' : x ∉ s.lst := by simpa using hx
  simp [medianMeter, pyRemove, hx']

end Median

end Pysad
