import Verif.Props.FixedInt

/-! Property C124, continued: the maximum, the minimum and the median of fixed-width integers. -/

namespace Pysad

open Spec

variable {t : IntType}

/-- The exact median. -/
def Spec.exactMedian (m : Multiset (NpInt t)) : Option ℚ := medianOf (m.map fun x => (x.val : ℚ))

/-- The median needs no addition, or twice the median, the sum of the two middle values, fits. -/
def Spec.MedianFits (m : Multiset (NpInt t)) : Prop :=
  Odd m.card ∨ ∃ z : ℤ, Representable t z ∧ exactMedian m = some ((z : ℚ) / 2)

/-- Reading raises for no values; otherwise it is a number, and it is the exact median if and only
if that needs no addition or twice the median fits. -/
def Spec.ReadsMedian (m : Multiset (NpInt t)) (r : Except PyErr ℚ) : Prop :=
  (m = 0 ∧ r = .error .indexError) ∨
    ∃ q b, exactMedian m = some q ∧ r = .ok b ∧ (b = q ↔ MedianFits m)

theorem pySorted_cast (l : List (NpInt t)) :
    (pySorted l).map (fun x => (x.val : ℚ)) = pySorted (l.map fun x => (x.val : ℚ)) := by
  unfold pySorted
  refine List.map_insertionSort _ _ _ _ fun a _ b _ => ?_
  change (¬ b.val < a.val) ↔ ¬ ((b.val : ℚ) < (a.val : ℚ))
  norm_cast

theorem medianInt_get_state (s : MedianState (NpInt t)) :
    ((medianMeterInt t).get s).state = ⟨pySorted s.lst, s.numItems⟩ := by
  simp only [medianMeterInt]
  split
  · cases h1 : pyIndex (pySorted s.lst) (s.numItems / 2) with
    | error e => simp
    | ok a =>
      cases h2 : pyIndex (pySorted s.lst) (s.numItems / 2 - 1) with
      | error e => simp [h2]
      | ok b => simp [h2]
  · cases h1 : pyIndex (pySorted s.lst) (s.numItems / 2) with
    | error e => simp
    | ok a => simp

theorem medianInt_get_out (l : List (NpInt t)) :
    ReadsMedian (l : Multiset (NpInt t)) ((medianMeterInt t).get ⟨l, (l.length : ℤ)⟩).out := by
  have hs := pySorted_eq_sort (l.map fun x => (x.val : ℚ))
  rw [← pySorted_cast] at hs
  have hlen : (pySorted l).length = l.length := by simp [pySorted]
  rcases Nat.even_or_odd' l.length with ⟨k, hk | hk⟩
  · have hmod : ((l.length : ℤ) % 2 = 0) := by omega
    by_cases h0 : l = []
    · subst h0
      left
      simp [medianMeterInt, pySorted, pyIndex_nil]
    · right
      have hpos : 0 < k := by
        rcases Nat.eq_zero_or_pos k with h | h
        · subst h; simp at hk; exact absurd hk h0
        · exact h
      have e1 : (l.length : ℤ) / 2 = (k : ℕ) := by omega
      have e2 : (l.length : ℤ) / 2 - 1 = ((k - 1 : ℕ) : ℤ) := by omega
      have i1 : k < (pySorted l).length := by omega
      have i2 : k - 1 < (pySorted l).length := by omega
      have hq : exactMedian (l : Multiset (NpInt t)) =
          some ((((pySorted l)[k].val + (pySorted l)[k - 1].val : ℤ) : ℚ) / 2) := by
        unfold exactMedian medianOf
        rw [Multiset.map_coe, ← hs]
        have h2 : (pySorted l).length / 2 = k := by omega
        have h3 : ¬ (pySorted l).length % 2 = 1 := by omega
        simp only [List.length_map, h3, if_false, h2, List.getElem?_map]
        rw [List.getElem?_eq_getElem i1, List.getElem?_eq_getElem i2]
        simp [add_comm]
      have ho : ¬ Odd (l : Multiset (NpInt t)).card := by
        rw [Multiset.coe_card, hk]; simp
      refine ⟨_, ((t.wrap ((pySorted l)[k].val + (pySorted l)[k - 1].val) : ℤ) : ℚ) / 2, hq, ?_, ?_⟩
      · simp only [medianMeterInt, hmod, if_true]
        rw [e1, pyIndex_nat _ _ i1]
        simp only [Res.ofExcept_ok, Res.bind_ok]
        rw [e2, pyIndex_nat _ _ i2]
        rfl
      · constructor
        · intro h
          refine .inr ⟨_, ?_, hq⟩
          have h' : t.wrap ((pySorted l)[k].val + (pySorted l)[k - 1].val) =
              (pySorted l)[k].val + (pySorted l)[k - 1].val := by
            have : ((t.wrap ((pySorted l)[k].val + (pySorted l)[k - 1].val) : ℤ) : ℚ) =
              (((pySorted l)[k].val + (pySorted l)[k - 1].val : ℤ) : ℚ) := by linarith
            exact_mod_cast this
          rw [← h']
          exact t.fits_wrap _
        · rintro (h | ⟨z, hz, h⟩)
          · exact absurd h ho
          · rw [hq, Option.some.injEq] at h
            have : (((pySorted l)[k].val + (pySorted l)[k - 1].val : ℤ) : ℚ) = (z : ℚ) := by linarith
            have : (pySorted l)[k].val + (pySorted l)[k - 1].val = z := by exact_mod_cast this
            rw [this, IntType.wrap_fits hz]
  · have hmod : ¬ ((l.length : ℤ) % 2 = 0) := by omega
    right
    have e1 : (l.length : ℤ) / 2 = (k : ℕ) := by omega
    have i1 : k < (pySorted l).length := by omega
    refine ⟨((pySorted l)[k].val : ℚ), ((pySorted l)[k].val : ℚ), ?_, ?_, ?_⟩
    · unfold exactMedian medianOf
      rw [Multiset.map_coe, ← hs]
      have h2 : (pySorted l).length / 2 = k := by omega
      have h3 : (pySorted l).length % 2 = 1 := by omega
      simp only [List.length_map, h3, if_true, h2, List.getElem?_map]
      rw [List.getElem?_eq_getElem i1]
      rfl
    · simp only [medianMeterInt, hmod, if_false]
      rw [e1, pyIndex_nat _ _ i1]
      simp
    · refine ⟨fun _ => .inl ?_, fun _ => rfl⟩
      rw [Multiset.coe_card, hk]; exact ⟨k, rfl⟩

theorem medianInt_refines : Refines (medianMeterInt t) ReadsMedian
    (fun m s => (s.lst : Multiset (NpInt t)) = m ∧ s.numItems = (s.lst.length : ℤ)) where
  init := by simp [medianMeterInt]
  update := by
    intro m s h x
    refine ⟨by simp [medianMeterInt, coe_heappush, h.1], ?_⟩
    simp [medianMeterInt, h.2, (heappush_perm s.lst x).length_eq]
  remove := by
    intro m s h x hx
    obtain ⟨h1, h2⟩ := h
    subst h1
    have hx' : x ∈ s.lst := by simpa using hx
    simp only [medianMeterInt, pyRemove, hx', if_true]
    refine ⟨_, rfl, by simp, ?_⟩
    have := List.length_pos_of_mem hx'
    simp only [List.length_erase_of_mem hx', h2]; omega
  get_out := by
    intro m s h
    obtain ⟨h1, h2⟩ := h
    subst h1
    have := medianInt_get_out s.lst
    rwa [← h2] at this
  get_state := by
    intro m s h
    rw [medianInt_get_state]
    refine ⟨?_, ?_⟩
    · rw [← h.1]; exact Multiset.coe_eq_coe.2 (List.perm_insertionSort _ _)
    · simp [pySorted, h.2]

theorem medianInt_rejects : RejectsAbsent (medianMeterInt t)
    (fun m s => (s.lst : Multiset (NpInt t)) = m ∧ s.numItems = (s.lst.length : ℤ)) := by
  intro m s h x hx
  obtain ⟨h1, h2⟩ := h
  subst h1
  have hx' : x ∉ s.lst := by simpa using hx
  simp [medianMeterInt, pyRemove, hx']

/-- **C124**, partial: the maximum and the minimum of integers of any width are right on every
history, also one that removes absent values. The median is right exactly for an odd number of
values and whenever twice the median fits. -/
theorem C124_order_partial (t : IntType) (h : List (Op (NpInt t))) :
    IdealTrace MaxValue 0 h ((maxMeter (NpInt t)).observe (maxMeter (NpInt t)).init h) ∧
    IdealTrace MinValue 0 h ((minMeter (NpInt t)).observe (minMeter (NpInt t)).init h) ∧
    IdealTrace ReadsMedian 0 h ((medianMeterInt t).observe (medianMeterInt t).init h) :=
  ⟨by convert C07_max h, by convert C08_min h, medianInt_refines.trace medianInt_rejects h 0 _ medianInt_refines.init⟩

/-- The order is that of the numbers. -/
theorem C124_order_of_numbers (x y : NpInt t) : x ≤ y ↔ x.val ≤ y.val := Iff.rfl

/-- The median of 200, 200 is reported as 72; that of 200, 210, 220 is right, and so is that of
50, 60. -/
example : (medianMeterInt uint8).observe (medianMeterInt uint8).init
      [.update ⟨200⟩, .update ⟨200⟩, .get] = [.done, .done, .value 72] ∧
    (medianMeterInt uint8).observe (medianMeterInt uint8).init
      [.update ⟨220⟩, .update ⟨200⟩, .update ⟨210⟩, .get] = [.done, .done, .done, .value 210] ∧
    (medianMeterInt uint8).observe (medianMeterInt uint8).init
      [.update ⟨60⟩, .update ⟨50⟩, .get] = [.done, .done, .value 55] := by decide +kernel

/-- The hypothesis: twice the median of 50, 60 fits. -/
example : MedianFits ({⟨60⟩, ⟨50⟩} : Multiset (NpInt uint8)) := by
  refine .inr ⟨110, ⟨by decide, by decide⟩, ?_⟩
  have : ({⟨60⟩, ⟨50⟩} : Multiset (NpInt uint8)) = ([⟨50⟩, ⟨60⟩] : List (NpInt uint8)) :=
    Multiset.coe_eq_coe.2 (.swap _ _ _)
  rw [this]
  unfold exactMedian medianOf
  rw [Multiset.map_coe, ← pySorted_eq_sort]
  decide +kernel

end Pysad
