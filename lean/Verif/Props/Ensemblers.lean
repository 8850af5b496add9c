import Verif.Model.Ensemblers
import Verif.Proofs.Statistics
import Verif.Proofs.Moments
import Mathlib.Algebra.BigOperators.Fin

/-! Property C40: `pysad/transform/ensemble/ensemblers.py`. -/

namespace Pysad

open Spec

variable {K : Type*} [Field K] [LinearOrder K] [IsStrictOrderedRing K]

/-- What is expected of a way of combining scores: defined on every nonempty
score vector, between its smallest and largest score, independent of the order
of the detectors, and monotone in each detector's score. -/
structure Spec.Combines (combine : List K → Except PyErr K) : Prop where
  within : ∀ l, l ≠ [] → ∃ r, combine l = .ok r ∧ (∃ a ∈ l, a ≤ r) ∧ (∃ b ∈ l, r ≤ b)
  perm : ∀ l l', l.Perm l' → combine l = combine l'
  mono : ∀ l l' r r', List.Forall₂ (· ≤ ·) l l' → combine l = .ok r → combine l' = .ok r' → r ≤ r'

omit [IsStrictOrderedRing K] in
theorem average_eq (l : List K) (hl : l ≠ []) :
    pyodAverage none l = .ok (meanOf (l : Multiset K)) := by
  simp [pyodAverage, hl, meanOf]

/-- **C40**, `AverageScoreEnsembler()`. -/
theorem C40_average : Combines (pyodAverage (K := K) none) where
  within l hl := by
    refine ⟨_, average_eq l hl, ?_⟩
    have hm : (l : Multiset K) ≠ 0 := by simpa using hl
    constructor
    · by_contra h
      push Not at h
      obtain ⟨x, hx⟩ := List.exists_mem_of_ne_nil l hl
      have hlt : (l : Multiset K).sum > l.length * meanOf (l : Multiset K) := by
        have := List.sum_lt_sum_of_ne_nil hl (fun _ => meanOf (l : Multiset K)) id (fun a ha => h a ha)
        simpa [List.map_const', List.sum_replicate] using this
      have hpos := card_pos_of_ne hm
      unfold meanOf at hlt
      simp only [Multiset.sum_coe, Multiset.coe_card] at hlt hpos
      rw [mul_div_cancel₀ _ hpos.ne'] at hlt
      exact lt_irrefl _ hlt
    · by_contra h
      push Not at h
      obtain ⟨x, hx⟩ := List.exists_mem_of_ne_nil l hl
      have hlt : (l : Multiset K).sum < l.length * meanOf (l : Multiset K) := by
        have := List.sum_lt_sum_of_ne_nil hl id (fun _ => meanOf (l : Multiset K)) (fun a ha => h a ha)
        simpa [List.map_const', List.sum_replicate] using this
      have hpos := card_pos_of_ne hm
      unfold meanOf at hlt
      simp only [Multiset.sum_coe, Multiset.coe_card] at hlt hpos
      rw [mul_div_cancel₀ _ hpos.ne'] at hlt
      exact lt_irrefl _ hlt
  perm l l' h := by
    by_cases hl : l = []
    · subst hl; rw [h.nil_eq]
    · have hl' : l' ≠ [] := by rintro rfl; exact hl h.eq_nil
      rw [average_eq l hl, average_eq l' hl', Multiset.coe_eq_coe.2 h]
  mono l l' r r' h hr hr' := by
    have hlen := h.length_eq
    have hsum : l.sum ≤ l'.sum := h.sum_le_sum
    by_cases hl : l = []
    · subst hl; simp [pyodAverage] at hr
    · have hl' : l' ≠ [] := by rintro rfl; simp at hlen; exact hl hlen
      simp only [pyodAverage, hl, hl', if_false, Except.ok.injEq] at hr hr'
      rw [← hr, ← hr', hlen]
      gcongr

omit [IsStrictOrderedRing K] [Field K] in
theorem npMax_spec {K : Type*} [LinearOrder K] (l : List K) (hl : l ≠ []) :
    ∃ m, npMax l = some m ∧ m ∈ l ∧ ∀ x ∈ l, x ≤ m := by
  have h := npMax_isMax l
  cases hm : npMax l with
  | none => rw [hm] at h; simp [IsGreatestOf] at h; exact absurd h hl
  | some m => rw [hm] at h; exact ⟨m, rfl, by simpa [IsGreatestOf] using h⟩

/-- **C40**, `MaximumScoreEnsembler()`. -/
theorem C40_maximum : Combines (pyodMaximization (K := K)) where
  within l hl := by
    obtain ⟨m, h1, h2, -⟩ := npMax_spec l hl
    exact ⟨m, by simp [pyodMaximization, h1], ⟨m, h2, le_rfl⟩, ⟨m, h2, le_rfl⟩⟩
  perm l l' h := by
    by_cases hl : l = []
    · subst hl; rw [h.nil_eq]
    · have hl' : l' ≠ [] := by rintro rfl; exact hl h.eq_nil
      obtain ⟨m, h1, h2, h3⟩ := npMax_spec l hl
      obtain ⟨m', h1', h2', h3'⟩ := npMax_spec l' hl'
      have : m = m' := le_antisymm (h3' _ (h.subset h2)) (h3 _ (h.symm.subset h2'))
      simp [pyodMaximization, h1, h1', this]
  mono l l' r r' h hr hr' := by
    by_cases hl : l = []
    · subst hl; simp [pyodMaximization, npMax] at hr
    · have hl' : l' ≠ [] := by rintro rfl; have := h.length_eq; simp at this; exact hl this
      obtain ⟨m, h1, h2, h3⟩ := npMax_spec l hl
      obtain ⟨m', h1', h2', h3'⟩ := npMax_spec l' hl'
      simp only [pyodMaximization, h1, h1', Except.ok.injEq] at hr hr'
      subst hr hr'
      obtain ⟨i, hi, rfl⟩ := List.getElem_of_mem h2
      have hi' : i < l'.length := h.length_eq ▸ hi
      exact le_trans (h.get hi hi') (h3' _ (List.getElem_mem _))

/-! Sorting is monotone. -/

omit [Field K] [IsStrictOrderedRing K] in
theorem orderedInsert_le {l : List K} {x : K} (h : ∀ b ∈ l, x ≤ b) :
    l.orderedInsert (· ≤ ·) x = x :: l := by
  cases l with
  | nil => rfl
  | cons b l => simp [List.orderedInsert, h b (by simp)]

omit [Field K] [IsStrictOrderedRing K] in
theorem orderedInsert_mono {l l' : List K} (h : List.Forall₂ (· ≤ ·) l l')
    (hs : l.Pairwise (· ≤ ·)) (hs' : l'.Pairwise (· ≤ ·)) :
    ∀ a a' : K, a ≤ a' → List.Forall₂ (· ≤ ·) (l.orderedInsert (· ≤ ·) a)
      (l'.orderedInsert (· ≤ ·) a') := by
  induction h with
  | nil => intro a a' ha; simpa using ha
  | @cons x y l l' hxy hll ih =>
    intro a a' ha
    have ih := ih (List.Pairwise.of_cons hs) (List.Pairwise.of_cons hs')
    have e : l.orderedInsert (· ≤ ·) x = x :: l := orderedInsert_le (List.pairwise_cons.1 hs).1
    have e' : l'.orderedInsert (· ≤ ·) y = y :: l' := orderedInsert_le (List.pairwise_cons.1 hs').1
    by_cases h1 : a ≤ x <;> by_cases h2 : a' ≤ y <;> simp only [List.orderedInsert, h1, h2, if_true, if_false]
    · exact .cons ha (.cons hxy hll)
    · refine .cons (h1.trans hxy) ?_
      rw [← e]; exact ih x a' (hxy.trans (le_of_not_ge h2))
    · refine .cons ((le_of_not_ge h1).trans ha) ?_
      rw [← e']; exact ih a y (ha.trans h2)
    · exact .cons hxy (ih a a' ha)

omit [Field K] [IsStrictOrderedRing K] in
theorem pySorted_mono {l l' : List K} (h : List.Forall₂ (· ≤ ·) l l') :
    List.Forall₂ (· ≤ ·) (pySorted l) (pySorted l') := by
  have e : ∀ l : List K, pySorted l = l.insertionSort (· ≤ ·) := by
    intro l; unfold pySorted; simp only [not_lt]
  rw [e, e]
  induction h with
  | nil => simp
  | cons hxy _ ih =>
    simp only [List.insertionSort_cons]
    exact orderedInsert_mono ih (List.pairwise_insertionSort _ _) (List.pairwise_insertionSort _ _)
      _ _ hxy

omit [IsStrictOrderedRing K] in
theorem pyodMedian_eq (l : List K) :
    pyodMedian l = match medianOf (l : Multiset K) with
      | some b => .ok b
      | none => .error .valueError := by
  unfold pyodMedian medianOf
  rw [← pySorted_eq_sort]
  dsimp only
  split
  · split <;> simp_all
  · split <;> simp_all

/-- The elements behind a median. -/
theorem pyodMedian_cases {l : List K} {r : K} (h : pyodMedian l = .ok r) :
    ∃ i j, ∃ (hi : i < (pySorted l).length) (hj : j < (pySorted l).length),
      i = ((pySorted l).length - 1) / 2 ∧ j = (pySorted l).length / 2 ∧
      r = ((pySorted l)[i] + (pySorted l)[j]) / 2 := by
  unfold pyodMedian at h
  dsimp only at h
  generalize hL : pySorted l = L at *
  split at h
  · rename_i hodd
    split at h
    · rename_i a ha
      obtain ⟨hlt, rfl⟩ := List.getElem?_eq_some_iff.1 ha
      simp only [Except.ok.injEq] at h
      have e : (L.length - 1) / 2 = L.length / 2 := by omega
      refine ⟨_, _, by omega, hlt, rfl, rfl, ?_⟩
      simp only [e]; rw [h]; ring
    · simp at h
  · rename_i heven
    split at h
    · rename_i a b ha hb
      obtain ⟨hlt, rfl⟩ := List.getElem?_eq_some_iff.1 ha
      obtain ⟨hlt', rfl⟩ := List.getElem?_eq_some_iff.1 hb
      simp only [Except.ok.injEq] at h
      have e : (L.length - 1) / 2 = L.length / 2 - 1 := by omega
      exact ⟨_, _, by omega, hlt', rfl, rfl, by simp only [e]; exact h.symm⟩
    · simp at h

omit [Field K] [IsStrictOrderedRing K] in
theorem pySorted_perm (l : List K) : (pySorted l).Perm l := List.perm_insertionSort _ _

omit [IsStrictOrderedRing K] in
theorem pyodMedian_ok {l : List K} (hl : l ≠ []) : ∃ r, pyodMedian l = .ok r := by
  have hlen : 0 < (pySorted l).length := by
    rw [(pySorted_perm l).length_eq]; exact List.length_pos_iff.2 hl
  unfold pyodMedian
  dsimp only
  generalize pySorted l = L at *
  split
  · rw [List.getElem?_eq_getElem (by omega)]; exact ⟨_, rfl⟩
  · rw [List.getElem?_eq_getElem (by omega), List.getElem?_eq_getElem (by omega)]; exact ⟨_, rfl⟩

/-- **C40**, `MedianScoreEnsembler()`. -/
theorem C40_median : Combines (pyodMedian (K := K)) where
  within l hl := by
    obtain ⟨r, hr⟩ := pyodMedian_ok hl
    obtain ⟨i, j, hi, hj, -, -, e⟩ := pyodMedian_cases hr
    have hmi := (pySorted_perm l).subset (List.getElem_mem hi)
    have hmj := (pySorted_perm l).subset (List.getElem_mem hj)
    refine ⟨r, hr, ?_⟩
    rcases le_total (pySorted l)[i] (pySorted l)[j] with h | h
    · exact ⟨⟨_, hmi, by linarith⟩, ⟨_, hmj, by linarith⟩⟩
    · exact ⟨⟨_, hmj, by linarith⟩, ⟨_, hmi, by linarith⟩⟩
  perm l l' h := by rw [pyodMedian_eq, pyodMedian_eq, Multiset.coe_eq_coe.2 h]
  mono l l' r r' h hr hr' := by
    have hs := pySorted_mono h
    obtain ⟨i, j, hi, hj, ei, ej, e⟩ := pyodMedian_cases hr
    obtain ⟨i', j', hi', hj', ei', ej', e'⟩ := pyodMedian_cases hr'
    have hlen := hs.length_eq
    have hii : i = i' := by rw [ei, ei', hlen]
    have hjj : j = j' := by rw [ej, ej', hlen]
    subst hii hjj
    have h1 : (pySorted l)[i] ≤ (pySorted l')[i] := hs.get hi hi'
    have h2 : (pySorted l)[j] ≤ (pySorted l')[j] := hs.get hj hj'
    rw [e, e']; linarith

/-- **C40**, the values: `AverageScoreEnsembler` returns the mean of the scores,
`MaximumScoreEnsembler` the greatest of them and `MedianScoreEnsembler` their median. -/
theorem C40_values (scores : List K) (hne : scores ≠ []) :
    pyodAverage none scores = .ok (meanOf (scores : Multiset K)) ∧
    (∃ m ∈ scores, (∀ x ∈ scores, x ≤ m) ∧ pyodMaximization scores = .ok m) ∧
    ∃ m, medianOf (scores : Multiset K) = some m ∧ pyodMedian scores = .ok m := by
  refine ⟨average_eq scores hne, ?_, ?_⟩
  · obtain ⟨m, h1, h2, h3⟩ := npMax_spec scores hne
    exact ⟨m, h2, h3, by simp [pyodMaximization, h1]⟩
  · obtain ⟨r, hr⟩ := pyodMedian_ok hne
    have h := pyodMedian_eq scores
    rw [hr] at h
    cases hm : medianOf (scores : Multiset K) with
    | none => rw [hm] at h; cases h
    | some m => rw [hm] at h; exact ⟨m, rfl, by rw [hr, h]⟩

/-! ### Buckets -/

omit [LinearOrder K] [IsStrictOrderedRing K] in
theorem buckets_sum (size : ℕ) : ∀ (k : ℕ) (l : List K), l.length = k * size →
    ((List.range k).map fun i => ((l.drop (i * size)).take size).sum).sum = l.sum := by
  intro k
  induction k with
  | zero => intro l h; simp at h; simp [h]
  | succ k ih =>
    intro l h
    have h' : l.length = k * size + size := by rw [h]; ring
    rw [List.range_succ, List.map_append, List.sum_append]
    have hpre : ((List.range k).map fun i => ((l.drop (i * size)).take size).sum) =
        (List.range k).map fun i => (((l.take (k * size)).drop (i * size)).take size).sum := by
      refine List.map_congr_left fun i hi => ?_
      have hi : i + 1 ≤ k := List.mem_range.1 hi
      have : (i + 1) * size ≤ k * size := Nat.mul_le_mul_right _ hi
      have e : (i + 1) * size = i * size + size := by ring
      rw [List.drop_take, List.take_take, min_eq_left (by omega)]
    rw [hpre, ih (l.take (k * size)) (by simp; omega)]
    simp only [List.map_cons, List.map_nil, List.sum_cons, List.sum_nil, add_zero]
    rw [List.take_of_length_le (l := l.drop (k * size)) (by simp; omega), ← List.sum_append,
      List.take_append_drop]

/-- The buckets of a score row of `k * size` scores. -/
theorem staticBuckets_facts {size k : ℕ} (hs : 0 < size) {l : List K} (h : l.length = k * size) :
    staticBuckets size l = (List.range k).map (fun i => (l.drop (i * size)).take size) ∧
    ∀ b ∈ staticBuckets size l, b.length = size ∧ b ≠ [] ∧ ∀ x ∈ b, x ∈ l := by
  have e : l.length / size = k := by rw [h]; exact Nat.mul_div_cancel _ hs
  have e1 : staticBuckets size l = (List.range k).map (fun i => (l.drop (i * size)).take size) := by
    unfold staticBuckets; rw [e]
  refine ⟨e1, ?_⟩
  rw [e1]
  intro b hb
  obtain ⟨i, hi, rfl⟩ := List.mem_map.1 hb
  have hi : i + 1 ≤ k := List.mem_range.1 hi
  have : (i + 1) * size ≤ k * size := Nat.mul_le_mul_right _ hi
  have e : (i + 1) * size = i * size + size := by ring
  have hlen : ((l.drop (i * size)).take size).length = size := by simp; omega
  refine ⟨hlen, fun h0 => ?_, fun x hx => List.mem_of_mem_drop (List.mem_of_mem_take hx)⟩
  rw [h0] at hlen; simp at hlen; omega

theorem mapM_ok {α β : Type*} {f : α → Except PyErr β} {g : α → β} :
    ∀ {l : List α}, (∀ a ∈ l, f a = .ok (g a)) → l.mapM f = .ok (l.map g) := by
  intro l
  induction l with
  | nil => intro _; rfl
  | cons a l ih =>
    intro h
    rw [List.mapM_cons, h a (by simp), ih fun b hb => h b (by simp [hb])]
    rfl

/-- Mean of the bucket means is the mean. -/
theorem mean_of_bucket_means {size k : ℕ} (hs : 0 < size) (hk : 0 < k) {l : List K}
    (h : l.length = k * size) :
    meanOf ((staticBuckets size l).map (fun b : List K => meanOf (b : Multiset K)) : List K) =
      meanOf (l : Multiset K) := by
  obtain ⟨e1, e2⟩ := staticBuckets_facts hs h
  have hb : (staticBuckets size l).map (fun b : List K => meanOf (b : Multiset K)) =
      (staticBuckets size l).map fun b : List K => b.sum / (size : K) :=
    List.map_congr_left fun b hb => by simp [meanOf, (e2 b hb).1]
  have hs' : (size : K) ≠ 0 := by exact_mod_cast hs.ne'
  have hk' : (k : K) ≠ 0 := by exact_mod_cast hk.ne'
  have hsum : ((staticBuckets size l).map fun b : List K => b.sum / (size : K)).sum = l.sum / size := by
    have := buckets_sum size k l h
    rw [← this, e1, List.map_map]
    simp only [div_eq_mul_inv]
    rw [← List.sum_map_mul_right]
    rfl
  unfold meanOf at hb ⊢
  rw [hb]
  simp only [Multiset.sum_coe, Multiset.coe_card, hsum, h]
  rw [e1]
  simp only [List.length_map, List.length_range]
  push_cast
  field_simp

/-- **C40**, `AverageOfMaximumScoreEnsembler(n_buckets)` with static buckets: for
every score row whose number of detectors is a positive multiple of `n_buckets`
and every shuffle of it, average <= result <= maximum. -/
theorem C40_aom (nBuckets : ℕ) (hb : 0 < nBuckets) (scores shuffled : List K)
    (hp : shuffled.Perm scores) (hne : scores ≠ []) (hd : scores.length % nBuckets = 0) :
    ∃ avg r mx, pyodAverage none scores = .ok avg ∧ pyodAom nBuckets shuffled = .ok r ∧
      pyodMaximization scores = .ok mx ∧ avg ≤ r ∧ r ≤ mx := by
  obtain ⟨mx, hmx, hmem, hmax⟩ := npMax_spec scores hne
  have hlen : shuffled.length = nBuckets * (shuffled.length / nBuckets) := by
    rw [hp.length_eq]; exact (Nat.mul_div_cancel' (Nat.dvd_of_mod_eq_zero hd)).symm
  have hs : 0 < shuffled.length / nBuckets := by
    rcases Nat.eq_zero_or_pos (shuffled.length / nBuckets) with h | h
    · rw [h] at hlen
      have : 0 < scores.length := List.length_pos_iff.2 hne
      have := hp.length_eq; omega
    · exact h
  obtain ⟨e1, e2⟩ := staticBuckets_facts hs hlen
  set size := shuffled.length / nBuckets with hsize
  let g : List K → K := fun b => (npMax b).getD 0
  have hg : ∀ b ∈ staticBuckets size shuffled, pyodMaximization b = .ok (g b) ∧
      (∀ x ∈ b, x ≤ g b) ∧ g b ∈ b := by
    intro b hb
    obtain ⟨m, h1, h2, h3⟩ := npMax_spec b (e2 b hb).2.1
    simp [pyodMaximization, g, h1, h2]; exact h3
  have hne' : (staticBuckets size shuffled).map g ≠ [] := by
    rw [e1]; simp; omega
  refine ⟨_, meanOf ((staticBuckets size shuffled).map g : List K), mx, average_eq scores hne, ?_,
    by simp [pyodMaximization, hmx], ?_, ?_⟩
  · unfold pyodAom pyodBuckets
    rw [if_neg (by rw [hp.length_eq]; simpa using hd), mapM_ok fun b hb => (hg b hb).1]
    exact average_eq _ hne'
  · rw [← Multiset.coe_eq_coe.2 hp, ← mean_of_bucket_means hs hb hlen]
    unfold meanOf
    simp only [Multiset.sum_coe, Multiset.coe_card, List.length_map]
    gcongr
    apply List.sum_le_sum
    intro b hb
    have hbm : (b : Multiset K) ≠ 0 := by simpa using (e2 b hb).2.1
    exact meanOf_le hbm fun x hx => (hg b hb).2.1 x (by simpa using hx)
  · refine meanOf_le (by simpa using hne') fun x hx => ?_
    simp only [Multiset.mem_coe, List.mem_map] at hx
    obtain ⟨b, hb, rfl⟩ := hx
    exact hmax _ (hp.subset ((e2 b hb).2.2 _ (hg b hb).2.2))

/-- **C40**, `MaximumOfAverageScoreEnsembler(n_buckets)` with static buckets. -/
theorem C40_moa (nBuckets : ℕ) (hb : 0 < nBuckets) (scores shuffled : List K)
    (hp : shuffled.Perm scores) (hne : scores ≠ []) (hd : scores.length % nBuckets = 0) :
    ∃ avg r mx, pyodAverage none scores = .ok avg ∧ pyodMoa nBuckets shuffled = .ok r ∧
      pyodMaximization scores = .ok mx ∧ avg ≤ r ∧ r ≤ mx := by
  obtain ⟨mx, hmx, hmem, hmax⟩ := npMax_spec scores hne
  have hlen : shuffled.length = nBuckets * (shuffled.length / nBuckets) := by
    rw [hp.length_eq]; exact (Nat.mul_div_cancel' (Nat.dvd_of_mod_eq_zero hd)).symm
  have hs : 0 < shuffled.length / nBuckets := by
    rcases Nat.eq_zero_or_pos (shuffled.length / nBuckets) with h | h
    · rw [h] at hlen
      have : 0 < scores.length := List.length_pos_iff.2 hne
      have := hp.length_eq; omega
    · exact h
  obtain ⟨e1, e2⟩ := staticBuckets_facts hs hlen
  set size := shuffled.length / nBuckets with hsize
  let g : List K → K := fun b : List K => meanOf (b : Multiset K)
  have hne' : (staticBuckets size shuffled).map g ≠ [] := by
    rw [e1]; simp; omega
  obtain ⟨r, hr1, hr2, hr3⟩ := npMax_spec _ hne'
  refine ⟨_, r, mx, average_eq scores hne, ?_, by simp [pyodMaximization, hmx], ?_, ?_⟩
  · unfold pyodMoa pyodBuckets
    rw [if_neg (by rw [hp.length_eq]; simpa using hd),
      mapM_ok fun b hb => average_eq b (e2 b hb).2.1]
    change pyodMaximization _ = _
    simp only [pyodMaximization]
    rw [show npMax ((staticBuckets size shuffled).map fun b : List K => meanOf (b : Multiset K)) = some r
      from hr1]
  · rw [← Multiset.coe_eq_coe.2 hp, ← mean_of_bucket_means hs hb hlen]
    exact meanOf_le (by simpa using hne') fun x hx => hr3 x (by simpa using hx)
  · obtain ⟨b, hb, rfl⟩ := List.mem_map.1 hr2
    have hbm : (b : Multiset K) ≠ 0 := by simpa using (e2 b hb).2.1
    exact meanOf_le hbm fun x hx => hmax x (hp.subset ((e2 b hb).2.2 x (by simpa using hx)))

/-- **C40**: fitting an ensembler has no effect, and transforming does not change
it; the batch result is the combination of each row. -/
theorem C40_stateless (combine : List K → Except PyErr K) (s : Unit) (scores : List K) :
    (scoreEnsembler combine).fitPartial s scores = .ok () s ∧
    ((scoreEnsembler combine).transformPartial s scores).out = combine scores := by
  refine ⟨rfl, ?_⟩
  simp only [scoreEnsembler]
  cases combine scores <;> rfl

/-- **C40**, `AverageScoreEnsembler(estimator_weights)`: with one weight for each of the scores
(at least one) the result is the sum of weight times score over the sum of the weights; with
another number of weights `ValueError` is raised. -/
theorem C40_weighted_value (weights scores : List K) :
    (weights.length = scores.length → scores ≠ [] → pyodAverage (some weights) scores
      = .ok ((∑ i : Fin scores.length, weights.getD i 0 * scores[i]) / weights.sum)) ∧
    (weights.length ≠ scores.length →
      pyodAverage (some weights) scores = .error .valueError) := by
  constructor
  · intro hl hne
    simp only [pyodAverage, hl, hne, ne_eq, not_true_eq_false, or_self, if_false]
    congr 2
    clear hne
    induction scores generalizing weights with
    | nil => simp
    | cons x xs ih =>
      cases weights with
      | nil => simp at hl
      | cons w ws =>
        rw [List.zipWith_cons_cons, List.sum_cons, ih ws (by simpa using hl)]
        simp only [List.length_cons, Fin.sum_univ_succ]
        congr 1
        simp [mul_comm]
  · intro hl
    simp [pyodAverage, hl]

/-- A weighted average with nonnegative weights of positive sum stays within the
score range. -/
theorem C40_weighted_average (weights scores : List K) (hl : weights.length = scores.length)
    (hw : ∀ w ∈ weights, 0 ≤ w) (hpos : 0 < weights.sum) (lo hi : K)
    (hlo : ∀ x ∈ scores, lo ≤ x) (hhi : ∀ x ∈ scores, x ≤ hi) :
    ∃ r, pyodAverage (some weights) scores = .ok r ∧ lo ≤ r ∧ r ≤ hi := by
  have hne : scores ≠ [] := by rintro rfl; simp at hl; subst hl; simp at hpos
  refine ⟨_, by simp only [pyodAverage, hl, hne, ne_eq, not_true_eq_false, or_self, if_false]; rfl,
    ?_, ?_⟩
  · rw [le_div_iff₀ hpos]
    clear hpos hne
    induction scores generalizing weights with
    | nil => simp at hl; subst hl; simp
    | cons x xs ih =>
      cases weights with
      | nil => simp at hl
      | cons w ws =>
        have := ih ws (by simpa using hl) (fun w hw' => hw w (by simp [hw']))
          (fun x hx => hlo x (by simp [hx])) (fun x hx => hhi x (by simp [hx]))
        have h1 := mul_le_mul_of_nonneg_right (hlo x (by simp)) (hw w (by simp))
        simp only [List.sum_cons, List.zipWith_cons_cons, mul_add]
        linarith
  · rw [div_le_iff₀ hpos]
    clear hpos hne
    induction scores generalizing weights with
    | nil => simp at hl; subst hl; simp
    | cons x xs ih =>
      cases weights with
      | nil => simp at hl
      | cons w ws =>
        have := ih ws (by simpa using hl) (fun w hw' => hw w (by simp [hw']))
          (fun x hx => hlo x (by simp [hx])) (fun x hx => hhi x (by simp [hx]))
        have h1 := mul_le_mul_of_nonneg_right (hhi x (by simp)) (hw w (by simp))
        simp only [List.sum_cons, List.zipWith_cons_cons, mul_add]
        linarith

/-! The two bucket methods are not comparable with each other. -/
example : pyodAom 2 [10, 10, 0, (0 : ℚ)] = .ok 5 ∧ pyodMoa 2 [10, 10, 0, (0 : ℚ)] = .ok 10 := by
  decide +kernel
example : pyodAom 2 [10, 0, 10, (0 : ℚ)] = .ok 10 ∧ pyodMoa 2 [10, 0, 10, (0 : ℚ)] = .ok 5 := by
  decide +kernel
example : pyodMedian [3, 1, 10, (2 : ℚ)] = .ok (5 / 2) := by decide +kernel

end Pysad
