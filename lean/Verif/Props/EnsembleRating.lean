import Verif.Props.BetterRanking
import Verif.Props.BucketEnsemblers
import Verif.Props.Smoothing
import Mathlib.Algebra.BigOperators.Fin
import Mathlib.Algebra.BigOperators.Field

/-! Property C172: how an ensemble is rated compared with its detectors. -/

namespace Pysad

open Spec

/-- The ways of combining scores that need no further parameter: average, maximum, median. -/
inductive Spec.PlainCombination (K : Type*) [Field K] [LinearOrder K] : (List K → Except PyErr K) → Prop
  | average : PlainCombination K (pyodAverage none)
  | maximum : PlainCombination K pyodMaximization
  | median : PlainCombination K pyodMedian

/-- The ways of combining the scores of `m` detectors: the plain ones, and the average with a weight for each detector. -/
inductive Spec.Combination (K : Type*) [Field K] [LinearOrder K] (m : ℕ) : (List K → Except PyErr K) → Prop
  | plain {c : List K → Except PyErr K} : PlainCombination K c → Combination K m c
  | weighted (w : List K) : w.length = m → (∀ x ∈ w, 0 ≤ x) → 0 < w.sum → Combination K m (pyodAverage (some w))

/-- On the labelled score rows `data` of `m` detectors the ensemble answers `out`, is rated `e` by AUROC,
and the detectors alone are rated `d`. -/
structure Spec.Rated {K : Type*} [Field K] [LinearOrder K] (combine : List K → Except PyErr K) (m : ℕ)
    (data : List (Bool × List K)) (out : List K) (e : K) (d : Fin m → K) : Prop where
  answers : (scoreEnsembler combine).transform () (data.map (·.2)) = .ok out ()
  ensemble : reported (aurocMetric rocAucCurve) (data.map (·.1)) out = .ok e
  members : ∀ i : Fin m, reported (aurocMetric rocAucCurve) (data.map (·.1))
    (data.map fun q => q.2.getD i 0) = .ok (d i)

section
variable {K : Type*} [Field K] [LinearOrder K] [IsStrictOrderedRing K]

private theorem plain_combines {c : List K → Except PyErr K} (h : PlainCombination K c) : Combines c := by
  cases h
  · exact C40_average
  · exact C40_maximum
  · exact C40_median

/-- Adding the same amount to all scores adds it to the combined one. -/
private theorem plain_shift {c : List K → Except PyErr K} (h : PlainCombination K c) (l : List K) (b r : K)
    (hr : c l = .ok r) : c (l.map (· + b)) = .ok (r + b) := by
  have hl : l ≠ [] := by
    rintro rfl
    cases h <;> simp [pyodAverage, pyodMaximization, pyodMedian, npMax, pySorted] at hr
  have hl' : l.map (· + b) ≠ [] := by simpa using hl
  cases h
  · rw [average_eq l hl] at hr
    cases hr
    rw [average_eq _ hl']
    have := meanOf_affine (m := (l : Multiset K)) (by simpa using hl) 1 b
    simp only [one_mul, Multiset.map_coe] at this
    rw [this]
  · obtain ⟨m, h1, h2, h3⟩ := npMax_spec l hl
    obtain ⟨m', h1', h2', h3'⟩ := npMax_spec (l.map (· + b)) hl'
    simp only [pyodMaximization, h1, Except.ok.injEq] at hr
    subst hr
    simp only [pyodMaximization, h1', Except.ok.injEq]
    apply le_antisymm
    · obtain ⟨x, hx, rfl⟩ := List.mem_map.1 h2'
      have := h3 x hx
      simpa using this
    · exact h3' _ (List.mem_map.2 ⟨m, h2, rfl⟩)
  · have h1 := pyodMedian_eq l
    have h2 := pyodMedian_eq (l.map (· + b))
    rw [hr] at h1
    have h3 := Smoothing.medianOf_affine 1 b one_pos (l : Multiset K)
    simp only [one_mul] at h3
    rw [h2, ← Multiset.map_coe, h3]
    cases hm : medianOf (l : Multiset K) with
    | none => rw [hm] at h1; cases h1
    | some m => rw [hm] at h1; cases h1; rfl

/-- If every score is higher, so is the combined one. -/
private theorem plain_strict {c : List K → Except PyErr K} (h : PlainCombination K c) {l l' : List K} {r r' : K}
    (hl : List.Forall₂ (· < ·) l l') (hr : c l = .ok r) (hr' : c l' = .ok r') : r < r' := by
  have he : ∃ b : K, 0 < b ∧ List.Forall₂ (· ≤ ·) (l.map (· + b)) l' := by
    clear hr hr'
    induction hl with
    | nil => exact ⟨1, one_pos, .nil⟩
    | @cons x y l l' hxy _ ih =>
      obtain ⟨b, hb, hf⟩ := ih
      refine ⟨min b (y - x), lt_min hb (sub_pos.2 hxy), ?_⟩
      refine List.Forall₂.cons (by linarith [min_le_right b (y - x)]) ?_
      clear hxy
      generalize hc : min b (y - x) = c
      have hcb : c ≤ b := hc ▸ min_le_left _ _
      clear hc
      generalize hm : l.map (· + b) = k at hf
      induction hf generalizing l with
      | nil => simp at hm; subst hm; exact .nil
      | cons hab _ ih =>
        cases l with
        | nil => simp at hm
        | cons z l =>
          simp only [List.map_cons, List.cons.injEq] at hm
          obtain ⟨rfl, hm⟩ := hm
          exact .cons (by linarith) (ih (by cases ‹List.Forall₂ (· < ·) (z :: l) _›; assumption) hm)
  obtain ⟨b, hb, hf⟩ := he
  have := (plain_combines h).mono _ _ _ _ hf (plain_shift h l b r hr) hr'
  linarith

omit [LinearOrder K] [IsStrictOrderedRing K] in
private theorem weighted_eq {w l : List K} {r : K} (h : pyodAverage (some w) l = .ok r) :
    w.length = l.length ∧ r = (List.zipWith (· * ·) l w).sum / w.sum := by
  unfold pyodAverage at h
  by_cases hc : w.length ≠ l.length ∨ l = []
  · simp only [if_pos hc] at h; cases h
  · simp only [if_neg hc] at h
    cases h
    push Not at hc
    exact ⟨hc.1, rfl⟩

private theorem weighted_le {w l l' : List K} (hw : ∀ x ∈ w, 0 ≤ x) (hl : List.Forall₂ (· ≤ ·) l l') :
    (List.zipWith (· * ·) l w).sum ≤ (List.zipWith (· * ·) l' w).sum := by
  induction hl generalizing w with
  | nil => simp
  | cons hab _ ih =>
    cases w with
    | nil => simp
    | cons x w =>
      simp only [List.zipWith_cons_cons, List.sum_cons]
      exact add_le_add (mul_le_mul_of_nonneg_right hab (hw x (by simp))) (ih fun y hy => hw y (by simp [hy]))

private theorem weighted_lt {w l l' : List K} (hw : ∀ x ∈ w, 0 ≤ x) (hlen : w.length = l.length)
    (hl : List.Forall₂ (· < ·) l l') (hs : 0 < w.sum) :
    (List.zipWith (· * ·) l w).sum < (List.zipWith (· * ·) l' w).sum := by
  induction hl generalizing w with
  | nil =>
    rw [List.length_nil, List.length_eq_zero_iff] at hlen
    subst hlen
    simp at hs
  | @cons a b l l' hab hll ih =>
    cases w with
    | nil => simp at hs
    | cons x w =>
      simp only [List.zipWith_cons_cons, List.sum_cons] at hs ⊢
      have hw' : ∀ y ∈ w, 0 ≤ y := fun y hy => hw y (by simp [hy])
      rcases (hw x (by simp)).lt_or_eq with hx | hx
      · exact add_lt_add_of_lt_of_le (mul_lt_mul_of_pos_right hab hx)
          (weighted_le hw' (hll.imp fun _ _ h => h.le))
      · rw [← hx] at hs ⊢
        simp only [zero_add, mul_zero] at hs ⊢
        exact ih hw' (by simpa using hlen) hs

private theorem comb_ok {m : ℕ} (hm : 0 < m) {c : List K → Except PyErr K} (h : Combination K m c) {l : List K}
    (hl : l.length = m) : ∃ r, c l = .ok r := by
  have hne : l ≠ [] := by rintro rfl; simp at hl; omega
  cases h with
  | plain h =>
    obtain ⟨r, hr, -⟩ := (plain_combines h).within l hne
    exact ⟨r, hr⟩
  | weighted w hw _ _ =>
    refine ⟨(List.zipWith (· * ·) l w).sum / w.sum, ?_⟩
    unfold pyodAverage
    simp only [if_neg (show ¬ (w.length ≠ l.length ∨ l = []) by simp [hw, hl, hne])]

private theorem comb_mono {m : ℕ} {c : List K → Except PyErr K} (h : Combination K m c) {l l' : List K} {r r' : K}
    (hl : List.Forall₂ (· ≤ ·) l l') (hr : c l = .ok r) (hr' : c l' = .ok r') : r ≤ r' := by
  cases h with
  | plain h => exact (plain_combines h).mono _ _ _ _ hl hr hr'
  | weighted w _ h0 hs =>
    obtain ⟨-, rfl⟩ := weighted_eq hr
    obtain ⟨-, rfl⟩ := weighted_eq hr'
    exact div_le_div_of_nonneg_right (weighted_le h0 hl) hs.le

private theorem comb_strict {m : ℕ} {c : List K → Except PyErr K} (h : Combination K m c) {l l' : List K} {r r' : K}
    (hl : List.Forall₂ (· < ·) l l') (hr : c l = .ok r) (hr' : c l' = .ok r') : r < r' := by
  cases h with
  | plain h => exact plain_strict h hl hr hr'
  | weighted w _ h0 hs =>
    obtain ⟨hlen, rfl⟩ := weighted_eq hr
    obtain ⟨-, rfl⟩ := weighted_eq hr'
    exact div_lt_div_of_pos_right (weighted_lt h0 hlen hl hs) hs

/-- The combined score. -/
private def value (c : List K → Except PyErr K) (l : List K) : K :=
  match c l with
  | .ok r => r
  | .error _ => 0

private theorem value_eq {m : ℕ} (hm : 0 < m) {c : List K → Except PyErr K} (h : Combination K m c) {l : List K}
    (hl : l.length = m) : c l = .ok (value c l) := by
  obtain ⟨r, hr⟩ := comb_ok hm h hl
  rw [value, hr]

private theorem transform_eq {m : ℕ} (hm : 0 < m) {c : List K → Except PyErr K} (h : Combination K m c)
    (rows : List (List K)) (hr : ∀ l ∈ rows, l.length = m) : (scoreEnsembler c).transform () rows = .ok (rows.map (value c)) () := by
  rw [(C22_postprocessor_in_order _ () rows).2.1]
  induction rows with
  | nil => rfl
  | cons l rows ih =>
    have ih := ih fun l hl => hr l (by simp [hl])
    have h0 : (scoreEnsembler c).transformPartial () l = .ok (value c l) () := by
      simp only [scoreEnsembler, value_eq hm h (hr l (by simp))]; rfl
    simp only [inOrder, h0, List.map_cons]
    rw [ih]

private theorem duel_range (a n : K) : 0 ≤ 1 - duel a n := by linarith [duel_le a n]

/-- A pair of rows: what the ensemble loses is at most what its detectors lose together. -/
private theorem pair_loss {c : List K → Except PyErr K} (m : ℕ) (h : Combination K m c) (hm : 0 < m)
    (a n : List K) (ha : a.length = m) (hn : n.length = m) :
    1 - duel (value c a) (value c n) ≤ ∑ i : Fin m, (1 - duel (a.getD i 0) (n.getD i 0)) := by
  have hle : ∀ i : Fin m, 1 - duel (a.getD i 0) (n.getD i 0) ≤
      ∑ i : Fin m, (1 - duel (a.getD i 0) (n.getD i 0)) := fun i =>
    Finset.single_le_sum (f := fun i : Fin m => 1 - duel (a.getD i 0) (n.getD i 0))
      (fun i _ => duel_range _ _) (Finset.mem_univ i)
  have hd0 : ∀ x y : K, 0 ≤ duel x y := by intro x y; unfold duel; split_ifs <;> norm_num
  have hget : ∀ (l : List K) (i : ℕ) (hi : i < l.length), l.getD i 0 = l[i] := by
    intro l i hi; rw [List.getD_eq_getElem?_getD, List.getElem?_eq_getElem hi]; rfl
  by_cases h1 : ∃ i : Fin m, a.getD i 0 < n.getD i 0
  · obtain ⟨i, hi⟩ := h1
    refine le_trans ?_ (hle i)
    have : duel (a.getD i 0) (n.getD i 0) = 0 := by
      unfold duel; rw [if_neg hi.not_gt, if_neg hi.ne']
    rw [this]
    linarith [hd0 (value c a) (value c n)]
  push Not at h1
  by_cases h2 : ∃ i : Fin m, a.getD i 0 = n.getD i 0
  · obtain ⟨i, hi⟩ := h2
    refine le_trans ?_ (hle i)
    rw [hi]
    have e : duel (n.getD i 0) (n.getD i 0) = 1 / 2 := by unfold duel; simp
    rw [e]
    have hge : value c n ≤ value c a := by
      refine comb_mono h ?_ (value_eq hm h hn) (value_eq hm h ha)
      rw [List.forall₂_iff_get]
      refine ⟨by omega, fun j hj hj' => ?_⟩
      have := h1 ⟨j, by omega⟩
      rwa [hget a j hj', hget n j hj] at this
    have : 1 / 2 ≤ duel (value c a) (value c n) := by
      unfold duel
      rcases lt_or_eq_of_le hge with h | h
      · rw [if_pos h]; norm_num
      · rw [h]; simp
    linarith
  · push Not at h2
    have hgt : value c n < value c a := by
      refine comb_strict h ?_ (value_eq hm h hn) (value_eq hm h ha)
      rw [List.forall₂_iff_get]
      refine ⟨by omega, fun j hj hj' => ?_⟩
      have h3 := h1 ⟨j, by omega⟩
      have h4 := h2 ⟨j, by omega⟩
      rw [hget a j hj', hget n j hj] at h3 h4
      exact lt_of_le_of_ne h3 h4.symm
    have : duel (value c a) (value c n) = 1 := by unfold duel; rw [if_pos hgt]
    rw [this, sub_self]
    exact Finset.sum_nonneg fun i _ => duel_range _ _

/-- The rows of the instances with the given label. -/
private def rowsOf (b : Bool) (data : List (Bool × List K)) : List (List K) :=
  (data.filter fun q => q.1 == b).map (·.2)

omit [Field K] [LinearOrder K] [IsStrictOrderedRing K] in
private theorem anomalies_rows (data : List (Bool × List K)) (f : List K → K) :
    anomalies (data.map fun q => (q.1, f q.2)) = (rowsOf true data).map f := by
  induction data with
  | nil => rfl
  | cons q data ih =>
    obtain ⟨b, x⟩ := q
    cases b <;> simpa [anomalies, rowsOf] using ih

omit [Field K] [LinearOrder K] [IsStrictOrderedRing K] in
private theorem normals_rows (data : List (Bool × List K)) (f : List K → K) :
    normals (data.map fun q => (q.1, f q.2)) = (rowsOf false data).map f := by
  induction data with
  | nil => rfl
  | cons q data ih =>
    obtain ⟨b, x⟩ := q
    cases b <;> simpa [normals, rowsOf] using ih

/-- What scores lose: the fraction of duels not won. -/
private theorem loss_eq (data : List (Bool × List K)) (f : List K → K) (h1 : rowsOf true data ≠ [])
    (h2 : rowsOf false data ≠ []) :
    1 - rankingProbability (data.map fun q => (q.1, f q.2)) =
      ((rowsOf true data).map fun a => ((rowsOf false data).map fun n => 1 - duel (f a) (f n)).sum).sum /
        ((rowsOf true data).length * (rowsOf false data).length) := by
  have ha' : (0 : K) < (rowsOf true data).length := by exact_mod_cast List.length_pos_iff.2 h1
  have hn' : (0 : K) < (rowsOf false data).length := by exact_mod_cast List.length_pos_iff.2 h2
  unfold rankingProbability
  rw [anomalies_rows, normals_rows]
  simp only [List.map_map, Function.comp_def, List.length_map]
  generalize rowsOf false data = N at *
  generalize rowsOf true data = A at *
  have e1 : ∀ a : List K, (N.map fun n => 1 - duel (f a) (f n)).sum =
      N.length - (N.map fun n => duel (f a) (f n)).sum := by
    intro a
    clear h2 hn'
    induction N with
    | nil => simp
    | cons n t ih => simp only [List.map_cons, List.sum_cons, ih, List.length_cons]; push_cast; ring
  simp only [e1]
  have e2 : ∀ (g : List K → K) (c : K) (A : List (List K)), (A.map fun a => c - g a).sum =
      A.length * c - (A.map g).sum := by
    intro g c A
    induction A with
    | nil => simp
    | cons n t ih => simp only [List.map_cons, List.sum_cons, ih, List.length_cons]; push_cast; ring
  rw [e2, sub_div, div_self (by positivity)]

omit [LinearOrder K] [IsStrictOrderedRing K] in
private theorem sum_fin_list {α : Type*} {m : ℕ} (l : List α) (g : α → Fin m → K) :
    (l.map fun a => ∑ i, g a i).sum = ∑ i, (l.map fun a => g a i).sum := by
  induction l with
  | nil => simp
  | cons a l ih => simp [ih, Finset.sum_add_distrib]

omit [Field K] [LinearOrder K] [IsStrictOrderedRing K] in
private theorem rowsOf_ne {data : List (Bool × List K)} {b : Bool} (h : b ∈ data.map (·.1)) :
    rowsOf b data ≠ [] := by
  obtain ⟨q, hq, rfl⟩ := List.mem_map.1 h
  exact List.ne_nil_of_mem (List.mem_map.2 ⟨q, List.mem_filter.2 ⟨hq, by simp⟩, rfl⟩)

/-- The full claim of **C172**: an ensemble is not rated below all of its detectors. -/
def C172_statement (combine : List ℚ → Except PyErr ℚ) : Prop :=
  ∀ (m : ℕ), 0 < m → ∀ (data : List (Bool × List ℚ)), (∀ q ∈ data, q.2.length = m) →
    true ∈ data.map (·.1) → false ∈ data.map (·.1) →
    ∃ out e d, Rated combine m data out e d ∧ ∃ i, d i ≤ e

/-- **C172**, what holds instead: what an ensemble (average, weighted average, maximum or median) falls short of a perfect
AUROC is at most what its detectors fall short together.
Missing: at most what the worst of them falls short (`C172_average_refuted`, `C172_maximum_refuted`,
`C172_median_refuted`). -/
theorem C172_shortfall_partial (combine : List K → Except PyErr K) (m : ℕ) (hm : 0 < m)
    (hc : Combination K m combine) (data : List (Bool × List K)) (hd : ∀ q ∈ data, q.2.length = m)
    (h1 : true ∈ data.map (·.1)) (h2 : false ∈ data.map (·.1)) :
    ∃ out e d, Rated combine m data out e d ∧ 1 - e ≤ ∑ i, (1 - d i) := by
  have hz : ∀ f : List K → K, (data.map (·.1)).zip (data.map fun q => f q.2) =
      data.map fun q => (q.1, f q.2) := fun f => List.zip_map'
  have hrate : ∀ f : List K → K, reported (aurocMetric rocAucCurve) (data.map (·.1))
      (data.map fun q => f q.2) = .ok (rankingProbability (data.map fun q => (q.1, f q.2))) := by
    intro f
    rw [auroc_reported _ _ (by simp) h1 h2, hz]
  have ht := transform_eq hm hc (data.map (·.2)) (by
    intro l hl
    obtain ⟨q, hq, rfl⟩ := List.mem_map.1 hl
    exact hd q hq)
  rw [List.map_map] at ht
  refine ⟨_, _, fun i => _, ⟨ht, hrate (value combine), fun i => hrate fun l => l.getD i 0⟩, ?_⟩
  have r1 := rowsOf_ne h1
  have r2 := rowsOf_ne h2
  rw [loss_eq data _ r1 r2]
  have hsum : ∑ i : Fin m, (1 - rankingProbability (data.map fun q => (q.1, q.2.getD i 0))) =
      (∑ i : Fin m, ((rowsOf true data).map fun a => ((rowsOf false data).map fun n =>
        1 - duel (a.getD i 0) (n.getD i 0)).sum).sum) /
        ((rowsOf true data).length * (rowsOf false data).length) := by
    rw [Finset.sum_div]
    exact Finset.sum_congr rfl fun i _ => loss_eq data (fun l => l.getD i 0) r1 r2
  rw [hsum]
  refine div_le_div_of_nonneg_right ?_ (by positivity)
  rw [← sum_fin_list]
  refine List.sum_le_sum fun a ha => ?_
  rw [← sum_fin_list]
  refine List.sum_le_sum fun n hn => ?_
  have hl : ∀ b, ∀ x ∈ rowsOf b data, x.length = m := by
    intro b x hx
    obtain ⟨q, hq, rfl⟩ := List.mem_map.1 hx
    exact hd q (List.mem_filter.1 hq).1
  exact pair_loss m hc hm a n (hl _ a ha) (hl _ n hn)

/-- **C132**, the weighted average: if every detector scores one instance of a batch at least as high as another, so does
the ensemble, whatever the weights, as long as none is negative and not all are 0. -/
theorem C132_weighted (w : List K) (h0 : ∀ x ∈ w, 0 ≤ x) (hs : 0 < w.sum) (rows : List (List K)) (out : List K)
    (s s' : Unit) (h : (scoreEnsembler (pyodAverage (some w))).transform s rows = .ok out s') :
    RanksLikeDetectors rows out := by
  rw [(C22_postprocessor_in_order _ s rows).2.1] at h
  have hf := inOrder_each (P := fun x a => pyodAverage (some w) x = .ok a) (by
    intro s x a s' hx
    simp only [scoreEnsembler] at hx
    cases hr : pyodAverage (some w) x with
    | error e => rw [hr] at hx; cases hx
    | ok r => rw [hr] at hx; cases hx; rfl) h
  intro i j b a rb ra hb ha hrb hra hd
  exact comb_mono (.weighted w rfl h0 hs) hd (forall₂_get hf hb hrb) (forall₂_get hf ha hra)

/-- **C172.** If every detector gets better (scores every anomaly at least as high and every normal
instance at most as high), the ensemble is not rated lower. -/
theorem C172_better (combine : List K → Except PyErr K) (m : ℕ) (hm : 0 < m)
    (hc : Combination K m combine) (data : List (Bool × List K × List K))
    (hd : ∀ q ∈ data, q.2.1.length = m ∧ q.2.2.length = m)
    (hb : ∀ i : Fin m, Better (data.map fun q => (q.1, q.2.1.getD i 0, q.2.2.getD i 0)))
    (h1 : true ∈ data.map (·.1)) (h2 : false ∈ data.map (·.1)) :
    ∃ out e d out' e' d', Rated combine m (data.map fun q => (q.1, q.2.1)) out e d ∧
      Rated combine m (data.map fun q => (q.1, q.2.2)) out' e' d' ∧ e ≤ e' := by
  obtain ⟨o1, e1, d1, r1, -⟩ := C172_shortfall_partial combine m hm hc (data.map fun q => (q.1, q.2.1))
    (by intro q hq; obtain ⟨p, hp, rfl⟩ := List.mem_map.1 hq; exact (hd p hp).1) (by simpa using h1) (by simpa using h2)
  obtain ⟨o2, e2, d2, r2, -⟩ := C172_shortfall_partial combine m hm hc (data.map fun q => (q.1, q.2.2))
    (by intro q hq; obtain ⟨p, hp, rfl⟩ := List.mem_map.1 hq; exact (hd p hp).2) (by simpa using h1) (by simpa using h2)
  refine ⟨o1, e1, d1, o2, e2, d2, r1, r2, ?_⟩
  have t1 := transform_eq hm hc (data.map (·.2.1)) (by
    intro l hl; obtain ⟨q, hq, rfl⟩ := List.mem_map.1 hl; exact (hd q hq).1)
  have t2 := transform_eq hm hc (data.map (·.2.2)) (by
    intro l hl; obtain ⟨q, hq, rfl⟩ := List.mem_map.1 hl; exact (hd q hq).2)
  have a1 := r1.answers
  have a2 := r2.answers
  simp only [List.map_map, Function.comp_def] at a1 a2
  have eo1 : o1 = (data.map (·.2.1)).map (value combine) := by
    rw [t1] at a1; injection a1 with h _; exact h.symm
  have eo2 : o2 = (data.map (·.2.2)).map (value combine) := by
    rw [t2] at a2; injection a2 with h _; exact h.symm
  have hbet : Better (data.map fun q => (q.1, value combine q.2.1, value combine q.2.2)) := by
    intro t ht
    obtain ⟨q, hq, rfl⟩ := List.mem_map.1 ht
    obtain ⟨l1, l2⟩ := hd q hq
    have hq' : ∀ i : Fin m, if q.1 then q.2.1.getD i 0 ≤ q.2.2.getD i 0 else
        q.2.2.getD i 0 ≤ q.2.1.getD i 0 := fun i => hb i _ (List.mem_map.2 ⟨q, hq, rfl⟩)
    have hget : ∀ (l : List K) (i : ℕ) (hi : i < l.length), l.getD i 0 = l[i] := by
      intro l i hi; rw [List.getD_eq_getElem?_getD, List.getElem?_eq_getElem hi]; rfl
    obtain ⟨b, x, y⟩ := q
    cases b
    · simp only [Bool.false_eq_true, if_false] at hq' ⊢
      refine comb_mono hc ?_ (value_eq hm hc l2) (value_eq hm hc l1)
      rw [List.forall₂_iff_get]
      refine ⟨by simp only at l1 l2; omega, fun j hj hj' => ?_⟩
      have := hq' ⟨j, by simp only at l2; omega⟩
      rwa [hget x j hj', hget y j hj] at this
    · simp only [if_true] at hq' ⊢
      refine comb_mono hc ?_ (value_eq hm hc l1) (value_eq hm hc l2)
      rw [List.forall₂_iff_get]
      refine ⟨by simp only at l1 l2; omega, fun j hj hj' => ?_⟩
      have := hq' ⟨j, by simp only at l1; omega⟩
      rwa [hget y j hj', hget x j hj] at this
  obtain ⟨a, b, ha, hb', hab⟩ := C171_auroc _ hbet (by simpa using h1) (by simpa using h2)
  have s1 := r1.ensemble
  have s2 := r2.ensemble
  rw [eo1] at s1
  rw [eo2] at s2
  simp only [List.map_map, Function.comp_def] at s1 s2 ha hb'
  rw [ha] at s1
  rw [hb'] at s2
  cases s1; cases s2
  exact hab

end

/-- Two detectors, each wrong about one normal instance of its own. -/
private def disagreeing : List (Bool × List ℚ) :=
  [(true, [1, 1]), (false, [10, 0]), (false, [0, 10]), (false, [0, 0])]

/-- Three detectors, each wrong about two normal instances. -/
private def disagreeing3 : List (Bool × List ℚ) :=
  [(true, [1, 1, 1]), (false, [10, 10, 0]), (false, [10, 0, 10]), (false, [0, 10, 10]), (false, [0, 0, 0])]

/-- **C172 is false** for the average: two detectors rated 2/3 make an ensemble rated 1/3 (so the bound
of `C172_shortfall_partial` is reached). -/
theorem C172_average_refuted : ¬ C172_statement (pyodAverage none) := by
  intro h
  obtain ⟨out, e, d, hr, i, hi⟩ := h 2 (by norm_num) disagreeing (by decide) (by decide) (by decide)
  have ho : (scoreEnsembler (pyodAverage none)).transform () (disagreeing.map (·.2)) =
      .ok [(1 : ℚ), 5, 5, 0] () := by decide +kernel
  have e0 := hr.answers.symm.trans ho
  injection e0 with e0 _
  subst e0
  have h1 : reported (aurocMetric rocAucCurve) (disagreeing.map (·.1)) [(1 : ℚ), 5, 5, 0] = .ok (1 / 3) := by
    decide +kernel
  have h2 : ∀ i : Fin 2, reported (aurocMetric rocAucCurve) (disagreeing.map (·.1))
      (disagreeing.map fun q => q.2.getD i 0) = .ok (2 / 3) := by decide +kernel
  cases hr.ensemble.symm.trans h1
  have h3 := (hr.members i).symm.trans (h2 i)
  injection h3 with h3
  rw [h3] at hi
  norm_num at hi

/-- **C172 is false** for the maximum: two detectors rated 2/3 make an ensemble rated 1/3. -/
theorem C172_maximum_refuted : ¬ C172_statement pyodMaximization := by
  intro h
  obtain ⟨out, e, d, hr, i, hi⟩ := h 2 (by norm_num) disagreeing (by decide) (by decide) (by decide)
  have ho : (scoreEnsembler pyodMaximization).transform () (disagreeing.map (·.2)) =
      .ok [(1 : ℚ), 10, 10, 0] () := by decide +kernel
  have e0 := hr.answers.symm.trans ho
  injection e0 with e0 _
  subst e0
  have h1 : reported (aurocMetric rocAucCurve) (disagreeing.map (·.1)) [(1 : ℚ), 10, 10, 0] =
      .ok (1 / 3) := by decide +kernel
  have h2 : ∀ i : Fin 2, reported (aurocMetric rocAucCurve) (disagreeing.map (·.1))
      (disagreeing.map fun q => q.2.getD i 0) = .ok (2 / 3) := by decide +kernel
  cases hr.ensemble.symm.trans h1
  have h3 := (hr.members i).symm.trans (h2 i)
  injection h3 with h3
  rw [h3] at hi
  norm_num at hi

/-- **C172 is false** for the median: three detectors rated 1/2 make an ensemble rated 1/4. -/
theorem C172_median_refuted : ¬ C172_statement pyodMedian := by
  intro h
  obtain ⟨out, e, d, hr, i, hi⟩ := h 3 (by norm_num) disagreeing3 (by decide) (by decide) (by decide)
  have ho : (scoreEnsembler pyodMedian).transform () (disagreeing3.map (·.2)) =
      .ok [(1 : ℚ), 10, 10, 10, 0] () := by decide +kernel
  have e0 := hr.answers.symm.trans ho
  injection e0 with e0 _
  subst e0
  have h1 : reported (aurocMetric rocAucCurve) (disagreeing3.map (·.1)) [(1 : ℚ), 10, 10, 10, 0] =
      .ok (1 / 4) := by decide +kernel
  have h2 : ∀ i : Fin 3, reported (aurocMetric rocAucCurve) (disagreeing3.map (·.1))
      (disagreeing3.map fun q => q.2.getD i 0) = .ok (1 / 2) := by decide +kernel
  cases hr.ensemble.symm.trans h1
  have h3 := (hr.members i).symm.trans (h2 i)
  injection h3 with h3
  rw [h3] at hi
  norm_num at hi

/-- **C172 is false** for weighted averages: two detectors rated 2/3, one of them with twice the weight of the other, make
an ensemble rated 1/3. -/
theorem C172_weighted_refuted : ¬ C172_statement (pyodAverage (some [1, 2])) := by
  intro h
  obtain ⟨out, e, d, hr, i, hi⟩ := h 2 (by norm_num) disagreeing (by decide) (by decide) (by decide)
  have ho : (scoreEnsembler (pyodAverage (some [1, 2]))).transform () (disagreeing.map (·.2)) =
      .ok [(1 : ℚ), 10 / 3, 20 / 3, 0] () := by decide +kernel
  have e0 := hr.answers.symm.trans ho
  injection e0 with e0 _
  subst e0
  have h1 : reported (aurocMetric rocAucCurve) (disagreeing.map (·.1)) [(1 : ℚ), 10 / 3, 20 / 3, 0] =
      .ok (1 / 3) := by decide +kernel
  have h2 : ∀ i : Fin 2, reported (aurocMetric rocAucCurve) (disagreeing.map (·.1))
      (disagreeing.map fun q => q.2.getD i 0) = .ok (2 / 3) := by decide +kernel
  cases hr.ensemble.symm.trans h1
  have h3 := (hr.members i).symm.trans (h2 i)
  injection h3 with h3
  rw [h3] at hi
  norm_num at hi

/-- A weighted average with a weight that is 0 is among the combinations, and ranks like its detectors. -/
example : Combination ℚ 3 (pyodAverage (some [1, 0, 2])) ∧
    (scoreEnsembler (pyodAverage (some [1, 0, 2]))).transform () [[(5 : ℚ), 0, 5], [6, 1, 8], [1, 9, 1]] =
      .ok [5, 22 / 3, 1] () ∧
    RanksLikeDetectors [[(5 : ℚ), 0, 5], [6, 1, 8], [1, 9, 1]] [5, 22 / 3, 1] :=
  ⟨.weighted _ rfl (by decide) (by decide +kernel), by decide +kernel,
    C132_weighted [1, 0, 2] (by decide) (by decide +kernel) _ _ () () (by decide +kernel)⟩

/-- Three detectors, of which two are wrong about different instances; their median is right. -/
example : PlainCombination ℚ pyodMedian ∧
    (scoreEnsembler pyodMedian).transform () [[(5 : ℚ), 0, 5], [5, 5, 5], [1, 1, 9], [1, 1, 1], [1, 1, 1]] =
      .ok [5, 5, 1, 1, 1] () ∧
    reported (aurocMetric rocAucCurve) [true, true, false, false, false] [(5 : ℚ), 5, 1, 1, 1] = .ok 1 ∧
    reported (aurocMetric rocAucCurve) [true, true, false, false, false] [(0 : ℚ), 5, 1, 1, 1] =
      .ok (1 / 2) :=
  ⟨.median, by decide +kernel, by decide +kernel, by decide +kernel⟩

end Pysad
