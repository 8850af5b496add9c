import Verif.Spec.Ranking
import Verif.Model.RankMetrics
import Verif.Props.Metrics
import Mathlib.Tactic.LinearCombination

/-! Property C121: AUROC and AUPR are the ranking measures of the textbook. -/

namespace Pysad

open Spec

section
variable {K : Type*} [Field K] [LinearOrder K] [IsStrictOrderedRing K]

/-! ### Areas -/

/-- Area under the segment from `p` to `q`. -/
def area (p q : K × K) : K := (q.1 - p.1) * (q.2 + p.2) / 2

omit [LinearOrder K] [IsStrictOrderedRing K] in
theorem trapezoid_cons (p q : K × K) (l : List (K × K)) :
    trapezoid (p :: q :: l) = area p q + trapezoid (q :: l) := rfl

omit [IsStrictOrderedRing K] in
theorem trapezoid_keepCorners (l : List (K × K)) (hl : l ≠ []) : ∀ a prev : K × K,
    (∀ q ∈ l.head?, (prev.1 - a.1) * (q.2 - prev.2) = (prev.2 - a.2) * (q.1 - prev.1)) →
    trapezoid (a :: keepCorners prev l) = area a prev + trapezoid (prev :: l) := by
  induction l with
  | nil => exact absurd rfl hl
  | cons q l ih =>
    intro a prev h
    have hc := h q (by simp)
    have hj : area a q = area a prev + area prev q := by
      unfold area
      linear_combination (1 / 2 : K) * hc
    cases l with
    | nil => simp only [keepCorners, trapezoid_cons, hj, add_assoc]
    | cons r l =>
      rw [keepCorners]
      split
      · rename_i hd
        rw [ih (by simp) a q (by
          intro r' hr'
          obtain rfl : r = r' := by simpa using hr'
          linear_combination hc + (q.1 - a.1) * hd.2 - (q.2 - a.2) * hd.1), hj, trapezoid_cons prev q]
        ring
      · rw [trapezoid_cons, ih (by simp) q q (by intro r' _; ring), trapezoid_cons prev q, hj]
        unfold area; ring

omit [IsStrictOrderedRing K] in
theorem trapezoid_dropIntermediate (z : K × K) (l : List (K × K)) :
    trapezoid (z :: dropIntermediate l) = trapezoid (z :: l) := by
  cases l with
  | nil => rfl
  | cons p l =>
    cases l with
    | nil => rfl
    | cons q l =>
      rw [dropIntermediate, trapezoid_cons, trapezoid_cons,
        trapezoid_keepCorners (q :: l) (by simp) p p (by intro r' _; ring)]
      unfold area; ring

omit [LinearOrder K] [IsStrictOrderedRing K] in
theorem trapezoid_scale (N P : K) (l : List (K × K)) :
    trapezoid (l.map fun p => (p.1 / N, p.2 / P)) = trapezoid l / (P * N) := by
  induction l with
  | nil => simp [trapezoid]
  | cons p l ih =>
    cases l with
    | nil => simp [trapezoid]
    | cons q l =>
      rw [List.map_cons, List.map_cons, trapezoid_cons, trapezoid_cons, add_div, ← ih, List.map_cons]
      congr 1
      unfold area
      field_simp

/-! ### Counting -/

omit [IsStrictOrderedRing K] in
/-- How many scores exceed `t`. -/
theorem reaching_split (t : K) (l : List K) :
    reaching t l = (l.filter fun x => t < x).length + l.count t := by
  unfold reaching
  induction l with
  | nil => rfl
  | cons x l ih =>
    simp only [List.filter_cons, List.count_cons]
    rcases lt_trichotomy t x with h | h | h
    · have h2 : ¬ x = t := ne_of_gt h
      simp [h, h.le, h2, ih]; omega
    · subst h; simp [ih]; omega
    · have h2 : ¬ x = t := ne_of_lt h
      simp [h.not_ge, h.not_gt, h2, ih]

omit [Field K] [IsStrictOrderedRing K] in
/-- Sum over the distinct values, weighted by their number, is the sum over the list. -/
theorem sum_count {M : Type*} [Semiring M] (ts l : List K) (hn : ts.Nodup) (h : ∀ x ∈ l, x ∈ ts) (f : K → M) :
    (ts.map fun t => (l.count t : M) * f t).sum = (l.map f).sum := by
  induction l with
  | nil => simp
  | cons x l ih =>
    have h1 : ∀ ts : List K, ts.Nodup → x ∈ ts →
        (ts.map fun t => (if x = t then 1 else 0 : M) * f t).sum = f x := by
      intro ts
      induction ts with
      | nil => simp
      | cons t ts ih =>
        intro hn hx
        rw [List.nodup_cons] at hn
        rw [List.map_cons, List.sum_cons]
        by_cases e : x = t
        · subst e
          have : (ts.map fun t => (if x = t then 1 else 0 : M) * f t).sum = 0 := by
            apply List.sum_eq_zero
            intro y hy
            obtain ⟨t, ht, rfl⟩ := List.mem_map.1 hy
            rw [if_neg (fun e : x = t => hn.1 (e ▸ ht)), zero_mul]
          rw [this]; simp
        · rw [if_neg e, zero_mul, zero_add]
          exact ih hn.2 ((List.mem_cons.1 hx).resolve_left e)
    rw [List.map_cons, List.sum_cons, ← ih (fun y hy => h y (by simp [hy])), ← h1 ts hn (h x (by simp)),
      ← List.sum_map_add]
    congr 1
    refine List.map_congr_left fun t _ => ?_
    rw [List.count_cons]
    push_cast
    rw [add_mul, add_comm]
    congr 1
    by_cases e : x = t <;> simp [e]

/-- Every score is a threshold or above all of them. -/
def Covers (ts l : List K) : Prop := ∀ x ∈ l, x ∈ ts ∨ ∀ t ∈ ts, t < x

omit [Field K] [IsStrictOrderedRing K] in
theorem Covers.tail {t : K} {ts l : List K} (h : Covers (t :: ts) l)
    (ho : (t :: ts).Pairwise (· > ·)) : Covers ts l := by
  intro x hx
  rcases h x hx with h | h
  · rcases List.mem_cons.1 h with rfl | h
    · exact .inr fun s hs => (List.pairwise_cons.1 ho).1 s hs
    · exact .inl h
  · exact .inr fun s hs => h s (by simp [hs])

omit [Field K] [IsStrictOrderedRing K] in
theorem Covers.next {t s : K} {ts l : List K} (h : Covers (t :: s :: ts) l)
    (ho : (t :: s :: ts).Pairwise (· > ·)) :
    (l.filter fun x => s < x).length = (l.filter fun x => t ≤ x).length := by
  congr 1
  apply List.filter_congr
  intro x hx
  have hst : s < t := (List.pairwise_cons.1 ho).1 s (by simp)
  simp only [decide_eq_decide]
  constructor
  · intro hs
    rcases h x hx with h | h
    · rcases List.mem_cons.1 h with rfl | h
      · exact le_rfl
      · rcases List.mem_cons.1 h with rfl | h
        · exact absurd hs (lt_irrefl _)
        · have := (List.pairwise_cons.1 (List.pairwise_cons.1 ho).2).1 x h
          exact absurd hs this.not_gt
    · exact (h t (by simp)).le
  · intro ht; exact hst.trans_le ht

/-- The number of scores above the first threshold. -/
def above (ts l : List K) : ℕ :=
  match ts with
  | [] => 0
  | t :: _ => (l.filter fun x => t < x).length

omit [IsStrictOrderedRing K] in
theorem trapezoid_sum (pos neg ts : List K) (ho : ts.Pairwise (· > ·)) (hp : Covers ts pos)
    (hn : Covers ts neg) :
    trapezoid (((above ts neg : K), (above ts pos : K)) ::
      ts.map fun t => ((reaching t neg : K), (reaching t pos : K))) =
    (ts.map fun t => (neg.count t : K) *
      (((pos.filter fun x => t < x).length : K) * 2 + (pos.count t : K)) / 2).sum := by
  induction ts with
  | nil => rfl
  | cons t ts ih =>
    rw [List.map_cons, List.map_cons, trapezoid_cons, List.sum_cons]
    congr 1
    · unfold area
      simp only [above, reaching_split]
      push_cast; ring
    · cases ts with
      | nil => rfl
      | cons s ts =>
        rw [← ih (List.pairwise_cons.1 ho).2 (hp.tail ho) (hn.tail ho)]
        simp only [above, hp.next ho, hn.next ho, reaching]

omit [IsStrictOrderedRing K] in
theorem stepArea_sum (pos ts : List K) (P : K) (pr : K → K) (y : K) (ho : ts.Pairwise (· > ·))
    (hp : Covers ts pos) :
    stepArea (((above ts pos : K) / P, y) :: ts.map fun t => ((reaching t pos : K) / P, pr t)) =
    (ts.map fun t => (pos.count t : K) * (pr t / P)).sum := by
  induction ts generalizing y with
  | nil => rfl
  | cons t ts ih =>
    rw [List.map_cons, List.map_cons, List.sum_cons]
    show (_ - _) * _ + stepArea _ = _
    congr 1
    · simp only [above, reaching_split]
      push_cast; ring
    · cases ts with
      | nil => rfl
      | cons s ts =>
        rw [← ih (pr t) (List.pairwise_cons.1 ho).2 (hp.tail ho)]
        simp only [above, hp.next ho, reaching]

omit [Field K] [IsStrictOrderedRing K] in
theorem thresholds_pairwise (l : List K) : (thresholds l).Pairwise (· > ·) := by
  unfold thresholds
  have h1 : (l.insertionSort (· ≥ ·)).Pairwise (· ≥ ·) := List.pairwise_insertionSort _ _
  have h2 := h1.sublist (List.dedup_sublist _)
  have h3 := List.nodup_dedup (l.insertionSort (· ≥ ·))
  exact (h2.and h3).imp fun ⟨a, b⟩ => lt_of_le_of_ne a (Ne.symm b)

omit [Field K] [IsStrictOrderedRing K] in
theorem mem_thresholds (l : List K) (x : K) : x ∈ thresholds l ↔ x ∈ l := by
  simp [thresholds]

omit [IsStrictOrderedRing K] in
theorem scoresOf_true (l : List (Bool × K)) :
    scoresOf true (l.map Prod.fst) (l.map Prod.snd) = anomalies l := by
  rw [scoresOf_eq, anomalies]
  congr 2
  funext q
  cases q.1 <;> rfl

omit [IsStrictOrderedRing K] in
theorem scoresOf_false (l : List (Bool × K)) :
    scoresOf false (l.map Prod.fst) (l.map Prod.snd) = normals l := by
  rw [scoresOf_eq, normals]
  congr 2
  funext q
  cases q.1 <;> rfl

omit [IsStrictOrderedRing K] in
theorem anomalies_mem {l : List (Bool × K)} {x : K} : x ∈ anomalies l ↔ (true, x) ∈ l := by
  simp [anomalies]

omit [IsStrictOrderedRing K] in
theorem normals_mem {l : List (Bool × K)} {x : K} : x ∈ normals l ↔ (false, x) ∈ l := by
  simp [normals]

omit [IsStrictOrderedRing K] in
theorem covers_anomalies (l : List (Bool × K)) : Covers (thresholds (l.map Prod.snd)) (anomalies l) := by
  intro x hx
  left
  rw [mem_thresholds]
  exact List.mem_map.2 ⟨_, anomalies_mem.1 hx, rfl⟩

omit [IsStrictOrderedRing K] in
theorem covers_normals (l : List (Bool × K)) : Covers (thresholds (l.map Prod.snd)) (normals l) := by
  intro x hx
  left
  rw [mem_thresholds]
  exact List.mem_map.2 ⟨_, normals_mem.1 hx, rfl⟩

omit [IsStrictOrderedRing K] in
theorem above_thresholds (l s : List K) (h : ∀ x ∈ s, x ∈ l) : above (thresholds l) s = 0 := by
  have ho := thresholds_pairwise l
  have hm := fun x => mem_thresholds l x
  generalize thresholds l = ts at ho hm
  cases ts with
  | nil => rfl
  | cons t ts =>
    simp only [above, List.length_eq_zero_iff, List.filter_eq_nil_iff, decide_eq_true_eq, not_lt]
    intro x hx
    rcases List.mem_cons.1 ((hm x).2 (h x hx)) with rfl | h
    · exact le_rfl
    · exact ((List.pairwise_cons.1 ho).1 x h).le

theorem duel_sum (n : K) (pos : List K) :
    (pos.map fun a => duel a n).sum =
      (((pos.filter fun x => n < x).length : K) * 2 + (pos.count n : K)) / 2 := by
  induction pos with
  | nil => simp
  | cons a pos ih =>
    rw [List.map_cons, List.sum_cons, ih, List.filter_cons, List.count_cons]
    unfold duel
    rcases lt_trichotomy n a with h | h | h
    · simp only [h, if_true, decide_true, List.length_cons, (ne_of_gt h : a ≠ n), beq_iff_eq, if_false]
      push_cast; ring
    · subst h
      simp only [lt_irrefl, decide_false, Bool.false_eq_true, if_false, if_true, beq_self_eq_true]
      push_cast; ring
    · simp [h.not_gt, (ne_of_gt h : n ≠ a), (ne_of_lt h : a ≠ n)]

/-- **C121.** AUROC as scikit-learn computes it, from the curve over the distinct scores without
its intermediate points, is the probability that an anomaly is scored above a normal instance. -/
theorem C121_auroc (l : List (Bool × K)) :
    rocAucCurve (l.map Prod.fst) (l.map Prod.snd) = rankingProbability l := by
  unfold rocAucCurve
  simp only [scoresOf_true, scoresOf_false]
  rw [trapezoid_scale, trapezoid_dropIntermediate]
  unfold rankingProbability
  congr 1
  have h := trapezoid_sum (anomalies l) (normals l) _ (thresholds_pairwise (l.map Prod.snd))
    (covers_anomalies l) (covers_normals l)
  rw [above_thresholds _ _ (fun x hx => List.mem_map.2 ⟨_, normals_mem.1 hx, rfl⟩),
    above_thresholds _ _ (fun x hx => List.mem_map.2 ⟨_, anomalies_mem.1 hx, rfl⟩)] at h
  rw [Nat.cast_zero] at h
  rw [h]
  have e := sum_count (thresholds (l.map Prod.snd)) (normals l)
    ((thresholds_pairwise _).imp fun h => ne_of_gt h)
    (fun x hx => (mem_thresholds _ _).2 (List.mem_map.2 ⟨_, normals_mem.1 hx, rfl⟩))
    (fun t => ((anomalies l).map fun a => duel a t).sum)
  simp only [duel_sum, ← mul_div_assoc] at e
  rw [e]
  simp only [← duel_sum]
  have := Multiset.sum_map_sum_map (normals l : Multiset K) (anomalies l : Multiset K)
    (f := fun n a => duel a n)
  simpa using this

/-- The textbook value is also the Mann-Whitney form used for the other theorems about AUROC. -/
theorem rocAucScore_eq (l : List (Bool × K)) :
    rocAucScore (l.map Prod.fst) (l.map Prod.snd) = rankingProbability l := by
  unfold rocAucScore
  simp only [scoresOf_true, scoresOf_false]
  rfl

omit [IsStrictOrderedRing K] in
theorem reaching_add (t : K) (l : List (Bool × K)) :
    reaching t (anomalies l) + reaching t (normals l) = (l.filter fun q => t ≤ q.2).length := by
  unfold reaching anomalies normals
  induction l with
  | nil => rfl
  | cons q l ih =>
    obtain ⟨b, x⟩ := q
    cases b <;> by_cases h : t ≤ x <;> simp [h] at ih ⊢ <;> omega

/-- **C121.** AUPR as scikit-learn computes it, from the steps of the precision-recall curve, is the
mean over the anomalies of the precision at their score; 0 if there is no anomaly. -/
theorem C121_aupr (l : List (Bool × K)) (hl : l ≠ []) :
    averagePrecisionScore (l.map Prod.fst) (l.map Prod.snd) = .ok (meanPrecision l) := by
  unfold averagePrecisionScore
  simp only [scoresOf_true, scoresOf_false]
  rw [if_neg (by simpa using hl)]
  by_cases ha : anomalies l = []
  · rw [if_pos ha, meanPrecision, ha]; simp
  · rw [if_neg ha]
    congr 1
    have h := stepArea_sum (anomalies l) _ ((anomalies l).length : K)
      (fun t => (reaching t (anomalies l) : K) /
        ((reaching t (anomalies l) + reaching t (normals l) : ℕ) : K)) 1
      (thresholds_pairwise (l.map Prod.snd)) (covers_anomalies l)
    rw [above_thresholds _ _ (fun x hx => List.mem_map.2 ⟨_, anomalies_mem.1 hx, rfl⟩), Nat.cast_zero,
      zero_div] at h
    rw [h, sum_count (thresholds (l.map Prod.snd)) (anomalies l)
      ((thresholds_pairwise _).imp fun h => ne_of_gt h)
      (fun x hx => (mem_thresholds _ _).2 (List.mem_map.2 ⟨_, anomalies_mem.1 hx, rfl⟩))]
    unfold meanPrecision precisionAt
    rw [div_eq_mul_inv _ ((anomalies l).length : K), ← List.sum_map_mul_right]
    congr 1
    refine List.map_congr_left fun a _ => ?_
    rw [reaching_add, div_eq_mul_inv _ ((anomalies l).length : K)]
    rfl

/-! ### What follows -/

omit [Field K] [IsStrictOrderedRing K] in
theorem filter_reaching_le (a : K) (l : List (Bool × K)) :
    ((anomalies l).filter fun x => a ≤ x).length ≤ (l.filter fun q => a ≤ q.2).length := by
  unfold anomalies
  rw [List.filter_map, List.length_map, List.filter_filter]
  exact (List.monotone_filter_right l (by simp +contextual)).length_le

theorem precisionAt_range (t : K) (l : List (Bool × K)) :
    0 ≤ precisionAt t l ∧ precisionAt t l ≤ 1 := by
  unfold precisionAt
  exact ⟨by positivity, div_le_one_of_le₀ (by exact_mod_cast filter_reaching_le t l) (by positivity)⟩

/-- **C121.** AUPR lies in [0, 1]. (AUROC: `C33_auroc_range`.) -/
theorem C121_aupr_range (l : List (Bool × K)) : 0 ≤ meanPrecision l ∧ meanPrecision l ≤ 1 := by
  unfold meanPrecision
  constructor
  · refine div_nonneg (List.sum_nonneg ?_) (by positivity)
    intro x hx
    obtain ⟨a, -, rfl⟩ := List.mem_map.1 hx
    exact (precisionAt_range a l).1
  · refine div_le_one_of_le₀ ?_ (by positivity)
    have := List.sum_le_card_nsmul ((anomalies l).map fun a => precisionAt a l) 1 (by
      intro x hx
      obtain ⟨a, -, rfl⟩ := List.mem_map.1 hx
      exact (precisionAt_range a l).2)
    simpa using this

omit [IsStrictOrderedRing K] in
/-- **C121.** AUPR does not depend on the order of the instances and only on how the scores compare.
(AUROC: `C33_auroc_invariant`.) -/
theorem C121_aupr_invariant (l l' : List (Bool × K)) (f : K → K) (hf : StrictMono f)
    (h : (l.map fun q => (q.1, f q.2)).Perm l') : meanPrecision l' = meanPrecision l := by
  have ha : (anomalies l').Perm ((anomalies l).map f) := by
    have := ((h.filter fun q => q.1).map Prod.snd).symm
    rw [List.filter_map, List.map_map] at this
    rw [anomalies, anomalies, List.map_map]
    exact this
  have hp : ∀ a, precisionAt (f a) l' = precisionAt a l := by
    intro a
    unfold precisionAt
    congr 2
    · rw [(ha.filter _).length_eq, List.filter_map, List.length_map]
      simp only [Function.comp_def, hf.le_iff_le]
    · rw [← (h.filter _).length_eq, List.filter_map, List.length_map]
      simp only [Function.comp_def, hf.le_iff_le]
  unfold meanPrecision
  rw [ha.length_eq, List.length_map, (ha.map _).sum_eq, List.map_map]
  simp only [Function.comp_def, hp]

theorem sum_eq_bound {α : Type*} (l : List α) (f : α → K) (c : K) (hf : ∀ x ∈ l, f x ≤ c) :
    (l.map f).sum = l.length * c ↔ ∀ x ∈ l, f x = c := by
  induction l with
  | nil => simp
  | cons x l ih =>
    have hb : (l.map f).sum ≤ l.length * c := by
      have := List.sum_le_card_nsmul (l.map f) c (by
        intro y hy
        obtain ⟨a, ha, rfl⟩ := List.mem_map.1 hy
        exact hf a (by simp [ha]))
      simpa using this
    have hx := hf x (by simp)
    have ih := ih fun y hy => hf y (by simp [hy])
    rw [List.map_cons, List.sum_cons, List.forall_mem_cons, ← ih, List.length_cons]
    push_cast
    constructor
    · intro h
      have h1 : f x = c := le_antisymm hx (by linarith)
      exact ⟨h1, by linarith⟩
    · rintro ⟨h1, h2⟩
      rw [h1, h2]; ring

theorem duel_le (a n : K) : duel a n ≤ 1 := by
  unfold duel
  split_ifs
  · exact le_rfl
  · norm_num
  · exact zero_le_one

theorem duel_eq_one (a n : K) : duel a n = 1 ↔ n < a := by
  unfold duel
  split_ifs with h1 h2
  · simp [h1]
  · simp only [h1, iff_false]; norm_num
  · simp [h1]

/-- **C121.** AUROC is 1 exactly if every anomaly is scored above every normal instance. -/
theorem C121_auroc_one (l : List (Bool × K)) (ha : anomalies l ≠ []) (hn : normals l ≠ []) :
    rankingProbability l = 1 ↔ Separated l := by
  have ha' : (0 : K) < (anomalies l).length := by exact_mod_cast List.length_pos_iff.2 ha
  have hn' : (0 : K) < (normals l).length := by exact_mod_cast List.length_pos_iff.2 hn
  unfold rankingProbability
  rw [div_eq_one_iff_eq (by positivity), sum_eq_bound]
  · refine forall₂_congr fun a _ => ?_
    have := sum_eq_bound (normals l) (fun n => duel a n) 1 (fun n _ => duel_le a n)
    rw [mul_one] at this
    rw [this]
    exact forall₂_congr fun n _ => duel_eq_one a n
  · intro a _
    have := List.sum_le_card_nsmul ((normals l).map fun n => duel a n) 1 (by
      intro y hy
      obtain ⟨n, _, rfl⟩ := List.mem_map.1 hy
      exact duel_le a n)
    simpa using this

/-- **C121.** AUPR is 1 exactly if every anomaly is scored above every normal instance. -/
theorem C121_aupr_one (l : List (Bool × K)) (ha : anomalies l ≠ []) :
    meanPrecision l = 1 ↔ Separated l := by
  have ha' : (0 : K) < (anomalies l).length := by exact_mod_cast List.length_pos_iff.2 ha
  unfold meanPrecision
  rw [div_eq_one_iff_eq (by positivity)]
  have h := sum_eq_bound (anomalies l) (fun a => precisionAt a l) 1 (fun a _ => (precisionAt_range a l).2)
  rw [mul_one] at h
  rw [h]
  refine forall₂_congr fun a hm => ?_
  have hsum := reaching_add a l
  have hpos : 0 < reaching a (anomalies l) := by
    unfold reaching
    rw [List.length_pos_iff]
    exact List.ne_nil_of_mem (List.mem_filter.2 ⟨hm, by simp⟩)
  have hR : 0 < (l.filter fun q => a ≤ q.2).length := by omega
  unfold precisionAt
  rw [div_eq_one_iff_eq (by exact_mod_cast hR.ne'), Nat.cast_inj]
  have e : ((anomalies l).filter fun x => a ≤ x).length = reaching a (anomalies l) := rfl
  rw [e, ← hsum]
  have : reaching a (anomalies l) = reaching a (anomalies l) + reaching a (normals l) ↔
      reaching a (normals l) = 0 := by omega
  rw [this]
  unfold reaching
  simp [List.filter_eq_nil_iff]

/-- **C121.** Scores that do not distinguish anything get AUROC 1/2 and AUPR the fraction of
anomalies. -/
theorem C121_constant (l : List (Bool × K)) (c : K) (hc : ∀ q ∈ l, q.2 = c) :
    (anomalies l ≠ [] → normals l ≠ [] → rankingProbability l = 1 / 2) ∧
    (l ≠ [] → meanPrecision l = (anomalies l).length / l.length) := by
  have hA : ∀ a ∈ anomalies l, a = c := fun a h => hc _ (anomalies_mem.1 h)
  have hN : ∀ a ∈ normals l, a = c := fun a h => hc _ (normals_mem.1 h)
  constructor
  · intro ha hn
    have ha' : (0 : K) < (anomalies l).length := by exact_mod_cast List.length_pos_iff.2 ha
    have hn' : (0 : K) < (normals l).length := by exact_mod_cast List.length_pos_iff.2 hn
    unfold rankingProbability
    have h1 : ∀ a ∈ anomalies l, ((normals l).map fun n => duel a n).sum =
        (normals l).length * (1 / 2 : K) := by
      intro a h
      have : (normals l).map (fun n => duel a n) = (normals l).map fun _ => (1 / 2 : K) := by
        refine List.map_congr_left fun n hn => ?_
        rw [hA a h, hN n hn]
        simp [duel]
      rw [this]; simp
    rw [List.map_congr_left h1]
    simp
    field_simp
  · intro hl
    have hl' : (0 : K) < l.length := by exact_mod_cast List.length_pos_iff.2 hl
    unfold meanPrecision
    have h1 : ∀ a ∈ anomalies l, precisionAt a l = (anomalies l).length / l.length := by
      intro a h
      unfold precisionAt
      rw [List.filter_eq_self.2 (fun x hx => by simp [hA a h, hA x hx]),
        List.filter_eq_self.2 (fun q hq => by simp [hA a h, hc q hq])]
    rw [List.map_congr_left h1]
    by_cases ha : anomalies l = []
    · simp [ha]
    · have ha' : (0 : K) < (anomalies l).length := by exact_mod_cast List.length_pos_iff.2 ha
      simp
      field_simp

theorem duel_neg (a n : K) : duel (-a) (-n) = 1 - duel a n := by
  unfold duel
  rcases lt_trichotomy a n with h | h | h
  · simp [h, h.not_gt, (ne_of_gt h)]
  · subst h; simp; norm_num
  · simp [h, h.not_gt, (ne_of_lt h)]

/-- **C121.** With the scores turned upside down AUROC becomes one minus itself. -/
theorem C121_auroc_reversed (l : List (Bool × K)) (ha : anomalies l ≠ []) (hn : normals l ≠ []) :
    rankingProbability (l.map fun q => (q.1, -q.2)) = 1 - rankingProbability l := by
  have ha' : (0 : K) < (anomalies l).length := by exact_mod_cast List.length_pos_iff.2 ha
  have hn' : (0 : K) < (normals l).length := by exact_mod_cast List.length_pos_iff.2 hn
  have eA : anomalies (l.map fun q => (q.1, -q.2)) = (anomalies l).map fun x => -x := by
    simp [anomalies, List.filter_map, Function.comp_def]
  have eN : normals (l.map fun q => (q.1, -q.2)) = (normals l).map fun x => -x := by
    simp [normals, List.filter_map, Function.comp_def]
  unfold rankingProbability
  rw [eA, eN]
  simp only [List.map_map, Function.comp_def, duel_neg, List.length_map]
  have h1 : ∀ a, ((normals l).map fun n => 1 - duel a n).sum =
      (normals l).length - ((normals l).map fun n => duel a n).sum := by
    intro a
    induction normals l with
    | nil => simp
    | cons n t ih => simp only [List.map_cons, List.sum_cons, ih, List.length_cons]; push_cast; ring
  simp only [h1]
  have h2 : ∀ (m : K) (t : List K), (t.map fun a => m - ((normals l).map fun n => duel a n).sum).sum =
      t.length * m - (t.map fun a => ((normals l).map fun n => duel a n).sum).sum := by
    intro m t
    induction t with
    | nil => simp
    | cons n t ih => simp only [List.map_cons, List.sum_cons, ih, List.length_cons]; push_cast; ring
  rw [h2, sub_div, div_self (by positivity)]

end

/-- Ties, a dropped point of the curve and both measures on a small history. -/
example : rocAucCurve [true, false, true, false, true, false] [(9 : ℚ), 1, 4, 4, 3, 2] = 5 / 6 ∧
    rankingProbability [(true, (9 : ℚ)), (false, 1), (true, 4), (false, 4), (true, 3), (false, 2)] = 5 / 6 := by
  decide +kernel
example : dropIntermediate [((0 : ℚ), (1 : ℚ)), (0, 2), (0, 3), (1, 3)] = [(0, 1), (0, 3), (1, 3)] := by
  decide +kernel
example : averagePrecisionScore [true, false, true, false] [(9 : ℚ), 1, 4, 4] = .ok (5 / 6) := by
  decide +kernel
example : averagePrecisionScore [false, false] [(9 : ℚ), 1] = .ok 0 := by decide +kernel

end Pysad
