import Verif.Props.Baselines
import Mathlib.Tactic.FieldSimp
import Mathlib.Tactic.LinearCombination

/-! Properties C195 and C196: how ratings depend on the share of anomalies and on the threshold. -/

namespace Pysad

open Spec

/-- A stream of labels and scores (or decisions) in which every normal instance of `l` occurs `k` times. -/
def Spec.rarer {V : Type*} (k : ℕ) (l : List (Bool × V)) : List (Bool × V) :=
  l.flatMap fun q => if q.1 then [q] else List.replicate k q

section
variable {K : Type*} [Field K] [LinearOrder K] [IsStrictOrderedRing K]

section
omit [Field K] [IsStrictOrderedRing K] [LinearOrder K]

theorem rarer_cons {V : Type*} (k : ℕ) (q : Bool × V) (l : List (Bool × V)) :
    rarer k (q :: l) = (if q.1 then [q] else List.replicate k q) ++ rarer k l := rfl

theorem anomalies_rarer (k : ℕ) (l : List (Bool × K)) : anomalies (rarer k l) = anomalies l := by
  induction l with
  | nil => rfl
  | cons q l ih =>
    obtain ⟨b, x⟩ := q
    unfold anomalies at ih ⊢
    rw [rarer_cons]
    cases b
    · simpa [List.filter_append, List.filter_replicate] using ih
    · simpa using ih

theorem normals_rarer (k : ℕ) (l : List (Bool × K)) :
    normals (rarer k l) = (normals l).flatMap fun x => List.replicate k x := by
  induction l with
  | nil => rfl
  | cons q l ih =>
    obtain ⟨b, x⟩ := q
    unfold normals at ih ⊢
    rw [rarer_cons]
    cases b
    · simpa [List.filter_append, List.filter_replicate] using ih
    · simpa using ih

theorem count_rarer (k : ℕ) (l : List (Bool × Bool)) (b : Bool) :
    (rarer k l).count (true, b) = l.count (true, b) ∧ (rarer k l).count (false, b) = k * l.count (false, b) := by
  induction l with
  | nil => simp [rarer]
  | cons q l ih =>
    obtain ⟨t, p⟩ := q
    rw [rarer_cons, List.count_append, List.count_append, ih.1, ih.2]
    cases t <;> cases p <;> cases b <;> simp [List.count_replicate] <;> ring

theorem labels_rarer {V : Type*} {k : ℕ} (hk : 1 ≤ k) (l : List (Bool × V)) (b : Bool) :
    b ∈ (rarer k l).map Prod.fst ↔ b ∈ l.map Prod.fst := by
  induction l with
  | nil => simp [rarer]
  | cons q l ih =>
    obtain ⟨t, p⟩ := q
    rw [rarer_cons, List.map_append, List.mem_append, ih, List.map_cons, List.mem_cons]
    cases t <;> cases b <;> simp [List.map_replicate, List.mem_replicate]; omega

end

omit [LinearOrder K] [IsStrictOrderedRing K] in
private theorem sum_repeated (k : ℕ) (f : K → K) (l : List K) :
    ((l.flatMap fun x => List.replicate k x).map f).sum = k * (l.map f).sum := by
  induction l with
  | nil => simp
  | cons x l ih =>
    rw [List.flatMap_cons, List.map_append, List.sum_append, ih, List.map_cons, List.sum_cons, List.map_replicate,
      List.sum_replicate]
    simp; ring

omit [Field K] [LinearOrder K] [IsStrictOrderedRing K] in
private theorem length_repeated (k : ℕ) (l : List K) :
    (l.flatMap fun x => List.replicate k x).length = k * l.length := by
  induction l with
  | nil => simp
  | cons x l ih => rw [List.flatMap_cons, List.length_append, ih]; simp; ring

omit [Field K] [IsStrictOrderedRing K] in
private theorem reaching_repeated (k : ℕ) (t : K) (l : List K) :
    reaching t (l.flatMap fun x => List.replicate k x) = k * reaching t l := by
  unfold reaching
  induction l with
  | nil => simp
  | cons x l ih =>
    rw [List.flatMap_cons, List.filter_append, List.length_append, ih, List.filter_cons]
    by_cases h : t ≤ x <;> simp [h]; ring

omit [IsStrictOrderedRing K] in
theorem ranking_perm {l l' : List (Bool × K)} (h : l.Perm l') : rankingProbability l = rankingProbability l' := by
  have ha : (anomalies l).Perm (anomalies l') := (h.filter _).map _
  have hn : (normals l).Perm (normals l') := (h.filter _).map _
  unfold rankingProbability
  rw [ha.length_eq, hn.length_eq, ((ha.map _).sum_eq)]
  congr 3
  funext a
  exact (hn.map _).sum_eq

/-- What a precision of `p` becomes if normal instances are `k` times as frequent. -/
private def diluted (k : ℕ) (p : K) : K := p / (p + k * (1 - p))

private theorem denominator_pos {k : ℕ} (hk : 1 ≤ k) {p : K} (h1 : p ≤ 1) : 0 < p + k * (1 - p) := by
  have hk' : (1 : K) ≤ k := by exact_mod_cast hk
  nlinarith [mul_nonneg (sub_nonneg.2 hk') (sub_nonneg.2 h1)]

private theorem diluted_ratio {k : ℕ} (hk : 1 ≤ k) (a b : ℕ) :
    (a : K) / ((a + k * b : ℕ) : K) = diluted k ((a : K) / ((a + b : ℕ) : K)) := by
  unfold diluted
  rcases Nat.eq_zero_or_pos (a + b) with h | h
  · obtain ⟨rfl, rfl⟩ : a = 0 ∧ b = 0 := by omega
    simp
  · have h' : ((a : K) + b) ≠ 0 := by exact_mod_cast h.ne'
    have h2 : ((a : K) + k * b) ≠ 0 := by
      have : 0 < a + k * b := by
        rcases Nat.eq_zero_or_pos a with rfl | ha
        · have := Nat.mul_pos hk (by omega : 0 < b); omega
        · omega
      exact_mod_cast this.ne'
    have e : (a : K) / (a + b) + k * (1 - a / (a + b)) = (a + k * b) / (a + b) := by
      field_simp
      ring
    push_cast
    rw [e, div_div_div_cancel_right₀ h']

private theorem diluted_le {k : ℕ} (hk : 1 ≤ k) {p : K} (h0 : 0 ≤ p) (h1 : p ≤ 1) : diluted k p ≤ p := by
  have hk' : (1 : K) ≤ k := by exact_mod_cast hk
  unfold diluted
  rw [div_le_iff₀ (denominator_pos hk h1)]
  nlinarith [mul_nonneg h0 (mul_nonneg (sub_nonneg.2 hk') (sub_nonneg.2 h1))]

/-- The tangent of the convex function `diluted k` at `a` lies below it. -/
private theorem diluted_tangent {k : ℕ} (hk : 1 ≤ k) {p a : K} (h1 : p ≤ 1) (ha1 : a ≤ 1) :
    diluted k a + k / (a + k * (1 - a)) ^ 2 * (p - a) ≤ diluted k p := by
  have hk' : (1 : K) ≤ k := by exact_mod_cast hk
  have hp := denominator_pos hk h1
  have ha := denominator_pos hk ha1
  unfold diluted
  have key : p / (p + k * (1 - p)) - (a / (a + k * (1 - a)) + k / (a + k * (1 - a)) ^ 2 * (p - a)) =
      k * (k - 1) * (p - a) ^ 2 / ((a + k * (1 - a)) ^ 2 * (p + k * (1 - p))) := by
    field_simp
    ring
  have : 0 ≤ k * (k - 1) * (p - a) ^ 2 / ((a + k * (1 - a)) ^ 2 * (p + k * (1 - p))) := by
    have : (0 : K) ≤ k - 1 := sub_nonneg.2 hk'
    positivity
  linarith

private theorem precisionAt_rarer {k : ℕ} (hk : 1 ≤ k) (l : List (Bool × K)) (t : K) :
    precisionAt t (rarer k l) = diluted k (precisionAt t l) := by
  unfold precisionAt
  rw [← reaching_add, ← reaching_add, anomalies_rarer, normals_rarer, reaching_repeated]
  exact diluted_ratio hk _ _

private theorem precision_unit (t : K) (l : List (Bool × K)) : 0 ≤ precisionAt t l ∧ precisionAt t l ≤ 1 :=
  precisionAt_range t l

/-- **C195.** AUROC does not depend on how rare anomalies are: the rating stays the same if every normal instance
occurs `k` times, in any order. -/
theorem C195_auroc {k : ℕ} (hk : 1 ≤ k) (l l' : List (Bool × K)) (hp : l'.Perm (rarer k l))
    (h1 : true ∈ l.map Prod.fst) (h2 : false ∈ l.map Prod.fst) :
    ∃ a : K, reported (aurocMetric rocAucCurve) (l.map Prod.fst) (l.map Prod.snd) = .ok a ∧
      reported (aurocMetric rocAucCurve) (l'.map Prod.fst) (l'.map Prod.snd) = .ok a := by
  have e : ∀ b, b ∈ l'.map Prod.fst ↔ b ∈ l.map Prod.fst := fun b =>
    ((hp.map Prod.fst).mem_iff).trans (labels_rarer hk l b)
  refine ⟨_, auroc_reported _ _ (by simp) h1 h2, ?_⟩
  rw [auroc_reported _ _ (by simp) ((e true).2 h1) ((e false).2 h2)]
  rw [List.zip_map', List.zip_map', List.map_id', List.map_id', ranking_perm hp]
  have hk0 : (k : K) ≠ 0 := by exact_mod_cast (by omega : k ≠ 0)
  unfold rankingProbability
  rw [anomalies_rarer, normals_rarer, length_repeated]
  simp only [sum_repeated, List.sum_map_mul_left]
  rw [Nat.cast_mul, ← mul_assoc, mul_comm ((anomalies l).length : K) k, mul_assoc, mul_div_mul_left _ _ hk0]

/-- **C195.** Recall does not depend on it either. -/
theorem C195_recall {k : ℕ} (l l' : List (Bool × Bool)) (hp : l'.Perm (rarer k l)) :
    ∃ a : K, reported (recallMetric K) (l.map Prod.fst) (l.map Prod.snd) = .ok a ∧
      reported (recallMetric K) (l'.map Prod.fst) (l'.map Prod.snd) = .ok a := by
  unfold recallMetric
  refine ⟨_, reported_sklearn _ _ _ (by simp), ?_⟩
  rw [reported_sklearn _ _ _ (by simp), (C33_recall (K := K) l').2.2.2.2 _ hp]
  simp only [recallScore, countPairs_eq, (count_rarer k l _).1]

/-- **C195.** Precision does: a precision of `a` becomes `a / (a + k (1 - a))`. -/
theorem C195_precision {k : ℕ} (hk : 1 ≤ k) (l l' : List (Bool × Bool)) (hp : l'.Perm (rarer k l)) :
    ∃ a : K, reported (precisionMetric K) (l.map Prod.fst) (l.map Prod.snd) = .ok a ∧
      reported (precisionMetric K) (l'.map Prod.fst) (l'.map Prod.snd) = .ok (a / (a + k * (1 - a))) := by
  unfold precisionMetric
  refine ⟨_, reported_sklearn _ _ _ (by simp), ?_⟩
  rw [reported_sklearn _ _ _ (by simp), (C33_precision (K := K) l').2.2.2.2 _ hp]
  simp only [precisionScore, countPairs_eq, (count_rarer k l _).1, (count_rarer k l _).2]
  congr 1
  by_cases h : l.count (true, true) + l.count (false, true) = 0
  · rw [if_pos h, if_pos (by
      obtain ⟨h1, h2⟩ := Nat.add_eq_zero_iff.1 h
      simp [h1, h2])]
    simp
  · rw [if_neg h, if_neg, diluted_ratio hk]
    · rfl
    · have : l.count (false, true) ≤ k * l.count (false, true) := Nat.le_mul_of_pos_left _ hk
      omega

/-- **C195.** AUPR falls as well, at most to what a precision of that size would become. -/
theorem C195_aupr {k : ℕ} (hk : 1 ≤ k) (l l' : List (Bool × K)) (hp : l'.Perm (rarer k l))
    (h1 : true ∈ l.map Prod.fst) :
    ∃ a b : K, reported (auprMetric averagePrecisionScore) (l.map Prod.fst) (l.map Prod.snd) = .ok a ∧
      reported (auprMetric averagePrecisionScore) (l'.map Prod.fst) (l'.map Prod.snd) = .ok b ∧
      a / (a + k * (1 - a)) ≤ b ∧ b ≤ a := by
  have e : true ∈ l'.map Prod.fst := ((hp.map Prod.fst).mem_iff).2 ((labels_rarer hk l true).2 h1)
  refine ⟨_, _, aupr_reported _ _ (by simp) (List.ne_nil_of_mem h1), aupr_reported _ _ (by simp) (List.ne_nil_of_mem e),
    ?_⟩
  have hne : anomalies l ≠ [] := by
    have := anomalies_ne (ys := l.map Prod.fst) (ps := l.map Prod.snd) (by simp) h1
    rwa [List.zip_map', List.map_id'] at this
  rw [List.zip_map', List.zip_map', List.map_id', List.map_id']
  have e2 : meanPrecision l' = meanPrecision (rarer k l) :=
    C121_aupr_invariant (rarer k l) l' id strictMono_id (by simpa using hp.symm)
  rw [e2]
  have hn : (0 : K) < (anomalies l).length := by exact_mod_cast List.length_pos_iff.2 hne
  have r1 := (C121_aupr_range l).2
  unfold meanPrecision
  rw [anomalies_rarer]
  simp only [precisionAt_rarer hk]
  constructor
  · set m := ((anomalies l).map fun a => precisionAt a l).sum / (anomalies l).length with hm
    have r1' : m ≤ 1 := r1
    change diluted k m ≤ _
    rw [le_div_iff₀ hn]
    have h := List.sum_le_sum (l := anomalies l)
      (f := fun a => diluted k m + k / (m + k * (1 - m)) ^ 2 * (precisionAt a l - m))
      (g := fun a => diluted k (precisionAt a l)) fun a _ =>
        diluted_tangent hk (precision_unit a l).2 r1'
    refine le_trans (le_of_eq ?_) h
    have e3 : ((anomalies l).map fun a => precisionAt a l).sum = m * (anomalies l).length := by
      rw [hm]; field_simp
    have e4 : ∀ c d : K, ((anomalies l).map fun a => c + d * (precisionAt a l - m)).sum =
        c * (anomalies l).length + d * (((anomalies l).map fun a => precisionAt a l).sum - m * (anomalies l).length) := by
      intro c d
      generalize anomalies l = as
      induction as with
      | nil => simp
      | cons a as ih => simp only [List.map_cons, List.sum_cons, ih, List.length_cons]; push_cast; ring
    rw [e4, e3, sub_self, mul_zero, add_zero]
  · refine div_le_div_of_nonneg_right ?_ hn.le
    exact List.sum_le_sum fun a _ => diluted_le hk (precision_unit a l).1 (precision_unit a l).2

/-- The decisions of a user who reports every instance scored at least `t`. -/
def Spec.decisions (t : K) (l : List (Bool × K)) : List (Bool × Bool) := l.map fun q => (q.1, decide (t ≤ q.2))

omit [Field K] [IsStrictOrderedRing K] in
theorem count_decisions (t : K) (l : List (Bool × K)) :
    (decisions t l).count (true, true) = reaching t (anomalies l) ∧
    (decisions t l).count (false, true) = reaching t (normals l) ∧
    (decisions t l).count (true, true) + (decisions t l).count (true, false) = (anomalies l).length := by
  unfold decisions reaching anomalies normals
  induction l with
  | nil => simp
  | cons q l ih =>
    obtain ⟨b, x⟩ := q
    obtain ⟨h1, h2, h3⟩ := ih
    cases b <;> by_cases h : t ≤ x <;> simp [h] at h1 h2 h3 ⊢ <;> omega

omit [Field K] [IsStrictOrderedRing K] in
private theorem reaching_anti' (l : List K) {t t' : K} (h : t ≤ t') : reaching t' l ≤ reaching t l := by
  unfold reaching
  refine (List.monotone_filter_right l fun x hx => ?_).length_le
  simp only [decide_eq_true_eq] at hx ⊢
  exact h.trans hx

/-- **C196.** A higher threshold never finds more: recall does not rise, and neither does the number of normal
instances reported. -/
theorem C196_recall (l : List (Bool × K)) {t t' : K} (h : t ≤ t') :
    (∃ a b : K, reported (recallMetric K) ((decisions t l).map Prod.fst) ((decisions t l).map Prod.snd) = .ok a ∧
      reported (recallMetric K) ((decisions t' l).map Prod.fst) ((decisions t' l).map Prod.snd) = .ok b ∧ b ≤ a) ∧
    (decisions t' l).count (false, true) ≤ (decisions t l).count (false, true) := by
  obtain ⟨e1, e2, e3⟩ := count_decisions t l
  obtain ⟨f1, f2, f3⟩ := count_decisions t' l
  have ha := reaching_anti' (anomalies l) h
  have hn := reaching_anti' (normals l) h
  refine ⟨?_, by omega⟩
  unfold recallMetric
  refine ⟨_, _, reported_sklearn _ _ _ (by simp), reported_sklearn _ _ _ (by simp), ?_⟩
  simp only [recallScore, countPairs_eq]
  rw [e3, f3]
  split
  · exact le_rfl
  · refine div_le_div_of_nonneg_right ?_ (by positivity)
    rw [e1, f1]
    exact_mod_cast ha

/-- **C196.** With a threshold that no score is below everything is reported: recall 1, and the precision is the share
of anomalies. -/
theorem C196_lowest (l : List (Bool × K)) {t : K} (ht : ∀ q ∈ l, t ≤ q.2) (h1 : true ∈ l.map Prod.fst) :
    reported (recallMetric K) ((decisions t l).map Prod.fst) ((decisions t l).map Prod.snd) = .ok 1 ∧
    reported (precisionMetric K) ((decisions t l).map Prod.fst) ((decisions t l).map Prod.snd) =
      .ok ((anomalies l).length / l.length : K) := by
  have hne : anomalies l ≠ [] := by
    have := anomalies_ne (ys := l.map Prod.fst) (ps := l.map Prod.snd) (by simp) h1
    rwa [List.zip_map', List.map_id'] at this
  have hpos := List.length_pos_iff.2 hne
  obtain ⟨e1, e2, e3⟩ := count_decisions t l
  have ha : reaching t (anomalies l) = (anomalies l).length := by
    unfold reaching
    rw [List.filter_eq_self.2]
    intro x hx
    simpa using ht _ (anomalies_mem.1 hx)
  have hl : reaching t (anomalies l) + reaching t (normals l) = l.length := by
    rw [reaching_add, List.filter_eq_self.2]
    intro q hq
    simpa using ht q hq
  unfold recallMetric precisionMetric
  rw [reported_sklearn _ _ _ (by simp), reported_sklearn _ _ _ (by simp)]
  simp only [recallScore, precisionScore, countPairs_eq]
  rw [e3, e1, e2, hl, ha, if_neg hpos.ne', if_neg (by omega), div_self (by exact_mod_cast hpos.ne')]
  exact ⟨rfl, rfl⟩

/-- The full claim of **C196** for precision: it does not fall when the threshold is raised, as long as something is
reported. -/
def C196_precision_statement : Prop :=
  ∀ (l : List (Bool × ℚ)) (t t' : ℚ), t ≤ t' → true ∈ (decisions t' l).map Prod.snd →
    ∃ a b, reported (precisionMetric ℚ) ((decisions t l).map Prod.fst) ((decisions t l).map Prod.snd) = .ok a ∧
      reported (precisionMetric ℚ) ((decisions t' l).map Prod.fst) ((decisions t' l).map Prod.snd) = .ok b ∧ a ≤ b

/-- **C196 is false of precision**: with a normal instance on top the higher threshold keeps only that one. -/
theorem C196_precision_refuted : ¬ C196_precision_statement := by
  intro h
  obtain ⟨a, b, ha, hb, hab⟩ := h [(true, 1), (false, 2)] 1 2 (by norm_num) (by decide +kernel)
  have ha' : reported (precisionMetric ℚ) ((decisions (1 : ℚ) [(true, 1), (false, 2)]).map Prod.fst)
      ((decisions (1 : ℚ) [(true, 1), (false, 2)]).map Prod.snd) = .ok (1 / 2) := by decide +kernel
  have hb' : reported (precisionMetric ℚ) ((decisions (2 : ℚ) [(true, 1), (false, 2)]).map Prod.fst)
      ((decisions (2 : ℚ) [(true, 1), (false, 2)]).map Prod.snd) = .ok 0 := by decide +kernel
  rw [ha'] at ha
  rw [hb'] at hb
  cases ha
  cases hb
  norm_num at hab

/-- **C196, the part that is true of precision**: a detector that scores all anomalies above all normal instances. -/
theorem C196_precision_partial (l : List (Bool × K)) {t t' : K} (h : t ≤ t')
    (hr : true ∈ (decisions t' l).map Prod.snd) (hs : Separated l) :
    ∃ a b : K, reported (precisionMetric K) ((decisions t l).map Prod.fst) ((decisions t l).map Prod.snd) = .ok a ∧
      reported (precisionMetric K) ((decisions t' l).map Prod.fst) ((decisions t' l).map Prod.snd) = .ok b ∧ a ≤ b := by
  obtain ⟨e1, e2, e3⟩ := count_decisions t l
  obtain ⟨f1, f2, f3⟩ := count_decisions t' l
  have ha := reaching_anti' (anomalies l) h
  have hn := reaching_anti' (normals l) h
  have hsome : 0 < reaching t' (anomalies l) + reaching t' (normals l) := by
    rw [reaching_add, List.length_pos_iff]
    simp only [decisions, List.map_map, List.mem_map, Function.comp_apply, decide_eq_true_eq] at hr
    obtain ⟨q, hq, hq'⟩ := hr
    exact List.ne_nil_of_mem (List.mem_filter.2 ⟨hq, by simpa using hq'⟩)
  have r1 := C33_precision (K := K) (decisions t l)
  unfold precisionMetric
  refine ⟨_, _, reported_sklearn _ _ _ (by simp), reported_sklearn _ _ _ (by simp), ?_⟩
  rcases Nat.eq_zero_or_pos (reaching t' (normals l)) with h0 | h0
  · refine r1.2.2.2.1.trans (le_of_eq ?_)
    simp only [precisionScore, countPairs_eq]
    rw [f1, f2, if_neg (by omega), h0, add_zero, div_self (by exact_mod_cast (by omega : reaching t' (anomalies l) ≠ 0))]
  · have hfull : ∀ u, u ≤ t' → reaching u (anomalies l) = (anomalies l).length := by
      intro u hu
      unfold reaching at h0 ⊢
      obtain ⟨n, hn'⟩ := List.exists_mem_of_length_pos h0
      obtain ⟨hn1, hn2⟩ := List.mem_filter.1 hn'
      rw [List.filter_eq_self.2]
      intro a ha'
      simp only [decide_eq_true_eq] at hn2 ⊢
      exact hu.trans (hn2.trans (hs a ha' n hn1).le)
    simp only [precisionScore, countPairs_eq]
    rw [e1, e2, f1, f2, hfull t h, hfull t' le_rfl, if_neg (by omega), if_neg (by omega)]
    refine div_le_div_of_nonneg_left (by positivity) ?_ ?_
    · exact_mod_cast (by omega : 0 < (anomalies l).length + reaching t' (normals l))
    · exact_mod_cast (by omega : (anomalies l).length + reaching t' (normals l) ≤ (anomalies l).length + reaching t (normals l))

end

/-- A stream whose hypotheses are met: two anomalies, three normal instances, one of them scored between them. -/
example : ∃ a b : ℚ, reported (auprMetric averagePrecisionScore) [true, false, true, false, false] [(5 : ℚ), 3, 2, 1, 1] = .ok a ∧
    reported (auprMetric averagePrecisionScore)
      ((rarer 10 [(true, (5 : ℚ)), (false, 3), (true, 2), (false, 1), (false, 1)]).map Prod.fst)
      ((rarer 10 [(true, (5 : ℚ)), (false, 3), (true, 2), (false, 1), (false, 1)]).map Prod.snd) = .ok b ∧
    a / (a + (10 : ℕ) * (1 - a)) ≤ b ∧ b ≤ a :=
  C195_aupr (by norm_num) [(true, 5), (false, 3), (true, 2), (false, 1), (false, 1)] _ (List.Perm.refl _) (by simp)

/-- AUROC of the same stream. -/
example : ∃ a : ℚ, reported (aurocMetric rocAucCurve) [true, false, true, false, false] [(5 : ℚ), 3, 2, 1, 1] = .ok a ∧
    reported (aurocMetric rocAucCurve)
      ((rarer 10 [(true, (5 : ℚ)), (false, 3), (true, 2), (false, 1), (false, 1)]).map Prod.fst)
      ((rarer 10 [(true, (5 : ℚ)), (false, 3), (true, 2), (false, 1), (false, 1)]).map Prod.snd) = .ok a :=
  C195_auroc (by norm_num) [(true, 5), (false, 3), (true, 2), (false, 1), (false, 1)] _ (List.Perm.refl _) (by simp)
    (by simp)

/-- A precision of one half becomes one eleventh if normal instances are ten times as frequent. -/
example : reported (precisionMetric ℚ) [true, false, true] [true, true, false] = .ok (1 / 2) ∧
    reported (precisionMetric ℚ) ((rarer 10 [(true, true), (false, true), (true, false)]).map Prod.fst)
      ((rarer 10 [(true, true), (false, true), (true, false)]).map Prod.snd) = .ok (1 / 11) := by decide +kernel

/-- A separated stream. -/
example : Separated [(true, (5 : ℚ)), (false, 3), (true, 4), (false, 1)] := by
  unfold Separated anomalies normals
  decide +kernel

end Pysad
