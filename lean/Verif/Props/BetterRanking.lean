import Verif.Props.Baselines

/-! Property C171: a detector that scores better is not rated lower. -/

namespace Pysad

open Spec

/-- What two detectors say of the same instances, as (label, first, second), if the second is at least
as good on every single instance: anomalies get at least the same score, normal instances at most. -/
def Spec.Better {V : Type*} [LE V] (l : List (Bool × V × V)) : Prop :=
  ∀ t ∈ l, if t.1 then t.2.1 ≤ t.2.2 else t.2.2 ≤ t.2.1

section
variable {K : Type*} [Field K] [LinearOrder K] [IsStrictOrderedRing K]

/-- Labels and scores of the first detector. -/
private def one (l : List (Bool × K × K)) : List (Bool × K) := l.map fun t => (t.1, t.2.1)
/-- Labels and scores of the second detector. -/
private def two (l : List (Bool × K × K)) : List (Bool × K) := l.map fun t => (t.1, t.2.2)

omit [Field K] [IsStrictOrderedRing K] in
private theorem anomalies_forall₂ (l : List (Bool × K × K)) (h : Better l) :
    List.Forall₂ (· ≤ ·) (anomalies (one l)) (anomalies (two l)) := by
  induction l with
  | nil => exact .nil
  | cons t l ih =>
    have ih := ih fun t ht => h t (by simp [ht])
    have h0 := h t (by simp)
    obtain ⟨b, x, y⟩ := t
    cases b
    · simpa [one, two, anomalies] using ih
    · simp only [if_true] at h0
      simpa [one, two, anomalies] using ⟨h0, by simpa [one, two, anomalies] using ih⟩

omit [Field K] [IsStrictOrderedRing K] in
private theorem normals_forall₂ (l : List (Bool × K × K)) (h : Better l) :
    List.Forall₂ (· ≤ ·) (normals (two l)) (normals (one l)) := by
  induction l with
  | nil => exact .nil
  | cons t l ih =>
    have ih := ih fun t ht => h t (by simp [ht])
    have h0 := h t (by simp)
    obtain ⟨b, x, y⟩ := t
    cases b
    · simp only [Bool.false_eq_true, if_false] at h0
      simpa [one, two, normals] using ⟨h0, by simpa [one, two, normals] using ih⟩
    · simpa [one, two, normals] using ih

private theorem duel_mono {a a' n n' : K} (ha : a ≤ a') (hn : n' ≤ n) : duel a n ≤ duel a' n' := by
  have h2 : (0 : K) < 2 := by norm_num
  unfold duel
  by_cases h1 : n < a
  · rw [if_pos h1, if_pos (lt_of_le_of_lt hn (lt_of_lt_of_le h1 ha))]
  · rw [if_neg h1]
    by_cases h : n = a
    · rw [if_pos h]
      subst h
      split_ifs with h3 h4
      · norm_num
      · exact le_rfl
      · exact absurd (le_antisymm (le_trans hn ha) (not_lt.1 h3)) h4
    · rw [if_neg h]
      split_ifs <;> norm_num

omit [Field K] [LinearOrder K] [IsStrictOrderedRing K] in
private theorem sum_forall₂ {α M : Type*} [AddCommMonoid M] [PartialOrder M] [IsOrderedAddMonoid M]
    {r : α → α → Prop} {l l' : List α}
    (h : List.Forall₂ r l l') (f g : α → M) (hfg : ∀ a b, r a b → f a ≤ g b) :
    (l.map f).sum ≤ (l'.map g).sum := by
  induction h with
  | nil => simp
  | cons h _ ih => simpa using add_le_add (hfg _ _ h) ih

/-- The ranking probability does not go down. -/
private theorem rankingProbability_mono (l : List (Bool × K × K)) (h : Better l) :
    rankingProbability (one l) ≤ rankingProbability (two l) := by
  have hA := anomalies_forall₂ l h
  have hN := normals_forall₂ l h
  unfold rankingProbability
  rw [hA.length_eq, hN.length_eq]
  refine div_le_div_of_nonneg_right ?_ (by positivity)
  refine sum_forall₂ hA _ _ fun a a' ha => ?_
  refine sum_forall₂ (r := fun n n' => n' ≤ n) ?_ _ _ fun n n' hn => duel_mono ha hn
  exact hN.flip

omit [Field K] [IsStrictOrderedRing K] in
private theorem reaching_forall₂ {l l' : List K} (h : List.Forall₂ (· ≤ ·) l l') (t : K) :
    (l.filter fun x => t ≤ x).length ≤ (l'.filter fun x => t ≤ x).length := by
  induction h with
  | nil => simp
  | @cons a b l l' h _ ih =>
    simp only [List.filter_cons, decide_eq_true_eq]
    by_cases h1 : t ≤ a
    · rw [if_pos h1, if_pos (h1.trans h)]; simpa using ih
    · rw [if_neg h1]
      split_ifs
      · simp only [List.length_cons]; omega
      · exact ih

omit [Field K] [IsStrictOrderedRing K] in
private theorem reaching_anti (l : List K) {s t : K} (h : s ≤ t) :
    (l.filter fun x => t ≤ x).length ≤ (l.filter fun x => s ≤ x).length := by
  induction l with
  | nil => simp
  | cons a l ih =>
    simp only [List.filter_cons, decide_eq_true_eq]
    by_cases h1 : t ≤ a
    · rw [if_pos h1, if_pos (h.trans h1)]; simpa using ih
    · rw [if_neg h1]
      split_ifs
      · simp only [List.length_cons]; omega
      · exact ih

omit [Field K] [IsStrictOrderedRing K] in
/-- In a decreasing list the elements up to position `i` reach the element there. -/
private theorem reaching_ge (l : List K) (h : l.Pairwise (· ≥ ·)) (i : ℕ) (hi : i < l.length) :
    i + 1 ≤ (l.filter fun x => l[i] ≤ x).length := by
  have hs : (l.take (i + 1)).filter (fun x => l[i] ≤ x) = l.take (i + 1) := by
    rw [List.filter_eq_self]
    intro x hx
    obtain ⟨j, hj, rfl⟩ := List.mem_iff_getElem.1 hx
    rw [List.length_take] at hj
    rw [List.getElem_take]
    simp only [decide_eq_true_eq]
    rcases Nat.lt_or_ge j i with hji | hji
    · exact List.pairwise_iff_getElem.1 h j i (by omega) hi hji
    · have : j = i := by omega
      subst this; exact le_rfl
  have hl : (l.take (i + 1)).length = i + 1 := by rw [List.length_take]; omega
  have h1 := ((List.take_sublist (i + 1) l).filter fun x => decide (l[i] ≤ x)).length_le
  rw [hs, hl] at h1
  exact h1

omit [Field K] [IsStrictOrderedRing K] in
/-- From position `i` on, nothing reaches a value above the element there. -/
private theorem reaching_le (l : List K) (h : l.Pairwise (· ≥ ·)) (i : ℕ) (hi : i < l.length) (t : K)
    (ht : l[i] < t) : (l.filter fun x => t ≤ x).length ≤ i := by
  have e : (l.drop i).filter (fun x => t ≤ x) = [] := by
    rw [List.filter_eq_nil_iff]
    intro x hx
    obtain ⟨j, hj, rfl⟩ := List.mem_iff_getElem.1 hx
    rw [List.length_drop] at hj
    rw [List.getElem_drop]
    simp only [decide_eq_true_eq, not_le]
    rcases Nat.eq_zero_or_pos j with rfl | hj0
    · simpa using ht
    · exact lt_of_le_of_lt (List.pairwise_iff_getElem.1 h i (i + j) hi (by omega) (by omega)) ht
  have : l.filter (fun x => t ≤ x) = (l.take i).filter (fun x => t ≤ x) := by
    conv_lhs => rw [← List.take_append_drop i l, List.filter_append, e, List.append_nil]
  rw [this]
  exact (List.length_filter_le _ _).trans (by rw [List.length_take]; omega)

omit [Field K] [IsStrictOrderedRing K] in
/-- In a strictly decreasing list exactly the elements up to position `i` reach the element there. -/
private theorem reaching_eq (l : List K) (h : l.Pairwise (· > ·)) (i : ℕ) (hi : i < l.length) :
    (l.filter fun x => l[i] ≤ x).length = i + 1 := by
  apply le_antisymm
  · by_cases h1 : i + 1 < l.length
    · exact reaching_le l (h.imp fun h => le_of_lt h) (i + 1) h1 _
        (List.pairwise_iff_getElem.1 h i (i + 1) hi h1 (by omega))
    · exact (List.length_filter_le _ _).trans (by omega)
  · exact reaching_ge l (h.imp fun h => le_of_lt h) i hi

omit [IsStrictOrderedRing K] in
/-- The precision at `t`, given how many anomalies and normal instances reach it. -/
private theorem precisionAt_eq (t : K) (l : List (Bool × K)) :
    precisionAt t l = (reaching t (anomalies l) : K) /
      ((reaching t (anomalies l) : K) + (reaching t (normals l) : K)) := by
  unfold precisionAt
  rw [← reaching_add t l]
  push_cast
  rfl

private theorem ratio_mono {p p' n n' : ℕ} (hp : p ≤ p') (hn : n' ≤ n) (h0 : 0 < p) :
    (p : K) / ((p : K) + (n : K)) ≤ (p' : K) / ((p' : K) + (n' : K)) := by
  have h0' : (0 : K) < p := by exact_mod_cast h0
  have h1 : (0 : K) < p' := by exact_mod_cast (by omega : 0 < p')
  have hp' : (p : K) ≤ p' := by exact_mod_cast hp
  have hn' : (n' : K) ≤ n := by exact_mod_cast hn
  have e0 : (0 : K) ≤ n' := by positivity
  rw [div_le_div_iff₀ (by positivity) (by positivity)]
  nlinarith [mul_le_mul hp' hn' e0 h1.le]

/-- If the anomalies are pairwise told apart by the first detector, the mean precision does not go
down. -/
private theorem meanPrecision_mono (l : List (Bool × K × K)) (h : Better l)
    (hd : (anomalies (one l)).Nodup) : meanPrecision (one l) ≤ meanPrecision (two l) := by
  have hA := anomalies_forall₂ l h
  have hN := normals_forall₂ l h
  unfold meanPrecision
  rw [hA.length_eq]
  refine div_le_div_of_nonneg_right ?_ (by positivity)
  simp only [precisionAt_eq]
  set A := anomalies (one l) with hAe
  set B := anomalies (two l) with hBe
  set M := normals (one l) with hMe
  set N := normals (two l) with hNe
  have pA := List.perm_insertionSort (· ≥ ·) A
  have pB := List.perm_insertionSort (· ≥ ·) B
  have sA : (A.insertionSort (· ≥ ·)).Pairwise (· ≥ ·) := List.pairwise_insertionSort _ _
  have sB : (B.insertionSort (· ≥ ·)).Pairwise (· ≥ ·) := List.pairwise_insertionSort _ _
  have dA : (A.insertionSort (· ≥ ·)).Pairwise (· > ·) := by
    have : (A.insertionSort (· ≥ ·)).Nodup := pA.nodup_iff.2 hd
    exact (sA.and this).imp fun h => lt_of_le_of_ne h.1 h.2.symm
  have rA : ∀ t, reaching t A = reaching t (A.insertionSort (· ≥ ·)) := fun t =>
    ((pA.filter _).length_eq).symm
  have rB : ∀ t, reaching t B = reaching t (B.insertionSort (· ≥ ·)) := fun t =>
    ((pB.filter _).length_eq).symm
  rw [← (pA.map _).sum_eq, ← (pB.map _).sum_eq]
  simp only [rA, rB]
  have hAB : ∀ t, reaching t (A.insertionSort (· ≥ ·)) ≤ reaching t (B.insertionSort (· ≥ ·)) := by
    intro t; rw [← rA, ← rB]; exact reaching_forall₂ hA t
  have hlen : (A.insertionSort (· ≥ ·)).length = (B.insertionSort (· ≥ ·)).length := by
    rw [pA.length_eq, pB.length_eq, hA.length_eq]
  generalize A.insertionSort (· ≥ ·) = A' at *
  generalize B.insertionSort (· ≥ ·) = B' at *
  refine sum_forall₂ (r := fun a b => (reaching a A' : K) / (reaching a A' + reaching a M) ≤
    (reaching b B' : K) / (reaching b B' + reaching b N)) ?_ _ _ fun a b h => h
  rw [List.forall₂_iff_get]
  refine ⟨hlen, fun i h1 h2 => ?_⟩
  simp only [List.get_eq_getElem]
  have e1 : reaching A'[i] A' = i + 1 := reaching_eq A' dA i h1
  have e2 : i + 1 ≤ reaching B'[i] B' := reaching_ge B' sB i h2
  have e3 : A'[i] ≤ B'[i] := by
    by_contra hc
    have := reaching_le B' sB i h2 A'[i] (not_le.1 hc)
    have h3 := hAB A'[i]
    rw [e1] at h3
    unfold reaching at h3
    omega
  refine ratio_mono (by omega) ?_ (by omega)
  exact (reaching_anti N e3).trans (reaching_forall₂ hN _)

/-- **C171.** AUROC: a detector that scores every anomaly at least as high and every normal instance
at most as high is not rated lower. -/
theorem C171_auroc (l : List (Bool × K × K)) (h : Better l) (h1 : true ∈ l.map (·.1))
    (h2 : false ∈ l.map (·.1)) :
    ∃ a b : K, reported (aurocMetric rocAucCurve) (l.map (·.1)) (l.map (·.2.1)) = .ok a ∧
      reported (aurocMetric rocAucCurve) (l.map (·.1)) (l.map (·.2.2)) = .ok b ∧ a ≤ b := by
  refine ⟨_, _, auroc_reported _ _ (by simp) h1 h2, auroc_reported _ _ (by simp) h1 h2, ?_⟩
  rw [List.zip_map', List.zip_map']
  exact rankingProbability_mono l h

/-- The full claim of **C171** for AUPR. -/
def C171_aupr_statement : Prop :=
  ∀ (l : List (Bool × ℚ × ℚ)), l ≠ [] → Better l →
    ∃ a b, reported (auprMetric averagePrecisionScore) (l.map (·.1)) (l.map (·.2.1)) = .ok a ∧
      reported (auprMetric averagePrecisionScore) (l.map (·.1)) (l.map (·.2.2)) = .ok b ∧ a ≤ b

/-- **C171 is false for AUPR**: one normal instance on top and three anomalies tied below it are rated
3/4; raising one of the three makes it 2/3, although nothing else changed. -/
theorem C171_aupr_refuted : ¬ C171_aupr_statement := by
  intro h
  obtain ⟨a, b, ha, hb, hab⟩ := h [(false, 3, 3), (true, 1, 2), (true, 1, 1), (true, 1, 1)] (by simp) (by
    unfold Better
    decide +kernel)
  have ha' : reported (auprMetric averagePrecisionScore) [false, true, true, true] [(3 : ℚ), 1, 1, 1] =
      .ok (3 / 4) := by decide +kernel
  have hb' : reported (auprMetric averagePrecisionScore) [false, true, true, true] [(3 : ℚ), 2, 1, 1] =
      .ok (2 / 3) := by decide +kernel
  cases ha.symm.trans ha'
  cases hb.symm.trans hb'
  norm_num at hab

/-- **C171**, AUPR, as far as it holds: if the first detector gives no two anomalies the same score
(ties with normal instances, and any ties of the second detector, are allowed), or if the second
differs from it in the scores of normal instances only.
Missing: anomalies tied by the first detector (`C171_aupr_refuted`). -/
theorem C171_aupr_partial (l : List (Bool × K × K)) (hne : l ≠ []) (h : Better l)
    (hd : (anomalies (l.map fun t => (t.1, t.2.1))).Nodup ∨ ∀ t ∈ l, t.1 = true → t.2.1 = t.2.2) :
    ∃ a b : K, reported (auprMetric averagePrecisionScore) (l.map (·.1)) (l.map (·.2.1)) = .ok a ∧
      reported (auprMetric averagePrecisionScore) (l.map (·.1)) (l.map (·.2.2)) = .ok b ∧ a ≤ b := by
  refine ⟨_, _, aupr_reported _ _ (by simp) (by simpa using hne),
    aupr_reported _ _ (by simp) (by simpa using hne), ?_⟩
  rw [List.zip_map', List.zip_map']
  rcases hd with hd | hd
  · exact meanPrecision_mono l h hd
  · have hN := normals_forall₂ l h
    have e : anomalies (two l) = anomalies (one l) := by
      clear hN h hne
      induction l with
      | nil => rfl
      | cons t l ih =>
        have ih := ih fun t ht => hd t (by simp [ht])
        have h0 := hd t (by simp)
        obtain ⟨b, x, y⟩ := t
        cases b
        · simpa [one, two, anomalies] using ih
        · have h0 : x = y := h0 rfl
          subst h0
          simpa [one, two, anomalies] using ih
    show meanPrecision (one l) ≤ meanPrecision (two l)
    unfold meanPrecision
    simp only [precisionAt_eq]
    rw [e]
    refine div_le_div_of_nonneg_right (List.sum_le_sum fun a ha => ?_) (by positivity)
    refine ratio_mono le_rfl (reaching_forall₂ hN a) ?_
    unfold reaching
    rw [List.length_pos_iff]
    exact List.ne_nil_of_mem (List.mem_filter.2 ⟨ha, by simp⟩)

/-- The first detector's decisions, the second one's, and the counts that matter. -/
private theorem counts_mono (l : List (Bool × Bool × Bool)) (h : Better l) :
    (l.map fun t => (t.1, t.2.1)).count (true, true) ≤ (l.map fun t => (t.1, t.2.2)).count (true, true) ∧
    (l.map fun t => (t.1, t.2.2)).count (false, true) ≤ (l.map fun t => (t.1, t.2.1)).count (false, true) ∧
    (l.map fun t => (t.1, t.2.1)).count (true, true) + (l.map fun t => (t.1, t.2.1)).count (true, false) =
    (l.map fun t => (t.1, t.2.2)).count (true, true) + (l.map fun t => (t.1, t.2.2)).count (true, false) := by
  induction l with
  | nil => simp
  | cons t l ih =>
    obtain ⟨i1, i2, i3⟩ := ih fun t ht => h t (by simp [ht])
    have h0 := h t (by simp)
    obtain ⟨b, x, y⟩ := t
    revert h0
    cases b <;> cases x <;> cases y <;> simp <;> omega

/-- **C171.** Precision: a detector that reports every anomaly the other one reports, and no further
normal instance, is not rated lower. -/
theorem C171_precision (l : List (Bool × Bool × Bool)) (h : Better l) :
    ∃ a b : K, reported (precisionMetric K) (l.map (·.1)) (l.map (·.2.1)) = .ok a ∧
      reported (precisionMetric K) (l.map (·.1)) (l.map (·.2.2)) = .ok b ∧ a ≤ b := by
  obtain ⟨h1, h2, -⟩ := counts_mono l h
  unfold precisionMetric
  refine ⟨_, _, reported_sklearn _ _ _ (by simp), reported_sklearn _ _ _ (by simp), ?_⟩
  have p1 := C33_precision (K := K) (l.map fun t => (t.1, t.2.1))
  have p2 := C33_precision (K := K) (l.map fun t => (t.1, t.2.2))
  simp only [List.map_map, Function.comp_def] at p1 p2
  rcases Nat.eq_zero_or_pos ((l.map fun t => (t.1, t.2.1)).count (true, true)) with h0 | h0
  · refine le_trans (le_of_eq ?_) p2.2.2.1
    by_cases h3 : (l.map fun t => (t.1, t.2.1)).count (true, true) +
        (l.map fun t => (t.1, t.2.1)).count (false, true) = 0
    · exact p1.2.1 h3
    · rw [p1.1 h3, h0]; simp
  · rw [p1.1 (by omega), p2.1 (by omega)]
    exact ratio_mono h1 h2 h0

/-- **C171.** Recall: the same. -/
theorem C171_recall (l : List (Bool × Bool × Bool)) (h : Better l) :
    ∃ a b : K, reported (recallMetric K) (l.map (·.1)) (l.map (·.2.1)) = .ok a ∧
      reported (recallMetric K) (l.map (·.1)) (l.map (·.2.2)) = .ok b ∧ a ≤ b := by
  obtain ⟨h1, -, h2⟩ := counts_mono l h
  unfold recallMetric
  refine ⟨_, _, reported_sklearn _ _ _ (by simp), reported_sklearn _ _ _ (by simp), ?_⟩
  have p1 := C33_recall (K := K) (l.map fun t => (t.1, t.2.1))
  have p2 := C33_recall (K := K) (l.map fun t => (t.1, t.2.2))
  simp only [List.map_map, Function.comp_def] at p1 p2
  by_cases h3 : (l.map fun t => (t.1, t.2.1)).count (true, true) +
      (l.map fun t => (t.1, t.2.1)).count (true, false) = 0
  · rw [p1.2.1 h3, p2.2.1 (by omega)]
  · rw [p1.1 h3, p2.1 (by omega)]
    have e : ((l.map fun t => (t.1, t.2.1)).count (true, true) : K) +
        (l.map fun t => (t.1, t.2.1)).count (true, false) =
        ((l.map fun t => (t.1, t.2.2)).count (true, true) : K) +
        (l.map fun t => (t.1, t.2.2)).count (true, false) := by exact_mod_cast h2
    rw [e]
    exact div_le_div_of_nonneg_right (by exact_mod_cast h1) (by positivity)

/-! ### In windows -/

private theorem windowedValue_mono_sublist {α : Type*} (f g : List α → K) (w : ℕ) (ign : Bool) (l : List α)
    (h : ∀ l', l'.Sublist l → f l' ≤ g l') : windowedValue f f w ign l ≤ windowedValue g g w ign l := by
  have hr : (restOf w l).Sublist l := List.drop_sublist _ _
  have hs : ∀ x ∈ windowsOf w l, x.Sublist l := by
    intro x hx
    obtain ⟨k, -, rfl⟩ := List.mem_map.1 hx
    exact (List.take_sublist _ _).trans (List.drop_sublist _ _)
  unfold windowedValue
  cases hw : windowsOf w l with
  | nil => exact h l (List.Sublist.refl l)
  | cons win wins =>
    rw [hw] at hs
    have e : ∀ f : List α → K, f win :: wins.map f = (win :: wins).map f := fun _ => rfl
    have e2 : ∀ f : List α → K, (win :: wins).map f ++ [f (restOf w l)] =
        ((win :: wins) ++ [restOf w l]).map f := fun _ => by simp
    simp only [e, e2]
    split
    · exact meanOf_mono _ _ _ fun x hx => h x (hs x hx)
    · refine meanOf_mono _ _ _ fun x hx => ?_
      rcases List.mem_append.1 hx with hx | hx
      · exact h x (hs x hx)
      · rw [List.mem_singleton.1 hx]; exact h _ hr

/-- What a windowed metric that never raises reports. -/
private theorem windowedReported_total {P : Type*} (v : List Bool → List P → K) (w : ℕ) (hw : 1 ≤ w)
    (ign : Bool) (ys : List Bool) (ps : List P) (h : ys.length = ps.length) (hne : ys ≠ []) :
    windowedReported (sklearnMetric fun y p => (Except.ok (v y p) : Except PyErr K)) w ign ys ps =
      .ok (windowedValue (fun l => v (l.map Prod.fst) (l.map Prod.snd))
        (fun l => v (l.map Prod.fst) (l.map Prod.snd)) w ign (ys.zip ps)) := by
  have sp : MetricSpec (sklearnMetric fun y p => (Except.ok (v y p) : Except PyErr K)) ()
      (fun l => v (l.map Prod.fst) (l.map Prod.snd)) :=
    { R := fun l s => s = (l.map Prod.fst, l.map Prod.snd)
      new := ⟨_, rfl, rfl⟩
      update := by rintro l s rfl y p; exact ⟨_, rfl, by simp⟩
      get := by rintro l s rfl hl; exact ⟨_, rfl, rfl⟩ }
  obtain ⟨s0, s, s', e1, e2, e3⟩ := C30_windowed_metric
    (mc := sklearnMetric fun y p => (Except.ok (v y p) : Except PyErr K))
    (fun l => v (l.map Prod.fst) (l.map Prod.snd)) sp w hw ign (ys.zip ps) (by
      intro e; apply hne; rw [← List.map_fst_zip (l₁ := ys) (l₂ := ps) h.le, e]; rfl)
  unfold windowedReported
  rw [e1]
  simp only [e2, e3, Res.out]

private theorem precisionScore_mono (l : List (Bool × Bool × Bool)) (h : Better l) :
    (precisionScore (l.map (·.1)) (l.map (·.2.1)) : K) ≤ precisionScore (l.map (·.1)) (l.map (·.2.2)) := by
  obtain ⟨a, b, ha, hb, hab⟩ := C171_precision (K := K) l h
  unfold precisionMetric at ha hb
  rw [reported_sklearn _ _ _ (by simp)] at ha hb
  cases ha; cases hb; exact hab

private theorem recallScore_mono (l : List (Bool × Bool × Bool)) (h : Better l) :
    (recallScore (l.map (·.1)) (l.map (·.2.1)) : K) ≤ recallScore (l.map (·.1)) (l.map (·.2.2)) := by
  obtain ⟨a, b, ha, hb, hab⟩ := C171_recall (K := K) l h
  unfold recallMetric at ha hb
  rw [reported_sklearn _ _ _ (by simp)] at ha hb
  cases ha; cases hb; exact hab

/-- **C171.** Windowed Precision and Recall: the same, for every window size and both treatments of the
last window. -/
theorem C171_windowed (l : List (Bool × Bool × Bool)) (hne : l ≠ []) (h : Better l) (w : ℕ) (hw : 1 ≤ w)
    (ign : Bool) :
    (∃ a b : K, windowedReported (precisionMetric K) w ign (l.map (·.1)) (l.map (·.2.1)) = .ok a ∧
      windowedReported (precisionMetric K) w ign (l.map (·.1)) (l.map (·.2.2)) = .ok b ∧ a ≤ b) ∧
    (∃ a b : K, windowedReported (recallMetric K) w ign (l.map (·.1)) (l.map (·.2.1)) = .ok a ∧
      windowedReported (recallMetric K) w ign (l.map (·.1)) (l.map (·.2.2)) = .ok b ∧ a ≤ b) := by
  constructor
  all_goals
    refine ⟨_, _, windowedReported_total _ w hw ign _ _ (by simp) (by simpa using hne),
      windowedReported_total _ w hw ign _ _ (by simp) (by simpa using hne), ?_⟩
    rw [List.zip_map', List.zip_map', ← windowedValue_map, ← windowedValue_map]
    refine windowedValue_mono_sublist _ _ w ign l fun l' hl' => ?_
    simp only [List.map_map, Function.comp_def]
  · exact precisionScore_mono l' fun t ht => h t (hl'.subset ht)
  · exact recallScore_mono l' fun t ht => h t (hl'.subset ht)

/-- **C171**, windowed AUPR: the same if the first detector gives no two anomalies the same score.
Missing: tied anomalies (`C171_aupr_refuted`). -/
theorem C171_windowed_aupr_partial (l : List (Bool × K × K)) (hne : l ≠ []) (h : Better l)
    (hd : (anomalies (l.map fun t => (t.1, t.2.1))).Nodup) (w : ℕ) (hw : 1 ≤ w) (ign : Bool) :
    ∃ a b : K, windowedReported (auprMetric averagePrecisionScore) w ign (l.map (·.1)) (l.map (·.2.1)) =
        .ok a ∧
      windowedReported (auprMetric averagePrecisionScore) w ign (l.map (·.1)) (l.map (·.2.2)) = .ok b ∧
      a ≤ b := by
  refine ⟨_, _, windowedReported_aupr w hw ign _ _ (by simp) (by simpa using hne),
    windowedReported_aupr w hw ign _ _ (by simp) (by simpa using hne), ?_⟩
  rw [List.zip_map', List.zip_map', ← windowedValue_map, ← windowedValue_map]
  refine windowedValue_mono_sublist _ _ w ign l fun l' hl' => ?_
  refine meanPrecision_mono l' (fun t ht => h t (hl'.subset ht)) (hd.sublist ?_)
  exact ((hl'.map _).filter _).map _

end

/-- A stream on which the second detector is better, the anomalies untied: AUPR rises. -/
example : Better [(true, (2 : ℚ), (4 : ℚ)), (false, 3, 3), (true, 1, 1), (false, 1, 0)] ∧
    (anomalies [(true, (2 : ℚ)), (false, 3), (true, 1), (false, 1)]).Nodup ∧
    reported (auprMetric averagePrecisionScore) [true, false, true, false] [(2 : ℚ), 3, 1, 1] = .ok (1 / 2) ∧
    reported (auprMetric averagePrecisionScore) [true, false, true, false] [(4 : ℚ), 3, 1, 0] =
      .ok (5 / 6) ∧
    reported (aurocMetric rocAucCurve) [true, false, true, false] [(2 : ℚ), 3, 1, 1] = .ok (3 / 8) ∧
    reported (aurocMetric rocAucCurve) [true, false, true, false] [(4 : ℚ), 3, 1, 0] = .ok (3 / 4) := by
  unfold Better
  decide +kernel

/-- Decisions: one more anomaly reported and one false alarm less. -/
example : Better [(true, false, true), (false, true, false), (true, true, true)] ∧
    reported (precisionMetric ℚ) [true, false, true] [false, true, true] = .ok (1 / 2) ∧
    reported (precisionMetric ℚ) [true, false, true] [true, false, true] = .ok 1 := by
  unfold Better
  decide +kernel

end Pysad
