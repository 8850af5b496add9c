import Verif.Props.BucketEnsemblers
import Verif.Props.Robust

/-! Property C206: what broken detectors can do to an ensemble. -/

namespace Pysad
open Spec

/-- In an ensemble of `n` detectors, `b` broken ones cannot silence the others: if all but at most `b`
detectors give an instance a score of at least `t`, so does the ensemble. -/
def Spec.CannotSilence {σ K : Type*} [LinearOrder K] (p : Postprocessor σ (List K) K) (n b : ℕ) : Prop :=
  ∀ (s s' : σ) (scores : List K) (r t : K), scores.length = n →
    p.transformPartial s scores = .ok r s' → scores.countP (· < t) ≤ b → t ≤ r

/-- `b` broken detectors of `n` cannot raise a false alarm: if all but at most `b` detectors give an
instance a score of at most `t`, so does the ensemble. -/
def Spec.CannotAlarm {σ K : Type*} [LinearOrder K] (p : Postprocessor σ (List K) K) (n b : ℕ) : Prop :=
  ∀ (s s' : σ) (scores : List K) (r t : K), scores.length = n →
    p.transformPartial s scores = .ok r s' → scores.countP (t < ·) ≤ b → r ≤ t

/-- How far `b` broken detectors can lift the score: if no score exceeds `hi`, at most by the fraction `q`
of the way from `t` to `hi`. -/
def Spec.LiftsAtMost {σ K : Type*} [Field K] [LinearOrder K] (p : Postprocessor σ (List K) K) (n b : ℕ)
    (q : K) : Prop :=
  ∀ (s s' : σ) (scores : List K) (r t hi : K), scores.length = n →
    p.transformPartial s scores = .ok r s' → scores.countP (t < ·) ≤ b → t ≤ hi →
    (∀ x ∈ scores, x ≤ hi) → r ≤ t + q * (hi - t)

/-- The full claim of **C206**: a minority of broken detectors can do neither, in any ensemble. -/
def C206_statement : Prop :=
  ∀ n b : ℕ, 2 * b < n →
    (∀ combine ∈ [pyodAverage (K := ℚ) none, pyodMaximization, pyodMedian],
      CannotSilence (scoreEnsembler combine) n b ∧ CannotAlarm (scoreEnsembler combine) n b) ∧
    ∀ combine ∈ [pyodAom (K := ℚ), pyodMoa], ∀ (G : Type) (sh : IndexShuffle G) (m : ℕ),
      CannotSilence (bucketEnsembler sh combine m) n b ∧ CannotAlarm (bucketEnsembler sh combine m) n b

namespace BrokenDetector
section
variable {K : Type*} [Field K] [LinearOrder K] [IsStrictOrderedRing K]

omit [Field K] [LinearOrder K] [IsStrictOrderedRing K] in
private theorem bucket_flatten (size : ℕ) : ∀ (k : ℕ) (l : List K), l.length = k * size →
    ((List.range k).map fun i => (l.drop (i * size)).take size).flatten = l := by
  intro k
  induction k with
  | zero => intro l h; simp at h; simp [h]
  | succ k ih =>
    intro l h
    have h' : l.length = size + k * size := by rw [h]; ring
    rw [List.range_succ_eq_map, List.map_cons, List.flatten_cons, List.map_map]
    have e : ((fun i => (l.drop (i * size)).take size) ∘ Nat.succ)
        = fun i => ((l.drop size).drop (i * size)).take size := by
      funext i
      simp only [Function.comp, List.drop_drop]
      congr 2
      rw [Nat.succ_mul]; ring
    rw [e, ih (l.drop size) (by simp; omega)]
    simp

private theorem sum_le_count (l : List K) (t hi : K) (h : ∀ x ∈ l, x ≤ hi) :
    l.sum ≤ l.length * t + l.countP (t < ·) * (hi - t) := by
  induction l with
  | nil => simp
  | cons a l ih =>
    have h1 := ih fun x hx => h x (List.mem_cons_of_mem _ hx)
    have h2 := h a List.mem_cons_self
    rw [List.sum_cons, List.length_cons, List.countP_cons]
    by_cases ha : t < a
    · simp only [ha, decide_true, if_true]; push_cast; linarith
    · simp only [ha, decide_false, Bool.false_eq_true, if_false, add_zero]
      push_cast; linarith [not_lt.1 ha]

private theorem le_sum (l : List K) (t : K) (h : ∀ x ∈ l, t ≤ x) : (l.length : K) * t ≤ l.sum := by
  induction l with
  | nil => simp
  | cons a l ih =>
    have h1 := ih fun x hx => h x (List.mem_cons_of_mem _ hx)
    have h2 := h a List.mem_cons_self
    rw [List.sum_cons, List.length_cons]
    push_cast; linarith

omit [Field K] [LinearOrder K] [IsStrictOrderedRing K] in
private theorem countP_bucket (p : K → Bool) {b : List K} {bs : List (List K)} (hb : b ∈ bs) :
    b.countP p ≤ bs.flatten.countP p := by
  rw [List.countP_flatten]
  exact List.single_le_sum (fun _ _ => Nat.zero_le _) _ (List.mem_map_of_mem hb)

omit [Field K] [LinearOrder K] [IsStrictOrderedRing K] in
/-- The buckets with an entry of some kind are no more than the entries of the kind. -/
private theorem countP_buckets (p : K → Bool) (q : List K → Bool) (bs : List (List K))
    (h : ∀ b ∈ bs, q b = true → ∃ x ∈ b, p x = true) : bs.countP q ≤ bs.flatten.countP p := by
  induction bs with
  | nil => simp
  | cons b bs ih =>
    have h1 := ih fun b hb => h b (List.mem_cons_of_mem _ hb)
    rw [List.countP_cons, List.flatten_cons, List.countP_append]
    by_cases hq : q b = true
    · have : 0 < b.countP p := List.countP_pos_iff.2 (h b List.mem_cons_self hq)
      rw [if_pos hq]; omega
    · rw [if_neg hq]; omega

/-- What a bucket method computes: the row is divided into `m` buckets of `n / m` scores. -/
private theorem buckets_of {G : Type*} (sh : IndexShuffle G) (combine : ℕ → List K → Except PyErr K) (m : ℕ)
    (g g' : G) (scores : List K) (r : K)
    (h : (bucketEnsembler sh combine m).transformPartial g scores = .ok r g') :
    2 < m ∧ m < scores.length ∧ scores.length % m = 0 ∧
    ∃ bs : List (List K), bs.flatten.Perm scores ∧ bs.length = m ∧
      (∀ b ∈ bs, b.length = scores.length / m ∧ b ≠ []) ∧
      (combine = pyodAom → ∃ mx : List K → K, (∀ b ∈ bs, mx b ∈ b ∧ ∀ x ∈ b, x ≤ mx b) ∧
        r = (bs.map mx).sum / (m : K)) ∧
      (combine = pyodMoa → ∃ b0 ∈ bs, r = b0.sum / ((scores.length / m : ℕ) : K) ∧
        ∀ b ∈ bs, b.sum / ((scores.length / m : ℕ) : K) ≤ r) := by
  simp only [bucketEnsembler] at h
  split at h
  · cases h
  rename_i hcond
  push Not at hcond
  obtain ⟨hm, hlen, hdiv⟩ := hcond
  have hp := pick_perm _ scores (sh.perm g scores.length)
  generalize ((sh.draw g scores.length).1.filterMap fun i => scores[i]?) = l at h hp
  have hll := hp.length_eq
  have hk : l.length = m * (l.length / m) := by
    rw [hll]; exact (Nat.mul_div_cancel' (Nat.dvd_of_mod_eq_zero hdiv)).symm
  have hs : 0 < l.length / m := Nat.div_pos (by omega) (by omega)
  obtain ⟨e1, e2⟩ := staticBuckets_facts hs hk
  have hbl : (staticBuckets (l.length / m) l).length = m := by rw [e1]; simp
  have hne : ∀ f : List K → K, (staticBuckets (l.length / m) l).map f ≠ [] := by
    intro f h0
    have := congrArg List.length h0
    rw [List.length_map, hbl] at this
    simp at this
    omega
  have hmod : ¬ l.length % m ≠ 0 := by rw [hll]; simpa using hdiv
  refine ⟨hm, hlen, hdiv, staticBuckets (l.length / m) l, ?_, hbl, ?_, ?_, ?_⟩
  · rw [e1, bucket_flatten _ _ _ hk]; exact hp
  · intro b hb
    exact ⟨by rw [(e2 b hb).1, hll], (e2 b hb).2.1⟩
  · rintro rfl
    have hg : ∀ b ∈ staticBuckets (l.length / m) l, pyodMaximization b = .ok ((npMax b).getD 0) ∧
        (npMax b).getD 0 ∈ b ∧ ∀ x ∈ b, x ≤ (npMax b).getD 0 := by
      intro b hb
      obtain ⟨mm, h1, h2, h3⟩ := npMax_spec b (e2 b hb).2.1
      simp only [pyodMaximization, h1, Option.getD_some]
      exact ⟨trivial, h2, h3⟩
    refine ⟨fun b => (npMax b).getD 0, fun b hb => (hg b hb).2, ?_⟩
    unfold pyodAom pyodBuckets at h
    rw [if_neg hmod, mapM_ok fun b hb => (hg b hb).1] at h
    simp only [Except.bind, pyodAverage, if_neg (hne _), Res.ofExcept, Res.ok.injEq] at h
    rw [← h.1, List.length_map, hbl]
  · rintro rfl
    have hg : ∀ b ∈ staticBuckets (l.length / m) l,
        pyodAverage none b = .ok (b.sum / ((scores.length / m : ℕ) : K)) := by
      intro b hb
      simp only [pyodAverage, if_neg (e2 b hb).2.1, (e2 b hb).1, hll]
    unfold pyodMoa pyodBuckets at h
    rw [if_neg hmod, mapM_ok hg] at h
    obtain ⟨mm, h1, h2, h3⟩ := npMax_spec _ (hne fun b => b.sum / ((scores.length / m : ℕ) : K))
    simp only [Except.bind, pyodMaximization, h1, Res.ofExcept, Res.ok.injEq] at h
    obtain ⟨rfl, -⟩ := h
    obtain ⟨b0, hb0, e⟩ := List.mem_map.1 h2
    exact ⟨b0, hb0, e.symm, fun b hb => h3 _ (List.mem_map_of_mem hb)⟩

omit [Field K] [LinearOrder K] [IsStrictOrderedRing K] in
private theorem ensemble_ok {combine : List K → Except PyErr K} {s s' : Unit} {scores : List K} {r : K}
    (h : (scoreEnsembler combine).transformPartial s scores = .ok r s') : combine scores = .ok r := by
  simp only [scoreEnsembler] at h
  cases hc : combine scores with
  | error e => rw [hc] at h; cases h
  | ok v => rw [hc] at h; cases h; rfl

omit [Field K] [LinearOrder K] [IsStrictOrderedRing K] in
private theorem countP_split (l : List K) (p q : K → Bool) (h : ∀ x, q x = !p x) :
    l.countP p + l.countP q = l.length := by
  induction l with
  | nil => rfl
  | cons a l ih =>
    rw [List.countP_cons, List.countP_cons, List.length_cons, h a]
    cases p a <;> simp <;> omega

end
end BrokenDetector

section
variable {K : Type*} [Field K] [LinearOrder K] [IsStrictOrderedRing K]
open BrokenDetector

omit [Field K] [IsStrictOrderedRing K] in
/-- **C206**, maximum: as long as one detector works the others cannot silence it. -/
theorem C206_maximum_silence {n b : ℕ} (hb : b < n) :
    CannotSilence (scoreEnsembler (pyodMaximization (K := K))) n b := by
  intro s s' scores r t hn h hc
  have h := ensemble_ok h
  have hne : scores ≠ [] := by rintro rfl; simp at hn; omega
  obtain ⟨m, h1, -, h3⟩ := npMax_spec scores hne
  simp only [pyodMaximization, h1, Except.ok.injEq] at h
  subst h
  by_contra hlt
  have hall : scores.countP (· < t) = scores.length :=
    List.countP_eq_length.2 fun x hx => by simpa using (h3 x hx).trans_lt (not_le.1 hlt)
  omega

/-- **C206**, median: neither, as long as the broken detectors are a minority. -/
theorem C206_median {n b : ℕ} (hb : 2 * b < n) :
    CannotSilence (scoreEnsembler (pyodMedian (K := K))) n b ∧
    CannotAlarm (scoreEnsembler (pyodMedian (K := K))) n b := by
  have key : ∀ (scores : List K) (r lo hi : K), pyodMedian scores = .ok r →
      MostlyWithin lo hi (scores : Multiset K) → lo ≤ r ∧ r ≤ hi := by
    intro scores r lo hi h hm
    obtain ⟨v, hv, h1⟩ := C134_ensemble_partial scores lo hi hm
    have := ensemble_ok hv
    rw [h] at this
    cases this
    exact h1
  constructor
  · intro s s' scores r t hn h hc
    have h := ensemble_ok h
    have hne : scores ≠ [] := by rintro rfl; simp at hn; omega
    obtain ⟨mx, -, -, hmx⟩ := npMax_spec scores hne
    refine (key scores r t mx h ?_).1
    have h1 := countP_split scores (· < t) (t ≤ ·) fun x => by simp only [← not_lt, decide_not]
    have h2 : scores.countP (fun x => decide (t ≤ x ∧ x ≤ mx)) = scores.countP (t ≤ ·) :=
      List.countP_congr fun x hx => by simp [hmx x hx]
    unfold MostlyWithin Mostly
    rw [Multiset.coe_card, Multiset.coe_countP, h2]
    omega
  · intro s s' scores r t hn h hc
    have h := ensemble_ok h
    have hne : scores ≠ [] := by rintro rfl; simp at hn; omega
    have hex : ∃ mn, ∀ x ∈ scores, mn ≤ x := by
      obtain ⟨mx, -, -, hmx⟩ := npMax_spec (scores.map fun x => -x) (by simpa using hne)
      exact ⟨-mx, fun x hx => by
        have := hmx (-x) (List.mem_map_of_mem hx); linarith⟩
    obtain ⟨mn, hmn⟩ := hex
    refine (key scores r mn t h ?_).2
    have h1 := countP_split scores (t < ·) (· ≤ t) fun x => by simp only [← not_lt, decide_not]
    have h2 : scores.countP (fun x => decide (mn ≤ x ∧ x ≤ t)) = scores.countP (· ≤ t) :=
      List.countP_congr fun x hx => by simp [hmn x hx]
    unfold MostlyWithin Mostly
    rw [Multiset.coe_card, Multiset.coe_countP, h2]
    omega

/-- **C206**, average of maximum: broken detectors cannot silence the others as long as they do not fill
a bucket. -/
theorem C206_aom_silence_partial {G : Type*} (sh : IndexShuffle G) {n m b : ℕ} (hb : b < n / m) :
    CannotSilence (bucketEnsembler sh (pyodAom (K := K)) m) n b := by
  intro g g' scores r t hn h hc
  obtain ⟨hm, -, -, bs, hperm, hlen, hbs, ha, -⟩ := buckets_of sh _ m g g' scores r h
  obtain ⟨mx, hmx, rfl⟩ := ha rfl
  have hm0 : (0 : K) < m := by exact_mod_cast (by omega : 0 < m)
  rw [le_div_iff₀ hm0]
  have := le_sum (bs.map mx) t (by
    intro x hx
    obtain ⟨c, hcm, rfl⟩ := List.mem_map.1 hx
    by_contra hlt
    have hall : c.countP (· < t) = c.length :=
      List.countP_eq_length.2 fun x hx => by simpa using ((hmx c hcm).2 x hx).trans_lt (not_le.1 hlt)
    have h1 := countP_bucket (· < t) hcm
    rw [hperm.countP_eq, hall, (hbs c hcm).1, hn] at h1
    omega)
  rw [List.length_map, hlen] at this
  linarith

/-- **C206**, maximum of average: broken detectors cannot silence the others as long as there are fewer
of them than buckets. -/
theorem C206_moa_silence_partial {G : Type*} (sh : IndexShuffle G) {n m b : ℕ} (hb : b < m) :
    CannotSilence (bucketEnsembler sh (pyodMoa (K := K)) m) n b := by
  intro g g' scores r t hn h hc
  obtain ⟨hm, hlt, -, bs, hperm, hlen, hbs, -, ha⟩ := buckets_of sh _ m g g' scores r h
  obtain ⟨-, -, -, hr⟩ := ha rfl
  have hex : ∃ c ∈ bs, ∀ x ∈ c, t ≤ x := by
    by_contra hno
    push Not at hno
    have h1 := countP_buckets (· < t) (fun _ => true) bs fun c hcm _ => by
      obtain ⟨x, hx, hxt⟩ := hno c hcm
      exact ⟨x, hx, by simpa using hxt⟩
    have h2 : bs.countP (fun _ => true) = bs.length := List.countP_eq_length.2 fun _ _ => rfl
    rw [hperm.countP_eq, h2, hlen] at h1
    omega
  obtain ⟨c, hcm, hct⟩ := hex
  refine le_trans ?_ (hr c hcm)
  have hs : (0 : K) < ((scores.length / m : ℕ) : K) := by
    exact_mod_cast Nat.div_pos hlt.le (by omega)
  rw [le_div_iff₀ hs]
  have := le_sum c t hct
  rw [(hbs c hcm).1] at this
  linarith

/-- **C206**, how far broken detectors can lift the score, if scores have an upper bound `hi`: `b` of `n`
lift the average by at most `b / n` of the way to `hi`, the average of maxima of `m` buckets by `b / m`,
the maximum of averages of buckets of `n / m` by `b / (n / m)`. -/
theorem C206_alarm_partial {G : Type*} (sh : IndexShuffle G) (n m b : ℕ) :
    LiftsAtMost (scoreEnsembler (pyodAverage (K := K) none)) n b ((b : K) / n) ∧
    LiftsAtMost (bucketEnsembler sh (pyodAom (K := K)) m) n b ((b : K) / m) ∧
    LiftsAtMost (bucketEnsembler sh (pyodMoa (K := K)) m) n b ((b : K) / ((n / m : ℕ) : K)) := by
  refine ⟨?_, ?_, ?_⟩
  · intro s s' scores r t hi hn h hc ht hall
    have h := ensemble_ok h
    have hne : scores ≠ [] := by rintro rfl; simp [pyodAverage] at h
    simp only [pyodAverage, if_neg hne, Except.ok.injEq] at h
    subst h
    have hpos : (0 : K) < n := by
      rw [← hn]; exact_mod_cast List.length_pos_iff.2 hne
    have h1 := sum_le_count scores t hi hall
    have h2 : (scores.countP (t < ·) : K) * (hi - t) ≤ b * (hi - t) :=
      mul_le_mul_of_nonneg_right (by exact_mod_cast hc) (by linarith)
    rw [hn] at h1 ⊢
    rw [div_le_iff₀ hpos, add_mul, div_mul_eq_mul_div, div_mul_cancel₀ _ hpos.ne']
    linarith
  · intro g g' scores r t hi hn h hc ht hall
    obtain ⟨hm, -, -, bs, hperm, hlen, hbs, ha, -⟩ := buckets_of sh _ m g g' scores r h
    obtain ⟨mx, hmx, rfl⟩ := ha rfl
    have hm0 : (0 : K) < m := by exact_mod_cast (by omega : 0 < m)
    have h1 := sum_le_count (bs.map mx) t hi (by
      intro x hx
      obtain ⟨c, hcm, rfl⟩ := List.mem_map.1 hx
      exact hall _ (hperm.subset (List.mem_flatten.2 ⟨c, hcm, (hmx c hcm).1⟩)))
    have h3 : (bs.map mx).countP (t < ·) ≤ b := by
      rw [List.countP_map]
      refine (countP_buckets (t < ·) _ bs fun c hcm hq => ⟨mx c, (hmx c hcm).1, by simpa using hq⟩).trans ?_
      rw [hperm.countP_eq]
      exact hc
    have h2 : ((bs.map mx).countP (t < ·) : K) * (hi - t) ≤ b * (hi - t) :=
      mul_le_mul_of_nonneg_right (by exact_mod_cast h3) (by linarith)
    rw [List.length_map, hlen] at h1
    rw [div_le_iff₀ hm0, add_mul, div_mul_eq_mul_div, div_mul_cancel₀ _ hm0.ne']
    linarith
  · intro g g' scores r t hi hn h hc ht hall
    obtain ⟨hm, hlt, -, bs, hperm, hlen, hbs, -, ha⟩ := buckets_of sh _ m g g' scores r h
    obtain ⟨c, hcm, rfl, -⟩ := ha rfl
    rw [hn] at hbs ⊢
    have hs : (0 : K) < ((n / m : ℕ) : K) := by
      exact_mod_cast Nat.div_pos (by omega) (by omega)
    have h1 := sum_le_count c t hi fun x hx => hall x (hperm.subset (List.mem_flatten.2 ⟨c, hcm, hx⟩))
    have h3 : c.countP (t < ·) ≤ b := by
      refine (countP_bucket (t < ·) hcm).trans ?_
      rw [hperm.countP_eq]
      exact hc
    have h2 : (c.countP (t < ·) : K) * (hi - t) ≤ b * (hi - t) :=
      mul_le_mul_of_nonneg_right (by exact_mod_cast h3) (by linarith)
    rw [(hbs c hcm).1] at h1
    rw [div_le_iff₀ hs, add_mul, div_mul_eq_mul_div, div_mul_cancel₀ _ hs.ne']
    linarith

/-- One score among zeros. -/
private def single (x : K) (n : ℕ) : List K := x :: List.replicate (n - 1) 0

omit [LinearOrder K] [IsStrictOrderedRing K] in
private theorem single_length {n : ℕ} (hn : 1 ≤ n) (x : K) : (single x n).length = n := by
  simp only [single, List.length_cons, List.length_replicate]; omega

omit [LinearOrder K] [IsStrictOrderedRing K] in
private theorem single_sum (x : K) (n : ℕ) : (single x n).sum = x := by
  simp [single]

omit [LinearOrder K] [IsStrictOrderedRing K] in
private theorem single_countP (x : K) (n : ℕ) (p : K → Bool) (h0 : p 0 = false) :
    (single x n).countP p ≤ 1 := by
  unfold single
  rw [List.countP_cons, List.countP_replicate]
  simp only [h0, Bool.false_eq_true, if_false]
  split_ifs <;> simp

/-- **C206 is false of the average**, for any number of detectors: a single broken one silences the
others, and raises an alarm. -/
theorem C206_average_refuted {n b : ℕ} (hn : 1 ≤ n) (hb : 1 ≤ b) :
    ¬ CannotSilence (scoreEnsembler (pyodAverage (K := K) none)) n b ∧
    ¬ CannotAlarm (scoreEnsembler (pyodAverage (K := K) none)) n b := by
  have hpos : (0 : K) < n := by exact_mod_cast hn
  have key : ∀ x : K, (scoreEnsembler (pyodAverage (K := K) none)).transformPartial () (single x n)
      = .ok (x / n) () := by
    intro x
    have hne : single x n ≠ [] := by simp [single]
    simp only [scoreEnsembler, pyodAverage, if_neg hne, single_sum, single_length hn, Res.ofExcept]
  constructor
  · intro h
    have := h () () _ _ 0 (single_length hn (-1)) (key _)
      ((single_countP _ _ _ (by simp)).trans hb)
    rw [le_div_iff₀ hpos] at this
    linarith
  · intro h
    have := h () () _ _ 0 (single_length hn 1) (key _)
      ((single_countP _ _ _ (by simp)).trans hb)
    rw [div_le_iff₀ hpos] at this
    linarith

/-- **C206 is false of the maximum**: a single broken detector raises an alarm. -/
theorem C206_maximum_alarm_refuted {n b : ℕ} (hn : 1 ≤ n) (hb : 1 ≤ b) :
    ¬ CannotAlarm (scoreEnsembler (pyodMaximization (K := K))) n b := by
  intro h
  have hne : single (1 : K) n ≠ [] := by simp [single]
  obtain ⟨m, h1, -, h3⟩ := npMax_spec (single (1 : K) n) hne
  have := h () () (single 1 n) m 0 (single_length hn 1)
    (by simp only [scoreEnsembler, pyodMaximization, h1, Res.ofExcept])
    ((single_countP _ _ _ (by simp)).trans hb)
  have h4 := h3 1 (by simp [single])
  linarith

/-- **C206 is false of the bucket methods**, whatever the shuffle and the number of buckets: a single
broken detector raises an alarm. -/
theorem C206_buckets_alarm_refuted {G : Type*} (sh : IndexShuffle G) (g : G) {n m b : ℕ} (hm : 2 < m)
    (hmn : m < n) (hd : n % m = 0) (hb : 1 ≤ b) :
    ¬ CannotAlarm (bucketEnsembler sh (pyodAom (K := K)) m) n b ∧
    ¬ CannotAlarm (bucketEnsembler sh (pyodMoa (K := K)) m) n b := by
  have hn : 1 ≤ n := by omega
  have hpos : (0 : K) < n := by exact_mod_cast hn
  have hne : single (1 : K) n ≠ [] := by simp [single]
  have hl := single_length hn (1 : K)
  have hp := pick_perm _ (single (1 : K) n) (sh.perm g (single (1 : K) n).length)
  have hcond : ¬ (m ≤ 2 ∨ (single (1 : K) n).length ≤ m ∨ (single (1 : K) n).length % m ≠ 0) := by
    rw [hl]; omega
  have hav : ∀ a, pyodAverage none (single (1 : K) n) = .ok a → 0 < a := by
    intro a ha
    simp only [pyodAverage, if_neg hne, single_sum, hl, Except.ok.injEq] at ha
    rw [← ha]
    positivity
  constructor
  · intro h
    obtain ⟨a, r, mx, h1, h2, -, h4, -⟩ := C40_aom m (by omega) _ _ hp hne (by rw [hl]; exact hd)
    have := h g _ (single 1 n) r 0 hl
      (by simp only [bucketEnsembler, if_neg hcond, h2, Res.ofExcept]; rfl)
      ((single_countP _ _ _ (by simp)).trans hb)
    linarith [hav a h1]
  · intro h
    obtain ⟨a, r, mx, h1, h2, -, h4, -⟩ := C40_moa m (by omega) _ _ hp hne (by rw [hl]; exact hd)
    have := h g _ (single 1 n) r 0 hl
      (by simp only [bucketEnsembler, if_neg hcond, h2, Res.ofExcept]; rfl)
      ((single_countP _ _ _ (by simp)).trans hb)
    linarith [hav a h1]

end

/-- **C206 is false.** -/
theorem C206_refuted : ¬ C206_statement := fun h =>
  (C206_average_refuted (K := ℚ) (n := 3) (b := 1) (by norm_num) le_rfl).1
    ((h 3 1 (by norm_num)).1 _ (by simp)).1

/-- A generator that leaves the detectors in their order. -/
private def inOrderShuffle : IndexShuffle Unit := ⟨fun _ n => (List.range n, ()), fun _ _ => .refl _⟩

/-- **C206**, the bounds of `C206_aom_silence_partial` and `C206_moa_silence_partial` are sharp: two broken
detectors of six fill one of three buckets and lower the average of the maxima; one in each of three
buckets lowers all averages. -/
theorem C206_silence_sharp :
    ¬ CannotSilence (bucketEnsembler inOrderShuffle (pyodAom (K := ℚ)) 3) 6 2 ∧
    ¬ CannotSilence (bucketEnsembler inOrderShuffle (pyodMoa (K := ℚ)) 3) 6 3 := by
  constructor
  · intro h
    have := h () () [0, 0, 3, 3, 3, 3] 2 3 rfl (by decide +kernel) (by decide +kernel)
    norm_num at this
  · intro h
    have := h () () [0, 2, 0, 2, 0, 2] 1 2 rfl (by decide +kernel) (by decide +kernel)
    norm_num at this

/-! Concrete runs that meet the hypotheses. -/

example : (scoreEnsembler (pyodMedian (K := ℚ))).transformPartial () [5, -100, 7, 6, 100] = .ok 6 () ∧
    ([5, -100, 7, 6, 100] : List ℚ).countP (· < 5) ≤ 2 := by decide +kernel

example : (bucketEnsembler inOrderShuffle (pyodAom (K := ℚ)) 3).transformPartial ()
    [5, -100, 7, 6, 8, 6] = .ok (20 / 3) () ∧
    ([5, -100, 7, 6, 8, 6] : List ℚ).countP (· < 5) ≤ 1 ∧ 1 < 6 / 3 := by decide +kernel

end Pysad
