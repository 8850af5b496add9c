import Verif.Model.BucketEnsemblers
import Verif.Props.Base
import Verif.Props.Ensemblers
import Verif.Spec.Expectation
import Mathlib.Algebra.Order.BigOperators.Group.Finset
import Mathlib.Data.Fintype.Perm

/-! Property C132: an ensemble ranks instances like its detectors if they agree. -/

namespace Pysad

open Spec

/-- Every detector finds the instance with scores `a` at least as anomalous as the one with scores
`b`. -/
def Spec.Dominates {K : Type*} [LE K] (b a : List K) : Prop := List.Forall₂ (· ≤ ·) b a

/-- Scores in a batch respect the agreement of the detectors. -/
def Spec.RanksLikeDetectors {K : Type*} [LE K] (rows : List (List K)) (out : List K) : Prop :=
  ∀ (i j : ℕ) (b a : List K) (rb ra : K), rows[i]? = some b → rows[j]? = some a → out[i]? = some rb →
    out[j]? = some ra → Dominates b a → rb ≤ ra

theorem inOrder_each {σ ι α : Type*} {f : σ → ι → Res σ α} {P : ι → α → Prop}
    (hP : ∀ s x a s', f s x = .ok a s' → P x a) {xs : List ι} {s s' : σ} {as : List α}
    (h : inOrder f s xs = .ok as s') : List.Forall₂ P xs as := by
  induction xs generalizing s as with
  | nil => cases h; exact .nil
  | cons x xs ih =>
    simp only [inOrder] at h
    cases h1 : f s x with
    | err e t => rw [h1] at h; cases h
    | ok a t =>
      rw [h1] at h
      simp only at h
      cases h2 : inOrder f t xs with
      | err e t' => rw [h2] at h; cases h
      | ok as' t' =>
        rw [h2] at h
        cases h
        exact .cons (hP _ _ _ _ h1) (ih h2)

theorem forall₂_get {α β : Type*} {P : α → β → Prop} {l : List α} {m : List β} (h : List.Forall₂ P l m)
    {i : ℕ} {a : α} {b : β} (ha : l[i]? = some a) (hb : m[i]? = some b) : P a b := by
  induction h generalizing i with
  | nil => simp at ha
  | cons hab _ ih =>
    cases i with
    | zero => simp at ha hb; subst ha; subst hb; exact hab
    | succ i => simp at ha hb; exact ih ha hb

section
variable {K : Type*} [Field K] [LinearOrder K] [IsStrictOrderedRing K] {G : Type*}

/-- **C132**, average, maximum and median (C40 shows that they meet the hypothesis): in every batch. -/
theorem C132_combines (combine : List K → Except PyErr K) (hc : Combines combine)
    (rows : List (List K)) (out : List K) (s s' : Unit)
    (h : (scoreEnsembler combine).transform s rows = .ok out s') : RanksLikeDetectors rows out := by
  rw [(C22_postprocessor_in_order _ s rows).2.1] at h
  have hf := inOrder_each (P := fun x a => combine x = .ok a) (by
    intro s x a s' hx
    simp only [scoreEnsembler] at hx
    cases hr : combine x with
    | error e => rw [hr] at hx; cases hx
    | ok r => rw [hr] at hx; cases hx; rfl) h
  intro i j b a rb ra hb ha hrb hra hd
  exact hc.mono b a rb ra hd (forall₂_get hf hb hrb) (forall₂_get hf ha hra)

/-- The claim of **C132** for the bucket methods. -/
def C132_statement (combine : ℕ → List ℚ → Except PyErr ℚ) : Prop :=
  ∀ (G : Type) (sh : IndexShuffle G) (nBuckets : ℕ) (g g' : G) (rows : List (List ℚ)) (out : List ℚ),
    (bucketEnsembler sh combine nBuckets).transform g rows = .ok out g' → RanksLikeDetectors rows out

/-- A shuffle that takes turns between the given order and exchanging the second and third. -/
def alternating : IndexShuffle Bool where
  draw g n := (if g = true ∧ n = 6 then [0, 2, 1, 3, 4, 5] else List.range n, !g)
  perm g n := by
    by_cases h : g = true ∧ n = 6
    · rw [if_pos h, h.2]; exact (by decide : [0, 2, 1, 3, 4, 5].Perm (List.range 6))
    · rw [if_neg h]

/-- **C132 is false** of `AverageOfMaximumScoreEnsembler`: six detectors, three buckets; the first
instance gets 6, the second, which the detectors find more anomalous, 10/3. -/
theorem C132_aom_refuted : ¬ C132_statement pyodAom := by
  intro h
  have h1 : (bucketEnsembler alternating (pyodAom (K := ℚ)) 3).transform true
      [[9, 9, 0, 0, 0, 0], [10, 10, 0, 0, 0, 0]] = .ok [6, 10 / 3] true := by decide +kernel
  have := h Bool alternating 3 _ _ _ _ h1 0 1 [9, 9, 0, 0, 0, 0] [10, 10, 0, 0, 0, 0] 6 (10 / 3) rfl rfl rfl rfl
    (by simp [Dominates]; norm_num)
  norm_num at this

/-- **C132 is false** of `MaximumOfAverageScoreEnsembler`. -/
theorem C132_moa_refuted : ¬ C132_statement pyodMoa := by
  intro h
  have h1 : (bucketEnsembler alternating (pyodMoa (K := ℚ)) 3).transform false
      [[9, 9, 0, 0, 0, 0], [10, 10, 0, 0, 0, 0]] = .ok [9, 5] false := by decide +kernel
  have := h Bool alternating 3 _ _ _ _ h1 0 1 [9, 9, 0, 0, 0, 0] [10, 10, 0, 0, 0, 0] 9 5 rfl rfl rfl rfl
    (by simp [Dominates]; norm_num)
  norm_num at this

/-! What is left. -/

/-- Combining is monotone. -/
def MonoCombine (f : List K → Except PyErr K) : Prop :=
  ∀ l l' r r', List.Forall₂ (· ≤ ·) l l' → f l = .ok r → f l' = .ok r' → r ≤ r'

omit [IsStrictOrderedRing K] in
theorem mapM_mono {f : List K → Except PyErr K} (hf : MonoCombine f) {bs bs' : List (List K)}
    (h : List.Forall₂ (List.Forall₂ (· ≤ ·)) bs bs') {rs rs' : List K} (h1 : bs.mapM f = .ok rs)
    (h2 : bs'.mapM f = .ok rs') : List.Forall₂ (· ≤ ·) rs rs' := by
  induction h generalizing rs rs' with
  | nil =>
    simp only [List.mapM_nil] at h1 h2
    cases h1; cases h2; exact .nil
  | @cons b b' bs bs' hb _ ih =>
    rw [List.mapM_cons] at h1 h2
    cases e1 : f b with
    | error e => rw [e1] at h1; cases h1
    | ok r =>
      cases e2 : f b' with
      | error e => rw [e2] at h2; cases h2
      | ok r' =>
        rw [e1] at h1
        rw [e2] at h2
        cases e3 : bs.mapM f with
        | error e => rw [e3] at h1; cases h1
        | ok us =>
          cases e4 : bs'.mapM f with
          | error e => rw [e4] at h2; cases h2
          | ok us' =>
            rw [e3] at h1
            rw [e4] at h2
            cases h1; cases h2
            exact .cons (hf _ _ _ _ hb e1 e2) (ih e3 e4)

omit [IsStrictOrderedRing K] in
theorem buckets_mono {inner outer : List K → Except PyErr K} (hi : MonoCombine inner)
    (ho : MonoCombine outer) (n : ℕ) : MonoCombine (pyodBuckets inner outer n) := by
  intro l l' r r' h h1 h2
  have hl := h.length_eq
  unfold pyodBuckets at h1 h2
  rw [← hl] at h2
  by_cases hm : l.length % n ≠ 0
  · rw [if_pos hm] at h1; cases h1
  · rw [if_neg hm] at h1 h2
    cases e1 : (staticBuckets (l.length / n) l).mapM inner with
    | error e => rw [e1] at h1; cases h1
    | ok rs =>
      cases e2 : (staticBuckets (l.length / n) l').mapM inner with
      | error e => rw [e2] at h2; cases h2
      | ok rs' =>
        rw [e1] at h1
        rw [e2] at h2
        refine ho _ _ _ _ (mapM_mono hi ?_ e1 e2) h1 h2
        unfold staticBuckets
        rw [← hl, List.forall₂_map_left_iff, List.forall₂_map_right_iff, List.forall₂_same]
        intro i _
        exact List.forall₂_take _ (List.forall₂_drop _ h)

theorem aom_mono (n : ℕ) : MonoCombine (pyodAom (K := K) n) :=
  buckets_mono (C40_maximum.mono) (C40_average.mono) n

theorem moa_mono (n : ℕ) : MonoCombine (pyodMoa (K := K) n) :=
  buckets_mono (C40_average.mono) (C40_maximum.mono) n

omit [Field K] [LinearOrder K] [IsStrictOrderedRing K] in
theorem pick_perm (idx : List ℕ) (l : List K) (h : idx.Perm (List.range l.length)) :
    (idx.filterMap fun i => l[i]?).Perm l := by
  refine (h.filterMap _).trans ?_
  have : (List.range l.length).filterMap (fun i => l[i]?) = l := by
    clear h
    induction l with
    | nil => rfl
    | cons a l ih =>
      rw [List.length_cons, List.range_succ_eq_map, List.filterMap_cons]
      simp only [List.getElem?_cons_zero, List.filterMap_map]
      rw [show ((fun i => (a :: l)[i]?) ∘ Nat.succ) = fun i => l[i]? by ext; simp, ih]
  rw [this]

omit [Field K] [IsStrictOrderedRing K] in
theorem pick_mono (idx : List ℕ) {b a : List K} (h : Dominates b a) :
    List.Forall₂ (· ≤ ·) (idx.filterMap fun i => b[i]?) (idx.filterMap fun i => a[i]?) := by
  induction idx with
  | nil => exact .nil
  | cons i idx ih =>
    rw [List.filterMap_cons, List.filterMap_cons]
    rcases lt_or_ge i b.length with hi | hi
    · have hi' : i < a.length := by rw [← h.length_eq]; exact hi
      rw [List.getElem?_eq_getElem hi, List.getElem?_eq_getElem hi']
      exact .cons (forall₂_get h (List.getElem?_eq_getElem hi) (List.getElem?_eq_getElem hi')) ih
    · rw [List.getElem?_eq_none hi, List.getElem?_eq_none (by rw [← h.length_eq]; exact hi)]
      exact ih

/-- **C132**, partial: the bucket methods respect the agreement of the detectors if both instances
are scored with the same state of the generator. -/
theorem C132_same_shuffle_partial (sh : IndexShuffle G) (combine : ℕ → List K → Except PyErr K)
    (hc : combine = pyodAom ∨ combine = pyodMoa) (n : ℕ) (g g1 g2 : G) (b a : List K) (rb ra : K)
    (hb : (bucketEnsembler sh combine n).transformPartial g b = .ok rb g1)
    (ha : (bucketEnsembler sh combine n).transformPartial g a = .ok ra g2) (hd : Dominates b a) :
    rb ≤ ra := by
  have hm : MonoCombine (combine n) := by
    rcases hc with rfl | rfl
    · exact aom_mono n
    · exact moa_mono n
  simp only [bucketEnsembler] at hb ha
  split at hb
  · cases hb
  split at ha
  · cases ha
  rw [← hd.length_eq] at ha
  cases e1 : combine n ((sh.draw g b.length).1.filterMap fun i => b[i]?) with
  | error e => rw [e1] at hb; cases hb
  | ok r1 =>
    cases e2 : combine n ((sh.draw g b.length).1.filterMap fun i => a[i]?) with
    | error e => rw [e2] at ha; cases ha
    | ok r2 =>
      rw [e1] at hb
      rw [e2] at ha
      cases hb; cases ha
      exact hm _ _ _ _ (pick_mono _ hd) e1 e2

/-- **C132**, partial: whatever the shuffles, a bucket method answers between the mean and the
greatest score, so an instance whose mean score exceeds the greatest score of another is ranked
above it. -/
theorem C132_gap_partial (sh : IndexShuffle G) (combine : ℕ → List K → Except PyErr K)
    (hc : combine = pyodAom ∨ combine = pyodMoa) (n : ℕ) (g1 g1' g2 g2' : G) (b a : List K) (rb ra : K)
    (hb : (bucketEnsembler sh combine n).transformPartial g1 b = .ok rb g1')
    (ha : (bucketEnsembler sh combine n).transformPartial g2 a = .ok ra g2')
    (hgap : ∀ x ∈ b, x < a.sum / (a.length : K)) : rb < ra := by
  have key : ∀ (g g' : G) (l : List K) (r : K),
      (bucketEnsembler sh combine n).transformPartial g l = .ok r g' →
      l.sum / (l.length : K) ≤ r ∧ ∃ x ∈ l, r ≤ x := by
    intro g g' l r h
    simp only [bucketEnsembler] at h
    split at h
    · cases h
    rename_i hcond
    push Not at hcond
    obtain ⟨hn, hlen, hdiv⟩ := hcond
    have hne : l ≠ [] := by rintro rfl; simp at hlen
    have hp := pick_perm _ l (sh.perm g l.length)
    have hav : pyodAverage none l = .ok (l.sum / (l.length : K)) := by simp [pyodAverage, hne]
    have hmx : ∀ mx, pyodMaximization l = .ok mx → mx ∈ l := by
      intro mx hmx
      obtain ⟨m, h1, h2, -⟩ := npMax_spec l hne
      simp only [pyodMaximization, h1, Except.ok.injEq] at hmx
      exact hmx ▸ h2
    have fin : ∀ avg r' mx, pyodAverage none l = .ok avg →
        combine n ((sh.draw g l.length).1.filterMap fun i => l[i]?) = .ok r' →
        pyodMaximization l = .ok mx → avg ≤ r' → r' ≤ mx → l.sum / (l.length : K) ≤ r ∧ ∃ x ∈ l, r ≤ x := by
      intro avg r' mx h1 h2 h3 h4 h5
      rw [h2] at h
      cases h
      rw [hav] at h1
      cases h1
      exact ⟨h4, mx, hmx mx h3, h5⟩
    rcases hc with rfl | rfl
    · obtain ⟨avg, r', mx, h1, h2, h3, h4, h5⟩ := C40_aom n (by omega) l _ hp hne hdiv
      exact fin avg r' mx h1 h2 h3 h4 h5
    · obtain ⟨avg, r', mx, h1, h2, h3, h4, h5⟩ := C40_moa n (by omega) l _ hp hne hdiv
      exact fin avg r' mx h1 h2 h3 h4 h5
  obtain ⟨-, x, hx, h1⟩ := key _ _ _ _ hb
  obtain ⟨h2, -⟩ := key _ _ _ _ ha
  exact lt_of_le_of_lt h1 (lt_of_lt_of_le (hgap x hx) h2)

end

/-- **C132**, partial: if every order of the detectors is equally likely, the average answer of a
bucket method respects the agreement of the detectors, and does not depend on their order. -/
theorem C132_average_partial (combine : ℕ → List ℝ → Except PyErr ℝ)
    (hc : combine = pyodAom ∨ combine = pyodMoa) (n m : ℕ) (hn : 0 < n) (hm : 0 < m) (hd : m % n = 0)
    (b a : Fin m → ℝ) (hba : ∀ i, b i ≤ a i) (τ : Equiv.Perm (Fin m)) :
    ∃ ra rb rt : Equiv.Perm (Fin m) → ℝ,
      (∀ σ, combine n (List.ofFn fun i => a (σ i)) = .ok (ra σ)) ∧
      (∀ σ, combine n (List.ofFn fun i => b (σ i)) = .ok (rb σ)) ∧
      (∀ σ, combine n (List.ofFn fun i => a (τ (σ i))) = .ok (rt σ)) ∧
      expectation rb ≤ expectation ra ∧ expectation rt = expectation ra := by
  have hmono : MonoCombine (combine n) := by
    rcases hc with rfl | rfl
    · exact aom_mono n
    · exact moa_mono n
  have hok : ∀ v : Fin m → ℝ, ∃ r, combine n (List.ofFn v) = .ok r := by
    intro v
    have hne : List.ofFn v ≠ [] := by
      intro h
      have := congrArg List.length h
      simp at this
      omega
    rcases hc with rfl | rfl
    · obtain ⟨_, r, _, _, h, _⟩ := C40_aom n hn (List.ofFn v) _ (List.Perm.refl _) hne (by simpa using hd)
      exact ⟨r, h⟩
    · obtain ⟨_, r, _, _, h, _⟩ := C40_moa n hn (List.ofFn v) _ (List.Perm.refl _) hne (by simpa using hd)
      exact ⟨r, h⟩
  choose f hf using hok
  refine ⟨fun σ => f fun i => a (σ i), fun σ => f fun i => b (σ i), fun σ => f fun i => a (τ (σ i)),
    fun σ => hf _, fun σ => hf _, fun σ => hf _, ?_, ?_⟩
  · unfold expectation
    refine div_le_div_of_nonneg_right (Finset.sum_le_sum fun σ _ => ?_) (by positivity)
    refine hmono _ _ _ _ ?_ (hf _) (hf _)
    rw [List.forall₂_iff_get]
    exact ⟨by simp, fun i h1 h2 => by simpa using hba _⟩
  · unfold expectation
    congr 1
    exact Equiv.sum_comp (Equiv.mulLeft τ) fun σ : Equiv.Perm (Fin m) => f fun i => a (σ i)

/-- The hypotheses are met: six detectors and three buckets. -/
example : (bucketEnsembler alternating (pyodAom (K := ℚ)) 3).transformPartial true [9, 9, 0, 0, 0, 0]
      = .ok 6 false ∧
    (bucketEnsembler alternating (pyodAom (K := ℚ)) 3).transformPartial true [10, 10, 0, 0, 0, 0]
      = .ok (20 / 3) false ∧
    (bucketEnsembler alternating (pyodAom (K := ℚ)) 3).transformPartial false [10, 10, 9, 12, 11, 10]
      = .ok (33 / 3) true := by decide +kernel

end Pysad
