import Verif.Props.KnnCad
import Verif.Proofs.Statistics
import Mathlib.Algebra.BigOperators.Ring.Finset

/-! Property C92: what `KNNCAD` scores are. -/

namespace Pysad

open Spec

section
variable {K β : Type*} [Field K] [LinearOrder K] [IsStrictOrderedRing K]
  (inv : List (List K) → Option (List (List K)))

theorem sum_zipWith_mul (N : ℕ) : ∀ (l m : List K), l.length ≤ N →
    (List.zipWith (· * ·) l m).sum = ∑ i ∈ Finset.range N, l.getD i 0 * m.getD i 0 := by
  induction N with
  | zero =>
    intro l m h
    have : l = [] := by simpa using h
    subst this
    simp
  | succ N ih =>
    intro l m h
    cases l with
    | nil => simp
    | cons a l =>
      cases m with
      | nil => simp
      | cons b m =>
        rw [Finset.sum_range_succ', List.zipWith_cons_cons, List.sum_cons,
          ih l m (by simpa using h), add_comm]
        simp

theorem metric_eq (σ : List (List K)) (a b : List K) (ha : a.length = 19) (hb : b.length = 19) :
    KnnCad.metric σ a b = squaredDistance σ a b := by
  have hd : ∀ i, i < 19 → (List.zipWith (· - ·) a b).getD i 0 = a.getD i 0 - b.getD i 0 := by
    intro i hi
    simp [List.getD_eq_getElem?_getD, List.getElem?_zipWith, ha, hb, hi]
  have hl : (List.zipWith (· - ·) a b).length ≤ 19 := by simp [ha, hb]
  unfold KnnCad.metric KnnCad.dot squaredDistance
  simp only [KnnCad.dim]
  rw [sum_zipWith_mul 19 _ _ (by simp), Finset.sum_comm]
  apply Finset.sum_congr rfl
  intro j hj
  have hj' := Finset.mem_range.1 hj
  rw [hd j hj']
  rw [show ((List.range 19).map fun j => (List.zipWith (· * ·) (List.zipWith (· - ·) a b)
      (σ.map fun r => r.getD j 0)).sum).getD j 0
      = (List.zipWith (· * ·) (List.zipWith (· - ·) a b) (σ.map fun r => r.getD j 0)).sum by
    simp [List.getD_eq_getElem?_getD, hj'],
    sum_zipWith_mul 19 _ _ hl, Finset.sum_mul]
  apply Finset.sum_congr rfl
  intro i hi
  rw [hd i (Finset.mem_range.1 hi)]
  congr 2
  simp only [List.getD_eq_getElem?_getD, List.getElem?_map]
  cases σ[i]? <;> simp

theorem ncm_value (σ training : List (List K)) (item : List K) (b : Bool)
    (hl : 29 ≤ training.length) (ht : ∀ t ∈ training, t.length = 19) (hi : item.length = 19) :
    KnnCad.ncm σ training item b = .ok (strangeness (27 + b.toNat) σ training item) := by
  unfold KnnCad.ncm
  simp only [List.length_map, KnnCad.k]
  rw [if_pos (by cases b <;> simp <;> omega)]
  unfold strangeness sumOfLeast
  rw [pySorted_eq_sort, Multiset.map_coe]
  congr 5
  apply List.map_congr_left
  intro t h
  exact metric_eq σ t item (ht t h) hi

theorem ncmAll_value (σ training : List (List K)) (hl : 29 ≤ training.length)
    (ht : ∀ t ∈ training, t.length = 19) :
    KnnCad.ncmAll σ training = .ok (training.map (strangeness 28 σ training)) := by
  have key : ∀ tr : List (List K), (∀ t ∈ tr, t.length = 19) →
      (tr.mapM fun v => KnnCad.ncm σ training v true)
      = .ok (tr.map (strangeness 28 σ training)) := by
    intro tr
    induction tr with
    | nil => intro _; rfl
    | cons t tr ih =>
      intro h
      rw [List.mapM_cons, ih (fun t ht => h t (by simp [ht])),
        ncm_value σ training t true hl ht (h t (by simp))]
      rfl
  exact key training ht

theorem segment_length (X : List K) (j : ℕ) (h1 : 19 ≤ j) (h2 : j ≤ X.length) :
    (segment X j).length = 19 := by
  unfold segment
  rw [List.length_drop, List.length_take]
  omega

theorem segments_entry (X : List K) (a b : ℕ) (h1 : 19 ≤ a) (h2 : b ≤ X.length) :
    ∀ t ∈ segments X a b, t.length = 19 := by
  intro t ht
  unfold segments at ht
  obtain ⟨j, hj, rfl⟩ := List.mem_map.1 ht
  rw [List.mem_range'_1] at hj
  exact segment_length X j (by omega) (by omega)

theorem trainingAt_append (P : ℕ) (X : List K) (v : K) (n : ℕ) (h1 : P ≤ n + 1)
    (h2 : n ≤ X.length) : trainingAt P (X ++ [v]) n = trainingAt P X n := by
  unfold trainingAt
  split
  · exact segments_append X v _ _ (by omega)
  · exact segments_append X v _ _ (by omega)

theorem matrixAt_append (P : ℕ) (X : List K) (v : K) (n : ℕ) (h : n ≤ X.length) :
    matrixAt inv P (X ++ [v]) n = matrixAt inv P X n := by
  induction n with
  | zero => rfl
  | succ n ih =>
    simp only [matrixAt]
    rw [ih (by omega)]
    by_cases hP : P ≤ n + 1
    · rw [trainingAt_append P X v n hP (by omega)]
    · rw [if_neg (fun h => hP h.1), if_neg (fun h => hP h.1)]

theorem strangenessAt_append (P : ℕ) (X : List K) (v : K) (j : ℕ) (h1 : P ≤ j)
    (h2 : j ≤ X.length) : strangenessAt inv P (X ++ [v]) j = strangenessAt inv P X j := by
  unfold strangenessAt
  rw [matrixAt_append inv P X v j h2, trainingAt_append P X v (j - 1) (by omega) (by omega),
    segment_append X v j h2]

/-- The kept scores, one record later. -/
theorem referenceScores_snoc (P : ℕ) (hP : 48 ≤ P) (X : List K) (v : K) (h : P ≤ X.length) :
    referenceScores inv P (X ++ [v]) (X.length + 1) =
      (referenceScores inv P X X.length).tail
        ++ [strangenessAt inv P (X ++ [v]) (X.length + 1)] := by
  have e1 : X.length + 1 + 1 - P = (X.length + 1 - P) + 1 := by omega
  have e2 : P + 1 * (X.length + 1 - P) = X.length + 1 := by omega
  have e3 : (List.range' P (X.length + 1 - P)).map (strangenessAt inv P (X ++ [v]))
      = (List.range' P (X.length + 1 - P)).map (strangenessAt inv P X) := by
    apply List.map_congr_left
    intro j hj
    rw [List.mem_range'_1] at hj
    exact strangenessAt_append inv P X v j (by omega) (by omega)
  unfold referenceScores
  rw [e1, List.range'_concat, List.map_append, e2, List.map_cons, List.map_nil, e3,
    trainingAt_append P X v (P - 1) (by omega) (by omega), matrixAt_append inv P X v P h,
    ← List.append_assoc, lastN_snoc]
  rw [if_pos, List.drop_append_of_le_length, List.drop_one]
  · rw [lastN_length, List.length_append, List.length_map, List.length_map, List.length_range']
    omega
  · rw [List.length_append, lastN_length, List.length_append, List.length_map, List.length_map,
      List.length_range']
    simp only [trainingAt, List.length_singleton]
    rw [if_pos (by omega), segments_length]
    omega

/-- The kept scores at the end of the probationary period. -/
theorem referenceScores_first (P : ℕ) (hP : 48 ≤ P) (X : List K) :
    referenceScores inv P X P = ((trainingAt P X (P - 1)).map
      (strangeness 28 (matrixAt inv P X P) (trainingAt P X (P - 1)))).tail
        ++ [strangenessAt inv P X P] := by
  unfold referenceScores
  have e1 : P + 1 - P = 1 := by omega
  rw [e1, List.range'_one, List.map_cons, List.map_nil, lastN_snoc]
  have hl : ((trainingAt P X (P - 1)).map
      (strangeness 28 (matrixAt inv P X P) (trainingAt P X (P - 1)))).length = P - 19 := by
    simp only [trainingAt, List.length_map]
    rw [if_pos (by omega), segments_length]
    omega
  have hl' : P - 19 < ((trainingAt P X (P - 1)).map
      (strangeness 28 (matrixAt inv P X P) (trainingAt P X (P - 1)))
        ++ [strangenessAt inv P X P]).length := by
    rw [List.length_append, hl, List.length_singleton]
    omega
  rw [lastN_of_le (by omega), if_pos hl', List.drop_append_of_le_length (by omega),
    List.drop_one]

/-- The matrix and the kept scores after the stream `X`. -/
def KnnVals (P : ℕ) (X : List K) (s : KnnCadState K) : Prop :=
  s.sigma.getD identity19 = matrixAt inv P X X.length ∧
  (P ≤ X.length → s.scores = referenceScores inv P X X.length)

theorem knn_fit_vals (P : ℕ) (hP : 48 ≤ P) (X : List K) (s : KnnCadState K) (h : KnnInv P X s)
    (hv : KnnVals inv P X s) (v : K) (t : List K) :
    KnnVals inv P (X ++ [v]) (KnnCad.fitPartial inv s (v :: t)).state := by
  obtain ⟨h1, h2, h3, h4, h5⟩ := h
  obtain ⟨hsig, hsc⟩ := hv
  have hlen : (X ++ [v]).length = X.length + 1 := by simp
  have hsig' : s.sigma.getD (KnnCad.eye KnnCad.dim) = matrixAt inv P X X.length := hsig
  unfold KnnCad.fitPartial
  simp only [hsig', h1, h2, h3, hlen]
  by_cases c1 : X.length + 1 < 19
  · rw [if_pos (show X.length + 1 < KnnCad.dim from c1)]
    refine ⟨?_, fun h => by rw [hlen] at h; omega⟩
    simp only [Res.state_ok, Option.getD_some, hlen, matrixAt]
    rw [if_neg (by omega), matrixAt_append inv P X v _ le_rfl]
  · rw [if_neg (show ¬ X.length + 1 < KnnCad.dim from c1)]
    by_cases c2 : X.length + 1 < P
    · rw [if_pos c2]
      refine ⟨?_, fun h => by rw [hlen] at h; omega⟩
      simp only [Res.state_ok, Option.getD_some, hlen, matrixAt]
      rw [if_neg (by omega), matrixAt_append inv P X v _ le_rfl]
    · rw [if_neg c2]
      unfold KnnCad.monitor
      simp only
      rw [if_neg (by omega)]
      have htr : s.training = trainingAt P X X.length := by
        rcases Nat.lt_or_ge X.length P with hlt | hge
        · rw [(h4 hlt).1]
          unfold trainingAt
          rw [if_pos (by omega)]
          congr 1; omega
        · rw [(h5 hge).1]
          unfold trainingAt
          split
          · congr 1 <;> omega
          · congr 1 <;> omega
      have htl : 29 ≤ s.training.length := by
        rw [htr]
        unfold trainingAt
        split <;> rw [segments_length] <;> omega
      have hte : ∀ t ∈ s.training, t.length = 19 := by
        rw [htr]
        unfold trainingAt
        split
        · exact segments_entry X _ _ (by omega) (by omega)
        · exact segments_entry X _ _ (by omega) (by omega)
      have hcal : 2 * P ≤ X.length + 1 → s.calibration ≠ [] := by
        intro hc h0
        have := (h5 (by omega)).2.1
        rw [h0] at this
        have := congrArg List.length this
        rw [segments_length, List.length_nil] at this
        omega
      have hnew : KnnCad.newSigma inv { s with
            sigma := some (matrixAt inv P X X.length), buf := X ++ [v],
            recordCount := X.length + 1, probationaryPeriod := P }
          (matrixAt inv P X X.length) = matrixAt inv P (X ++ [v]) (X.length + 1) := by
        unfold KnnCad.newSigma
        simp only [matrixAt]
        rw [matrixAt_append inv P X v _ le_rfl, trainingAt_append P X v _ (by omega) le_rfl,
          ← htr]
        by_cases hc : (X.length + 1) % P = 0 ∨ (X.length + 1) % P = P / 2
        · rw [if_pos hc, if_pos ⟨by omega, hc⟩]
          show (match inv (secondMoments s.training) with | some m => m | none => _) = _
          cases inv (secondMoments s.training) <;> rfl
        · rw [if_neg hc, if_neg (fun h => hc h.2)]
      rw [hnew]
      have hit : KnnCad.newItem (X ++ [v]) = segment (X ++ [v]) (X.length + 1) := by
        rw [newItem_eq, hlen]
      have hitl : (segment (X ++ [v]) (X.length + 1)).length = 19 :=
        segment_length _ _ (by omega) (by omega)
      set sg := matrixAt inv P (X ++ [v]) (X.length + 1) with hsg
      have hinit : KnnCad.initScores { s with
          sigma := some sg, buf := X ++ [v], recordCount := X.length + 1,
          probationaryPeriod := P } sg = .ok (if X.length < P then
            (trainingAt P X X.length).map (strangeness 28 sg (trainingAt P X X.length))
            else referenceScores inv P X X.length) := by
        unfold KnnCad.initScores
        simp only
        rcases Nat.lt_or_ge X.length P with hlt | hge
        · rw [(h4 hlt).2.2, if_pos List.length_nil, if_pos hlt, ← htr]
          exact ncmAll_value sg s.training htl hte
        · have := (h5 hge).2.2
          rw [if_neg (by omega), if_neg (by omega), hsc hge]
      simp only [hinit]
      rw [hit, ncm_value sg s.training _ false htl hte hitl]
      simp only
      rw [rotate_ok]
      · refine ⟨?_, fun _ => ?_⟩
        · simp only [Res.state_ok, Option.getD_some, hlen]
          exact hsg
        · simp only [Res.state_ok, hlen]
          have hlast : strangeness (27 + false.toNat) sg s.training
              (segment (X ++ [v]) (X.length + 1))
              = strangenessAt inv P (X ++ [v]) (X.length + 1) := by
            unfold strangenessAt
            rw [Nat.add_sub_cancel, trainingAt_append P X v _ (by omega) le_rfl, ← htr]
            rfl
          rw [hlast]
          by_cases hlt : X.length < P
          · have hP' : X.length + 1 = P := by omega
            rw [if_pos hlt]
            have e := referenceScores_first inv P hP (X ++ [v])
            rw [← hP'] at e ⊢
            rw [e, Nat.add_sub_cancel,
              trainingAt_append (X.length + 1) X v _ (by omega) le_rfl, hsg, hP']
          · rw [if_neg hlt, referenceScores_snoc inv P hP X v (by omega)]
      · simp only
        by_cases hlt : X.length < P
        · rw [if_pos hlt]
          intro h0
          have := congrArg List.length h0
          rw [List.length_map, ← htr, List.length_nil] at this
          omega
        · rw [if_neg hlt]
          have e := (h5 (by omega)).2.2
          rw [hsc (by omega)] at e
          intro h0
          rw [h0] at e
          simp at e
          omega
      · intro hc
        simp only at hc ⊢
        refine ⟨?_, hcal hc⟩
        intro h0
        rw [h0] at htl
        simp at htl

theorem knn_vals (P : ℕ) (hP : 48 ≤ P) (cs : List (Call (List K) β)) :
    KnnVals inv P (firstValues cs) (calls (KnnCad.detector inv) (KnnCad.new P) cs).2 := by
  have := calls_inv (d := KnnCad.detector (β := β) inv)
    (P := fun cs (s : KnnCadState K) => KnnInv P (firstValues cs) s ∧
      KnnVals inv P (firstValues cs) s) ?_ (KnnCad.new P) ?_ cs
  · exact this.2
  · rintro cs s c ⟨h, hv⟩
    rw [firstValues_append]
    cases c with
    | fit x y =>
      rw [KnnCad.call_fit_state, firstValues_fit]
      cases x with
      | nil =>
        simp only [List.head?_nil, Option.toList_none, List.append_nil]
        exact ⟨h, hv⟩
      | cons v x =>
        obtain ⟨s', h1, h2⟩ := knn_fit inv P hP _ s h v x
        have h3 := knn_fit_vals inv P hP _ s h hv v x
        rw [h1] at h3 ⊢
        exact ⟨h2, h3⟩
    | score x =>
      rw [KnnCad.call_score_state]
      obtain ⟨p, hp⟩ := KnnCad.score_state s
      rw [hp]
      have e1 : firstValues [(Call.score x : Call (List K) β)] = [] := rfl
      rw [e1, List.append_nil]
      exact ⟨h, hv⟩
  · exact ⟨knn_inv (β := β) inv P hP [], rfl, fun h => by simp [firstValues, fitted] at h; omega⟩

/-! ### The cool-down -/

theorem scoreAnswers_snoc {α S : Type*} (cs : List (Call α β)) (as : List (Answer S))
    (h : as.length = cs.length) (c : Call α β) (a : Answer S) :
    scoreAnswers (cs ++ [c]) (as ++ [a]) =
      scoreAnswers cs as ++ (if c.isScore then [a] else []) := by
  induction cs generalizing as with
  | nil =>
    have : as = [] := by simpa using h
    subst this
    cases c <;> simp [scoreAnswers, Call.isScore]
  | cons d cs ih =>
    cases as with
    | nil => simp at h
    | cons b as =>
      have := ih as (by simpa using h)
      cases d <;> simp [scoreAnswers, this]

/-- The countdown, in terms of the scores returned. -/
def KnnCooling (k : ℕ) (ready : Prop) (A : List (Answer K)) (p : ℤ) : Prop :=
  (p ≤ 0 ∧ ∀ a ∈ lastN k A, ¬ isAlarm a) ∨
  (ready ∧ ∃ A₁ a A₂, A = A₁ ++ a :: A₂ ∧ isAlarm a ∧ (∀ b ∈ A₂, ¬ isAlarm b) ∧
    A₂.length < k ∧ p = (k : ℤ) - A₂.length)

theorem KnnCooling.iff {k : ℕ} {ready : Prop} {A : List (Answer K)} {p : ℤ}
    (h : KnnCooling k ready A p) : 0 < p ↔ ∃ a ∈ lastN k A, isAlarm a := by
  rcases h with ⟨h1, h2⟩ | ⟨-, A₁, a, A₂, rfl, ha, -, hl, hp⟩
  · constructor
    · intro h; omega
    · rintro ⟨a, ha, hb⟩
      exact absurd hb (h2 a ha)
  · constructor
    · intro _
      refine ⟨a, ?_, ha⟩
      unfold lastN
      rw [List.drop_append]
      refine List.mem_append_right _ ?_
      rw [show (A₁ ++ a :: A₂).length - k - A₁.length = 0 by
        simp only [List.length_append, List.length_cons]; omega]
      simp
    · intro _; omega

theorem mem_or_eq_of_mem_lastN_snoc {α : Type*} {k : ℕ} {l : List α} {x b : α} (h : b ∈ lastN k (l ++ [x])) :
    b ∈ lastN k l ∨ b = x := by
  rw [lastN_snoc] at h
  have : b ∈ lastN k l ++ [x] := by
    split at h
    · exact List.mem_of_mem_drop h
    · exact h
  simpa using this

theorem KnnCooling.mono {k : ℕ} {r r' : Prop} {A : List (Answer K)} {p : ℤ}
    (h : KnnCooling k r A p) (hr : r → r') : KnnCooling k r' A p := by
  rcases h with h | ⟨h1, h2⟩
  · exact Or.inl h
  · exact Or.inr ⟨hr h1, h2⟩

/-- Another score that is no alarm and does not run the countdown. -/
theorem KnnCooling.idle {k : ℕ} {r : Prop} {A : List (Answer K)} {p : ℤ}
    (h : KnnCooling k r A p) (hp : p ≤ 0) (a : Answer K) (ha : ¬ isAlarm a) :
    KnnCooling k r (A ++ [a]) p := by
  rcases h with ⟨h1, h2⟩ | ⟨-, A₁, b, A₂, -, -, -, hl, hp'⟩
  · refine Or.inl ⟨h1, ?_⟩
    intro b hb
    rcases mem_or_eq_of_mem_lastN_snoc hb with hb | rfl
    · exact h2 b hb
    · exact ha
  · omega

/-- A score in the cool-down. -/
theorem KnnCooling.count {k : ℕ} {r : Prop} {A : List (Answer K)} {p : ℤ}
    (h : KnnCooling k r A p) (hp : 0 < p) (a : Answer K) (ha : ¬ isAlarm a) :
    KnnCooling k r (A ++ [a]) (p - 1) := by
  rcases h with ⟨h1, h2⟩ | ⟨hr, A₁, b, A₂, rfl, hb, h2, hl, rfl⟩
  · omega
  · have hno : ∀ b ∈ A₂ ++ [a], ¬ isAlarm b := by
      intro c hc
      rcases List.mem_append.1 hc with hc | hc
      · exact h2 c hc
      · rw [List.mem_singleton.1 hc]; exact ha
    have hlen : (A₂ ++ [a]).length = A₂.length + 1 := by simp
    by_cases hk : A₂.length + 1 < k
    · exact Or.inr ⟨hr, A₁, b, A₂ ++ [a], by simp, hb, hno, by omega, by rw [hlen]; push_cast; ring⟩
    · refine Or.inl ⟨by omega, ?_⟩
      rw [show A₁ ++ b :: A₂ ++ [a] = (A₁ ++ [b]) ++ (A₂ ++ [a]) by simp,
        lastN_append_of_le (by omega), lastN_of_le (by omega)]
      exact hno

variable {inv}

theorem knn_ready_score {P : ℕ} (hP : 48 ≤ P) {X : List K} {s : KnnCadState K} (h : KnnInv P X s)
    (hv : KnnVals inv P X s) (hsome : s.sigma.isSome = true) (hn : P ≤ X.length) :
    KnnCad.scorePartial s =
      if 0 < s.pred then .ok (1 / 2) { s with pred := s.pred - 1 }
      else .ok (conformalScore inv P X)
        (if 9965 / 10000 ≤ conformalScore inv P X then { s with pred := (P / 5 : ℕ) } else s) := by
  obtain ⟨h1, h2, h3, -, h5⟩ := h
  obtain ⟨hsig, hsc⟩ := hv
  obtain ⟨sg, hsg⟩ := Option.isSome_iff_exists.1 hsome
  obtain ⟨g1, g2, g3⟩ := h5 hn
  have hsg' : sg = matrixAt inv P X X.length := by rw [← hsig, hsg]; rfl
  have htr : s.training = trainingAt P X X.length := by
    rw [g1]
    unfold trainingAt
    split <;> congr 1 <;> omega
  have htl : 29 ≤ s.training.length := by rw [g1, segments_length]; omega
  have hte : ∀ t ∈ s.training, t.length = 19 := by
    rw [g1]
    exact segments_entry X _ _ (by omega) (by omega)
  have hcs : conformalScore inv P X = ((s.scores.filter fun c =>
      c < strangeness 27 sg s.training (segment X X.length)).length : K) / (s.scores.length : K) := by
    unfold conformalScore
    simp only
    rw [← hsc hn, ← hsg', ← htr, List.countP_eq_length_filter]
  unfold KnnCad.scorePartial
  simp only [hsg, h1, h2, h3]
  rw [if_neg (by simp only [KnnCad.dim]; omega), newItem_eq,
    ncm_value sg s.training _ false htl hte (segment_length X _ (by omega) le_rfl)]
  simp only [Bool.toNat_false, Nat.add_zero]
  rw [if_neg (by omega), ← hcs]
  split
  · rfl
  · split <;> rfl

variable (inv)

theorem knn_cooling (P : ℕ) (hP : 48 ≤ P) (cs : List (Call (List K) β)) :
    KnnCooling (P / 5) (P ≤ (firstValues cs).length)
      (scoreAnswers cs (calls (KnnCad.detector inv) (KnnCad.new P) cs).1)
      (calls (KnnCad.detector inv) (KnnCad.new P) cs).2.pred := by
  induction cs using List.reverseRecOn with
  | nil => exact Or.inl ⟨by simp [calls, KnnCad.new], fun a ha => by simp [scoreAnswers] at ha⟩
  | append_singleton cs c ih =>
    have hlen := calls_length (d := KnnCad.detector (β := β) inv) (KnnCad.new P) cs
    have hinv := knn_inv (β := β) inv P hP cs
    have hvals := knn_vals (β := β) inv P hP cs
    obtain ⟨hb1, hb2, hb3, hb4, hb5⟩ := knn_book (β := β) inv P cs
    rw [calls_append]
    simp only [calls]
    rw [scoreAnswers_snoc _ _ hlen, firstValues_append, List.length_append]
    generalize (calls (KnnCad.detector inv) (KnnCad.new P) cs).1 = as at *
    generalize (calls (KnnCad.detector inv) (KnnCad.new P) cs).2 = s at *
    cases c with
    | fit x y =>
      rw [KnnCad.call_fit_state]
      obtain ⟨-, -, -, g4, -⟩ := KnnCad.fit_book inv s x
      rw [g4]
      simp only [Call.isScore, Bool.false_eq_true, if_false, List.append_nil]
      exact ih.mono (by omega)
    | score x =>
      simp only [Call.isScore, if_true]
      have hf : (firstValues [(Call.score x : Call (List K) β)]).length = 0 := rfl
      rw [hf, Nat.add_zero]
      simp only [call, KnnCad.detector]
      by_cases hne : fitted cs = []
      · have h0 : KnnCad.scorePartial s = .err .attributeError s := by
          simp only [KnnCad.scorePartial, hb5 hne]
        rw [h0]
        rcases ih with ⟨g1, g2⟩ | ⟨g, -⟩
        · exact KnnCooling.idle (Or.inl ⟨g1, g2⟩) g1 _ (by simp [isAlarm])
        · simp [firstValues, hne] at g; omega
      · by_cases hn : P ≤ (firstValues cs).length
        · rw [knn_ready_score hP hinv hvals (hb4 hne) hn]
          by_cases hp : 0 < s.pred
          · rw [if_pos hp]
            exact ih.count hp _ (by simp only [isAlarm]; norm_num)
          · rw [if_neg hp]
            by_cases hal : 9965 / 10000 ≤ conformalScore inv P (firstValues cs)
            · rw [if_pos hal]
              exact Or.inr ⟨hn, _, _, [], rfl, hal, by simp, by simp; omega, by simp⟩
            · rw [if_neg hal]
              exact ih.idle (by omega) _ hal
        · obtain ⟨sg, hsg⟩ := Option.isSome_iff_exists.1 (hb4 hne)
          have h0 : KnnCad.scorePartial s = .ok 0 s := by
            simp only [KnnCad.scorePartial, hsg, hb2, hb3]
            rw [if_pos (Or.inr (by omega))]
          rw [h0]
          rcases ih with ⟨g1, g2⟩ | ⟨g, -⟩
          · exact KnnCooling.idle (Or.inl ⟨g1, g2⟩) g1 _ (by simp only [isAlarm]; norm_num)
          · exact absurd g hn

/-- **C92.** For `P ≥ 48`, once `P` records were fitted, the score is 1/2 if one of the last
`⌊P/5⌋` scores was an alarm, and otherwise the conformal anomaly score of the stream, whatever
the argument. -/
theorem C92_knncad_score (P : ℕ) (hP : 48 ≤ P) (cs : List (Call (List K) β))
    (hn : P ≤ (firstValues cs).length) (x : List K) :
    let r := calls (KnnCad.detector inv) (KnnCad.new P) cs
    let alarmed := ∃ a ∈ lastN (P / 5) (scoreAnswers cs r.1), isAlarm a
    (alarmed → ((KnnCad.detector (β := β) inv).scorePartial r.2 x).out = .ok (1 / 2)) ∧
    (¬ alarmed → ((KnnCad.detector (β := β) inv).scorePartial r.2 x).out =
      .ok (conformalScore inv P (firstValues cs))) := by
  intro r alarmed
  have hne : fitted cs ≠ [] := by
    intro h
    simp [firstValues, h] at hn
    omega
  have hsc := knn_ready_score hP (knn_inv (β := β) inv P hP cs) (knn_vals (β := β) inv P hP cs)
    ((knn_book (β := β) inv P cs).2.2.2.1 hne) hn
  have hc := (knn_cooling (β := β) inv P hP cs).iff
  constructor
  · intro ha
    show (KnnCad.scorePartial r.2).out = _
    rw [hsc, if_pos (hc.2 ha)]
    rfl
  · intro ha
    show (KnnCad.scorePartial r.2).out = _
    rw [hsc, if_neg (fun h => ha (hc.1 h))]
    rfl

end

end Pysad
