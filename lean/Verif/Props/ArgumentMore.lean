import Verif.Props.Argument
import Verif.Props.KnnCadAlarms

/-! Property C110 again: `fit_score_partial` of `KNNCAD` depends on its instance. -/

namespace Pysad

open Spec KnnAlarms

section
variable {K : Type*} [Field K] [LinearOrder K] [IsStrictOrderedRing K]
  (inv : List (List K) → Option (List (List K)))

private theorem zeros_training {P n : ℕ} (hP : 48 ≤ P) (h : n < 2 * P) :
    trainingAt P (List.replicate P (0 : K)) n = List.replicate (P - 19) (List.replicate 19 0) := by
  unfold trainingAt
  rw [if_pos h]
  refine List.eq_replicate_iff.2 ⟨by rw [segments_length]; omega, ?_⟩
  intro b hb
  unfold segments at hb
  obtain ⟨j, hj, rfl⟩ := List.mem_map.1 hb
  rw [List.mem_range'_1] at hj
  unfold segment
  rw [List.take_replicate, List.drop_replicate]
  congr 1
  omega

omit [IsStrictOrderedRing K] in
private theorem zeros_strangeness {P m : ℕ} (hm : m ≤ P - 19) (σ : List (List K)) :
    strangeness m σ (List.replicate (P - 19) (List.replicate 19 (0 : K))) (List.replicate 19 0) = 0 := by
  unfold strangeness
  rw [Multiset.map_coe, List.map_replicate, zero_distance, Multiset.coe_replicate,
    sumOfLeast_replicate _ _ hm, mul_zero]

omit [LinearOrder K] [IsStrictOrderedRing K] in
private theorem zeros_last {P : ℕ} (hP : 48 ≤ P) :
    segment (List.replicate P (0 : K)) P = List.replicate 19 0 := by
  unfold segment
  rw [List.take_replicate, List.drop_replicate]
  congr 1
  omega

/-- After zeros only, the score is 0. -/
theorem zeros_score {P : ℕ} (hP : 48 ≤ P) : conformalScore inv P (List.replicate P (0 : K)) = 0 := by
  unfold conformalScore
  simp only [List.length_replicate]
  rw [zeros_training hP (by omega), zeros_last hP, zeros_strangeness (by omega)]
  have : (referenceScores inv P (List.replicate P (0 : K)) P).countP (fun c => decide (c < 0)) = 0 := by
    rw [List.countP_eq_zero]
    intro c hc
    have hc := (lastN_suffix _ _).subset hc
    rw [zeros_training hP (by omega), List.map_replicate, zeros_strangeness (by omega),
      show P + 1 - P = 1 by omega, List.range'_one, List.map_singleton] at hc
    have h0 : strangenessAt inv P (List.replicate P (0 : K)) P = 0 := by
      unfold strangenessAt
      rw [zeros_training hP (by omega), zeros_last hP, zeros_strangeness (by omega)]
    rw [h0] at hc
    have : c = 0 := by
      rcases List.mem_append.1 hc with h | h
      · exact List.eq_of_mem_replicate h
      · exact List.mem_singleton.1 h
    simp [this]
  rw [this]
  simp

/-- The score that follows fits of `P - 1` zeros and `a`. -/
private theorem fit_after_zeros {β : Type*} {P : ℕ} (hP : 48 ≤ P) (a : K) (x : List K) :
    ((KnnCad.detector (β := β) inv).scorePartial (calls (KnnCad.detector inv) (KnnCad.new P)
      (List.replicate (P - 1) (.fit [0] none) ++ [.fit [a] none] : List (Call (List K) β))).2 x).out =
      .ok (conformalScore inv P (List.replicate (P - 1) 0 ++ [a])) := by
  have hfv : firstValues (List.replicate (P - 1) (.fit [0] none) ++ [.fit [a] none] :
      List (Call (List K) β)) = List.replicate (P - 1) 0 ++ [a] := by
    rw [firstValues_append]
    congr 1
    generalize P - 1 = n
    induction n with
    | zero => rfl
    | succ n ih =>
      rw [List.replicate_succ, List.replicate_succ, ← ih]
      rfl
  have hnone : ∀ (l : List (Call (List K) β)) (as : List (Answer K)),
      (∀ c ∈ l, c.isScore = false) → scoreAnswers l as = [] := by
    intro l
    induction l with
    | nil => intro as _; cases as <;> rfl
    | cons c l ih =>
      intro as h
      cases as with
      | nil => cases c <;> rfl
      | cons b as =>
        cases c with
        | fit a b => exact ih as fun c hc => h c (List.mem_cons_of_mem _ hc)
        | score a => exact absurd (h _ List.mem_cons_self) (by simp [Call.isScore])
  have h := (C92_knncad_score (β := β) inv P hP
    (List.replicate (P - 1) (.fit [0] none) ++ [.fit [a] none])
    (by rw [hfv]; simp; omega) x).2 (by
      rintro ⟨b, hb, -⟩
      rw [hnone _ _ (by
        intro c hc
        simp only [List.mem_append, List.mem_replicate, List.mem_singleton] at hc
        rcases hc with ⟨-, rfl⟩ | rfl <;> rfl)] at hb
      simp at hb)
  rw [hfv] at h
  exact h

/-- **C110, what holds** for `KNNCAD`, for every probationary period it accepts:
`fit_score_partial` tells instances apart. (The second moments of zeros are the zero matrix, which
has no inverse.) -/
theorem C110_knncad_partial (hinv : inv (List.replicate 19 (List.replicate 19 0)) = none) (P : ℕ)
    (hP : 48 ≤ P) : AttendsFitted (KnnCad.detector (β := ℕ) inv) (KnnCad.new P) := by
  refine ⟨List.replicate (P - 1) (.fit [0] none), [0], [1], ?_⟩
  have key : ∀ a : K, ((KnnCad.detector (β := ℕ) inv).fitScorePartial
      (calls (KnnCad.detector (β := ℕ) inv) (KnnCad.new P) (List.replicate (P - 1) (.fit [0] none))).2
        [a] none).out = .ok (conformalScore inv P (List.replicate (P - 1) 0 ++ [a])) := by
    intro a
    have h := fit_after_zeros (β := ℕ) inv hP a [a]
    rw [calls_append] at h
    simp only [calls, call] at h
    unfold Detector.fitScorePartial
    have hok := (C63_knncad_period_partial (β := ℕ) inv P hP (List.replicate (P - 1) (.fit [0] none))
      a [] none).1
    generalize (KnnCad.detector (β := ℕ) inv).fitPartial _ [a] none = q at h hok ⊢
    cases q with
    | ok u t => exact h
    | err e t => simp at hok
  rw [key 0, key 1]
  have e0 : List.replicate (P - 1) (0 : K) ++ [0] = List.replicate P 0 := by
    rw [← List.replicate_succ']
    congr 1
    omega
  have e1 := spike_score inv hP hinv
  unfold spike at e1
  rw [e0, zeros_score inv hP, e1]
  intro h
  have h := Except.ok.inj h
  have : (0 : K) < ((P - 20 : ℕ) : K) / ((P - 19 : ℕ) : K) :=
    div_pos (Nat.cast_pos.2 (by omega)) (Nat.cast_pos.2 (by omega))
  exact absurd h this.ne

end

example : AttendsFitted (KnnCad.detector (β := ℕ) fun _ => (none : Option (List (List ℚ))))
    (KnnCad.new 48) := C110_knncad_partial _ rfl 48 le_rfl

end Pysad
