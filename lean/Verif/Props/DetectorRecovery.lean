import Verif.Model.DetectorInterrupt
import Verif.Props.Interrupt
import Verif.Props.KnnCad
import Verif.Props.RelativeEntropy
import Verif.Props.Inqmad
import Verif.Props.Loda

/-! Property C191: interrupted fits of `KNNCAD`, `RelativeEntropy`, `Inqmad` and `LODA`. -/

namespace Pysad

open Spec

private theorem run_const {σ : Type*} (l : List σ) (s : σ) :
    runStatements (l.map fun t _ => t) s = l.getLast?.getD s := by
  induction l generalizing s with
  | nil => rfl
  | cons a l ih =>
    rw [List.map_cons]
    change runStatements (l.map fun t _ => t) a = _
    rw [ih, List.getLast?_cons]
    rfl

private theorem run_take_const {σ : Type*} (l : List σ) (s : σ) (k : ℕ) :
    runStatements ((l.map fun t _ => t).take k) s ∈ s :: l := by
  rw [← List.map_take, run_const]
  cases h : (l.take k).getLast? with
  | none => simp
  | some a =>
    have := List.mem_of_mem_take (List.mem_of_getLast? h)
    simp [this]

private theorem refuted {σ ι β : Type*} [DecidableEq β] {statements : ι → σ → List (σ → σ)} {s : σ}
    {call : σ → ι → σ} {ask : σ → β} (h : List (ι × Option ℕ))
    (hr : ∀ l ∈ readings h, ask (afterCalls statements s h) ≠ ask (l.foldl call s)) :
    ¬ AllOrNothing statements s call ask := by
  intro ha
  obtain ⟨l, h1, h2⟩ := ha h
  exact hr l (mem_readings h1) h2

private theorem afterCalls_snoc {σ ι : Type*} (st : ι → σ → List (σ → σ)) (s : σ)
    (h : List (ι × Option ℕ)) (e : ι × Option ℕ) :
    afterCalls st s (h ++ [e]) = match e.2 with
      | none => runStatements (st e.1 (afterCalls st s h)) (afterCalls st s h)
      | some k => runStatements ((st e.1 (afterCalls st s h)).take k) (afterCalls st s h) := by
  unfold afterCalls
  rw [List.foldl_append]
  rfl

/-! ### `KNNCAD` -/

section KnnCad
variable {K : Type*} [Field K] [LinearOrder K] (inv : List (List K) → Option (List (List K)))

namespace KnnCad

omit [Field K] [LinearOrder K] in
theorem rotateStages_last (s : KnnCadState K) (item : List K) (v : K) :
    (rotateStages s item v).getLast?.getD s = (rotate s item v).state := by
  obtain ⟨buf, training, calibration, scores, count, pred, sigma, period⟩ := s
  unfold rotateStages rotate
  simp only
  split
  · cases training with
    | nil => rfl
    | cons a tr =>
      cases calibration with
      | nil => rfl
      | cons c cal => cases scores <;> rfl
  · cases scores <;> rfl

theorem monitorStages_last (s : KnnCadState K) (sigma : List (List K)) :
    (monitorStages inv s sigma).getLast?.getD s = (monitor inv s sigma).state := by
  unfold monitorStages monitor
  simp only
  split
  · rfl
  · cases initScores { s with sigma := some (newSigma inv s sigma) } (newSigma inv s sigma) with
    | error e => rfl
    | ok sc =>
      simp only
      cases ncm (newSigma inv s sigma) s.training (newItem s.buf) false with
      | error e => rfl
      | ok v =>
        simp only [List.getLast?_cons, Option.getD_some]
        exact rotateStages_last _ _ _

/-- All stores together are the call. -/
theorem statements_complete (x : List K) (s : KnnCadState K) :
    runStatements (statements inv x s) s = (fitPartial inv s x).state := by
  unfold statements
  rw [run_const]
  unfold fitStages fitPartial
  simp only
  cases x with
  | nil => rfl
  | cons v x =>
    simp only [List.getLast?_cons, Option.getD_some]
    split
    · rfl
    · split
      · rfl
      · exact monitorStages_last inv _ _

/-- What interruptions leave of the sizes of the lists: `i` of them may have lost `i` items. -/
private def Kept (P i : ℕ) (s : KnnCadState K) : Prop :=
  s.probationaryPeriod = P ∧ s.recordCount ≤ s.buf.length ∧
  min s.recordCount (P - 1) ≤ s.training.length + i + 18 ∧
  min s.recordCount (2 * P - 1) + 1 ≤ s.calibration.length + i + P ∧
  (s.scores.length = 0 ∨ P ≤ s.scores.length + i + 19)

/-- No store of the last part loses more than one item. -/
private def Near (s u : KnnCadState K) : Prop :=
  u.probationaryPeriod = s.probationaryPeriod ∧ u.recordCount = s.recordCount ∧ u.buf = s.buf ∧
  (s.training.length ≤ u.training.length + 1) ∧
  (s.calibration.length ≤ u.calibration.length ∨
    2 * s.probationaryPeriod ≤ s.recordCount ∧ s.calibration.length ≤ u.calibration.length + 1) ∧
  s.scores.length ≤ u.scores.length + 1

omit [Field K] [LinearOrder K] in
private theorem near_rotate (s : KnnCadState K) (item : List K) (v : K) :
    ∀ u ∈ rotateStages s item v, Near s u := by
  obtain ⟨buf, training, calibration, scores, count, pred, sigma, period⟩ := s
  intro u hu
  unfold rotateStages finishStages at hu
  by_cases hc : 2 * period ≤ count
  · simp only [if_pos hc] at hu
    cases training with
    | nil => simp at hu
    | cons a tr =>
      cases calibration with
      | nil =>
        simp only [List.mem_cons, List.not_mem_nil, or_false] at hu
        subst hu
        simp [Near]
      | cons c cal =>
        cases scores with
        | nil =>
          simp only [List.mem_cons, List.not_mem_nil, or_false] at hu
          rcases hu with rfl | rfl | rfl <;> simp [Near, hc]
        | cons b sc =>
          simp only [List.mem_cons, List.not_mem_nil, or_false] at hu
          rcases hu with rfl | rfl | rfl | rfl | rfl | rfl <;> simp [Near, hc]
  · simp only [if_neg hc] at hu
    cases scores with
    | nil => simp at hu
    | cons b sc =>
      simp only [List.mem_cons, List.not_mem_nil, or_false] at hu
      rcases hu with rfl | rfl | rfl <;> simp [Near]

omit [Field K] [LinearOrder K] in
private theorem kept_new (P : ℕ) (hP : 1 ≤ P) : Kept P 0 (new P : KnnCadState K) :=
  ⟨rfl, le_rfl, by simp only [new]; omega, by simp only [new]; omega, .inl rfl⟩

variable [IsStrictOrderedRing K]

private theorem initScores_ok {P i : ℕ} (hi : i + 48 ≤ P) (s : KnnCadState K) (sg : List (List K))
    (h1 : P ≤ s.training.length + i + 19) (h2 : s.scores.length = 0 ∨ P ≤ s.scores.length + i + 19) :
    ∃ sc, initScores s sg = .ok sc ∧ P ≤ sc.length + i + 19 := by
  unfold initScores
  by_cases h0 : s.scores.length = 0
  · obtain ⟨l, hl, hl'⟩ := ncmAll_ok sg s.training (by omega)
    exact ⟨l, by rw [if_pos h0, hl], by omega⟩
  · exact ⟨_, by rw [if_neg h0], by omega⟩

/-- A complete fit does not fail, and loses nothing. -/
private theorem kept_fit {P i : ℕ} (hi : i + 48 ≤ P) (s : KnnCadState K) (h : Kept P i s) (v : K)
    (x : List K) :
    ∃ s', fitPartial inv s (v :: x) = .ok () s' ∧ Kept P i s' ∧ s'.sigma.isSome ∧
      (P ≤ s'.recordCount → 29 ≤ s'.training.length ∧ s'.scores.length ≠ 0) := by
  obtain ⟨h1, h2, h3, h4, h5⟩ := h
  unfold fitPartial
  simp only [List.length_append, List.length_singleton, dim]
  by_cases c1 : s.buf.length + 1 < 19
  · rw [if_pos c1]
    refine ⟨_, rfl, ⟨h1, ?_, ?_, ?_, h5⟩, rfl, ?_⟩ <;>
      simp only [List.length_append, List.length_singleton] <;> omega
  · rw [if_neg c1]
    by_cases c2 : s.recordCount + 1 < s.probationaryPeriod
    · rw [if_pos c2]
      refine ⟨_, rfl, ⟨h1, ?_, ?_, ?_, h5⟩, rfl, ?_⟩ <;>
        simp only [List.length_append, List.length_singleton] <;> omega
    · rw [if_neg c2]
      unfold monitor
      simp only
      rw [if_neg (by omega)]
      generalize newSigma inv _ _ = sg
      obtain ⟨sc, hsc, hl⟩ := initScores_ok hi { s with
        sigma := some sg, buf := s.buf ++ [v], recordCount := s.recordCount + 1 } sg
        (by simp only; omega) h5
      obtain ⟨u, hu⟩ := ncm_ok sg s.training (newItem (s.buf ++ [v])) false (by omega)
      simp only [hsc, hu]
      have hne : sc ≠ [] := by rintro rfl; simp at hl; omega
      have hpos : 0 < sc.length := List.length_pos_iff.2 hne
      rw [rotate_ok _ _ _ hne]
      · refine ⟨_, rfl, ⟨h1, ?_, ?_, ?_, .inr ?_⟩, rfl, fun _ => ⟨?_, ?_⟩⟩
        · simp only [List.length_append, List.length_singleton]; omega
        · simp only
          split
          · rename_i hc
            cases hcal : s.calibration with
            | nil => rw [hcal] at h4; simp only [List.length_nil] at h4; omega
            | cons c cal => simp only [List.head?_cons, Option.toList_some, List.length_append,
                List.length_tail, List.length_singleton]; omega
          · omega
        · simp only
          split <;> simp only [List.length_append, List.length_tail, List.length_singleton] <;> omega
        · simp only [List.length_append, List.length_tail, List.length_singleton]; omega
        · simp only
          split
          · rename_i hc
            cases hcal : s.calibration with
            | nil => rw [hcal] at h4; simp only [List.length_nil] at h4; omega
            | cons c cal => simp only [List.head?_cons, Option.toList_some, List.length_append,
                List.length_tail, List.length_singleton]; omega
          · omega
        · simp
      · intro hc
        simp only at hc ⊢
        constructor
        · intro h0; rw [h0] at h3; simp only [List.length_nil] at h3; omega
        · intro h0; rw [h0] at h4; simp only [List.length_nil] at h4; omega

/-- An interrupted fit loses at most one item. -/
private theorem kept_stage {P i : ℕ} (hi : i + 48 ≤ P) (s : KnnCadState K) (h : Kept P i s)
    (x : List K) : ∀ u ∈ s :: fitStages inv s x, Kept P (i + 1) u := by
  obtain ⟨h1, h2, h3, h4, h5⟩ := h
  intro u hu
  rw [List.mem_cons] at hu
  rcases hu with rfl | hu
  · exact ⟨h1, h2, by omega, by omega, by omega⟩
  unfold fitStages at hu
  rw [List.mem_cons] at hu
  rcases hu with rfl | hu
  · exact ⟨h1, h2, by simp only; omega, by simp only; omega, by simp only; omega⟩
  cases x with
  | nil => simp at hu
  | cons v x =>
    simp only [List.mem_cons, List.length_append, List.length_singleton, dim] at hu
    rcases hu with rfl | rfl | hu
    · exact ⟨h1, by simp only [List.length_append]; omega, by simp only; omega, by simp only; omega,
        by simp only; omega⟩
    · exact ⟨h1, by simp only [List.length_append, List.length_singleton]; omega, by simp only; omega,
        by simp only; omega, by simp only; omega⟩
    · by_cases c1 : s.buf.length + 1 < 19
      · simp [if_pos c1] at hu
      rw [if_neg c1] at hu
      by_cases c2 : s.recordCount + 1 < s.probationaryPeriod
      · rw [if_pos c2, List.mem_singleton] at hu
        subst hu
        exact ⟨h1, by simp only [List.length_append, List.length_singleton]; omega,
          by simp only [List.length_append, List.length_singleton]; omega, by simp only; omega,
          by simp only; omega⟩
      rw [if_neg c2] at hu
      unfold monitorStages at hu
      simp only at hu
      rw [if_neg (by omega)] at hu
      generalize newSigma inv _ _ = sg at hu
      rw [List.mem_cons] at hu
      rcases hu with rfl | hu
      · exact ⟨h1, by simp only [List.length_append, List.length_singleton]; omega,
          by simp only; omega, by simp only; omega, by simp only; omega⟩
      obtain ⟨sc, hsc, hl⟩ := initScores_ok hi { s with
        sigma := some sg, buf := s.buf ++ [v], recordCount := s.recordCount + 1 } sg
        (by simp only; omega) h5
      rw [hsc] at hu
      simp only [List.mem_cons] at hu
      rcases hu with rfl | hu
      · exact ⟨h1, by simp only [List.length_append, List.length_singleton]; omega,
          by simp only; omega, by simp only; omega, by simp only; omega⟩
      cases hv : ncm sg s.training (newItem (s.buf ++ [v])) false with
      | error e => rw [hv] at hu; simp at hu
      | ok w =>
        rw [hv] at hu
        obtain ⟨n1, n2, n3, n4, n5, n6⟩ := near_rotate _ _ _ u hu
        simp only at n1 n2 n3 n4 n5 n6
        exact ⟨by omega, by rw [n3]; simp only [List.length_append, List.length_singleton]; omega,
          by omega, by omega, by omega⟩

private theorem kept_history {P : ℕ} (h : List (List K × Option ℕ)) (hne : ∀ e ∈ h, e.1 ≠ [])
    (hi : interruptions h + 48 ≤ P) :
    Kept P (interruptions h) (afterCalls (statements inv) (new P : KnnCadState K) h) := by
  induction h using List.reverseRecOn with
  | nil => exact kept_new P (by omega)
  | append_singleton h e ih =>
    obtain ⟨x, o⟩ := e
    have hx : x ≠ [] := hne (x, o) (by simp)
    rw [afterCalls_snoc]
    cases o with
    | none =>
      have e1 : interruptions (h ++ [(x, none)]) = interruptions h := by simp [interruptions]
      rw [e1] at hi ⊢
      obtain ⟨v, x, rfl⟩ := List.exists_cons_of_ne_nil hx
      obtain ⟨s', g1, g2, -, -⟩ :=
        kept_fit inv hi _ (ih (fun e he => hne e (by simp [he])) hi) v x
      simp only [statements_complete, g1]
      exact g2
    | some k =>
      have e1 : interruptions (h ++ [(x, some k)]) = interruptions h + 1 := by simp [interruptions]
      rw [e1] at hi ⊢
      exact kept_stage inv (by omega) _ (ih (fun e he => hne e (by simp [he])) (by omega)) x _
        (run_take_const _ _ _)

/-- A detector that was interrupted too often to ever work again. -/
private def Dead (s : KnnCadState K) : Prop :=
  s.probationaryPeriod ≠ 0 ∧ s.probationaryPeriod ≤ s.recordCount + 1 ∧ 18 ≤ s.buf.length ∧
  s.training.length = 28 ∧ s.scores = []

omit [IsStrictOrderedRing K] in
private theorem ncmAll_error (sg : List (List K)) (tr : List (List K)) (h : tr.length = 28) :
    ncmAll sg tr = .error .valueError := by
  unfold ncmAll
  have hall : ∀ v : List K, ncm sg tr v true = .error .valueError := by
    intro v
    unfold ncm
    simp only [List.length_map, h, k]
    rfl
  cases tr with
  | nil => simp at h
  | cons t tr => rw [List.mapM_cons, hall]; rfl

omit [IsStrictOrderedRing K] in
private theorem dead_fit (s : KnnCadState K) (hd : Dead s) (v : K) (x : List K) :
    fitPartial inv s (v :: x) =
      .err .valueError (fitPartial inv s (v :: x)).state ∧
    (∀ u ∈ s :: fitStages inv s (v :: x), Dead u) ∧
    ∀ t, scorePartial (fitPartial inv s (v :: x)).state = t → t.out = .error .zeroDivision := by
  obtain ⟨h1, h2, h3, h4, h5⟩ := hd
  have c1 : ¬ s.buf.length + 1 < 19 := by omega
  have c2 : ¬ s.recordCount + 1 < s.probationaryPeriod := by omega
  obtain ⟨sg, hsg⟩ : ∃ sg, fitPartial inv s (v :: x) = .err .valueError
      { s with buf := s.buf ++ [v], recordCount := s.recordCount + 1, sigma := some sg } := by
    unfold fitPartial monitor initScores
    simp only [List.length_append, List.length_singleton, dim, if_neg c1, if_neg c2, if_neg h1, h5,
      List.length_nil, if_true, ncmAll_error _ _ h4]
    exact ⟨_, rfl⟩
  refine ⟨by rw [hsg]; rfl, ?_, ?_⟩
  · intro u hu
    unfold fitStages monitorStages initScores at hu
    simp only [List.length_append, List.length_singleton, dim, if_neg c1, if_neg c2, if_neg h1, h5,
      List.length_nil, if_true, ncmAll_error _ _ h4, List.mem_cons, List.not_mem_nil, or_false] at hu
    rcases hu with rfl | rfl | rfl | rfl | rfl
    · exact ⟨h1, h2, h3, h4, h5⟩
    · exact ⟨h1, h2, h3, h4, rfl⟩
    · exact ⟨h1, h2, by simp only [List.length_append]; omega, h4, rfl⟩
    · exact ⟨h1, by simp only; omega, by simp only [List.length_append]; omega, h4, rfl⟩
    · exact ⟨h1, by simp only; omega, by simp only [List.length_append]; omega, h4, rfl⟩
  · rintro t rfl
    rw [hsg]
    unfold scorePartial ncm
    simp only [Res.state, List.length_append, List.length_singleton, dim, List.length_map, h4, h5, k]
    rw [if_neg (by omega)]
    rfl

omit [IsStrictOrderedRing K] in
private theorem dead_history (s : KnnCadState K) (hd : Dead s) (h : List (List K × Option ℕ))
    (hne : ∀ e ∈ h, e.1 ≠ []) : Dead (afterCalls (statements inv) s h) := by
  induction h using List.reverseRecOn with
  | nil => exact hd
  | append_singleton h e ih =>
    obtain ⟨x, o⟩ := e
    have hx : x ≠ [] := hne (x, o) (by simp)
    obtain ⟨v, x, rfl⟩ := List.exists_cons_of_ne_nil hx
    have := (dead_fit inv _ (ih fun e he => hne e (by simp [he])) v x).2.1
    rw [afterCalls_snoc]
    refine this _ ?_
    cases o with
    | none =>
      have key := run_take_const (fitStages inv (afterCalls (statements inv) s h) (v :: x))
        (afterCalls (statements inv) s h) (fitStages inv (afterCalls (statements inv) s h) (v :: x)).length
      rw [List.take_of_length_le (by rw [List.length_map])] at key
      exact key
    | some k => exact run_take_const _ _ _

omit [IsStrictOrderedRing K] in
/-- The lists after complete fits of the probationary period. -/
private theorem learning (P : ℕ) (n : ℕ) (hn : n < P) :
    ∃ s : KnnCadState K,
      afterCalls (statements inv) (new P) (List.replicate n (([0] : List K), none)) = s ∧
      s.probationaryPeriod = P ∧ s.recordCount = n ∧ s.buf.length = n ∧
      s.training.length = n - 18 ∧ s.scores = [] := by
  induction n with
  | zero => exact ⟨_, rfl, rfl, rfl, rfl, rfl, rfl⟩
  | succ n ih =>
    obtain ⟨s, h0, h1, h2, h3, h4, h5⟩ := ih (by omega)
    rw [List.replicate_succ', afterCalls_snoc, h0]
    simp only [statements_complete]
    refine ⟨_, rfl, ?_⟩
    unfold fitPartial
    simp only [List.length_append, List.length_singleton, dim, h3]
    by_cases c1 : n + 1 < 19
    · rw [if_pos c1]
      exact ⟨h1, by simp only [Res.state, h2], by simp only [Res.state, List.length_append, h3,
        List.length_singleton], by simp only [Res.state, h4]; omega, h5⟩
    · rw [if_neg c1, if_pos (by omega)]
      exact ⟨h1, by simp only [Res.state, h2], by simp only [Res.state, List.length_append, h3,
        List.length_singleton],
        by simp only [Res.state, List.length_append, h4, List.length_singleton]; omega, h5⟩

omit [IsStrictOrderedRing K] in
/-- Fits interrupted after the counter was increased, before the item was stored. -/
private theorem counting (s : KnnCadState K) (n : ℕ) :
    ∃ t : KnnCadState K,
      afterCalls (statements inv) s (List.replicate n (([0] : List K), some 3)) = t ∧
      t.probationaryPeriod = s.probationaryPeriod ∧ t.recordCount = s.recordCount + n ∧
      t.buf.length = s.buf.length + n ∧ t.training = s.training ∧ t.scores = s.scores := by
  induction n with
  | zero => exact ⟨_, rfl, rfl, rfl, rfl, rfl, rfl⟩
  | succ n ih =>
    obtain ⟨t, h0, h1, h2, h3, h4, h5⟩ := ih
    rw [List.replicate_succ', afterCalls_snoc, h0]
    refine ⟨{ t with
      sigma := some (t.sigma.getD (eye dim)), buf := t.buf ++ [0], recordCount := t.recordCount + 1 },
      rfl, h1, by simp only [h2]; omega, ?_, h4, h5⟩
    simp only [List.length_append, h3, List.length_singleton]
    omega

end KnnCad

/-- **C191 is false** for KNNCAD, and the bound of `C191_knncad_partial` cannot be improved: for every
probationary period from 48 on there is a history with 47 interrupted fits fewer (a single one for a period
of 48) after which every fit fails and no score is answered after it, whatever is fitted meanwhile. -/
theorem C191_knncad_refuted (P : ℕ) (hP : 48 ≤ P) :
    ∃ h : List (List K × Option ℕ), interruptions h + 47 = P ∧ (∀ e ∈ h, e.1 ≠ []) ∧
      ∀ h' : List (List K × Option ℕ), (∀ e ∈ h', e.1 ≠ []) → ∀ x : List K, x ≠ [] → ∃ s,
        KnnCad.fitPartial inv (afterCalls (KnnCad.statements inv) (KnnCad.new P) (h ++ h')) x =
          .err .valueError s ∧
        (KnnCad.scorePartial s).out = .error .zeroDivision := by
  refine ⟨List.replicate 46 ([0], none) ++ List.replicate (P - 47) ([0], some 3), ?_, ?_, ?_⟩
  · simp only [interruptions, List.countP_append, List.countP_replicate, Option.isSome_none,
      Option.isSome_some, if_true]
    simp
    omega
  · intro e he
    rcases List.mem_append.1 he with he | he <;> rw [List.eq_of_mem_replicate he] <;> simp
  · intro h' hne x hx
    obtain ⟨v, x, rfl⟩ := List.exists_cons_of_ne_nil hx
    obtain ⟨s, g0, g1, g2, g3, g4, g5⟩ := KnnCad.learning inv P 46 (by omega)
    obtain ⟨t, k0, k1, k2, k3, k4, k5⟩ := KnnCad.counting inv s (P - 47)
    have hsplit : afterCalls (KnnCad.statements inv) (KnnCad.new P)
        (List.replicate 46 (([0] : List K), none) ++ List.replicate (P - 47) ([0], some 3) ++ h') =
        afterCalls (KnnCad.statements inv) t h' := by
      rw [← k0, ← g0]
      unfold afterCalls
      rw [List.foldl_append, List.foldl_append]
    have hd : KnnCad.Dead t :=
      ⟨by omega, by omega, by omega, by rw [k4, g4], by rw [k5, g5]⟩
    rw [hsplit]
    obtain ⟨r1, -, r3⟩ := KnnCad.dead_fit inv _ (KnnCad.dead_history inv t hd h' hne) v x
    exact ⟨_, r1, r3 _ rfl⟩

/-- **C191**, KNNCAD, as far as it holds: if the probationary period exceeds the number of interrupted fits
by 48, the next complete fit does not fail, and after it a score is answered.
Missing: however many fits were interrupted (`C191_knncad_refuted`). -/
theorem C191_knncad_partial (P : ℕ) (h : List (List K × Option ℕ)) (hne : ∀ e ∈ h, e.1 ≠ [])
    (hi : interruptions h + 48 ≤ P) [IsStrictOrderedRing K] (x : List K) (hx : x ≠ []) :
    ∃ s, KnnCad.fitPartial inv (afterCalls (KnnCad.statements inv) (KnnCad.new P) h) x = .ok () s ∧
      ∃ u, (KnnCad.scorePartial s).out = .ok u := by
  obtain ⟨v, x, rfl⟩ := List.exists_cons_of_ne_nil hx
  obtain ⟨s, h1, h2, h3, h4⟩ := KnnCad.kept_fit inv hi _ (KnnCad.kept_history inv h hne hi) v x
  refine ⟨s, h1, ?_⟩
  obtain ⟨sg, hsg⟩ := Option.isSome_iff_exists.1 h3
  unfold KnnCad.scorePartial
  simp only [hsg]
  split
  · exact ⟨_, rfl⟩
  · rename_i hc
    have hr : P ≤ s.recordCount := by have := h2.1; omega
    obtain ⟨g1, g2⟩ := h4 hr
    obtain ⟨w, hw⟩ := ncm_ok sg s.training (KnnCad.newItem s.buf) false g1
    simp only [hw, if_neg g2]
    split
    · exact ⟨_, rfl⟩
    · split <;> exact ⟨_, rfl⟩
end KnnCad

/-! ### `RelativeEntropy` -/

section RelEnt
variable {K : Type*} [Field K] [LinearOrder K] [IsStrictOrderedRing K] [FloorRing K]

/-- The window that is taken as the reference: the one at the first fit that found `W` values and got as
far as its third store. `X` are the values stored before. -/
def Spec.firstReference {K : Type*} (W : ℕ) (X : List K) : List (K × Option ℕ) → Option (List K)
  | [] => none
  | e :: h =>
    if W ≤ (X ++ committed 1 [e]).length ∧ committed 3 [e] ≠ [] then
      some (lastN W (X ++ committed 1 [e]))
    else firstReference W (X ++ committed 1 [e]) h

omit [Field K] [LinearOrder K] [IsStrictOrderedRing K] [FloorRing K] in
private theorem firstReference_snoc (W : ℕ) (X : List K) (h : List (K × Option ℕ)) (e : K × Option ℕ) :
    firstReference W X (h ++ [e]) =
      (firstReference W X h).or (firstReference W (X ++ committed 1 h) [e]) := by
  induction h generalizing X with
  | nil => simp [firstReference, committed]
  | cons a h ih =>
    rw [List.cons_append]
    unfold firstReference
    have hc : committed 1 (a :: h) = committed 1 [a] ++ committed 1 h := by
      unfold committed
      rw [← List.filterMap_append]
      rfl
    by_cases hw : W ≤ (X ++ committed 1 [a]).length ∧ committed 3 [a] ≠ []
    · rw [if_pos hw, if_pos hw]
      rfl
    · rw [if_neg hw, if_neg hw, ih, hc, ← List.append_assoc]
      rfl

namespace RelEnt

omit [IsStrictOrderedRing K] in
/-- All stores together are the call. -/
theorem statements_complete (x : K) (s : RelEntState K) :
    runStatements (statements x s) s = (fitPartial s x).state := by
  unfold statements
  rw [run_const]
  unfold fitStages fitPartial
  simp only [List.getLast?_cons, Option.getD_some]
  split
  · cases (current s.W (s.util ++ [x])).mapM (quantize s.minVal s.stepSize) with
    | error e => rfl
    | ok bs =>
      simp only
      split
      · rfl
      · rfl
  · rfl

/-- What holds between the calls. -/
private def Kept (isf : ℤ → Num K) (lo hi : K) (n W : ℕ) (X : List K) (ref : Option (List K))
    (s : RelEntState K) : Prop :=
  s.minVal = lo ∧ s.util = X ∧ s.nBins = n ∧ s.W = W ∧ s.T = isf ((n : ℤ) - 1) ∧
  s.stepSize = (hi - lo) / n ∧
  (ref = none → s.m = 0) ∧ s.m ≤ 1 ∧
  s.P.head? = ref.map (frequencies lo ((hi - lo) / n) n) ∧ (X.length < W → ref = none)

/-- The stores of a fit, spelled out. -/
private theorem stages_eq (isf : ℤ → Num K) (lo hi : K) (hne : lo ≠ hi) (n W : ℕ) (hn : 1 ≤ n)
    (hW : 1 ≤ W) (X : List K) (ref : Option (List K)) (s : RelEntState K)
    (h : Kept isf lo hi n W X ref s) (x : K) :
    fitStages s x = { s with util := X ++ [x] } ::
      if W ≤ X.length + 1 then
        let f := frequencies lo ((hi - lo) / n) n (lastN W (X ++ [x]))
        { s with util := X ++ [x], pHat := some f } ::
        if s.m = 0 then
          [{ s with util := X ++ [x], pHat := some f, P := s.P ++ [f] },
           { s with util := X ++ [x], pHat := some f, P := s.P ++ [f], c := s.c ++ [1] },
           { s with util := X ++ [x], pHat := some f, P := s.P ++ [f], c := s.c ++ [1], m := 1 }]
        else []
      else [] := by
  obtain ⟨h1, h2, h3, h4, h5, h6, -⟩ := h
  have hstep : (hi - lo) / (n : K) ≠ 0 := by
    have : (n : K) ≠ 0 := by positivity
    exact div_ne_zero (sub_ne_zero.2 hne.symm) this
  have hcur : current W (X ++ [x]) = lastN W (X ++ [x]) := by
    unfold current; rw [if_neg (by omega)]; rfl
  unfold fitStages
  simp only [h1, h2, h3, h4, h6, List.length_append, List.length_singleton, mapM_quantize _ _ hstep,
    histogram_eq, hcur]

private theorem kept_step (isf : ℤ → Num K) (lo hi : K) (hne : lo ≠ hi) (n W : ℕ) (hn : 1 ≤ n)
    (hW : 1 ≤ W) (X : List K) (ref : Option (List K)) (s : RelEntState K)
    (h : Kept isf lo hi n W X ref s) (x : K) (k : ℕ) :
    Kept isf lo hi n W (X ++ committed 1 [(x, some k)])
      (ref.or (firstReference W X [(x, some k)]))
      (runStatements ((statements x s).take k) s) := by
  have hst := stages_eq isf lo hi hne n W hn hW X ref s h x
  obtain ⟨h1, h2, h3, h4, h5, h6, h7, h8, h9, h10⟩ := h
  have hlen : (X ++ [x]).length = X.length + 1 := by simp
  unfold statements
  rw [hst]
  rcases k with _ | k
  · -- nothing was stored
    have : firstReference W X [(x, some 0)] = none := by simp [firstReference, committed]
    rw [this]
    cases ref with
    | none => exact ⟨h1, by simpa [committed, runStatements] using h2, h3, h4, h5, h6, h7, h8, h9,
        by simp⟩
    | some r => exact ⟨h1, by simpa [committed, runStatements] using h2, h3, h4, h5, h6, h7, h8, h9,
        by simpa [committed] using h10⟩
  have hc1 : committed 1 [(x, some (k + 1))] = [x] := by simp [committed]
  rw [hc1]
  by_cases hc : W ≤ X.length + 1
  · rw [if_pos hc]
    by_cases hm : s.m = 0
    · have hf : firstReference W X [(x, some (k + 1))] =
          if 3 ≤ k + 1 then some (lastN W (X ++ [x])) else none := by
        unfold firstReference firstReference
        rw [hc1]
        by_cases h3k : 3 ≤ k + 1
        · rw [if_pos h3k, if_pos ⟨by omega, by simp [committed, h3k]⟩]
        · rw [if_neg h3k, if_neg (by rintro ⟨-, h⟩; exact h (by simp [committed, h3k]))]
      rw [hf]
      simp only [if_pos hm]
      cases ref with
      | none =>
        have hP : s.P = [] := by simpa using h9
        rcases k with _ | _ | _ | _ | k
        · exact ⟨h1, rfl, h3, h4, h5, h6, h7, h8, h9, by omega⟩
        · exact ⟨h1, rfl, h3, h4, h5, h6, h7, h8, h9, by omega⟩
        · exact ⟨h1, rfl, h3, h4, h5, h6, fun _ => hm, h8, by simp [runStatements, hP], by omega⟩
        · exact ⟨h1, rfl, h3, h4, h5, h6, fun _ => hm, h8, by simp [runStatements, hP], by omega⟩
        · rw [List.take_of_length_le (by simp)]
          rw [if_pos (by omega)]
          exact ⟨h1, rfl, h3, h4, h5, h6, by simp, le_rfl, by simp [runStatements, hP], by omega⟩
      | some r =>
        have hP : ∀ f, (s.P ++ [f]).head? = s.P.head? := by
          intro f
          rw [List.head?_append, h9]; rfl
        rcases k with _ | _ | _ | _ | k
        · exact ⟨h1, rfl, h3, h4, h5, h6, h7, h8, h9, by omega⟩
        · exact ⟨h1, rfl, h3, h4, h5, h6, h7, h8, h9, by omega⟩
        · exact ⟨h1, rfl, h3, h4, h5, h6, h7, h8, (hP _).trans h9, by omega⟩
        · exact ⟨h1, rfl, h3, h4, h5, h6, h7, h8, (hP _).trans h9, by omega⟩
        · rw [List.take_of_length_le (by simp)]
          exact ⟨h1, rfl, h3, h4, h5, h6, by simp, le_rfl, (hP _).trans h9, by omega⟩
    · simp only [if_neg hm]
      cases ref with
      | none => exact absurd (h7 rfl) hm
      | some r =>
        rcases k with _ | k
        · exact ⟨h1, rfl, h3, h4, h5, h6, h7, h8, h9, by omega⟩
        · rw [List.take_of_length_le (by simp)]
          exact ⟨h1, rfl, h3, h4, h5, h6, h7, h8, h9, by omega⟩
  · rw [if_neg hc, List.take_of_length_le (by simp)]
    have hn' : ref = none := h10 (by omega)
    subst hn'
    have : firstReference W X [(x, some (k + 1))] = none := by
      unfold firstReference firstReference
      rw [hc1, if_neg (by rintro ⟨h, -⟩; omega)]
    rw [this]
    exact ⟨h1, rfl, h3, h4, h5, h6, h7, h8, h9, fun _ => rfl⟩

omit [IsStrictOrderedRing K] in
/-- A complete fit is one stopped after all its stores. -/
private theorem complete_take (x : K) (s : RelEntState K) :
    runStatements ((statements x s).take 5) s = runStatements (statements x s) s := by
  rw [List.take_of_length_le]
  unfold statements fitStages
  rw [List.length_map]
  simp only
  split
  · split
    · simp
    · simp only [List.length_cons]
      split <;> simp
  · simp

private theorem kept_history (isf : ℤ → Num K) (lo hi : K) (hne : lo ≠ hi) (n W : ℕ) (hn : 1 ≤ n)
    (hW : 1 ≤ W) (s0 : RelEntState K) (h0 : new isf lo hi n W = .ok s0) (h : List (K × Option ℕ)) :
    Kept isf lo hi n W (committed 1 h) (firstReference W [] h) (afterCalls statements s0 h) := by
  induction h using List.reverseRecOn with
  | nil =>
    unfold new at h0
    rw [if_neg (by omega)] at h0
    simp only [Except.ok.injEq] at h0
    subst h0
    exact ⟨rfl, rfl, rfl, rfl, rfl, rfl, fun _ => rfl, Nat.zero_le _, rfl, fun _ => rfl⟩
  | append_singleton h e ih =>
    obtain ⟨x, o⟩ := e
    rw [firstReference_snoc, afterCalls_snoc, List.nil_append]
    have hc : committed 1 (h ++ [(x, o)]) = committed 1 h ++ committed 1 [(x, o)] := by
      unfold committed; rw [List.filterMap_append]
    rw [hc]
    cases o with
    | none =>
      have := kept_step isf lo hi hne n W hn hW _ _ _ ih x 5
      rw [complete_take] at this
      exact this
    | some k => exact kept_step isf lo hi hne n W hn hW _ _ _ ih x k

end RelEnt

variable (entropy : List (Num K) → List (Num K) → Num K)

/-- **C191**, RelativeEntropy, as far as it holds: after any history that ends with a complete fit, a score is
answered. It is 0 while fewer than `W` values were stored; then it is 0 if the test statistic of the last `W`
stored values against the reference window is below the threshold, and -1 if not. A value is stored if its
fit got as far as its first store, and the reference is the window at the first fit that found `W` values
and got as far as its third.
Missing: the reference need not be the first `W` values of any way to read the history without
interruptions (`C191_relent_refuted`). -/
theorem C191_relent_partial (isf : ℤ → Num K) (lo hi : K) (hne : lo ≠ hi) (n W : ℕ) (hn : 1 ≤ n)
    (hW : 1 ≤ W) (s0 : RelEntState K) (h0 : RelEnt.new isf lo hi n W = .ok s0)
    (h : List (K × Option ℕ)) (x : K) :
    let X := committed 1 (h ++ [(x, none)])
    let freq := frequencies lo ((hi - lo) / n) n
    let statistic (r : List K) := scaled (2 * (W : K)) (entropy (freq (lastN W X)) (freq r))
    (X.length < W →
      (RelEnt.scorePartial entropy (afterCalls RelEnt.statements s0 (h ++ [(x, none)]))).out = .ok 0) ∧
    (W ≤ X.length → ∃ r, firstReference W [] (h ++ [(x, none)]) = some r ∧
      (RelEnt.scorePartial entropy (afterCalls RelEnt.statements s0 (h ++ [(x, none)]))).out =
        .ok (if Below (statistic r) (isf ((n : ℤ) - 1)) ∧ Below (statistic r) .posInf then 0 else -1)) := by
  intro X freq statistic
  have hk := RelEnt.kept_history isf lo hi hne n W hn hW s0 h0 h
  have hk' := RelEnt.kept_history isf lo hi hne n W hn hW s0 h0 (h ++ [(x, none)])
  have hst := RelEnt.stages_eq isf lo hi hne n W hn hW _ _ _ hk x
  have hX : X = committed 1 h ++ [x] := by
    show committed 1 (h ++ [(x, none)]) = _
    unfold committed; rw [List.filterMap_append]; rfl
  have hXl : X.length = (committed 1 h).length + 1 := by rw [hX]; simp
  generalize hs : afterCalls RelEnt.statements s0 (h ++ [(x, none)]) = s at hk' ⊢
  obtain ⟨-, k2, -, k4, k5, -, k7, k8, k9, k10⟩ := hk'
  refine ⟨fun hlt => ?_, fun hge => ?_⟩
  · unfold RelEnt.scorePartial
    rw [if_neg (by rintro ⟨hh, -⟩; rw [k4, k2] at hh; exact absurd hh (by change ¬ W ≤ X.length; omega))]
    rfl
  · -- the last fit was complete
    have hlast : s.m = 1 ∧ s.pHat = some (freq (lastN W X)) := by
      rw [← hs, afterCalls_snoc]
      simp only [RelEnt.statements]
      rw [hst, if_pos (by omega), hX]
      obtain ⟨-, -, -, -, -, -, -, g8, -, -⟩ := hk
      by_cases hm : (afterCalls RelEnt.statements s0 h).m = 0
      · simp only [if_pos hm]
        exact ⟨rfl, rfl⟩
      · simp only [if_neg hm]
        exact ⟨by show (afterCalls RelEnt.statements s0 h).m = 1; omega, rfl⟩
    obtain ⟨m1, m2⟩ := hlast
    cases href : firstReference W [] (h ++ [(x, none)]) with
    | none => exact absurd (k7 href) (by omega)
    | some r =>
      refine ⟨r, rfl, ?_⟩
      have hP : s.P[0]? = some (freq r) := by
        rw [← List.head?_eq_getElem?, k9, href]; rfl
      unfold RelEnt.scorePartial
      rw [if_pos ⟨by rw [k4, k2]; exact hge, by omega⟩, m2]
      simp only [RelEnt.agreement, m1, List.range_succ, List.range_zero, List.nil_append,
        List.foldlM_cons, List.foldlM_nil, RelEnt.agreeStep, hP, k4, k5]
      have hsc : Num.smul (2 * (W : K)) (entropy (freq (lastN W X)) (freq r)) = statistic r :=
        Num.smul_eq_scaled (two_mul_pos hW) _
      rw [hsc]
      have hiff : ((statistic r).lt (isf ((n : ℤ) - 1)) && (statistic r).lt .posInf) = true ↔
          Below (statistic r) (isf ((n : ℤ) - 1)) ∧ Below (statistic r) .posInf := by
        rw [Bool.and_eq_true, Num.lt_iff_below, Num.lt_iff_below]
      by_cases hl : Below (statistic r) (isf ((n : ℤ) - 1)) ∧ Below (statistic r) .posInf
      · rw [if_pos (hiff.2 hl), if_pos hl]; rfl
      · rw [if_neg (mt hiff.1 hl), if_neg hl]; rfl

/-- **C191 is false** for RelativeEntropy: with windows of two values, the fit of the second value
interrupted after its first store, the reference is the window of the second and third value for ever. -/
theorem C191_relent_refuted (s0 : RelEntState ℚ)
    (h0 : RelEnt.new (fun _ => .fin 5) (0 : ℚ) 2 2 2 = .ok s0) :
    ¬ AllOrNothing RelEnt.statements s0 (fun s x => (RelEnt.fitPartial s x).state)
      fun s => (RelEnt.scorePartial (fun p q => if p = q then .fin 0 else .fin 10) s).out := by
  unfold RelEnt.new at h0
  rw [if_neg (by decide)] at h0
  simp only [Except.ok.injEq] at h0
  subst h0
  exact refuted [(0, none), (1, some 1), (1, none), (0, none)] (by decide +kernel)

end RelEnt

/-! ### `Inqmad` -/

section Inqmad
variable {K β : Type*} [Field K] {n d : ℕ}

/-- All stores together are the call. -/
theorem Inqmad.statements_complete (env : InqEnv K n d) (x : Fin n → K) (s : InqState K d) :
    runStatements (Inqmad.statements env x s) s = (Inqmad.fitPartial env s x).state := by
  unfold Inqmad.statements
  rw [run_const]
  unfold Inqmad.fitStages Inqmad.fitPartial
  split <;> rfl

private theorem inqmad_kept (env : InqEnv K n d) (b : ℕ) (hb : b ≠ 0)
    (h : List ((Fin n → K) × Option ℕ)) :
    ∃ r, afterCalls (Inqmad.statements env) (Inqmad.new b) h =
      (⟨b, r, (committed 2 h).length, none⟩ : InqState K d) := by
  induction h using List.reverseRecOn with
  | nil => exact ⟨none, rfl⟩
  | append_singleton h e ih =>
    obtain ⟨r, hr⟩ := ih
    obtain ⟨x, o⟩ := e
    rw [afterCalls_snoc, hr]
    have hc : committed 2 (h ++ [(x, o)]) = committed 2 h ++ committed 2 [(x, o)] := by
      unfold committed; rw [List.filterMap_append]
    rw [hc, List.length_append]
    cases o with
    | none =>
      refine ⟨some (Inqmad.computeTraining env x 1 r), ?_⟩
      simp only [Inqmad.statements_complete, Inqmad.fitPartial, if_neg hb]
      rfl
    | some k =>
      simp only [Inqmad.statements, Inqmad.fitStages, if_neg hb]
      rcases k with _ | _ | k
      · exact ⟨r, rfl⟩
      · exact ⟨some (Inqmad.computeTraining env x 1 r), rfl⟩
      · refine ⟨some (Inqmad.computeTraining env x 1 r), ?_⟩
        simp [committed, runStatements]

/-- **C191**, Inqmad: whatever was interrupted, one complete fit restores it. From then on all calls are
answered as by a detector that never saw the fits that did not reach their second store, and to which
the others happened completely. (Nothing is scored before; see C85 for what a first score fixes.) -/
theorem C191_inqmad (env : InqEnv K n d) (b : ℕ) (hb : b ≠ 0) (h : List ((Fin n → K) × Option ℕ))
    (x : Fin n → K) (cs : List (Call (Fin n → K) β)) :
    (calls (Inqmad.detector env)
      (afterCalls (Inqmad.statements env) (Inqmad.new b : InqState K d) (h ++ [(x, none)])) cs).1 =
    (calls (Inqmad.detector env)
      (calls (Inqmad.detector (β := β) env) (Inqmad.new b)
        ((committed 2 h ++ [x]).map (Call.fit · none))).2 cs).1 := by
  have key : afterCalls (Inqmad.statements env) (Inqmad.new b : InqState K d) (h ++ [(x, none)]) =
      (calls (Inqmad.detector (β := β) env) (Inqmad.new b)
        ((committed 2 h ++ [x]).map (Call.fit · none))).2 := by
    obtain ⟨r, hr⟩ := inqmad_kept env b hb h
    have plain : ∀ l : List (Fin n → K), ∃ r, (calls (Inqmad.detector (β := β) env)
        (Inqmad.new b) (l.map (Call.fit · none))).2 = (⟨b, r, l.length, none⟩ : InqState K d) := by
      intro l
      induction l using List.reverseRecOn with
      | nil => exact ⟨none, rfl⟩
      | append_singleton l z ih =>
        obtain ⟨r, hr⟩ := ih
        rw [List.map_append, List.map_singleton, calls_snoc, hr]
        simp only [call, Inqmad.detector, Inqmad.fitPartial, if_neg hb]
        exact ⟨_, by rw [List.length_append]; rfl⟩
    obtain ⟨r', hr'⟩ := plain (committed 2 h)
    rw [afterCalls_snoc, hr, List.map_append, List.map_singleton, calls_snoc, hr']
    simp only [call, Inqmad.statements_complete, Inqmad.detector, Inqmad.fitPartial, if_neg hb,
      computeTraining_one]
    rfl
  rw [key]

end Inqmad

/-! ### `LODA` -/

section Loda
variable {G : Type*}

namespace Loda

private theorem state_mapState {σ τ α : Type*} (f : σ → τ) (r : Res σ α) :
    (r.mapState f).state = f r.state := by cases r <;> rfl

private theorem getLast_map {α γ : Type*} (f : α → γ) (l : List α) (a : α) :
    (l.map f).getLast?.getD (f a) = f (l.getLast?.getD a) := by
  rw [List.getLast?_map]
  cases l.getLast? <;> rfl

variable {K : Type*} [Field K] [LinearOrder K]

theorem fitCutsStages_last (rng : LodaRng G K) (nBins d : ℕ) (x : List K) (g : G)
    (cs : List (LodaCut K)) :
    (fitCutsStages rng nBins d x g cs).getLast?.getD (g, cs) = (fitCuts rng nBins d x g cs).state := by
  induction cs generalizing g with
  | nil => rfl
  | cons c cs ih =>
    unfold fitCutsStages fitCuts
    simp only [List.getLast?_cons, Option.getD_some]
    generalize zeroAt ((rng.permutation g d).1.take (d - d.sqrt)) c.projection = p
    cases project p x with
    | error e => rfl
    | ok v =>
      simp only [Except.bind]
      unfold refitStages refit
      cases npHistogram [v] nBins with
      | error e => rfl
      | ok q =>
        simp only
        rw [List.getLast?_append, List.getLast?_map]
        have := ih (rng.permutation g d).2
        cases hr : fitCuts rng nBins d x (rng.permutation g d).2 cs <;> rw [hr] at this <;>
        cases hl : (fitCutsStages rng nBins d x (rng.permutation g d).2 cs).getLast? <;>
          rw [hl] at this <;> simp at this ⊢ <;> simp [← this]

/-- All stores together are the call. -/
theorem statements_complete (rng : LodaRng G K) (x : List K) (s : LodaState G K) :
    runStatements (statements rng x s) s = (fitPartial rng s x).state := by
  unfold statements
  rw [run_const]
  obtain ⟨g, nBins, nCuts, arrays⟩ := s
  unfold fitStages fitPartial
  cases arrays with
  | some a =>
    obtain ⟨d, cs⟩ := a
    simp only
    rw [state_mapState, ← fitCutsStages_last]
    exact getLast_map (fun p : G × List (LodaCut K) =>
      (⟨p.1, nBins, nCuts, some (d, p.2)⟩ : LodaState G K)) _ (g, cs)
  | none =>
    simp only [List.getLast?_cons, Option.getD_some]
    rw [state_mapState, ← fitCutsStages_last]
    exact getLast_map (fun p : G × List (LodaCut K) =>
      (⟨p.1, nBins, nCuts, some (x.length, p.2)⟩ : LodaState G K)) _
      ((rng.randn g nCuts x.length).2, (rng.randn g nCuts x.length).1.map fun r =>
        (⟨r, List.replicate nBins 0, List.replicate (nBins + 1) 0⟩ : LodaCut K))

/-- Whatever was interrupted, the projections have the right shape. -/
private def Kept (nBins nCuts d : ℕ) (s : LodaState G K) : Prop :=
  s.nBins = nBins ∧ s.nRandomCuts = nCuts ∧
  (s.arrays = none ∨ ∃ cs, s.arrays = some (d, cs) ∧ cs.length = nCuts ∧
    ∀ c ∈ cs, c.projection.length = d)

private theorem refitStages_shape (nBins : ℕ) (c : LodaCut K) (v : K) :
    ∀ c' ∈ refitStages nBins c v, c'.projection = c.projection := by
  unfold refitStages
  cases npHistogram [v] nBins with
  | error e => simp
  | ok q =>
    intro c' hc
    simp only [List.mem_cons, List.not_mem_nil, or_false] at hc
    rcases hc with rfl | rfl | rfl | rfl <;> rfl

private theorem refit_shape (nBins : ℕ) (c c' : LodaCut K) (v : K) (h : refit nBins c v = .ok c') :
    c'.projection = c.projection := by
  unfold refit at h
  cases hq : npHistogram [v] nBins with
  | error e => rw [hq] at h; simp at h
  | ok q =>
    rw [hq] at h
    simp only [Except.ok.injEq] at h
    rw [← h]

private theorem fitCutsStages_shape (rng : LodaRng G K) (nBins d : ℕ) (x : List K) (g : G)
    (cs : List (LodaCut K)) (hc : ∀ c ∈ cs, c.projection.length = d) :
    ∀ p ∈ fitCutsStages rng nBins d x g cs, p.2.length = cs.length ∧
      ∀ c ∈ p.2, c.projection.length = d := by
  induction cs generalizing g with
  | nil => simp [fitCutsStages]
  | cons c cs ih =>
    have hl := hc c (by simp)
    have hcs : ∀ c ∈ cs, c.projection.length = d := fun c h => hc c (by simp [h])
    intro p hp
    unfold fitCutsStages at hp
    simp only [List.mem_cons] at hp
    rcases hp with rfl | rfl | hp
    · exact ⟨rfl, hc⟩
    · refine ⟨rfl, fun c hc' => ?_⟩
      rcases List.mem_cons.1 hc' with rfl | hc'
      · simpa using hl
      · exact hcs c hc'
    · generalize hz : zeroAt ((rng.permutation g d).1.take (d - d.sqrt)) c.projection = z at hp
      have hzl : z.length = d := by rw [← hz, length_zeroAt, hl]
      cases hv : project z x with
      | error e => rw [hv] at hp; simp at hp
      | ok v =>
        rw [hv] at hp
        simp only [List.mem_append, List.mem_map] at hp
        rcases hp with ⟨c', h1, rfl⟩ | hp
        · refine ⟨rfl, fun a ha => ?_⟩
          rcases List.mem_cons.1 ha with rfl | ha
          · rw [refitStages_shape _ _ _ _ h1]; exact hzl
          · exact hcs a ha
        · cases hr : refit nBins { c with projection := z } v with
          | error e => rw [hr] at hp; simp at hp
          | ok c' =>
            rw [hr] at hp
            obtain ⟨q, hq, rfl⟩ := List.mem_map.1 hp
            obtain ⟨q1, q2⟩ := ih _ hcs q hq
            refine ⟨by simp [q1], fun a ha => ?_⟩
            rcases List.mem_cons.1 ha with rfl | ha
            · rw [refit_shape _ _ _ _ hr]; exact hzl
            · exact q2 a ha

private theorem kept_stage (rng : LodaRng G K) (hr : RandnShape rng) (nBins nCuts d : ℕ)
    (s : LodaState G K) (h : Kept nBins nCuts d s) (x : List K) (hx : x.length = d) :
    ∀ u ∈ s :: fitStages rng s x, Kept nBins nCuts d u := by
  intro u hu
  rcases List.mem_cons.1 hu with rfl | hu
  · exact h
  obtain ⟨h1, h2, h3 | ⟨cs, h3, h4, h5⟩⟩ := h
  · unfold fitStages at hu
    rw [h3] at hu
    simp only [List.mem_cons, List.mem_map] at hu
    have hshape : ∀ c ∈ (rng.randn s.rng s.nRandomCuts x.length).1.map (fun r =>
        (⟨r, List.replicate s.nBins 0, List.replicate (s.nBins + 1) 0⟩ : LodaCut K)),
        c.projection.length = d := by
      intro c hc
      obtain ⟨r, hr', rfl⟩ := List.mem_map.1 hc
      rw [← hx]
      exact (hr _ _ _).2 r hr'
    rcases hu with rfl | rfl | ⟨p, hp, rfl⟩
    · exact ⟨h1, h2, .inl rfl⟩
    · refine ⟨h1, h2, .inr ⟨_, by rw [hx], ?_, hshape⟩⟩
      rw [List.length_map, (hr _ _ _).1, h2]
    · rw [hx] at hp hshape
      obtain ⟨q1, q2⟩ := fitCutsStages_shape rng _ d x _ _ hshape p hp
      refine ⟨h1, h2, .inr ⟨_, by rw [hx], ?_, q2⟩⟩
      rw [q1, List.length_map, (hr _ _ _).1, h2]
  · unfold fitStages at hu
    rw [h3] at hu
    obtain ⟨p, hp, rfl⟩ := List.mem_map.1 hu
    obtain ⟨q1, q2⟩ := fitCutsStages_shape rng _ d x _ _ h5 p hp
    exact ⟨h1, h2, .inr ⟨_, rfl, q1.trans h4, q2⟩⟩

private theorem kept_history (rng : LodaRng G K) (hr : RandnShape rng) (nBins nCuts d : ℕ) (g : G)
    (h : List (List K × Option ℕ)) (hd : ∀ e ∈ h, e.1.length = d) :
    Kept nBins nCuts d (afterCalls (statements rng) (new g nBins nCuts) h) := by
  induction h using List.reverseRecOn with
  | nil => exact ⟨rfl, rfl, .inl rfl⟩
  | append_singleton h e ih =>
    have hk := ih fun e he => hd e (by simp [he])
    have he := hd e (by simp)
    rw [afterCalls_snoc]
    refine kept_stage rng hr nBins nCuts d _ hk e.1 he _ ?_
    cases e.2 with
    | none =>
      have key := run_take_const (fitStages rng (afterCalls (statements rng) (new g nBins nCuts) h) e.1)
        (afterCalls (statements rng) (new g nBins nCuts) h)
        (fitStages rng (afterCalls (statements rng) (new g nBins nCuts) h) e.1).length
      rw [List.take_of_length_le (by rw [List.length_map])] at key
      exact key
    | some k => exact run_take_const _ _ _

end Loda

/-- **C191**, LODA: whatever fits were interrupted wherever, a complete fit does not fail, and after it
every instance is scored with a finite number between 0 and the bound of C65. -/
theorem C191_loda {β : Type*} (rng : LodaRng G ℝ) (hr : RandnShape rng) (nBins nCuts d : ℕ)
    (hn : 1 ≤ nBins) (hc : 1 ≤ nCuts) (g : G) (h : List (List ℝ × Option ℕ))
    (hd : ∀ e ∈ h, e.1.length = d) (x : List ℝ) (hx : x.length = d) :
    ∃ s, Loda.fitPartial rng (afterCalls (Loda.statements rng) (Loda.new g nBins nCuts) h) x = .ok () s ∧
      ∀ y : List ℝ, y.length = d → ∃ v : ℝ, 0 ≤ v ∧ v ≤ -Real.log (lodaEmpty nBins) / nCuts ∧
        ((Loda.detector (β := β) rng npLog).scorePartial s y).out = .ok (.fin v) := by
  obtain ⟨k1, k2, k3⟩ := Loda.kept_history rng hr nBins nCuts d g h hd
  generalize afterCalls (Loda.statements rng) (Loda.new g nBins nCuts) h = s at k1 k2 k3 ⊢
  have hfit : ∃ g' cs', Loda.fitPartial rng s x = .ok () { s with rng := g', arrays := some (d, cs') } ∧
      cs'.length = nCuts ∧ ∀ c ∈ cs', CutGood nBins d c := by
    unfold Loda.fitPartial
    rcases k3 with h3 | ⟨cs, h3, h4, h5⟩
    · simp only [h3]
      obtain ⟨g', cs', q1, q2, q3⟩ := fitCuts_ok rng nBins d hn x hx
        (rng.randn s.rng s.nRandomCuts x.length).2
        ((rng.randn s.rng s.nRandomCuts x.length).1.map fun r =>
          (⟨r, List.replicate s.nBins 0, List.replicate (s.nBins + 1) 0⟩ : LodaCut ℝ))
        (by
          intro c hc
          obtain ⟨r, hr', rfl⟩ := List.mem_map.1 hc
          rw [← hx]
          exact (hr _ _ _).2 r hr')
      refine ⟨g', cs', ?_, ?_, fun c hc => ⟨_, q3 c hc⟩⟩
      · rw [hx, k1] at *
        rw [q1]
        rfl
      · rw [q2, List.length_map, (hr _ _ _).1, k2]
    · simp only [h3]
      obtain ⟨g', cs', q1, q2, q3⟩ := fitCuts_ok rng nBins d hn x hx s.rng cs h5
      refine ⟨g', cs', ?_, q2.trans h4, fun c hc => ⟨_, q3 c hc⟩⟩
      rw [k1, q1]
      rfl
  obtain ⟨g', cs', f1, f2, f3⟩ := hfit
  refine ⟨_, f1, fun y hy => ?_⟩
  have hcK : (0 : ℝ) < nCuts := by exact_mod_cast hc
  refine ⟨(1 / nCuts * (cs'.map fun c => -Real.log (lodaMass nBins y c)).sum) / nCuts, ?_, ?_, ?_⟩
  · have : 0 ≤ (cs'.map fun c => -Real.log (lodaMass nBins y c)).sum := by
      apply List.sum_nonneg
      intro z hz
      obtain ⟨c, -, rfl⟩ := List.mem_map.1 hz
      exact (neg_log_mass nBins hn y c).1
    positivity
  · have hs : (cs'.map fun c => -Real.log (lodaMass nBins y c)).sum
        ≤ (cs'.map fun c => -Real.log (lodaMass nBins y c)).length • (-Real.log (lodaEmpty nBins)) := by
      apply List.sum_le_card_nsmul
      intro z hz
      obtain ⟨c, -, rfl⟩ := List.mem_map.1 hz
      exact (neg_log_mass nBins hn y c).2
    rw [List.length_map, f2, nsmul_eq_mul] at hs
    apply div_le_div_of_nonneg_right _ hcK.le
    rw [one_div, inv_mul_le_iff₀ hcK]
    exact hs
  · exact loda_score_of rng nBins nCuts d hn hc { s with rng := g', arrays := some (d, cs') } k1 k2 cs'
      rfl f3 y hy

end Loda

/-! ### The hypotheses are met -/

/-- Two fits of ten interrupted, in the middle of the call and before its first store. -/
example : ∃ s, KnnCad.fitPartial (K := ℚ) (fun _ => none) (afterCalls (KnnCad.statements fun _ => none)
    (KnnCad.new 50) (List.replicate 8 ([1], none) ++ [([2], some 3), ([3], some 0)])) [4] = .ok () s ∧
    ∃ u, (KnnCad.scorePartial s).out = .ok u :=
  C191_knncad_partial _ 50 _ (by decide) (by decide) [4] (by decide)

/-- The reference can be the window of the second and third value, or of the first two although the
counter of references was never increased. -/
example : firstReference 2 [] [((0 : ℕ), none), (1, some 1), (2, none), (3, none)] = some [1, 2] ∧
    firstReference 2 [] [((0 : ℕ), none), (1, some 3), (2, none), (3, none)] = some [0, 1] ∧
    firstReference 2 [] [((0 : ℕ), none), (1, some 0), (2, some 2)] = none := by
  decide

/-- The refutation is about a detector that can be constructed. -/
example : ∃ s0, RelEnt.new (fun _ => .fin 5) (0 : ℚ) 2 2 2 = .ok s0 := ⟨_, rfl⟩

/-- Three cuts, one fit interrupted in the middle of its loop. -/
example : ∃ s, Loda.fitPartial (onesRng ℝ) (afterCalls (Loda.statements (onesRng ℝ))
    (Loda.new () 4 3) [([1, 2], some 7), ([3, 4], none)]) [5, 6] = .ok () s ∧
    ∀ y : List ℝ, y.length = 2 → ∃ v : ℝ, 0 ≤ v ∧ v ≤ -Real.log (lodaEmpty 4) / (3 : ℕ) ∧
      ((Loda.detector (β := Unit) (onesRng ℝ) npLog).scorePartial s y).out = .ok (.fin v) :=
  C191_loda (onesRng ℝ) onesRng_shape 4 3 2 (by decide) (by decide) () _ (by simp) [5, 6] rfl

end Pysad
