import Verif.Model.KnnCad
import Verif.Spec.KnnCad
import Verif.Proofs.Lists
import Verif.Proofs.Calls

/-! Properties C61-C64: `KNNCAD`. -/

namespace Pysad

open Spec

/-- The values a history feeds to a univariate detector that reads `X[0]` (instances
without any value are rejected). -/
def Spec.firstValues {α β : Type*} (cs : List (Call (List α) β)) : List α :=
  (fitted cs).filterMap List.head?

section
variable {K β : Type*} [Field K] [LinearOrder K] (inv : List (List K) → Option (List (List K)))

/-! ### What every reachable state satisfies -/

/-- The bookkeeping part of the state. -/
structure KnnCad.Same (s t : KnnCadState K) : Prop where
  buf : t.buf = s.buf
  count : t.recordCount = s.recordCount
  period : t.probationaryPeriod = s.probationaryPeriod
  pred : t.pred = s.pred
  sigma : t.sigma.isSome = true

theorem KnnCad.rotate_same (s : KnnCadState K) (hs : s.sigma.isSome = true) (item : List K) (v : K) :
    KnnCad.Same s (KnnCad.rotate s item v).state := by
  obtain ⟨buf, training, calibration, scores, count, pred, sigma, period⟩ := s
  unfold KnnCad.rotate
  simp only
  split
  · cases training with
    | nil => exact ⟨rfl, rfl, rfl, rfl, hs⟩
    | cons t tr =>
      cases calibration with
      | nil => exact ⟨rfl, rfl, rfl, rfl, hs⟩
      | cons c cal => cases scores <;> exact ⟨rfl, rfl, rfl, rfl, hs⟩
  · cases scores <;> exact ⟨rfl, rfl, rfl, rfl, hs⟩

theorem KnnCad.monitor_same (s : KnnCadState K) (hs : s.sigma.isSome = true)
    (sigma : List (List K)) : KnnCad.Same s (KnnCad.monitor inv s sigma).state := by
  unfold KnnCad.monitor
  simp only
  split
  · exact ⟨rfl, rfl, rfl, rfl, hs⟩
  · split
    · exact ⟨rfl, rfl, rfl, rfl, rfl⟩
    · split
      · exact ⟨rfl, rfl, rfl, rfl, rfl⟩
      · obtain ⟨h1, h2, h3, h4, h5⟩ := KnnCad.rotate_same
          { s with sigma := some (KnnCad.newSigma inv s sigma), scores := ‹List K› } rfl
          (KnnCad.newItem s.buf) ‹K›
        exact ⟨h1, h2, h3, h4, h5⟩

theorem KnnCad.fit_book (s : KnnCadState K) (x : List K) :
    let t := (KnnCad.fitPartial inv s x).state
    t.buf = s.buf ++ x.head?.toList ∧ t.recordCount = s.recordCount + x.head?.toList.length ∧
    t.probationaryPeriod = s.probationaryPeriod ∧ t.pred = s.pred ∧ t.sigma.isSome = true := by
  cases x with
  | nil => simp [KnnCad.fitPartial]
  | cons v x =>
    simp only [KnnCad.fitPartial, List.head?_cons, Option.toList_some, List.length_singleton]
    split
    · exact ⟨rfl, rfl, rfl, rfl, rfl⟩
    · split
      · exact ⟨rfl, rfl, rfl, rfl, rfl⟩
      · obtain ⟨h1, h2, h3, h4, h5⟩ := KnnCad.monitor_same inv
          { s with sigma := some (s.sigma.getD (KnnCad.eye KnnCad.dim)), buf := s.buf ++ [v],
                   recordCount := s.recordCount + 1 } rfl (s.sigma.getD (KnnCad.eye KnnCad.dim))
        exact ⟨h1, h2, h3, h4, h5⟩

/-- Scoring changes at most `pred`. -/
theorem KnnCad.score_state (s : KnnCadState K) :
    ∃ p, (KnnCad.scorePartial s).state = { s with pred := p } := by
  unfold KnnCad.scorePartial
  split
  · exact ⟨s.pred, rfl⟩
  · split
    · exact ⟨s.pred, rfl⟩
    · split
      · exact ⟨s.pred, rfl⟩
      · simp only
        split
        · exact ⟨s.pred, rfl⟩
        · split
          · exact ⟨_, rfl⟩
          · split
            · exact ⟨_, rfl⟩
            · exact ⟨s.pred, rfl⟩

theorem KnnCad.call_fit_state (s : KnnCadState K) (x : List K) (y : Option β) :
    (call (KnnCad.detector inv) s (.fit x y)).2 = (KnnCad.fitPartial inv s x).state := by
  simp only [call, KnnCad.detector]
  cases KnnCad.fitPartial inv s x <;> rfl

theorem KnnCad.call_score_state (s : KnnCadState K) (x : List K) :
    (call (KnnCad.detector (β := β) inv) s (.score x)).2 = (KnnCad.scorePartial s).state := by
  simp only [call, KnnCad.detector]
  cases KnnCad.scorePartial s <;> rfl

theorem firstValues_append (cs ds : List (Call (List K) β)) :
    firstValues (cs ++ ds) = firstValues cs ++ firstValues ds := by
  simp [firstValues, fitted_append]

theorem firstValues_fit (x : List K) (y : Option β) :
    firstValues [(Call.fit x y : Call (List K) β)] = x.head?.toList := by
  cases x <;> rfl

theorem knn_book (P : ℕ) (cs : List (Call (List K) β)) :
    let s := (calls (KnnCad.detector inv) (KnnCad.new P) cs).2
    s.buf = firstValues cs ∧ s.recordCount = (firstValues cs).length ∧
    s.probationaryPeriod = P ∧ (fitted cs ≠ [] → s.sigma.isSome = true) ∧
    (fitted cs = [] → s.sigma = none) := by
  refine calls_inv (d := KnnCad.detector (β := β) inv)
    (P := fun cs (s : KnnCadState K) => s.buf = firstValues cs ∧
      s.recordCount = (firstValues cs).length ∧ s.probationaryPeriod = P ∧
      (fitted cs ≠ [] → s.sigma.isSome = true) ∧ (fitted cs = [] → s.sigma = none)) ?_ _ ?_ cs
  · rintro cs s c ⟨h1, h2, h3, h4, h5⟩
    rw [firstValues_append, fitted_append]
    cases c with
    | fit x y =>
      rw [KnnCad.call_fit_state, firstValues_fit]
      obtain ⟨g1, g2, g3, g4, g5⟩ := KnnCad.fit_book inv s x
      refine ⟨by rw [g1, h1], by rw [g2, h2, List.length_append], by rw [g3, h3], fun _ => g5, ?_⟩
      intro h; simp [fitted] at h
    | score x =>
      rw [KnnCad.call_score_state]
      obtain ⟨p, hp⟩ := KnnCad.score_state s
      rw [hp]
      have e1 : firstValues [(Call.score x : Call (List K) β)] = [] := rfl
      have e2 : fitted [(Call.score x : Call (List K) β)] = [] := rfl
      rw [e1, e2, List.append_nil, List.append_nil]
      exact ⟨h1, h2, h3, h4, h5⟩
  · exact ⟨rfl, rfl, rfl, fun h => absurd rfl h, fun _ => rfl⟩

/-! ### C61 -/

variable [IsStrictOrderedRing K]

/-- **C61.** Until `P` instances, and at least 19, have been fitted, every score is 0,
whatever the argument, and scoring changes nothing. -/
theorem C61_knncad_silent (P : ℕ) (cs : List (Call (List K) β)) (hne : fitted cs ≠ [])
    (hn : (firstValues cs).length < 19 ∨ (firstValues cs).length < P) (x : List K) :
    let s := (calls (KnnCad.detector inv) (KnnCad.new P) cs).2
    (KnnCad.detector (β := β) inv).scorePartial s x = .ok 0 s := by
  intro s
  obtain ⟨h1, h2, h3, h4, -⟩ := knn_book (β := β) inv P cs
  obtain ⟨sg, hsg⟩ := Option.isSome_iff_exists.1 (h4 hne)
  have hs : s = (calls (KnnCad.detector inv) (KnnCad.new P) cs).2 := rfl
  rw [← hs] at h1 h2 h3 hsg
  simp only [KnnCad.detector, KnnCad.scorePartial, hsg, h1, h2, h3, KnnCad.dim]
  rw [if_pos hn]

/-- **C61.** Before anything was fitted, scoring raises `AttributeError`. -/
theorem C61_knncad_unfitted (P : ℕ) (cs : List (Call (List K) β)) (hne : fitted cs = []) (x : List K) :
    let s := (calls (KnnCad.detector inv) (KnnCad.new P) cs).2
    (KnnCad.detector (β := β) inv).scorePartial s x = .err .attributeError s := by
  intro s
  obtain ⟨-, -, -, -, h5⟩ := knn_book (β := β) inv P cs
  have hs : s = (calls (KnnCad.detector inv) (KnnCad.new P) cs).2 := rfl
  have := h5 hne
  rw [← hs] at this
  simp only [KnnCad.detector, KnnCad.scorePartial, this]

/-- **C61.** Every score ever returned lies in `[0, 1]`. -/
theorem C61_knncad_range (P : ℕ) (cs : List (Call (List K) β)) (v : K)
    (hv : Answer.value v ∈ (calls (KnnCad.detector inv) (KnnCad.new P) cs).1) : 0 ≤ v ∧ v ≤ 1 := by
  have hscore : ∀ (s : KnnCadState K) (v : K), (KnnCad.scorePartial s).out = .ok v → 0 ≤ v ∧ v ≤ 1 := by
    intro s v h
    have hr : ∀ u : K, 0 ≤ ((s.scores.filter fun c => c < u).length : K) / (s.scores.length : K) ∧
        ((s.scores.filter fun c => c < u).length : K) / (s.scores.length : K) ≤ 1 := by
      intro u
      refine ⟨by positivity, div_le_one_of_le₀ ?_ (by positivity)⟩
      exact_mod_cast List.length_filter_le _ _
    unfold KnnCad.scorePartial at h
    split at h
    · simp at h
    · split at h
      · simp only [Res.out_ok, Except.ok.injEq] at h
        subst h
        exact ⟨le_rfl, zero_le_one⟩
      · split at h
        · simp at h
        · simp only at h
          split at h
          · simp at h
          · split at h
            · simp only [Res.out_ok, Except.ok.injEq] at h
              subst h
              constructor <;> norm_num
            · split at h <;> simp only [Res.out_ok, Except.ok.injEq] at h <;> subst h <;> exact hr _
  generalize KnnCad.new P = s at hv
  induction cs generalizing s with
  | nil => simp [calls] at hv
  | cons c cs ih =>
    simp only [calls, List.mem_cons] at hv
    rcases hv with hv | hv
    · cases c with
      | fit x y =>
        simp only [call] at hv
        split at hv <;> simp at hv
      | score x =>
        simp only [call, KnnCad.detector] at hv
        split at hv
        · rename_i w t hw
          simp only [Answer.value.injEq] at hv
          subst hv
          exact hscore s v (by rw [hw]; rfl)
        · simp at hv
    · exact ih _ hv

/-! ### C62, C63 -/

theorem segment_append (X : List K) (v : K) (j : ℕ) (hj : j ≤ X.length) :
    segment (X ++ [v]) j = segment X j := by
  unfold segment
  rw [List.take_append_of_le_length hj]

theorem segments_append (X : List K) (v : K) (a b : ℕ) (hb : b ≤ X.length) :
    segments (X ++ [v]) a b = segments X a b := by
  unfold segments
  apply List.map_congr_left
  intro j hj
  rw [List.mem_range'_1] at hj
  exact segment_append X v j (by omega)

theorem newItem_eq (X : List K) : KnnCad.newItem X = segment X X.length := by
  simp [KnnCad.newItem, segment, KnnCad.dim]

theorem segments_snoc (X : List K) (a b : ℕ) (h : a ≤ b + 1) :
    segments X a b ++ [segment X (b + 1)] = segments X a (b + 1) := by
  unfold segments
  have : b + 1 + 1 - a = (b + 1 - a) + 1 := by omega
  rw [this, List.range'_concat, List.map_append]
  have e : a + 1 * (b + 1 - a) = b + 1 := by omega
  rw [e, List.map_cons, List.map_nil]

theorem segments_cons (X : List K) (a b : ℕ) (h : a ≤ b) :
    segments X a b = segment X a :: segments X (a + 1) b := by
  unfold segments
  have : b + 1 - a = (b + 1 - (a + 1)) + 1 := by omega
  rw [this, List.range'_succ, List.map_cons]

theorem segments_nil (X : List K) (a b : ℕ) (h : b < a) : segments X a b = [] := by
  unfold segments
  have : b + 1 - a = 0 := by omega
  rw [this]; rfl

theorem segments_length (X : List K) (a b : ℕ) : (segments X a b).length = b + 1 - a := by
  simp [segments]

/-- Distances can be ranked if there are enough training items. -/
theorem ncm_ok (sigma : List (List K)) (training : List (List K)) (item : List K) (b : Bool)
    (h : 29 ≤ training.length) : ∃ v, KnnCad.ncm sigma training item b = .ok v := by
  unfold KnnCad.ncm
  simp only
  rw [if_pos]
  · exact ⟨_, rfl⟩
  · rw [List.length_map, KnnCad.k]
    cases b <;> simp <;> omega

theorem ncmAll_ok (sigma : List (List K)) (training : List (List K)) (h : 29 ≤ training.length) :
    ∃ l, KnnCad.ncmAll sigma training = .ok l ∧ l.length = training.length := by
  have key : ∀ tr : List (List K), ∃ l, (tr.mapM fun v => KnnCad.ncm sigma training v true)
      = .ok l ∧ l.length = tr.length := by
    intro tr
    induction tr with
    | nil => exact ⟨[], rfl, rfl⟩
    | cons t tr ih =>
      obtain ⟨l, hl, hlen⟩ := ih
      obtain ⟨v, hv⟩ := ncm_ok sigma training t true h
      refine ⟨v :: l, ?_, by simp [hlen]⟩
      rw [List.mapM_cons, hl, hv]
      rfl
  exact key training

/-- The state of the training and calibration sets after the stream `X`. -/
def KnnInv (P : ℕ) (X : List K) (s : KnnCadState K) : Prop :=
  s.buf = X ∧ s.recordCount = X.length ∧ s.probationaryPeriod = P ∧
  (X.length < P → s.training = segments X 19 X.length ∧ s.calibration = [] ∧ s.scores = []) ∧
  (P ≤ X.length → s.training = segments X (19 + (X.length + 1 - 2 * P)) (P - 1 + (X.length + 1 - 2 * P)) ∧
    s.calibration = segments X (P + (X.length + 1 - 2 * P)) X.length ∧ s.scores.length = P - 19)

theorem rotate_ok (s : KnnCadState K) (item : List K) (v : K) (hs : s.scores ≠ [])
    (h : 2 * s.probationaryPeriod ≤ s.recordCount → s.training ≠ [] ∧ s.calibration ≠ []) :
    KnnCad.rotate s item v = .ok () { s with
      scores := s.scores.tail ++ [v],
      training := if 2 * s.probationaryPeriod ≤ s.recordCount then
        s.training.tail ++ s.calibration.head?.toList else s.training,
      calibration := (if 2 * s.probationaryPeriod ≤ s.recordCount then
        s.calibration.tail else s.calibration) ++ [item] } := by
  obtain ⟨buf, training, calibration, scores, count, pred, sigma, period⟩ := s
  unfold KnnCad.rotate
  simp only at hs h ⊢
  by_cases hc : 2 * period ≤ count
  · obtain ⟨h1, h2⟩ := h hc
    rw [if_pos hc, if_pos hc, if_pos hc]
    cases training with
    | nil => exact absurd rfl h1
    | cons t tr =>
      cases calibration with
      | nil => exact absurd rfl h2
      | cons c cal =>
        cases scores with
        | nil => exact absurd rfl hs
        | cons a sc => rfl
  · rw [if_neg hc, if_neg hc, if_neg hc]
    cases scores with
    | nil => exact absurd rfl hs
    | cons a sc => rfl

theorem knn_fit (P : ℕ) (hP : 48 ≤ P) (X : List K) (s : KnnCadState K) (h : KnnInv P X s)
    (v : K) (t : List K) :
    ∃ s', KnnCad.fitPartial inv s (v :: t) = .ok () s' ∧ KnnInv P (X ++ [v]) s' := by
  obtain ⟨h1, h2, h3, h4, h5⟩ := h
  have hlen : (X ++ [v]).length = X.length + 1 := by simp
  unfold KnnCad.fitPartial
  simp only [h1, h2, h3, hlen, KnnCad.dim]
  by_cases c1 : X.length + 1 < 19
  · rw [if_pos c1]
    obtain ⟨g1, g2, g3⟩ := h4 (by omega)
    refine ⟨_, rfl, rfl, hlen.symm, rfl, fun _ => ⟨?_, g2, g3⟩, fun h => by omega⟩
    simp only [g1, hlen]
    rw [segments_nil _ _ _ (by omega), segments_nil _ _ _ (by omega)]
  · rw [if_neg c1]
    by_cases c2 : X.length + 1 < P
    · rw [if_pos c2]
      obtain ⟨g1, g2, g3⟩ := h4 (by omega)
      refine ⟨_, rfl, rfl, hlen.symm, rfl, fun _ => ⟨?_, g2, g3⟩, fun h => by omega⟩
      simp only [g1]
      rw [newItem_eq, hlen, ← segments_append X v 19 X.length le_rfl, segments_snoc _ _ _ (by omega)]
    · rw [if_neg c2]
      unfold KnnCad.monitor
      simp only
      rw [if_neg (by omega)]
      -- the training set is large enough
      have htr : s.training = segments X (19 + (X.length + 1 - 2 * P)) (P - 1 + (X.length + 1 - 2 * P)) := by
        rcases Nat.lt_or_ge X.length P with hlt | hge
        · rw [(h4 hlt).1]
          have e1 : X.length = P - 1 := by omega
          have e2 : X.length + 1 - 2 * P = 0 := by omega
          rw [e2, e1]; rfl
        · exact (h5 hge).1
      have hcal : s.calibration = segments X (P + (X.length + 1 - 2 * P)) X.length := by
        rcases Nat.lt_or_ge X.length P with hlt | hge
        · rw [(h4 hlt).2.1, segments_nil _ _ _ (by omega)]
        · exact (h5 hge).2.1
      have htl : s.training.length = P - 19 := by
        rw [htr, segments_length]; omega
      generalize KnnCad.newSigma inv _ _ = sg
      -- scores
      have hsc : ∃ sc, KnnCad.initScores { s with
          sigma := some sg, buf := X ++ [v], recordCount := X.length + 1, probationaryPeriod := P } sg
            = .ok sc ∧ sc.length = P - 19 := by
        unfold KnnCad.initScores
        simp only
        rcases Nat.lt_or_ge X.length P with hlt | hge
        · rw [(h4 hlt).2.2]
          obtain ⟨l, hl, hl'⟩ := ncmAll_ok sg s.training (by omega)
          exact ⟨l, by simpa using hl, by rw [hl', htl]⟩
        · have := (h5 hge).2.2
          rw [if_neg (by omega)]
          exact ⟨_, rfl, this⟩
      obtain ⟨sc, hsc1, hsc2⟩ := hsc
      obtain ⟨u, hu⟩ := ncm_ok sg s.training (KnnCad.newItem (X ++ [v])) false (by omega)
      simp only [hsc1, hu]
      have hne : sc ≠ [] := by rintro rfl; simp at hsc2; omega
      rw [rotate_ok _ _ _ hne]
      · refine ⟨_, rfl, rfl, hlen.symm, rfl, fun h => by omega, fun _ => ?_⟩
        simp only [hlen]
        refine ⟨?_, ?_, ?_⟩
        · by_cases c3 : 2 * P ≤ X.length + 1
          · rw [if_pos c3, htr, hcal,
              segments_cons X (19 + (X.length + 1 - 2 * P)) _ (by omega),
              segments_cons X (P + (X.length + 1 - 2 * P)) _ (by omega)]
            simp only [List.tail_cons, List.head?_cons, Option.toList_some]
            have e1 : P + (X.length + 1 - 2 * P) = (P - 1 + (X.length + 1 - 2 * P)) + 1 := by omega
            rw [e1, segments_snoc _ _ _ (by omega), segments_append _ _ _ _ (by omega)]
            congr 1 <;> omega
          · rw [if_neg c3, htr, segments_append _ _ _ _ (by omega)]
            congr 1 <;> omega
        · have hit : KnnCad.newItem (X ++ [v]) = segment (X ++ [v]) (X.length + 1) := by
            rw [newItem_eq, hlen]
          rw [hit]
          by_cases c3 : 2 * P ≤ X.length + 1
          · rw [if_pos c3, hcal, segments_cons X (P + (X.length + 1 - 2 * P)) _ (by omega)]
            simp only [List.tail_cons]
            rw [← segments_append X v _ _ le_rfl, segments_snoc _ _ _ (by omega)]
            congr 1; omega
          · rw [if_neg c3, hcal, ← segments_append X v _ _ le_rfl, segments_snoc _ _ _ (by omega)]
            congr 1; omega
        · simp only [List.length_append, List.length_tail, hsc2, List.length_singleton]; omega
      · intro hc
        constructor
        · intro h0; rw [h0] at htl; simp at htl; omega
        · intro h0
          have := congrArg List.length h0
          rw [hcal, segments_length, List.length_nil] at this
          simp only at hc
          omega

theorem knn_inv (P : ℕ) (hP : 48 ≤ P) (cs : List (Call (List K) β)) :
    KnnInv P (firstValues cs) (calls (KnnCad.detector inv) (KnnCad.new P) cs).2 := by
  refine calls_inv (d := KnnCad.detector (β := β) inv)
    (P := fun cs (s : KnnCadState K) => KnnInv P (firstValues cs) s) ?_ _ ?_ cs
  · intro cs s c h
    rw [firstValues_append]
    cases c with
    | fit x y =>
      rw [KnnCad.call_fit_state, firstValues_fit]
      cases x with
      | nil =>
        simp only [List.head?_nil, Option.toList_none, List.append_nil]
        exact h
      | cons v x =>
        obtain ⟨s', h1, h2⟩ := knn_fit inv P hP _ s h v x
        rw [h1]; exact h2
    | score x =>
      rw [KnnCad.call_score_state]
      obtain ⟨p, hp⟩ := KnnCad.score_state s
      rw [hp]
      have e1 : firstValues [(Call.score x : Call (List K) β)] = [] := rfl
      rw [e1, List.append_nil]
      exact h
  · refine ⟨rfl, rfl, rfl, fun _ => ⟨by rw [segments_nil _ _ _ (by simp [firstValues, fitted])]; rfl, rfl, rfl⟩, ?_⟩
    intro h
    simp [firstValues, fitted] at h
    omega

/-- **C62.** For `P ≥ 48`, after `n ≥ 2P` fits the training set is the `P - 19` segments
ending at records `n - 2P + 20, …, n - P`, the calibration set the `P` most recent ones,
and there are as many scores as training items. -/
theorem C62_knncad_training (P : ℕ) (hP : 48 ≤ P) (cs : List (Call (List K) β))
    (hn : 2 * P ≤ (firstValues cs).length) :
    let s := (calls (KnnCad.detector inv) (KnnCad.new P) cs).2
    let X := firstValues cs
    s.training = segments X (X.length - 2 * P + 20) (X.length - P) ∧
    s.calibration = segments X (X.length - P + 1) X.length ∧
    s.training.length = P - 19 ∧ s.calibration.length = P ∧ s.scores.length = s.training.length := by
  intro s X
  obtain ⟨-, -, -, -, h5⟩ := knn_inv (β := β) inv P hP cs
  obtain ⟨h1, h2, h3⟩ := h5 (by omega)
  have hXX : X = firstValues cs := rfl
  rw [← hXX] at h1 h2 hn
  have e1 : s.training = segments X (X.length - 2 * P + 20) (X.length - P) := by
    rw [show s.training = _ from h1]
    congr 1 <;> omega
  have e2 : s.calibration = segments X (X.length - P + 1) X.length := by
    rw [show s.calibration = _ from h2]
    congr 1; omega
  have hX : 2 * P ≤ X.length := hn
  refine ⟨e1, e2, ?_, ?_, ?_⟩
  · rw [e1, segments_length]; omega
  · rw [e2, segments_length]; omega
  · rw [show s.scores.length = _ from h3, e1, segments_length]; omega

/-- **C62.** Between `P` and `2P` fits the training set is that of the probationary
period, and the calibration set everything since. -/
theorem C62_knncad_training_first (P : ℕ) (hP : 48 ≤ P) (cs : List (Call (List K) β))
    (hn : P ≤ (firstValues cs).length) (hn2 : (firstValues cs).length < 2 * P) :
    let s := (calls (KnnCad.detector inv) (KnnCad.new P) cs).2
    let X := firstValues cs
    s.training = segments X 19 (P - 1) ∧ s.calibration = segments X P X.length ∧
    s.scores.length = P - 19 := by
  intro s X
  obtain ⟨-, -, -, -, h5⟩ := knn_inv (β := β) inv P hP cs
  obtain ⟨h1, h2, h3⟩ := h5 hn
  refine ⟨?_, ?_, h3⟩
  · rw [show s.training = _ from h1]
    congr 1 <;> omega
  · rw [show s.calibration = _ from h2]
    congr 1; omega

/-- **C63, as one would expect it**: for every positive period, no fit raises. -/
def C63_knncad_period_statement : Prop :=
  ∀ (inv : List (List ℚ) → Option (List (List ℚ))) (P : ℕ), 1 ≤ P → ∀ X : List ℚ,
    ∀ a ∈ (calls (KnnCad.detector (β := Unit) inv) (KnnCad.new P)
      (X.map fun x => .fit [x] none)).1, a = .done

/-- **C63 (partial).** For every period `P ≥ 48` no fit of a value ever raises, and no
score does once something was fitted. -/
theorem C63_knncad_period_partial (P : ℕ) (hP : 48 ≤ P) (cs : List (Call (List K) β))
    (v : K) (t : List K) (y : Option β) :
    let s := (calls (KnnCad.detector inv) (KnnCad.new P) cs).2
    ((KnnCad.detector (β := β) inv).fitPartial s (v :: t) y).out = .ok () ∧
    (fitted cs ≠ [] → ∀ x, ∃ u, ((KnnCad.detector (β := β) inv).scorePartial s x).out = .ok u) := by
  intro s
  have hinv := knn_inv (β := β) inv P hP cs
  constructor
  · obtain ⟨s', h1, -⟩ := knn_fit inv P hP _ _ hinv v t
    show (KnnCad.fitPartial inv s (v :: t)).out = _
    rw [show KnnCad.fitPartial inv s (v :: t) = _ from h1]
    rfl
  · intro hne x
    obtain ⟨h1, h2, h3, h4, h5⟩ := hinv
    obtain ⟨-, -, -, hsg, -⟩ := knn_book (β := β) inv P cs
    obtain ⟨sg, hsg⟩ := Option.isSome_iff_exists.1 (hsg hne)
    have hs : s = (calls (KnnCad.detector inv) (KnnCad.new P) cs).2 := rfl
    rw [← hs] at h1 h2 h3 h4 h5 hsg
    show ∃ u, (KnnCad.scorePartial s).out = .ok u
    unfold KnnCad.scorePartial
    simp only [hsg, h1, h2, h3, KnnCad.dim]
    split
    · exact ⟨_, rfl⟩
    · rename_i hc
      obtain ⟨g1, -, g3⟩ := h5 (by omega)
      obtain ⟨u, hu⟩ := ncm_ok sg s.training (KnnCad.newItem (firstValues cs)) false
        (by rw [g1, segments_length]; omega)
      simp only [hu]
      rw [if_neg (by omega)]
      split
      · exact ⟨_, rfl⟩
      · split <;> exact ⟨_, rfl⟩

end

section
variable {K β : Type*} [Field K] [LinearOrder K] (inv : List (List K) → Option (List (List K)))

/-- The state before the end of a short probationary period. -/
theorem knn_short (P : ℕ) (hP : P < 48) (X : List K) (hX : X.length < max P 19) :
    let s := (calls (KnnCad.detector (β := β) inv) (KnnCad.new P) (X.map fun x => .fit [x] none)).2
    s.buf = X ∧ s.recordCount = X.length ∧ s.probationaryPeriod = P ∧
      s.training.length = X.length - 18 ∧ s.scores = [] := by
  induction X using List.reverseRecOn with
  | nil => simp [calls, KnnCad.new]
  | append_singleton X v ih =>
    have hX' : X.length < max P 19 := by simp at hX; omega
    obtain ⟨h1, h2, h3, h4, h5⟩ := ih hX'
    simp only [List.map_append, List.map_cons, List.map_nil, calls_snoc, KnnCad.call_fit_state]
    unfold KnnCad.fitPartial
    simp only [h1, h2, h3, KnnCad.dim, List.length_append, List.length_singleton] at hX ⊢
    by_cases c1 : X.length + 1 < 19
    · rw [if_pos c1]
      exact ⟨rfl, rfl, rfl, by simp only [Res.state_ok, h4]; omega, h5⟩
    · rw [if_neg c1, if_pos (by omega)]
      refine ⟨rfl, rfl, rfl, ?_, h5⟩
      simp only [Res.state_ok, List.length_append, h4, List.length_singleton]
      omega

/-- **C63 (partial), the failing configurations.** For every period `1 ≤ P < 48` and every
stream, the fit of record number `max P 19` raises `ValueError`. -/
theorem C63_knncad_short_period_partial (P : ℕ) (hP1 : 1 ≤ P) (hP : P < 48) (X : List K)
    (hX : X.length + 1 = max P 19) (v : K) :
    let s := (calls (KnnCad.detector (β := β) inv) (KnnCad.new P) (X.map fun x => .fit [x] none)).2
    ((KnnCad.detector (β := β) inv).fitPartial s [v] none).out = .error .valueError := by
  intro s
  obtain ⟨h1, h2, h3, h4, h5⟩ := knn_short (β := β) inv P hP X (by omega)
  have hs : s = (calls (KnnCad.detector (β := β) inv) (KnnCad.new P) (X.map fun x => .fit [x] none)).2 :=
    rfl
  rw [← hs] at h1 h2 h3 h4 h5
  show (KnnCad.fitPartial inv s [v]).out = _
  unfold KnnCad.fitPartial
  simp only [h1, h2, h3, KnnCad.dim, List.length_append, List.length_singleton]
  rw [if_neg (by omega), if_neg (by omega)]
  unfold KnnCad.monitor
  simp only
  rw [if_neg (by omega)]
  generalize KnnCad.newSigma inv _ _ = sg
  have hncm : ∀ item b, s.training.length < 29 → (b = true ∨ s.training = []) →
      KnnCad.ncm sg s.training item b = .error .valueError := by
    intro item b hl hb
    unfold KnnCad.ncm
    simp only [List.length_map, KnnCad.k]
    rw [if_neg]
    rcases hb with rfl | hb
    · simp; omega
    · simp [hb]
  have hl : s.training.length < 29 := by omega
  have hi : KnnCad.initScores { s with sigma := some sg, buf := X ++ [v], recordCount := X.length + 1, probationaryPeriod := P } sg
      = KnnCad.ncmAll sg s.training := by
    simp [KnnCad.initScores, h5]
  simp only [hi]
  rcases htr : s.training with _ | ⟨t, tr⟩
  · have : KnnCad.ncmAll sg ([] : List (List K)) = .ok [] := rfl
    have h0 := hncm (KnnCad.newItem (X ++ [v])) false hl (Or.inr htr)
    rw [htr] at h0
    simp only [this, h0]
    rfl
  · have : KnnCad.ncmAll sg (t :: tr) = .error .valueError := by
      unfold KnnCad.ncmAll
      have h0 := hncm t true hl (Or.inl rfl)
      rw [htr] at h0
      rw [List.mapM_cons, h0]
      rfl
    simp only [this]
    rfl

/-- **C63 is false**: the shorter periods. -/
theorem C63_knncad_period_refuted : ¬ C63_knncad_period_statement := by
  intro h
  have h1 := C63_knncad_short_period_partial (β := Unit) (fun _ => none) 20 (by norm_num) (by norm_num)
    (List.replicate 19 (0 : ℚ)) (by simp) 0
  simp only at h1
  have h2 := h (fun _ => none) 20 (by norm_num) (List.replicate 19 (0 : ℚ) ++ [0])
  rw [List.map_append, calls_append] at h2
  have h3 := h2 (.raised .valueError) ?_
  · simp at h3
  · simp only [List.map_cons, List.map_nil, calls, call, List.mem_append, List.mem_singleton]
    right
    split
    · rename_i heq
      rw [heq] at h1; simp at h1
    · rename_i heq
      rw [heq] at h1
      simp at h1
      simp [h1]

end

/-! ### C64 -/

section
variable {K β : Type*} [Field K] [LinearOrder K] [IsStrictOrderedRing K]
  (inv : List (List K) → Option (List (List K)))

/-- A score returned in the state `s`: in the cool-down it is 1/2 and the countdown goes on;
otherwise it is the fraction of the kept scores below the item's, and an alarm starts the
countdown. -/
theorem knn_score_cases (s : KnnCadState K) (v : K) (t : KnnCadState K)
    (h : KnnCad.scorePartial s = .ok v t) (hready : 19 ≤ s.buf.length ∧ s.probationaryPeriod ≤ s.recordCount) :
    (0 < s.pred ∧ v = 1 / 2 ∧ t = { s with pred := s.pred - 1 }) ∨
    (s.pred ≤ 0 ∧ 9965 / 10000 ≤ v ∧ t = { s with pred := (s.probationaryPeriod / 5 : ℕ) }) ∨
    (s.pred ≤ 0 ∧ v < 9965 / 10000 ∧ t = s) := by
  unfold KnnCad.scorePartial at h
  split at h
  · simp at h
  · simp only [KnnCad.dim] at h
    rw [if_neg (by omega)] at h
    split at h
    · simp at h
    · split at h
      · simp at h
      · split at h
        · rename_i hp
          simp only [Res.ok.injEq] at h
          exact Or.inl ⟨hp, h.1.symm, h.2.symm⟩
        · rename_i hp
          split at h
          · rename_i hr
            simp only [Res.ok.injEq] at h
            refine Or.inr (Or.inl ⟨by omega, ?_, h.2.symm⟩)
            rw [← h.1]; exact hr
          · rename_i hr
            simp only [Res.ok.injEq] at h
            refine Or.inr (Or.inr ⟨by omega, ?_, h.2.symm⟩)
            rw [← h.1]; exact not_le.1 hr

theorem knn_fit_pred (P : ℕ) (s : KnnCadState K) (hP : s.probationaryPeriod = P)
    (hr : 19 ≤ s.buf.length ∧ P ≤ s.recordCount) (x : List K) :
    let t := (KnnCad.fitPartial inv s x).state
    t.pred = s.pred ∧ t.probationaryPeriod = P ∧ 19 ≤ t.buf.length ∧ P ≤ t.recordCount := by
  obtain ⟨h1, h2, h3, h4, -⟩ := KnnCad.fit_book inv s x
  exact ⟨h4, by rw [h3, hP], by rw [h1, List.length_append]; omega, by rw [h2]; omega⟩

/-- In the cool-down, the next scores that are returned are 1/2. -/
theorem knn_cool (P : ℕ) (ds : List (Call (List K) β)) (s : KnnCadState K)
    (hP : s.probationaryPeriod = P) (hr : 19 ≤ s.buf.length ∧ P ≤ s.recordCount) (k : ℕ)
    (hk : s.pred = k)
    (hval : ∀ a ∈ scoreAnswers ds (calls (KnnCad.detector inv) s ds).1, ∃ v, a = .value v) :
    ∀ a ∈ (scoreAnswers ds (calls (KnnCad.detector inv) s ds).1).take k, a = .value (1 / 2) := by
  induction ds generalizing s k with
  | nil => intro a ha; simp [scoreAnswers] at ha
  | cons c ds ih =>
    cases c with
    | fit x y =>
      obtain ⟨h1, h2, h3, h4⟩ := knn_fit_pred inv P s hP hr x
      have he : (call (KnnCad.detector inv) s (Call.fit x y)).2 = (KnnCad.fitPartial inv s x).state :=
        KnnCad.call_fit_state inv s x y
      simp only [calls, scoreAnswers] at hval ⊢
      rw [he] at hval ⊢
      exact ih _ h2 ⟨h3, h4⟩ k (by rw [h1, hk]) hval
    | score x =>
      simp only [calls, scoreAnswers, List.mem_cons, forall_eq_or_imp] at hval
      obtain ⟨⟨v, hv⟩, hval⟩ := hval
      cases k with
      | zero => intro a ha; simp at ha
      | succ k =>
        have hsc : ∃ t, KnnCad.scorePartial s = .ok v t := by
          simp only [call, KnnCad.detector] at hv
          cases hx : KnnCad.scorePartial s with
          | ok w t => rw [hx] at hv; simp at hv; exact ⟨t, by rw [hv]⟩
          | err e t => rw [hx] at hv; simp at hv
        obtain ⟨t, ht⟩ := hsc
        have hstate : (call (KnnCad.detector (β := β) inv) s (Call.score x)).2 = t := by
          rw [KnnCad.call_score_state, ht]; rfl
        rcases knn_score_cases s v t ht ⟨hr.1, by rw [hP]; exact hr.2⟩ with h | h | h
        · obtain ⟨-, hv2, ht2⟩ := h
          simp only [calls, scoreAnswers, List.take_succ_cons, List.mem_cons, forall_eq_or_imp]
          refine ⟨by rw [hv, hv2], ?_⟩
          rw [hstate] at hval ⊢
          exact ih t (by rw [ht2]; exact hP) (by rw [ht2]; exact hr) k
            (by rw [ht2]; simp only [hk]; push_cast; ring) hval
        · exact absurd h.1 (by rw [hk]; push_cast; omega)
        · exact absurd h.1 (by rw [hk]; push_cast; omega)

/-- **C64.** After an alarm — a score of at least 0.9965 — the next `⌊P/5⌋` scores are
1/2, whatever is fitted in between. (`P ≥ 48`, so that no score raises.) -/
theorem C64_knncad_cooldown (P : ℕ) (hP : 48 ≤ P) (cs ds : List (Call (List K) β)) (x : List K)
    (v : K) (hv : 9965 / 10000 ≤ v)
    (halarm : (call (KnnCad.detector inv) (calls (KnnCad.detector inv) (KnnCad.new P) cs).2
      (Call.score x : Call (List K) β)).1 = .value v) :
    ∀ a ∈ (scoreAnswers ds (calls (KnnCad.detector inv)
        (calls (KnnCad.detector inv) (KnnCad.new P) (cs ++ [.score x])).2 ds).1).take (P / 5),
      a = .value (1 / 2) := by
  set s := (calls (KnnCad.detector (β := β) inv) (KnnCad.new P) cs).2 with hs
  obtain ⟨h1, h2, h3, h4, h5⟩ := knn_book (β := β) inv P cs
  rw [← hs] at h1 h2 h3 h4 h5
  -- something was fitted, or the score would have raised
  have hne : fitted cs ≠ [] := by
    intro h0
    have := h5 h0
    simp [call, KnnCad.detector, KnnCad.scorePartial, this] at halarm
  have hsc : ∃ t, KnnCad.scorePartial s = .ok v t := by
    simp only [call, KnnCad.detector] at halarm
    cases hx : KnnCad.scorePartial s with
    | ok w t => rw [hx] at halarm; simp at halarm; exact ⟨t, by rw [halarm]⟩
    | err e t => rw [hx] at halarm; simp at halarm
  obtain ⟨t, ht⟩ := hsc
  have hready : 19 ≤ s.buf.length ∧ s.probationaryPeriod ≤ s.recordCount := by
    by_contra hcon
    obtain ⟨sg, hsg⟩ := Option.isSome_iff_exists.1 (h4 hne)
    unfold KnnCad.scorePartial at ht
    simp only [hsg, KnnCad.dim] at ht
    rw [if_pos (by omega)] at ht
    simp only [Res.ok.injEq] at ht
    rw [← ht.1] at hv
    norm_num at hv
  have ht2 : t = { s with pred := (s.probationaryPeriod / 5 : ℕ) } := by
    rcases knn_score_cases s v t ht hready with h | h | h
    · rw [h.2.1] at hv; norm_num at hv
    · exact h.2.2
    · exact absurd hv (not_le.2 h.2.1)
  have hst : (calls (KnnCad.detector (β := β) inv) (KnnCad.new P) (cs ++ [.score x])).2 = t := by
    rw [calls_snoc, ← hs, KnnCad.call_score_state, ht]; rfl
  have hreach : ∀ ds, ∀ a ∈ scoreAnswers ds (calls (KnnCad.detector (β := β) inv) t ds).1,
      ∃ v, a = .value v := by
    intro ds
    have hval : ∀ (ds cs' : List (Call (List K) β)), fitted cs' ≠ [] →
        ∀ a ∈ scoreAnswers ds (calls (KnnCad.detector (β := β) inv)
          (calls (KnnCad.detector (β := β) inv) (KnnCad.new P) cs').2 ds).1, ∃ v, a = .value v := by
      intro ds
      induction ds with
      | nil => intro cs' _ a ha; simp [scoreAnswers] at ha
      | cons c ds ih =>
        intro cs' hne' a ha
        have hne2 : fitted (cs' ++ [c]) ≠ [] := by
          rw [fitted_append]; simp [hne']
        have hstep := ih (cs' ++ [c]) hne2
        rw [calls_snoc] at hstep
        cases c with
        | fit z y => exact hstep a ha
        | score z =>
          simp only [calls, scoreAnswers, List.mem_cons] at ha
          rcases ha with rfl | ha
          · obtain ⟨u, hu⟩ := (C63_knncad_period_partial (β := β) inv P hP cs' 0 [] none).2 hne' z
            simp only [call]
            split
            · exact ⟨_, rfl⟩
            · rename_i heq
              rw [heq] at hu; simp at hu
          · exact hstep a ha
    have := hval ds (cs ++ [.score x]) (by rw [fitted_append]; simp [hne])
    rw [hst] at this
    exact this
  rw [hst]
  exact knn_cool inv P ds t (by rw [ht2]; exact h3) (by rw [ht2, ← h3]; exact hready) (P / 5)
    (by rw [ht2]; simp [h3]) (hreach ds)

end

end Pysad
