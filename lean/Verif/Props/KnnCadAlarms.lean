import Verif.Props.KnnCadExample

/-! How often `KNNCAD` raises an alarm, and when it can. -/

namespace Pysad

open Spec

namespace Spec

variable {K : Type*} [Field K] [LinearOrder K]

open Classical in
/-- The number of alarms among some answers. -/
noncomputable def alarms (as : List (Answer K)) : ℕ := as.countP fun a => decide (isAlarm a)

end Spec

section

variable {K : Type*} [Field K] [LinearOrder K] [IsStrictOrderedRing K] {β : Type*}
variable (inv : List (List K) → Option (List (List K)))

namespace KnnAlarms

/-- No alarm has another one among the `k` answers before it. -/
def Sparse (k : ℕ) (as : List (Answer K)) : Prop :=
  ∀ l x r, as = l ++ x :: r → isAlarm x → ∀ y ∈ lastN k l, ¬ isAlarm y

theorem sparse (P : ℕ) (hP : 48 ≤ P) (cs : List (Call (List K) β)) :
    Sparse (P / 5) (scoreAnswers cs (calls (KnnCad.detector inv) (KnnCad.new P) cs).1) := by
  induction cs using List.reverseRecOn with
  | nil => intro l x r h; simp [scoreAnswers] at h
  | append_singleton cs c ih =>
    have hlen := calls_length (d := KnnCad.detector (β := β) inv) (KnnCad.new P) cs
    have h92 := C92_knncad_score (β := β) inv P hP cs
    have hpre := (knn_cooling (β := β) inv P hP cs)
    have hbook := knn_book (β := β) inv P cs
    rw [calls_append]
    simp only [calls]
    rw [scoreAnswers_snoc _ _ hlen]
    intro l x r h hx y hy
    cases c with
    | fit a b =>
      simp only [Call.isScore, Bool.false_eq_true, if_false, List.append_nil] at h
      exact ih l x r h hx y hy
    | score a =>
      simp only [Call.isScore, if_true] at h
      rcases List.eq_nil_or_concat r with rfl | ⟨r, z, rfl⟩
      · obtain ⟨rfl, h2⟩ := List.append_inj' h rfl
        simp only [List.cons.injEq, and_true] at h2
        intro hya
        by_cases hn : P ≤ (firstValues cs).length
        · have := (h92 hn a).1 ⟨y, hy, hya⟩
          rw [← h2] at hx
          simp only [call] at hx
          generalize (KnnCad.detector (β := β) inv).scorePartial _ a = q at this hx
          cases q with
          | ok v s =>
            simp only [Res.out_ok, Except.ok.injEq] at this
            subst this
            simp only [isAlarm] at hx
            norm_num at hx
          | err e s => simp at this
        · rcases hpre with ⟨-, g⟩ | ⟨g, -⟩
          · exact g y hy hya
          · exact hn g
      · rw [List.concat_eq_append, ← List.cons_append, ← List.append_assoc] at h
        obtain ⟨h1, -⟩ := List.append_inj' h rfl
        exact ih l x r h1 hx y hy

omit [IsStrictOrderedRing K] in
theorem Sparse.sublist {k : ℕ} {as l w r : List (Answer K)} (h : Sparse k as) (hs : as = l ++ w ++ r) :
    Sparse k w := by
  intro a x b hab hx y hy
  refine h (l ++ a) x (b ++ r) (by rw [hs, hab]; simp) hx y ?_
  unfold lastN at hy ⊢
  rw [List.drop_append]
  refine List.mem_append_right _ ?_
  rw [List.length_append]
  refine (List.drop_subset_drop_left _ ?_) hy
  omega

omit [IsStrictOrderedRing K] in
theorem Sparse.count {k : ℕ} : ∀ (n : ℕ) (w : List (Answer K)), w.length = n → Sparse k w →
    alarms w * (k + 1) ≤ w.length + k := by
  intro n
  induction n using Nat.strong_induction_on with
  | _ n ih =>
    intro w hn h
    rcases List.eq_nil_or_concat w with rfl | ⟨l, x, rfl⟩
    · simp [alarms]
    · rw [List.concat_eq_append] at *
      have hl : Sparse k l := h.sublist (l := []) (r := [x]) (by simp)
      by_cases hx : isAlarm x
      · have hq : alarms (lastN k l) = 0 := by
          unfold alarms
          rw [List.countP_eq_zero]
          intro a ha
          simpa using h l x [] rfl hx a ha
        have hsp : l = l.take (l.length - k) ++ lastN k l := (List.take_append_drop _ _).symm
        have hc : alarms (l ++ [x]) = alarms (l.take (l.length - k)) + 1 := by
          have h1 : alarms (l ++ [x]) = alarms l + 1 := by
            simp [alarms, List.countP_append, hx]
          have h2 : alarms l = alarms (l.take (l.length - k)) + alarms (lastN k l) := by
            conv_lhs => rw [hsp]
            exact List.countP_append
          omega
        have hr := ih (l.take (l.length - k)).length (by
          rw [← hn, List.length_take, List.length_append, List.length_singleton]; omega) _ rfl
          (hl.sublist (l := []) (r := lastN k l) (by simpa using hsp))
        rw [hc, Nat.add_mul, List.length_append, List.length_singleton]
        rw [List.length_take] at hr
        by_cases hk : k ≤ l.length
        · omega
        · have : l.take (l.length - k) = [] := by
            rw [Nat.sub_eq_zero_of_le (by omega)]; rfl
          rw [this]
          simp [alarms]
          omega
      · have hc : alarms (l ++ [x]) = alarms l := by
          simp [alarms, List.countP_append, hx]
        have hr := ih l.length (by rw [← hn]; simp) l rfl hl
        rw [hc, List.length_append]
        omega

theorem reference_length (P : ℕ) (hP : 48 ≤ P) (X : List K) (hn : P ≤ X.length) :
    (referenceScores inv P X X.length).length = P - 19 := by
  unfold referenceScores
  rw [lastN_length, List.length_append, List.length_map, List.length_map, List.length_range']
  unfold trainingAt
  rw [if_pos (by omega), segments_length]
  omega

omit [IsStrictOrderedRing K] in
/-- In the first two periods the last segment's own strangeness is among the scores it is
compared with. -/
theorem own_mem (P : ℕ) (hP : 48 ≤ P) (X : List K) (hn : P ≤ X.length) (h2 : X.length < 2 * P) :
    strangeness 27 (matrixAt inv P X X.length) (trainingAt P X X.length) (segment X X.length)
      ∈ referenceScores inv P X X.length := by
  unfold referenceScores
  rw [show X.length + 1 - P = (X.length - P) + 1 by omega, List.range'_concat, List.map_append,
    ← List.append_assoc]
  have he : strangenessAt inv P X (P + 1 * (X.length - P))
      = strangeness 27 (matrixAt inv P X X.length) (trainingAt P X X.length) (segment X X.length) := by
    rw [show P + 1 * (X.length - P) = X.length by omega]
    unfold strangenessAt trainingAt
    rw [if_pos h2, if_pos (by omega)]
  rw [List.map_singleton, he]
  exact mem_lastN_snoc (by omega) _ _

theorem below_own (P : ℕ) (hP : 48 ≤ P) (X : List K) (hn : P ≤ X.length)
    (h2 : X.length < 2 * P) : conformalScore inv P X ≤ ((P - 20 : ℕ) : K) / ((P - 19 : ℕ) : K) := by
  unfold conformalScore
  simp only
  have hmem := own_mem inv P hP X hn h2
  have hlen := reference_length inv P hP X hn
  generalize strangeness 27 (matrixAt inv P X X.length) (trainingAt P X X.length)
    (segment X X.length) = v at *
  rw [hlen]
  refine div_le_div_of_nonneg_right ?_ (Nat.cast_nonneg _)
  refine Nat.cast_le.2 ?_
  have : (referenceScores inv P X X.length).countP (fun c => decide (c < v))
      < (referenceScores inv P X X.length).length := by
    refine List.countP_lt_length_iff.2 ⟨v, hmem, by simp⟩
  omega

/-! The stream of `P - 1` zeros and a one. -/

/-- `P - 1` zeros and a one. -/
def spike (K : Type*) [Zero K] [One K] (P : ℕ) : List K := List.replicate (P - 1) 0 ++ [1]

omit [LinearOrder K] [IsStrictOrderedRing K] in
theorem spike_length {P : ℕ} (hP : 48 ≤ P) : (spike K P).length = P := by
  simp [spike]; omega

omit [LinearOrder K] [IsStrictOrderedRing K] in
theorem spike_segment {P j : ℕ} (h1 : 19 ≤ j) (h2 : j ≤ P - 1) :
    segment (spike K P) j = List.replicate 19 0 := by
  unfold segment spike
  rw [List.take_append_of_le_length (by simpa using h2), List.take_replicate, List.drop_replicate]
  congr 1
  omega

omit [LinearOrder K] [IsStrictOrderedRing K] in
theorem spike_last {P : ℕ} (hP : 48 ≤ P) :
    segment (spike K P) P = List.replicate 18 0 ++ [1] := by
  unfold segment spike
  rw [List.take_of_length_le (by simp; omega), List.drop_append_of_le_length (by simp; omega),
    List.drop_replicate]
  congr 2
  omega

theorem spike_training {P n : ℕ} (hP : 48 ≤ P) (h : n < 2 * P) :
    trainingAt P (spike K P) n = List.replicate (P - 19) (List.replicate 19 0) := by
  unfold trainingAt
  rw [if_pos h]
  refine List.eq_replicate_iff.2 ⟨by rw [segments_length]; omega, ?_⟩
  intro b hb
  unfold segments at hb
  obtain ⟨j, hj, rfl⟩ := List.mem_map.1 hb
  rw [List.mem_range'_1] at hj
  exact spike_segment hj.1 (by omega)

theorem spike_moments {P n : ℕ} (hP : 48 ≤ P) (h : n < 2 * P) :
    secondMoments (trainingAt P (spike K P) n) = List.replicate 19 (List.replicate 19 0) := by
  rw [spike_training hP h]
  unfold secondMoments
  refine List.eq_replicate_iff.2 ⟨by simp, ?_⟩
  intro b hb
  obtain ⟨i, hi, rfl⟩ := List.mem_map.1 hb
  refine List.eq_replicate_iff.2 ⟨by simp, ?_⟩
  intro c hc
  obtain ⟨j, hj, rfl⟩ := List.mem_map.1 hc
  rw [List.map_replicate, List.sum_replicate]
  have : (List.replicate 19 (0 : K)).getD i 0 = 0 := by
    rw [List.mem_range] at hi
    generalize 19 = n at hi
    simp [List.getD, hi]
  rw [this]
  simp

theorem spike_matrix {P : ℕ} (hP : 48 ≤ P)
    (hinv : inv (List.replicate 19 (List.replicate 19 0)) = none) :
    ∀ n, n ≤ P → matrixAt inv P (spike K P) n = identity19 := by
  intro n
  induction n with
  | zero => intro _; rfl
  | succ n ih =>
    intro h
    rw [matrixAt, spike_moments hP (by omega), hinv, Option.getD_none, ih (by omega), ite_self]

omit [LinearOrder K] [IsStrictOrderedRing K] in
theorem zero_distance (σ : List (List K)) (a : List K) : squaredDistance σ a a = 0 := by
  simp [squaredDistance]

omit [IsStrictOrderedRing K] in
theorem sumOfLeast_replicate (m n : ℕ) (h : m ≤ n) (c : K) :
    sumOfLeast m (Multiset.replicate n c) = m * c := by
  unfold sumOfLeast
  have : (Multiset.replicate n c).sort (· ≤ ·) = List.replicate n c := by
    refine List.eq_replicate_iff.2 ⟨by simp, ?_⟩
    intro b hb
    exact Multiset.eq_of_mem_replicate ((Multiset.mem_sort (· ≤ ·)).1 hb)
  rw [this, List.take_replicate, List.sum_replicate, Nat.min_eq_left h, nsmul_eq_mul]

omit [LinearOrder K] [IsStrictOrderedRing K] in
theorem spike_distance :
    squaredDistance identity19 (List.replicate 19 (0 : K)) (List.replicate 18 0 ++ [1]) = 1 := by
  simp [squaredDistance, identity19, Finset.sum_range_succ, List.replicate]

theorem spike_score {P : ℕ} (hP : 48 ≤ P)
    (hinv : inv (List.replicate 19 (List.replicate 19 0)) = none) :
    conformalScore inv P (spike K P) = ((P - 20 : ℕ) : K) / ((P - 19 : ℕ) : K) := by
  have hnew : strangeness 27 (matrixAt inv P (spike K P) P) (trainingAt P (spike K P) P)
      (segment (spike K P) P) = 27 := by
    rw [spike_training hP (by omega), spike_matrix inv hP hinv P le_rfl, spike_last hP]
    unfold strangeness
    rw [Multiset.map_coe, List.map_replicate, spike_distance, Multiset.coe_replicate,
      sumOfLeast_replicate _ _ (by omega)]
    norm_num
  have hold : (trainingAt P (spike K P) (P - 1)).map
      (strangeness 28 (matrixAt inv P (spike K P) P) (trainingAt P (spike K P) (P - 1)))
      = List.replicate (P - 19) 0 := by
    rw [spike_training hP (by omega), List.map_replicate]
    congr 1
    unfold strangeness
    rw [Multiset.map_coe, List.map_replicate, zero_distance, Multiset.coe_replicate,
      sumOfLeast_replicate _ _ (by omega), mul_zero]
  have hkept : referenceScores inv P (spike K P) P = List.replicate (P - 20) 0 ++ [27] := by
    unfold referenceScores
    rw [hold, show P + 1 - P = 1 by omega, List.range'_one, List.map_singleton]
    have : strangenessAt inv P (spike K P) P = 27 := by
      rw [← hnew]
      unfold strangenessAt
      rw [spike_training hP (by omega), spike_training hP (by omega)]
    rw [this]
    unfold lastN
    rw [List.drop_append_of_le_length (by simp; omega), List.drop_replicate]
    congr 2
    simp
    omega
  unfold conformalScore
  rw [spike_length hP]
  simp only
  rw [hkept, hnew]
  have h27 : (0 : K) < 27 := by norm_num
  rw [List.countP_append, List.countP_replicate]
  simp only [h27, decide_true, if_true, List.countP_singleton, lt_irrefl, decide_false,
    Bool.false_eq_true, if_false, List.length_append, List.length_replicate, List.length_singleton]
  rw [Nat.add_zero, show P - 20 + 1 = P - 19 by omega]

theorem fraction_iff {P : ℕ} (hP : 48 ≤ P) :
    (9965 / 10000 : K) ≤ ((P - 20 : ℕ) : K) / ((P - 19 : ℕ) : K) ↔ 305 ≤ P := by
  have hpos : (0 : K) < ((P - 19 : ℕ) : K) := Nat.cast_pos.2 (by omega)
  rw [div_le_div_iff₀ (by norm_num) hpos]
  have : (9965 : K) * ((P - 19 : ℕ) : K) ≤ ((P - 20 : ℕ) : K) * 10000
      ↔ 9965 * (P - 19) ≤ (P - 20) * 10000 := by
    rw [← Nat.cast_le (α := K)]
    push_cast
    rfl
  rw [this]
  omega

end KnnAlarms

open KnnAlarms

/-- **C187 (spacing).** For `P ≥ 48`, among any consecutive scores of any history at most one in
`⌊P/5⌋ + 1` is an alarm (rounded up). -/
theorem C187_knncad_spacing (P : ℕ) (hP : 48 ≤ P) (cs : List (Call (List K) β))
    (before window after : List (Answer K))
    (hw : scoreAnswers cs (calls (KnnCad.detector inv) (KnnCad.new P) cs).1
      = before ++ window ++ after) :
    alarms window ≤ (window.length + P / 5) / (P / 5 + 1) := by
  rw [Nat.le_div_iff_mul_le (by omega)]
  exact Sparse.count _ _ rfl ((sparse inv P hP cs).sublist hw)

/-- **C187 (silence).** For `48 ≤ P ≤ 304`, no history with fewer than `2 P` fits contains an
alarm: a score is the fraction of `P - 19` stored scores that are exceeded, and until then
the instance's own is among the stored ones. -/
theorem C187_knncad_silent (P : ℕ) (hP : 48 ≤ P) (h304 : P ≤ 304) (cs : List (Call (List K) β))
    (hn : (firstValues cs).length < 2 * P) :
    alarms (scoreAnswers cs (calls (KnnCad.detector inv) (KnnCad.new P) cs).1) = 0 := by
  unfold alarms
  rw [List.countP_eq_zero]
  simp only [decide_eq_true_eq]
  induction cs using List.reverseRecOn with
  | nil => simp [scoreAnswers]
  | append_singleton cs c ih =>
    have hlen := calls_length (d := KnnCad.detector (β := β) inv) (KnnCad.new P) cs
    have h92 := C92_knncad_score (β := β) inv P hP cs
    obtain ⟨hb1, hb2, hb3, hb4, hb5⟩ := knn_book (β := β) inv P cs
    rw [firstValues_append, List.length_append] at hn
    have ih := ih (by omega)
    rw [calls_append]
    simp only [calls]
    rw [scoreAnswers_snoc _ _ hlen]
    cases c with
    | fit a b =>
      simp only [Call.isScore, Bool.false_eq_true, if_false, List.append_nil]
      exact ih
    | score a =>
      simp only [Call.isScore, if_true]
      intro y hy
      rcases List.mem_append.1 hy with hy | hy
      · exact ih y hy
      · rw [List.mem_singleton] at hy
        subst hy
        by_cases hP' : P ≤ (firstValues cs).length
        · have := (h92 hP' a).2 (by
            rintro ⟨z, hz, hza⟩
            exact ih z ((lastN_suffix _ _).subset hz) hza)
          have hlt := below_own inv P hP _ hP' (by omega)
          have hno : ¬ (9965 / 10000 : K) ≤ conformalScore inv P (firstValues cs) := by
            intro hge
            have := (fraction_iff (K := K) hP).1 (hge.trans hlt)
            omega
          simp only [call]
          generalize (KnnCad.detector (β := β) inv).scorePartial _ a = q at this
          cases q with
          | ok v s =>
            simp only [Res.out_ok, Except.ok.injEq] at this
            subst this
            exact hno
          | err e s => simp at this
        · by_cases hne : fitted cs = []
          · simp only [call, KnnCad.detector, KnnCad.scorePartial] at *
            rw [hb5 hne]
            simp [isAlarm]
          · obtain ⟨sg, hsg⟩ := Option.isSome_iff_exists.1 (hb4 hne)
            have h0 : KnnCad.scorePartial (calls (KnnCad.detector (β := β) inv) (KnnCad.new P) cs).2
                = .ok 0 (calls (KnnCad.detector (β := β) inv) (KnnCad.new P) cs).2 := by
              simp only [KnnCad.scorePartial, hsg, hb2, hb3]
              rw [if_pos (Or.inr (by omega))]
            simp only [call, KnnCad.detector] at h0 ⊢
            rw [h0]
            simp only [isAlarm]
            norm_num

/-- **C187 (possible).** For `P ≥ 305`, an instance of one after `P - 1` of zero is an alarm. (The
second moments of zeros are the zero matrix, which has no inverse.) -/
theorem C187_knncad_possible (P : ℕ) (hP : 305 ≤ P)
    (hinv : inv (List.replicate 19 (List.replicate 19 0)) = none) (x : List K) :
    let d := KnnCad.detector (β := β) inv
    let fits := (List.replicate (P - 1) (.fit [0] none) ++ [.fit [1] none] : List (Call (List K) β))
    alarms (scoreAnswers (fits ++ [.score x]) (calls d (KnnCad.new P) (fits ++ [.score x])).1) = 1 := by
  intro d fits
  have hlen := calls_length (d := d) (KnnCad.new P) fits
  have hfv : firstValues fits = spike K P := by
    simp only [fits, firstValues_append, spike]
    congr 1
    generalize P - 1 = n
    induction n with
    | zero => rfl
    | succ n ih =>
      rw [List.replicate_succ, List.replicate_succ, ← ih]
      rfl
  have hnone : scoreAnswers fits (calls d (KnnCad.new P) fits).1 = [] := by
    have : ∀ (l : List (Call (List K) β)) (as : List (Answer K)),
        (∀ c ∈ l, c.isScore = false) → scoreAnswers l as = [] := by
      intro l
      induction l with
      | nil => intro as _; cases as <;> rfl
      | cons c l ih =>
        intro as h
        cases as with
        | nil => cases c <;> rfl
        | cons a as =>
          cases c with
          | fit a b => exact ih as fun c hc => h c (List.mem_cons_of_mem _ hc)
          | score a => exact absurd (h _ List.mem_cons_self) (by simp [Call.isScore])
    refine this _ _ ?_
    intro c hc
    simp only [fits, List.mem_append, List.mem_replicate, List.mem_singleton] at hc
    rcases hc with ⟨-, rfl⟩ | rfl <;> rfl
  have h92 := (C92_knncad_score (β := β) inv P (by omega) fits
    (by rw [hfv, spike_length (by omega)]) x).2 (by
      rintro ⟨a, ha, -⟩
      have ha' : a ∈ lastN (P / 5) (scoreAnswers fits (calls d (KnnCad.new P) fits).1) := ha
      rw [hnone] at ha'
      simp at ha')
  rw [hfv, spike_score inv (by omega) hinv] at h92
  rw [calls_append]
  simp only [calls]
  rw [scoreAnswers_snoc _ _ hlen, hnone]
  simp only [Call.isScore, if_true, List.nil_append]
  have : isAlarm (call d (calls d (KnnCad.new P) fits).2 (Call.score x : Call (List K) β)).1 := by
    simp only [call]
    have hq : (d.scorePartial (calls d (KnnCad.new P) fits).2 x).out
      = .ok (((P - 20 : ℕ) : K) / ((P - 19 : ℕ) : K)) := h92
    generalize d.scorePartial _ x = q at hq
    cases q with
    | ok v s =>
      simp only [Res.out_ok, Except.ok.injEq] at hq
      subst hq
      exact (fraction_iff (by omega)).2 hP
    | err e s => simp at hq
  simp [alarms, this]

/-- **C187, as a user expects it:** for every probationary period the detector accepts, some
stream makes it raise an alarm within the period after the probationary one. -/
def C187_knncad_statement (K : Type*) [Field K] [LinearOrder K] : Prop :=
  ∀ inv : List (List K) → Option (List (List K)),
    inv (List.replicate 19 (List.replicate 19 0)) = none →
  ∀ P, 48 ≤ P → ∃ cs : List (Call (List K) Unit), (firstValues cs).length < 2 * P ∧
    0 < alarms (scoreAnswers cs (calls (KnnCad.detector inv) (KnnCad.new P) cs).1)

/-- **C187 is false**, for a period of 304 (or anything from 48). -/
theorem C187_knncad_refuted : ¬ C187_knncad_statement K := by
  intro h
  obtain ⟨cs, h1, h2⟩ := h (fun _ => none) rfl 304 (by norm_num)
  have := C187_knncad_silent (fun _ => none) 304 (by norm_num) le_rfl cs h1
  omega

/-- **C187 (partial).** It is true exactly of the periods of at least 305. -/
theorem C187_knncad_partial (hinv : inv (List.replicate 19 (List.replicate 19 0)) = none) (P : ℕ)
    (hP : 48 ≤ P) :
    (∃ cs : List (Call (List K) Unit), (firstValues cs).length < 2 * P ∧
      0 < alarms (scoreAnswers cs (calls (KnnCad.detector inv) (KnnCad.new P) cs).1)) ↔ 305 ≤ P := by
  constructor
  · rintro ⟨cs, h1, h2⟩
    by_contra h
    have := C187_knncad_silent inv P hP (by omega) cs h1
    omega
  · intro h
    refine ⟨_, ?_, by rw [C187_knncad_possible inv P h hinv []]; exact Nat.one_pos⟩
    have hf : ∀ l : List (Call (List K) Unit), (firstValues l).length ≤ (fitted l).length := by
      intro l
      exact List.length_filterMap_le _ _
    refine (hf _).trans_lt ?_
    have hg : ∀ l : List (Call (List K) Unit), (fitted l).length ≤ l.length := by
      intro l
      induction l with
      | nil => exact le_rfl
      | cons c l ih =>
        cases c with
        | fit a b => exact Nat.succ_le_succ ih
        | score a => exact ih.trans (Nat.le_succ _)
    rw [fitted_append, List.length_append]
    have := hg (List.replicate (P - 1) (.fit [0] none) ++ [.fit [1] none])
    rw [List.length_append, List.length_replicate, List.length_singleton] at this
    have h0 : (fitted [(Call.score [] : Call (List K) Unit)]).length = 0 := rfl
    omega

/-- The bound of `C187_knncad_spacing` is attained: in the run `knn_alarm_run` (period 48) the
first eleven scores after record 96 contain two alarms. -/
example : alarms ([.value 1] ++ List.replicate 9 (.value (1 / 2)) ++ [.value (1 : ℚ)])
    = (11 + 48 / 5) / (48 / 5 + 1) := by
  have h1 : isAlarm (.value (1 : ℚ)) := by simp only [isAlarm]; norm_num
  have h2 : ¬ isAlarm (.value ((1 : ℚ) / 2)) := by simp only [isAlarm]; norm_num
  rw [alarms, List.countP_append, List.countP_append, List.countP_replicate]
  simp only [List.countP_singleton, h1, h2, decide_true, decide_false, if_true]
  rfl

/-- A matrix inverse as `C187_knncad_partial` wants it: the zero matrix has none. -/
example : ∃ cs : List (Call (List ℚ) Unit), (firstValues cs).length < 2 * 305 ∧
    0 < alarms (scoreAnswers cs (calls (KnnCad.detector fun _ => none) (KnnCad.new 305) cs).1) :=
  (C187_knncad_partial (fun _ => none) rfl 305 (by norm_num)).2 le_rfl

end

end Pysad
