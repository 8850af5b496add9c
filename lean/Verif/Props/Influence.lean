import Verif.Props.Calibration
import Verif.Props.Deviation
import Verif.Props.Forgetting
import Verif.Props.Postprocessors
import Verif.Props.RsHash
import Verif.Props.SimpleModels

/-! Property C137: the influence of a single instance. -/

namespace Pysad

open Spec

section Lists
variable {α : Type*}

/-- Two lists that differ in one place at most. -/
def Spec.OneReplaced (l l' : List α) : Prop :=
  l = l' ∨ ∃ A B a a', l = A ++ a :: B ∧ l' = A ++ a' :: B

theorem Spec.OneReplaced.length_eq {l l' : List α} (h : OneReplaced l l') : l.length = l'.length := by
  rcases h with rfl | ⟨A, B, a, a', rfl, rfl⟩
  · rfl
  · simp

theorem Spec.OneReplaced.drop {l l' : List α} (h : OneReplaced l l') (n : ℕ) :
    OneReplaced (l.drop n) (l'.drop n) := by
  rcases h with rfl | ⟨A, B, a, a', rfl, rfl⟩
  · exact Or.inl rfl
  · by_cases hn : n ≤ A.length
    · rw [List.drop_append_of_le_length hn, List.drop_append_of_le_length hn]
      exact Or.inr ⟨_, _, _, _, rfl, rfl⟩
    · left
      obtain ⟨k, rfl⟩ : ∃ k, n = A.length + (k + 1) := ⟨n - A.length - 1, by omega⟩
      rw [List.drop_append, List.drop_append]
      simp

theorem Spec.OneReplaced.lastN {l l' : List α} (h : OneReplaced l l') (w : ℕ) :
    OneReplaced (lastN w l) (Spec.lastN w l') := by
  unfold Spec.lastN
  rw [← h.length_eq]
  exact h.drop _

theorem Spec.OneReplaced.dropLast {l l' : List α} (h : OneReplaced l l') :
    OneReplaced l.dropLast l'.dropLast := by
  rcases h with rfl | ⟨A, B, a, a', rfl, rfl⟩
  · exact Or.inl rfl
  · cases B with
    | nil => left; simp
    | cons b B =>
      right
      refine ⟨A, (b :: B).dropLast, a, a', ?_, ?_⟩
      · rw [List.dropLast_append_of_ne_nil (by simp)]; rfl
      · rw [List.dropLast_append_of_ne_nil (by simp)]; rfl

theorem Spec.OneReplaced.retained {l l' : List α} (h : OneReplaced l l') (windowed : Bool) (w : ℕ) :
    OneReplaced (retained windowed w l) (Spec.retained windowed w l') := by
  cases windowed
  · exact h
  · exact h.lastN w

theorem Spec.OneReplaced.countP {l l' : List α} (h : OneReplaced l l') (p : α → Bool) :
    l.countP p ≤ l'.countP p + 1 ∧ l'.countP p ≤ l.countP p + 1 := by
  rcases h with rfl | ⟨A, B, a, a', rfl, rfl⟩
  · omega
  · simp only [List.countP_append, List.countP_cons]
    split <;> split <;> omega

theorem Spec.OneReplaced.fraction {K : Type*} [Field K] [LinearOrder K] [IsStrictOrderedRing K]
    {l l' : List α} (h : OneReplaced l l') (p : α → Bool) :
    |(l.countP p : K) / (l.length : K) - (l'.countP p : K) / (l'.length : K)| ≤ 1 / (l.length : K) := by
  obtain ⟨h1, h2⟩ := h.countP p
  have h1' : (l.countP p : K) ≤ (l'.countP p : K) + 1 := by exact_mod_cast h1
  have h2' : (l'.countP p : K) ≤ (l.countP p : K) + 1 := by exact_mod_cast h2
  rw [← h.length_eq, ← sub_div, abs_div, abs_of_nonneg (Nat.cast_nonneg l.length : (0 : K) ≤ _)]
  apply div_le_div_of_nonneg_right _ (Nat.cast_nonneg _)
  rw [abs_le]
  constructor <;> linarith

end Lists

/-- **C137.** ExactStorm: replacing one fitted instance changes a score by at most one over the
number of instances compared with, `min(window_size, fitted) - 1`. -/
theorem C137_storm {α β K : Type*} [Field K] [LinearOrder K] [IsStrictOrderedRing K]
    (dist : α → α → K) (w : ℕ) (r : K) (cs cs' : List (Call α β))
    (h : OneReplaced (fitted cs) (fitted cs')) (x : α) :
    let d := exactStorm (β := β) dist
    ∃ v v', (d.scorePartial (calls d (StormState.new w r) cs).2 x).out = .ok v ∧
      (d.scorePartial (calls d (StormState.new w r) cs').2 x).out = .ok v' ∧
      |v - v'| ≤ 1 / ((min w (fitted cs).length - 1 : ℕ) : K) := by
  intro d
  refine ⟨_, _, by rw [C50_storm_score]; rfl, by rw [C50_storm_score]; rfl, ?_⟩
  have hr := (h.lastN w).dropLast
  have hlen : (lastN w (fitted cs)).dropLast.length = min w (fitted cs).length - 1 := by
    rw [List.length_dropLast, lastN_length]
  rw [← hlen]
  unfold nearFraction
  have hnil : (lastN w (fitted cs)).dropLast = [] ↔ (lastN w (fitted cs')).dropLast = [] := by
    rw [← List.length_eq_zero_iff, ← List.length_eq_zero_iff, hr.length_eq]
  by_cases h0 : (lastN w (fitted cs)).dropLast = []
  · rw [if_pos h0, if_pos (hnil.1 h0)]
    simp
  · rw [if_neg h0, if_neg fun h1 => h0 (hnil.2 h1)]
    exact hr.fraction _

/-- **C137.** The conformal calibrator: replacing one fitted score changes a probability by at most
one over the number of scores remembered. -/
theorem C137_conformal {α K : Type*} [LinearOrder α] [Field K] [LinearOrder K] [IsStrictOrderedRing K]
    (windowed : Bool) (w : ℕ) (xs xs' : List α) (h : OneReplaced xs xs')
    (hne : retained windowed w xs ≠ []) (y : α) :
    ∃ s s' p p', (Conformal.postprocessor K).fit (Conformal.new windowed w) xs = .ok () s ∧
      (Conformal.postprocessor K).fit (Conformal.new windowed w) xs' = .ok () s' ∧
      ((Conformal.postprocessor K).transformPartial s y).out = .ok (.fin p) ∧
      ((Conformal.postprocessor K).transformPartial s' y).out = .ok (.fin p') ∧
      |p - p'| ≤ 1 / ((retained windowed w xs).length : K) := by
  have hr := h.retained windowed w
  have hne' : retained windowed w xs' ≠ [] := by
    rw [← List.length_pos_iff, ← hr.length_eq]
    exact List.length_pos_iff.2 hne
  obtain ⟨s, h1, h2⟩ := C37_conformal (K := K) windowed w xs hne
  obtain ⟨s', h1', h2'⟩ := C37_conformal (K := K) windowed w xs' hne'
  exact ⟨s, s', _, _, h1, h1', by rw [h2]; rfl, by rw [h2']; rfl, hr.fraction _⟩

/-- **C137.** Averages over a window: replacing one score changes every reported average by at most
the change of the score over the number of scores averaged. -/
theorem C137_running_average {K : Type*} [Field K] [LinearOrder K] [IsStrictOrderedRing K]
    (w : ℕ) (hw : 1 ≤ w) (A B : List K) (a a' : K) :
    ∃ out out' s s', (runningAveragePostprocessor K w).fitTransform
        (RunningAveragePostprocessor.new K w) (A ++ a :: B) = .ok out s ∧
      (runningAveragePostprocessor K w).fitTransform
        (RunningAveragePostprocessor.new K w) (A ++ a' :: B) = .ok out' s' ∧
      ∀ i v v', out[i]? = some v → out'[i]? = some v' →
        |v - v'| ≤ |a - a'| / (min w (i + 1) : ℕ) := by
  obtain ⟨out, s, h1, h2, h3⟩ := C35_average w hw (A ++ a :: B)
  obtain ⟨out', s', h1', h2', h3'⟩ := C35_average w hw (A ++ a' :: B)
  refine ⟨out, out', s, s', h1, h1', ?_⟩
  intro i v v' hv hv'
  have hi : i < (A ++ a :: B).length := h2 ▸ (List.getElem?_eq_some_iff.1 hv).1
  have hi' : i < (A ++ a' :: B).length := by simpa using hi
  have e := h3 i hi
  have e' := h3' i hi'
  rw [hv] at e
  rw [hv'] at e'
  cases e
  cases e'
  have hlen : ∀ b, i < (A ++ b :: B).length →
      (lastN w ((A ++ b :: B).take (i + 1))).length = min w (i + 1) := by
    intro b hb
    rw [lastN_length, List.length_take]
    omega
  have hsum : |(lastN w ((A ++ a :: B).take (i + 1))).sum -
      (lastN w ((A ++ a' :: B).take (i + 1))).sum| ≤ |a - a'| := by
    have step : ∀ (A B : List K) (n : ℕ), |((A ++ a :: B).drop n).sum - ((A ++ a' :: B).drop n).sum| ≤
        |a - a'| := by
      intro A B n
      by_cases hn : n ≤ A.length
      · rw [List.drop_append_of_le_length hn, List.drop_append_of_le_length hn]
        simp only [List.sum_append, List.sum_cons]
        apply le_of_eq
        congr 1
        ring
      · obtain ⟨k, rfl⟩ : ∃ k, n = A.length + (k + 1) := ⟨n - A.length - 1, by omega⟩
        rw [List.drop_append, List.drop_append]
        simp
    unfold lastN
    by_cases hn : i + 1 ≤ A.length
    · rw [List.take_append_of_le_length hn, List.take_append_of_le_length hn]
      simp
    · obtain ⟨k, hk⟩ : ∃ k, i + 1 = A.length + (k + 1) := ⟨i - A.length, by omega⟩
      rw [hk, List.take_append, List.take_append]
      simp only [Nat.add_sub_cancel_left, List.take_succ_cons,
        List.take_of_length_le (Nat.le_add_right A.length (k + 1))]
      have := step A (B.take k) ((A ++ a :: B.take k).length - w)
      rw [show (A ++ a' :: B.take k).length = (A ++ a :: B.take k).length by simp]
      exact this
  unfold meanOf
  rw [Multiset.sum_coe, Multiset.sum_coe, Multiset.coe_card, Multiset.coe_card, hlen a hi, hlen a' hi',
    ← sub_div, abs_div, abs_of_nonneg (Nat.cast_nonneg (min w (i + 1)) : (0 : K) ≤ _)]
  exact div_le_div_of_nonneg_right hsum (Nat.cast_nonneg _)

/-! ### RSHash -/

section
variable {dim : ℕ}

theorem decayedCount_ite (decay : ℝ) (c : RsComponent ℝ dim) (l : List (Fin dim → ℝ)) (x : Fin dim → ℝ) :
    decayedCount realPow2 decay c l x = (l.zipIdx.map fun p =>
      if SameCell c p.1 x then realPow2 (-(decay * ((l.length : ℝ) - (p.2 : ℝ)))) else 0).sum := by
  unfold decayedCount
  generalize (l.length : ℝ) = n
  generalize l.zipIdx = z
  induction z with
  | nil => rfl
  | cons p z ih =>
    by_cases h : SameCell c p.1 x
    · simp [List.filter_cons, h, ih]
    · simp [List.filter_cons, h, ih]

/-- Replacing one earlier instance changes a decayed count by at most the weight of its age. -/
theorem decayedCount_replaced (decay : ℝ) (c : RsComponent ℝ dim) (A B : List (Fin dim → ℝ))
    (a a' x : Fin dim → ℝ) :
    decayedCount realPow2 decay c (A ++ a :: B) x ≤ decayedCount realPow2 decay c (A ++ a' :: B) x +
      realPow2 (-(decay * ((B.length : ℝ) + 1))) := by
  rw [decayedCount_ite, decayedCount_ite]
  simp only [List.zipIdx_append, List.zipIdx_cons, List.map_append, List.map_cons, List.sum_append,
    List.sum_cons, List.length_append, List.length_cons]
  have e : ((A.length + (B.length + 1) : ℕ) : ℝ) - ((0 + A.length : ℕ) : ℝ) = (B.length : ℝ) + 1 := by
    push_cast; ring
  rw [e]
  have hpos : 0 < realPow2 (-(decay * ((B.length : ℝ) + 1))) := Real.rpow_pos_of_pos (by norm_num) _
  split <;> split <;> linarith

theorem decayedCount_nonneg (decay : ℝ) (c : RsComponent ℝ dim) (l : List (Fin dim → ℝ))
    (x : Fin dim → ℝ) : 0 ≤ decayedCount realPow2 decay c l x := by
  unfold decayedCount
  apply List.sum_nonneg
  intro a ha
  obtain ⟨p, -, rfl⟩ := List.mem_map.1 ha
  exact (Real.rpow_pos_of_pos (by norm_num) _).le

theorem log_one_add_le_add {a b e : ℝ} (ha : 0 ≤ a) (hb0 : 0 ≤ b) (he : 0 ≤ e) (hb : b ≤ a + e) :
    Real.log (1 + b) ≤ Real.log (1 + a) + Real.log (1 + e) := by
  rw [← Real.log_mul (by linarith) (by linarith)]
  apply Real.log_le_log (by linarith)
  nlinarith [mul_nonneg ha he]

/-- **C137.** RSHash: replacing one earlier instance changes a score by at most
`log (1 + 2 ^ (-decay * age))`, where the age is the number of fits since. -/
theorem C137_rshash {β : Type*} (comps : List (RsComponent ℝ dim)) (hm : comps ≠ []) (sp : ℕ)
    (decay : ℝ) (nh : ℕ) (hnh : 1 ≤ nh) (cs cs' : List (Call (Fin dim → ℝ) β))
    (A B : List (Fin dim → ℝ)) (a a' x z : Fin dim → ℝ)
    (hc : fitted cs = A ++ a :: B ++ [x]) (hc' : fitted cs' = A ++ a' :: B ++ [x]) :
    let d := RsHash.detector (β := β) realPow2 Real.log
    let s0 := RsHash.new comps sp decay nh
    ∃ v v', (d.scorePartial (calls d s0 cs).2 z).out = .ok (some v) ∧
      (d.scorePartial (calls d s0 cs').2 z).out = .ok (some v') ∧
      |v - v'| ≤ Real.log (1 + (2 : ℝ) ^ (-(decay * ((B.length : ℝ) + 1)))) := by
  intro d s0
  refine ⟨_, _, by rw [C72_rshash_score comps hm sp decay nh hnh cs _ x z hc]; rfl,
    by rw [C72_rshash_score comps hm sp decay nh hnh cs' _ x z hc']; rfl, ?_⟩
  have hlen : (0 : ℝ) < (comps.length : ℝ) := Nat.cast_pos.2 (List.length_pos_iff.2 hm)
  set e := (2 : ℝ) ^ (-(decay * ((B.length : ℝ) + 1))) with he
  have he0 : 0 ≤ e := (Real.rpow_pos_of_pos (by norm_num) _).le
  have key : ∀ b b' : Fin dim → ℝ, rsScore realPow2 Real.log decay comps (A ++ b :: B) x ≤
      rsScore realPow2 Real.log decay comps (A ++ b' :: B) x + Real.log (1 + e) := by
    intro b b'
    unfold rsScore
    rw [div_le_iff₀ hlen, add_mul, div_mul_cancel₀ _ hlen.ne']
    have hsum : (comps.map fun c =>
        Real.log (1 + decayedCount realPow2 decay c (A ++ b' :: B) x) + Real.log (1 + e)).sum =
        (comps.map fun c => Real.log (1 + decayedCount realPow2 decay c (A ++ b' :: B) x)).sum +
          Real.log (1 + e) * (comps.length : ℝ) := by
      rw [List.sum_map_add]
      simp [mul_comm]
    rw [← hsum]
    exact List.sum_le_sum fun c _ => log_one_add_le_add (decayedCount_nonneg _ _ _ _)
      (decayedCount_nonneg _ _ _ _) he0 (decayedCount_replaced decay c A B b b' x)
  rw [abs_le]
  constructor <;> linarith [key a a', key a' a]

end

/-! ### The deviation detectors -/

/-- The claim of **C137** about the deviation detectors: there is a bound on how much the score of a
value can change when one fitted value is replaced. -/
def C137_deviation_statement : Prop :=
  (∃ C : ℝ, ∀ (cs cs' : List (Call (List ℝ) Unit)) (x v v' : ℝ),
    OneReplaced (univariate (fitted cs)) (univariate (fitted cs')) →
    let d := standardAbsoluteDeviation (β := Unit) Real.sqrt (averageMeter ℝ)
    (d.scorePartial (calls d (SadState.new (averageMeter ℝ) true) cs).2 [x]).out = .ok [.fin v] →
    (d.scorePartial (calls d (SadState.new (averageMeter ℝ) true) cs').2 [x]).out = .ok [.fin v'] →
    |v - v'| ≤ C)

/-- **C137 is false of `StandardAbsoluteDeviation`**: after 0, 0 the score of `x` is `10 ^ 10 * x`;
after 0, 2 it is about `x - 1`. -/
theorem C137_deviation_refuted : ¬ C137_deviation_statement := by
  rintro ⟨C, h⟩
  have hu : ∀ b : ℝ, univariate (fitted [(Call.fit [0] none : Call (List ℝ) Unit), .fit [b] none]) =
      [0, b] := fun b => rfl
  set x : ℝ := |C| + 2 with hx
  have hxpos : 2 ≤ x := by rw [hx]; linarith [abs_nonneg C]
  have h1 := C68_sad_mean (β := Unit) true [.fit [0] none, .fit [0] none] (by rw [hu]; simp) [x]
  have h2 := C68_sad_mean (β := Unit) true [.fit [0] none, .fit [2] none] (by rw [hu]; simp) [x]
  rw [hu] at h1 h2
  have m1 : meanOf (([0, 0] : List ℝ) : Multiset ℝ) = 0 := by
    simp [meanOf]
  have m2 : meanOf (([0, 2] : List ℝ) : Multiset ℝ) = 1 := by
    simp [meanOf]
  have v1 : varianceOf (([0, 0] : List ℝ) : Multiset ℝ) = 0 := by
    simp [varianceOf, meanOf]
  have v2 : varianceOf (([0, 2] : List ℝ) : Multiset ℝ) = 1 := by
    unfold varianceOf
    rw [m2]
    simp
    norm_num
  simp only [m1, v1, if_true, List.map_cons, List.map_nil, Real.sqrt_zero, zero_add, sub_zero] at h1
  simp only [m2, v2, if_true, List.map_cons, List.map_nil, Real.sqrt_one] at h2
  have key := h _ _ x _ _ (by rw [hu, hu]; exact Or.inr ⟨[0], [], 0, 2, rfl, rfl⟩) h1 h2
  have a1 : |x / (1 / 10 ^ 10)| = x * 10 ^ 10 := by
    rw [abs_of_nonneg (by positivity)]
    field_simp
  have a2 : |(x - 1) / (1 + 1 / 10 ^ 10)| ≤ x := by
    rw [abs_of_nonneg (div_nonneg (by linarith) (by positivity)), div_le_iff₀ (by positivity)]
    nlinarith
  rw [a1] at key
  have := le_abs_self (x * 10 ^ 10 - |(x - 1) / (1 + 1 / 10 ^ 10)|)
  have hC : C ≤ |C| := le_abs_self C
  nlinarith

/-- Two histories with one instance replaced: the fraction 1/2 becomes 0. -/
example : OneReplaced (fitted [(Call.fit 1 none : Call ℚ Unit), .score 7, .fit 20 none, .fit 3 none])
    (fitted [(Call.fit 50 none : Call ℚ Unit), .fit 20 none, .fit 3 none]) ∧
    let d := exactStorm (β := Unit) fun p q : ℚ => |p - q|
    (d.scorePartial (calls d (StormState.new 3 5) [.fit 1 none, .score 7, .fit 20 none, .fit 3 none]).2
      4).out = .ok (1 / 2) ∧
    (d.scorePartial (calls d (StormState.new 3 5) [.fit 50 none, .fit 20 none, .fit 3 none]).2
      4).out = .ok 0 := by
  exact ⟨Or.inr ⟨[], [20, 3], 1, 50, rfl, rfl⟩, by decide +kernel, by decide +kernel⟩

end Pysad
