import Verif.Props.Repeating
import Verif.Props.Deviation
import Verif.Props.Calibration
import Verif.Props.Integrations
import Verif.Props.Inqmad
import Verif.Props.RsHash
import Verif.Props.Statistics

/-! Property C198: training on the same data several times. -/

namespace Pysad

open Spec

/-- The data, `k` times one after the other. -/
def Spec.passes {α : Type*} (k : ℕ) (X : List α) : List α := (List.replicate k X).flatten

/-- Whatever is scored in between: after fitting the data once or any number of times, every instance gets the same
answer. -/
def Spec.PassesMakeNoDifference {σ α β S : Type*} (d : Detector σ α β S) (s0 : σ) (X : List α) : Prop :=
  ∀ k, 1 ≤ k → ∀ cs cs' : List (Call α β), fitted cs = X → fitted cs' = passes k X → ∀ x,
    (d.scorePartial (calls d s0 cs').2 x).out = (d.scorePartial (calls d s0 cs).2 x).out

section
variable {α : Type*}

theorem passes_succ (k : ℕ) (X : List α) : passes (k + 1) X = X ++ passes k X := by
  simp [passes, List.replicate_succ]

theorem passes_succ' (k : ℕ) (X : List α) : passes (k + 1) X = passes k X ++ X := by
  simp [passes, List.replicate_succ']

theorem passes_length (k : ℕ) (X : List α) : (passes k X).length = k * X.length := by
  simp [passes]

theorem passes_last {k w : ℕ} (hk : 1 ≤ k) {X : List α} (hw : w ≤ X.length) : lastN w (passes k X) = lastN w X := by
  obtain ⟨k, rfl⟩ : ∃ j, k = j + 1 := ⟨k - 1, by omega⟩
  rw [passes_succ', lastN_append_of_le hw]

theorem passes_first {k w : ℕ} (hk : 1 ≤ k) {X : List α} (hw : w ≤ X.length) : (passes k X).take w = X.take w := by
  obtain ⟨k, rfl⟩ : ∃ j, k = j + 1 := ⟨k - 1, by omega⟩
  rw [passes_succ, List.take_append_of_le_length hw]

theorem passes_map {β : Type*} (f : α → β) (k : ℕ) (X : List α) : (passes k X).map f = passes k (X.map f) := by
  induction k with
  | zero => rfl
  | succ k ih => rw [passes_succ, passes_succ, List.map_append, ih]

theorem passes_filterMap {β : Type*} (f : α → Option β) (k : ℕ) (X : List α) :
    (passes k X).filterMap f = passes k (X.filterMap f) := by
  induction k with
  | zero => rfl
  | succ k ih => rw [passes_succ, passes_succ, List.filterMap_append, ih]

theorem passes_coe (k : ℕ) (X : List α) : (passes k X : Multiset α) = k • (X : Multiset α) := by
  induction k with
  | zero => simp [passes]
  | succ k ih => rw [passes_succ', succ_nsmul, ← ih]; rfl

theorem passes_ne_nil {k : ℕ} (hk : 1 ≤ k) {X : List α} (hX : X ≠ []) : passes k X ≠ [] := by
  intro h
  have := congrArg List.length h
  rw [passes_length] at this
  have hX' := List.length_pos_iff.2 hX
  simp only [List.length_nil, Nat.mul_eq_zero] at this
  omega

end

/-! ### Statistics of repeated values -/

section
variable {K : Type*} [Field K] [LinearOrder K] [IsStrictOrderedRing K]

theorem meanOf_nsmul {k : ℕ} (hk : 1 ≤ k) (m : Multiset K) : meanOf (k • m) = meanOf m := by
  unfold meanOf
  have hk' : (k : K) ≠ 0 := by exact_mod_cast (by omega : k ≠ 0)
  rw [Multiset.sum_nsmul, Multiset.card_nsmul, nsmul_eq_mul, Nat.cast_mul, mul_div_mul_left _ _ hk']

theorem varianceOf_nsmul {k : ℕ} (hk : 1 ≤ k) (m : Multiset K) : varianceOf (k • m) = varianceOf m := by
  unfold varianceOf
  have hk' : (k : K) ≠ 0 := by exact_mod_cast (by omega : k ≠ 0)
  rw [meanOf_nsmul hk, Multiset.map_nsmul, Multiset.sum_nsmul, Multiset.card_nsmul, nsmul_eq_mul, Nat.cast_mul,
    mul_div_mul_left _ _ hk']

omit [Field K] [IsStrictOrderedRing K] in
private theorem sort_nsmul (k : ℕ) (m : Multiset K) :
    (k • m).sort (· ≤ ·) = (m.sort (· ≤ ·)).flatMap (List.replicate k) := by
  refine List.Perm.eq_of_pairwise (le := (· ≤ ·)) (fun a b _ _ h1 h2 => le_antisymm h1 h2)
    (Multiset.pairwise_sort _ _) ?_ ?_
  · have : ∀ l : List K, l.Pairwise (· ≤ ·) → (l.flatMap (List.replicate k)).Pairwise (· ≤ ·) := by
      intro l
      induction l with
      | nil => simp
      | cons a l ih =>
        intro h
        rw [List.flatMap_cons, List.pairwise_append]
        refine ⟨List.pairwise_replicate.2 (Or.inr le_rfl), ih (List.pairwise_cons.1 h).2, fun x hx y hy => ?_⟩
        obtain ⟨b, hb, hyb⟩ := List.mem_flatMap.1 hy
        rw [(List.mem_replicate.1 hx).2, (List.mem_replicate.1 hyb).2]
        exact (List.pairwise_cons.1 h).1 b hb
    exact this _ (Multiset.pairwise_sort _ _)
  · rw [← Multiset.coe_eq_coe, Multiset.sort_eq]
    have : ∀ l : List K, ((l.flatMap (List.replicate k) : List K) : Multiset K) = k • (l : Multiset K) := by
      intro l
      induction l with
      | nil => simp
      | cons a l ih =>
        rw [List.flatMap_cons, ← Multiset.coe_add, ih, ← Multiset.cons_coe, Multiset.coe_replicate, ← Multiset.singleton_add,
          nsmul_add, Multiset.nsmul_singleton]
    rw [this, Multiset.sort_eq]

omit [Field K] [LinearOrder K] [IsStrictOrderedRing K] in
private theorem getElem?_flatMap_replicate {k : ℕ} (hk : 1 ≤ k) (l : List K) (i : ℕ) :
    (l.flatMap (List.replicate k))[i]? = l[i / k]? := by
  induction l generalizing i with
  | nil => simp
  | cons a l ih =>
    rw [List.flatMap_cons]
    by_cases hi : i < k
    · rw [List.getElem?_append_left (by simpa using hi), Nat.div_eq_of_lt hi]
      simp [hi]
    · rw [List.getElem?_append_right (by simpa using hi), List.length_replicate, ih]
      have : i / k = (i - k) / k + 1 := by
        rw [← Nat.add_div_right _ hk, Nat.sub_add_cancel (by omega)]
      rw [this, List.getElem?_cons_succ]

theorem medianOf_nsmul {k : ℕ} (hk : 1 ≤ k) (m : Multiset K) : medianOf (k • m) = medianOf m := by
  unfold medianOf
  rw [sort_nsmul]
  generalize m.sort (· ≤ ·) = l
  have hlen : (l.flatMap (List.replicate k)).length = k * l.length := by
    induction l with
    | nil => simp
    | cons a l ih => rw [List.flatMap_cons, List.length_append, ih, List.length_replicate, List.length_cons]; ring
  simp only [hlen, getElem?_flatMap_replicate hk]
  rcases Nat.even_or_odd' l.length with ⟨a, ha | ha⟩
  · have h1 : k * l.length % 2 = 0 := by rw [ha]; exact Nat.mod_eq_zero_of_dvd ⟨k * a, by ring⟩
    have h2 : k * l.length / 2 = k * a := by rw [ha]; exact Nat.div_eq_of_eq_mul_right (by norm_num) (by ring)
    rw [h1, h2, if_neg (by norm_num), ha, if_neg (by omega), Nat.mul_div_cancel_left a hk]
    have h3 : 2 * a / 2 = a := by omega
    rw [h3]
    rcases Nat.eq_zero_or_pos a with rfl | hpos
    · simp
    · have h4 : (k * a - 1) / k = a - 1 := by
        obtain ⟨b, rfl⟩ : ∃ b, a = b + 1 := ⟨a - 1, by omega⟩
        have : k * (b + 1) - 1 = k - 1 + k * b := by rw [Nat.mul_succ]; omega
        rw [this, Nat.add_mul_div_left _ _ hk, Nat.div_eq_of_lt (by omega)]
        omega
      rw [h4]
  · rcases Nat.even_or_odd' k with ⟨j, hj | hj⟩
    · have h1 : k * l.length % 2 = 0 := Nat.mod_eq_zero_of_dvd ⟨j * l.length, by rw [hj]; ring⟩
      have h2 : k * l.length / 2 = j + k * a := Nat.div_eq_of_eq_mul_right (by norm_num) (by rw [ha, hj]; ring)
      have h3 : (j + k * a) / k = a := by
        rw [Nat.add_mul_div_left _ _ hk, Nat.div_eq_of_lt (by omega), zero_add]
      have h4 : (j + k * a - 1) / k = a := by
        have : j + k * a - 1 = j - 1 + k * a := by omega
        rw [this, Nat.add_mul_div_left _ _ hk, Nat.div_eq_of_lt (by omega), zero_add]
      rw [h1, h2, if_neg (by norm_num), h3, h4, ha, if_pos (by omega)]
      have h5 : (2 * a + 1) / 2 = a := by omega
      have h6 : a < l.length := by omega
      rw [h5, List.getElem?_eq_getElem h6]
      simp
    · have h1 : k * l.length % 2 = 1 := by
        have : k * l.length = 2 * (j * (2 * a + 1) + a) + 1 := by rw [ha, hj]; ring
        omega
      have h2 : k * l.length / 2 = j + k * a := by
        have : k * l.length = 2 * (j + k * a) + 1 := by rw [ha, hj]; ring
        omega
      have h3 : (j + k * a) / k = a := by
        rw [Nat.add_mul_div_left _ _ hk, Nat.div_eq_of_lt (by omega), zero_add]
      rw [if_pos h1, h2, h3, ha, if_pos (by omega)]
      congr 1
      omega

/-- **C198 (statistics).** The mean, the variance and the median of all values, the greatest and the least. -/
theorem C198_statistics {k : ℕ} (hk : 1 ≤ k) (xs : List K) :
    ((averageMeter K).get ((averageMeter K).updates (averageMeter K).init (passes k xs))).out =
      ((averageMeter K).get ((averageMeter K).updates (averageMeter K).init xs)).out ∧
    ((varianceMeter K).get ((varianceMeter K).updates (varianceMeter K).init (passes k xs))).out =
      ((varianceMeter K).get ((varianceMeter K).updates (varianceMeter K).init xs)).out ∧
    ((medianMeter K).get ((medianMeter K).updates (medianMeter K).init (passes k xs))).out =
      ((medianMeter K).get ((medianMeter K).updates (medianMeter K).init xs)).out ∧
    ((maxMeter K).get ((maxMeter K).updates (maxMeter K).init (passes k xs))).out =
      ((maxMeter K).get ((maxMeter K).updates (maxMeter K).init xs)).out ∧
    ((minMeter K).get ((minMeter K).updates (minMeter K).init (passes k xs))).out =
      ((minMeter K).get ((minMeter K).updates (minMeter K).init xs)).out := by
  have h0 : (k • (xs : Multiset K) = 0) ↔ (xs : Multiset K) = 0 := by
    rw [← passes_coe, Multiset.coe_eq_zero, Multiset.coe_eq_zero]
    refine ⟨fun h => by_contra fun hx => passes_ne_nil hk hx h, fun h => by rw [h]; simp [passes]⟩
  have hmem : ∀ x, x ∈ k • (xs : Multiset K) ↔ x ∈ (xs : Multiset K) := fun x => Multiset.mem_nsmul_of_ne_zero (by omega)
  refine ⟨?_, ?_, ?_, ?_, ?_⟩
  · have a := average_refines.get_out (average_refines.updates (passes k xs) 0 _ (average_refines (K := K)).init)
    have b := average_refines.get_out (average_refines.updates xs 0 _ (average_refines (K := K)).init)
    rw [zero_add, passes_coe] at a
    rw [zero_add] at b
    rcases a with ⟨a1, a2⟩ | ⟨a1, a2⟩ <;> rcases b with ⟨b1, b2⟩ | ⟨b1, b2⟩
    · rw [a2, b2]
    · exact absurd (h0.1 a1) b1
    · exact absurd (h0.2 b1) a1
    · rw [a2, b2, meanOf_nsmul hk]
  · have a := variance_refines.get_out (variance_refines.updates (passes k xs) 0 _ (variance_refines (K := K)).init)
    have b := variance_refines.get_out (variance_refines.updates xs 0 _ (variance_refines (K := K)).init)
    rw [zero_add, passes_coe] at a
    rw [zero_add] at b
    rcases a with ⟨a1, a2⟩ | ⟨a1, a2⟩ <;> rcases b with ⟨b1, b2⟩ | ⟨b1, b2⟩
    · rw [a2, b2]
    · exact absurd (h0.1 a1) b1
    · exact absurd (h0.2 b1) a1
    · rw [a2, b2, varianceOf_nsmul hk]
  · have a := median_refines.get_out (median_refines.updates (passes k xs) 0 _ (median_refines (K := K)).init)
    have b := median_refines.get_out (median_refines.updates xs 0 _ (median_refines (K := K)).init)
    rw [zero_add, passes_coe] at a
    rw [zero_add] at b
    rcases a with ⟨a1, a2⟩ | ⟨u, a1, a2⟩ <;> rcases b with ⟨b1, b2⟩ | ⟨v, b1, b2⟩
    · rw [a2, b2]
    · rw [h0.1 a1, medianOf_zero] at b1
      cases b1
    · rw [h0.2 b1, medianOf_zero] at a1
      cases a1
    · rw [medianOf_nsmul hk, b1] at a1
      cases a1
      rw [a2, b2]
  · obtain ⟨u, a1, a2⟩ := max_refines.get_out (max_refines.updates (passes k xs) 0 _ (max_refines (α := K)).init)
    obtain ⟨v, b1, b2⟩ := max_refines.get_out (max_refines.updates xs 0 _ (max_refines (α := K)).init)
    rw [zero_add, passes_coe] at a1
    rw [zero_add] at b1
    rw [a2, b2]
    cases u with
    | none =>
      cases v with
      | none => rfl
      | some v => exact absurd (h0.1 a1) fun h => by rw [h] at b1; exact absurd b1.1 (Multiset.notMem_zero _)
    | some u =>
      cases v with
      | none =>
        have b1 : (xs : Multiset K) = 0 := b1
        rw [h0.2 b1] at a1
        exact absurd a1.1 (Multiset.notMem_zero _)
      | some v => rw [le_antisymm (b1.2 u ((hmem u).1 a1.1)) (a1.2 v ((hmem v).2 b1.1))]
  · obtain ⟨u, a1, a2⟩ := min_refines.get_out (min_refines.updates (passes k xs) 0 _ (min_refines (α := K)).init)
    obtain ⟨v, b1, b2⟩ := min_refines.get_out (min_refines.updates xs 0 _ (min_refines (α := K)).init)
    rw [zero_add, passes_coe] at a1
    rw [zero_add] at b1
    rw [a2, b2]
    cases u with
    | none =>
      cases v with
      | none => rfl
      | some v => exact absurd (h0.1 a1) fun h => by rw [h] at b1; exact absurd b1.1 (Multiset.notMem_zero _)
    | some u =>
      cases v with
      | none =>
        have b1 : (xs : Multiset K) = 0 := b1
        rw [h0.2 b1] at a1
        exact absurd a1.1 (Multiset.notMem_zero _)
      | some v => rw [le_antisymm (a1.2 v ((hmem v).2 b1.1)) (b1.2 u ((hmem u).1 a1.1))]

/-- **C198 (ConformalProbabilityCalibrator).** With all scores kept always; with a window if the data fill it. -/
theorem C198_conformal {α : Type*} [LinearOrder α] {k : ℕ} (hk : 1 ≤ k) (windowed : Bool) (w : ℕ) (hw : 1 ≤ w)
    (xs : List α) (hxs : xs ≠ []) (hfull : windowed = true → w ≤ xs.length) (y : α) :
    ∃ s s' p, (Conformal.postprocessor K).fit (Conformal.new windowed w) xs = .ok () s ∧
      (Conformal.postprocessor K).fit (Conformal.new windowed w) (passes k xs) = .ok () s' ∧
      ((Conformal.postprocessor K).transformPartial s y).out = .ok (.fin p) ∧
      ((Conformal.postprocessor K).transformPartial s' y).out = .ok (.fin p) := by
  have hne : ∀ l : List α, l ≠ [] → retained windowed w l ≠ [] := by
    intro l hl
    cases windowed with
    | false => exact hl
    | true => exact lastN_ne_nil hw hl
  obtain ⟨s, h1, h2⟩ := C37_conformal (K := K) windowed w xs (hne xs hxs)
  obtain ⟨s', h3, h4⟩ := C37_conformal (K := K) windowed w (passes k xs) (hne _ (passes_ne_nil hk hxs))
  refine ⟨s, s', _, h1, h3, by rw [h2]; rfl, ?_⟩
  rw [h4]
  simp only [Res.out_ok, Except.ok.injEq, Num.fin.injEq]
  cases windowed with
  | true => simp only [retained, if_true, passes_last hk (hfull rfl)]
  | false =>
    simp only [retained, Bool.false_eq_true, if_false, tailFraction]
    have hk' : (k : K) ≠ 0 := by exact_mod_cast (by omega : k ≠ 0)
    have hc : ∀ (q : α → Bool) j, (passes j xs).countP q = j * xs.countP q := by
      intro q j
      induction j with
      | zero => simp [passes]
      | succ j ih => rw [passes_succ, List.countP_append, ih]; ring
    rw [hc, passes_length, Nat.cast_mul, Nat.cast_mul, mul_div_mul_left _ _ hk']

end

/-! ### Detectors -/

/-- **C198 (StandardAbsoluteDeviation).** Without any condition. -/
theorem C198_sad {β : Type*} (absolute : Bool) (X : List (List ℝ)) :
    PassesMakeNoDifference (β := β) (standardAbsoluteDeviation Real.sqrt (averageMeter ℝ))
      (SadState.new (averageMeter ℝ) absolute) X ∧
    PassesMakeNoDifference (β := β) (standardAbsoluteDeviation Real.sqrt (medianMeter ℝ))
      (SadState.new (medianMeter ℝ) absolute) X := by
  have huni : ∀ k, univariate (passes k X) = passes k (univariate X) := fun k => passes_filterMap _ k X
  have hnil : ∀ k, univariate X = [] → univariate (passes k X) = [] := fun k h => by rw [huni, h]; simp [passes]
  constructor
  · intro k hk cs cs' hc hc' x
    by_cases h : univariate X = []
    · rw [C68_sad_mean_unfitted absolute cs' (by rw [hc']; exact hnil k h),
        C68_sad_mean_unfitted absolute cs (by rw [hc]; exact h)]
    · rw [C68_sad_mean absolute cs' (by rw [hc', huni]; exact passes_ne_nil hk h),
        C68_sad_mean absolute cs (by rw [hc]; exact h), hc, hc', huni, passes_coe, meanOf_nsmul hk, varianceOf_nsmul hk]
  · intro k hk cs cs' hc hc' x
    by_cases h : univariate X = []
    · rw [C68_sad_median_unfitted absolute cs' (by rw [hc']; exact hnil k h),
        C68_sad_median_unfitted absolute cs (by rw [hc]; exact h)]
    · obtain ⟨m', a1, a2⟩ := C68_sad_median (β := β) absolute cs' (by rw [hc', huni]; exact passes_ne_nil hk h) x
      obtain ⟨m, b1, b2⟩ := C68_sad_median (β := β) absolute cs (by rw [hc]; exact h) x
      rw [hc', huni, passes_coe, medianOf_nsmul hk] at a1
      rw [hc, a1] at b1
      cases b1
      rw [a2, b2, hc, hc', huni, passes_coe, varianceOf_nsmul hk]

/-- **C198 (ExactStorm).** If the data fill the window. -/
theorem C198_storm {α β K : Type*} [Field K] [LinearOrder K] (dist : α → α → K) (w : ℕ) (r : K) (X : List α)
    (hX : w ≤ X.length) : PassesMakeNoDifference (β := β) (exactStorm dist) (StormState.new w r) X := by
  intro k hk cs cs' hc hc' x
  rw [C50_storm_score, C50_storm_score, hc, hc', passes_last hk hX]
  rfl

theorem referenceWindow_whole {α : Type*} {w : ℕ} {X : List α} (hd : w ∣ X.length) (hw : w ≤ X.length) :
    referenceWindow w X = lastN w X := by
  unfold referenceWindow lastN
  rw [if_neg (by omega), Nat.sub_mul, one_mul, Nat.div_mul_cancel hd, List.take_of_length_le (by simp; omega)]

/-- **C198 (HalfSpaceTrees).** If the data fill a number of whole windows. -/
theorem C198_hst {G β K : Type*} [Field K] [LinearOrder K] (randint : G → ℕ → ℕ × G) (hr : InRange randint)
    (mins maxes : List K) (hd : 1 ≤ maxes.length) (w n D : ℕ) (hw : 1 ≤ w) (g : G) (s0 : HstState K)
    (h0 : Hst.new randint mins maxes w n D g = .ok s0) (X : List (List K)) (hX : ∀ x ∈ X, x.length = maxes.length)
    (hne : X ≠ []) (hdvd : w ∣ X.length) (k : ℕ) (hk : 1 ≤ k) (cs cs' : List (Call (List K) β)) (hc : fitted cs = X)
    (hc' : fitted cs' = passes k X) (x : List K) (hx : x.length = maxes.length) :
    ((Hst.detector K β).scorePartial (calls (Hst.detector K β) s0 cs').2 x).out =
    ((Hst.detector K β).scorePartial (calls (Hst.detector K β) s0 cs).2 x).out := by
  have hwX : w ≤ X.length := Nat.le_of_dvd (List.length_pos_iff.2 hne) hdvd
  have hlen := passes_length k X
  refine C53_hst_order randint hr mins maxes hd w n D hw g s0 h0 cs' cs ?_ (by rw [hc]; exact hX) ?_ x hx
  · rw [hc']
    intro y hy
    obtain ⟨l, hl, hyl⟩ := List.mem_flatten.1 hy
    rw [(List.mem_replicate.1 hl).2] at hyl
    exact hX y hyl
  · rw [hc, hc', referenceWindow_whole hdvd hwX, referenceWindow_whole (by rw [hlen]; exact hdvd.mul_left k)
      (by rw [hlen]; exact hwX.trans (Nat.le_mul_of_pos_left _ hk)), passes_last hk hwX]

section
variable {K : Type*} [Field K] [LinearOrder K] [IsStrictOrderedRing K] [FloorRing K] {j : ℕ}

omit [IsStrictOrderedRing K] in
private theorem foundCount_whole {W : ℕ} (hW : 1 ≤ W) {X : List (Fin j → K)} (hd : W ∣ X.length) (h2 : 2 * W ≤ X.length)
    (fs : List (Fin j)) (r y : Fin j → K) (d : ℕ) :
    foundCount W fs r X y d = binCount fs r (binWidth ((lastN (2 * W) X).take W)) d (lastN W X)
      (halfSpaceBin (fs.take (d + 1)) r (binWidth (lastN W X)) y) := by
  obtain ⟨q, hq⟩ := hd
  have hq2 : 2 ≤ q := by
    by_contra hc
    have : W * q ≤ W * 1 := Nat.mul_le_mul_left W (by omega)
    omega
  obtain ⟨q, rfl⟩ : ∃ i, q = i + 2 := ⟨q - 2, by omega⟩
  have hdiv : X.length / W = q + 2 := by rw [hq, Nat.mul_div_cancel_left _ hW]
  have e1 : windowAt W X (q + 1) = lastN W X := by
    unfold windowAt lastN
    rw [List.take_of_length_le (by simp [hq, Nat.mul_add]; omega)]
    congr 1
    rw [hq, Nat.mul_add, Nat.mul_add]
    omega
  have e2 : windowAt W X q = (lastN (2 * W) X).take W := by
    unfold windowAt lastN
    congr 2
    rw [hq, Nat.mul_add]
    omega
  unfold foundCount comparedWidth currentWidth comparedWindow
  rw [hdiv, if_neg (by omega)]
  have e3 : q + 2 - 1 = q + 1 := rfl
  rw [e3]
  simp only [widthAt, e1, e2]

/-- **C198 (xStream).** If the data fill at least two windows, and whole ones. -/
theorem C198_xstream {β : Type*} (mmh3 : String → ℕ → ℕ) (log2 : K → K) (q : StreamhashState K) (W : ℕ) (hW : 1 ≤ W)
    (draws : List (XsDraw K j)) (hd : draws ≠ []) (hfs : ∀ draw ∈ draws, draw.fs ≠ []) (X : List (List K))
    (hdvd : W ∣ X.length) (h2 : 2 * W ≤ X.length) (k : ℕ) (hk : 1 ≤ k) (cs cs' : List (Call (List K) β))
    (hc : fitted cs = X) (hc' : fitted cs' = passes k X) (x : List K) :
    (call (XStream.detector (β := β) mmh3 log2) (calls (XStream.detector mmh3 log2) (XStream.new q W draws) cs').2
      (.score x)).1 =
    (call (XStream.detector (β := β) mmh3 log2) (calls (XStream.detector mmh3 log2) (XStream.new q W draws) cs).2
      (.score x)).1 := by
  have himg : (XStream.images mmh3 q cs : List (Fin j → K)) = X.map (XStream.project mmh3 q) := by
    simp [XStream.images, hc]
  have himg' : (XStream.images mmh3 q cs' : List (Fin j → K)) = passes k (X.map (XStream.project mmh3 q)) := by
    simp [XStream.images, hc', passes_map]
  rw [C77_xstream_score mmh3 log2 q W hW draws hd hfs cs x, C77_xstream_score mmh3 log2 q W hW draws hd hfs cs' x,
    himg, himg']
  have hl : (X.map (XStream.project mmh3 q) : List (Fin j → K)).length = X.length := by simp
  generalize (X.map (XStream.project mmh3 q) : List (Fin j → K)) = Z at hl
  have hlen := passes_length k Z
  rw [← hl] at hdvd h2
  have h2' : 2 * W ≤ (passes k Z).length := by rw [hlen]; exact h2.trans (Nat.le_mul_of_pos_left _ hk)
  simp only [chainScore, foundCount_whole hW hdvd h2, foundCount_whole hW (by rw [hlen]; exact hdvd.mul_left k) h2',
    passes_last hk h2, passes_last hk (show W ≤ Z.length by omega)]

/-- **C198 (RelativeEntropy).** If the data fill the window. -/
theorem C198_relent {β : Type*} (entropy : List (Num K) → List (Num K) → Num K) (isf : ℤ → Num K) (lo hi : K)
    (hne : lo ≠ hi) (n W : ℕ) (hn : 1 ≤ n) (hW : 1 ≤ W) (s0 : RelEntState K) (h0 : RelEnt.new isf lo hi n W = .ok s0)
    (X : List K) (hX : W ≤ X.length) : PassesMakeNoDifference (β := β) (RelEnt.detector entropy) s0 X := by
  intro k hk cs cs' hc hc' x
  rw [C69_relent_score entropy isf lo hi hne n W hn hW s0 h0 cs x,
    C69_relent_score entropy isf lo hi hne n W hn hW s0 h0 cs' x, hc, hc']
  have hlen : W ≤ (passes k X).length := by rw [passes_length]; exact hX.trans (Nat.le_mul_of_pos_left _ hk)
  simp only [Res.out_ok, if_neg (show ¬ X.length < W by omega), if_neg (show ¬ (passes k X).length < W by omega),
    passes_last hk hX, passes_first hk hX]

end

theorem trainingSet_whole {α : Type*} {w sl : ℕ} {X : List α} (hd : sl ∣ X.length) (hw : w ≤ X.length) :
    trainingSet w sl X = lastN w X := by
  unfold trainingSet
  rw [if_neg (by omega), Nat.div_mul_cancel hd, if_neg (by omega), List.take_length]

/-- **C198 (ReferenceWindowModel).** If the data fill the window and a number of whole slides, the detector in use was
trained on the same instances with the same labels. -/
theorem C198_refwindow {G M α β S : Type*} {b : BatchDetector G M α β S} (hb : Trainable b) (g : G) (w sl : ℕ)
    (hw : 2 ≤ w) (hs : 1 ≤ sl) (L : Bool) (s0 : RefWindowState G M α β)
    (h0 : RefWindow.new b g w sl none none = .ok () s0) (X : List α) (Y : List β) (hX : w ≤ X.length)
    (hdvd : sl ∣ X.length) (k : ℕ) (hk : 1 ≤ k) (cs cs' : List (Call α β)) (hL : Labelled L cs) (hL' : Labelled L cs')
    (hc : fitted cs = X) (hc' : fitted cs' = passes k X) (hY : L = true → labelsOf cs = Y)
    (hY' : L = true → labelsOf cs' = passes k Y) :
    TrainedOn b (calls (RefWindow.detector b) s0 cs).2.model (lastN w X) (if L then some (lastN w Y) else none) ∧
    TrainedOn b (calls (RefWindow.detector b) s0 cs').2.model (lastN w X) (if L then some (lastN w Y) else none) := by
  have hne : X ≠ [] := fun h => by rw [h] at hX; simp at hX; omega
  have key : ∀ Z : List α, Z.length = X.length → trainingSet w sl Z = lastN w Z ∧
      trainingSet w sl (passes k Z) = lastN w Z := by
    intro Z hZ
    have hlen := passes_length k Z
    refine ⟨trainingSet_whole (by rw [hZ]; exact hdvd) (by omega), ?_⟩
    rw [trainingSet_whole (by rw [hlen, hZ]; exact hdvd.mul_left k)
      (by rw [hlen, hZ]; exact hX.trans (Nat.le_mul_of_pos_left _ hk)), passes_last hk (by omega)]
  have key' : ∀ Z : List β, Z.length = X.length → trainingSet w sl Z = lastN w Z ∧
      trainingSet w sl (passes k Z) = lastN w Z := by
    intro Z hZ
    have hlen := passes_length k Z
    refine ⟨trainingSet_whole (by rw [hZ]; exact hdvd) (by omega), ?_⟩
    rw [trainingSet_whole (by rw [hlen, hZ]; exact hdvd.mul_left k)
      (by rw [hlen, hZ]; exact hX.trans (Nat.le_mul_of_pos_left _ hk)), passes_last hk (by omega)]
  have h1 := C55_refwindow_training hb g w sl hw hs L s0 h0 cs hL (by rw [hc]; exact hne)
  have h2 := C55_refwindow_training hb g w sl hw hs L s0 h0 cs' hL' (by rw [hc']; exact passes_ne_nil hk hne)
  rw [hc, (key X rfl).1] at h1
  rw [hc', (key X rfl).2] at h2
  cases L with
  | false => exact ⟨h1, h2⟩
  | true =>
    have hlen : Y.length = X.length := by
      rw [← hY rfl, labelsOf_labelled cs hL, hc]
    simp only [if_true] at h1 h2 ⊢
    rw [hY rfl, (key' Y hlen).1] at h1
    rw [hY' rfl, (key' Y hlen).2] at h2
    exact ⟨h1, h2⟩

/-! ### Where it is false -/

/-- **C198 is false of `MedianAbsoluteDeviation`**: after 0, 2, 1 the deviations are 0, 1, 0, after a second pass
their median is 1/4. -/
theorem C198_mad_refuted : ¬ ∀ X : List (List ℚ), X ≠ [] →
    PassesMakeNoDifference (β := Unit) medianAbsoluteDeviation (MadState.new true (1 : ℚ)) X := by
  intro h
  have h1 := h [[0], [2], [1]] (by simp) 2 (by norm_num) [.fit [0] none, .fit [2] none, .fit [1] none]
    [.fit [0] none, .fit [2] none, .fit [1] none, .fit [0] none, .fit [2] none, .fit [1] none] rfl rfl [2]
  revert h1
  decide +kernel

/-- **C198 is false of `ExactStorm`** when the data do not fill the window. -/
theorem C198_storm_short_refuted : ¬ ∀ X : List ℚ, X ≠ [] →
    PassesMakeNoDifference (β := Unit) (exactStorm fun a b => |a - b|) (StormState.new 2 (1 : ℚ)) X := by
  intro h
  have h1 := h [0] (by simp) 2 (by norm_num) [.fit 0 none] [.fit 0 none, .fit 0 none] rfl rfl 0
  revert h1
  decide +kernel

/-- **C198 is false of `RSHash`**: an instance seen twice has company in its cells. -/
theorem C198_rshash_refuted {dim : ℕ} (comps : List (RsComponent ℝ dim)) (hm : comps ≠ []) (sp : ℕ) (decay : ℝ) (nh : ℕ)
    (hnh : 1 ≤ nh) (x : Fin dim → ℝ) :
    ¬ PassesMakeNoDifference (β := Unit) (RsHash.detector realPow2 Real.log) (RsHash.new comps sp decay nh) [x] := by
  intro h
  have h1 := h 2 (by norm_num) [.fit x none] [.fit x none, .fit x none] rfl rfl x
  rw [C72_rshash_score comps hm sp decay nh hnh [.fit x none] [] x x rfl,
    C72_rshash_score comps hm sp decay nh hnh [.fit x none, .fit x none] [x] x x rfl] at h1
  simp only [Res.out_ok, Except.ok.injEq, Option.some.injEq] at h1
  have e0 : rsScore realPow2 Real.log decay comps [] x = 0 := (C72_rshash_nonneg comps decay [] x).2 (by simp)
  rw [e0] at h1
  unfold rsScore at h1
  have hc : ∀ c : RsComponent ℝ dim, 0 < Real.log (1 + decayedCount realPow2 decay c [x] x) := by
    intro c
    have hs : SameCell c x x := fun p _ => rfl
    refine Real.log_pos ?_
    have : 0 < decayedCount realPow2 decay c [x] x := by
      simp only [decayedCount, List.zipIdx_cons, List.zipIdx_nil, List.filter_cons, hs, decide_true, if_true,
        List.filter_nil, List.map_cons, List.map_nil, List.sum_cons, List.sum_nil, add_zero]
      exact Real.rpow_pos_of_pos (by norm_num) _
    linarith
  have hpos : 0 < (comps.map fun c => Real.log (1 + decayedCount realPow2 decay c [x] x)).sum := by
    cases comps with
    | nil => exact absurd rfl hm
    | cons c cs =>
      rw [List.map_cons, List.sum_cons]
      refine add_pos_of_pos_of_nonneg (hc c) (List.sum_nonneg fun y hy => ?_)
      obtain ⟨c', -, rfl⟩ := List.mem_map.1 hy
      exact (hc c').le
  have hl : (0 : ℝ) < comps.length := by exact_mod_cast List.length_pos_iff.2 hm
  exact absurd h1 (div_pos hpos hl).ne'

/-- **C198 is false of `Inqmad`**: the density of the one instance it remembers is divided by the number of fits. -/
theorem C198_inqmad_refuted : ¬ ∀ X : List (Fin 1 → ℝ), X ≠ [] →
    PassesMakeNoDifference (β := Unit) (Inqmad.detector inqExample) (Inqmad.new 300) X := by
  intro h
  have h1 := h [fun _ => 0] (by simp) 2 (by norm_num) [.fit (fun _ => 0) none]
    [.fit (fun _ => 0) none, .fit (fun _ => 0) none] rfl rfl (fun _ => 0)
  have h2 := C85_inqmad_scores_partial (β := Unit) inqExample 300 (by norm_num) [.fit (fun _ => 0) none] (fun _ => 0)
  have h3 := C85_inqmad_scores_partial (β := Unit) inqExample 300 (by norm_num)
    [.fit (fun _ => 0) none, .fit (fun _ => 0) none] (fun _ => 0)
  have e : ∀ s x, (Inqmad.detector (β := Unit) inqExample).scorePartial s x = Inqmad.scorePartial inqExample s x :=
    fun _ _ => rfl
  rw [e, e, h2, h3] at h1
  simp only [fittedAtFirstScore, List.nil_append, List.cons_append, List.getLast?_cons_cons, List.getLast?_singleton,
    Except.ok.injEq, lastMeasure, inqExample_measure, projector, inqExample_feature, List.length_cons,
    List.length_nil] at h1
  norm_num at h1

/-! ### Concrete cases -/

example : passes 3 [1, 2] = [1, 2, 1, 2, 1, 2] := by decide

/-- Three passes over 0, 1, 2 with a window of two: the score of 2 is that after one pass. -/
example : ((exactStorm (β := Unit) fun a b : ℚ => |a - b|).scorePartial
      (calls (exactStorm (β := Unit) fun a b : ℚ => |a - b|) (StormState.new 2 (2 : ℚ))
        ((passes 3 [0, 1, 2]).map fun x => .fit x none)).2 2).out =
    ((exactStorm (β := Unit) fun a b : ℚ => |a - b|).scorePartial
      (calls (exactStorm (β := Unit) fun a b : ℚ => |a - b|) (StormState.new 2 (2 : ℚ))
        ([0, 1, 2].map fun x => .fit x none)).2 2).out :=
  C198_storm _ 2 2 [0, 1, 2] (by simp) 3 (by norm_num) _ _ rfl rfl 2

example : medianOf ((passes 2 [0, 3, 1] : List ℚ) : Multiset ℚ) = medianOf (([0, 3, 1] : List ℚ) : Multiset ℚ) := by
  rw [passes_coe, medianOf_nsmul (by norm_num)]

end Pysad
