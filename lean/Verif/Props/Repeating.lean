import Verif.Props.KnnCadAlarms
import Verif.Props.WindowOrder

/-! Property C197: what detectors answer on a stream that repeats itself. -/

namespace Pysad

open Spec

/-- The first `n` instances of the stream `f 0, f 1, …`. -/
def Spec.firstOf {α : Type*} (f : ℕ → α) (n : ℕ) : List α := (List.range n).map f

/-- The stream repeats itself every `p` instances. -/
def Spec.RepeatsEvery {α : Type*} (p : ℕ) (f : ℕ → α) : Prop := ∀ i, f (i + p) = f i

section
variable {α : Type*}

theorem repeats_mul {p : ℕ} {f : ℕ → α} (h : RepeatsEvery p f) (q i : ℕ) : f (i + p * q) = f i := by
  induction q with
  | zero => rfl
  | succ q ih =>
    have e : i + p * (q + 1) = i + p * q + p := by ring
    rw [e, h, ih]

theorem repeats_mod {p : ℕ} {f : ℕ → α} (h : RepeatsEvery p f) {i j : ℕ} (hij : i % p = j % p) : f i = f j := by
  have key : ∀ k, f k = f (k % p) := fun k => by
    have := repeats_mul h (k / p) (k % p)
    rwa [Nat.mod_add_div] at this
  rw [key i, key j, hij]

theorem firstOf_slice (f : ℕ → α) {n a m : ℕ} (h : a + m ≤ n) :
    ((firstOf f n).drop a).take m = (List.range m).map fun i => f (a + i) := by
  apply List.ext_getElem?
  intro i
  unfold firstOf
  rw [List.getElem?_take]
  split
  · rename_i hi
    rw [List.getElem?_drop, List.getElem?_map, List.getElem?_map, List.getElem?_range (by omega), List.getElem?_range hi]
    rfl
  · rw [List.getElem?_eq_none (by simp; omega)]

theorem firstOf_last (f : ℕ → α) {n w : ℕ} (h : w ≤ n) :
    lastN w (firstOf f n) = (List.range w).map fun i => f (n - w + i) := by
  rw [← firstOf_slice f (n := n) (by omega), List.take_of_length_le (by simp [firstOf]; omega)]
  simp [lastN, firstOf]

/-- Whole periods contain the same instances wherever they begin. -/
theorem repeats_perm {p m : ℕ} {f : ℕ → α} (h : RepeatsEvery p f) (hm : p ∣ m) (a : ℕ) :
    ((List.range m).map fun i => f (a + i)).Perm ((List.range m).map f) := by
  induction a with
  | zero => simp
  | succ a ih =>
    refine List.Perm.trans ?_ ih
    cases m with
    | zero => simp
    | succ m =>
      rw [List.range_succ, List.map_append]
      have e : f (a + 1 + m) = f a := by
        obtain ⟨q, hq⟩ := hm
        have : a + 1 + m = a + p * q := by omega
        rw [this, repeats_mul h]
      conv_rhs => rw [← List.range_succ, List.range_succ_eq_map]
      simp only [List.map_cons, List.map_nil, e, List.map_map, Function.comp_def, add_zero]
      refine List.perm_append_comm.trans ?_
      simp only [List.singleton_append]
      refine List.Perm.of_eq ?_
      congr 2
      funext i
      congr 1
      omega

theorem windowAt_firstOf (f : ℕ → α) {n W j : ℕ} (h : W * (j + 1) ≤ n) :
    windowAt W (firstOf f n) j = (List.range W).map fun i => f (W * j + i) :=
  firstOf_slice f (by rw [Nat.mul_succ] at h; exact h)

end

/-! ### Detectors with windows -/

/-- **C197 (ExactStorm).** From the `w`-th instance on the answers repeat with the stream. -/
theorem C197_storm {α β K : Type*} [Field K] [LinearOrder K] (dist : α → α → K) (w : ℕ) (r : K) {p : ℕ} {f : ℕ → α}
    (hf : RepeatsEvery p f) (cs cs' : List (Call α β)) {n n' : ℕ} (hc : fitted cs = firstOf f n)
    (hc' : fitted cs' = firstOf f n') (hn : w ≤ n) (hn' : w ≤ n') (hmod : n % p = n' % p) (x : α) :
    (call (exactStorm (β := β) dist) (calls (exactStorm (β := β) dist) (StormState.new w r) cs).2 (.score x)).1 =
    (call (exactStorm (β := β) dist) (calls (exactStorm (β := β) dist) (StormState.new w r) cs').2 (.score x)).1 := by
  apply answer_of_out
  have e : lastN w (fitted cs) = lastN w (fitted cs') := by
    rw [hc, hc', firstOf_last f hn, firstOf_last f hn']
    refine List.map_congr_left fun i hi => repeats_mod hf ?_
    have h1 : (n - w + i + w) % p = (n' - w + i + w) % p := by
      have e1 : n - w + i + w = n + i := by omega
      have e2 : n' - w + i + w = n' + i := by omega
      rw [e1, e2, Nat.add_mod, hmod, ← Nat.add_mod]
    exact Nat.ModEq.add_right_cancel' w h1
  rw [C50_storm_score, C50_storm_score, e]
  rfl

/-- **C197 (HalfSpaceTrees).** If the window size is a multiple of the period, then from the end of the first window on
no instance's score changes any more. -/
theorem C197_hst {G β K : Type*} [Field K] [LinearOrder K] (randint : G → ℕ → ℕ × G) (hr : InRange randint)
    (mins maxes : List K) (hd : 1 ≤ maxes.length) (w n D : ℕ) (hw : 1 ≤ w) (g : G) (s0 : HstState K)
    (h0 : Hst.new randint mins maxes w n D g = .ok s0) {p : ℕ} {f : ℕ → List K} (hf : RepeatsEvery p f) (hp : p ∣ w)
    (hlen : ∀ i, (f i).length = maxes.length) (cs cs' : List (Call (List K) β)) {m m' : ℕ}
    (hc : fitted cs = firstOf f m) (hc' : fitted cs' = firstOf f m') (hm : w ≤ m) (hm' : w ≤ m') (x : List K)
    (hx : x.length = maxes.length) :
    ((Hst.detector K β).scorePartial (calls (Hst.detector K β) s0 cs).2 x).out =
    ((Hst.detector K β).scorePartial (calls (Hst.detector K β) s0 cs').2 x).out := by
  have hval : ∀ m, ∀ y ∈ firstOf f m, y.length = maxes.length := by
    intro m y hy
    obtain ⟨i, -, rfl⟩ := List.mem_map.1 hy
    exact hlen i
  have key : ∀ m, w ≤ m → (referenceWindow w (firstOf f m)).Perm ((List.range w).map f) := by
    intro m hm
    have hl : (firstOf f m).length = m := by simp [firstOf]
    unfold referenceWindow
    rw [hl, if_neg (by omega), firstOf_slice]
    · exact repeats_perm hf hp _
    · have h1 : 1 ≤ m / w := (Nat.le_div_iff_mul_le (by omega)).2 (by omega)
      have h2 := Nat.div_mul_le_self m w
      have h3 : (m / w - 1) * w + w = m / w * w := by
        rw [Nat.sub_mul, one_mul, Nat.sub_add_cancel]
        exact Nat.le_mul_of_pos_left _ h1
      omega
  refine C53_hst_order randint hr mins maxes hd w n D hw g s0 h0 cs cs' (by rw [hc]; exact hval m)
    (by rw [hc']; exact hval m') ?_ x hx
  rw [hc, hc']
  exact (key m hm).trans (key m' hm').symm

section
variable {K : Type*} [Field K] [LinearOrder K] [IsStrictOrderedRing K] [FloorRing K] {k : ℕ}

/-- **C197 (xStream).** If the window size is a multiple of the period, then from the end of the second window on no
instance's score changes any more. -/
theorem C197_xstream {β : Type*} (mmh3 : String → ℕ → ℕ) (log2 : K → K) (q : StreamhashState K) (W : ℕ) (hW : 1 ≤ W)
    (draws : List (XsDraw K k)) (hd : draws ≠ []) (hfs : ∀ draw ∈ draws, draw.fs ≠ []) {p : ℕ} {f : ℕ → List K}
    (hf : RepeatsEvery p f) (hp : p ∣ W) (cs cs' : List (Call (List K) β)) {m m' : ℕ}
    (hc : fitted cs = firstOf f m) (hc' : fitted cs' = firstOf f m') (hm : 2 * W ≤ m) (hm' : 2 * W ≤ m') (x : List K) :
    (call (XStream.detector (β := β) mmh3 log2) (calls (XStream.detector mmh3 log2) (XStream.new q W draws) cs).2
      (.score x)).1 =
    (call (XStream.detector (β := β) mmh3 log2) (calls (XStream.detector mmh3 log2) (XStream.new q W draws) cs').2
      (.score x)).1 := by
  have himg : ∀ (cs : List (Call (List K) β)) m, fitted cs = firstOf f m →
      (XStream.images mmh3 q cs : List (Fin k → K)) = firstOf (fun i => XStream.project mmh3 q (f i)) m := by
    intro cs m h
    simp [XStream.images, h, firstOf, Function.comp_def]
  have hg : RepeatsEvery p (fun i => (XStream.project mmh3 q (f i) : Fin k → K)) := fun i => by
    simp only [hf i]
  rw [C77_xstream_score mmh3 log2 q W hW draws hd hfs cs x, C77_xstream_score mmh3 log2 q W hW draws hd hfs cs' x,
    himg cs m hc, himg cs' m' hc']
  generalize (fun i => (XStream.project mmh3 q (f i) : Fin k → K)) = g at hg
  have hwin : ∀ n j, W * (j + 1) ≤ n → (windowAt W (firstOf g n) j).Perm ((List.range W).map g) := by
    intro n j h
    rw [windowAt_firstOf g h]
    exact repeats_perm hg hp _
  have hlen : ∀ n, (firstOf g n).length = n := by simp [firstOf]
  have hj : ∀ n, 2 * W ≤ n → ∃ i, n / W = i + 2 ∧ W * (i + 2) ≤ n := by
    intro n h
    have h1 : 2 ≤ n / W := (Nat.le_div_iff_mul_le (by omega)).2 h
    refine ⟨n / W - 2, by omega, ?_⟩
    rw [Nat.sub_add_cancel h1]
    exact Nat.mul_div_le n W
  have hfound : ∀ n, 2 * W ≤ n → ∀ (fs : List (Fin k)) (r y : Fin k → K) (d : ℕ),
      foundCount W fs r (firstOf g n) y d = binCount fs r (binWidth ((List.range W).map g)) d ((List.range W).map g)
        (halfSpaceBin (fs.take (d + 1)) r (binWidth ((List.range W).map g)) y) := by
    intro n h fs r y d
    obtain ⟨i, hi, hle⟩ := hj n h
    have w0 : W * (i + 1) ≤ n := le_trans (Nat.mul_le_mul_left W (by omega)) hle
    have b1 : widthAt W (firstOf g n) (i + 1) = binWidth ((List.range W).map g) := binWidth_perm (hwin n i w0)
    have b2 : widthAt W (firstOf g n) (i + 2) = binWidth ((List.range W).map g) := binWidth_perm (hwin n (i + 1) hle)
    unfold foundCount comparedWidth currentWidth comparedWindow
    rw [hlen, hi, if_neg (by omega)]
    have e : i + 2 - 1 = i + 1 := rfl
    rw [e, b1, b2]
    unfold binCount
    exact (hwin n (i + 1) hle).countP_eq _
  simp only [chainScore, hfound m hm, hfound m' hm']

/-- **C197 (RelativeEntropy).** If the window size is a multiple of the period, every score is 0: every window agrees
with the first one. (The relative entropy of a histogram and itself is 0 and the threshold is positive.) -/
theorem C197_relent {β : Type*} (entropy : List (Num K) → List (Num K) → Num K) (isf : ℤ → Num K) (lo hi : K)
    (hne : lo ≠ hi) (n W : ℕ) (hn : 1 ≤ n) (hW : 1 ≤ W) (s0 : RelEntState K) (h0 : RelEnt.new isf lo hi n W = .ok s0)
    {p : ℕ} {f : ℕ → K} (hf : RepeatsEvery p f) (hp : p ∣ W)
    (hent : entropy (frequencies lo ((hi - lo) / n) n (firstOf f W)) (frequencies lo ((hi - lo) / n) n (firstOf f W)) = .fin 0)
    (hthr : Below (.fin 0) (isf ((n : ℤ) - 1))) (cs : List (Call K β)) {m : ℕ} (hc : fitted cs = firstOf f m) (x : K) :
    ((RelEnt.detector (β := β) entropy).scorePartial (calls (RelEnt.detector entropy) s0 cs).2 x).out = .ok 0 := by
  rw [C69_relent_score entropy isf lo hi hne n W hn hW s0 h0 cs x, hc]
  simp only [Res.out_ok]
  by_cases hm : m < W
  · rw [if_pos (by simpa [firstOf] using hm)]
  · have e1 : (lastN W (firstOf f m)).Perm (firstOf f W) := by
      rw [firstOf_last f (by omega)]
      exact repeats_perm hf hp _
    have e2 : (firstOf f m).take W = firstOf f W := by
      have := firstOf_slice f (n := m) (a := 0) (m := W) (by omega)
      simpa [firstOf] using this
    rw [if_neg (by simpa [firstOf] using hm), frequencies_perm _ _ _ e1, e2, hent, if_pos]
    simp only [scaled, mul_zero]
    exact ⟨hthr, .infinity 0⟩

end

/-! ### KNNCAD -/

section
variable {K : Type*} [Field K] [LinearOrder K] [IsStrictOrderedRing K]

/-- What is expected of `np.linalg.inv`, for matrices of second moments: a result is an inverse. -/
def Spec.InvertsMoments (inv : List (List K) → Option (List (List K))) : Prop :=
  ∀ T m, inv (secondMoments T) = some m → ∀ i < 19, ∀ j < 19,
    ∑ l ∈ Finset.range 19, ((secondMoments T).getD i []).getD l 0 * (m.getD l []).getD j 0 = if i = j then 1 else 0

omit [LinearOrder K] [IsStrictOrderedRing K] in
private theorem moments_entry (T : List (List K)) {i j : ℕ} (hi : i < 19) (hj : j < 19) :
    ((secondMoments T).getD i []).getD j 0 = (T.map fun t => t.getD i 0 * t.getD j 0).sum := by
  unfold secondMoments
  simp [List.getD_eq_getElem?_getD, hi, hj]

/-- The form is nonnegative. -/
def NonnegForm (σ : List (List K)) : Prop := ∀ a b, 0 ≤ squaredDistance σ a b

omit [LinearOrder K] [IsStrictOrderedRing K] in
private theorem form_eq (σ : List (List K)) (a b : List K) :
    squaredDistance σ a b = ∑ i ∈ Finset.range 19, (a.getD i 0 - b.getD i 0) *
      ∑ j ∈ Finset.range 19, (σ.getD i []).getD j 0 * (a.getD j 0 - b.getD j 0) := by
  unfold squaredDistance
  refine Finset.sum_congr rfl fun i _ => ?_
  rw [Finset.mul_sum]
  exact Finset.sum_congr rfl fun j _ => by ring

private theorem nonneg_identity : NonnegForm (identity19 : List (List K)) := by
  intro a b
  rw [form_eq]
  refine Finset.sum_nonneg fun i hi => ?_
  have hi' := Finset.mem_range.1 hi
  rw [Finset.sum_eq_single i]
  · unfold identity19
    simp only [List.getD_eq_getElem?_getD, List.getElem?_map, List.getElem?_range hi', Option.map_some,
      Option.getD_some, if_true, one_mul]
    exact mul_self_nonneg _
  · intro j hj hne
    have hj' := Finset.mem_range.1 hj
    unfold identity19
    simp only [List.getD_eq_getElem?_getD, List.getElem?_map, List.getElem?_range hi', List.getElem?_range hj',
      Option.map_some, Option.getD_some, if_neg hne.symm, zero_mul]
  · exact fun h => absurd hi h

omit [LinearOrder K] [IsStrictOrderedRing K] in
private theorem sum_moments (T : List (List K)) (e : ℕ → K) :
    ∑ i ∈ Finset.range 19, (∑ l ∈ Finset.range 19, (T.map fun t => t.getD i 0 * t.getD l 0).sum * e l) * e i =
      (T.map fun t => (∑ i ∈ Finset.range 19, t.getD i 0 * e i) ^ 2).sum := by
  induction T with
  | nil => simp
  | cons t T ih =>
    simp only [List.map_cons, List.sum_cons, ← ih]
    have e1 : (∑ i ∈ Finset.range 19, t.getD i 0 * e i) ^ 2 =
        ∑ i ∈ Finset.range 19, (∑ l ∈ Finset.range 19, (t.getD i 0 * t.getD l 0) * e l) * e i := by
      rw [sq, Finset.sum_mul_sum]
      refine Finset.sum_congr rfl fun i _ => ?_
      rw [Finset.sum_mul]
      exact Finset.sum_congr rfl fun l _ => by ring
    rw [e1, ← Finset.sum_add_distrib]
    refine Finset.sum_congr rfl fun i _ => ?_
    rw [← add_mul, ← Finset.sum_add_distrib]
    congr 1
    exact Finset.sum_congr rfl fun l _ => by ring

private theorem nonneg_inverse {inv : List (List K) → Option (List (List K))} (h : InvertsMoments inv)
    {T m : List (List K)} (hm : inv (secondMoments T) = some m) : NonnegForm m := by
  intro a b
  rw [form_eq]
  set d : ℕ → K := fun i => a.getD i 0 - b.getD i 0 with hd
  set e : ℕ → K := fun i => ∑ j ∈ Finset.range 19, (m.getD i []).getD j 0 * d j with he
  have hGe : ∀ i < 19, ∑ l ∈ Finset.range 19, (T.map fun t => t.getD i 0 * t.getD l 0).sum * e l = d i := by
    intro i hi
    have h1 : ∀ l ∈ Finset.range 19, (T.map fun t => t.getD i 0 * t.getD l 0).sum * e l =
        ∑ j ∈ Finset.range 19, (((secondMoments T).getD i []).getD l 0 * (m.getD l []).getD j 0) * d j := by
      intro l hl
      rw [moments_entry T hi (Finset.mem_range.1 hl), he, Finset.mul_sum]
      exact Finset.sum_congr rfl fun j _ => by ring
    rw [Finset.sum_congr rfl h1, Finset.sum_comm]
    have h2 : ∀ j ∈ Finset.range 19, (∑ l ∈ Finset.range 19,
        (((secondMoments T).getD i []).getD l 0 * (m.getD l []).getD j 0) * d j) = (if i = j then 1 else 0) * d j := by
      intro j hj
      rw [← Finset.sum_mul, h T m hm i hi j (Finset.mem_range.1 hj)]
    rw [Finset.sum_congr rfl h2]
    simp [Finset.sum_ite_eq, hi]
  have e2 : ∑ i ∈ Finset.range 19, d i * e i =
      (T.map fun t => (∑ i ∈ Finset.range 19, t.getD i 0 * e i) ^ 2).sum := by
    rw [← sum_moments]
    exact Finset.sum_congr rfl fun i hi => by rw [hGe i (Finset.mem_range.1 hi)]
  change 0 ≤ ∑ i ∈ Finset.range 19, d i * e i
  rw [e2]
  refine List.sum_nonneg fun y hy => ?_
  obtain ⟨t, -, rfl⟩ := List.mem_map.1 hy
  exact sq_nonneg _

private theorem nonneg_matrixAt {inv : List (List K) → Option (List (List K))} (h : InvertsMoments inv) (P : ℕ)
    (X : List K) (n : ℕ) : NonnegForm (matrixAt inv P X n) := by
  induction n with
  | zero => exact nonneg_identity
  | succ n ih =>
    unfold matrixAt
    split
    · cases hm : inv (secondMoments (trainingAt P X n)) with
      | none => exact ih
      | some m => exact nonneg_inverse h hm
    · exact ih

private theorem strangeness_nonneg (m : ℕ) {σ : List (List K)} (h : NonnegForm σ) (T : List (List K)) (item : List K) :
    0 ≤ strangeness m σ T item := by
  unfold strangeness sumOfLeast
  refine List.sum_nonneg fun y hy => ?_
  have := List.mem_of_mem_take hy
  rw [Multiset.mem_sort, Multiset.mem_map] at this
  obtain ⟨t, -, rfl⟩ := this
  exact h _ _

omit [IsStrictOrderedRing K] in
private theorem take_zeros (s : List K) (hs : s.Pairwise (· ≤ ·)) (h0 : ∀ y ∈ s, 0 ≤ y) (m : ℕ) (hm : m ≤ s.count 0) :
    (s.take m).sum = 0 := by
  induction s generalizing m with
  | nil => simp
  | cons a s ih =>
    cases m with
    | zero => simp
    | succ m =>
      have ha : a = 0 := by
        by_contra hc
        have hpos : 0 < a := lt_of_le_of_ne (h0 a (by simp)) (Ne.symm hc)
        have : (a :: s).count 0 = 0 := by
          rw [List.count_eq_zero]
          intro hmem
          rcases List.mem_cons.1 hmem with h | h
          · exact hc h.symm
          · exact absurd ((List.pairwise_cons.1 hs).1 0 h) (not_le.2 hpos)
        omega
      subst ha
      rw [List.take_succ_cons, List.sum_cons, zero_add]
      refine ih (List.pairwise_cons.1 hs).2 (fun y hy => h0 y (by simp [hy])) m ?_
      rw [List.count_cons_self] at hm
      omega

omit [IsStrictOrderedRing K] in
private theorem strangeness_zero (m : ℕ) {σ : List (List K)} (h : NonnegForm σ) (T : List (List K)) (item : List K)
    (hc : m ≤ T.count item) : strangeness m σ T item = 0 := by
  unfold strangeness sumOfLeast
  refine take_zeros _ (Multiset.pairwise_sort _ _) (fun y hy => ?_) m ?_
  · rw [Multiset.mem_sort, Multiset.mem_map] at hy
    obtain ⟨t, -, rfl⟩ := hy
    exact h _ _
  · rw [← Multiset.coe_count, Multiset.sort_eq, Multiset.map_coe, Multiset.coe_count]
    refine hc.trans ?_
    have e : squaredDistance σ item item = 0 := by simp [squaredDistance]
    rw [← e]
    exact List.count_le_count_map (f := fun t => squaredDistance σ t item)

/-- The segment that ends at record `j`. -/
private theorem segment_firstOf {α : Type*} (f : ℕ → α) {n j : ℕ} (h19 : 19 ≤ j) (hj : j ≤ n) :
    segment (firstOf f n) j = (List.range 19).map fun i => f (j - 19 + i) := by
  have e : (firstOf f n).take j = firstOf f j := by
    have := firstOf_slice f (n := n) (a := 0) (m := j) (by omega)
    simpa [firstOf] using this
  have := firstOf_last f (n := j) h19
  rw [← this, Spec.segment, e]
  simp [lastN, firstOf]

omit [Field K] [IsStrictOrderedRing K] in
/-- Among the segments ending at `P - 19` consecutive records, any one of the stream occurs 27 times. -/
private theorem count_segments {f : ℕ → K} {p : ℕ} (hp : 1 ≤ p) (hf : RepeatsEvery p f) {n a b j : ℕ} (ha : 19 ≤ a)
    (hb : b ≤ n) (hab : 27 * p ≤ b + 1 - a) (hj : 19 ≤ j) (hjn : j ≤ n) :
    27 ≤ (segments (firstOf f n) a b).count (segment (firstOf f n) j) := by
  unfold segments
  obtain ⟨c, hc⟩ : ∃ c, b + 1 - a = 27 * p + c := ⟨_, (Nat.add_sub_of_le hab).symm⟩
  have key : ∀ q, ∀ a, 19 ≤ a → a + q * p ≤ n + 1 →
      q ≤ ((List.range' a (q * p)).map (segment (firstOf f n))).count (segment (firstOf f n) j) := by
    intro q
    induction q with
    | zero => intros; exact Nat.zero_le _
    | succ q ih =>
      intro a ha hle
      rw [Nat.succ_mul] at hle
      rw [Nat.succ_mul, Nat.add_comm (q * p) p, ← List.range'_append_1, List.map_append, List.count_append]
      have h1 := ih (a + p) (by omega) (by omega)
      have h2 : 1 ≤ ((List.range' a p).map (segment (firstOf f n))).count (segment (firstOf f n) j) := by
        rw [Nat.one_le_iff_ne_zero, ← Nat.pos_iff_ne_zero, List.count_pos_iff, List.mem_map]
        obtain ⟨i, hi1, hi2, hi3⟩ : ∃ i, a ≤ i ∧ i < a + p ∧ i % p = j % p := by
          refine ⟨a + (j + p * a - a) % p, by omega, by have := Nat.mod_lt (j + p * a - a) hp; omega, ?_⟩
          have hle : a ≤ j + p * a := le_trans (Nat.le_mul_of_pos_left a hp) (by omega)
          rw [Nat.add_mod_mod, Nat.add_sub_cancel' hle, Nat.add_mul_mod_self_left]
        refine ⟨i, by rw [List.mem_range'_1]; omega, ?_⟩
        rw [segment_firstOf f (by omega) (by omega), segment_firstOf f hj hjn]
        refine List.map_congr_left fun l _ => repeats_mod hf ?_
        have h3 : (i - 19 + l + 19) % p = (j - 19 + l + 19) % p := by
          have e1 : i - 19 + l + 19 = i + l := by omega
          have e2 : j - 19 + l + 19 = j + l := by omega
          rw [e1, e2, Nat.add_mod, hi3, ← Nat.add_mod]
        exact Nat.ModEq.add_right_cancel' 19 h3
      omega
  rw [hc, ← List.range'_append_1, List.map_append, List.count_append]
  have := key 27 a ha (by omega)
  omega

private theorem conformal_repeating {inv : List (List K) → Option (List (List K))} (h : InvertsMoments inv) {P p : ℕ}
    (hp : 1 ≤ p) (hP : 27 * p + 19 ≤ P) {f : ℕ → K} (hf : RepeatsEvery p f) {n : ℕ} (hn : P ≤ n) :
    conformalScore inv P (firstOf f n) = 0 := by
  have hlen : (firstOf f n).length = n := by simp [firstOf]
  have hnew : strangeness 27 (matrixAt inv P (firstOf f n) n) (trainingAt P (firstOf f n) n)
      (segment (firstOf f n) n) = 0 := by
    refine strangeness_zero 27 (nonneg_matrixAt h P _ n) _ _ ?_
    unfold trainingAt
    split
    · exact count_segments hp hf le_rfl (by omega) (by omega) (by omega) le_rfl
    · exact count_segments hp hf (by omega) (by omega) (by omega) (by omega) le_rfl
  have hkept : ∀ c ∈ referenceScores inv P (firstOf f n) n, 0 ≤ c := by
    intro c hc
    rcases List.mem_append.1 ((lastN_suffix _ _).subset hc) with hc | hc
    · obtain ⟨t, -, rfl⟩ := List.mem_map.1 hc
      exact strangeness_nonneg 28 (nonneg_matrixAt h P _ P) _ _
    · obtain ⟨j, -, rfl⟩ := List.mem_map.1 hc
      exact strangeness_nonneg 27 (nonneg_matrixAt h P _ j) _ _
  unfold conformalScore
  simp only [hlen, hnew]
  rw [List.countP_eq_zero.2]
  · simp
  · intro c hc
    simpa using hkept c hc

private theorem firstOf_prefix {α : Type*} {f : ℕ → α} {l r : List α} {n : ℕ} (h : l ++ r = firstOf f n) :
    l = firstOf f l.length := by
  have hl : l.length ≤ n := by
    have := congrArg List.length h
    simp [firstOf] at this
    omega
  have h1 := firstOf_slice f (n := n) (a := 0) (m := l.length) (by omega)
  rw [← h] at h1
  simpa [firstOf] using h1

variable {β : Type*}

private theorem knn_repeating {inv : List (List K) → Option (List (List K))} (h : InvertsMoments inv) {P p : ℕ}
    (hp : 1 ≤ p) (hP48 : 48 ≤ P) (hP : 27 * p + 19 ≤ P) {f : ℕ → K} (hf : RepeatsEvery p f)
    (cs : List (Call (List K) β)) : ∀ n, firstValues cs = firstOf f n →
    ∀ a ∈ scoreAnswers cs (calls (KnnCad.detector inv) (KnnCad.new P) cs).1, ¬ isAlarm a := by
  induction cs using List.reverseRecOn with
  | nil => simp [scoreAnswers]
  | append_singleton cs c ih =>
    intro n hn
    have hlen := calls_length (d := KnnCad.detector (β := β) inv) (KnnCad.new P) cs
    have hpre := firstOf_prefix (f := f) (l := firstValues cs) (r := firstValues [c]) (n := n)
      (by rw [← hn, firstValues_append])
    have ih := ih _ hpre
    rw [calls_append]
    simp only [calls]
    rw [scoreAnswers_snoc _ _ hlen]
    cases c with
    | fit a b =>
      simp only [Call.isScore, Bool.false_eq_true, if_false, List.append_nil]
      exact ih
    | score a =>
      simp only [Call.isScore, if_true]
      intro y hy
      rcases List.mem_append.1 hy with hy | hy
      · exact ih y hy
      · rw [List.mem_singleton] at hy
        subst hy
        have hans : ∀ v, ((KnnCad.detector (β := β) inv).scorePartial
            (calls (KnnCad.detector inv) (KnnCad.new P) cs).2 a).out = .ok v → v = 0 := by
          intro v hv
          by_cases hne : fitted cs = []
          · rw [C61_knncad_unfitted inv P cs hne a] at hv
            cases hv
          by_cases hP' : P ≤ (firstValues cs).length
          · have := (C92_knncad_score (β := β) inv P hP48 cs hP' a).2 (by
              rintro ⟨z, hz, hza⟩
              exact ih z ((lastN_suffix _ _).subset hz) hza)
            rw [this, hpre, conformal_repeating h hp hP hf hP'] at hv
            cases hv
            rfl
          · rw [C61_knncad_silent inv P cs hne (Or.inr (by omega)) a] at hv
            cases hv
            rfl
        simp only [call]
        generalize (KnnCad.detector (β := β) inv).scorePartial _ a = q at hans
        cases q with
        | ok v s =>
          have := hans v rfl
          subst this
          simp only [isAlarm]
          norm_num
        | err e s => simp [isAlarm]

/-- **C197 (KNNCAD).** On a stream that repeats itself every `p` instances a detector whose probationary period is at
least `27 p + 19` (and at least 48, below which it does not work) answers 0 always, whatever else was scored. -/
theorem C197_knncad {inv : List (List K) → Option (List (List K))} (h : InvertsMoments inv) {P p : ℕ}
    (hp : 1 ≤ p) (hP48 : 48 ≤ P) (hP : 27 * p + 19 ≤ P) {f : ℕ → K} (hf : RepeatsEvery p f)
    (cs : List (Call (List K) β)) {n : ℕ} (hcs : firstValues cs = firstOf f n) (hne : fitted cs ≠ []) (x : List K) :
    ((KnnCad.detector (β := β) inv).scorePartial (calls (KnnCad.detector inv) (KnnCad.new P) cs).2 x).out = .ok 0 := by
  have hlen : (firstValues cs).length = n := by rw [hcs]; simp [firstOf]
  by_cases hP' : P ≤ n
  · rw [(C92_knncad_score (β := β) inv P hP48 cs (by omega) x).2 (by
      rintro ⟨z, hz, hza⟩
      exact knn_repeating h hp hP48 hP hf cs n hcs z ((lastN_suffix _ _).subset hz) hza), hcs,
      conformal_repeating h hp hP hf hP']
  · rw [C61_knncad_silent inv P cs hne (Or.inr (by omega)) x]
    rfl

end

/-! ### Concrete cases -/

/-- The stream 0, 1, 0, 1, … -/
def zeroOne (i : ℕ) : ℚ := (i % 2 : ℕ)

theorem zeroOne_repeats : RepeatsEvery 2 zeroOne := fun i => by simp [zeroOne]

/-- An inverse that knows one matrix. -/
def inverseOfIdentity (M : List (List ℚ)) : Option (List (List ℚ)) := if M = identity19 then some identity19 else none

theorem inverseOfIdentity_inverts : InvertsMoments inverseOfIdentity := by
  intro T m h
  unfold inverseOfIdentity at h
  split at h
  · rename_i e
    cases h
    rw [e]
    decide +kernel
  · cases h

/-- The hypothesis on the inverse is not empty: the segments may have the identity as their second moments. -/
example : inverseOfIdentity (secondMoments identity19) = some identity19 := by decide +kernel

/-- After `n` instances of 0, 1, 0, 1, … with a probationary period of 73, the score is 0. -/
example (n : ℕ) (x : List ℚ) :
    ((KnnCad.detector (β := Unit) inverseOfIdentity).scorePartial (calls (KnnCad.detector (β := Unit) inverseOfIdentity)
      (KnnCad.new 73) ((List.range (n + 1)).map fun i => .fit [zeroOne i] none)).2 x).out = .ok 0 := by
  have e : fitted ((List.range (n + 1)).map fun i => (Call.fit [zeroOne i] none : Call (List ℚ) Unit)) =
      (List.range (n + 1)).map fun i => [zeroOne i] := by
    generalize List.range (n + 1) = l
    induction l with
    | nil => rfl
    | cons i l ih => simp only [List.map_cons, fitted, ih]
  refine C197_knncad inverseOfIdentity_inverts (p := 2) (by norm_num) (by norm_num) (by norm_num) zeroOne_repeats _
    (n := n + 1) ?_ ?_ x
  · unfold firstValues
    rw [e]
    simp [firstOf, Function.comp_def]
  · rw [e]
    simp

/-- `RelativeEntropy(0, 2, n_nominal_values=2, window_size=2)` after 0, 1, 0, 1, 0: the score is 0. -/
example : ∃ s0, RelEnt.new (fun _ => .fin 1) (0 : ℚ) 2 2 2 = .ok s0 ∧
    ((RelEnt.detector (β := Unit) fun a b => if a = b then .fin 0 else .fin 10).scorePartial
      (calls (RelEnt.detector (β := Unit) fun a b => if a = b then .fin 0 else .fin 10) s0
        ((List.range 5).map fun i => .fit (zeroOne i) none)).2 0).out = .ok 0 :=
  ⟨_, rfl, C197_relent _ (fun _ => .fin 1) 0 2 (by norm_num) 2 2 (by norm_num) (by norm_num) _ rfl zeroOne_repeats
    (dvd_refl 2) (if_pos rfl) (.numbers (by norm_num)) _ (m := 5) (by decide +kernel) 0⟩

/-- The window must hold whole periods: with a window of 3 the same stream scores -1 after four instances. -/
example : ∃ s0, RelEnt.new (fun _ => .fin 1) (0 : ℚ) 2 2 3 = .ok s0 ∧
    ((RelEnt.detector (β := Unit) fun a b => if a = b then .fin 0 else .fin 10).scorePartial
      (calls (RelEnt.detector (β := Unit) fun a b => if a = b then .fin 0 else .fin 10) s0
        ((List.range 4).map fun i => .fit (zeroOne i) none)).2 0).out = .ok (-1) := by
  obtain ⟨s0, h0⟩ : ∃ s0, RelEnt.new (fun _ => .fin 1) (0 : ℚ) 2 2 3 = .ok s0 := ⟨_, rfl⟩
  refine ⟨s0, h0, ?_⟩
  have h := C69_relent_score (β := Unit) (fun a b => if a = b then .fin 0 else .fin 10) (fun _ => .fin 1) (0 : ℚ) 2
    (by norm_num) 2 3 (by norm_num) (by norm_num) s0 h0 ((List.range 4).map fun i => .fit (zeroOne i) none) 0
  rw [h, Res.out_ok]
  clear h h0 s0
  decide +kernel

end Pysad
