import Verif.Model.ScipyEntropy
import Verif.Props.RelativeEntropy
import Mathlib.Analysis.SpecialFunctions.Log.Basic
import Mathlib.Algebra.Order.Archimedean.Real.Basic

/-! Property C210: which windows `RelativeEntropy` reports. -/

namespace Pysad

open Spec

/-- The value lies in the `i`-th of `n` equal parts of `(lo, hi]`. -/
def Spec.InPart {K : Type*} [Field K] [LT K] [LE K] (lo hi : K) (n i : ℕ) (v : K) : Prop :=
  lo + (hi - lo) / n * i < v ∧ v ≤ lo + (hi - lo) / n * (i + 1)

namespace NewValues

section
variable {K : Type*} [Field K] [LinearOrder K] {log : K → K}

omit [LinearOrder K] in
theorem foldl_posInf (l : List (Num K)) (h : ∀ a ∈ l, a = .posInf ∨ ∃ x, a = .fin x) :
    l.foldl Num.add .posInf = .posInf := by
  induction l with
  | nil => rfl
  | cons a l ih =>
    rw [List.foldl_cons]
    have : Num.add .posInf a = (.posInf : Num K) := by
      rcases h a (by simp) with rfl | ⟨x, rfl⟩ <;> rfl
    rw [this]
    exact ih fun b hb => h b (by simp [hb])

omit [LinearOrder K] in
theorem foldl_mem (l : List (Num K)) (h : ∀ a ∈ l, a = .posInf ∨ ∃ x, a = .fin x) (hm : Num.posInf ∈ l) :
    ∀ x : K, l.foldl Num.add (.fin x) = .posInf := by
  induction l with
  | nil => cases hm
  | cons a l ih =>
    intro x
    rw [List.foldl_cons]
    have hl : ∀ b ∈ l, b = .posInf ∨ ∃ x, b = .fin x := fun b hb => h b (by simp [hb])
    rcases h a (by simp) with rfl | ⟨y, rfl⟩
    · exact foldl_posInf l hl
    · exact ih hl (by simpa using hm) _

theorem relEntr_cases (x y : K) : Scipy.relEntr log x y = .posInf ∨ ∃ z, Scipy.relEntr log x y = .fin z := by
  unfold Scipy.relEntr
  split_ifs
  · exact Or.inr ⟨_, rfl⟩
  · exact Or.inr ⟨_, rfl⟩
  · exact Or.inl rfl

omit [Field K] [LinearOrder K] in
theorem mapM_finite (l : List K) : (l.map Num.fin).mapM Scipy.finite = some l := by
  induction l with
  | nil => rfl
  | cons a l ih => rw [List.map_cons, List.mapM_cons, ih]; rfl

omit [Field K] [LinearOrder K] in
theorem mapM_nan {l : List (Num K)} (h : Num.nan ∈ l) : l.mapM Scipy.finite = none := by
  induction l with
  | nil => cases h
  | cons a l ih =>
    rw [List.mapM_cons]
    rcases List.mem_cons.1 h with rfl | h
    · rfl
    · rw [ih h]
      cases Scipy.finite a <;> rfl

/-- A bin with values now and none before. -/
theorem entropy_new [IsStrictOrderedRing K] {p q : List K} (hp : 0 < p.sum) (hq : 0 < q.sum) {i : ℕ} {a : K}
    (h1 : p[i]? = some a) (ha : 0 < a) (h2 : q[i]? = some 0) :
    Scipy.entropy log (p.map Num.fin) (q.map Num.fin) = .posInf := by
  unfold Scipy.entropy
  simp only [mapM_finite]
  rw [if_neg (by simp [hp.ne', hq.ne'])]
  apply foldl_mem
  · intro b hb
    obtain ⟨x, y, -, -, rfl⟩ : ∃ x y, True ∧ True ∧ b = Scipy.relEntr log x y := by
      obtain ⟨j, hj⟩ := List.mem_iff_getElem?.1 hb
      rw [List.getElem?_zipWith_eq_some] at hj
      obtain ⟨x, y, -, -, h⟩ := hj
      exact ⟨x, y, trivial, trivial, h.symm⟩
    exact relEntr_cases x y
  · refine List.mem_iff_getElem?.2 ⟨i, ?_⟩
    rw [List.getElem?_zipWith_eq_some]
    refine ⟨a / p.sum, 0, by simp [h1], by simp [h2], ?_⟩
    unfold Scipy.relEntr
    have h := div_pos ha hp
    rw [if_neg (by simp), if_neg (by rintro ⟨h', -⟩; exact h.ne' h')]

theorem entropy_nan {p q : List (Num K)} (h : Num.nan ∈ q) : Scipy.entropy log p q = .nan := by
  unfold Scipy.entropy
  rw [mapM_nan h]
  cases p.mapM Scipy.finite <;> rfl

/-- The same frequencies. -/
theorem entropy_same [IsStrictOrderedRing K] (hlog : log 1 = 0) {p : List K} (hp : 0 < p.sum)
    (h0 : ∀ x ∈ p, 0 ≤ x) : Scipy.entropy log (p.map Num.fin) (p.map Num.fin) = .fin 0 := by
  unfold Scipy.entropy
  simp only [mapM_finite]
  rw [if_neg (by simp [hp.ne'])]
  have key : ∀ l : List K, (∀ x ∈ l, 0 ≤ x) →
      (List.zipWith (Scipy.relEntr log) l l).foldl Num.add (.fin 0) = .fin 0 := by
    intro l
    induction l with
    | nil => intro _; rfl
    | cons x l ih =>
      intro hl
      have hx := hl x (by simp)
      have e : Scipy.relEntr log x x = .fin 0 := by
        unfold Scipy.relEntr
        rcases hx.lt_or_eq with h | h
        · rw [if_pos ⟨h, h⟩, div_self h.ne', hlog, mul_zero]
        · subst h; simp
      rw [List.zipWith_cons_cons, List.foldl_cons, e]
      have e2 : Num.add (.fin (0 : K)) (.fin 0) = .fin 0 := by simp [Num.add]
      rw [e2]
      exact ih fun y hy => hl y (by simp [hy])
  apply key
  intro y hy
  obtain ⟨x, hx, rfl⟩ := List.mem_map.1 hy
  exact div_nonneg (h0 x hx) hp.le

end

section
variable {K : Type*} [Field K] [LinearOrder K] [IsStrictOrderedRing K] [FloorRing K]

omit [IsStrictOrderedRing K] in
/-- The frequencies as numbers, if something was counted. -/
theorem frequencies_fin (lo step : K) (n : ℕ) (vs : List K)
    (h : 0 < ((List.range n).map (binned lo step n vs)).sum) :
    frequencies lo step n vs = ((List.range n).map fun i =>
      (binned lo step n vs i : K) / ((((List.range n).map (binned lo step n vs)).sum : ℕ) : K)).map Num.fin := by
  unfold frequencies
  rw [List.map_map]
  apply List.map_congr_left
  intro i _
  have : ((((List.range n).map (binned lo step n vs)).sum : ℕ) : K) ≠ 0 := by exact_mod_cast h.ne'
  unfold npDiv
  rw [if_neg this]
  rfl

omit [IsStrictOrderedRing K] in
theorem frequencies_nan (lo step : K) {n : ℕ} (hn : 0 < n) (vs : List K)
    (h : ((List.range n).map (binned lo step n vs)).sum = 0) : Num.nan ∈ frequencies lo step n vs := by
  unfold frequencies
  refine List.mem_map.2 ⟨0, List.mem_range.2 hn, ?_⟩
  have h0 : binned lo step n vs 0 = 0 := by
    have := List.sum_eq_zero_iff.1 h _ (List.mem_map.2 ⟨0, List.mem_range.2 hn, rfl⟩)
    exact this
  rw [h, h0]
  simp [npDiv]

omit [IsStrictOrderedRing K] in
theorem frequencies_sum (lo step : K) (n : ℕ) (vs : List K)
    (h : 0 < ((List.range n).map (binned lo step n vs)).sum) :
    ((List.range n).map fun i => (binned lo step n vs i : K) /
      ((((List.range n).map (binned lo step n vs)).sum : ℕ) : K)).sum = 1 := by
  have h' : ((((List.range n).map (binned lo step n vs)).sum : ℕ) : K) ≠ 0 := by exact_mod_cast h.ne'
  have key : ∀ (S : K) (l : List ℕ), (l.map fun i => (binned lo step n vs i : K) / S).sum =
      (((l.map (binned lo step n vs)).sum : ℕ) : K) / S := by
    intro S l
    induction l with
    | nil => simp
    | cons a l ih => rw [List.map_cons, List.sum_cons, ih, List.map_cons, List.sum_cons]; push_cast; ring
  rw [key, div_self h']

/-- A bin with values now and none before. -/
theorem new_bin (log : K → K) (lo step : K) {n : ℕ} (now before : List K) {i : ℕ} (hi : i < n)
    (h1 : 0 < binned lo step n now i) (h2 : binned lo step n before i = 0) (c : K) (T : Num K) :
    ¬ Below (scaled c (Scipy.entropy log (frequencies lo step n now) (frequencies lo step n before))) T := by
  have hs : 0 < ((List.range n).map (binned lo step n now)).sum :=
    lt_of_lt_of_le h1 (List.le_sum_of_mem (List.mem_map.2 ⟨i, List.mem_range.2 hi, rfl⟩))
  rcases Nat.eq_zero_or_pos ((List.range n).map (binned lo step n before)).sum with h0 | h0
  · rw [entropy_nan (frequencies_nan lo step (by omega) before h0)]
    nofun
  · rw [frequencies_fin _ _ _ _ hs, frequencies_fin _ _ _ _ h0,
      entropy_new (i := i) (by rw [frequencies_sum _ _ _ _ hs]; exact one_pos)
        (by rw [frequencies_sum _ _ _ _ h0]; exact one_pos)
        (a := (binned lo step n now i : K) / ((((List.range n).map (binned lo step n now)).sum : ℕ) : K))
        (by simp [hi]) (div_pos (by exact_mod_cast h1) (by exact_mod_cast hs)) (by simp [hi, h2])]
    nofun

theorem same_bins {log : K → K} (hlog : log 1 = 0) (lo step : K) (n : ℕ) (now before : List K)
    (h : frequencies lo step n now = frequencies lo step n before)
    (hs : 0 < ((List.range n).map (binned lo step n now)).sum) :
    Scipy.entropy log (frequencies lo step n now) (frequencies lo step n before) = .fin 0 := by
  rw [← h, frequencies_fin _ _ _ _ hs]
  apply entropy_same hlog
  · rw [frequencies_sum _ _ _ _ hs]; exact one_pos
  · intro x hx
    obtain ⟨i, -, rfl⟩ := List.mem_map.1 hx
    positivity

theorem ceil_range {lo hi : K} (hlt : lo < hi) {n : ℕ} (hn : 1 ≤ n) {v : K} :
    (lo < v ∧ v ≤ hi) ↔ (0 < ⌈(v - lo) / ((hi - lo) / n)⌉ ∧ ⌈(v - lo) / ((hi - lo) / n)⌉ ≤ (n : ℤ)) := by
  have hn' : (0 : K) < n := by exact_mod_cast hn
  have hstep : 0 < (hi - lo) / (n : K) := div_pos (sub_pos.2 hlt) hn'
  rw [Int.ceil_pos, Int.ceil_le, div_le_iff₀ hstep, lt_div_iff₀ hstep, zero_mul, sub_pos]
  have e : ((n : ℤ) : K) * ((hi - lo) / n) = hi - lo := by
    push_cast; field_simp
  rw [e, sub_le_sub_iff_right]

theorem ceil_in {lo hi : K} (hlt : lo < hi) {n : ℕ} (hn : 1 ≤ n) {v : K} {i : ℕ} :
    InPart lo hi n i v ↔ ⌈(v - lo) / ((hi - lo) / n)⌉ = (i : ℤ) + 1 :=
  ceil_part lo hi hlt n hn v i

/-- The number of values in the bin for part `i`, below the two topmost parts. -/
theorem binned_low {lo hi : K} (hlt : lo < hi) {n i : ℕ} (hi' : i + 2 < n) (vs : List K) :
    binned lo ((hi - lo) / n) n vs (i + 1) = inPart lo hi n vs i := by
  unfold binned inPart
  apply List.countP_congr
  intro v _
  rw [decide_eq_true_iff, decide_eq_true_iff, ceil_part lo hi hlt n (by omega) v i]
  push_cast
  omega

/-- The last bin holds the two topmost parts. -/
theorem binned_top {lo hi : K} (hlt : lo < hi) {n : ℕ} (hn : 2 ≤ n) (vs : List K) :
    binned lo ((hi - lo) / n) n vs (n - 1) = inPart lo hi n vs (n - 2) + inPart lo hi n vs (n - 1) := by
  unfold binned inPart
  induction vs with
  | nil => rfl
  | cons v vs ih =>
    rw [List.countP_cons, List.countP_cons, List.countP_cons, ih]
    simp only [decide_eq_true_eq, ceil_part lo hi hlt n (by omega : 1 ≤ n)]
    split_ifs <;> omega

theorem binned_zero {lo hi : K} (hlt : lo < hi) {n : ℕ} (hn : 2 ≤ n) {vs : List K}
    (h : ∀ v ∈ vs, lo < v ∧ v ≤ hi) : binned lo ((hi - lo) / n) n vs 0 = 0 := by
  unfold binned
  rw [List.countP_eq_zero]
  intro v hv
  have := (ceil_range hlt (by omega : 1 ≤ n)).1 (h v hv)
  rw [decide_eq_true_iff]
  push_cast
  omega

theorem counted_pos {lo hi : K} (hlt : lo < hi) {n : ℕ} (hn : 1 ≤ n) {vs : List K} {v : K} (hv : v ∈ vs)
    (h : lo < v ∧ v ≤ hi) : 0 < ((List.range n).map (binned lo ((hi - lo) / n) n vs)).sum := by
  obtain ⟨h1, h2⟩ := (ceil_range hlt hn).1 h
  obtain ⟨c, hc⟩ : ∃ c : ℕ, ⌈(v - lo) / ((hi - lo) / n)⌉ = c := ⟨_, (Int.toNat_of_nonneg h1.le).symm⟩
  have key : ∀ i, i < n → ((i : ℤ) ≤ c ∧ ((c : ℤ) < i + 1 ∨ (i + 1 = n ∧ (c : ℤ) = n))) →
      0 < ((List.range n).map (binned lo ((hi - lo) / n) n vs)).sum := by
    intro i hi' hb
    refine lt_of_lt_of_le ?_ (List.le_sum_of_mem (List.mem_map.2 ⟨i, List.mem_range.2 hi', rfl⟩))
    unfold binned
    rw [List.countP_pos_iff]
    refine ⟨v, hv, ?_⟩
    rw [decide_eq_true_iff, hc]
    exact hb
  rw [hc] at h1 h2
  rcases Nat.lt_or_ge c n with h | h
  · exact key c h (by omega)
  · exact key (n - 1) (by omega) (by omega)

/-- Values above the range, or a step or more below it, leave the frequencies as they are. -/
theorem frequencies_outside {lo hi : K} (hlt : lo < hi) {n : ℕ} (hn : 1 ≤ n) (vs ws : List K)
    (h : ∀ w ∈ ws, hi < w ∨ w ≤ lo - (hi - lo) / n) :
    frequencies lo ((hi - lo) / n) n (vs ++ ws) = frequencies lo ((hi - lo) / n) n vs := by
  have hstep : 0 < (hi - lo) / (n : K) := div_pos (sub_pos.2 hlt) (by exact_mod_cast hn)
  have key : ∀ i ∈ List.range n,
      binned lo ((hi - lo) / n) n (vs ++ ws) i = binned lo ((hi - lo) / n) n vs i := by
    intro i hi'
    have hin := List.mem_range.1 hi'
    unfold binned
    rw [List.countP_append, Nat.add_eq_left, List.countP_eq_zero]
    intro w hw
    rw [decide_eq_true_iff]
    rcases h w hw with hw' | hw'
    · have := mt (ceil_range hlt hn (v := w)).2 (by rintro ⟨-, h⟩; exact absurd hw' (not_lt.2 h))
      have hp : 0 < ⌈(w - lo) / ((hi - lo) / n)⌉ := by
        rw [Int.ceil_pos]
        exact div_pos (by linarith) hstep
      omega
    · have hp : ⌈(w - lo) / ((hi - lo) / n)⌉ ≤ -1 := by
        rw [Int.ceil_le, div_le_iff₀ hstep]
        push_cast
        linarith
      omega
  unfold frequencies
  rw [List.map_congr_left key]
  exact List.map_congr_left fun i hi' => by rw [key i hi']

/-- Equal values have the frequencies of one of them. -/
theorem frequencies_replicate (lo step : K) (n : ℕ) {a : ℕ} (ha : 1 ≤ a) (v : K) :
    frequencies lo step n (List.replicate a v) = frequencies lo step n [v] := by
  have key : ∀ i, binned lo step n (List.replicate a v) i = a * binned lo step n [v] i := by
    intro i
    unfold binned
    rw [List.countP_replicate, List.countP_singleton]
    split_ifs <;> simp
  have hsum : ((List.range n).map (binned lo step n (List.replicate a v))).sum =
      a * ((List.range n).map (binned lo step n [v])).sum := by
    rw [funext key, List.sum_map_mul_left]
  have ha' : (a : K) ≠ 0 := by
    have : (0 : K) < a := by exact_mod_cast ha
    exact this.ne'
  unfold frequencies
  rw [hsum]
  apply List.map_congr_left
  intro i _
  rw [key, Nat.cast_mul, Nat.cast_mul]
  unfold npDiv
  by_cases h : ((((List.range n).map (binned lo step n [v])).sum : ℕ) : K) = 0
  · have h0 : ((List.range n).map (binned lo step n [v])).sum = 0 := by exact_mod_cast h
    have hz : binned lo step n [v] i = 0 := by
      have := List.sum_eq_zero_iff.1 h0 _ (List.mem_map.2 ⟨i, by assumption, rfl⟩)
      exact this
    rw [hz, h]; simp
  · rw [if_neg (mul_ne_zero ha' h), if_neg h, mul_div_mul_left _ _ ha']

end

end NewValues

open NewValues

variable {β : Type*}

/-- What `score_partial` answers after the calls `cs` on the detector `s0`. -/
noncomputable def Spec.relEntAnswer (s0 : RelEntState ℝ) (cs : List (Call ℝ β)) (x : ℝ) : Except PyErr ℤ :=
  ((RelEnt.detector (β := β) (Scipy.entropy Real.log)).scorePartial
    (calls (RelEnt.detector (Scipy.entropy Real.log)) s0 cs).2 x).out

/-- The value lies in a part of the range in which none of the values `before` lie, or outside of the range. -/
def Spec.NewValue (lo hi : ℝ) (n : ℕ) (before : List ℝ) (v : ℝ) : Prop :=
  ¬ (lo < v ∧ v ≤ hi) ∨ ∃ i < n, InPart lo hi n i v ∧ ∀ u ∈ before, ¬ InPart lo hi n i u

/-- **C210, as one would expect it**: with a first window inside the range, a window with a value where the first one had
none is reported. -/
def C210_statement : Prop :=
  ∀ (isf : ℤ → Num ℝ) (lo hi : ℝ), lo < hi → ∀ n W : ℕ, 2 ≤ n → 1 ≤ W →
  ∀ s0, RelEnt.new isf lo hi n W = .ok s0 →
  ∀ (cs : List (Call ℝ Unit)) (x : ℝ), W ≤ (fitted cs).length → (∀ u ∈ (fitted cs).take W, lo < u ∧ u ≤ hi) →
  (∃ v ∈ lastN W (fitted cs), NewValue lo hi n ((fitted cs).take W) v) →
  relEntAnswer s0 cs x = .ok (-1)

/-- **C210 (partial).** A window with a value in a part of the range in which the first window had none is reported: its
score is -1. For the two topmost parts, which share a bin, the first window must have had no value in either. -/
theorem C210_new_partial (isf : ℤ → Num ℝ) (lo hi : ℝ) (hlt : lo < hi) (n W : ℕ) (hn : 2 ≤ n) (hW : 1 ≤ W)
    (s0 : RelEntState ℝ) (h0 : RelEnt.new isf lo hi n W = .ok s0) (cs : List (Call ℝ β)) (x : ℝ)
    (hl : W ≤ (fitted cs).length) (i : ℕ) (hi' : i < n)
    (hnow : ∃ v ∈ lastN W (fitted cs), InPart lo hi n i v)
    (hnew : ∀ u ∈ (fitted cs).take W, ¬ InPart lo hi n i u)
    (htop : n ≤ i + 2 → ∀ u ∈ (fitted cs).take W, ¬ InPart lo hi n (n - 2) u ∧ ¬ InPart lo hi n (n - 1) u) :
    relEntAnswer s0 cs x = .ok (-1) := by
  have h := C69_relent_score (β := β) (Scipy.entropy Real.log) isf lo hi hlt.ne n W (by omega) hW s0 h0 cs x
  simp only at h
  unfold relEntAnswer
  rw [h, if_neg (by omega), if_neg]
  · rfl
  rintro ⟨hb, -⟩
  revert hb
  obtain ⟨v, hv, hvi⟩ := hnow
  have hpos : ∀ j, 0 < inPart lo hi n (lastN W (fitted cs)) j ↔ ∃ v ∈ lastN W (fitted cs), InPart lo hi n j v := by
    intro j
    unfold inPart
    rw [List.countP_pos_iff]
    simp only [decide_eq_true_eq]
    rfl
  have hzero : ∀ j, (∀ u ∈ (fitted cs).take W, ¬ InPart lo hi n j u) → inPart lo hi n ((fitted cs).take W) j = 0 := by
    intro j hj
    unfold inPart
    rw [List.countP_eq_zero]
    intro u hu
    rw [decide_eq_true_iff]
    exact hj u hu
  have hp := (hpos i).2 ⟨v, hv, hvi⟩
  rcases Nat.lt_or_ge (i + 2) n with hc | hc
  · exact new_bin Real.log lo _ _ _ (i := i + 1) (by omega) (by rw [binned_low hlt hc]; exact hp)
      (by rw [binned_low hlt hc]; exact hzero i hnew) _ _
  · refine new_bin Real.log lo _ _ _ (i := n - 1) (by omega) ?_ ?_ _ _
    · rw [binned_top hlt hn]
      rcases (by omega : i = n - 2 ∨ i = n - 1) with rfl | rfl <;> omega
    · rw [binned_top hlt hn, hzero _ fun u hu => (htop hc u hu).1, hzero _ fun u hu => (htop hc u hu).2]

/-- **C210 (partial).** A window that has as many values in each part of the range as the first one is not reported,
provided the threshold is positive; the two topmost parts count together. -/
theorem C210_same_partial (isf : ℤ → Num ℝ) (lo hi : ℝ) (hlt : lo < hi) (n W : ℕ) (hn : 2 ≤ n) (hW : 1 ≤ W)
    (hT : Below (.fin 0) (isf ((n : ℤ) - 1)))
    (s0 : RelEntState ℝ) (h0 : RelEnt.new isf lo hi n W = .ok s0) (cs : List (Call ℝ β)) (x : ℝ)
    (hb : ∀ u ∈ (fitted cs).take W, lo < u ∧ u ≤ hi) (hr : ∀ u ∈ lastN W (fitted cs), lo < u ∧ u ≤ hi)
    (hlow : ∀ i, i + 2 < n → inPart lo hi n (lastN W (fitted cs)) i = inPart lo hi n ((fitted cs).take W) i)
    (htop : inPart lo hi n (lastN W (fitted cs)) (n - 2) + inPart lo hi n (lastN W (fitted cs)) (n - 1) =
      inPart lo hi n ((fitted cs).take W) (n - 2) + inPart lo hi n ((fitted cs).take W) (n - 1)) :
    relEntAnswer s0 cs x = .ok 0 := by
  have h := C69_relent_score (β := β) (Scipy.entropy Real.log) isf lo hi hlt.ne n W (by omega) hW s0 h0 cs x
  simp only at h
  unfold relEntAnswer
  rw [h]
  split_ifs with h1 h2
  · rfl
  · rfl
  exfalso
  apply h2
  have hbin : ∀ i ∈ List.range n, binned lo ((hi - lo) / n) n (lastN W (fitted cs)) i =
      binned lo ((hi - lo) / n) n ((fitted cs).take W) i := by
    intro i hi'
    have := List.mem_range.1 hi'
    rcases i with _ | i
    · rw [binned_zero hlt hn hb, binned_zero hlt hn hr]
    · rcases Nat.lt_or_ge (i + 2) n with hc | hc
      · rw [binned_low hlt hc, binned_low hlt hc, hlow i hc]
      · obtain rfl : n = i + 2 := by omega
        have e1 := binned_top hlt hn (lastN W (fitted cs))
        have e2 := binned_top hlt hn ((fitted cs).take W)
        rw [show i + 2 - 1 = i + 1 by omega] at e1 e2 htop
        rw [e1, e2, htop]
  have hf : frequencies lo ((hi - lo) / n) n (lastN W (fitted cs)) =
      frequencies lo ((hi - lo) / n) n ((fitted cs).take W) := by
    unfold frequencies
    rw [List.map_congr_left hbin]
    exact List.map_congr_left fun i hi' => by rw [hbin i hi']
  have hlen : (lastN W (fitted cs)).length = W := by
    unfold lastN; rw [List.length_drop]; omega
  obtain ⟨v, hv⟩ : ∃ v, v ∈ lastN W (fitted cs) := by
    apply List.exists_mem_of_length_pos; omega
  rw [same_bins Real.log_one lo _ n _ _ hf (counted_pos hlt (by omega) hv (hr v hv))]
  simp only [scaled, mul_zero]
  exact ⟨hT, .infinity _⟩

/-- **C210 (partial).** A value at or below the lower end of the range, by less than the width of a bin, is reported too
when the first window lies in the range. -/
theorem C210_below_partial (isf : ℤ → Num ℝ) (lo hi : ℝ) (hlt : lo < hi) (n W : ℕ) (hn : 2 ≤ n) (hW : 1 ≤ W)
    (s0 : RelEntState ℝ) (h0 : RelEnt.new isf lo hi n W = .ok s0) (cs : List (Call ℝ β)) (x : ℝ)
    (hl : W ≤ (fitted cs).length) (hb : ∀ u ∈ (fitted cs).take W, lo < u ∧ u ≤ hi)
    (hnow : ∃ v ∈ lastN W (fitted cs), lo - (hi - lo) / n < v ∧ v ≤ lo) :
    relEntAnswer s0 cs x = .ok (-1) := by
  have h := C69_relent_score (β := β) (Scipy.entropy Real.log) isf lo hi hlt.ne n W (by omega) hW s0 h0 cs x
  simp only at h
  unfold relEntAnswer
  rw [h, if_neg (by omega), if_neg]
  · rfl
  rintro ⟨hb', -⟩
  revert hb'
  obtain ⟨v, hv, hv1, hv2⟩ := hnow
  have hn' : (0 : ℝ) < n := by exact_mod_cast (show 0 < n by omega)
  have hstep : 0 < (hi - lo) / (n : ℝ) := div_pos (sub_pos.2 hlt) hn'
  refine new_bin Real.log lo _ _ _ (i := 0) (by omega) ?_ (binned_zero hlt hn hb) _ _
  unfold binned
  rw [List.countP_pos_iff]
  refine ⟨v, hv, ?_⟩
  have : ⌈(v - lo) / ((hi - lo) / n)⌉ = 0 := by
    rw [Int.ceil_eq_iff, lt_div_iff₀ hstep, div_le_iff₀ hstep]
    push_cast
    constructor <;> linarith
  rw [decide_eq_true_iff, this]
  simp

/-- **C210 fails for values outside of the range**, with every configuration whose threshold is positive: after a first window
of equal values, up to `W - 1` values that
are above `max_val`, or below `min_val` by the width of a bin or more, are not reported. -/
theorem C210_outside_refuted (isf : ℤ → Num ℝ) (lo hi : ℝ) (hlt : lo < hi) (n W : ℕ) (hn : 1 ≤ n)
    (hT : Below (.fin 0) (isf ((n : ℤ) - 1)))
    (s0 : RelEntState ℝ) (h0 : RelEnt.new isf lo hi n W = .ok s0) (v : ℝ) (hv : lo < v ∧ v ≤ hi)
    (zs : List ℝ) (hz : ∀ z ∈ zs, hi < z ∨ z ≤ lo - (hi - lo) / n) (hk : zs.length < W) (x : ℝ) :
    relEntAnswer s0 ((List.replicate W v ++ zs).map fun z => (Call.fit z none : Call ℝ β)) x = .ok 0 := by
  have h := C69_relent_score (β := β) (Scipy.entropy Real.log) isf lo hi hlt.ne n W hn (by omega) s0 h0
    ((List.replicate W v ++ zs).map fun z => (Call.fit z none : Call ℝ β)) x
  simp only [fitted_map_fit] at h
  unfold relEntAnswer
  rw [h, if_neg (by simp)]
  have e1 : (List.replicate W v ++ zs).take W = List.replicate W v := by
    rw [List.take_append_of_le_length (by simp), List.take_of_length_le (by simp)]
  have e2 : lastN W (List.replicate W v ++ zs) = List.replicate (W - zs.length) v ++ zs := by
    unfold lastN
    rw [List.length_append, List.length_replicate, List.drop_append_of_le_length (by simp; omega),
      List.drop_replicate]
    congr 2; omega
  have hf : frequencies lo ((hi - lo) / n) n (List.replicate (W - zs.length) v ++ zs) =
      frequencies lo ((hi - lo) / n) n (List.replicate W v) := by
    rw [frequencies_outside hlt hn _ _ hz, frequencies_replicate _ _ _ (by omega), frequencies_replicate _ _ _ (by omega)]
  rw [e1, e2, same_bins Real.log_one lo _ n _ _ hf (counted_pos hlt hn (v := v)
    (List.mem_append_left _ (List.mem_replicate.2 ⟨by omega, rfl⟩)) hv), if_pos]
  · rfl
  · simp only [scaled, mul_zero]
    exact ⟨hT, .infinity _⟩

/-- **C210 fails for the two topmost parts**: range `(0, 2]`, two bins, windows of one value; 2 after 1. -/
theorem C210_top_refuted : ¬ C210_statement := by
  intro h
  have h1 := h (fun _ => .fin 1) 0 2 (by norm_num) 2 1 le_rfl le_rfl _ rfl [.fit 1 none, .fit 2 none] 0 (by simp [fitted])
    (by simp [fitted]) ⟨2, by simp [fitted, lastN], Or.inr ⟨1, by norm_num, by norm_num [InPart], by
      simp [fitted, InPart]⟩⟩
  have h2 := C210_same_partial (β := Unit) (fun _ => .fin 1) 0 2 (by norm_num) 2 1 le_rfl le_rfl
    (.numbers one_pos) _ rfl [.fit 1 none, .fit 2 none] 0 (by simp [fitted]) (by simp [fitted, lastN])
    (by intro i hi; omega) (by norm_num [inPart, fitted, lastN])
  rw [h2] at h1
  exact absurd h1 (by decide)

/-- The hypotheses of `C210_new_partial` in a concrete case: range `(0, 4]`, four bins, windows of two values; the first
window has 1 and 5/2, the last one has 5/2 and 2. -/
example (isf : ℤ → Num ℝ) : ∃ s0, RelEnt.new isf 0 4 4 2 = .ok s0 ∧
    relEntAnswer s0 ([.fit 1 none, .fit (5 / 2) none, .score 0, .fit 2 none] : List (Call ℝ Unit)) 0 = .ok (-1) := by
  refine ⟨_, rfl, C210_new_partial isf 0 4 (by norm_num) 4 2 (by norm_num) (by norm_num) _ rfl _ 0 (by simp [fitted])
    1 (by norm_num) ⟨2, by simp [fitted, lastN], by norm_num [InPart]⟩ ?_ (by omega)⟩
  intro u hu
  simp only [fitted, List.take, List.mem_cons, List.not_mem_nil, or_false] at hu
  rcases hu with rfl | rfl <;> norm_num [InPart]

/-- The hypotheses of `C210_outside_refuted` in a concrete case: windows of three values, 9 above the range and -1
below it. -/
example : ∃ s0, RelEnt.new (fun _ => Num.fin (1 : ℝ)) 0 4 4 3 = .ok s0 ∧
    relEntAnswer s0 ([.fit 1 none, .fit 1 none, .fit 1 none, .fit 9 none, .fit (-1) none] : List (Call ℝ Unit)) 0 =
      .ok 0 :=
  ⟨_, rfl, C210_outside_refuted (fun _ => .fin 1) 0 4 (by norm_num) 4 3 (by norm_num) (.numbers one_pos) _ rfl 1
    (by norm_num) [9, -1] (by norm_num) (by simp) 0⟩

/-- The hypotheses of `C210_below_partial` in a concrete case. -/
example (isf : ℤ → Num ℝ) : ∃ s0, RelEnt.new isf 0 4 4 2 = .ok s0 ∧
    relEntAnswer s0 ([.fit 1 none, .fit 3 none, .fit (-1 / 2) none] : List (Call ℝ Unit)) 0 = .ok (-1) := by
  refine ⟨_, rfl, C210_below_partial isf 0 4 (by norm_num) 4 2 (by norm_num) (by norm_num) _ rfl _ 0 (by simp [fitted])
    ?_ ⟨-1 / 2, by simp [fitted, lastN], by norm_num⟩⟩
  intro u hu
  simp only [fitted, List.take, List.mem_cons, List.not_mem_nil, or_false] at hu
  rcases hu with rfl | rfl <;> norm_num

end Pysad
