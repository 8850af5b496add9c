import Verif.Props.WindowChange

/-! Property C216: what `RelativeEntropy` can report with a small window. -/

namespace Pysad

open Spec

namespace SmallWindow

open NewValues StuckWindow WindowChange

variable {lo hi : ℝ} {n W : ℕ}

theorem inBin_le (X : List ℝ) (hlt : lo < hi) (hn : 2 ≤ n) (hW : 1 ≤ W) (hX : X.length = W)
    (hr : ∀ v ∈ X, lo < v ∧ v ≤ hi) (j : ℕ) (hj : j < n) : rel lo hi n W X j ≤ 1 := by
  rw [← rel_sum hlt hn hW hX hr]
  exact Finset.single_le_sum (f := fun j => rel lo hi n W X j) (fun j _ => rel_nonneg X j) (Finset.mem_range.2 hj)

/-- The relative entropy of two windows is at most the logarithm of their size. -/
theorem entropy_le_log (hlt : lo < hi) (hn : 2 ≤ n) (hW : 1 ≤ W) {now before : List ℝ} (hX : now.length = W)
    (hr : ∀ v ∈ now, lo < v ∧ v ≤ hi)
    (h : ∀ i < n - 1, inBin lo hi n before i = 0 → inBin lo hi n now i = 0) :
    ∑ j ∈ Finset.range n, rel lo hi n W now j * Real.log (rel lo hi n W now j / rel lo hi n W before j) ≤
      Real.log W := by
  have hWr : (0 : ℝ) < W := by exact_mod_cast hW
  have key : ∀ j ∈ Finset.range n, rel lo hi n W now j * Real.log (rel lo hi n W now j / rel lo hi n W before j) ≤
      rel lo hi n W now j * Real.log W := by
    intro j hj
    have hj' := Finset.mem_range.1 hj
    have h1 := rel_nonneg (lo := lo) (hi := hi) (n := n) (W := W) now j
    rcases h1.lt_or_eq with hp | hp
    · have hb : 1 / (W : ℝ) ≤ rel lo hi n W before j := by
        have hne : rel lo hi n W before j ≠ 0 := fun hz => hp.ne' (rel_zero hW h j hj hz)
        unfold rel at hne ⊢
        have : 1 ≤ (if j = 0 then 0 else inBin lo hi n before (j - 1)) := by
          by_contra hc
          apply hne
          rw [Nat.lt_one_iff.1 (not_le.1 hc)]
          simp
        have : (1 : ℝ) ≤ ((if j = 0 then 0 else inBin lo hi n before (j - 1) : ℕ) : ℝ) := by exact_mod_cast this
        exact div_le_div_of_nonneg_right this hWr.le
      have hbp : 0 < rel lo hi n W before j := lt_of_lt_of_le (by positivity) hb
      apply mul_le_mul_of_nonneg_left _ h1
      apply Real.log_le_log (div_pos hp hbp)
      rw [div_le_iff₀ hbp]
      have hle := inBin_le now hlt hn hW hX hr j hj'
      rw [div_le_iff₀ hWr] at hb
      linarith
    · rw [← hp]; simp
  refine (Finset.sum_le_sum key).trans ?_
  rw [← Finset.sum_mul, rel_sum hlt hn hW hX hr, one_mul]

end SmallWindow

open NewValues StuckWindow WindowChange SmallWindow

variable {β : Type*}

/-- **C216.** If `2 W ln W` is below the threshold, the detector reports exactly the windows that fill a part that was empty
in the first window, whatever the frequencies. -/
theorem C216_small (isf : ℤ → Num ℝ) (lo hi : ℝ) (hlt : lo < hi) (n W : ℕ) (hn : 2 ≤ n) (hW : 1 ≤ W) (T : ℝ)
    (hT : isf ((n : ℤ) - 1) = .fin T) (hWT : 2 * W * Real.log W < T)
    (s0 : RelEntState ℝ) (h0 : RelEnt.new isf lo hi n W = .ok s0) (cs : List (Call ℝ β)) (x : ℝ)
    (hl : W ≤ (fitted cs).length) (hb : ∀ u ∈ (fitted cs).take W, lo < u ∧ u ≤ hi)
    (hr : ∀ v ∈ lastN W (fitted cs), lo < v ∧ v ≤ hi) :
    ((∃ i < n - 1, inBin lo hi n ((fitted cs).take W) i = 0 ∧ inBin lo hi n (lastN W (fitted cs)) i ≠ 0) →
      relEntAnswer s0 cs x = .ok (-1)) ∧
    ((¬ ∃ i < n - 1, inBin lo hi n ((fitted cs).take W) i = 0 ∧ inBin lo hi n (lastN W (fitted cs)) i ≠ 0) →
      relEntAnswer s0 cs x = .ok 0) := by
  refine ⟨new_part isf lo hi hlt n W hn hW s0 h0 cs x hl, fun hno => ?_⟩
  push Not at hno
  have hWr : (0 : ℝ) < W := by exact_mod_cast hW
  have hs := C69_relent_score (β := β) (Scipy.entropy Real.log) isf lo hi hlt.ne n W (by omega) hW s0 h0 cs x
  simp only at hs
  have hlen : (lastN W (fitted cs)).length = W := by
    unfold lastN; rw [List.length_drop]; omega
  have hlen2 : ((fitted cs).take W).length = W := by rw [List.length_take]; omega
  rw [entropy_eq hlt hn hW hlen hlen2 hr hb hno, if_neg (by omega)] at hs
  unfold relEntAnswer
  rw [hs, if_pos]
  · rfl
  have hle := entropy_le_log hlt hn hW hlen hr hno
  refine ⟨?_, .infinity _⟩
  rw [hT]
  exact .numbers (lt_of_le_of_lt (mul_le_mul_of_nonneg_left hle (by positivity)) hWT)

/-- **C216.** The bound is sharp: if `2 W ln W` is at least the threshold, and there are at least three bins and at least
two values in a window, there is a stream that is reported although it fills no part that was empty. -/
theorem C216_sharp (isf : ℤ → Num ℝ) (lo hi : ℝ) (hlt : lo < hi) (n W : ℕ) (hn : 3 ≤ n) (hW : 2 ≤ W) (T : ℝ)
    (hT : isf ((n : ℤ) - 1) = .fin T) (hWT : T ≤ 2 * W * Real.log W)
    (s0 : RelEntState ℝ) (h0 : RelEnt.new isf lo hi n W = .ok s0) (x : ℝ) :
    ∃ vs : List ℝ, 2 * W = vs.length ∧ (∀ v ∈ vs, lo < v ∧ v ≤ hi) ∧
      (∀ i < n - 1, inBin lo hi n (vs.take W) i = 0 → inBin lo hi n (vs.drop W) i = 0) ∧
      relEntAnswer s0 (vs.map fun v => (Call.fit v none : Call ℝ β)) x = .ok (-1) := by
  have hnr : (0 : ℝ) < n := by exact_mod_cast (by omega : 0 < n)
  have hd : 0 < (hi - lo) / n := div_pos (sub_pos.2 hlt) hnr
  have hpa : InPart lo hi n 0 (lo + (hi - lo) / n) := by
    constructor <;> push_cast <;> linarith
  have hpb : InPart lo hi n (n - 1) hi := by
    have e : (hi - lo) / n * n = hi - lo := div_mul_cancel₀ _ hnr.ne'
    have c : ((n - 1 : ℕ) : ℝ) = n - 1 := by rw [Nat.cast_sub (by omega), Nat.cast_one]
    constructor <;> rw [c] <;> nlinarith
  generalize lo + (hi - lo) / n = a at hpa
  have hra := inPart_range hlt (by omega) hpa
  have hrb := inPart_range hlt (by omega) hpb
  have ha1 : ∀ v ∈ [a], InPart lo hi n 0 v := by simpa using hpa
  have haW : ∀ v ∈ List.replicate W a, InPart lo hi n 0 v := fun v hv => (List.eq_of_mem_replicate hv) ▸ hpa
  have hbW : ∀ v ∈ List.replicate (W - 1) hi, InPart lo hi n (n - 1) v :=
    fun v hv => (List.eq_of_mem_replicate hv) ▸ hpb
  have hlen : ([a] ++ List.replicate (W - 1) hi).length = W := by simp; omega
  have hone : inBin lo hi n ([a] ++ List.replicate (W - 1) hi) 0 = 1 := by
    have e1 := inPart_all hlt (by omega) ha1 0
    have e2 := inPart_all hlt (by omega) hbW 0
    unfold inBin
    rw [if_pos (by omega)]
    unfold inPart at e1 e2 ⊢
    rw [List.countP_append, e1, e2, if_pos rfl, if_neg (by omega)]
    rfl
  have htake : (([a] ++ List.replicate (W - 1) hi) ++ List.replicate W a).take W = [a] ++ List.replicate (W - 1) hi :=
    List.take_left' hlen
  have hdrop : (([a] ++ List.replicate (W - 1) hi) ++ List.replicate W a).drop W = List.replicate W a :=
    List.drop_left' hlen
  have htot : (([a] ++ List.replicate (W - 1) hi) ++ List.replicate W a).length = 2 * W := by
    rw [List.length_append, hlen, List.length_replicate]; omega
  have hb : ∀ v ∈ [a] ++ List.replicate (W - 1) hi, lo < v ∧ v ≤ hi := by
    intro v hv
    rcases List.mem_append.1 hv with h | h
    · rw [List.mem_singleton.1 h]; exact hra
    · rw [List.eq_of_mem_replicate h]; exact hrb
  refine ⟨([a] ++ List.replicate (W - 1) hi) ++ List.replicate W a, htot.symm, ?_, ?_, ?_⟩
  · intro v hv
    rcases List.mem_append.1 hv with h | h
    · exact hb v h
    · rw [List.eq_of_mem_replicate h]; exact hra
  · rw [htake, hdrop]
    intro i _ hz
    have hi0 : i ≠ 0 := by
      rintro rfl
      omega
    unfold inBin
    simp only [inPart_all hlt (show 1 ≤ n by omega) haW]
    split_ifs <;> omega
  · have hf := fitted_map_fit (β := β) (([a] ++ List.replicate (W - 1) hi) ++ List.replicate W a)
    have h := (C211_stuck isf lo hi hlt n W (by omega) (by omega) s0 h0
      ((([a] ++ List.replicate (W - 1) hi) ++ List.replicate W a).map fun v => (Call.fit v none : Call ℝ β)) x
      (by rw [hf, htot]; omega) (by rw [hf, htake]; exact hb) 0 (by omega) (by
        rw [hf]
        unfold lastN
        rw [htot, show 2 * W - W = W by omega, hdrop]
        exact haW)).2
    rw [hf, htake, hone] at h
    refine (h one_ne_zero).2.2 ?_
    rw [hT, Nat.cast_one, div_one]
    rintro (h | h)
    linarith

/-- The hypotheses of `C216_small` in a concrete case: windows of two values, a threshold of 4; the frequencies change from
one and one to two and none, and nothing is reported. -/
example : ∃ s0, RelEnt.new (fun _ => Num.fin (4 : ℝ)) 0 4 4 2 = .ok s0 ∧
    relEntAnswer s0 ([.fit 1 none, .fit 3 none, .fit 1 none, .fit (1 / 2) none] : List (Call ℝ Unit)) 0 = .ok 0 := by
  refine ⟨_, rfl, ?_⟩
  have hlog : Real.log 2 < 2 - 1 := Real.log_lt_sub_one_of_pos (by norm_num) (by norm_num)
  refine (C216_small (β := Unit) (fun _ => Num.fin (4 : ℝ)) 0 4 (by norm_num) 4 2 (by norm_num) (by norm_num) 4 rfl
    (by push_cast; linarith) _ rfl [.fit 1 none, .fit 3 none, .fit 1 none, .fit (1 / 2) none] 0 (by simp [fitted])
    (by simp [fitted]; norm_num) (by simp [fitted, lastN]; norm_num)).2 ?_
  rintro ⟨i, hi, h0, h1⟩
  have e1 : (fitted ([.fit 1 none, .fit 3 none, .fit 1 none, .fit (1 / 2) none] : List (Call ℝ Unit))).take 2 = [1, 3] := rfl
  have e2 : lastN 2 (fitted ([.fit 1 none, .fit 3 none, .fit 1 none, .fit (1 / 2) none] : List (Call ℝ Unit))) =
    [1, 1 / 2] := rfl
  rw [e1] at h0
  rw [e2] at h1
  have : i = 0 ∨ i = 1 ∨ i = 2 := by omega
  rcases this with rfl | rfl | rfl
  · norm_num [inBin, inPart, List.countP_cons] at h0
  · norm_num [inBin, inPart, List.countP_cons] at h1
  · norm_num [inBin, inPart, List.countP_cons] at h0

end Pysad
