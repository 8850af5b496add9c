import Verif.Props.NewValues

/-! Property C213: `RelativeEntropy` and a window with the values of the first one. -/

namespace Pysad

open Spec

/-- What is used of `scipy.stats.chi2.isf(0.01, df)`: a positive number for every positive number of degrees of freedom,
and `nan` for 0, for which there is no chi-squared distribution. -/
structure Spec.ChiSquaredTail (isf : ℤ → Num ℝ) : Prop where
  none : isf 0 = .nan
  positive : ∀ k : ℤ, 1 ≤ k → ∃ t : ℝ, 0 < t ∧ isf k = .fin t

namespace SameWindow

open NewValues

/-- Something is counted exactly if a value lies above `lo` less the width of a bin and not above `hi`. -/
theorem counted_iff {lo hi : ℝ} (hlt : lo < hi) {n : ℕ} (hn : 1 ≤ n) (vs : List ℝ) :
    0 < ((List.range n).map (binned lo ((hi - lo) / n) n vs)).sum ↔
      ∃ v ∈ vs, lo - (hi - lo) / n < v ∧ v ≤ hi := by
  have hn' : (0 : ℝ) < n := by exact_mod_cast hn
  have hstep : 0 < (hi - lo) / (n : ℝ) := div_pos (sub_pos.2 hlt) hn'
  have hceil : ∀ v : ℝ, (lo - (hi - lo) / n < v ∧ v ≤ hi) ↔
      (0 ≤ ⌈(v - lo) / ((hi - lo) / n)⌉ ∧ ⌈(v - lo) / ((hi - lo) / n)⌉ ≤ (n : ℤ)) := by
    intro v
    have e1 : 0 ≤ ⌈(v - lo) / ((hi - lo) / n)⌉ ↔ lo - (hi - lo) / n < v := by
      rw [show (0 : ℤ) ≤ ⌈(v - lo) / ((hi - lo) / n)⌉ ↔ -1 < ⌈(v - lo) / ((hi - lo) / n)⌉ by omega, Int.lt_ceil,
        lt_div_iff₀ hstep]
      push_cast
      constructor <;> intro h <;> linarith
    have e2 : ⌈(v - lo) / ((hi - lo) / n)⌉ ≤ (n : ℤ) ↔ v ≤ hi := by
      have e : ((n : ℤ) : ℝ) * ((hi - lo) / n) = hi - lo := by push_cast; field_simp
      rw [Int.ceil_le, div_le_iff₀ hstep, e, sub_le_sub_iff_right]
    rw [e1, e2]
  simp only [hceil]
  constructor
  · intro h
    by_contra hno
    push Not at hno
    refine h.ne' (List.sum_eq_zero_iff.2 fun k hk => ?_)
    obtain ⟨i, hi', rfl⟩ := List.mem_map.1 hk
    have hin := List.mem_range.1 hi'
    unfold binned
    rw [List.countP_eq_zero]
    intro v hv
    have := hno v hv
    rw [decide_eq_true_iff]
    omega
  · rintro ⟨v, hv, h1, h2⟩
    obtain ⟨c, hc⟩ : ∃ c : ℕ, ⌈(v - lo) / ((hi - lo) / n)⌉ = c := ⟨_, (Int.toNat_of_nonneg h1).symm⟩
    have key : ∀ i, i < n → ((i : ℤ) ≤ c ∧ ((c : ℤ) < i + 1 ∨ (i + 1 = n ∧ (c : ℤ) = n))) →
        0 < ((List.range n).map (binned lo ((hi - lo) / n) n vs)).sum := by
      intro i hi' hb
      refine lt_of_lt_of_le ?_ (List.le_sum_of_mem (List.mem_map.2 ⟨i, List.mem_range.2 hi', rfl⟩))
      unfold binned
      rw [List.countP_pos_iff]
      refine ⟨v, hv, ?_⟩
      rw [decide_eq_true_iff, hc]
      exact hb
    rw [hc] at h1 h2
    rcases Nat.lt_or_ge c n with h | h
    · exact key c h (by omega)
    · exact key (n - 1) (by omega) (by omega)

theorem not_below_nan (a : Num ℝ) : ¬ Below a .nan := nofun

end SameWindow

open NewValues SameWindow

variable {β : Type*}

/-- **C213, as one would expect it**: a window that consists of the values of the first one is not reported. -/
def C213_statement : Prop :=
  ∀ isf : ℤ → Num ℝ, ChiSquaredTail isf → ∀ lo hi : ℝ, lo < hi → ∀ n W : ℕ, 1 ≤ n → 1 ≤ W →
  ∀ s0, RelEnt.new isf lo hi n W = .ok s0 → ∀ (cs : List (Call ℝ Unit)) (x : ℝ), W ≤ (fitted cs).length →
  (lastN W (fitted cs)).Perm ((fitted cs).take W) → relEntAnswer s0 cs x = .ok 0

/-- **C213 (partial).** It is not reported exactly if there are at least two bins and some value of the window is
counted, that is, lies above `min_val` less the width of a bin and not above `max_val`. -/
theorem C213_same_partial (isf : ℤ → Num ℝ) (hisf : ChiSquaredTail isf) (lo hi : ℝ) (hlt : lo < hi) (n W : ℕ)
    (hn : 1 ≤ n) (hW : 1 ≤ W) (s0 : RelEntState ℝ) (h0 : RelEnt.new isf lo hi n W = .ok s0) (cs : List (Call ℝ β))
    (x : ℝ) (hl : W ≤ (fitted cs).length) (hp : (lastN W (fitted cs)).Perm ((fitted cs).take W)) :
    (relEntAnswer s0 cs x = .ok 0 ↔
      2 ≤ n ∧ ∃ v ∈ (fitted cs).take W, lo - (hi - lo) / n < v ∧ v ≤ hi) ∧
    (relEntAnswer s0 cs x = .ok 0 ∨ relEntAnswer s0 cs x = .ok (-1)) := by
  have h := C69_relent_score (β := β) (Scipy.entropy Real.log) isf lo hi hlt.ne n W hn hW s0 h0 cs x
  simp only at h
  have hf : frequencies lo ((hi - lo) / n) n (lastN W (fitted cs)) =
      frequencies lo ((hi - lo) / n) n ((fitted cs).take W) := by
    have : binned lo ((hi - lo) / n) n (lastN W (fitted cs)) = binned lo ((hi - lo) / n) n ((fitted cs).take W) := by
      funext i
      unfold binned
      exact hp.countP_eq _
    unfold frequencies
    rw [this]
  unfold relEntAnswer
  rw [h, if_neg (by omega)]
  rcases Nat.eq_zero_or_pos ((List.range n).map (binned lo ((hi - lo) / n) n ((fitted cs).take W))).sum with hz | hz
  · rw [entropy_nan (frequencies_nan lo _ (by omega) _ hz), if_neg (by rintro ⟨h, -⟩; nomatch h)]
    have hno := mt (counted_iff hlt hn ((fitted cs).take W)).2 (by omega)
    exact ⟨⟨fun h => absurd h (by simp [Res.out]), fun h => absurd h.2 hno⟩, Or.inr rfl⟩
  · have hyes := (counted_iff hlt hn ((fitted cs).take W)).1 hz
    rw [hf, same_bins Real.log_one lo _ n _ _ rfl hz]
    have e : scaled (2 * (W : ℝ)) (.fin 0) = .fin 0 := by simp [scaled]
    rw [e]
    rcases Nat.lt_or_ge n 2 with h1 | h2
    · obtain rfl : n = 1 := by omega
      rw [if_neg (by
        rintro ⟨h, -⟩
        rw [show ((1 : ℕ) : ℤ) - 1 = 0 by norm_num, hisf.none] at h
        exact not_below_nan _ h)]
      exact ⟨⟨fun h => absurd h (by simp [Res.out]), fun h => absurd h.1 (by omega)⟩, Or.inr rfl⟩
    · obtain ⟨t, ht, hk⟩ := hisf.positive ((n : ℤ) - 1) (by omega)
      rw [if_pos ⟨by rw [hk]; exact .numbers ht, .infinity _⟩]
      exact ⟨⟨fun _ => ⟨h2, hyes⟩, fun _ => rfl⟩, Or.inl rfl⟩

/-- **C213 fails with one bin**: then every window is reported, whatever was fitted. -/
theorem C213_one_bin_refuted (isf : ℤ → Num ℝ) (hisf : ChiSquaredTail isf) (lo hi : ℝ) (hne : lo ≠ hi) (W : ℕ)
    (hW : 1 ≤ W) (s0 : RelEntState ℝ) (h0 : RelEnt.new isf lo hi 1 W = .ok s0) (cs : List (Call ℝ β)) (x : ℝ)
    (hl : W ≤ (fitted cs).length) : relEntAnswer s0 cs x = .ok (-1) := by
  have h := C69_relent_score (β := β) (Scipy.entropy Real.log) isf lo hi hne 1 W le_rfl hW s0 h0 cs x
  simp only at h
  unfold relEntAnswer
  rw [h, if_neg (by omega), if_neg]
  · rfl
  rintro ⟨hb, -⟩
  rw [show ((1 : ℕ) : ℤ) - 1 = 0 by norm_num, hisf.none] at hb
  exact not_below_nan _ hb

/-- **C213 fails with a first window outside of the range**: if all its values are above `max_val`, or below `min_val` by
the width of a bin or more, every window is reported from then on. -/
theorem C213_outside_refuted (isf : ℤ → Num ℝ) (lo hi : ℝ) (hlt : lo < hi) (n W : ℕ) (hn : 1 ≤ n) (hW : 1 ≤ W)
    (s0 : RelEntState ℝ) (h0 : RelEnt.new isf lo hi n W = .ok s0) (cs : List (Call ℝ β)) (x : ℝ)
    (hl : W ≤ (fitted cs).length) (hout : ∀ v ∈ (fitted cs).take W, hi < v ∨ v ≤ lo - (hi - lo) / n) :
    relEntAnswer s0 cs x = .ok (-1) := by
  have h := C69_relent_score (β := β) (Scipy.entropy Real.log) isf lo hi hlt.ne n W hn hW s0 h0 cs x
  simp only at h
  have hz : ((List.range n).map (binned lo ((hi - lo) / n) n ((fitted cs).take W))).sum = 0 := by
    by_contra hne
    obtain ⟨v, hv, h1, h2⟩ := (counted_iff hlt hn _).1 (Nat.pos_of_ne_zero hne)
    rcases hout v hv with h | h <;> linarith
  unfold relEntAnswer
  rw [h, if_neg (by omega), entropy_nan (frequencies_nan lo _ (by omega) _ hz), if_neg (by rintro ⟨h, -⟩; nomatch h)]
  rfl

/-- A function with the properties of `chi2.isf`. -/
theorem SameWindow.tail_example : ChiSquaredTail fun k => if k = 0 then .nan else .fin 1 :=
  ⟨rfl, fun k hk => ⟨1, one_pos, by rw [if_neg (by omega)]⟩⟩

/-- **C213 is false**: one bin over `(0, 1]`, windows of one value, 1 and 1 again. -/
theorem C213_refuted : ¬ C213_statement := by
  intro h
  have h1 := h _ SameWindow.tail_example 0 1 one_pos 1 1 le_rfl le_rfl _ rfl [.fit 1 none, .fit 1 none] 0
    (by simp [fitted]) (List.Perm.refl _)
  rw [C213_one_bin_refuted _ SameWindow.tail_example 0 1 (by norm_num) 1 le_rfl _ rfl
    [.fit 1 none, .fit 1 none] 0 (Nat.le_add_left 1 1)] at h1
  exact absurd h1 (by decide)

/-- The hypotheses of `C213_same_partial` in a concrete case: four bins over `(0, 4]`, windows of two values; 3 is in the
range, 9 is not. -/
example : ∃ s0, RelEnt.new (fun k => if k = 0 then Num.nan else .fin (1 : ℝ)) 0 4 4 2 = .ok s0 ∧
    relEntAnswer s0 ([3, 9, 3].map fun v => (Call.fit v none : Call ℝ Unit)) 0 = .ok 0 := by
  refine ⟨_, rfl, (C213_same_partial _ SameWindow.tail_example 0 4 (by norm_num) 4 2 (by norm_num) (by norm_num) _ rfl _ 0
    (by simp [fitted]) ?_).1.2 ⟨by norm_num, 3, ?_, by norm_num⟩⟩
  · rw [fitted_map_fit]
    exact List.Perm.swap _ _ _
  · rw [fitted_map_fit]; simp

/-- The hypotheses of `C213_outside_refuted` in a concrete case. -/
example : ∃ s0, RelEnt.new (fun k => if k = 0 then Num.nan else .fin (1 : ℝ)) 0 4 4 2 = .ok s0 ∧
    relEntAnswer s0 ([8, 9, 3, 2].map fun v => (Call.fit v none : Call ℝ Unit)) 0 = .ok (-1) := by
  refine ⟨_, rfl, C213_outside_refuted (fun k => if k = 0 then Num.nan else .fin (1 : ℝ)) 0 4 (by norm_num) 4 2
    (by norm_num) (by norm_num) _ rfl _ 0 ?_ ?_⟩
  · rw [fitted_map_fit]; norm_num
  · rw [fitted_map_fit]; norm_num

end Pysad
