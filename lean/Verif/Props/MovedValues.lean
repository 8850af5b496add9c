import Verif.Props.WindowChange

/-! Property C214: how many values of the window may change before `RelativeEntropy` reports a change. -/

namespace Pysad

open Spec

/-- `now` is `before` with `k` values exchanged for others, up to the order. -/
def Spec.Exchanged (k : ℕ) (now before : List ℝ) : Prop :=
  ∃ kept gone new : List ℝ, gone.length = k ∧ new.length = k ∧ before.Perm (kept ++ gone) ∧ now.Perm (kept ++ new)

namespace MovedValues

open NewValues StuckWindow WindowChange

theorem inBin_perm {lo hi : ℝ} {n : ℕ} {X Y : List ℝ} (h : X.Perm Y) (i : ℕ) :
    inBin lo hi n X i = inBin lo hi n Y i := by
  unfold inBin inPart
  rw [h.countP_eq, h.countP_eq, h.countP_eq]

theorem inBin_append {lo hi : ℝ} {n : ℕ} (X Y : List ℝ) (i : ℕ) :
    inBin lo hi n (X ++ Y) i = inBin lo hi n X i + inBin lo hi n Y i := by
  unfold inBin inPart
  simp only [List.countP_append]
  split_ifs <;> omega

theorem inBin_sum {lo hi : ℝ} (hlt : lo < hi) {n : ℕ} (hn : 2 ≤ n) {X : List ℝ} (hX : ∀ v ∈ X, lo < v ∧ v ≤ hi) :
    ∑ i ∈ Finset.range (n - 1), (inBin lo hi n X i : ℝ) = X.length := by
  rcases Nat.eq_zero_or_pos X.length with h | h
  · rw [List.length_eq_zero_iff] at h
    subst h
    simp [inBin, inPart]
  · have e := rel_sum hlt hn h rfl hX
    rw [sum_parts hn _ (by simp [rel])] at e
    simp only [rel, Nat.add_one_ne_zero, if_false, Nat.add_sub_cancel] at e
    rwa [← Finset.sum_div, div_eq_one_iff_eq (by exact_mod_cast h.ne')] at e

/-- What one part gains, the others lose. -/
theorem distance_ge {lo hi : ℝ} {n : ℕ} {now before : List ℝ}
    (e : ∑ i ∈ Finset.range (n - 1), (inBin lo hi n now i : ℝ) = ∑ i ∈ Finset.range (n - 1), (inBin lo hi n before i : ℝ))
    {j : ℕ} (hj : j < n - 1) :
    2 * |(inBin lo hi n now j : ℝ) - inBin lo hi n before j| ≤ countDistance lo hi n now before := by
  have hm := Finset.mem_range.2 hj
  unfold countDistance
  rw [← Finset.add_sum_erase _ _ hm]
  have h0 : ∑ i ∈ Finset.range (n - 1), ((inBin lo hi n now i : ℝ) - inBin lo hi n before i) = 0 := by
    rw [Finset.sum_sub_distrib, e, sub_self]
  rw [← Finset.add_sum_erase _ _ hm] at h0
  have h1 := Finset.abs_sum_le_sum_abs (fun i => (inBin lo hi n now i : ℝ) - inBin lo hi n before i)
    ((Finset.range (n - 1)).erase j)
  rw [eq_neg_of_add_eq_zero_right h0, abs_neg] at h1
  linarith

theorem pearson_le {lo hi : ℝ} (hlt : lo < hi) {n : ℕ} (hn : 2 ≤ n) {k m : ℕ} (hm : 1 ≤ m) {now before : List ℝ}
    (h : Exchanged k now before) (hb : ∀ u ∈ before, lo < u ∧ u ≤ hi) (hr : ∀ v ∈ now, lo < v ∧ v ≤ hi)
    (hf : ∀ i < n - 1, inBin lo hi n before i = 0 ∨ m ≤ inBin lo hi n before i) :
    pearson lo hi n now before ≤ 2 * (k : ℝ) ^ 2 / m := by
  obtain ⟨kept, gone, new, rfl, hk, p1, p2⟩ := h
  have hmr : (0 : ℝ) < m := by exact_mod_cast hm
  have sg := inBin_sum hlt hn (X := gone) fun u hu => hb u (p1.mem_iff.2 (List.mem_append_right _ hu))
  have sn := inBin_sum hlt hn (X := new) fun u hu => hr u (p2.mem_iff.2 (List.mem_append_right _ hu))
  have qg := Finset.sum_sq_le_sq_sum_of_nonneg (s := Finset.range (n - 1)) (f := fun i => (inBin lo hi n gone i : ℝ))
    fun i _ => Nat.cast_nonneg _
  have qn := Finset.sum_sq_le_sq_sum_of_nonneg (s := Finset.range (n - 1)) (f := fun i => (inBin lo hi n new i : ℝ))
    fun i _ => Nat.cast_nonneg _
  rw [sg] at qg
  rw [sn, hk] at qn
  have key : pearson lo hi n now before ≤
      ∑ i ∈ Finset.range (n - 1), (((inBin lo hi n gone i : ℝ) ^ 2 + (inBin lo hi n new i : ℝ) ^ 2) / m) := by
    unfold pearson
    apply Finset.sum_le_sum
    intro i hi'
    have e : (inBin lo hi n now i : ℝ) - inBin lo hi n before i = (inBin lo hi n new i : ℝ) - inBin lo hi n gone i := by
      rw [inBin_perm p1, inBin_perm p2, inBin_append, inBin_append]
      push_cast
      ring
    rw [e]
    have g0 : (0 : ℝ) ≤ inBin lo hi n gone i := Nat.cast_nonneg _
    have n0 : (0 : ℝ) ≤ inBin lo hi n new i := Nat.cast_nonneg _
    rcases hf i (Finset.mem_range.1 hi') with hz | hge
    · rw [hz, Nat.cast_zero, div_zero]
      positivity
    · have hge' : (m : ℝ) ≤ inBin lo hi n before i := by exact_mod_cast hge
      apply div_le_div₀ (by positivity) _ hmr hge'
      nlinarith [mul_nonneg g0 n0]
  refine key.trans ?_
  rw [← Finset.sum_div, Finset.sum_add_distrib]
  gcongr
  linarith

end MovedValues

open NewValues StuckWindow WindowChange MovedValues

variable {β : Type*}

/-- **C214.** Up to `k` exchanged values are not reported if they fill no part that was empty, every part that was not
empty held at least `m` values, and `4 k ^ 2 < m T`, where `T` is the threshold. -/
theorem C214_few (isf : ℤ → Num ℝ) (lo hi : ℝ) (hlt : lo < hi) (n W : ℕ) (hn : 2 ≤ n) (hW : 1 ≤ W) (T : ℝ)
    (hT : isf ((n : ℤ) - 1) = .fin T)
    (s0 : RelEntState ℝ) (h0 : RelEnt.new isf lo hi n W = .ok s0) (cs : List (Call ℝ β)) (x : ℝ)
    (hb : ∀ u ∈ (fitted cs).take W, lo < u ∧ u ≤ hi) (hr : ∀ v ∈ lastN W (fitted cs), lo < v ∧ v ≤ hi)
    (k m : ℕ) (hm : 1 ≤ m) (hk : Exchanged k (lastN W (fitted cs)) ((fitted cs).take W))
    (hf : ∀ i < n - 1, inBin lo hi n ((fitted cs).take W) i = 0 ∨ m ≤ inBin lo hi n ((fitted cs).take W) i)
    (hz : ∀ i < n - 1, inBin lo hi n ((fitted cs).take W) i = 0 → inBin lo hi n (lastN W (fitted cs)) i = 0)
    (hd : 4 * (k : ℝ) ^ 2 < m * T) :
    relEntAnswer s0 cs x = .ok 0 := by
  have hmr : (0 : ℝ) < m := by exact_mod_cast hm
  refine C212_small isf lo hi hlt n W hn hW T hT s0 h0 cs x hb hr hz ?_
  have h1 := pearson_le hlt hn hm hk hb hr hf
  have h2 : 2 * (2 * (k : ℝ) ^ 2 / m) < T := by
    rw [mul_div_assoc', div_lt_iff₀ hmr]
    linarith
  linarith

/-- **C214.** A change is reported as soon as one part holds `k` values more or `k` values fewer than in the first window,
where `4 k ^ 2` is at least `W T`. -/
theorem C214_many (isf : ℤ → Num ℝ) (lo hi : ℝ) (hlt : lo < hi) (n W : ℕ) (hn : 2 ≤ n) (hW : 1 ≤ W) (T : ℝ)
    (hT : isf ((n : ℤ) - 1) = .fin T)
    (s0 : RelEntState ℝ) (h0 : RelEnt.new isf lo hi n W = .ok s0) (cs : List (Call ℝ β)) (x : ℝ)
    (hl : W ≤ (fitted cs).length) (hb : ∀ u ∈ (fitted cs).take W, lo < u ∧ u ≤ hi)
    (hr : ∀ v ∈ lastN W (fitted cs), lo < v ∧ v ≤ hi)
    (i k : ℕ) (hi' : i < n - 1)
    (hk : inBin lo hi n ((fitted cs).take W) i + k ≤ inBin lo hi n (lastN W (fitted cs)) i ∨
      inBin lo hi n (lastN W (fitted cs)) i + k ≤ inBin lo hi n ((fitted cs).take W) i)
    (hd : W * T ≤ 4 * (k : ℝ) ^ 2) :
    relEntAnswer s0 cs x = .ok (-1) := by
  refine C212_large isf lo hi hlt n W hn hW T hT s0 h0 cs x hl hb hr (hd.trans ?_)
  have e : ∑ i ∈ Finset.range (n - 1), (inBin lo hi n (lastN W (fitted cs)) i : ℝ) =
      ∑ i ∈ Finset.range (n - 1), (inBin lo hi n ((fitted cs).take W) i : ℝ) := by
    rw [inBin_sum hlt hn hr, inBin_sum hlt hn hb]
    unfold lastN
    rw [List.length_drop, List.length_take]
    norm_cast
    omega
  have h1 := distance_ge e hi'
  have h2 : (k : ℝ) ≤ |(inBin lo hi n (lastN W (fitted cs)) i : ℝ) - inBin lo hi n ((fitted cs).take W) i| := by
    rw [le_abs]
    rcases hk with h | h
    · left
      have : (inBin lo hi n ((fitted cs).take W) i : ℝ) + k ≤ inBin lo hi n (lastN W (fitted cs)) i := by exact_mod_cast h
      linarith
    · right
      have : (inBin lo hi n (lastN W (fitted cs)) i : ℝ) + k ≤ inBin lo hi n ((fitted cs).take W) i := by exact_mod_cast h
      linarith
  have h3 : (0 : ℝ) ≤ k := Nat.cast_nonneg _
  nlinarith

/-- The hypotheses of `C214_few` in a concrete case: range `(0, 3]`, three bins, windows of four values, threshold 3; the
first window holds two values in each of the two parts, and one of them is exchanged. -/
example : ∃ s0, RelEnt.new (fun _ => Num.fin (3 : ℝ)) 0 3 3 4 = .ok s0 ∧
    relEntAnswer s0 ([1, 1, 2, 2, 2].map fun v => (Call.fit v none : Call ℝ Unit)) 0 = .ok 0 := by
  refine ⟨_, rfl, C214_few (fun _ => Num.fin (3 : ℝ)) 0 3 (by norm_num) 3 4 (by norm_num) (by norm_num) 3 rfl _ rfl _ 0
    ?_ ?_ 1 2 (by norm_num) ?_ ?_ ?_ (by norm_num)⟩
  · rw [fitted_map_fit]; norm_num
  · rw [fitted_map_fit]; norm_num [lastN]
  · rw [fitted_map_fit]
    refine ⟨[1, 2, 2], [1], [2], rfl, rfl, ?_, ?_⟩
    · exact List.Perm.cons 1 (List.perm_append_comm (l₁ := [1]) (l₂ := [2, 2]))
    · exact List.Perm.refl _
  · rw [fitted_map_fit]
    intro i hi
    have : i = 0 ∨ i = 1 := by omega
    rcases this with rfl | rfl <;> norm_num [inBin, inPart, List.countP_cons]
  · rw [fitted_map_fit]
    intro i hi
    have : i = 0 ∨ i = 1 := by omega
    rcases this with rfl | rfl <;> norm_num [inBin, inPart, lastN, List.countP_cons]

/-- The hypotheses of `C214_many` in a concrete case: the same detector with threshold 1; the first part loses two values. -/
example : ∃ s0, RelEnt.new (fun _ => Num.fin (1 : ℝ)) 0 3 3 4 = .ok s0 ∧
    relEntAnswer s0 ([1, 1, 1, 2, 1, 2, 2].map fun v => (Call.fit v none : Call ℝ Unit)) 0 = .ok (-1) := by
  refine ⟨_, rfl, C214_many (fun _ => Num.fin (1 : ℝ)) 0 3 (by norm_num) 3 4 (by norm_num) (by norm_num) 1 rfl _ rfl _ 0
    (by simp [fitted]) ?_ ?_ 0 2 (by norm_num) (.inr ?_) (by norm_num)⟩
  · rw [fitted_map_fit]; norm_num
  · rw [fitted_map_fit]; norm_num [lastN]
  · rw [fitted_map_fit]
    norm_num [inBin, inPart, lastN, List.countP_cons]

end Pysad
