import Verif.Props.HstKernel
import Verif.Proofs.FiniteHoeffding

/-! C156 for `HalfSpaceTrees`: with many trees the random splits hardly matter. -/

namespace Pysad

open Spec Hst HstKernel

section
variable {β : Type*} (d D T w : ℕ) (hd : 0 < d) (hw : 1 ≤ w)
  (lo hi : List ℝ) (hlo : lo.length = d) (hhi : hi.length = d)
  (cs : List (Call (List ℝ) β)) (hX : ∀ x ∈ fitted cs, x.length = d)

include hd hw hlo hhi hX in
/-- The score as a sum over the trees. -/
theorem hst_of_draws (x : List ℝ) (hx : x.length = d) (ω : Fin T → Fin (2 ^ D - 1) → Fin d) :
    ∃ s0, Hst.new nextDraw lo hi w T D (drawsOf ω) = .ok s0 ∧
      ((Hst.detector ℝ β).scorePartial (calls (Hst.detector ℝ β) s0 cs).2 x).out =
        .ok (-∑ t, treeScore D (referenceWindow w (fitted cs)) x (treeOf D lo hi (ω t))) := by
  have hn : 2 ^ D - 1 + 1 = 2 ^ D := Nat.sub_add_cancel (Nat.one_le_two_pow)
  refine ⟨_, new_planted hd D w hn lo hi hlo hhi ω, ?_⟩
  rw [C53_hst_score nextDraw nextDraw_inRange lo hi (by omega) w T D hw _ _
    (new_planted hd D w hn lo hi hlo hhi ω) cs (by rwa [hhi]) x (by rw [hx, hhi])]
  simp only [List.map_ofFn, List.sum_ofFn, Function.comp_def]
  rfl

/-- **C156 (HalfSpaceTrees).** After every history: the chance that the drawn splits move the score
per tree by `ε` or more away from minus the summed similarity of `x` to the reference window is at
most `2 exp (-2 T ε² / B²)`, with `B` the greatest score one tree can give. -/
theorem C156_hst (hd : 0 < d) (hT : 0 < T) (hw : 1 ≤ w) (hlo : lo.length = d)
    (hhi : hi.length = d) (hb : ∀ j, feature lo j ≤ feature hi j)
    (hX : ∀ x ∈ fitted cs, x.length = d) (x : List ℝ) (hx : x.length = d) :
    ∃ score : (Fin T → Fin (2 ^ D - 1) → Fin d) → ℝ,
      (∀ ω, ∃ s0, Hst.new nextDraw lo hi w T D (drawsOf ω) = .ok s0 ∧
        ((Hst.detector ℝ β).scorePartial (calls (Hst.detector ℝ β) s0 cs).2 x).out = .ok (score ω)) ∧
      ∀ ε : ℝ, 0 ≤ ε →
        fraction (fun ω => ε ≤ |score ω / T +
          ((referenceWindow w (fitted cs)).map fun y => boxKernel d lo hi D x y).sum|) ≤
        2 * Real.exp (-(2 * T * ε ^ 2 /
          ((referenceWindow w (fitted cs)).length * (2 ^ (D + 1) - 1)) ^ 2)) := by
  have : NeZero d := ⟨by omega⟩
  have hn : 2 ^ D - 1 + 1 = 2 ^ D := Nat.sub_add_cancel (Nat.one_le_two_pow)
  refine ⟨_, hst_of_draws d D T w hd hw lo hi hlo hhi cs hX x hx, fun ε hε => ?_⟩
  set R := referenceWindow w (fitted cs) with hR
  have hF := treeScore_mean D _ lo hi ⟨hlo, hhi, hb⟩ hn R x
  have h := Expect.hoeffding (fun v : Fin (2 ^ D - 1) → Fin d => treeScore D R x (treeOf D lo hi v))
    0 _ (fun v => ⟨treeScore_nonneg _ _ _ _, treeScore_le _ _ _ _⟩) T hT ε hε
  rw [hF, sub_zero] at h
  refine (fraction_mono fun ω hω => ?_).trans h
  rwa [neg_div, ← abs_neg, neg_add, neg_neg, ← sub_eq_add_neg] at hω

/-- **C156 (HalfSpaceTrees, order).** If `x` is less similar to the reference window than `y`, by
`g` or more, then the chance that `x` does not get the higher score is at most
`exp (-T g² / (2 B²))`. -/
theorem C156_hst_order (hd : 0 < d) (hT : 0 < T) (hw : 1 ≤ w) (hlo : lo.length = d)
    (hhi : hi.length = d) (hb : ∀ j, feature lo j ≤ feature hi j)
    (hX : ∀ x ∈ fitted cs, x.length = d) (x y : List ℝ) (hx : x.length = d) (hy : y.length = d) :
    ∃ scoreX scoreY : (Fin T → Fin (2 ^ D - 1) → Fin d) → ℝ,
      (∀ ω, ∃ s0, Hst.new nextDraw lo hi w T D (drawsOf ω) = .ok s0 ∧
        ((Hst.detector ℝ β).scorePartial (calls (Hst.detector ℝ β) s0 cs).2 x).out = .ok (scoreX ω) ∧
        ((Hst.detector ℝ β).scorePartial (calls (Hst.detector ℝ β) s0 cs).2 y).out = .ok (scoreY ω)) ∧
      ∀ g : ℝ, 0 ≤ g →
        ((referenceWindow w (fitted cs)).map fun z => boxKernel d lo hi D x z).sum + g ≤
          ((referenceWindow w (fitted cs)).map fun z => boxKernel d lo hi D y z).sum →
        fraction (fun ω => scoreX ω ≤ scoreY ω) ≤
          Real.exp (-(T * g ^ 2 /
            (2 * ((referenceWindow w (fitted cs)).length * (2 ^ (D + 1) - 1)) ^ 2))) := by
  have : NeZero d := ⟨by omega⟩
  have hn : 2 ^ D - 1 + 1 = 2 ^ D := Nat.sub_add_cancel (Nat.one_le_two_pow)
  refine ⟨fun ω => -∑ t, treeScore D (referenceWindow w (fitted cs)) x (treeOf D lo hi (ω t)),
    fun ω => -∑ t, treeScore D (referenceWindow w (fitted cs)) y (treeOf D lo hi (ω t)),
    fun ω => ?_, fun g hg hgap => ?_⟩
  · obtain ⟨s0, h1, h2⟩ := hst_of_draws d D T w hd hw lo hi hlo hhi cs hX x hx ω
    obtain ⟨s1, h3, h4⟩ := hst_of_draws d D T w hd hw lo hi hlo hhi cs hX y hy ω
    obtain rfl : s0 = s1 := by rw [h1] at h3; simpa using h3
    exact ⟨s0, h1, h2, h4⟩
  set R := referenceWindow w (fitted cs) with hR
  set B : ℝ := R.length * (2 ^ (D + 1) - 1) with hB
  have hT' : (0 : ℝ) < T := by exact_mod_cast hT
  have hFx := treeScore_mean D _ lo hi ⟨hlo, hhi, hb⟩ hn R x
  have hFy := treeScore_mean D _ lo hi ⟨hlo, hhi, hb⟩ hn R y
  have hE : (expectation fun v : Fin (2 ^ D - 1) → Fin d =>
      treeScore D R x (treeOf D lo hi v) + -1 * treeScore D R y (treeOf D lo hi v)) =
      (R.map fun z => boxKernel d lo hi D x z).sum - (R.map fun z => boxKernel d lo hi D y z).sum := by
    rw [Expect.add, Expect.mul_left, hFx, hFy]
    ring
  have h := Expect.hoeffding_above (fun v : Fin (2 ^ D - 1) → Fin d =>
      treeScore D R x (treeOf D lo hi v) + -1 * treeScore D R y (treeOf D lo hi v)) (-B) B
    (fun v => by
      have h1 := treeScore_nonneg D R x (treeOf D lo hi v)
      have h2 := treeScore_nonneg D R y (treeOf D lo hi v)
      have h3 := treeScore_le D R x (treeOf D lo hi v)
      have h4 := treeScore_le D R y (treeOf D lo hi v)
      constructor <;> linarith) T hT g hg
  rw [hE] at h
  refine (fraction_mono fun ω hω => ?_).trans (h.trans (le_of_eq ?_))
  · rw [Finset.sum_add_distrib, ← Finset.mul_sum]
    have : 0 ≤ (∑ t, treeScore D R x (treeOf D lo hi (ω t)) +
        -1 * ∑ t, treeScore D R y (treeOf D lo hi (ω t))) / T := div_nonneg (by linarith) hT'.le
    linarith
  · congr 2
    rw [show (B - -B) ^ 2 = 2 * (2 * B ^ 2) by ring, mul_assoc, mul_div_mul_left _ _ two_ne_zero]

end

/-- With one feature from `0` to `4`, depth `2` and the reference window `[1]`: `1` is similar to
itself by `7`, `3` only by `1`, so with `T` trees `3` fails to get the higher score with chance at
most `exp (-T · 36 / 98)`. -/
example (T : ℕ) (hT : 0 < T) :
    ∃ scoreX scoreY : (Fin T → Fin (2 ^ 2 - 1) → Fin 1) → ℝ,
      (∀ ω, ∃ s0, Hst.new nextDraw [0] [4] 1 T 2 (drawsOf ω) = .ok s0 ∧
        ((Hst.detector ℝ Unit).scorePartial (calls (Hst.detector ℝ Unit) s0 [.fit [1] none]).2 [3]).out
          = .ok (scoreX ω) ∧
        ((Hst.detector ℝ Unit).scorePartial (calls (Hst.detector ℝ Unit) s0 [.fit [1] none]).2 [1]).out
          = .ok (scoreY ω)) ∧
      fraction (fun ω => scoreX ω ≤ scoreY ω) ≤ Real.exp (-(T * 6 ^ 2 / (2 * 7 ^ 2))) := by
  obtain ⟨a, b, h1, h2⟩ := C156_hst_order (β := Unit) 1 2 T 1 [0] [4] [.fit [1] none]
    one_pos hT le_rfl rfl rfl (by intro j; match j with | 0 => simp [feature] | j + 1 => simp [feature])
    (by simp [fitted]) [3] [1] rfl rfl
  refine ⟨a, b, h1, ?_⟩
  have hr : referenceWindow 1 (fitted [(.fit [1] none : Call (List ℝ) Unit)]) = [[1]] := by
    simp [fitted, referenceWindow]
  have h11 : boxKernel 1 [0] [4] 2 [1] [1] = 7 := by
    rw [(C154_hst_similarity 1 2 one_pos [0] [4] [1] [1]).2.1]; norm_num
  classical
  have hc : ∀ k, boxChance 1 [0] [4] (k + 1) [3] [1] = 0 := by
    intro k
    unfold boxChance
    rw [fraction_eq, Expect.congr (g := fun _ => (0 : ℝ)) fun q => if_neg ?_, Expect.const]
    · intro h
      have ht : timesDrawn q (0 : Fin 1) = k + 1 := by
        unfold timesDrawn
        rw [Finset.filter_true_of_mem fun i _ => Subsingleton.elim _ _]
        simp
      have := h 0
      rw [ht] at this
      have h2 := this (2 ^ k) (by positivity) (by
        have : 0 < 2 ^ k := by positivity
        rw [pow_succ]
        omega)
      have e : (0 : ℝ) + ((2 ^ k : ℕ) : ℝ) * ((4 - 0) / 2 ^ (k + 1)) = 2 := by
        push_cast; rw [pow_succ]; field_simp; norm_num
      simp only [feature, Fin.val_zero, List.getD_cons_zero] at h2
      rw [e] at h2
      norm_num at h2
  have h31 : boxKernel 1 [0] [4] 2 [3] [1] = 1 := by
    unfold boxKernel
    rw [Finset.sum_range_succ', Finset.sum_eq_zero fun k _ => by rw [hc, mul_zero]]
    have h0 : boxChance 1 [0] [4] 0 [3] [1] = 1 := fraction_true fun q j => by
      rw [show timesDrawn q j = 0 by simp [timesDrawn]]
      exact samePart_zero _ _ _ _
    rw [h0]; norm_num
  have := h2 6 (by norm_num) (by rw [hr]; simp [h11, h31]; norm_num)
  rw [hr] at this
  norm_num at this ⊢
  exact this

end Pysad
