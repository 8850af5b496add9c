import Verif.Props.KitNetGradient
import Mathlib.Analysis.Calculus.Deriv.Slope
import Mathlib.Analysis.Calculus.Deriv.Mul

/-! C144: a training step of an autoencoder of KitNet with a small learning rate reduces the loss,
although the biases do not follow their own partial derivatives (C98). -/

namespace Pysad

open Spec

section
variable (env : KnEnv ℝ)

/-- The autoencoder `s` with the learning rate `r`, after a training step on `x`. -/
noncomputable def Spec.stepAtRate (s : DaState ℝ) (x : ℕ → ℝ) (r : ℝ) : DaState ℝ :=
  (Da.train env { s with lr := r } x).2

/-- The loss of the autoencoder `t` on `x` normalised with minima `mn` and maxima `mx`. -/
noncomputable def Spec.lossOn (t : DaState ℝ) (x mn mx : ℕ → ℝ) : ℝ :=
  autoencoderLoss t.nVisible t.nHidden (fun k => (x k - mn k) / (mx k - mn k + 1 / 10 ^ 16))
    t.W t.hbias t.vbias

/-- The direction in which the step moves the weights. -/
noncomputable def Descent.dW (s : DaState ℝ) (xn : ℕ → ℝ) (i j : ℕ) : ℝ :=
  let y := Da.hidden env s xn
  let z := Da.visible env s y
  xn i * (Da.sumTo s.nVisible (fun i => (xn i - z i) * s.W i j) * y j * (1 - y j)) +
    (xn i - z i) * y j

/-- The direction in which it moves the hidden biases. -/
noncomputable def Descent.dh (s : DaState ℝ) (xn : ℕ → ℝ) : ℝ :=
  let y := Da.hidden env s xn
  let z := Da.visible env s y
  (∑ j ∈ Finset.range s.nHidden,
    Da.sumTo s.nVisible (fun i => (xn i - z i) * s.W i j) * y j * (1 - y j)) / s.nHidden

/-- The direction in which it moves the visible biases. -/
noncomputable def Descent.dv (s : DaState ℝ) (xn : ℕ → ℝ) : ℝ :=
  (∑ i ∈ Finset.range s.nVisible, (xn i - Da.visible env s (Da.hidden env s xn) i)) / s.nVisible

/-- How fast the loss falls along the step. -/
noncomputable def Descent.rate (s : DaState ℝ) (xn : ℕ → ℝ) : ℝ :=
  ∑ i ∈ Finset.range s.nVisible, ∑ j ∈ Finset.range s.nHidden, Descent.dW env s xn i j ^ 2 +
    s.nHidden * Descent.dh env s xn ^ 2 + s.nVisible * Descent.dv env s xn ^ 2

theorem Descent.step_W (s : DaState ℝ) (x : ℕ → ℝ) (r : ℝ) (i j : ℕ) :
    (stepAtRate env s x r).W i j =
      s.W i j + r * Descent.dW env s (Da.normalise (Da.updateNorm s x) x) i j := rfl

theorem Descent.step_h (s : DaState ℝ) (x : ℕ → ℝ) (r : ℝ) (j : ℕ) :
    (stepAtRate env s x r).hbias j =
      s.hbias j + r * Descent.dh env s (Da.normalise (Da.updateNorm s x) x) := by
  simp only [Descent.dh, ← sumTo_eq]; rfl

theorem Descent.step_v (s : DaState ℝ) (x : ℕ → ℝ) (r : ℝ) (i : ℕ) :
    (stepAtRate env s x r).vbias i =
      s.vbias i + r * Descent.dv env s (Da.normalise (Da.updateNorm s x) x) := by
  simp only [Descent.dv, ← sumTo_eq]; rfl

theorem Descent.mean_mul (n : ℕ) (f : ℕ → ℝ) :
    (∑ i ∈ Finset.range n, f i) * ((∑ i ∈ Finset.range n, f i) / n) =
      n * ((∑ i ∈ Finset.range n, f i) / n) ^ 2 := by
  rcases Nat.eq_zero_or_pos n with rfl | hn
  · simp
  · have : (n : ℝ) ≠ 0 := by positivity
    field_simp

/-- The sum of squares behind the descent. -/
theorem Descent.algebra (p q : ℕ) (x l y W' : ℕ → ℝ) (w D : ℕ → ℕ → ℝ) (h v : ℝ)
    (hW : ∀ j, W' j = (∑ i ∈ Finset.range p, l i * w i j) * y j * (1 - y j))
    (hD : ∀ i j, D i j = x i * W' j + l i * y j) :
    ∑ i ∈ Finset.range p, l i * (∑ j ∈ Finset.range q,
        (y j * (1 - y j) * (∑ k ∈ Finset.range p, x k * D k j + h) * w i j + y j * D i j) + v) =
      ∑ i ∈ Finset.range p, ∑ j ∈ Finset.range q, D i j ^ 2 +
        (∑ j ∈ Finset.range q, W' j) * h + (∑ i ∈ Finset.range p, l i) * v := by
  have e1 : ∑ i ∈ Finset.range p, l i * ∑ j ∈ Finset.range q,
      y j * (1 - y j) * (∑ k ∈ Finset.range p, x k * D k j + h) * w i j =
      ∑ j ∈ Finset.range q, W' j * (∑ k ∈ Finset.range p, x k * D k j + h) := by
    simp only [Finset.mul_sum]
    rw [Finset.sum_comm]
    refine Finset.sum_congr rfl fun j _ => ?_
    rw [hW, Finset.sum_mul, Finset.sum_mul, Finset.sum_mul]
    exact Finset.sum_congr rfl fun i _ => by ring
  have e2 : ∑ i ∈ Finset.range p, ∑ j ∈ Finset.range q, D i j ^ 2 =
      ∑ j ∈ Finset.range q, W' j * (∑ k ∈ Finset.range p, x k * D k j) +
        ∑ i ∈ Finset.range p, l i * ∑ j ∈ Finset.range q, y j * D i j := by
    have : ∑ j ∈ Finset.range q, W' j * (∑ k ∈ Finset.range p, x k * D k j) =
        ∑ i ∈ Finset.range p, ∑ j ∈ Finset.range q, W' j * (x i * D i j) := by
      simp only [Finset.mul_sum]
      exact Finset.sum_comm
    rw [this, ← Finset.sum_add_distrib]
    refine Finset.sum_congr rfl fun i _ => ?_
    rw [Finset.mul_sum, ← Finset.sum_add_distrib]
    refine Finset.sum_congr rfl fun j _ => ?_
    rw [sq]
    nth_rw 1 [hD i j]
    ring
  have e3 : ∑ j ∈ Finset.range q, W' j * (∑ k ∈ Finset.range p, x k * D k j + h) =
      ∑ j ∈ Finset.range q, W' j * (∑ k ∈ Finset.range p, x k * D k j) +
        (∑ j ∈ Finset.range q, W' j) * h := by
    rw [Finset.sum_mul, ← Finset.sum_add_distrib]
    exact Finset.sum_congr rfl fun j _ => by ring
  calc _ = ∑ i ∈ Finset.range p, (l i * ∑ j ∈ Finset.range q,
          y j * (1 - y j) * (∑ k ∈ Finset.range p, x k * D k j + h) * w i j +
        l i * ∑ j ∈ Finset.range q, y j * D i j + l i * v) := by
        refine Finset.sum_congr rfl fun i _ => ?_
        rw [Finset.sum_add_distrib]; ring
    _ = _ := by
        rw [Finset.sum_add_distrib, Finset.sum_add_distrib, e1, e3, e2, Finset.sum_mul _ _ v]
        ring

variable (hsig : env.sigmoid = KitUtils.sigmoid Real.exp)
include hsig

theorem Descent.hasDerivAt (s : DaState ℝ) (x : ℕ → ℝ) :
    HasDerivAt (fun r => lossOn (stepAtRate env s x r) x (Da.updateNorm s x).2
      (Da.updateNorm s x).1) (-Descent.rate env s (Da.normalise (Da.updateNorm s x) x)) 0 := by
  set xn := Da.normalise (Da.updateNorm s x) x with hxn
  have hlin : ∀ a b : ℝ, HasDerivAt (fun r : ℝ => a + r * b) b 0 := fun a b => by
    simpa using ((hasDerivAt_id' (0 : ℝ)).mul_const b).const_add a
  have hmain := hasDerivAt_loss s.nVisible s.nHidden xn
    (fun r i j => s.W i j + r * Descent.dW env s xn i j)
    (fun r j => s.hbias j + r * Descent.dh env s xn)
    (fun r i => s.vbias i + r * Descent.dv env s xn)
    (Descent.dW env s xn) (fun _ => Descent.dh env s xn) (fun _ => Descent.dv env s xn) 0
    (fun i j => hlin _ _) (fun j => hlin _ _) (fun i => hlin _ _)
  simp only [zero_mul, add_zero] at hmain
  have hfun : (fun r => lossOn (stepAtRate env s x r) x (Da.updateNorm s x).2
      (Da.updateNorm s x).1) = fun r => autoencoderLoss s.nVisible s.nHidden xn
      (fun i j => s.W i j + r * Descent.dW env s xn i j)
      (fun j => s.hbias j + r * Descent.dh env s xn)
      (fun i => s.vbias i + r * Descent.dv env s xn) := by
    funext r
    have h1 : (stepAtRate env s x r).hbias = fun j => s.hbias j + r * Descent.dh env s xn :=
      funext fun j => Descent.step_h env s x r j
    have h2 : (stepAtRate env s x r).vbias = fun j => s.vbias j + r * Descent.dv env s xn :=
      funext fun j => Descent.step_v env s x r j
    rw [lossOn, h1, h2]
    rfl
  rw [hfun]
  refine hmain.congr_deriv ?_
  congr 1
  have ha := Descent.algebra s.nVisible s.nHidden xn
    (fun i => xn i - Da.visible env s (Da.hidden env s xn) i) (Da.hidden env s xn) _ s.W
    (Descent.dW env s xn) (Descent.dh env s xn) (Descent.dv env s xn)
    (fun j => rfl) (fun i j => by rw [Descent.dW, sumTo_eq])
  rw [da_hidden_eq env hsig, da_visible_eq env hsig] at ha
  rw [ha, Descent.rate]
  congr 1
  · congr 1
    have hd : Descent.dh env s xn = (∑ j ∈ Finset.range s.nHidden,
        (∑ i ∈ Finset.range s.nVisible,
          (xn i - decode s.nHidden s.W s.vbias (encode s.nVisible s.W s.hbias xn) i) * s.W i j) *
        encode s.nVisible s.W s.hbias xn j * (1 - encode s.nVisible s.W s.hbias xn j)) /
        s.nHidden := by
      simp only [Descent.dh, sumTo_eq, da_hidden_eq env hsig, da_visible_eq env hsig]
    rw [hd, Descent.mean_mul]
  · have hd : Descent.dv env s xn = (∑ i ∈ Finset.range s.nVisible,
        (xn i - decode s.nHidden s.W s.vbias (encode s.nVisible s.W s.hbias xn) i)) /
        s.nVisible := by
      simp only [Descent.dv, da_hidden_eq env hsig, da_visible_eq env hsig]
    rw [hd, Descent.mean_mul]

/-- **C144 (slope).** The loss on the instance, as a function of the learning rate of the step,
falls at the rate of the sum of the squares of the partial derivatives with respect to the weights
and of the squares of the mean partial derivatives with respect to the biases. -/
theorem C144_kitnet_slope (s : DaState ℝ) (x : ℕ → ℝ) :
    ∃ mx mn, (∀ r, (stepAtRate env s x r).norm = some (mx, mn)) ∧
      ∃ (g : ℕ → ℕ → ℝ) (gh gv : ℕ → ℝ),
      (∀ i < s.nVisible, ∀ j < s.nHidden, HasDerivAt (fun w => lossOn
          { s with W := Function.update s.W i (Function.update (s.W i) j w) } x mn mx)
          (g i j) (s.W i j)) ∧
      (∀ j < s.nHidden, HasDerivAt (fun b => lossOn
          { s with hbias := Function.update s.hbias j b } x mn mx) (gh j) (s.hbias j)) ∧
      (∀ i < s.nVisible, HasDerivAt (fun b => lossOn
          { s with vbias := Function.update s.vbias i b } x mn mx) (gv i) (s.vbias i)) ∧
      HasDerivAt (fun r => lossOn (stepAtRate env s x r) x mn mx)
        (-(∑ i ∈ Finset.range s.nVisible, ∑ j ∈ Finset.range s.nHidden, g i j ^ 2 +
          (∑ j ∈ Finset.range s.nHidden, gh j) ^ 2 / s.nHidden +
          (∑ i ∈ Finset.range s.nVisible, gv i) ^ 2 / s.nVisible)) 0 := by
  set xn := Da.normalise (Da.updateNorm s x) x with hxn
  obtain ⟨mx, mn, hn, hw⟩ := C98_kitnet_weights env hsig { s with lr := 1 } x
  obtain ⟨hh, hv⟩ := bias_derivatives env hsig s xn
  have hmm : ((Da.updateNorm s x).1, (Da.updateNorm s x).2) = (mx, mn) := Option.some.inj hn
  obtain ⟨rfl, rfl⟩ := Prod.mk.inj hmm
  have hg : ∀ i < s.nVisible, ∀ j < s.nHidden, HasDerivAt (fun w => lossOn
      { s with W := Function.update s.W i (Function.update (s.W i) j w) } x
        (Da.updateNorm s x).2 (Da.updateNorm s x).1) (-Descent.dW env s xn i j) (s.W i j) := by
    intro i hi j hj
    obtain ⟨g, hd, he⟩ := hw i j hi hj
    have he' := Descent.step_W env s x 1 i j
    have : g = -Descent.dW env s xn i j := by
      have := he'.symm.trans he
      simp only [one_mul] at this
      linarith
    rw [← this]
    exact hd
  refine ⟨_, _, fun r => rfl, fun i j => -Descent.dW env s xn i j, _, _, hg, hh, hv, ?_⟩
  refine (Descent.hasDerivAt env hsig s x).congr_deriv ?_
  have hsq : ∀ (n : ℕ) (a : ℝ), (n : ℝ) * (a / n) ^ 2 = a ^ 2 / n := by
    intro n a
    rcases Nat.eq_zero_or_pos n with rfl | hn
    · simp
    · have : (n : ℝ) ≠ 0 := by positivity
      field_simp
  simp only [Descent.rate, Descent.dh, Descent.dv, hsq, neg_sq, Finset.sum_neg_distrib, ← hxn]

/-- **C144.** For every autoencoder and every instance, if the learning rate is small enough, the
training step reduces the cross-entropy between the normalised instance and its reconstruction,
or leaves all weights and biases as they are. -/
theorem C144_kitnet_descends (s : DaState ℝ) (x : ℕ → ℝ) :
    ∃ mx mn, (∀ r, (stepAtRate env s x r).norm = some (mx, mn)) ∧
      ((∃ ε > 0, ∀ r, 0 < r → r < ε →
          lossOn (stepAtRate env s x r) x mn mx < lossOn s x mn mx) ∨
        ∀ r, (∀ i < s.nVisible, ∀ j < s.nHidden, (stepAtRate env s x r).W i j = s.W i j) ∧
          (∀ j < s.nHidden, (stepAtRate env s x r).hbias j = s.hbias j) ∧
          ∀ i < s.nVisible, (stepAtRate env s x r).vbias i = s.vbias i) := by
  refine ⟨(Da.updateNorm s x).1, (Da.updateNorm s x).2, fun r => rfl, ?_⟩
  set xn := Da.normalise (Da.updateNorm s x) x with hxn
  have hd := Descent.hasDerivAt env hsig s x
  have h1 : 0 ≤ ∑ i ∈ Finset.range s.nVisible, ∑ j ∈ Finset.range s.nHidden,
      Descent.dW env s xn i j ^ 2 :=
    Finset.sum_nonneg fun i _ => Finset.sum_nonneg fun j _ => sq_nonneg _
  have h2 : 0 ≤ (s.nHidden : ℝ) * Descent.dh env s xn ^ 2 := by positivity
  have h3 : 0 ≤ (s.nVisible : ℝ) * Descent.dv env s xn ^ 2 := by positivity
  have hnn : 0 ≤ Descent.rate env s xn := by rw [Descent.rate]; linarith
  rcases hnn.lt_or_eq with hpos | hzero
  · left
    have h0 : lossOn (stepAtRate env s x 0) x (Da.updateNorm s x).2 (Da.updateNorm s x).1 =
        lossOn s x (Da.updateNorm s x).2 (Da.updateNorm s x).1 := by
      have e1 : (stepAtRate env s x 0).W = s.W := by
        funext i j; rw [Descent.step_W]; ring
      have e2 : (stepAtRate env s x 0).hbias = s.hbias := by
        funext j; rw [Descent.step_h]; ring
      have e3 : (stepAtRate env s x 0).vbias = s.vbias := by
        funext j; rw [Descent.step_v]; ring
      rw [lossOn, e1, e2, e3]; rfl
    have hslope := hd.tendsto_slope_zero_right
    have hev := hslope.eventually (gt_mem_nhds (show -Descent.rate env s xn < 0 by linarith))
    rw [eventually_nhdsWithin_iff, Metric.eventually_nhds_iff] at hev
    obtain ⟨ε, hε, hall⟩ := hev
    refine ⟨ε, hε, fun r hr hlt => ?_⟩
    have := hall (y := r) (by rw [Real.dist_eq, sub_zero, abs_of_pos hr]; exact hlt) hr
    rw [zero_add, smul_eq_mul, h0] at this
    have hri : 0 < r⁻¹ := inv_pos.2 hr
    by_contra hcon
    have := mul_nonneg hri.le (sub_nonneg.2 (not_lt.1 hcon))
    linarith
  · right
    rw [Descent.rate] at hzero
    have z1 : ∑ i ∈ Finset.range s.nVisible, ∑ j ∈ Finset.range s.nHidden,
        Descent.dW env s xn i j ^ 2 = 0 := by linarith
    have z2 : (s.nHidden : ℝ) * Descent.dh env s xn ^ 2 = 0 := by linarith
    have z3 : (s.nVisible : ℝ) * Descent.dv env s xn ^ 2 = 0 := by linarith
    refine fun r => ⟨fun i hi j hj => ?_, fun j hj => ?_, fun i hi => ?_⟩
    · have a := (Finset.sum_eq_zero_iff_of_nonneg
        fun i _ => Finset.sum_nonneg fun j _ => sq_nonneg _).1 z1 i (Finset.mem_range.2 hi)
      have b := (Finset.sum_eq_zero_iff_of_nonneg fun j _ => sq_nonneg _).1 a j
        (Finset.mem_range.2 hj)
      rw [Descent.step_W, ← hxn, pow_eq_zero_iff two_ne_zero |>.1 b, mul_zero, add_zero]
    · have hq : (s.nHidden : ℝ) ≠ 0 := by
        have : 0 < s.nHidden := by omega
        positivity
      have b := (mul_eq_zero.1 z2).resolve_left hq
      rw [Descent.step_h, ← hxn, pow_eq_zero_iff two_ne_zero |>.1 b, mul_zero, add_zero]
    · have hq : (s.nVisible : ℝ) ≠ 0 := by
        have : 0 < s.nVisible := by omega
        positivity
      have b := (mul_eq_zero.1 z3).resolve_left hq
      rw [Descent.step_v, ← hxn, pow_eq_zero_iff two_ne_zero |>.1 b, mul_zero, add_zero]

end

/-- A freshly made autoencoder on two features with one hidden unit: the first instance is
normalised to zero, and a step with a small learning rate reduces its loss strictly. -/
example (x : ℕ → ℝ) : ∃ mx mn, ∃ ε > 0, ∀ r, 0 < r → r < ε →
    lossOn (stepAtRate gradientExampleEnv
      ⟨2, 1, 1, none, 0, fun i _ => i, fun _ => 0, fun _ => 0⟩ x r) x mn mx <
    lossOn ⟨2, 1, 1, none, 0, fun i _ => i, fun _ => 0, fun _ => 0⟩ x mn mx := by
  obtain ⟨mx, mn, hn, h | h⟩ := C144_kitnet_descends gradientExampleEnv rfl
    ⟨2, 1, 1, none, 0, fun i _ => i, fun _ => 0, fun _ => 0⟩ x
  · exact ⟨mx, mn, h⟩
  · exfalso
    have hv := (h 1).2.2 0 (by decide)
    rw [Descent.step_v] at hv
    have hz : ∀ i, 0 < Da.visible gradientExampleEnv
        ⟨2, 1, 1, none, 0, fun i _ => i, fun _ => 0, fun _ => 0⟩ (Da.hidden gradientExampleEnv
        ⟨2, 1, 1, none, 0, fun i _ => i, fun _ => 0, fun _ => 0⟩
        (Da.normalise (Da.updateNorm ⟨2, 1, 1, none, 0, fun i _ => i, fun _ => 0, fun _ => 0⟩ x)
          x)) i := by
      intro i
      rw [da_visible_eq gradientExampleEnv rfl]
      exact Real.sigmoid_pos _
    have hx : ∀ i, Da.normalise (Da.updateNorm
        (⟨2, 1, 1, none, 0, fun i _ => i, fun _ => 0, fun _ => 0⟩ : DaState ℝ) x) x i = 0 := by
      intro i
      simp [Da.normalise, Da.updateNorm]
    simp only [Descent.dv, hx, Finset.sum_range_succ, Finset.sum_range_zero] at hv
    have a := hz 0
    have b := hz 1
    push_cast at hv
    linarith

end Pysad
