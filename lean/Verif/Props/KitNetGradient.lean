import Verif.Model.KitNet
import Verif.Props.KitNetUtils
import Mathlib.Analysis.SpecialFunctions.Log.Deriv
import Mathlib.Analysis.Calculus.Deriv.Add

/-! C98: a training step of an autoencoder of KitNet, as a step of gradient descent. -/

namespace Pysad

open Spec

/-! ### Specification: an autoencoder with one hidden layer and tied weights -/

/-- The hidden units. -/
noncomputable def Spec.encode (p : ℕ) (W : ℕ → ℕ → ℝ) (h : ℕ → ℝ) (x : ℕ → ℝ) (j : ℕ) : ℝ :=
  Real.sigmoid (∑ i ∈ Finset.range p, x i * W i j + h j)

/-- The reconstruction from the hidden units. -/
noncomputable def Spec.decode (q : ℕ) (W : ℕ → ℕ → ℝ) (v : ℕ → ℝ) (y : ℕ → ℝ) (i : ℕ) : ℝ :=
  Real.sigmoid (∑ j ∈ Finset.range q, y j * W i j + v i)

/-- The cross-entropy between a vector and its reconstruction. -/
noncomputable def Spec.crossEntropy (p : ℕ) (x z : ℕ → ℝ) : ℝ :=
  -∑ i ∈ Finset.range p, (x i * Real.log (z i) + (1 - x i) * Real.log (1 - z i))

/-- The loss of the autoencoder with weights `W` and biases `h` and `v` on `x`. -/
noncomputable def Spec.autoencoderLoss (p q : ℕ) (x : ℕ → ℝ) (W : ℕ → ℕ → ℝ) (h v : ℕ → ℝ) : ℝ :=
  crossEntropy p x (decode q W v (encode p W h x))

/-! ### The derivative of the loss -/

theorem sumTo_eq {K : Type*} [Field K] [LinearOrder K] (n : ℕ) (f : ℕ → K) :
    Da.sumTo n f = ∑ i ∈ Finset.range n, f i := by
  unfold Da.sumTo
  induction n with
  | zero => simp
  | succ n ih => rw [List.range_succ, List.map_append, List.sum_append, ih, Finset.sum_range_succ]; simp

theorem hasDerivAt_entropy (x : ℝ) {b : ℝ → ℝ} {b' t : ℝ} (hb : HasDerivAt b b' t) :
    HasDerivAt (fun s => x * Real.log (Real.sigmoid (b s)) +
      (1 - x) * Real.log (1 - Real.sigmoid (b s))) ((x - Real.sigmoid (b t)) * b') t := by
  have hz := (Real.hasDerivAt_sigmoid (b t)).comp t hb
  have h0 := (Real.sigmoid_pos (b t)).ne'
  have h1 : 1 - Real.sigmoid (b t) ≠ 0 := (sub_pos.2 (Real.sigmoid_lt_one (b t))).ne'
  have h := ((hz.log h0).const_mul x).add (((hz.const_sub 1).log h1).const_mul (1 - x))
  refine h.congr_deriv ?_
  simp only [Function.comp_apply]
  field_simp
  ring

/-- The derivative of the loss when weights and biases move. -/
theorem hasDerivAt_loss (p q : ℕ) (x : ℕ → ℝ) (W : ℝ → ℕ → ℕ → ℝ) (h v : ℝ → ℕ → ℝ)
    (W' : ℕ → ℕ → ℝ) (h' v' : ℕ → ℝ) (t : ℝ) (hW : ∀ i j, HasDerivAt (fun s => W s i j) (W' i j) t)
    (hh : ∀ j, HasDerivAt (fun s => h s j) (h' j) t)
    (hv : ∀ i, HasDerivAt (fun s => v s i) (v' i) t) :
    HasDerivAt (fun s => autoencoderLoss p q x (W s) (h s) (v s))
      (-∑ i ∈ Finset.range p, (x i - decode q (W t) (v t) (encode p (W t) (h t) x) i) *
        (∑ j ∈ Finset.range q,
          (encode p (W t) (h t) x j * (1 - encode p (W t) (h t) x j) *
            (∑ k ∈ Finset.range p, x k * W' k j + h' j) * W t i j +
          encode p (W t) (h t) x j * W' i j) + v' i)) t := by
  have henc : ∀ j, HasDerivAt (fun s => encode p (W s) (h s) x j)
      (encode p (W t) (h t) x j * (1 - encode p (W t) (h t) x j) *
        (∑ k ∈ Finset.range p, x k * W' k j + h' j)) t := by
    intro j
    have ha : HasDerivAt (fun s => ∑ k ∈ Finset.range p, x k * W s k j + h s j)
        (∑ k ∈ Finset.range p, x k * W' k j + h' j) t :=
      (HasDerivAt.fun_sum fun k _ => (hW k j).const_mul (x k)).add (hh j)
    exact (Real.hasDerivAt_sigmoid _).comp t ha
  unfold autoencoderLoss crossEntropy
  refine (HasDerivAt.fun_sum fun i _ => ?_).neg
  refine hasDerivAt_entropy (x i) (b := fun s =>
    ∑ j ∈ Finset.range q, encode p (W s) (h s) x j * W s i j + v s i) ?_
  exact (HasDerivAt.fun_sum fun j _ => (henc j).mul (hW i j)).add (hv i)

/-! ### The step -/

section
variable (env : KnEnv ℝ) (hsig : env.sigmoid = KitUtils.sigmoid Real.exp)
include hsig

theorem da_hidden_eq (s : DaState ℝ) (x : ℕ → ℝ) :
    Da.hidden env s x = encode s.nVisible s.W s.hbias x := by
  funext j
  rw [Da.hidden, hsig, C96_sigmoid, sumTo_eq, encode]

theorem da_visible_eq (s : DaState ℝ) (y : ℕ → ℝ) :
    Da.visible env s y = decode s.nHidden s.W s.vbias y := by
  funext j
  rw [Da.visible, hsig, C96_sigmoid, sumTo_eq, decode]

/-- **C98 (weights).** A training step moves every weight against the partial derivative of the
cross-entropy between the instance, normalised with the norms after the step, and its
reconstruction; the step is the learning rate. -/
theorem C98_kitnet_weights (s : DaState ℝ) (x : ℕ → ℝ) :
    ∃ mx mn, (Da.train env s x).2.norm = some (mx, mn) ∧
      ∀ i j, i < s.nVisible → j < s.nHidden → ∃ g,
        HasDerivAt (fun w => autoencoderLoss s.nVisible s.nHidden
          (fun k => (x k - mn k) / (mx k - mn k + 1 / 10 ^ 16))
          (Function.update s.W i (Function.update (s.W i) j w)) s.hbias s.vbias) g (s.W i j) ∧
        (Da.train env s x).2.W i j = s.W i j - s.lr * g := by
  refine ⟨(Da.updateNorm s x).1, (Da.updateNorm s x).2, rfl, fun i j hi hj => ?_⟩
  set xn : ℕ → ℝ := fun k => (x k - (Da.updateNorm s x).2 k) /
    ((Da.updateNorm s x).1 k - (Da.updateNorm s x).2 k + 1 / 10 ^ 16) with hxn
  have hW : ∀ a b, HasDerivAt
      (fun w => Function.update s.W i (Function.update (s.W i) j w) a b)
      (if a = i ∧ b = j then 1 else 0) (s.W i j) := by
    intro a b
    by_cases ha : a = i
    · subst ha
      by_cases hb : b = j
      · subst hb
        simpa using hasDerivAt_id' (s.W a b)
      · simpa [hb, Function.update_of_ne hb] using hasDerivAt_const (s.W a j) (s.W a b)
    · simpa [ha, Function.update_of_ne ha] using hasDerivAt_const (s.W i j) (s.W a b)
  refine ⟨_, hasDerivAt_loss _ _ xn _ (fun _ => s.hbias) (fun _ => s.vbias) _ (fun _ => 0)
    (fun _ => 0) _ hW (fun b => hasDerivAt_const _ _) (fun a => hasDerivAt_const _ _), ?_⟩
  rw [Function.update_eq_self, Function.update_eq_self]
  simp only [Da.train, da_hidden_eq env hsig, da_visible_eq env hsig, sumTo_eq]
  have hn : Da.normalise (Da.updateNorm s x) x = xn := rfl
  rw [hn]
  set y := encode s.nVisible s.W s.hbias xn
  set z := decode s.nHidden s.W s.vbias y
  have hin : ∀ b, ∑ k ∈ Finset.range s.nVisible, xn k * (if k = i ∧ b = j then (1 : ℝ) else 0) =
      if b = j then xn i else 0 := by
    intro b
    by_cases hb : b = j
    · simp [hb, hi]
    · simp [hb]
  have hmid : ∀ a, ∑ b ∈ Finset.range s.nHidden,
      (y b * (1 - y b) * (∑ k ∈ Finset.range s.nVisible,
        xn k * (if k = i ∧ b = j then (1 : ℝ) else 0)) * s.W a b +
        y b * (if a = i ∧ b = j then (1 : ℝ) else 0)) =
      y j * (1 - y j) * xn i * s.W a j + if a = i then y j else 0 := by
    intro a
    rw [Finset.sum_add_distrib]
    congr 1
    · rw [Finset.sum_eq_single j]
      · rw [hin, if_pos rfl]
      · intro b _ hb
        rw [hin, if_neg hb]; ring
      · intro h; exact absurd (Finset.mem_range.2 hj) h
    · by_cases ha : a = i
      · simp [ha, hj]
      · simp [ha]
  simp only [add_zero, hmid]
  have : ∑ a ∈ Finset.range s.nVisible, (xn a - z a) *
      (y j * (1 - y j) * xn i * s.W a j + if a = i then y j else 0) =
      xn i * ((∑ a ∈ Finset.range s.nVisible, (xn a - z a) * s.W a j) * y j * (1 - y j)) +
        (xn i - z i) * y j := by
    simp only [mul_add]
    rw [Finset.sum_add_distrib]
    congr 1
    · rw [Finset.sum_mul, Finset.sum_mul, Finset.mul_sum]
      exact Finset.sum_congr rfl fun a _ => by ring
    · simp [hi]
  rw [this]
  ring

/-- The partial derivatives with respect to the biases. -/
theorem bias_derivatives (s : DaState ℝ) (xn : ℕ → ℝ) :
    (∀ j, j < s.nHidden → HasDerivAt (fun b => autoencoderLoss s.nVisible s.nHidden xn s.W
        (Function.update s.hbias j b) s.vbias)
      (-(Da.sumTo s.nVisible (fun i => (xn i - Da.visible env s (Da.hidden env s xn) i) * s.W i j) *
        Da.hidden env s xn j * (1 - Da.hidden env s xn j))) (s.hbias j)) ∧
    (∀ i, i < s.nVisible → HasDerivAt (fun b => autoencoderLoss s.nVisible s.nHidden xn s.W
        s.hbias (Function.update s.vbias i b))
      (-(xn i - Da.visible env s (Da.hidden env s xn) i)) (s.vbias i)) := by
  have hup : ∀ (f : ℕ → ℝ) (j a : ℕ), HasDerivAt (fun b => Function.update f j b a)
      (if a = j then 1 else 0) (f j) := by
    intro f j a
    by_cases ha : a = j
    · subst ha; simpa using hasDerivAt_id' (f a)
    · simpa [ha, Function.update_of_ne ha] using hasDerivAt_const (f j) (f a)
  constructor
  · intro j hj
    refine (hasDerivAt_loss _ _ xn (fun _ => s.W) _ (fun _ => s.vbias) (fun _ _ => 0) _
      (fun _ => 0) _ (fun _ _ => hasDerivAt_const _ _) (hup s.hbias j)
      (fun a => hasDerivAt_const _ _)).congr_deriv ?_
    rw [Function.update_eq_self, sumTo_eq, da_visible_eq env hsig, da_hidden_eq env hsig]
    set y := encode s.nVisible s.W s.hbias xn
    congr 1
    rw [Finset.sum_mul, Finset.sum_mul]
    refine Finset.sum_congr rfl fun a _ => ?_
    rw [Finset.sum_eq_single j]
    · simp; ring
    · intro b _ hb; simp [hb]
    · intro h; exact absurd (Finset.mem_range.2 hj) h
  · intro i hi
    refine (hasDerivAt_loss _ _ xn (fun _ => s.W) (fun _ => s.hbias) _ (fun _ _ => 0) (fun _ => 0)
      _ _ (fun _ _ => hasDerivAt_const _ _) (fun a => hasDerivAt_const _ _)
      (hup s.vbias i)).congr_deriv ?_
    rw [Function.update_eq_self, da_visible_eq env hsig, da_hidden_eq env hsig]
    congr 1
    rw [Finset.sum_eq_single i]
    · simp
    · intro b _ hb; simp [hb]
    · intro h; exact absurd (Finset.mem_range.2 hi) h

/-- **C98 (biases).** The biases do not follow their own partial derivatives: every hidden bias
moves against the mean of the partial derivatives with respect to the hidden biases, and every
visible bias against the mean of those with respect to the visible biases. -/
theorem C98_kitnet_biases (s : DaState ℝ) (x : ℕ → ℝ) :
    ∃ mx mn, (Da.train env s x).2.norm = some (mx, mn) ∧ ∃ g g' : ℕ → ℝ,
      (∀ j < s.nHidden, HasDerivAt (fun b => autoencoderLoss s.nVisible s.nHidden
          (fun k => (x k - mn k) / (mx k - mn k + 1 / 10 ^ 16)) s.W
          (Function.update s.hbias j b) s.vbias) (g j) (s.hbias j)) ∧
      (∀ i < s.nVisible, HasDerivAt (fun b => autoencoderLoss s.nVisible s.nHidden
          (fun k => (x k - mn k) / (mx k - mn k + 1 / 10 ^ 16)) s.W
          s.hbias (Function.update s.vbias i b)) (g' i) (s.vbias i)) ∧
      (∀ j, (Da.train env s x).2.hbias j =
        s.hbias j - s.lr * ((∑ k ∈ Finset.range s.nHidden, g k) / s.nHidden)) ∧
      (∀ i, (Da.train env s x).2.vbias i =
        s.vbias i - s.lr * ((∑ k ∈ Finset.range s.nVisible, g' k) / s.nVisible)) := by
  obtain ⟨hh, hv⟩ := bias_derivatives env hsig s (Da.normalise (Da.updateNorm s x) x)
  refine ⟨(Da.updateNorm s x).1, (Da.updateNorm s x).2, rfl, _, _, hh, hv, fun j => ?_,
    fun i => ?_⟩
  · simp only [Da.train, Da.meanTo]
    rw [sumTo_eq s.nHidden, Finset.sum_neg_distrib]
    ring
  · simp only [Da.train, Da.meanTo]
    rw [sumTo_eq s.nVisible, Finset.sum_neg_distrib]
    ring

end

/-- **C98 (biases, consequence).** However long it is trained, all hidden biases of an autoencoder
of KitNet are equal, and so are all visible ones. Over every field. -/
theorem C98_kitnet_biases_equal {K : Type*} [Field K] [LinearOrder K] [FloorRing K] (env : KnEnv K)
    (p : ℕ) (lr hr : K) (s : DaState K) (hs : Da.new env p lr hr = .ok s) (xs : List (ℕ → K)) :
    (∀ j j', (xs.foldl (fun s x => (Da.train env s x).2) s).hbias j =
      (xs.foldl (fun s x => (Da.train env s x).2) s).hbias j') ∧
    (∀ i i', (xs.foldl (fun s x => (Da.train env s x).2) s).vbias i =
      (xs.foldl (fun s x => (Da.train env s x).2) s).vbias i') := by
  have h0 : (∀ j j', s.hbias j = s.hbias j') ∧ ∀ i i', s.vbias i = s.vbias i' := by
    simp only [Da.new] at hs
    split at hs
    · simp at hs
    · split at hs
      · simp at hs
      · obtain rfl := Except.ok.inj hs
        exact ⟨fun _ _ => rfl, fun _ _ => rfl⟩
  clear hs
  induction xs generalizing s with
  | nil => exact h0
  | cons x xs ih =>
    rw [List.foldl_cons]
    refine ih _ ⟨fun j j' => ?_, fun i i' => ?_⟩
    · simp only [Da.train]; rw [h0.1 j j']
    · simp only [Da.train]; rw [h0.2 i i']

/-- The property one expects: whatever the weights drawn and the training instances, a training
step moves every parameter, weight or bias, against its own partial derivative of the loss. -/
def C98_statement : Prop :=
  ∀ (env : KnEnv ℝ), env.sigmoid = KitUtils.sigmoid Real.exp →
    ∀ (p : ℕ) (lr hr : ℝ) (s₀ : DaState ℝ), Da.new env p lr hr = .ok s₀ →
    ∀ (xs : List (ℕ → ℝ)) (x : ℕ → ℝ), ∀ s, s = xs.foldl (fun s x => (Da.train env s x).2) s₀ →
    ∃ mx mn, (Da.train env s x).2.norm = some (mx, mn) ∧
      (∀ i j, i < s.nVisible → j < s.nHidden → ∃ g,
        HasDerivAt (fun w => autoencoderLoss s.nVisible s.nHidden
          (fun k => (x k - mn k) / (mx k - mn k + 1 / 10 ^ 16))
          (Function.update s.W i (Function.update (s.W i) j w)) s.hbias s.vbias) g (s.W i j) ∧
        (Da.train env s x).2.W i j = s.W i j - s.lr * g) ∧
      (∀ j < s.nHidden, ∃ g, HasDerivAt (fun b => autoencoderLoss s.nVisible s.nHidden
          (fun k => (x k - mn k) / (mx k - mn k + 1 / 10 ^ 16)) s.W
          (Function.update s.hbias j b) s.vbias) g (s.hbias j) ∧
        (Da.train env s x).2.hbias j = s.hbias j - s.lr * g) ∧
      (∀ i < s.nVisible, ∃ g, HasDerivAt (fun b => autoencoderLoss s.nVisible s.nHidden
          (fun k => (x k - mn k) / (mx k - mn k + 1 / 10 ^ 16)) s.W
          s.hbias (Function.update s.vbias i b)) g (s.vbias i) ∧
        (Da.train env s x).2.vbias i = s.vbias i - s.lr * g)

/-- **C98.** It fails in the first training step, whenever the weights drawn for two features
have different sums. -/
theorem C98_kitnet_first_step (env : KnEnv ℝ) (hsig : env.sigmoid = KitUtils.sigmoid Real.exp)
    (p : ℕ) (lr hr : ℝ) (hlr : lr ≠ 0) (s : DaState ℝ) (hs : Da.new env p lr hr = .ok s)
    (i i' : ℕ) (hi : i < p) (hi' : i' < p)
    (hne : ∑ j ∈ Finset.range s.nHidden, s.W i j ≠ ∑ j ∈ Finset.range s.nHidden, s.W i' j)
    (x : ℕ → ℝ) (mx mn : ℕ → ℝ) (hnorm : (Da.train env s x).2.norm = some (mx, mn)) :
    ¬ ∀ i < s.nVisible, ∃ g, HasDerivAt (fun b => autoencoderLoss s.nVisible s.nHidden
          (fun k => (x k - mn k) / (mx k - mn k + 1 / 10 ^ 16)) s.W
          s.hbias (Function.update s.vbias i b)) g (s.vbias i) ∧
        (Da.train env s x).2.vbias i = s.vbias i - s.lr * g := by
  intro h
  have heq := (C98_kitnet_biases_equal env p lr hr s hs [x]).2 i i'
  simp only [List.foldl_cons, List.foldl_nil] at heq
  have hs' := hs
  simp only [Da.new] at hs
  split at hs
  · simp at hs
  · split at hs
    · simp at hs
    · obtain rfl := Except.ok.inj hs
      have hmm : (mx, mn) = (x, x) := (Option.some.inj hnorm).symm
      obtain ⟨rfl, rfl⟩ := Prod.mk.inj hmm
      have hx : (fun k => (mn k - mn k) / (mn k - mn k + 1 / 10 ^ 16) : ℕ → ℝ) = fun _ => 0 := by
        funext k; simp
      rw [hx] at h
      obtain ⟨g, hg, h1⟩ := h i hi
      obtain ⟨g', hg', h2⟩ := h i' hi'
      rw [h1, h2] at heq
      simp only [zero_sub, neg_inj] at heq
      have hgg : g = g' := mul_left_cancel₀ hlr heq
      set s : DaState ℝ := ⟨p, ⌈(p : ℝ) * hr⌉.toNat, lr, none, 0,
        env.uniform p ⌈(p : ℝ) * hr⌉.toNat, fun _ => 0, fun _ => 0⟩ with hsdef
      have hd := (bias_derivatives env hsig s fun _ => 0).2
      have e1 := hg.unique (hd i hi)
      have e2 := hg'.unique (hd i' hi')
      rw [e1, e2] at hgg
      simp only [zero_sub, neg_neg] at hgg
      rw [da_visible_eq env hsig, da_hidden_eq env hsig] at hgg
      simp only [decode] at hgg
      have hsum := Real.sigmoid_strictMono.injective hgg
      have hy : ∀ j, encode s.nVisible s.W s.hbias (fun _ => 0) j = Real.sigmoid 0 := by
        intro j; simp [encode, hsdef]
      simp only [hy, ← Finset.mul_sum] at hsum
      have hpos := Real.sigmoid_pos 0
      exact hne (mul_left_cancel₀ hpos.ne' (by simpa [hsdef] using hsum))

/-- Weights 0, 1, 2, … by feature. -/
noncomputable def gradientExampleEnv : KnEnv ℝ :=
  ⟨Real.sqrt, KitUtils.sigmoid Real.exp, fun _ _ i _ => i, fun _ _ => .error .valueError⟩

theorem gradientExample_new : Da.new gradientExampleEnv 2 1 (1 / 2) =
    .ok ⟨2, 1, 1, none, 0, fun i _ => i, fun _ => 0, fun _ => 0⟩ := by
  have : ⌈((2 : ℕ) : ℝ) * (1 / 2)⌉ = 1 := by norm_num
  simp only [Da.new, this]
  rfl

/-- **C98.** -/
theorem C98_kitnet_descent_refuted : ¬ C98_statement := by
  intro h
  obtain ⟨mx, mn, hn, _, _, hv⟩ := h gradientExampleEnv rfl 2 1 (1 / 2) _ gradientExample_new []
    (fun _ => 0) _ rfl
  refine C98_kitnet_first_step gradientExampleEnv rfl 2 1 (1 / 2) one_ne_zero _ gradientExample_new
    0 1 (by decide) (by decide) ?_ _ mx mn hn hv
  simp

/-- **C98 (partial).** What holds of the statement: the weights always follow their partial
derivatives. Missing: the biases, see `C98_kitnet_biases` for what they do. -/
theorem C98_kitnet_descent_partial (env : KnEnv ℝ) (hsig : env.sigmoid = KitUtils.sigmoid Real.exp)
    (p : ℕ) (lr hr : ℝ) (s₀ : DaState ℝ) (_ : Da.new env p lr hr = .ok s₀)
    (xs : List (ℕ → ℝ)) (x : ℕ → ℝ) (s : DaState ℝ)
    (_ : s = xs.foldl (fun s x => (Da.train env s x).2) s₀) :
    ∃ mx mn, (Da.train env s x).2.norm = some (mx, mn) ∧
      ∀ i j, i < s.nVisible → j < s.nHidden → ∃ g,
        HasDerivAt (fun w => autoencoderLoss s.nVisible s.nHidden
          (fun k => (x k - mn k) / (mx k - mn k + 1 / 10 ^ 16))
          (Function.update s.W i (Function.update (s.W i) j w)) s.hbias s.vbias) g (s.W i j) ∧
        (Da.train env s x).2.W i j = s.W i j - s.lr * g :=
  C98_kitnet_weights env hsig s x

end Pysad
