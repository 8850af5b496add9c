import Verif.Model.Utils
import Verif.Proofs.Statistics
import Verif.Proofs.Lists
import Verif.Spec.Meters
import Mathlib.Analysis.SpecialFunctions.Sigmoid
import Mathlib.Analysis.SpecialFunctions.Trigonometric.DerivHyp
import Mathlib.Probability.Distributions.Gaussian.Real
import Mathlib.Probability.CDF

/-! C96 and C97: the functions of `pysad/models/kitnet_model/utils.py`. -/

namespace Pysad

open Spec

/-! ### C96: activation functions and densities, over the reals -/

/-- **C96 (sigmoid).** `sigmoid` is the logistic function. -/
theorem C96_sigmoid (x : ℝ) : KitUtils.sigmoid Real.exp x = Real.sigmoid x := by
  rw [KitUtils.sigmoid, Real.sigmoid_def, one_div]

/-- **C96 (sigmoid, shape).** It is strictly increasing, with values strictly between 0 and 1. -/
theorem C96_sigmoid_shape : StrictMono (KitUtils.sigmoid Real.exp) ∧
    ∀ x, 0 < KitUtils.sigmoid Real.exp x ∧ KitUtils.sigmoid Real.exp x < 1 := by
  refine ⟨fun a b h => ?_, fun x => ?_⟩
  · rw [C96_sigmoid, C96_sigmoid]; exact Real.sigmoid_strictMono h
  · rw [C96_sigmoid]; exact ⟨Real.sigmoid_pos x, Real.sigmoid_lt_one x⟩

/-- **C96 (derivative of sigmoid).** `dsigmoid` gives the derivative of `sigmoid` from its value. -/
theorem C96_dsigmoid (x : ℝ) :
    HasDerivAt (KitUtils.sigmoid Real.exp) (KitUtils.dsigmoid (KitUtils.sigmoid Real.exp x)) x := by
  have : KitUtils.sigmoid Real.exp = Real.sigmoid := funext C96_sigmoid
  rw [this]
  exact Real.hasDerivAt_sigmoid x

/-- **C96 (derivative of tanh).** `dtanh` gives the derivative of `tanh` from its value. -/
theorem C96_dtanh (x : ℝ) : HasDerivAt Real.tanh (KitUtils.dtanh (Real.tanh x)) x := by
  have hc : Real.cosh x ≠ 0 := (Real.cosh_pos x).ne'
  have h := (Real.hasDerivAt_sinh x).div (Real.hasDerivAt_cosh x) hc
  have hf : (Real.sinh / Real.cosh) = Real.tanh := by
    funext y; rw [Pi.div_apply, Real.tanh_eq_sinh_div_cosh]
  rw [hf] at h
  have he : KitUtils.dtanh (Real.tanh x) =
      (Real.cosh x * Real.cosh x - Real.sinh x * Real.sinh x) / Real.cosh x ^ 2 := by
    unfold KitUtils.dtanh
    rw [Real.tanh_eq_sinh_div_cosh]
    field_simp
  rw [he]
  exact h

/-- **C96 (ReLU).** -/
theorem C96_relu (x : ℝ) : KitUtils.relu x = max x 0 := by
  unfold KitUtils.relu
  split
  · rename_i h; rw [mul_one, max_eq_left h.le]
  · rename_i h; rw [mul_zero, max_eq_right (not_lt.1 h)]

/-- **C96 (derivative of ReLU).** `dReLU` is the derivative of `ReLU` away from 0. -/
theorem C96_drelu (x : ℝ) (hx : x ≠ 0) : HasDerivAt KitUtils.relu (KitUtils.drelu x) x := by
  unfold KitUtils.drelu
  rcases lt_or_gt_of_ne hx with h | h
  · rw [if_neg h.not_gt, mul_zero]
    refine (hasDerivAt_const x (0 : ℝ)).congr_of_eventuallyEq ?_
    filter_upwards [Iio_mem_nhds h] with y hy
    rw [C96_relu, max_eq_right (le_of_lt hy)]
  · rw [if_pos h, mul_one]
    refine (hasDerivAt_id x).congr_of_eventuallyEq ?_
    filter_upwards [Ioi_mem_nhds h] with y hy
    rw [C96_relu, max_eq_left (le_of_lt hy)]; rfl

/-- **C96 (pdf).** `pdf` is the density of the normal distribution with the given mean and
standard deviation. -/
theorem C96_pdf (x mu : ℝ) (sigma : NNReal) (hs : 0 < sigma) :
    KitUtils.pdf Real.exp Real.sqrt Real.pi x mu sigma =
      ProbabilityTheory.gaussianPDFReal mu (sigma ^ 2) x := by
  have hs' : (0 : ℝ) < sigma := hs
  unfold KitUtils.pdf ProbabilityTheory.gaussianPDFReal
  simp only [NNReal.coe_pow]
  rw [Real.sqrt_mul (by positivity : (0 : ℝ) ≤ 2 * Real.pi) ((sigma : ℝ) ^ 2), Real.sqrt_sq hs'.le,
    div_eq_inv_mul]
  congr 2
  field_simp

/-- **C96 (tail).** `invLogCDF` is the logarithm of the probability that a normal variable with
the given mean and standard deviation exceeds the value. -/
theorem C96_invLogCDF (logcdf : ℝ → ℝ)
    (hlog : ∀ x, logcdf x =
      Real.log (ProbabilityTheory.cdf (ProbabilityTheory.gaussianReal 0 1) x))
    (x mu : ℝ) (sigma : NNReal) (hs : 0 < sigma) :
    KitUtils.invLogCDF logcdf x mu sigma =
      Real.log ((ProbabilityTheory.gaussianReal mu (sigma ^ 2)).real (Set.Ioi x)) := by
  have hs' : (0 : ℝ) < sigma := hs
  unfold KitUtils.invLogCDF
  simp only
  rw [hlog, ProbabilityTheory.cdf_eq_real]
  congr 1
  have hmap : ProbabilityTheory.gaussianReal mu (sigma ^ 2) =
      ((ProbabilityTheory.gaussianReal 0 1).map fun t => -(sigma : ℝ) * t).map
        fun t => mu + t := by
    rw [ProbabilityTheory.gaussianReal_map_const_mul, ProbabilityTheory.gaussianReal_map_const_add]
    congr 1
    · ring
    · ext
      push_cast
      ring
  rw [hmap, MeasureTheory.measureReal_def, MeasureTheory.measureReal_def,
    MeasureTheory.Measure.map_apply (by fun_prop) measurableSet_Ioi,
    MeasureTheory.Measure.map_apply (by fun_prop) (measurableSet_Ioi.preimage (by fun_prop))]
  have hpre : (fun t => -(sigma : ℝ) * t) ⁻¹' ((fun t => mu + t) ⁻¹' Set.Ioi x) =
      Set.Iio (-((x - mu) / sigma)) := by
    ext t
    simp only [Set.mem_preimage, Set.mem_Ioi, Set.mem_Iio]
    rw [← neg_div, lt_div_iff₀ hs']
    constructor <;> intro h <;> linarith
  rw [hpre]
  haveI := ProbabilityTheory.noAtoms_gaussianReal (μ := 0) (v := 1) one_ne_zero
  rw [MeasureTheory.measure_congr MeasureTheory.Iio_ae_eq_Iic]

/-! #### Softmax -/

/-- The exponentials of the entries, divided by their sum. -/
noncomputable def Spec.softmaxOf (x : List ℝ) : List ℝ :=
  x.map fun a => Real.exp a / (x.map Real.exp).sum

theorem sum_map_exp_sub (x : List ℝ) (m : ℝ) :
    (x.map fun a => Real.exp (a - m)).sum = (x.map Real.exp).sum / Real.exp m := by
  induction x with
  | nil => simp
  | cons a as ih => rw [List.map_cons, List.sum_cons, ih, List.map_cons, List.sum_cons, Real.exp_sub]; ring

theorem softmax_shift (x : List ℝ) (m : ℝ) :
    ((x.map fun a => Real.exp (a - m)).map fun a =>
      a / (x.map fun a => Real.exp (a - m)).sum) = softmaxOf x := by
  rw [List.map_map, softmaxOf, sum_map_exp_sub]
  refine List.map_congr_left fun a _ => ?_
  rw [Function.comp_apply, Real.exp_sub, div_div_div_cancel_right₀ (Real.exp_pos m).ne']

/-- **C96 (softmax).** Subtracting the greatest entry first does not change the result. -/
theorem C96_softmax (x : List ℝ) (hx : x ≠ []) :
    KitUtils.softmax Real.exp x = .ok (softmaxOf x) := by
  cases x with
  | nil => exact absurd rfl hx
  | cons a as =>
    simp only [KitUtils.softmax, npMax]
    rw [softmax_shift]

/-- **C96 (softmax, overflow).** Every number exponentiated is at most 0. -/
theorem C96_softmax_no_overflow (exp : ℝ → ℝ) (x : List ℝ) (r : List ℝ)
    (h : KitUtils.softmax exp x = .ok r) (exp' : ℝ → ℝ) (hexp : ∀ t ≤ 0, exp' t = exp t) :
    KitUtils.softmax exp' x = .ok r := by
  have hm := npMax_isMax x
  unfold KitUtils.softmax at h ⊢
  cases hmx : npMax x with
  | none => rw [hmx] at h; exact absurd h (by simp)
  | some m =>
    rw [hmx] at h hm
    simp only [IsGreatestOf, Multiset.mem_coe] at hm
    rw [← h]
    have : (x.map fun a => exp' (a - m)) = x.map fun a => exp (a - m) :=
      List.map_congr_left fun a ha => hexp _ (by linarith [hm.2 a ha])
    simp only [this]

/-- **C96 (softmax, matrix).** Each row is transformed on its own. -/
theorem C96_softmax_rows (X : List (List ℝ)) (hX : X.flatten ≠ []) :
    KitUtils.softmaxRows Real.exp X = .ok (X.map softmaxOf) := by
  unfold KitUtils.softmaxRows
  cases hf : X.flatten with
  | nil => exact absurd hf hX
  | cons a as =>
    simp only [npMax]
    congr 1
    exact List.map_congr_left fun r _ => softmax_shift r _

/-- **C96 (softmax, distribution).** The result has one entry for each entry; the entries are
positive, sum to 1 and are ordered like the given ones. -/
theorem C96_softmax_distribution (x : List ℝ) (hx : x ≠ []) :
    ∃ f : ℝ → ℝ, KitUtils.softmax Real.exp x = .ok (x.map f) ∧ (∀ a, 0 < f a) ∧
      (x.map f).sum = 1 ∧ StrictMono f := by
  have hpos : 0 < (x.map Real.exp).sum := by
    cases x with
    | nil => exact absurd rfl hx
    | cons a as =>
      rw [List.map_cons, List.sum_cons]
      refine add_pos_of_pos_of_nonneg (Real.exp_pos a) (List.sum_nonneg fun y hy => ?_)
      obtain ⟨b, _, rfl⟩ := List.mem_map.1 hy
      exact (Real.exp_pos b).le
  refine ⟨fun a => Real.exp a / (x.map Real.exp).sum, C96_softmax x hx,
    fun a => div_pos (Real.exp_pos a) hpos, ?_, fun a b h => ?_⟩
  · have : ∀ (l : List ℝ) (c : ℝ), (l.map fun a => Real.exp a / c).sum = (l.map Real.exp).sum / c := by
      intro l c
      induction l with
      | nil => simp
      | cons a as ih => simp only [List.map_cons, List.sum_cons, ih]; ring
    rw [this, div_self hpos.ne']
  · exact div_lt_div_of_pos_right (Real.exp_lt_exp.2 h) hpos

/-- **C96 (softmax, no entries).** -/
theorem C96_softmax_empty : KitUtils.softmax Real.exp [] = .error .valueError := rfl

/-! ### C97: the rolling mean -/

section
variable {K : Type*} [Field K]

/-- The rolling mean after some values, with its last result, or the exception. -/
def KitUtils.RollMean.applyAll : KitUtils.RollMean K → List K → Except PyErr (KitUtils.RollMean K)
  | s, [] => .ok s
  | s, v :: vs => match s.apply v with
    | .ok _ s => applyAll s vs
    | .err e _ => .error e

/-- Invariant: read from the pointer on, the window holds the last values, after zeros. -/
structure RollInv (k : ℕ) (vs : List K) (s : KitUtils.RollMean K) : Prop where
  size : s.winsize = k
  len : s.window.length = k
  ptr : s.pointer < k
  content : s.window.drop s.pointer ++ s.window.take s.pointer =
    lastN k (List.replicate k 0 ++ vs)

theorem rollInv_new {k : ℕ} (hk : 0 < k) : RollInv k ([] : List K) (KitUtils.RollMean.new k) where
  size := rfl
  len := by simp [KitUtils.RollMean.new]
  ptr := hk
  content := by simp [KitUtils.RollMean.new, lastN]

theorem rollInv_apply {k : ℕ} {vs : List K} {s : KitUtils.RollMean K} (h : RollInv k vs s) (v : K) :
    ∃ s', s.apply v = .ok ((lastN k (List.replicate k 0 ++ (vs ++ [v]))).sum / (k : K)) s' ∧
      RollInv k (vs ++ [v]) s' := by
  obtain ⟨hsize, hlen, hptr, hcont⟩ := h
  obtain ⟨w, win, p⟩ := s
  simp only at hsize hlen hptr hcont
  subst hsize
  have hrot : (win.set p v).drop ((p + 1) % w) ++ (win.set p v).take ((p + 1) % w) =
      lastN w (List.replicate w 0 ++ (vs ++ [v])) := by
    rw [← List.append_assoc, lastN_snoc, ← hcont]
    have hd : win.drop p = win[p] :: win.drop (p + 1) := (List.getElem_cons_drop (by omega)).symm
    rw [if_pos (by simp; omega), hd]
    simp only [List.cons_append, List.drop_succ_cons, List.drop_zero]
    have hset : win.set p v = win.take p ++ v :: win.drop (p + 1) := List.set_eq_take_append_cons_drop .. |>.trans (if_pos (by omega))
    by_cases hp : p + 1 = w
    · rw [hp, Nat.mod_self, List.drop_zero, List.take_zero, List.append_nil, hset,
        List.drop_eq_nil_of_le (i := w) (by omega)]
      rw [List.drop_eq_nil_of_le (i := p + 1) (by omega), List.nil_append]
    · rw [Nat.mod_eq_of_lt (by omega), hset]
      have h1 : (win.take p).length = p := by rw [List.length_take]; omega
      rw [List.drop_append, List.take_append, h1]
      simp [List.drop_eq_nil_of_le, List.take_of_length_le, h1]
  have hsum : (win.set p v).sum = (lastN w (List.replicate w 0 ++ (vs ++ [v]))).sum := by
    rw [← hrot, List.sum_append, add_comm, ← List.sum_append, List.take_append_drop]
  refine ⟨⟨w, win.set p v, (p + 1) % w⟩, ?_, rfl, by simpa using hlen, Nat.mod_lt _ (by omega), hrot⟩
  simp only [KitUtils.RollMean.apply]
  rw [if_neg (by omega), hsum, List.length_set, hlen]

theorem rollInv_applyAll {k : ℕ} : ∀ (vs us : List K) (s : KitUtils.RollMean K), RollInv k us s →
    ∃ s', s.applyAll vs = .ok s' ∧ RollInv k (us ++ vs) s' := by
  intro vs
  induction vs with
  | nil => intro us s h; exact ⟨s, rfl, by simpa using h⟩
  | cons v vs ih =>
    intro us s h
    obtain ⟨s', hs', hinv⟩ := rollInv_apply h v
    obtain ⟨s'', hs'', hinv'⟩ := ih _ _ hinv
    refine ⟨s'', ?_, by simpa using hinv'⟩
    rw [KitUtils.RollMean.applyAll, hs']
    exact hs''

/-- The property one expects of a rolling mean of width `k`: whatever the earlier values, the
result is the mean of the last `k` values seen (of all, while there are fewer). -/
def C97_statement : Prop :=
  ∀ (k : ℕ), 0 < k → ∀ (vs : List ℚ) (v : ℚ), ∃ s s',
    (KitUtils.RollMean.new k).applyAll vs = .ok s ∧
    s.apply v = .ok (meanOf (lastN k (vs ++ [v]) : Multiset ℚ)) s'

/-- **C97.** It fails for the first value already, when the width is 2: zeros not seen in the
stream are averaged in. -/
theorem C97_rollmean_refuted : ¬ C97_statement := by
  intro h
  obtain ⟨s, s', hs, hs'⟩ := h 2 (by decide) [] 2
  rw [KitUtils.RollMean.applyAll] at hs
  obtain rfl := Except.ok.inj hs
  simp [KitUtils.RollMean.apply, KitUtils.RollMean.new, meanOf, lastN] at hs'

/-- **C97 (partial).** Once `k` values have been seen, the result is the mean of the last `k`.
Missing: the results for the first `k - 1` values, see `C97_rollmean_start`. -/
theorem C97_rollmean_partial [CharZero K] {k : ℕ} (hk : 0 < k) (vs : List K) (v : K)
    (hn : k ≤ vs.length + 1) : ∃ s s',
    (KitUtils.RollMean.new k).applyAll vs = .ok s ∧
    s.apply v = .ok (meanOf (lastN k (vs ++ [v]) : Multiset K)) s' := by
  obtain ⟨s, hs, hinv⟩ := rollInv_applyAll vs [] _ (rollInv_new (K := K) hk)
  obtain ⟨s', hs', _⟩ := rollInv_apply hinv v
  refine ⟨s, s', hs, ?_⟩
  rw [hs', List.nil_append, lastN_append_of_le (by simpa using hn), meanOf, Multiset.sum_coe,
    Multiset.coe_card, lastN_length, min_eq_left (by simpa using hn)]

/-- **C97 (start).** Before that, the result is the sum of the values seen, divided by `k`. -/
theorem C97_rollmean_start {k : ℕ} (vs : List K) (v : K)
    (hn : vs.length + 1 < k) : ∃ s s',
    (KitUtils.RollMean.new k).applyAll vs = .ok s ∧
    s.apply v = .ok ((vs ++ [v]).sum / (k : K)) s' := by
  obtain ⟨s, hs, hinv⟩ := rollInv_applyAll vs [] _ (rollInv_new (K := K) (Nat.zero_lt_of_lt hn))
  obtain ⟨s', hs', _⟩ := rollInv_apply hinv v
  refine ⟨s, s', hs, ?_⟩
  rw [hs', List.nil_append, lastN, List.drop_append_of_le_length (by simp; omega), List.sum_append]
  congr 2
  simp

/-- **C97 (width 0).** -/
theorem C97_rollmean_zero (v : K) :
    ((KitUtils.RollMean.new 0).apply v : Res (KitUtils.RollMean K) K) =
      .err .indexError (KitUtils.RollMean.new 0) := rfl

end

/-- Width 3, five values: the mean of the last three. -/
example : ∃ s s', (KitUtils.RollMean.new 3).applyAll [(10 : ℚ), 20, 1, 2] = .ok s ∧
    s.apply 6 = .ok 3 s' := by
  obtain ⟨s, s', hs, hs'⟩ := C97_rollmean_partial (k := 3) (by decide) [(10 : ℚ), 20, 1, 2] 6
    (by decide)
  refine ⟨s, s', hs, hs'.trans ?_⟩
  simp [meanOf, lastN]
  norm_num

end Pysad
