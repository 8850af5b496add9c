import Verif.Model.FixedInt
import Verif.Props.Statistics
import Mathlib.Data.Int.ModEq

/-! Property C124: statistics of fixed-width integers. -/

namespace Pysad

open Spec

variable {t : IntType}

theorem IntType.size_pos (t : IntType) : 0 < t.size := by unfold IntType.size; positivity

theorem IntType.wrap_modEq (t : IntType) (z : ℤ) : t.wrap z ≡ z [ZMOD t.size] := by
  unfold IntType.wrap
  have : (z - t.lo) % t.size + t.lo ≡ (z - t.lo) + t.lo [ZMOD t.size] := (Int.mod_modEq _ _).add_right _
  simpa using this

theorem IntType.wrap_congr (t : IntType) {a b : ℤ} (h : a ≡ b [ZMOD t.size]) : t.wrap a = t.wrap b := by
  unfold IntType.wrap
  rw [(h.sub_right t.lo : _ % _ = _ % _)]

/-- The numbers the type can represent. -/
def Spec.Representable (t : IntType) (z : ℤ) : Prop := t.lo ≤ z ∧ z < t.lo + t.size

theorem IntType.wrap_fits {t : IntType} {z : ℤ} (h : Representable t z) : t.wrap z = z := by
  unfold IntType.wrap
  obtain ⟨h1, h2⟩ := h
  rw [Int.emod_eq_of_lt (by omega) (by omega)]; omega

theorem IntType.fits_wrap (t : IntType) (z : ℤ) : Representable t (t.wrap z) := by
  unfold IntType.wrap Representable
  have h1 := Int.emod_nonneg (z - t.lo) t.size_pos.ne'
  have h2 := Int.emod_lt_of_pos (z - t.lo) t.size_pos
  omega

/-- The exact sum of the values. -/
def Spec.exactSum (m : Multiset (NpInt t)) : ℤ := (m.map NpInt.val).sum
/-- The exact sum of the squares of the values. -/
def Spec.exactSquares (m : Multiset (NpInt t)) : ℤ := (m.map fun x => x.val ^ 2).sum

/-- Reading `z` is the exact value `f m` as soon as that fits, and always agrees with it up to a
multiple of the size of the type. -/
def Spec.ReadsWrapped (f : Multiset (NpInt t) → ℤ) (m : Multiset (NpInt t))
    (r : Except PyErr (NpInt t)) : Prop :=
  ∃ z, r = .ok z ∧ z.val ≡ f m [ZMOD t.size] ∧ (Representable t (f m) → z.val = f m)

/-- The invariant of the sums. -/
def SumIs (t : IntType) (z : NpInt t) (e : ℤ) : Prop := z.val ≡ e [ZMOD t.size] ∧ (z.val = 0 ∨ Representable t z.val)

theorem fits_unique {a b : ℤ} (ha : Representable t a) (hb : Representable t b) (h : a ≡ b [ZMOD t.size]) : a = b := by
  rw [← IntType.wrap_fits ha, ← IntType.wrap_fits hb, t.wrap_congr h]

theorem SumIs.add {z : NpInt t} {e d : ℤ} (h : SumIs t z e) {x : NpInt t} (hx : x.val ≡ d [ZMOD t.size]) :
    SumIs t (z + x) (e + d) :=
  ⟨(t.wrap_modEq _).trans (h.1.add hx), .inr (t.fits_wrap _)⟩

theorem SumIs.sub {z : NpInt t} {e d : ℤ} (h : SumIs t z e) {x : NpInt t} (hx : x.val ≡ d [ZMOD t.size]) :
    SumIs t (z - x) (e - d) :=
  ⟨(t.wrap_modEq _).trans (h.1.sub hx), .inr (t.fits_wrap _)⟩

theorem NpInt.mul_modEq (x : NpInt t) : (x * x).val ≡ x.val ^ 2 [ZMOD t.size] := by
  have := t.wrap_modEq (x.val * x.val)
  rw [pow_two]; exact this

theorem sumInt_refines (ht : Representable t 0) :
    Refines (sumMeter (NpInt t)) (ReadsWrapped exactSum) (fun m s => SumIs t s.sum (exactSum m)) where
  init := ⟨rfl, .inl rfl⟩
  update {m s} h x := by
    have : exactSum (x ::ₘ m) = exactSum m + x.val := by simp [exactSum, add_comm]
    rw [this]
    exact h.add rfl
  remove {m s} h x hx := by
    refine ⟨_, rfl, ?_⟩
    have : exactSum (m.erase x) = exactSum m - x.val := by
      conv_rhs => rw [← Multiset.cons_erase hx]
      simp [exactSum]
    rw [this]
    exact h.sub rfl
  get_out {m s} h := by
    refine ⟨s.sum, rfl, h.1, fun hf => fits_unique ?_ hf h.1⟩
    rcases h.2 with h | h
    · rw [h]; exact ht
    · exact h
  get_state h := h

theorem sumSquaresInt_refines (ht : Representable t 0) :
    Refines (sumSquaresMeter (NpInt t)) (ReadsWrapped exactSquares)
      (fun m s => SumIs t s.sum (exactSquares m)) where
  init := ⟨rfl, .inl rfl⟩
  update {m s} h x := by
    have : exactSquares (x ::ₘ m) = exactSquares m + x.val ^ 2 := by simp [exactSquares, add_comm]
    rw [this]
    exact h.add x.mul_modEq
  remove {m s} h x hx := by
    refine ⟨_, rfl, ?_⟩
    have : exactSquares (m.erase x) = exactSquares m - x.val ^ 2 := by
      conv_rhs => rw [← Multiset.cons_erase hx]
      simp [exactSquares]
    rw [this]
    exact h.sub x.mul_modEq
  get_out {m s} h := by
    refine ⟨s.sum, rfl, h.1, fun hf => fits_unique ?_ hf h.1⟩
    rcases h.2 with h | h
    · rw [h]; exact ht
    · exact h
  get_state h := h

/-- Zero belongs to every type with at least one bit. -/
theorem fits_zero (t : IntType) (h : 1 ≤ t.bits) : Representable t 0 := by
  unfold Representable IntType.lo IntType.size
  have h1 : (2 : ℤ) ^ t.bits = 2 ^ (t.bits - 1) * 2 := by
    rw [← pow_succ]; congr 1; omega
  have h2 : (0 : ℤ) < 2 ^ (t.bits - 1) := by positivity
  split <;> constructor <;> omega

/-- The exact mean, the exact variance. -/
def Spec.exactMean (m : Multiset (NpInt t)) : ℚ := meanOf (m.map fun x => (x.val : ℚ))
/-- The exact variance. -/
def Spec.exactVariance (m : Multiset (NpInt t)) : ℚ := varianceOf (m.map fun x => (x.val : ℚ))

/-- Reading is right if the condition `ok` holds of the values, and raises for no values. -/
def Spec.ReadsIf {β : Type*} (ok : Multiset (NpInt t) → Prop) (f : Multiset (NpInt t) → β)
    (m : Multiset (NpInt t)) (r : Except PyErr β) : Prop :=
  (m = 0 → r = .error .zeroDivision) ∧ (m ≠ 0 → ok m → r = .ok (f m))

theorem cast_exactSum (m : Multiset (NpInt t)) : ((exactSum m : ℤ) : ℚ) = (m.map fun x => (x.val : ℚ)).sum := by
  unfold exactSum
  induction m using Multiset.induction_on with
  | empty => simp
  | cons x m ih => simp [ih]

theorem cast_exactSquares (m : Multiset (NpInt t)) :
    ((exactSquares m : ℤ) : ℚ) = (m.map fun x => (x.val : ℚ) ^ 2).sum := by
  unfold exactSquares
  induction m using Multiset.induction_on with
  | empty => simp
  | cons x m ih => simp [ih]

/-- The exact sum fits. -/
def Spec.SumFits (m : Multiset (NpInt t)) : Prop := Representable t (exactSum m)
/-- The exact sum of squares and the square of the exact sum fit. -/
def Spec.SquaresFit (m : Multiset (NpInt t)) : Prop :=
  Representable t (exactSquares m) ∧ Representable t (exactSum m ^ 2)

theorem averageInt_refines (ht : Representable t 0) :
    Refines (averageMeterInt t) (ReadsIf SumFits exactMean)
      (fun m s => SumIs t s.sum (exactSum m) ∧ s.numItems = (m.card : ℤ)) where
  init := ⟨⟨rfl, .inl rfl⟩, rfl⟩
  update {m s} h x := ⟨(sumInt_refines ht).update (s := s) h.1 x, by simp [averageMeterInt, h.2]⟩
  remove {m s} h x hx := by
    obtain ⟨s', e, h'⟩ := (sumInt_refines ht).remove (s := s) h.1 x hx
    cases e
    exact ⟨_, rfl, h', by simp [card_erase_cast hx, h.2]⟩
  get_out {m s} h := by
    constructor
    · rintro rfl
      simp [averageMeterInt, h.2]
    · intro hm hf
      have hs : s.sum.val = exactSum m := by
        obtain ⟨z, e, -, h3⟩ := (sumInt_refines ht).get_out (s := s) h.1
        cases e
        exact h3 hf
      have hc : s.numItems ≠ 0 := by rw [h.2]; exact_mod_cast mt Multiset.card_eq_zero.1 hm
      simp [averageMeterInt, h.2, hm, hs, exactMean, meanOf, cast_exactSum]
  get_state {m s} h := by simp only [averageMeterInt]; split <;> exact h

theorem varianceInt_refines (ht : Representable t 0) :
    Refines (varianceMeterInt t) (ReadsIf SquaresFit exactVariance)
      (fun m s => SumIs t s.sumMeter.sum (exactSum m) ∧
        SumIs t s.sumSquaresMeter.sum (exactSquares m) ∧ s.countMeter = (m.card : ℤ)) where
  init := ⟨⟨rfl, .inl rfl⟩, ⟨rfl, .inl rfl⟩, rfl⟩
  update {m s} h x := ⟨(sumInt_refines ht).update (s := s.sumMeter) h.1 x,
    (sumSquaresInt_refines ht).update (s := s.sumSquaresMeter) h.2.1 x, by
      simp [varianceMeterInt, countMeter, h.2.2]⟩
  remove {m s} h x hx := by
    obtain ⟨s1, e1, h1⟩ := (sumInt_refines ht).remove (s := s.sumMeter) h.1 x hx
    obtain ⟨s2, e2, h2⟩ := (sumSquaresInt_refines ht).remove (s := s.sumSquaresMeter) h.2.1 x hx
    cases e1; cases e2
    exact ⟨_, rfl, h1, h2, by simp [card_erase_cast hx, h.2.2]⟩
  get_out {m s} h := by
    constructor
    · rintro rfl
      simp [varianceMeterInt, h.2.2]
    · intro hm hf
      have hs : s.sumSquaresMeter.sum.val = exactSquares m := by
        obtain ⟨z, e, -, h3⟩ := (sumSquaresInt_refines ht).get_out (s := s.sumSquaresMeter) h.2.1
        cases e
        exact h3 hf.1
      have hq : (s.sumMeter.sum * s.sumMeter.sum).val = exactSum m ^ 2 := by
        refine fits_unique (t.fits_wrap _) hf.2 ?_
        rw [pow_two]
        exact (t.wrap_modEq _).trans (h.1.1.mul h.1.1)
      have hc : s.countMeter ≠ 0 := by rw [h.2.2]; exact_mod_cast mt Multiset.card_eq_zero.1 hm
      have hm' : m.map (fun x => (x.val : ℚ)) ≠ 0 := by simpa using hm
      have hc' : ¬ ((m.card : ℕ) : ℤ) = 0 := by rwa [h.2.2] at hc
      simp only [varianceMeterInt, if_neg hc', Res.out_ok, hs, hq, exactVariance, variance_formula hm',
        h.2.2, Multiset.map_map, Multiset.card_map, Function.comp_def, ← cast_exactSquares]
      rw [← cast_exactSum]
      push_cast
      rw [pow_two]
  get_state {m s} h := by simp only [varianceMeterInt]; split <;> exact h

/-! ### The property -/

/-- The full claim of **C124**: the sum, the sum of squares, the mean, the variance, the maximum, the
minimum and the median of numpy integers are right after every history that only removes what is present. -/
def C124_statement : Prop :=
  ∀ t : IntType, 1 ≤ t.bits → ∀ h : List (Op (NpInt t)), Legal 0 h →
    IdealTrace (fun m r => ∃ z, r = .ok z ∧ z.val = exactSum m) 0 h
      ((sumMeter (NpInt t)).observe (sumMeter (NpInt t)).init h) ∧
    IdealTrace (fun m r => ∃ z, r = .ok z ∧ z.val = exactSquares m) 0 h
      ((sumSquaresMeter (NpInt t)).observe (sumSquaresMeter (NpInt t)).init h) ∧
    IdealTrace (ReadsIf (fun _ => True) exactMean) 0 h
      ((averageMeterInt t).observe (averageMeterInt t).init h) ∧
    IdealTrace (ReadsIf (fun _ => True) exactVariance) 0 h
      ((varianceMeterInt t).observe (varianceMeterInt t).init h) ∧
    IdealTrace MaxValue 0 h ((maxMeter (NpInt t)).observe (maxMeter (NpInt t)).init h) ∧
    IdealTrace MinValue 0 h ((minMeter (NpInt t)).observe (minMeter (NpInt t)).init h) ∧
    IdealTrace (fun m r => MedianValue (m.map fun x => (x.val : ℚ)) r) 0 h
      ((medianMeterInt t).observe (medianMeterInt t).init h)

/-- numpy's `uint8`. -/
def uint8 : IntType := ⟨false, 8⟩

/-- **C124 is false**: the `uint8` numbers 200 and 100 have the sum 44. -/
theorem C124_integers_refuted : ¬ C124_statement := by
  intro h
  obtain ⟨h, -⟩ := h uint8 (by decide) [.update ⟨200⟩, .update ⟨100⟩, .get] (by simp [Legal])
  rcases h with _ | ⟨_, _, _, _, h⟩
  rcases h with _ | ⟨_, _, _, _, h⟩
  have e : (sumMeter (NpInt uint8)).observe ((sumMeter (NpInt uint8)).update
      ((sumMeter (NpInt uint8)).update (sumMeter (NpInt uint8)).init ⟨200⟩) ⟨100⟩) [.get] =
      [.value ⟨44⟩] := by decide +kernel
  change IdealTrace _ _ _ ((sumMeter (NpInt uint8)).observe ((sumMeter (NpInt uint8)).update
      ((sumMeter (NpInt uint8)).update (sumMeter (NpInt uint8)).init ⟨200⟩) ⟨100⟩) [.get]) at h
  rw [e] at h
  cases h with
  | value _ _ _ _ hv _ =>
    obtain ⟨z, hz, h2⟩ := hv
    cases hz
    simp [exactSum] at h2

/-- Their mean is reported as 22, below both, and the variance of 3, 16 as negative. -/
example : (averageMeterInt uint8).observe (averageMeterInt uint8).init
      [.update ⟨200⟩, .update ⟨100⟩, .get] = [.done, .done, .value 22] ∧
    (varianceMeterInt uint8).observe (varianceMeterInt uint8).init
      [.update ⟨3⟩, .update ⟨16⟩, .get] = [.done, .done, .value (-87 / 4)] := by decide +kernel

/-- **C124**, partial: the sums agree with the exact ones up to multiples of the size of the type, and
are right whenever the exact result fits, no matter what overflowed before; so is the mean if the
sum fits, and the variance if the sum of squares and the squared sum fit. -/
theorem C124_integers_partial (t : IntType) (ht : 1 ≤ t.bits) (h : List (Op (NpInt t))) (hl : Legal 0 h) :
    IdealTrace (ReadsWrapped exactSum) 0 h
      ((sumMeter (NpInt t)).observe (sumMeter (NpInt t)).init h) ∧
    IdealTrace (ReadsWrapped exactSquares) 0 h
      ((sumSquaresMeter (NpInt t)).observe (sumSquaresMeter (NpInt t)).init h) ∧
    IdealTrace (ReadsIf SumFits exactMean) 0 h
      ((averageMeterInt t).observe (averageMeterInt t).init h) ∧
    IdealTrace (ReadsIf SquaresFit exactVariance) 0 h
      ((varianceMeterInt t).observe (varianceMeterInt t).init h) := by
  have hz := fits_zero t ht
  exact ⟨(sumInt_refines hz).trace_legal h 0 _ (sumInt_refines hz).init hl,
    (sumSquaresInt_refines hz).trace_legal h 0 _ (sumSquaresInt_refines hz).init hl,
    (averageInt_refines hz).trace_legal h 0 _ (averageInt_refines hz).init hl,
    (varianceInt_refines hz).trace_legal h 0 _ (varianceInt_refines hz).init hl⟩

/-- **C124**, partial: a window statistic forgets overflows. After any stream it is right as soon as
the values of the window satisfy the condition. -/
theorem C124_window_partial (t : IntType) (ht : 1 ≤ t.bits) (w : ℕ) (xs : List (NpInt t)) :
    (∃ s, RunningStatistic.updates (sumMeter (NpInt t)) (RunningStatistic.new (sumMeter (NpInt t)) w) xs
        = .ok () s ∧
      ReadsWrapped exactSum (lastN w xs : Multiset (NpInt t)) (RunningStatistic.get (sumMeter (NpInt t)) s).out) ∧
    (∃ s, RunningStatistic.updates (averageMeterInt t) (RunningStatistic.new (averageMeterInt t) w) xs
        = .ok () s ∧
      ReadsIf SumFits exactMean (lastN w xs : Multiset (NpInt t))
        (RunningStatistic.get (averageMeterInt t) s).out) ∧
    (∃ s, RunningStatistic.updates (varianceMeterInt t) (RunningStatistic.new (varianceMeterInt t) w) xs
        = .ok () s ∧
      ReadsIf SquaresFit exactVariance (lastN w xs : Multiset (NpInt t))
        (RunningStatistic.get (varianceMeterInt t) s).out) := by
  have hz := fits_zero t ht
  have out : ∀ {σ β : Type} (st : Statistic σ (NpInt t) β) (s : RunningState σ (NpInt t)),
      (RunningStatistic.get st s).out = (st.get s.statistic).out := by
    intro σ β st s
    unfold RunningStatistic.get
    cases st.get s.statistic <;> rfl
  refine ⟨?_, ?_, ?_⟩
  · obtain ⟨s, h1, -, -, h3⟩ := (sumInt_refines hz).running w xs
    exact ⟨s, h1, by rw [out]; exact (sumInt_refines hz).get_out h3⟩
  · obtain ⟨s, h1, -, -, h3⟩ := (averageInt_refines hz).running w xs
    exact ⟨s, h1, by rw [out]; exact (averageInt_refines hz).get_out h3⟩
  · obtain ⟨s, h1, -, -, h3⟩ := (varianceInt_refines hz).running w xs
    exact ⟨s, h1, by rw [out]; exact (varianceInt_refines hz).get_out h3⟩

/-- 200, 100, 50 overflow; the window 50, 60 does not. -/
example : SumFits ({⟨50⟩, ⟨60⟩} : Multiset (NpInt uint8)) ∧
    ((RunningStatistic.updates (averageMeterInt uint8) (RunningStatistic.new (averageMeterInt uint8) 2)
      [⟨200⟩, ⟨100⟩, ⟨50⟩, ⟨60⟩]).bind fun _ s => RunningStatistic.get (averageMeterInt uint8) s).out
      = .ok 55 := by
  constructor
  · unfold SumFits Representable; decide
  · decide +kernel

end Pysad
