import Verif.Model.SimpleModelsF64
import Verif.Proofs.Sqrt
import Verif.Props.Deviation
import Verif.Props.FloatOrder
import Verif.Props.FloatVariance

/-! Property C153: the deviation detectors in doubles. -/

namespace Pysad

open Spec

/-- `f` measures on which side of `m`, and how far from it, a number lies: it is increasing, and
positive above `m`, zero at `m`, negative below. -/
def Spec.MeasuresFrom (m : F64) (f : F64 → F64) : Prop :=
  (∀ x y : F64, x.val ≤ y.val → (f x).val ≤ (f y).val) ∧
  ∀ x : F64, (0 < (f x).val ↔ m.val < x.val) ∧ ((f x).val = 0 ↔ x.val = m.val) ∧
    ((f x).val < 0 ↔ x.val < m.val)

/-- `ds` lists, for each value, its distance to the median of the values up to and including it,
the median and the distance being rounded. -/
def Spec.RoundedDeviations (xs ds : List F64) : Prop :=
  ds.length = xs.length ∧ ∀ i x, xs[i]? = some x →
    ∃ m, medianOf ((xs.take (i + 1)).map F64.val : Multiset ℚ) = some m ∧
      ds[i]? = some ⟨|roundF64 (x.val - roundF64 m)|⟩

theorem roundF64_sign (q : ℚ) :
    (0 < roundF64 q ↔ 0 < q) ∧ (roundF64 q = 0 ↔ q = 0) ∧ (roundF64 q < 0 ↔ q < 0) := by
  have hpos : ∀ q : ℚ, 0 < q → 0 < roundF64 q := fun q hq =>
    lt_of_lt_of_le (by positivity) (roundF64_bounds hq).1
  have hneg : ∀ q : ℚ, q < 0 → roundF64 q < 0 := by
    intro q hq
    have := hpos (-q) (by linarith)
    rw [roundF64_neg] at this
    linarith
  rcases lt_trichotomy q 0 with h | h | h
  · have := hneg q h
    exact ⟨by constructor <;> intro <;> linarith, by constructor <;> intro <;> linarith,
      fun _ => h, fun _ => this⟩
  · subst h; simp [roundF64]
  · have := hpos q h
    exact ⟨⟨fun _ => h, fun _ => this⟩, by constructor <;> intro <;> linarith,
      by constructor <;> intro <;> linarith⟩

theorem measuresFrom (m scale : F64) (hs : 0 < scale.val) :
    MeasuresFrom m fun x => (x - m) / scale := by
  constructor
  · intro x y h
    refine roundF64_mono (div_le_div_of_nonneg_right ?_ hs.le)
    exact roundF64_mono (by linarith)
  · intro x
    have h1 := roundF64_sign (roundF64 (x.val - m.val) / scale.val)
    have h2 := roundF64_sign (x.val - m.val)
    have hv : ((x - m) / scale).val = roundF64 (roundF64 (x.val - m.val) / scale.val) := rfl
    simp only [hv]
    refine ⟨h1.1.trans ?_, h1.2.1.trans ?_, h1.2.2.trans ?_⟩
    · rw [div_pos_iff_of_pos_right hs, h2.1, sub_pos]
    · rw [div_eq_zero_iff, or_iff_left hs.ne', h2.2.1, sub_eq_zero]
    · rw [div_neg_iff]
      constructor
      · rintro (h | h)
        · linarith [h.2]
        · linarith [h2.2.2.1 h.1]
      · intro h
        exact Or.inr ⟨h2.2.2.2 (by linarith), hs⟩

theorem eps_pos : 0 < epsilon10F64.val := by decide +kernel

theorem add_eps_pos {a : F64} (h : 0 ≤ a.val) : 0 < (a + epsilon10F64).val :=
  (roundF64_sign _).1.2 (by have := eps_pos; linarith)

theorem npDiv_pos {a b : F64} (h : 0 < b.val) : npDiv a b = .fin (a / b) := by
  have h0 : b ≠ 0 := by
    rintro rfl
    exact lt_irrefl _ h
  rw [npDiv, if_neg h0]

/-! ### MedianAbsoluteDeviation -/

/-- The bag a meter of doubles holds. -/
abbrev MedRel (m : Multiset F64) (s : MedianState F64) : Prop :=
  (s.lst : Multiset F64) = m ∧ s.numItems = (s.lst.length : ℤ)

/-- The state of the detector after the univariate values `xs`. -/
def MadInvF64 (b : F64) (absolute : Bool) (xs : List F64) (s : MadState F64) : Prop :=
  s.b = b ∧ s.absolute = absolute ∧ MedRel xs s.medianMeter ∧
  ∃ ds : List F64, RoundedDeviations xs ds ∧ MedRel ds s.madMeter

theorem roundedMedian_ok {xs : List F64} {r : Except PyErr F64}
    (h : RoundedMedian (xs : Multiset F64) r) (hd : ∀ x ∈ xs, IsDouble x.val) (hne : xs ≠ []) :
    ∃ m, medianOf (xs.map F64.val : Multiset ℚ) = some m ∧ r = .ok (F64.of m) := by
  rcases h (by simpa using hd) with ⟨h1, -⟩ | ⟨m, h1, h2⟩
  · exact absurd (by simpa using h1) hne
  · exact ⟨m, by simpa using h1, h2⟩

theorem roundedDeviations_double {xs ds : List F64} (h : RoundedDeviations xs ds) :
    ∀ d ∈ ds, IsDouble d.val ∧ 0 ≤ d.val := by
  intro d hd
  obtain ⟨i, hi, rfl⟩ := List.mem_iff_getElem.1 hd
  have hi' : i < xs.length := h.1 ▸ hi
  obtain ⟨m, -, e⟩ := h.2 i _ (List.getElem?_eq_getElem hi')
  rw [List.getElem?_eq_getElem hi, Option.some.injEq] at e
  rw [e]
  refine ⟨?_, abs_nonneg _⟩
  show IsDouble |roundF64 _|
  rcases abs_choice (roundF64 (xs[i].val - roundF64 m)) with e | e <;> rw [e]
  · exact isDouble_roundF64 _
  · exact (isDouble_roundF64 _).neg

theorem mad_score_f64 {β : Type*} (b : F64) (absolute : Bool) (xs : List F64)
    (hx : ∀ x ∈ xs, IsDouble x.val) (s : MadState F64) (h : MadInvF64 b absolute xs s)
    (X : List F64) :
    (xs = [] → ∃ s', (medianAbsoluteDeviationF64 (β := β)).scorePartial s X = .err .indexError s' ∧
      MadInvF64 b absolute xs s') ∧
    (xs ≠ [] → ∃ s' m ds mad,
      (medianAbsoluteDeviationF64 (β := β)).scorePartial s X = .ok (X.map fun x =>
        let q := npDiv (x - F64.of m) (b * F64.of mad + epsilon10F64)
        if absolute then q.absF64 else q) s' ∧
      MadInvF64 b absolute xs s' ∧ medianOf (xs.map F64.val : Multiset ℚ) = some m ∧
      RoundedDeviations xs ds ∧ medianOf (ds.map F64.val : Multiset ℚ) = some mad) := by
  obtain ⟨hb, ha, hm, ds, hd, hds⟩ := h
  have o1 := median_refines_f64.get_out hm
  have st1 := median_refines_f64.get_state hm
  have o2 := median_refines_f64.get_out hds
  have st2 := median_refines_f64.get_state hds
  constructor
  · intro hx0
    subst hx0
    rcases o1 (by simp) with ⟨-, h1⟩ | ⟨m, h1, -⟩
    · cases hg : (medianMeter F64).get s.medianMeter with
      | ok a t => rw [hg] at h1; simp at h1
      | err e t =>
        rw [hg] at h1 st1
        simp only [Res.out_err, Except.error.injEq] at h1
        subst h1
        exact ⟨{ s with medianMeter := t }, by simp [medianAbsoluteDeviationF64, hg], hb, ha, st1,
          ds, hd, hds⟩
    · simp [medianOf] at h1
  · intro hx0
    obtain ⟨m, hmed, h1⟩ := roundedMedian_ok o1 hx hx0
    have hdne : ds ≠ [] := by
      intro h0
      have := hd.1
      rw [h0] at this
      exact hx0 (List.length_eq_zero_iff.1 this.symm)
    obtain ⟨mad, hmad, h2⟩ := roundedMedian_ok o2
      (fun d h => (roundedDeviations_double hd d h).1) hdne
    cases hg : (medianMeter F64).get s.medianMeter with
    | err e t => rw [hg] at h1; simp at h1
    | ok a t =>
      rw [hg] at h1 st1
      simp only [Res.out_ok, Except.ok.injEq] at h1
      subst h1
      cases hg2 : (medianMeter F64).get s.madMeter with
      | err e t => rw [hg2] at h2; simp at h2
      | ok a2 t2 =>
        rw [hg2] at h2 st2
        simp only [Res.out_ok, Except.ok.injEq] at h2
        subst h2
        refine ⟨{ s with medianMeter := t, madMeter := t2 }, m, ds, mad, ?_,
          ⟨hb, ha, st1, ds, hd, st2⟩, hmed, hd, hmad⟩
        simp only [medianAbsoluteDeviationF64, hg, Res.mapState_ok, Res.bind_ok, hg2, hb, ha]
        congr 1
        cases absolute
        · simp
        · simp

theorem univariate_snoc_score {β : Type*} (cs : List (Call (List F64) β)) (X : List F64) :
    univariate (fitted (cs ++ [.score X])) = univariate (fitted cs) := by
  simp [fitted_append, fitted, univariate]

theorem mad_step_f64 {β : Type*} (b : F64) (absolute : Bool) (cs : List (Call (List F64) β))
    (s : MadState F64) (c : Call (List F64) β)
    (h : (∀ x ∈ univariate (fitted cs), IsDouble x.val) →
      MadInvF64 b absolute (univariate (fitted cs)) s)
    (hx : ∀ x ∈ univariate (fitted (cs ++ [c])), IsDouble x.val) :
    MadInvF64 b absolute (univariate (fitted (cs ++ [c])))
      (call medianAbsoluteDeviationF64 s c).2 := by
  have hx' : ∀ x ∈ univariate (fitted cs), IsDouble x.val := by
    intro x h'
    apply hx
    rw [fitted_append]
    simp only [univariate, List.filterMap_append, List.mem_append]
    exact Or.inl h'
  have h := h hx'
  cases c with
  | score X =>
    rw [univariate_snoc_score] at hx ⊢
    rcases eq_or_ne (univariate (fitted cs)) [] with h0 | h0
    · obtain ⟨s', h1, h2⟩ := (mad_score_f64 (β := β) b absolute _ hx' s h X).1 h0
      simpa [call, h1] using h2
    · obtain ⟨s', m, ds, mad, h1, h2, -⟩ := (mad_score_f64 (β := β) b absolute _ hx' s h X).2 h0
      simpa [call, h1] using h2
  | fit X y =>
    have hsplit : univariate (fitted (cs ++ [.fit X y])) =
        univariate (fitted cs) ++ univariate [X] := by
      simp [fitted_append, fitted, univariate]
    match X with
    | [] =>
      rw [hsplit]
      simpa [call, medianAbsoluteDeviationF64, univariate] using h
    | _ :: _ :: _ =>
      rw [hsplit]
      simpa [call, medianAbsoluteDeviationF64, univariate] using h
    | [x] =>
      rw [hsplit] at hx ⊢
      change ∀ z ∈ univariate (fitted cs) ++ [x], _ at hx
      obtain ⟨hb, ha, hm, ds, hd, hds⟩ := h
      have hu := median_refines_f64.update hm x
      rw [← coe_snoc] at hu
      have o1 := median_refines_f64.get_out hu
      have st1 := median_refines_f64.get_state hu
      obtain ⟨m, hmed, h1⟩ := roundedMedian_ok o1 hx (by simp)
      cases hg : (medianMeter F64).get ((medianMeter F64).update s.medianMeter x) with
      | err e t => rw [hg] at h1; simp at h1
      | ok a t =>
        rw [hg] at h1 st1
        simp only [Res.out_ok, Except.ok.injEq] at h1
        subst h1
        have hd2 := median_refines_f64.update hds (x - F64.of m).abs
        rw [← coe_snoc] at hd2
        have : (call medianAbsoluteDeviationF64 s (.fit [x] y)).2 = { s with
            medianMeter := t,
            madMeter := (medianMeter F64).update s.madMeter (x - F64.of m).abs } := by
          simp [call, medianAbsoluteDeviationF64, hg]
        rw [this]
        change MadInvF64 b absolute (univariate (fitted cs) ++ [x]) _
        refine ⟨hb, ha, st1, ds ++ [(x - F64.of m).abs], ⟨by simp [hd.1], ?_⟩, hd2⟩
        intro i v hv
        by_cases hi : i < (univariate (fitted cs)).length
        · rw [List.getElem?_append_left hi] at hv
          obtain ⟨m', h3, h4⟩ := hd.2 i v hv
          refine ⟨m', ?_, ?_⟩
          · rwa [List.take_append_of_le_length (by omega)]
          · rw [List.getElem?_append_left (by rw [hd.1]; exact hi), h4]
        · have hi' : i = (univariate (fitted cs)).length := by
            have := (List.getElem?_eq_some_iff.1 hv).1
            simp at this; omega
          subst hi'
          simp at hv
          subst hv
          refine ⟨m, ?_, ?_⟩
          · rw [List.take_of_length_le (by simp)]; exact hmed
          · rw [← hd.1]
            simp only [List.getElem?_append_right le_rfl, Nat.sub_self, List.getElem?_cons_zero]
            rfl

/-- The state after any history of fits and scores. -/
theorem mad_inv_f64 {β : Type*} (b : F64) (absolute : Bool) (cs : List (Call (List F64) β))
    (hx : ∀ x ∈ univariate (fitted cs), IsDouble x.val) :
    MadInvF64 b absolute (univariate (fitted cs))
      (calls medianAbsoluteDeviationF64 (MadState.newF64 absolute b) cs).2 :=
  calls_inv (P := fun cs s => (∀ x ∈ univariate (fitted cs), IsDouble x.val) →
      MadInvF64 b absolute (univariate (fitted cs)) s)
    (fun cs s c h hx => mad_step_f64 b absolute cs s c h hx) _
    (fun _ => ⟨rfl, rfl, median_refines_f64.init, [], ⟨rfl, by simp [fitted, univariate]⟩,
      median_refines_f64.init⟩) cs hx

/-- **C153 (MedianAbsoluteDeviation).** In doubles and after any history in which a value was
fitted, the scores are numbers, and they measure from the rounded median of the fitted values: they
order the values as they should and their signs are right, in spite of the rounding of the median,
of the distances, of the scale and of the quotient. With `absolute`, they are the absolute values of
such numbers. The scale is that of the rounded deviations. -/
theorem C153_mad_doubles {β : Type*} (b : F64) (hb : 0 ≤ b.val) (absolute : Bool)
    (cs : List (Call (List F64) β)) (hne : univariate (fitted cs) ≠ [])
    (hx : ∀ x ∈ univariate (fitted cs), IsDouble x.val) :
    ∃ m ds mad, medianOf ((univariate (fitted cs)).map F64.val : Multiset ℚ) = some m ∧
      RoundedDeviations (univariate (fitted cs)) ds ∧
      medianOf (ds.map F64.val : Multiset ℚ) = some mad ∧
    ∃ f, MeasuresFrom (F64.of m) f ∧
      (∀ x, (f x).val = roundF64 (roundF64 (x.val - roundF64 m) /
        roundF64 (roundF64 (b.val * roundF64 mad) + roundF64 (1 / 10 ^ 10)))) ∧
      ∀ X, ((medianAbsoluteDeviationF64 (β := β)).scorePartial
        (calls medianAbsoluteDeviationF64 (MadState.newF64 absolute b) cs).2 X).out
        = .ok (X.map fun x => .fin (if absolute then (f x).abs else f x)) := by
  obtain ⟨s', m, ds, mad, h1, -, h3, h4, h5⟩ :=
    (mad_score_f64 (β := β) b absolute _ hx _ (mad_inv_f64 b absolute cs hx) []).2 hne
  have hmad : 0 ≤ mad := by
    refine medianOf_nonneg h5 ?_
    intro y hy
    simp only [Multiset.mem_coe, List.mem_map] at hy
    obtain ⟨d, hd, rfl⟩ := hy
    exact (roundedDeviations_double h4 d hd).2
  have hscale : 0 < (b * F64.of mad + epsilon10F64).val :=
    add_eps_pos (roundF64_nonneg (mul_nonneg hb (roundF64_nonneg hmad)))
  refine ⟨m, ds, mad, h3, h4, h5, _, measuresFrom (F64.of m) _ hscale, fun x => rfl, ?_⟩
  intro X
  obtain ⟨s'', m', ds', mad', g1, -, g3, g4, g5⟩ :=
    (mad_score_f64 (β := β) b absolute _ hx _ (mad_inv_f64 b absolute cs hx) X).2 hne
  have em : m' = m := by rw [h3] at g3; exact (Option.some.inj g3).symm
  have ed : ds' = ds := by
    apply List.ext_getElem?
    intro i
    by_cases hi : i < (univariate (fitted cs)).length
    · obtain ⟨a, k1, k2⟩ := h4.2 i _ (List.getElem?_eq_getElem hi)
      obtain ⟨a', k1', k2'⟩ := g4.2 i _ (List.getElem?_eq_getElem hi)
      rw [k1] at k1'
      cases k1'
      rw [k2, k2']
    · rw [List.getElem?_eq_none (by rw [g4.1]; omega), List.getElem?_eq_none (by rw [h4.1]; omega)]
  subst em ed
  have ea : mad' = mad := by rw [h5] at g5; exact (Option.some.inj g5).symm
  subst ea
  rw [g1]
  simp only [Res.out_ok, Except.ok.injEq]
  refine List.map_congr_left fun x _ => ?_
  rw [npDiv_pos hscale]
  cases absolute <;> rfl

/-! ### StandardAbsoluteDeviation -/

/-- **C153 (StandardAbsoluteDeviation).** In doubles, in every state (whatever the meter holds) the
detector either raises the meter's error for every argument, or answers `nan` for every value, which
happens exactly when the variance reads as a negative number (C16), or its scores are numbers that
measure from the mean or median that its meter reads. -/
theorem C153_sad_doubles {β σ : Type*} (sub : Statistic σ F64 F64) (s : SadState σ F64) :
    (∃ e, ∀ X, ((standardAbsoluteDeviationF64 (β := β) sub).scorePartial s X).out = .error e) ∨
    ∃ m v, (sub.get s.subMeter).out = .ok m ∧ ((varianceMeter F64).get s.varianceMeter).out = .ok v ∧
      ((v.val < 0 ∧ ∀ X, ((standardAbsoluteDeviationF64 (β := β) sub).scorePartial s X).out =
          .ok (X.map fun _ => Num.nan)) ∨
       (0 ≤ v.val ∧ ∃ f, MeasuresFrom m f ∧
         ∀ X, ((standardAbsoluteDeviationF64 (β := β) sub).scorePartial s X).out =
          .ok (X.map fun x => .fin (if s.absolute then (f x).abs else f x)))) := by
  cases hm : sub.get s.subMeter with
  | err e t => exact Or.inl ⟨e, fun X => by simp [standardAbsoluteDeviationF64, hm]⟩
  | ok m t =>
    cases hv : (varianceMeter F64).get s.varianceMeter with
    | err e t' => exact Or.inl ⟨e, fun X => by simp [standardAbsoluteDeviationF64, hm, hv]⟩
    | ok v t' =>
      refine Or.inr ⟨m, v, rfl, rfl, ?_⟩
      by_cases h0 : v.val < 0
      · refine Or.inl ⟨h0, fun X => ?_⟩
        simp only [standardAbsoluteDeviationF64, hm, hv, Res.mapState_ok, Res.bind_ok, Res.out_ok,
          h0, if_true]
        cases s.absolute <;> simp [Num.absF64]
      · have hv0 := not_lt.1 h0
        have hdev : 0 ≤ sqrtF64 v.val := by
          by_cases hp : 0 < v.val
          · exact (sqrtF64_pos hp).le
          · rw [sqrtF64, if_pos (not_lt.1 hp)]
        have hscale : 0 < ((⟨sqrtF64 v.val⟩ : F64) + epsilon10F64).val := add_eps_pos hdev
        refine Or.inr ⟨hv0, _, measuresFrom m _ hscale, fun X => ?_⟩
        simp only [standardAbsoluteDeviationF64, hm, hv, Res.mapState_ok, Res.bind_ok, Res.out_ok,
          h0, if_false, npDiv_pos hscale]
        cases s.absolute <;> simp [Num.absF64]

theorem updates_snoc {σ α β : Type*} (st : Statistic σ α β) (s : σ) (xs : List α) (x : α) :
    st.updates s (xs ++ [x]) = st.update (st.updates s xs) x := by
  simp [Statistic.updates]

/-- The state of the detector with the mean after any history. -/
theorem sad_mean_state {β : Type*} (absolute : Bool) (cs : List (Call (List F64) β)) :
    (calls (standardAbsoluteDeviationF64 (β := β) (averageMeter F64))
      (SadState.newF64 (averageMeter F64) absolute) cs).2 =
    { absolute
      varianceMeter := (varianceMeter F64).updates (varianceMeter F64).init (univariate (fitted cs))
      subMeter := (averageMeter F64).updates (averageMeter F64).init (univariate (fitted cs)) } := by
  refine calls_inv (P := fun cs s => s = (⟨absolute, (varianceMeter F64).updates (varianceMeter F64).init (univariate (fitted cs)),
      (averageMeter F64).updates (averageMeter F64).init (univariate (fitted cs))⟩ :
      SadState (AverageState F64) F64)) ?_ _ rfl cs
  rintro cs s c rfl
  cases c with
  | score X =>
    rw [univariate_snoc_score]
    have hA : ∀ a : AverageState F64, ((averageMeter F64).get a).state = a := by
      intro a
      simp only [averageMeter]
      split <;> rfl
    have hV : ∀ a : VarianceState F64, ((varianceMeter F64).get a).state = a := by
      intro a
      simp only [varianceMeter]
      split <;> rfl
    simp only [call, standardAbsoluteDeviationF64]
    cases h1 : (averageMeter F64).get ((averageMeter F64).updates (averageMeter F64).init
        (univariate (fitted cs))) with
    | err e t =>
      have := hA ((averageMeter F64).updates (averageMeter F64).init (univariate (fitted cs)))
      rw [h1] at this
      simp only [Res.state_err] at this
      simp [this]
    | ok m t =>
      have := hA ((averageMeter F64).updates (averageMeter F64).init (univariate (fitted cs)))
      rw [h1] at this
      simp only [Res.state_ok] at this
      cases h2 : (varianceMeter F64).get ((varianceMeter F64).updates (varianceMeter F64).init
          (univariate (fitted cs))) with
      | err e t' =>
        have h3 := hV ((varianceMeter F64).updates (varianceMeter F64).init (univariate (fitted cs)))
        rw [h2] at h3
        simp only [Res.state_err] at h3
        simp [this, h2, h3]
      | ok v t' =>
        have h3 := hV ((varianceMeter F64).updates (varianceMeter F64).init (univariate (fitted cs)))
        rw [h2] at h3
        simp only [Res.state_ok] at h3
        simp [this, h2, h3]
  | fit X y =>
    have hsplit : univariate (fitted (cs ++ [.fit X y])) =
        univariate (fitted cs) ++ univariate [X] := by
      simp [fitted_append, fitted, univariate]
    rw [hsplit]
    match X with
    | [] => simp [call, standardAbsoluteDeviationF64, univariate]
    | _ :: _ :: _ => simp [call, standardAbsoluteDeviationF64, univariate]
    | [x] =>
      change _ = (⟨absolute, (varianceMeter F64).updates (varianceMeter F64).init (univariate (fitted cs) ++ [x]),
      (averageMeter F64).updates (averageMeter F64).init (univariate (fitted cs) ++ [x])⟩ :
      SadState (AverageState F64) F64)
      rw [updates_snoc, updates_snoc]
      simp [call, standardAbsoluteDeviationF64]

/-- **C153 (StandardAbsoluteDeviation with the mean).** After any history in which up to `2^53`
values of magnitude at most `M` were fitted, of a variance that is not small compared with the
square of `M`, the scores are numbers that measure from a point within `M * ((1 + 2^-53)^(n+1) - 1)`
of the mean of the fitted values. -/
theorem C153_sad_mean_doubles {β : Type*} (absolute : Bool) (cs : List (Call (List F64) β))
    (hne : univariate (fitted cs) ≠ []) (hn : (univariate (fitted cs)).length ≤ 2 ^ 53) (M : ℚ)
    (hM : ∀ x ∈ univariate (fitted cs), |x.val| ≤ M)
    (hv : 2 * M ^ 2 * ((1 + 1 / 2 ^ 53) ^ (2 * (univariate (fitted cs)).length + 4) - 1) ≤
      varianceOf (((univariate (fitted cs)).map F64.val : List ℚ) : Multiset ℚ)) :
    ∃ m : F64, |m.val - meanOf (((univariate (fitted cs)).map F64.val : List ℚ) : Multiset ℚ)| ≤
        M * ((1 + 1 / 2 ^ 53) ^ ((univariate (fitted cs)).length + 1) - 1) ∧
    ∃ f, MeasuresFrom m f ∧
      ∀ X, ((standardAbsoluteDeviationF64 (β := β) (averageMeter F64)).scorePartial
        (calls (standardAbsoluteDeviationF64 (averageMeter F64))
          (SadState.newF64 (averageMeter F64) absolute) cs).2 X).out =
        .ok (X.map fun x => .fin (if absolute then (f x).abs else f x)) := by
  obtain ⟨v, h1, h2, -⟩ := C16_variance_error_partial M _ hne hn hM
  have h3 : 0 ≤ v.val := by linarith [(abs_le.1 h2).1]
  obtain ⟨m, g1, g2, -⟩ := C111_mean_partial M _ hne hn hM
  have hstate := sad_mean_state absolute cs
  refine ⟨m, g2, ?_⟩
  rw [hstate]
  rcases C153_sad_doubles (β := β) (averageMeter F64)
    (⟨absolute, (varianceMeter F64).updates (varianceMeter F64).init (univariate (fitted cs)),
      (averageMeter F64).updates (averageMeter F64).init (univariate (fitted cs))⟩ :
      SadState (AverageState F64) F64) with
    ⟨e, he⟩ | ⟨m', v', k1, k2, k3⟩
  · exfalso
    have := he []
    simp only [standardAbsoluteDeviationF64] at this
    cases h4 : (averageMeter F64).get ((averageMeter F64).updates (averageMeter F64).init
        (univariate (fitted cs))) with
    | err e t => rw [h4] at g1; simp at g1
    | ok a t =>
      cases h5 : (varianceMeter F64).get ((varianceMeter F64).updates (varianceMeter F64).init
          (univariate (fitted cs))) with
      | err e t => rw [h5] at h1; simp at h1
      | ok a' t' => simp [h4, h5] at this
  · simp only at k1 k2
    rw [g1, Except.ok.injEq] at k1
    rw [h1, Except.ok.injEq] at k2
    subst k1 k2
    rcases k3 with ⟨k3, -⟩ | ⟨-, k4⟩
    · exact absurd h3 (not_le.2 k3)
    · exact k4

/-- Tenths: the median of 0.1, 0.2, 0.4, 0.7 is rounded, and so are the distances. -/
example : ∃ m f, MeasuresFrom m f ∧
    ∀ X, ((medianAbsoluteDeviationF64 (β := Unit)).scorePartial
      (calls (medianAbsoluteDeviationF64 (β := Unit)) (MadState.newF64 true (F64.of (7413 / 5000)))
        [.fit [F64.of (1 / 10)] none, .fit [F64.of (7 / 10)] none, .fit [F64.of (2 / 5)] none,
          .fit [F64.of (1 / 5)] none]).2 X).out =
      .ok (X.map fun x => .fin (f x).abs) := by
  obtain ⟨m, ds, mad, -, -, -, f, h4, -, h6⟩ := C153_mad_doubles (β := Unit) (F64.of (7413 / 5000))
    (by decide +kernel) true
    [.fit [F64.of (1 / 10)] none, .fit [F64.of (7 / 10)] none, .fit [F64.of (2 / 5)] none,
      .fit [F64.of (1 / 5)] none] (by decide +kernel) (by
      intro x hx
      simp only [fitted, univariate, List.filterMap_cons, List.filterMap_nil, List.mem_cons,
        List.not_mem_nil, or_false] at hx
      rcases hx with rfl | rfl | rfl | rfl <;> exact isDouble_roundF64 _)
  exact ⟨_, f, h4, fun X => by simpa using h6 X⟩

example : ((medianAbsoluteDeviationF64 (β := Unit)).scorePartial
    (calls (medianAbsoluteDeviationF64 (β := Unit)) (MadState.newF64 false ⟨1⟩)
      [.fit [⟨1⟩] none, .fit [⟨2⟩] none, .fit [⟨3⟩] none]).2 [⟨2⟩, ⟨3⟩]).out =
    .ok [.fin 0, .fin ((⟨1⟩ : F64) / (⟨1 / 2⟩ + epsilon10F64))] := by decide +kernel

/-- Three times 0.1: the variance reads as a negative number, and the scores are `nan` (C16). -/
example : ((standardAbsoluteDeviationF64 (β := Unit) (averageMeter F64)).scorePartial
    (calls (standardAbsoluteDeviationF64 (β := Unit) (averageMeter F64))
      (SadState.newF64 (averageMeter F64) true)
      [.fit [F64.of (1 / 10)] none, .fit [F64.of (1 / 10)] none, .fit [F64.of (1 / 10)] none]).2
    [F64.of 1]).out = .ok [.nan] := by decide +kernel

/-- 1 and 3: numbers. -/
example : ∃ m : F64, |m.val - meanOf ((([⟨1⟩, ⟨3⟩] : List F64).map F64.val : List ℚ) : Multiset ℚ)| ≤
      3 * ((1 + 1 / 2 ^ 53) ^ (2 + 1) - 1) ∧
    ∃ f, MeasuresFrom m f ∧
      ∀ X, ((standardAbsoluteDeviationF64 (β := Unit) (averageMeter F64)).scorePartial
        (calls (standardAbsoluteDeviationF64 (β := Unit) (averageMeter F64))
          (SadState.newF64 (averageMeter F64) false)
          [.fit [⟨1⟩] none, .fit [⟨3⟩] none]).2 X).out = .ok (X.map fun x => .fin (f x)) := by
  have := C153_sad_mean_doubles (β := Unit) false [.fit [⟨1⟩] none, .fit [⟨3⟩] none]
    (by decide +kernel) (by decide +kernel) 3 (by decide +kernel) (by decide +kernel)
  simpa [fitted, univariate] using this

end Pysad
