import Verif.Model.SimpleModels
import Verif.Proofs.Calls
import Verif.Proofs.Meters
import Verif.Proofs.Moments
import Verif.Props.ModifiedStl
import Mathlib.Analysis.SpecialFunctions.Pow.Real

/-! Properties C67, C68: `MedianAbsoluteDeviation` and `StandardAbsoluteDeviation`. -/

namespace Pysad

open Spec

/-- The values of the univariate instances among the given ones. -/
def Spec.univariate {K : Type*} (X : List (List K)) : List K :=
  X.filterMap fun x => match x with
    | [v] => some v
    | _ => none

/-- `ds` lists, for each value, its distance to the median of the values up to and
including it. -/
def Spec.RunningDeviations {K : Type*} [Field K] [LinearOrder K] (xs ds : List K) : Prop :=
  ds.length = xs.length ∧ ∀ i x, xs[i]? = some x →
    ∃ m, medianOf (xs.take (i + 1) : Multiset K) = some m ∧ ds[i]? = some |x - m|

section
variable {β K : Type*} [Field K] [LinearOrder K]

theorem univariate_append (X Y : List (List K)) :
    univariate (X ++ Y) = univariate X ++ univariate Y := by
  simp [univariate]

theorem medianOf_nonneg [IsStrictOrderedRing K] {m : Multiset K} {r : K}
    (h : medianOf m = some r) (hm : ∀ x ∈ m, 0 ≤ x) : 0 ≤ r := by
  unfold medianOf at h
  have hs : ∀ x ∈ m.sort (· ≤ ·), 0 ≤ x := fun x hx => hm x (by simpa using hx)
  simp only at h
  split at h
  · exact hs _ (List.mem_of_getElem? h)
  · split at h
    · rename_i a b ha hb
      simp only [Option.some.injEq] at h
      have h1 := hs a (List.mem_of_getElem? ha)
      have h2 := hs b (List.mem_of_getElem? hb)
      rw [← h]; positivity
    · simp at h

/-- The state of the detector after the univariate values `xs`. -/
def MadInv (b : K) (absolute : Bool) (xs : List K) (s : MadState K) : Prop :=
  s.b = b ∧ s.absolute = absolute ∧
  ((s.medianMeter.lst : Multiset K) = (xs : Multiset K) ∧
    s.medianMeter.numItems = (s.medianMeter.lst.length : ℤ)) ∧
  ∃ ds : List K, RunningDeviations xs ds ∧ (s.madMeter.lst : Multiset K) = (ds : Multiset K) ∧
    s.madMeter.numItems = (s.madMeter.lst.length : ℤ)

variable [IsStrictOrderedRing K]

theorem mad_score (b : K) (absolute : Bool) (xs : List K) (s : MadState K)
    (h : MadInv b absolute xs s) (X : List K) :
    (xs = [] → ∃ s', (medianAbsoluteDeviation (β := β)).scorePartial s X = .err .indexError s' ∧
      MadInv b absolute xs s') ∧
    (xs ≠ [] → ∃ s' m ds mad,
      (medianAbsoluteDeviation (β := β)).scorePartial s X = .ok (X.map fun x =>
        let q := npDiv (x - m) (b * mad + epsilon10); if absolute then q.abs else q) s' ∧
      MadInv b absolute xs s' ∧ medianOf (xs : Multiset K) = some m ∧
      RunningDeviations xs ds ∧ medianOf (ds : Multiset K) = some mad) := by
  obtain ⟨hb, ha, hm, ds, hd, hds⟩ := h
  have o1 := median_refines.get_out hm
  have st1 := median_refines.get_state hm
  have o2 := median_refines.get_out hds
  have st2 := median_refines.get_state hds
  constructor
  · intro hx
    subst hx
    rcases o1 with ⟨-, h1⟩ | ⟨m, h1, -⟩
    · cases hg : (medianMeter K).get s.medianMeter with
      | ok a t => rw [hg] at h1; simp at h1
      | err e t =>
        rw [hg] at h1 st1
        simp only [Res.out_err, Except.error.injEq] at h1
        subst h1
        exact ⟨{ s with medianMeter := t }, by simp [medianAbsoluteDeviation, hg], hb, ha, st1,
          ds, hd, hds⟩
    · simp [medianOf] at h1
  · intro hx
    obtain ⟨m, h1, hmed⟩ := medianValue_ok o1 hx
    have hdne : ds ≠ [] := by
      intro h0
      have := hd.1
      rw [h0] at this
      exact hx (List.length_eq_zero_iff.1 this.symm)
    obtain ⟨mad, h2, hmad⟩ := medianValue_ok o2 hdne
    cases hg : (medianMeter K).get s.medianMeter with
    | err e t => rw [hg] at h1; simp at h1
    | ok a t =>
      rw [hg] at h1 st1
      simp only [Res.out_ok, Except.ok.injEq] at h1
      subst h1
      cases hg2 : (medianMeter K).get s.madMeter with
      | err e t => rw [hg2] at h2; simp at h2
      | ok a2 t2 =>
        rw [hg2] at h2 st2
        simp only [Res.out_ok, Except.ok.injEq] at h2
        subst h2
        refine ⟨{ s with medianMeter := t, madMeter := t2 }, a, ds, a2, ?_,
          ⟨hb, ha, st1, ds, hd, st2⟩, hmed, hd, hmad⟩
        simp only [medianAbsoluteDeviation, hg, Res.mapState_ok, Res.bind_ok, hg2, hb, ha]
        congr 1
        cases absolute
        · simp
        · simp

theorem mad_step (b : K) (absolute : Bool) (cs : List (Call (List K) β)) (s : MadState K)
    (c : Call (List K) β) (h : MadInv b absolute (univariate (fitted cs)) s) :
    MadInv b absolute (univariate (fitted (cs ++ [c]))) (call medianAbsoluteDeviation s c).2 := by
  rw [fitted_append, univariate_append]
  cases c with
  | score X =>
    rw [show univariate (fitted [(Call.score X : Call (List K) β)]) = [] from rfl, List.append_nil]
    rcases eq_or_ne (univariate (fitted cs)) [] with hx | hx
    · obtain ⟨s', h1, h2⟩ := (mad_score (β := β) b absolute _ s h X).1 hx
      simpa [call, h1] using h2
    · obtain ⟨s', m, ds, mad, h1, h2, -⟩ := (mad_score (β := β) b absolute _ s h X).2 hx
      simpa [call, h1] using h2
  | fit X y =>
    match X with
    | [] => simpa [call, medianAbsoluteDeviation, fitted, univariate] using h
    | _ :: _ :: _ => simpa [call, medianAbsoluteDeviation, fitted, univariate] using h
    | [x] =>
      obtain ⟨hb, ha, hm, ds, hd, hds⟩ := h
      have hu := median_refines.update hm x
      rw [← coe_snoc] at hu
      have o1 := median_refines.get_out hu
      have st1 := median_refines.get_state hu
      obtain ⟨m, h1, hmed⟩ := medianValue_ok o1 (by simp)
      cases hg : (medianMeter K).get ((medianMeter K).update s.medianMeter x) with
      | err e t => rw [hg] at h1; simp at h1
      | ok a t =>
        rw [hg] at h1 st1
        simp only [Res.out_ok, Except.ok.injEq] at h1
        subst h1
        have hd2 := median_refines.update hds |x - a|
        rw [← coe_snoc] at hd2
        have : (call medianAbsoluteDeviation s (.fit [x] y)).2 = { s with
            medianMeter := t, madMeter := (medianMeter K).update s.madMeter |x - a| } := by
          simp [call, medianAbsoluteDeviation, hg]
        rw [this]
        simp only [fitted, univariate, List.filterMap_cons, List.filterMap_nil]
        change MadInv b absolute (univariate (fitted cs) ++ [x]) _
        refine ⟨hb, ha, st1, ds ++ [|x - a|], ⟨by simp [hd.1], ?_⟩, hd2⟩
        intro i v hv
        by_cases hi : i < (univariate (fitted cs)).length
        · rw [List.getElem?_append_left hi] at hv
          obtain ⟨m', h3, h4⟩ := hd.2 i v hv
          refine ⟨m', ?_, ?_⟩
          · rwa [List.take_append_of_le_length (by omega)]
          · rw [List.getElem?_append_left (by rw [hd.1]; exact hi), h4]
        · have hi' : i = (univariate (fitted cs)).length := by
            have := (List.getElem?_eq_some_iff.1 hv).1
            simp at this; omega
          subst hi'
          simp at hv
          subst hv
          refine ⟨a, ?_, ?_⟩
          · rw [List.take_of_length_le (by simp)]; exact hmed
          · rw [← hd.1]; simp

/-- The state after any history of fits and scores. -/
theorem mad_inv (b : K) (absolute : Bool) (cs : List (Call (List K) β)) :
    MadInv b absolute (univariate (fitted cs))
      (calls medianAbsoluteDeviation (MadState.new absolute b) cs).2 :=
  calls_inv (P := fun cs s => MadInv b absolute (univariate (fitted cs)) s)
    (mad_step b absolute) _
    ⟨rfl, rfl, by simp [MadState.new, medianMeter, fitted, univariate], [],
      ⟨rfl, by simp [fitted, univariate]⟩, by simp [MadState.new, medianMeter]⟩ cs

/-- **C67.** After any history of fits and scores, with `xs` the univariate values fitted
(not none), `m` their median and `mad` the median of the distances of each value to
the median at the time: the score of each component `x` of the argument is
`(x - m) / (b * mad + 1e-10)`, in absolute value if so configured. -/
theorem C67_mad_score (b : K) (hb : 0 ≤ b) (absolute : Bool) (cs : List (Call (List K) β))
    (hne : univariate (fitted cs) ≠ []) (X : List K) :
    ∃ m ds mad, medianOf (univariate (fitted cs) : Multiset K) = some m ∧
      RunningDeviations (univariate (fitted cs)) ds ∧ medianOf (ds : Multiset K) = some mad ∧
      ((medianAbsoluteDeviation (β := β)).scorePartial
        (calls medianAbsoluteDeviation (MadState.new absolute b) cs).2 X).out
        = .ok (X.map fun x => .fin (if absolute then |(x - m) / (b * mad + 1 / 10 ^ 10)|
            else (x - m) / (b * mad + 1 / 10 ^ 10))) := by
  obtain ⟨s', m, ds, mad, h1, -, h3, h4, h5⟩ :=
    (mad_score (β := β) b absolute _ _ (mad_inv b absolute cs) X).2 hne
  refine ⟨m, ds, mad, h3, h4, h5, ?_⟩
  rw [h1]
  have hmad : 0 ≤ mad := by
    refine medianOf_nonneg h5 ?_
    intro y hy
    obtain ⟨i, hi, rfl⟩ := List.mem_iff_getElem.1 (show y ∈ ds by simpa using hy)
    have hi' : i < (univariate (fitted cs)).length := h4.1 ▸ hi
    obtain ⟨m', -, h6⟩ := h4.2 i _ (List.getElem?_eq_getElem hi')
    rw [List.getElem?_eq_getElem hi] at h6
    simp only [Option.some.injEq] at h6
    rw [h6]; exact abs_nonneg _
  have hden : b * mad + epsilon10 ≠ 0 := by
    have : (0 : K) < epsilon10 := by unfold epsilon10; positivity
    positivity
  simp only [Res.out_ok]
  congr 1
  apply List.map_congr_left
  intro x _
  simp only [npDiv, if_neg hden]
  cases absolute <;> rfl

/-- **C67.** Absolute scores are nonnegative. -/
theorem C67_mad_nonneg (b : K) (hb : 0 ≤ b) (cs : List (Call (List K) β))
    (hne : univariate (fitted cs) ≠ []) (X : List K) :
    ∃ out : List K, ((medianAbsoluteDeviation (β := β)).scorePartial
        (calls medianAbsoluteDeviation (MadState.new true b) cs).2 X).out = .ok (out.map .fin) ∧
      ∀ v ∈ out, 0 ≤ v := by
  obtain ⟨m, ds, mad, -, -, -, h⟩ := C67_mad_score b hb true cs hne X
  refine ⟨X.map fun x => |(x - m) / (b * mad + 1 / 10 ^ 10)|, ?_, ?_⟩
  · rw [h]; simp
  · intro v hv
    obtain ⟨x, -, rfl⟩ := List.mem_map.1 hv
    exact abs_nonneg _

/-- **C67.** Without any fitted value the score raises `IndexError`. -/
theorem C67_mad_unfitted (b : K) (absolute : Bool) (cs : List (Call (List K) β))
    (he : univariate (fitted cs) = []) (X : List K) :
    ((medianAbsoluteDeviation (β := β)).scorePartial
      (calls medianAbsoluteDeviation (MadState.new absolute b) cs).2 X).out
      = .error .indexError := by
  obtain ⟨s', h1, -⟩ := (mad_score (β := β) b absolute _ _ (mad_inv b absolute cs) X).1 he
  rw [h1]; rfl

omit [IsStrictOrderedRing K] in
/-- **C67.** An instance that is not univariate is refused with `AssertionError` and
changes nothing. -/
theorem C67_mad_rejects (s : MadState K) (X : List K) (hX : X.length ≠ 1) (y : Option β) :
    (medianAbsoluteDeviation (β := β)).fitPartial s X y = .err .assertionError s := by
  match X with
  | [] => rfl
  | [x] => simp at hX
  | _ :: _ :: _ => rfl

end

/-- A concrete run: values 1, 3, 8 with running medians 1, 2, 3, so distances 0, 1, 5;
median 3, MAD 1. -/
example : (calls (medianAbsoluteDeviation (β := Unit)) (MadState.new false (2 : ℚ))
    [.score [5], .fit [1] none, .fit [3] none, .fit [1, 2] none, .score [0], .fit [8] none,
      .score [7, 2]]).1.getLast? = some (.value [.fin (4 / (2 + 1 / 10 ^ 10)),
        .fin (-1 / (2 + 1 / 10 ^ 10))]) := by decide +kernel

/-! ### C68 -/

section
variable {β σ : Type*} {V : Multiset ℝ → Except PyErr ℝ → Prop} {R : Multiset ℝ → σ → Prop}
  {sub : Statistic σ ℝ ℝ}

/-- The state after the univariate values `xs`, for a subtracted statistic that
implements `V` with relation `R`. -/
def SadInv (R : Multiset ℝ → σ → Prop) (absolute : Bool) (xs : List ℝ) (s : SadState σ ℝ) : Prop :=
  s.absolute = absolute ∧ R (xs : Multiset ℝ) s.subMeter ∧
  (s.varianceMeter.sumMeter.sum = (xs : Multiset ℝ).sum ∧
    s.varianceMeter.sumSquaresMeter.sum = ((xs : Multiset ℝ).map (· ^ 2)).sum ∧
    s.varianceMeter.countMeter = (Multiset.card (xs : Multiset ℝ) : ℤ))

theorem sad_score (hr : Refines sub V R) (absolute : Bool) (xs : List ℝ) (s : SadState σ ℝ)
    (h : SadInv R absolute xs s) (X : List ℝ) :
    SadInv R absolute xs
      ((standardAbsoluteDeviation (β := β) Real.sqrt sub).scorePartial s X).state ∧
    (∀ m, (sub.get s.subMeter).out = .ok m → xs ≠ [] →
      ((standardAbsoluteDeviation (β := β) Real.sqrt sub).scorePartial s X).out = .ok (X.map fun x =>
        let q := npDiv (x - m) (Real.sqrt (varianceOf (K := ℝ) xs) + epsilon10)
        if absolute then q.abs else q)) ∧
    (∀ e, (sub.get s.subMeter).out = .error e →
      ((standardAbsoluteDeviation (β := β) Real.sqrt sub).scorePartial s X).out = .error e) := by
  obtain ⟨ha, hm, hv⟩ := h
  have st1 := hr.get_state hm
  have o2 := variance_refines.get_out hv
  have st2 := variance_refines.get_state hv
  cases hg : sub.get s.subMeter with
  | err e t =>
    rw [hg] at st1
    simp only [standardAbsoluteDeviation, hg, Res.mapState_err, Res.bind_err]
    exact ⟨⟨ha, st1, hv⟩, by simp, by simp⟩
  | ok m t =>
    rw [hg] at st1
    cases hg2 : (varianceMeter ℝ).get s.varianceMeter with
    | err e t2 =>
      rw [hg2] at st2 o2
      simp only [standardAbsoluteDeviation, hg, Res.mapState_ok, Res.bind_ok, hg2,
        Res.mapState_err, Res.bind_err]
      refine ⟨⟨ha, st1, st2⟩, ?_, by simp⟩
      intro m' _ hx
      obtain ⟨v, h2⟩ := varianceValue_ok o2 hx
    | ok v t2 =>
      rw [hg2] at st2 o2
      simp only [standardAbsoluteDeviation, hg, Res.mapState_ok, Res.bind_ok, hg2]
      refine ⟨⟨ha, st1, st2⟩, ?_, by simp⟩
      intro m' hm' hx
      have h2 := varianceValue_ok o2 hx
      simp only [Res.out_ok, Except.ok.injEq] at h2 hm'
      subst h2 hm'
      simp only [Res.out_ok, ha]
      cases absolute <;> simp

theorem sad_step (hr : Refines sub V R) (absolute : Bool) (cs : List (Call (List ℝ) β))
    (s : SadState σ ℝ) (c : Call (List ℝ) β)
    (h : SadInv R absolute (univariate (fitted cs)) s) :
    SadInv R absolute (univariate (fitted (cs ++ [c])))
      (call (standardAbsoluteDeviation Real.sqrt sub) s c).2 := by
  rw [fitted_append, univariate_append]
  cases c with
  | score X =>
    rw [show univariate (fitted [(Call.score X : Call (List ℝ) β)]) = [] from rfl, List.append_nil]
    have := (sad_score (β := β) hr absolute _ s h X).1
    simp only [call]
    cases hg : (standardAbsoluteDeviation (β := β) Real.sqrt sub).scorePartial s X <;>
      rw [hg] at this <;> exact this
  | fit X y =>
    match X with
    | [] => simpa [call, standardAbsoluteDeviation, fitted, univariate] using h
    | _ :: _ :: _ => simpa [call, standardAbsoluteDeviation, fitted, univariate] using h
    | [x] =>
      obtain ⟨ha, hm, hv⟩ := h
      have h1 := hr.update hm x
      have h2 := variance_refines.update hv x
      rw [← coe_snoc] at h1 h2
      exact ⟨ha, h1, h2⟩

theorem sad_inv (hr : Refines sub V R) (absolute : Bool) (cs : List (Call (List ℝ) β)) :
    SadInv R absolute (univariate (fitted cs))
      (calls (standardAbsoluteDeviation Real.sqrt sub) (SadState.new sub absolute) cs).2 :=
  calls_inv (d := standardAbsoluteDeviation Real.sqrt sub)
    (P := fun cs s => SadInv R absolute (univariate (fitted cs)) s)
    (sad_step hr absolute) _
    (⟨rfl, hr.init, variance_refines.init⟩ : SadInv R absolute [] (SadState.new sub absolute)) cs

theorem sad_out (hr : Refines sub V R) (absolute : Bool) (cs : List (Call (List ℝ) β))
    (hne : univariate (fitted cs) ≠ []) (m : ℝ)
    (hm : ∀ r, V (univariate (fitted cs) : Multiset ℝ) r → r = .ok m) (X : List ℝ) :
    ((standardAbsoluteDeviation (β := β) Real.sqrt sub).scorePartial
        (calls (standardAbsoluteDeviation Real.sqrt sub) (SadState.new sub absolute) cs).2 X).out
      = .ok (X.map fun x => .fin (
          let q := (x - m) /
            (Real.sqrt (varianceOf (K := ℝ) (univariate (fitted cs))) + 1 / 10 ^ 10)
          if absolute then |q| else q)) := by
  have hi := sad_inv (β := β) hr absolute cs
  have := (sad_score (β := β) hr absolute _ _ hi X).2.1 m (hm _ (hr.get_out hi.2.1)) hne
  rw [this]
  congr 1
  apply List.map_congr_left
  intro x _
  have hden : Real.sqrt (varianceOf (K := ℝ) (univariate (fitted cs))) + epsilon10 ≠ 0 := by
    have : (0 : ℝ) < epsilon10 := by unfold epsilon10; positivity
    positivity
  simp only [npDiv, if_neg hden]
  cases absolute <;> rfl

end

section
variable {β : Type*}

/-- **C68.** After any history of fits and scores with at least one univariate value
fitted, subtracting the mean: each component `x` scores `(x - mean) / (std + 1e-10)`. -/
theorem C68_sad_mean (absolute : Bool) (cs : List (Call (List ℝ) β))
    (hne : univariate (fitted cs) ≠ []) (X : List ℝ) :
    ((standardAbsoluteDeviation (β := β) Real.sqrt (averageMeter ℝ)).scorePartial
        (calls (standardAbsoluteDeviation Real.sqrt (averageMeter ℝ))
          (SadState.new (averageMeter ℝ) absolute) cs).2 X).out
      = .ok (X.map fun x => .fin (
          let q := (x - meanOf (K := ℝ) (univariate (fitted cs))) /
            (Real.sqrt (varianceOf (K := ℝ) (univariate (fitted cs))) + 1 / 10 ^ 10)
          if absolute then |q| else q)) :=
  sad_out average_refines absolute cs hne _ (fun _ hv => meanValue_ok hv hne) X

/-- **C68.** The same with the median. -/
theorem C68_sad_median (absolute : Bool) (cs : List (Call (List ℝ) β))
    (hne : univariate (fitted cs) ≠ []) (X : List ℝ) :
    ∃ m, medianOf (univariate (fitted cs) : Multiset ℝ) = some m ∧
    ((standardAbsoluteDeviation (β := β) Real.sqrt (medianMeter ℝ)).scorePartial
        (calls (standardAbsoluteDeviation Real.sqrt (medianMeter ℝ))
          (SadState.new (medianMeter ℝ) absolute) cs).2 X).out
      = .ok (X.map fun x => .fin (
          let q := (x - m) /
            (Real.sqrt (varianceOf (K := ℝ) (univariate (fitted cs))) + 1 / 10 ^ 10)
          if absolute then |q| else q)) := by
  obtain ⟨m, hm⟩ := medianOf_isSome (K := ℝ) hne
  refine ⟨m, hm, sad_out median_refines absolute cs hne m ?_ X⟩
  intro r hv
  obtain ⟨b, h1, h2⟩ := medianValue_ok hv hne
  rw [hm] at h2
  cases h2
  exact h1

/-- Calls on the object that the constructor returns. -/
theorem sadObject_out {σ : Type*} {sub : Statistic σ ℝ ℝ} (f : SadState σ ℝ → SadObject ℝ)
    (hf : ∀ s X (y : Option β), (SadObject.detector Real.sqrt).fitPartial (f s) X y =
      ((standardAbsoluteDeviation Real.sqrt sub).fitPartial s X y).mapState f)
    (hs : ∀ s X, (SadObject.detector (β := β) Real.sqrt).scorePartial (f s) X =
      ((standardAbsoluteDeviation (β := β) Real.sqrt sub).scorePartial s X).mapState f)
    (s : SadState σ ℝ) (cs : List (Call (List ℝ) β)) (X : List ℝ) :
    ((SadObject.detector (β := β) Real.sqrt).scorePartial
        (calls (SadObject.detector Real.sqrt) (f s) cs).2 X).out =
      ((standardAbsoluteDeviation (β := β) Real.sqrt sub).scorePartial
        (calls (standardAbsoluteDeviation Real.sqrt sub) s cs).2 X).out := by
  rw [calls_mapState f hf hs]
  simp only [hs]
  cases (standardAbsoluteDeviation (β := β) Real.sqrt sub).scorePartial
    (calls (standardAbsoluteDeviation Real.sqrt sub) s cs).2 X <;> rfl

/-- **C68.** The argument `substracted_statistic` of the constructor chooses the statistic that the
scores subtract: the mean or the median of the values fitted; anything else raises `ValueError`. -/
theorem C68_sad_statistic (name : String) (absolute : Bool) :
    (name = "mean" → ∃ s0, SadObject.new name absolute = .ok s0 ∧
      ∀ (cs : List (Call (List ℝ) β)) (X : List ℝ), univariate (fitted cs) ≠ [] →
        ((SadObject.detector (β := β) Real.sqrt).scorePartial
          (calls (SadObject.detector Real.sqrt) s0 cs).2 X).out
        = .ok (X.map fun x => .fin (
            let q := (x - meanOf (K := ℝ) (univariate (fitted cs))) /
              (Real.sqrt (varianceOf (K := ℝ) (univariate (fitted cs))) + 1 / 10 ^ 10)
            if absolute then |q| else q))) ∧
    (name = "median" → ∃ s0, SadObject.new name absolute = .ok s0 ∧
      ∀ (cs : List (Call (List ℝ) β)) (X : List ℝ), univariate (fitted cs) ≠ [] →
        ∃ m, medianOf (univariate (fitted cs) : Multiset ℝ) = some m ∧
        ((SadObject.detector (β := β) Real.sqrt).scorePartial
          (calls (SadObject.detector Real.sqrt) s0 cs).2 X).out
        = .ok (X.map fun x => .fin (
            let q := (x - m) /
              (Real.sqrt (varianceOf (K := ℝ) (univariate (fitted cs))) + 1 / 10 ^ 10)
            if absolute then |q| else q))) ∧
    (name ≠ "mean" → name ≠ "median" →
      SadObject.new (K := ℝ) name absolute = .error .valueError) := by
  refine ⟨?_, ?_, ?_⟩
  · rintro rfl
    refine ⟨_, by unfold SadObject.new; rw [if_neg (by decide +kernel), if_pos rfl], ?_⟩
    intro cs X hne
    rw [sadObject_out SadObject.mean (fun _ _ _ => rfl) (fun _ _ => rfl)]
    exact C68_sad_mean absolute cs hne X
  · rintro rfl
    refine ⟨_, by unfold SadObject.new; rw [if_pos rfl], ?_⟩
    intro cs X hne
    obtain ⟨m, h1, h2⟩ := C68_sad_median absolute cs hne X
    refine ⟨m, h1, ?_⟩
    rw [sadObject_out SadObject.median (fun _ _ _ => rfl) (fun _ _ => rfl)]
    exact h2
  · intro h1 h2
    simp [SadObject.new, h1, h2]

/-- **C68.** With `absolute` every score is nonnegative. -/
theorem C68_sad_nonneg (name : String) (s0 : SadObject ℝ) (h0 : SadObject.new name true = .ok s0)
    (cs : List (Call (List ℝ) β)) (hne : univariate (fitted cs) ≠ []) (X : List ℝ) :
    ∃ out : List ℝ, ((SadObject.detector (β := β) Real.sqrt).scorePartial
        (calls (SadObject.detector Real.sqrt) s0 cs).2 X).out = .ok (out.map .fin) ∧
      out.length = X.length ∧ ∀ v ∈ out, 0 ≤ v := by
  obtain ⟨c1, c2, c3⟩ := C68_sad_statistic (β := β) name true
  by_cases hn : name = "mean"
  · obtain ⟨s1, e, h⟩ := c1 hn
    rw [h0] at e
    cases e
    refine ⟨X.map fun x => |(x - meanOf (K := ℝ) (univariate (fitted cs))) /
            (Real.sqrt (varianceOf (K := ℝ) (univariate (fitted cs))) + 1 / 10 ^ 10)|, ?_, ?_, ?_⟩
    · rw [h cs X hne]; simp
    · simp
    · intro v hv
      obtain ⟨x, -, rfl⟩ := List.mem_map.1 hv
      exact abs_nonneg _
  · by_cases hm : name = "median"
    · obtain ⟨s1, e, h⟩ := c2 hm
      rw [h0] at e
      cases e
      obtain ⟨m, -, h⟩ := h cs X hne
      refine ⟨X.map fun x => |(x - m) /
            (Real.sqrt (varianceOf (K := ℝ) (univariate (fitted cs))) + 1 / 10 ^ 10)|, ?_, ?_, ?_⟩
      · rw [h]; simp
      · simp
      · intro v hv
        obtain ⟨x, -, rfl⟩ := List.mem_map.1 hv
        exact abs_nonneg _
    · rw [c3 hn hm] at h0
      cases h0

/-- **C68.** Without any fitted value: `ZeroDivisionError` for the mean. -/
theorem C68_sad_mean_unfitted (absolute : Bool) (cs : List (Call (List ℝ) β))
    (he : univariate (fitted cs) = []) (X : List ℝ) :
    ((standardAbsoluteDeviation (β := β) Real.sqrt (averageMeter ℝ)).scorePartial
        (calls (standardAbsoluteDeviation Real.sqrt (averageMeter ℝ))
          (SadState.new (averageMeter ℝ) absolute) cs).2 X).out = .error .zeroDivision := by
  have hi := sad_inv (β := β) (average_refines (K := ℝ)) absolute cs
  refine (sad_score (β := β) average_refines absolute _ _ hi X).2.2 _ ?_
  have := average_refines.get_out hi.2.1
  rw [he] at this
  rcases this with ⟨-, h⟩ | ⟨h, -⟩
  · exact h
  · exact absurd rfl h

/-- **C68.** Without any fitted value: `IndexError` for the median. -/
theorem C68_sad_median_unfitted (absolute : Bool) (cs : List (Call (List ℝ) β))
    (he : univariate (fitted cs) = []) (X : List ℝ) :
    ((standardAbsoluteDeviation (β := β) Real.sqrt (medianMeter ℝ)).scorePartial
        (calls (standardAbsoluteDeviation Real.sqrt (medianMeter ℝ))
          (SadState.new (medianMeter ℝ) absolute) cs).2 X).out = .error .indexError := by
  have hi := sad_inv (β := β) (median_refines (K := ℝ)) absolute cs
  refine (sad_score (β := β) median_refines absolute _ _ hi X).2.2 _ ?_
  have := median_refines.get_out hi.2.1
  rw [he] at this
  rcases this with ⟨-, h⟩ | ⟨m, h, -⟩
  · exact h
  · simp [medianOf] at h

/-- **C68.** An instance that is not univariate is refused with `AssertionError` and
changes nothing. -/
theorem C68_sad_rejects {σ : Type*} (sub : Statistic σ ℝ ℝ) (s : SadState σ ℝ) (X : List ℝ)
    (hX : X.length ≠ 1) (y : Option β) :
    (standardAbsoluteDeviation Real.sqrt sub).fitPartial s X y = .err .assertionError s := by
  match X with
  | [] => rfl
  | [x] => simp at hX
  | _ :: _ :: _ => rfl

/-- A history meeting the hypothesis, with a rejected instance in it. -/
example : univariate (fitted ([.score [5], .fit [1] none, .fit [1, 2] none, .fit [3] none] :
    List (Call (List ℝ) Unit))) = [1, 3] := rfl

end

end Pysad
