import Verif.Model.ModifiedStl
import Verif.Proofs.Lists
import Verif.Proofs.Statistics
import Verif.Props.Window

/-! Property C47: `ModifiedSTLResidualTransformer`. -/

namespace Pysad

open Spec

theorem Res.out_ofExcept {σ α : Type*} (x : Except PyErr α) (s : σ) :
    (Res.ofExcept x s).out = x := by cases x <;> rfl

/-- numpy's median is the specified one. -/
theorem npMedian_eq {K : Type*} [Field K] [LinearOrder K] (l : List K) :
    npMedian l = medianOf (l : Multiset K) := by
  unfold npMedian medianOf
  rw [pySorted_eq_sort]
  rfl

theorem medianOf_isSome {K : Type*} [Field K] [LinearOrder K] {l : List K} (hl : l ≠ []) :
    ∃ m, medianOf (l : Multiset K) = some m := by
  unfold medianOf
  have hlen : ((l : Multiset K).sort (· ≤ ·)).length = l.length := by simp
  have hpos : 0 < l.length := List.length_pos_iff.2 hl
  simp only [hlen]
  split
  · rw [List.getElem?_eq_getElem (by rw [hlen]; omega)]; exact ⟨_, rfl⟩
  · rw [List.getElem?_eq_getElem (by rw [hlen]; omega), List.getElem?_eq_getElem (by rw [hlen]; omega)]
    exact ⟨_, rfl⟩

/-- The single number that an argument carries: an array of shape `(1,)` or `(1, 1)`,
bare or as first component of a tuple; `none` for any other argument. -/
def Spec.singleValue {K : Type*} : FitArg (NdArray K) → Option K
  | .row (.vec [v]) | .pair (.vec [v]) => some v
  | .row (.mat 1 rows) | .pair (.mat 1 rows) =>
    match rows.flatten with
    | [v] => some v
    | _ => none
  | _ => none

variable {K : Type*} [Field K] [LinearOrder K]

theorem asPartialValue_eq (X : StlArg K) :
    ModifiedStl.asPartialValue X =
      match singleValue X with
      | some v => .ok v
      | none => .error .valueError := by
  have key : ∀ l : List K, (if l.length ≠ 1 then Except.error PyErr.valueError
      else match l[0]? with | none => .error .indexError | some v => .ok v) =
      match (match l with | [v] => some v | _ => none : Option K) with
      | some v => .ok v
      | none => .error .valueError := by
    intro l
    match l with
    | [] => rfl
    | [v] => rfl
    | a :: b :: l => simp
  cases X with
  | row a =>
    cases a with
    | scalar x => rfl
    | higher => rfl
    | vec l =>
      refine (key l).trans ?_
      match l with
      | [] => rfl
      | [v] => rfl
      | a :: b :: l => rfl
    | mat c rows =>
      by_cases hc : c = 1
      · subst hc
        simp only [ModifiedStl.asPartialValue, ModifiedStl.asUnivariate,
          ModifiedStl.normalizeInput, if_true]
        exact key rows.flatten
      · simp only [ModifiedStl.asPartialValue, ModifiedStl.asUnivariate,
          ModifiedStl.normalizeInput, if_neg hc]
        match c, hc with
        | 0, _ => rfl
        | n + 2, _ => rfl
  | pair a =>
    cases a with
    | scalar x => rfl
    | higher => rfl
    | vec l =>
      refine (key l).trans ?_
      match l with
      | [] => rfl
      | [v] => rfl
      | a :: b :: l => rfl
    | mat c rows =>
      by_cases hc : c = 1
      · subst hc
        simp only [ModifiedStl.asPartialValue, ModifiedStl.asUnivariate,
          ModifiedStl.normalizeInput, if_true]
        exact key rows.flatten
      · simp only [ModifiedStl.asPartialValue, ModifiedStl.asUnivariate,
          ModifiedStl.normalizeInput, if_neg hc]
        match c, hc with
        | 0, _ => rfl
        | n + 2, _ => rfl

theorem stl_fitPartial_eq (s : StlState K) (w : Window K) (hw : s.window = some w) (X : StlArg K) :
    ModifiedStl.fitPartial s X =
      match singleValue X with
      | some v => .ok () { s with window := some (w.update v) }
      | none => .err .valueError s := by
  have h := asPartialValue_eq X
  unfold ModifiedStl.asPartialValue at h
  unfold ModifiedStl.fitPartial
  rw [hw]
  simp only
  cases hu : ModifiedStl.asUnivariate X with
  | error e =>
    rw [hu] at h
    cases hv : singleValue X with
    | none => rw [hv] at h; simp at h; simp [h]
    | some v => rw [hv] at h; simp at h
  | ok l =>
    rw [hu] at h
    simp only at h ⊢
    by_cases hl : l.length ≠ 1
    · rw [if_pos hl] at h ⊢
      cases hv : singleValue X with
      | none => rfl
      | some v => rw [hv] at h; simp at h
    · rw [if_neg hl] at h ⊢
      cases hz : l[0]? with
      | none => simp at hz; simp [hz] at hl
      | some u =>
        rw [hz] at h
        cases hv : singleValue X with
        | none => rw [hv] at h; simp at h
        | some v => rw [hv] at h; simp at h; simp [h]

theorem window_updates_eq {α : Type*} (W : ℕ) (xs : List α) :
    ((Window.new W).updates xs : Window α) = ⟨W, lastN W xs⟩ := by
  have h1 := C01_window_last W xs
  have h2 : ((Window.new W).updates xs : Window α).windowSize = W := by
    suffices ∀ (xs : List α) (w : Window α), (w.updates xs).windowSize = w.windowSize from this xs _
    intro xs
    induction xs with
    | nil => intro w; rfl
    | cons x xs ih =>
      intro w
      unfold Window.updates at ih ⊢
      rw [List.foldl_cons, ih]
      unfold Window.update; simp only; split <;> rfl
  cases hc : ((Window.new W).updates xs : Window α)
  rw [hc] at h1 h2
  simp only [Window.get] at h1 h2
  rw [h1, h2]

/-- The state after any sequence of `fit_partial` calls (those that raise change
nothing). -/
theorem stl_fits_eq {period W : ℕ} {s0 : StlState K}
    (h0 : ModifiedStl.new (period : ℤ) (some (W : ℤ)) = .ok s0) (history : List (StlArg K)) :
    ModifiedStl.fits s0 history
      = ⟨period, some W, some ⟨W, lastN W (history.filterMap singleValue)⟩⟩ := by
  have hs0 : s0 = ⟨period, some W, some (Window.new W)⟩ := by
    unfold ModifiedStl.new at h0
    by_cases h1 : (period : ℤ) < 2
    · rw [if_pos h1] at h0; cases h0
    · rw [if_neg h1] at h0
      simp only at h0
      by_cases h2 : (W : ℤ) < 2 * period
      · rw [if_pos h2] at h0; cases h0
      · rw [if_neg h2] at h0; cases h0; rfl
  rw [← window_updates_eq]
  induction history using List.reverseRecOn with
  | nil => rw [hs0]; rfl
  | append_singleton hs X ih =>
    unfold ModifiedStl.fits at ih ⊢
    rw [List.foldl_append, ih, List.foldl_cons, List.foldl_nil, stl_fitPartial_eq _ _ rfl]
    rw [List.filterMap_append]
    cases hv : singleValue X with
    | none => simp [hv]
    | some v => simp [hv, Window.updates]

/-- **C47.** The constructor rejects periods below 2 and windows shorter than two
periods. -/
theorem C47_constructor (period W : ℤ) :
    (ModifiedStl.new (K := K) period (some W)).isOk = true ↔ 2 ≤ period ∧ 2 * period ≤ W := by
  unfold ModifiedStl.new
  by_cases h1 : period < 2
  · rw [if_pos h1]; simp [Except.isOk, Except.toBool]; omega
  · rw [if_neg h1]
    simp only
    by_cases h2 : W < 2 * period
    · rw [if_pos h2]; simp [Except.isOk, Except.toBool]; omega
    · rw [if_neg h2]; simp [Except.isOk, Except.toBool]; omega

section
variable (stl : List K → Except PyErr (List K)) {period W : ℕ} {s0 : StlState K}
  (h0 : ModifiedStl.new (period : ℤ) (some (W : ℤ)) = .ok s0)

include h0 in
theorem stl_transform_eq (history : List (StlArg K)) {X : StlArg K} {v : K}
    (hv : singleValue X = some v) :
    (ModifiedStl.transformPartial stl (ModifiedStl.fits s0 history) X).out =
      ModifiedStl.latestResidual stl (ModifiedStl.fits s0 history)
        (lastN W (history.filterMap singleValue ++ [v])) := by
  rw [stl_fits_eq h0]
  simp only [ModifiedStl.transformPartial, asPartialValue_eq, hv, ModifiedStl.candidateValues,
    Window.get]
  rw [← lastN_lastN_append]
  change (Res.ofExcept (ModifiedStl.latestResidual stl _ (lastN W _)) _).out = _
  cases ModifiedStl.latestResidual stl _
    (lastN W (lastN W (history.filterMap singleValue) ++ [v])) <;> rfl

include h0 in
/-- **C47.** After any history of `fit_partial` calls and for any argument at all,
`transform_partial` returns (or raises) exactly what `fit_transform_partial` would,
and changes nothing. -/
theorem C47_preview (history : List (StlArg K)) (X : StlArg K) :
    (ModifiedStl.transformPartial stl (ModifiedStl.fits s0 history) X).out
      = (ModifiedStl.fitTransformPartial stl (ModifiedStl.fits s0 history) X).out ∧
    (ModifiedStl.transformPartial stl (ModifiedStl.fits s0 history) X).state
      = ModifiedStl.fits s0 history := by
  constructor
  · cases hv : singleValue X with
    | some v =>
      rw [stl_transform_eq stl h0 history hv]
      rw [stl_fits_eq h0]
      unfold ModifiedStl.fitTransformPartial
      rw [stl_fitPartial_eq _ _ rfl, hv]
      simp only [Res.bind_ok]
      have : (Window.update ⟨W, lastN W (history.filterMap singleValue)⟩ v).get
          = lastN W (history.filterMap singleValue ++ [v]) := by
        have h1 := window_updates_eq W (history.filterMap singleValue ++ [v])
        have h2 := window_updates_eq W (history.filterMap singleValue)
        unfold Window.updates at h1 h2
        rw [List.foldl_append, h2] at h1
        simp only [List.foldl_cons, List.foldl_nil] at h1
        rw [h1]; rfl
      rw [this]
      rw [Res.out_ofExcept]
      rfl
    | none =>
      rw [stl_fits_eq h0]
      unfold ModifiedStl.fitTransformPartial
      rw [stl_fitPartial_eq _ _ rfl, hv]
      simp only [ModifiedStl.transformPartial, asPartialValue_eq, hv, Res.bind_err, Res.out_err]
  · rw [stl_fits_eq h0]
    simp only [ModifiedStl.transformPartial]
    cases ModifiedStl.asPartialValue X with
    | error e => rfl
    | ok v =>
      simp only
      generalize ModifiedStl.latestResidual stl _ _ = r
      cases r <;> rfl

include h0 in
/-- **C47.** The value: with `values` the last `W` accepted values including the new
one, it is 0.0 while there are fewer than two periods of them; then it is the new
value minus the last entry of the seasonal component of `values` minus the median of
`values`. If the STL fit raises, so does the call. -/
theorem C47_value (history : List (StlArg K)) (X : StlArg K) (v : K)
    (hv : singleValue X = some v) :
    let values := lastN W (history.filterMap singleValue ++ [v])
    let result := (ModifiedStl.transformPartial stl (ModifiedStl.fits s0 history) X).out
    (values.length < 2 * period → result = .ok 0) ∧
    (2 * period ≤ values.length → ∀ seasonal last m, stl values = .ok seasonal →
      seasonal.length = values.length → seasonal.getLast? = some last →
      medianOf (values : Multiset K) = some m → result = .ok (v - last - m)) ∧
    (2 * period ≤ values.length → ∀ e, stl values = .error e → result = .error e) := by
  intro values result
  have hr : result = ModifiedStl.latestResidual stl (ModifiedStl.fits s0 history) values :=
    stl_transform_eq stl h0 history hv
  rw [hr, stl_fits_eq h0]
  refine ⟨?_, ?_, ?_⟩
  · intro hl
    simp only [ModifiedStl.latestResidual, if_pos hl]
  · intro hl seasonal last m hs hlen hlast hm
    have hl' : ¬ values.length < 2 * period := by omega
    have hvl : values.getLast? = some v := by
      have hW : 1 ≤ W := by
        have := C47_constructor (K := K) (period : ℤ) (W : ℤ)
        rw [h0] at this
        have := this.1 rfl
        omega
      have hsuf : lastN W (history.filterMap singleValue ++ [v]) <:+ _ := lastN_suffix _ _
      have hne : values ≠ [] := by
        intro h
        have := mem_lastN_snoc hW (history.filterMap singleValue) v
        rw [show lastN W _ = values from rfl, h] at this
        simp at this
      obtain ⟨t, ht⟩ := hsuf
      have h2 := congrArg List.getLast? ht
      rw [List.getLast?_append_of_ne_nil _ hne] at h2
      rw [h2]; simp
    simp only [ModifiedStl.latestResidual, if_neg hl', ModifiedStl.transformWindow, hs,
      ModifiedStl.subtract, hlen, ne_eq, not_true_eq_false, if_false, npMedian_eq, hm]
    simp only [Except.bind, hlen, not_true_eq_false, if_false]
    have hpos : 0 < values.length := by
      rcases List.eq_nil_or_concat values with h | ⟨a, b, h⟩
      · rw [h] at hvl; simp at hvl
      · rw [h]; simp
    unfold pyIndex
    simp only [List.length_zipWith, hlen, Nat.min_self]
    have e1 : (-1 : ℤ) < 0 := by norm_num
    rw [if_pos e1, if_neg (by omega)]
    have e2 : (-1 + (values.length : ℤ)).toNat = values.length - 1 := by omega
    rw [e2, List.getElem?_zipWith]
    rw [List.getLast?_eq_getElem?] at hvl hlast
    rw [hlen] at hlast
    rw [hvl, hlast]
  · intro hl e he
    have hl' : ¬ values.length < 2 * period := by omega
    simp only [ModifiedStl.latestResidual, if_neg hl', ModifiedStl.transformWindow, he]
    rfl

include h0 in
/-- **C47.** Arguments that do not carry exactly one number are rejected by all three
methods and change nothing. -/
theorem C47_rejects (history : List (StlArg K)) (X : StlArg K) (hv : singleValue X = none) :
    let s := ModifiedStl.fits s0 history
    ModifiedStl.fitPartial s X = .err .valueError s ∧
    ModifiedStl.transformPartial stl s X = .err .valueError s ∧
    ModifiedStl.fitTransformPartial stl s X = .err .valueError s := by
  intro s
  have hs : s = _ := stl_fits_eq h0 history
  rw [hs]
  refine ⟨?_, ?_, ?_⟩
  · rw [stl_fitPartial_eq _ _ rfl, hv]
  · simp only [ModifiedStl.transformPartial, asPartialValue_eq, hv]
  · unfold ModifiedStl.fitTransformPartial
    rw [stl_fitPartial_eq _ _ rfl, hv]
    rfl

end

/-- Without a window size the partial methods raise. -/
theorem C47_no_window (stl : List K → Except PyErr (List K)) (period : ℤ) (s0 : StlState K)
    (h0 : ModifiedStl.new period none = .ok s0) (X : StlArg K) :
    ModifiedStl.fitPartial s0 X = .err .valueError s0 ∧
    ModifiedStl.transformPartial stl s0 X = .err .valueError s0 ∧
    ModifiedStl.fitTransformPartial stl s0 X = .err .valueError s0 := by
  have hs0 : s0.window = none := by
    unfold ModifiedStl.new at h0
    split at h0
    · cases h0
    · cases h0; rfl
  have hf : ModifiedStl.fitPartial s0 X = .err .valueError s0 := by
    unfold ModifiedStl.fitPartial; rw [hs0]
  refine ⟨hf, ?_, ?_⟩
  · unfold ModifiedStl.transformPartial; rw [hs0]
  · unfold ModifiedStl.fitTransformPartial; rw [hf]; rfl

/-- A concrete run: period 2, window 4, an STL whose seasonal part is constantly 1. -/
example : ∃ s0 : StlState ℚ, ModifiedStl.new 2 (some 4) = .ok s0 ∧
    (ModifiedStl.transformPartial (fun l => .ok (l.map fun _ => 1))
      (ModifiedStl.fits s0 [.row (.vec [9]), .pair (.vec [1]), .row (.mat 1 [[2]]), .row .higher,
        .row (.vec [3])]) (.row (.vec [6]))).out = .ok (6 - 1 - 5 / 2) :=
  ⟨_, rfl, by decide +kernel⟩

end Pysad
