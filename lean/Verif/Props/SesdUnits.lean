import Verif.Props.SesdSpike
import Verif.Props.Units
import Verif.Props.Smoothing

/-! Property C166: the scores of `SeasonalESD` and `SeasonalHybridESD` and the unit and the zero of
the values. -/

namespace Pysad

open Spec

/-! ### Specification -/

/-- The array with `f` applied to each of its entries. -/
def Spec.entrywise (f : ℝ → ℝ) : NdArray ℝ → NdArray ℝ
  | .scalar x => .scalar (f x)
  | .vec l => .vec (l.map f)
  | .mat c rows => .mat c (rows.map fun r => r.map f)
  | .higher => .higher

/-- The decomposition `stl'` finds in the values `a x + b` the seasonal component that `stl` finds
in the values `x`, in the new unit. -/
def Spec.SameSeasons (a b : ℝ) (stl stl' : List ℝ → Except PyErr (List ℝ)) : Prop :=
  ∀ l, stl' (l.map fun x => a * x + b) = (stl l).map fun s => s.map fun x => a * x

/-- The claim of **C166**: with `a x + b` in place of each value `x`, the scores are the same. -/
def C166_statement : Prop :=
  ∀ (hybrid : Bool) (period W m : ℤ) (alpha : ℝ) (s0 : SesdState ℝ),
    Sesd.new hybrid period W m alpha = .ok s0 →
    ∀ (ppf : ℝ → ℤ → ℝ) (a b : ℝ), 0 < a → ∀ stl stl', SameSeasons a b stl stl' →
    ∀ (h : List (Call (NdArray ℝ) Unit)) (X : NdArray ℝ),
      sesdScore ppf stl' s0 (h.map (Call.on (entrywise fun x => a * x + b)))
        (entrywise (fun x => a * x + b) X) = sesdScore ppf stl s0 h X

/-! ### Proofs -/

namespace SesdUnits

theorem oneNumber_entrywise (f : ℝ → ℝ) (X : NdArray ℝ) :
    oneNumber (entrywise f X) = (oneNumber X).map f := by
  cases X with
  | vec l =>
    match l with
    | [] => rfl
    | [_] => rfl
    | _ :: _ :: _ => rfl
  | scalar _ => rfl
  | mat _ _ => rfl
  | higher => rfl

variable {β : Type*} {hybrid : Bool} {period W m : ℤ} {alpha : ℝ} {s0 : SesdState ℝ}
  (h0 : Sesd.new hybrid period W m alpha = .ok s0) (ppf : ℝ → ℤ → ℝ)
  (stl : List ℝ → Except PyErr (List ℝ)) (h : List (Call (NdArray ℝ) β)) (X : NdArray ℝ)
include h0

/-- The score in terms of the values of the window. -/
theorem score_eq : sesdScore ppf stl s0 h X =
    match oneNumber X with
    | none => .error .valueError
    | some v => Sesd.scoreWindow ⟨Real.sqrt, ppf, stl⟩ s0
        (lastN W.toNat ((fitted h).filterMap oneNumber ++ [v])) := by
  obtain ⟨_, _, _, _, _, _, hs0⟩ := sesd_new_ok h0
  have hst := sesd_calls h0 ⟨Real.sqrt, ppf, stl⟩ h
  unfold sesdScore
  show (Sesd.scorePartial _ _ X).out = _
  unfold Sesd.scorePartial Sesd.candidateWindow
  rw [asValue_eq]
  cases oneNumber X with
  | none => rfl
  | some v =>
    rw [Res.out_ofExcept]
    simp only [Except.map, Except.bind]
    rw [hst]
    simp only [Window.get]
    have h3 : (lastN W.toNat ((fitted h).filterMap oneNumber) ++ [v]).drop
        ((lastN W.toNat ((fitted h).filterMap oneNumber) ++ [v]).length - W.toNat)
        = lastN W.toNat ((fitted h).filterMap oneNumber ++ [v]) := lastN_lastN_append _ _ _
    have hw : s0.windowSize = W.toNat := by rw [hs0]
    rw [hw, h3]
    unfold Sesd.scoreWindow
    simp only [hw]

omit h0 in
theorem subtract_affine (a b : ℝ) (ha : 0 < a) (X seasonal : List ℝ) :
    ModifiedStl.subtract (X.map fun x => a * x + b) (seasonal.map fun x => a * x) =
      (ModifiedStl.subtract X seasonal).map fun r => r.map fun x => a * x := by
  unfold ModifiedStl.subtract
  rw [List.length_map, List.length_map]
  split
  · rfl
  · rw [npMedian_eq, npMedian_eq, ← Multiset.map_coe, Smoothing.medianOf_affine a b ha]
    cases medianOf (X : Multiset ℝ) with
    | none => rfl
    | some μ =>
      simp only [Option.map_some, Except.map]
      congr 1
      rw [List.zipWith_map, List.map_zipWith]
      congr 1
      funext x s
      ring

omit h0 in
/-- The ESD test does not use the decomposition. -/
theorem candidates_env (stl stl' : List ℝ → Except PyErr (List ℝ)) (hybrid : Bool) (alpha : ℝ)
    (n : ℕ) : ∀ (fuel i : ℕ) (r : List (ℝ × ℕ)),
    Sesd.candidates ⟨Real.sqrt, ppf, stl'⟩ hybrid alpha n fuel i r =
      Sesd.candidates ⟨Real.sqrt, ppf, stl⟩ hybrid alpha n fuel i r := by
  intro fuel
  induction fuel with
  | zero => intro i r; rfl
  | succ fuel ih =>
    intro i r
    simp only [Sesd.candidates, ih]
    rfl

omit h0 in
theorem esd_env (stl stl' : List ℝ → Except PyErr (List ℝ)) (hybrid : Bool) (m : ℕ) (alpha : ℝ)
    (r : List ℝ) : Sesd.esd ⟨Real.sqrt, ppf, stl'⟩ hybrid m alpha r =
      Sesd.esd ⟨Real.sqrt, ppf, stl⟩ hybrid m alpha r := by
  unfold Sesd.esd
  rw [candidates_env ppf stl stl']

omit h0 in
/-- The residuals are multiplied by the factor. -/
theorem residuals_affine {a b : ℝ} (ha : 0 < a) {stl' : List ℝ → Except PyErr (List ℝ)}
    (hs : SameSeasons a b stl stl') (l : List ℝ) :
    ModifiedStl.transformWindow stl' s0.residual (l.map fun x => a * x + b) =
      (ModifiedStl.transformWindow stl s0.residual l).map fun r => r.map fun x => a * x := by
  unfold ModifiedStl.transformWindow
  rw [List.length_map]
  split
  · rfl
  · rw [hs l]
    cases stl l with
    | error e => rfl
    | ok seasonal =>
      simp only [Except.map, Except.bind]
      exact subtract_affine a b ha l seasonal

/-- The score of the new series in terms of the values of the old one. -/
theorem score_affine {a b : ℝ} (ha : 0 < a) {stl' : List ℝ → Except PyErr (List ℝ)}
    (hs : SameSeasons a b stl stl') :
    sesdScore ppf stl' s0 (h.map (Call.on (entrywise fun x => a * x + b)))
        (entrywise (fun x => a * x + b) X) =
    match oneNumber X with
    | none => .error .valueError
    | some v =>
      let values := lastN W.toNat ((fitted h).filterMap oneNumber ++ [v])
      if values.length < s0.windowSize then .ok 0
      else (ModifiedStl.transformWindow stl s0.residual values).bind fun r =>
        (Sesd.esd ⟨Real.sqrt, ppf, stl⟩ s0.hybrid s0.maxAnomalies s0.alpha
          (r.map fun x => a * x)).map (Sesd.latestStatistic (values.length - 1)) := by
  rw [score_eq h0, oneNumber_entrywise]
  cases oneNumber X with
  | none => rfl
  | some v =>
    simp only [Option.map_some]
    have e : (fitted (h.map (Call.on (entrywise fun x => a * x + b)))).filterMap oneNumber
        ++ [a * v + b] = ((fitted h).filterMap oneNumber ++ [v]).map fun x => a * x + b := by
      rw [fitted_on, List.filterMap_map, List.map_append, List.map_filterMap]
      congr 1
      apply List.filterMap_congr
      intro x _
      exact oneNumber_entrywise _ _
    rw [e, lastN_map]
    unfold Sesd.scoreWindow
    rw [List.length_map, residuals_affine stl ha hs]
    split
    · rfl
    · cases ModifiedStl.transformWindow stl s0.residual
        (lastN W.toNat ((fitted h).filterMap oneNumber ++ [v])) with
      | error e => rfl
      | ok r =>
        simp only [Except.map, Except.bind]
        rw [esd_env ppf stl stl']

omit h0 in
/-- Center and scale in the new unit. -/
theorem centerScale_scaled {a : ℝ} (ha : 0 < a) {l : List ℝ} {c s c' s' : ℝ}
    (h1 : CenterScale Real.sqrt hybrid l c s)
    (h2 : CenterScale Real.sqrt hybrid (l.map fun x => a * x) c' s') : c' = a * c ∧ s' = a * s := by
  have haff : ∀ m : Multiset ℝ, medianOf (m.map fun x => a * x) = (medianOf m).map fun x => a * x := by
    intro m
    have := Smoothing.medianOf_affine a 0 ha m
    simpa only [add_zero] using this
  cases hybrid with
  | true =>
    obtain ⟨e1, mad, e2, rfl⟩ := h1
    obtain ⟨e3, mad', e4, rfl⟩ := h2
    rw [← Multiset.map_coe, haff, e1] at e3
    cases e3
    have : ((l.map fun x => a * x).map fun v => |v - a * c| : List ℝ)
        = (l.map fun v => |v - c|).map fun x => a * x := by
      rw [List.map_map, List.map_map]
      apply List.map_congr_left
      intro x _
      simp only [Function.comp]
      rw [← mul_sub, abs_mul, abs_of_pos ha]
    rw [this, ← Multiset.map_coe, haff, e2] at e4
    cases e4
    exact ⟨rfl, by ring⟩
  | false =>
    obtain ⟨rfl, rfl⟩ := h1
    obtain ⟨rfl, rfl⟩ := h2
    have e1 : (l.map fun x => a * x).sum = a * l.sum := by
      rw [List.sum_map_mul_left, List.map_id']
    have e2 : (l.map fun x => a * x).sum / ((l.map fun x => a * x).length : ℝ)
        = a * (l.sum / (l.length : ℝ)) := by
      rw [e1, List.length_map, mul_div_assoc]
    refine ⟨e2, ?_⟩
    rw [e2, List.length_map, List.map_map]
    have e3 : ((fun v => (v - a * (l.sum / (l.length : ℝ))) ^ 2) ∘ fun x => a * x)
        = fun v => a ^ 2 * (v - l.sum / (l.length : ℝ)) ^ 2 := by
      funext v
      simp only [Function.comp]
      ring
    rw [e3, List.sum_map_mul_left, mul_div_assoc, Real.sqrt_mul (by positivity), Real.sqrt_sq ha.le]

omit h0 in
theorem rest_scaled (a : ℝ) (values : List ℝ) (removed : List ℕ) :
    rest (values.map fun x => a * x) removed
      = (rest values removed).map fun p => (a * p.1, p.2) := by
  unfold rest
  rw [List.zipIdx_map, List.filter_map]
  rfl

omit h0 in
theorem fst_scaled (a : ℝ) (l : List (ℝ × ℕ)) :
    (l.map fun p => (a * p.1, p.2)).map Prod.fst = (l.map Prod.fst).map fun x => a * x := by
  rw [List.map_map, List.map_map]
  rfl

omit h0 in
/-- A candidate in the old unit is the candidate in the new one. -/
theorem candidate_scaled {a : ℝ} (ha : 0 < a) {values : List ℝ} {removed : List ℕ}
    {c c' : SesdCandidate ℝ} (h1 : IsCandidate Real.sqrt ppf hybrid alpha values removed c)
    (h2 : IsCandidate Real.sqrt ppf hybrid alpha (values.map fun x => a * x) removed c') :
    c' = c := by
  obtain ⟨μ, σ, v, hcs, hpos, hmem, hst, hmax, hfirst, hcr⟩ := h1
  obtain ⟨μ', σ', v', hcs', hpos', hmem', hst', hmax', hfirst', hcr'⟩ := h2
  rw [rest_scaled, fst_scaled] at hcs'
  obtain ⟨rfl, rfl⟩ := centerScale_scaled ha hcs hcs'
  rw [rest_scaled] at hmem' hmax' hfirst'
  obtain ⟨p, hp, hpe⟩ := List.mem_map.1 hmem'
  obtain ⟨w, i⟩ := p
  simp only [Prod.mk.injEq] at hpe
  obtain ⟨rfl, rfl⟩ := hpe
  have hdev : ∀ x : ℝ, |a * x - a * μ| / (a * σ) = |x - μ| / σ := by
    intro x
    rw [← mul_sub, abs_mul, abs_of_pos ha, mul_div_mul_left _ _ ha.ne']
  have hmax2 : ∀ p ∈ rest values removed, |p.1 - μ| / σ ≤ c'.statistic := by
    intro p hp
    have := hmax' _ (List.mem_map.2 ⟨p, hp, rfl⟩)
    simpa only [hdev] using this
  have hfirst2 : ∀ p ∈ rest values removed, p.2 < c'.idx → |p.1 - μ| / σ < c'.statistic := by
    intro p hp hlt
    have := hfirst' _ (List.mem_map.2 ⟨p, hp, rfl⟩) hlt
    simpa only [hdev] using this
  rw [hdev] at hst'
  have hstat : c'.statistic = c.statistic := by
    apply le_antisymm
    · rw [hst']; exact hmax _ hp
    · rw [hst]; exact hmax2 _ hmem
  have hidx : c'.idx = c.idx := by
    rcases lt_trichotomy c'.idx c.idx with hlt | he | hlt
    · have := hfirst _ hp hlt
      rw [← hstat, hst'] at this
      exact absurd this (lt_irrefl _)
    · exact he
    · have := hfirst2 _ hmem hlt
      rw [hstat, hst] at this
      exact absurd this (lt_irrefl _)
  rw [List.length_map] at hcr'
  cases c
  cases c'
  simp only at hstat hidx hcr hcr'
  rw [hstat, hidx, hcr, hcr']

omit h0 in
/-- In a smaller unit there are no fewer candidates. -/
theorem candidates_prefix {a : ℝ} (ha : 1 ≤ a) {values : List ℝ} {m : ℕ}
    {cands cands' : List (SesdCandidate ℝ)}
    (h1 : EsdCandidates Real.sqrt ppf hybrid alpha m values cands)
    (h2 : EsdCandidates Real.sqrt ppf hybrid alpha m (values.map fun x => a * x) cands') :
    cands <+: cands' := by
  have ha0 : 0 < a := by linarith
  obtain ⟨k1, k2, k3⟩ := h1
  obtain ⟨l1, l2, l3⟩ := h2
  have key : ∀ j, j ≤ cands.length → j ≤ cands'.length ∧ cands'.take j = cands.take j := by
    intro j
    induction j with
    | zero => intro _; simp
    | succ j ih =>
      intro hj
      obtain ⟨i1, i2⟩ := ih (by omega)
      have hc := k2 j cands[j] (by simp [show j < cands.length by omega])
      have hlt : j < cands'.length := by
        by_contra hge
        have hjl : cands'.length = j := by omega
        have e : cands' = cands.take j := by rw [← i2, ← hjl, List.take_length]
        obtain ⟨μ', σ', hcs', hle⟩ := l3 (by omega)
        rw [e, rest_scaled, fst_scaled] at hcs'
        obtain ⟨μ, σ, _, hcs, hpos, -⟩ := hc
        obtain ⟨-, rfl⟩ := centerScale_scaled ha0 hcs hcs'
        have : σ ≤ a * σ := le_mul_of_one_le_left (lt_trans (by positivity) hpos).le ha
        linarith
      have hc' := l2 j cands'[j] (by simp [hlt])
      rw [i2] at hc'
      have := candidate_scaled ppf ha0 hc hc'
      refine ⟨hlt, ?_⟩
      rw [List.take_succ_eq_append_getElem hlt,
        List.take_succ_eq_append_getElem (show j < cands.length by omega), i2, this]
  obtain ⟨-, e⟩ := key cands.length le_rfl
  rw [List.take_length] at e
  rw [← e]
  exact List.take_prefix _ _

omit h0 in
theorem reported_prefix {cands cands' r r' : List (SesdCandidate ℝ)} (h : cands <+: cands')
    (h1 : LongestSignificantPrefix cands r) (h2 : LongestSignificantPrefix cands' r') :
    r <+: r' := by
  obtain ⟨a1, a2, a3⟩ := h1
  obtain ⟨b1, b2, b3⟩ := h2
  refine List.prefix_of_prefix_length_le (a1.trans h) b1 ?_
  by_contra hlt
  have hne : r ≠ [] := by rintro rfl; simp at hlt
  exact b3 r (a1.trans h) (by omega) (r.getLast hne) (List.getLast?_eq_getLast_of_ne_nil hne)
    (a2 _ (List.getLast?_eq_getLast_of_ne_nil hne))

omit h0 in
theorem latest_prefix (i : ℕ) {r r' : List (SesdCandidate ℝ)} (h : r <+: r') :
    Sesd.latestStatistic i r = 0 ∨ Sesd.latestStatistic i r' = Sesd.latestStatistic i r := by
  obtain ⟨t, rfl⟩ := h
  induction r with
  | nil => exact .inl rfl
  | cons c r ih =>
    rw [List.cons_append]
    unfold Sesd.latestStatistic
    split
    · exact .inr rfl
    · exact ih

end SesdUnits

open SesdUnits

/-- **C166**, partial: the zero of the values does not matter. -/
theorem C166_shift_partial {β : Type*} {hybrid : Bool} {period W m : ℤ} {alpha : ℝ}
    {s0 : SesdState ℝ} (h0 : Sesd.new hybrid period W m alpha = .ok s0) (ppf : ℝ → ℤ → ℝ)
    (b : ℝ) (stl stl' : List ℝ → Except PyErr (List ℝ)) (hs : SameSeasons 1 b stl stl')
    (h : List (Call (NdArray ℝ) β)) (X : NdArray ℝ) :
    sesdScore ppf stl' s0 (h.map (Call.on (entrywise fun x => 1 * x + b)))
      (entrywise (fun x => 1 * x + b) X) = sesdScore ppf stl s0 h X := by
  rw [score_affine h0 ppf stl h X one_pos hs, score_eq h0]
  cases oneNumber X with
  | none => rfl
  | some v =>
    simp only [one_mul, List.map_id']
    rfl

/-- **C166**, partial: a score that is not 0 stays the same in a smaller unit (that is, if the
values are multiplied by a factor of at least 1). -/
theorem C166_scale_partial {β : Type*} {hybrid : Bool} {period W m : ℤ} {alpha : ℝ}
    {s0 : SesdState ℝ} (h0 : Sesd.new hybrid period W m alpha = .ok s0) (ppf : ℝ → ℤ → ℝ)
    (a b : ℝ) (ha : 1 ≤ a) (stl stl' : List ℝ → Except PyErr (List ℝ))
    (hs : SameSeasons a b stl stl') (h : List (Call (NdArray ℝ) β)) (X : NdArray ℝ) :
    sesdScore ppf stl s0 h X = .ok 0 ∨
    sesdScore ppf stl' s0 (h.map (Call.on (entrywise fun x => a * x + b)))
      (entrywise (fun x => a * x + b) X) = sesdScore ppf stl s0 h X := by
  obtain ⟨a1, a2, a3, a4, _, _, hs0⟩ := sesd_new_ok h0
  rw [score_affine h0 ppf stl h X (by linarith) hs, score_eq h0]
  cases oneNumber X with
  | none => exact .inr rfl
  | some v =>
    simp only
    unfold Sesd.scoreWindow
    set values := lastN W.toNat ((fitted h).filterMap oneNumber ++ [v]) with hv
    split
    · exact .inl rfl
    · rename_i hl
      cases htw : ModifiedStl.transformWindow stl s0.residual values with
      | error e => exact .inr (by simp only [Except.bind])
      | ok r =>
        simp only [Except.bind]
        have hr : r.length = values.length := by
          unfold ModifiedStl.transformWindow ModifiedStl.subtract at htw
          split at htw
          · cases htw
          · cases hst : stl values with
            | error e => rw [hst] at htw; cases htw
            | ok q =>
              rw [hst] at htw
              simp only [Except.bind] at htw
              split at htw
              · cases htw
              · rename_i hlen
                split at htw
                · cases htw
                · cases htw
                  rw [List.length_zipWith]
                  omega
        have hm : s0.maxAnomalies ≤ r.length := by
          rw [hr]
          have e1 : s0.maxAnomalies = m.toNat := by rw [hs0]
          have e2 : s0.windowSize = W.toNat := by rw [hs0]
          omega
        obtain ⟨cands, rep, g1, g2, g3⟩ := C74_sesd_reported ⟨Real.sqrt, ppf, stl⟩ s0.hybrid s0.alpha
          s0.maxAnomalies r hm
        obtain ⟨cands', rep', g1', g2', g3'⟩ := C74_sesd_reported ⟨Real.sqrt, ppf, stl⟩ s0.hybrid
          s0.alpha s0.maxAnomalies (r.map fun x => a * x) (by rwa [List.length_map])
        rw [g1, g1']
        simp only [Except.map]
        rcases latest_prefix (values.length - 1)
          (reported_prefix (candidates_prefix ppf ha g2 g2') g3 g3') with h5 | h5
        · exact .inl (by rw [h5])
        · exact .inr (by rw [h5])

/-- **C166 is false**: both detectors take a scale of at most 10⁻¹⁰ for 0, so that nothing is
reported in a large unit. -/
theorem C166_refuted : ¬ C166_statement := by
  intro hst
  obtain ⟨s0, h0⟩ := SesdSpike.new_ok false
  have hmed : medianOf (([-1, 1, -1, 1, 100] : List ℝ) : Multiset ℝ) = some 1 := by
    apply SesdSpike.median_of_mostly (by simp)
    · unfold Mostly
      rw [Multiset.coe_card, Multiset.coe_countP]
      norm_num [List.countP_cons]
    · unfold Mostly
      rw [Multiset.coe_card, Multiset.coe_countP]
      norm_num [List.countP_cons]
  -- the spike is reported in the one unit
  obtain ⟨score, hscore, hpos⟩ := C160_esd_partial h0 (fun _ _ => 3) SesdSpike.flat
    (SesdSpike.five (-1) 1 (-1) 1) (.vec [100])
    [-1 - 1, 1 - 1, -1 - 1, 1 - 1] (100 - 1) (-1) 1
    (SesdSpike.five_full (-1) 1 (-1) 1 100 1 hmed) (by
      intro x hx
      simp at hx
      rcases hx with rfl | rfl | rfl | rfl <;> norm_num) (by norm_num)
    (by rw [show (5 : ℤ).toNat = 5 from rfl]; norm_num)
    (by rw [show (5 : ℤ).toNat = 5 from rfl]; norm_num)
  -- but not in the other
  set σ := Grubbs.std [-1 - 1, 1 - 1, -1 - 1, 1 - 1, 100 - 1] with hσ
  have hσ0 : 0 ≤ σ := Real.sqrt_nonneg _
  set a : ℝ := 1 / (10 ^ 10 * (σ + 1)) with ha
  have ha0 : 0 < a := by positivity
  have hsame := hst false 2 5 2 (1 / 20) s0 h0 (fun _ _ => 3) a 0 ha0 SesdSpike.flat SesdSpike.flat
    (by
      intro l
      simp only [SesdSpike.flat, Except.map, List.map_map]
      congr 1
      apply List.map_congr_left
      intro x _
      simp [Function.comp])
    (SesdSpike.five (-1) 1 (-1) 1) (.vec [100])
  rw [hscore] at hsame
  have hmed' : medianOf (([a * -1 + 0, a * 1 + 0, a * -1 + 0, a * 1 + 0, a * 100 + 0] : List ℝ)
      : Multiset ℝ) = some (a * 1 + 0) := by
    have := Smoothing.medianOf_affine a 0 ha0 (([-1, 1, -1, 1, 100] : List ℝ) : Multiset ℝ)
    rw [hmed] at this
    exact this
  have hf := SesdSpike.five_full _ _ _ _ _ _ hmed'
  obtain ⟨-, cands, reported, score', ⟨k1, k2, k3⟩, ⟨l1, -, -⟩, hs, hcase⟩ :=
    SesdSpike.run h0 (fun _ _ => 3) SesdSpike.flat _ _ hf
  have hs' : score' = score := by
    have e : Except.ok score' = (Except.ok score : Except PyErr ℝ) := hs.symm.trans hsame
    exact Except.ok.inj e
  have hnil : cands = [] := by
    cases cands with
    | nil => rfl
    | cons c cs =>
      exfalso
      obtain ⟨center, scale, v, hcs, hp, -⟩ := k2 0 c rfl
      simp only [List.take_zero, List.map_nil] at hcs
      have e : ((rest [a * -1 + 0 - (a * 1 + 0), a * 1 + 0 - (a * 1 + 0), a * -1 + 0 - (a * 1 + 0),
          a * 1 + 0 - (a * 1 + 0), a * 100 + 0 - (a * 1 + 0)] []).map Prod.fst)
          = ([-1 - 1, 1 - 1, -1 - 1, 1 - 1, 100 - 1] : List ℝ).map fun x => a * x := by
        rw [Sesd.rest_nil]
        simp
        constructor <;> ring
      rw [e] at hcs
      obtain ⟨-, rfl⟩ := centerScale_scaled (hybrid := false) ha0
        (c := Grubbs.mean [-1 - 1, 1 - 1, -1 - 1, 1 - 1, 100 - 1]) (s := σ) ⟨rfl, rfl⟩ hcs
      have : a * σ ≤ 1 / 10 ^ 10 := by
        rw [ha, one_div_mul_eq_div, div_le_div_iff₀ (by positivity) (by positivity)]
        nlinarith
      linarith
  subst hnil
  obtain rfl : reported = [] := List.prefix_nil.1 l1
  rcases hcase with ⟨c, hc, -⟩ | ⟨-, h00⟩
  · cases hc
  · rw [hs'] at h00
    exact hpos.ne' h00

/-- The hypotheses of the partial theorems are met, for example by a decomposition that takes the
difference from the first value for the seasonal component. -/
example (a b : ℝ) : SameSeasons a b (fun l => .ok (l.map fun x => x - l.headD 0))
    (fun l => .ok (l.map fun x => x - l.headD 0)) := by
  intro l
  cases l with
  | nil => rfl
  | cons y l =>
    simp only [Except.map, List.map_map, List.map_cons, List.headD_cons]
    congr 2
    · ring
    · apply List.map_congr_left
      intro x _
      simp only [Function.comp]
      ring

end Pysad
