import Verif.Props.DirectionMore
import Verif.Props.Robust
import Verif.Props.Statistics

/-! C145: does fitting an instance make it look more familiar? -/

namespace Pysad

open Spec

/-- Fitting an instance does not raise the score of that instance: `val` says how a score is
returned, `p` which histories and instances are considered. -/
def Spec.GrowsFamiliar {σ α β S K : Type*} [LE K] (d : Detector σ α β S) (s0 : σ) (val : K → S)
    (p : List α → α → Prop) : Prop :=
  ∀ (cs : List (Call α β)) (x : α) (y : Option β), p (fitted cs) x →
    ∃ before after : K,
      (call d (calls d s0 cs).2 (.score x)).1 = .value (val before) ∧
      (call d (calls d s0 (cs ++ [.fit x y])).2 (.score x)).1 = .value (val after) ∧
      after ≤ before

theorem fitted_snoc_fit {α β : Type*} (cs : List (Call α β)) (x : α) (y : Option β) :
    fitted (cs ++ [.fit x y]) = fitted cs ++ [x] := by
  rw [fitted_append]; rfl

theorem call_score_value {σ α β S : Type*} {d : Detector σ α β S} {s : σ} {x : α} {v : S}
    (h : (d.scorePartial s x).out = .ok v) : (call d s (.score x : Call α β)).1 = .value v := by
  unfold call
  cases hr : d.scorePartial s x with
  | ok a s' => rw [hr] at h; simp only [Res.out_ok, Except.ok.injEq] at h; simp only [hr, h]
  | err e s' => rw [hr] at h; simp at h

theorem value_of_call_score {σ α β S : Type*} {d : Detector σ α β S} {s : σ} {x : α} {v w : S}
    (h : (d.scorePartial s x).out = .ok v)
    (h' : (call d s (.score x : Call α β)).1 = .value w) : v = w := by
  have := (call_score_value (β := β) h).symm.trans h'
  simpa using this

/-! ### `HalfSpaceTrees` -/

section
variable {β K : Type*} [Field K] [LinearOrder K] [IsStrictOrderedRing K]

/-- **C145 (partial), HalfSpaceTrees.** In the first window, and unless the fit completes a window,
fitting an instance does not raise its score. -/
theorem C145_hst_partial {G : Type*} (randint : G → ℕ → ℕ × G) (hr : InRange randint)
    (mins maxes : List K) (hd : 1 ≤ maxes.length) (w n D : ℕ) (hw : 1 ≤ w) (g : G) (s0 : HstState K)
    (h0 : Hst.new randint mins maxes w n D g = .ok s0) :
    GrowsFamiliar (Hst.detector K β) s0 id fun X x =>
      (∀ z ∈ X ++ [x], z.length = maxes.length) ∧ (X.length < w ∨ (X.length + 1) % w ≠ 0) := by
  rintro cs x y ⟨hl, hX⟩
  have hx : x.length = maxes.length := hl x (by simp)
  have e1 := C53_hst_score (β := β) randint hr mins maxes hd w n D hw g s0 h0 cs
    (fun z hz => hl z (by simp [hz])) x hx
  have e2 := C53_hst_score (β := β) randint hr mins maxes hd w n D hw g s0 h0 (cs ++ [.fit x y])
    (by rw [fitted_snoc_fit]; exact hl) x hx
  refine ⟨_, _, call_score_value e1, call_score_value e2, ?_⟩
  apply neg_le_neg
  apply List.sum_le_sum
  intro t _
  apply sum_range_weighted_le
  intro j _
  rw [fitted_snoc_fit]
  unfold neighbours
  by_cases h1 : (fitted cs).length < w
  · have a := (window_first w (fitted cs) h1).1
    have b : referenceWindow w (fitted cs ++ [x]) = fitted cs ++ [x] := by
      by_cases h2 : (fitted cs ++ [x]).length < w
      · exact (window_first w _ h2).1
      · have hc : ((fitted cs).length + 1) % w = 0 := by
          rw [List.length_append, List.length_singleton] at h2
          have : (fitted cs).length + 1 = w := by omega
          rw [this, Nat.mod_self]
        rw [(window_complete w hw _ x hc).1, (window_first w _ h1).2]
    rw [a, b, List.countP_append]
    exact Nat.le_add_right _ _
  · rw [(window_inside w hw _ x (hX.resolve_left h1) (by omega)).1]

end
/-- The statement for HalfSpaceTrees: at all times. -/
def C145_hst_statement : Prop :=
  ∀ (randint : Unit → ℕ → ℕ × Unit), InRange randint → ∀ (mins maxes : List ℚ), 1 ≤ maxes.length →
    ∀ (w n D : ℕ), 1 ≤ w → ∀ s0, Hst.new randint mins maxes w n D () = .ok s0 →
    GrowsFamiliar (Hst.detector ℚ Unit) s0 id fun X x => ∀ z ∈ X ++ [x], z.length = maxes.length

/-- **C145 (refuted), HalfSpaceTrees.** The fit that completes a window replaces the window the
instance was frequent in. One feature in `[0, 8]`, one tree of depth 1, windows of two: after 1, 1
and 6, the instance 1 has a higher score once it has been fitted again. -/
theorem C145_hst_refuted : ¬ C145_hst_statement := by
  intro h
  obtain ⟨s0, hs⟩ : ∃ s0 : HstState ℚ,
      Hst.new (fun (g : Unit) _ => (0, g)) [0] [8] 2 1 1 () = .ok s0 := ⟨_, rfl⟩
  have hs0 : s0 = ⟨2, 1, [.node (.node .nil .nil 0 0 0 0 1) (.node .nil .nil 0 0 0 0 1) 0 0 0 4 0],
      true, 0⟩ := by
    have : (Except.ok s0 : Except PyErr (HstState ℚ)) = .ok ⟨2, 1,
      [.node (.node .nil .nil 0 0 0 0 1) (.node .nil .nil 0 0 0 0 1) 0 0 0 4 0], true, 0⟩ := by
      rw [← hs]; decide +kernel
    exact Except.ok.inj this
  obtain ⟨v, w, h1, h2, h3⟩ := h (fun g _ => (0, g)) (fun _ n hn => hn) [0] [8] (by decide) 2 1 1
    (by decide) s0 hs [.fit [1] none, .fit [1] none, .fit [6] none] [1] none (by decide)
  subst hs0
  have e1 : (call (Hst.detector ℚ Unit) (calls (Hst.detector ℚ Unit) (⟨2, 1,
      [.node (.node .nil .nil 0 0 0 0 1) (.node .nil .nil 0 0 0 0 1) 0 0 0 4 0], true, 0⟩)
      [.fit [1] none, .fit [1] none, .fit [6] none]).2 (.score [1])).1 = .value (-6) := by
    decide +kernel
  have e2 : (call (Hst.detector ℚ Unit) (calls (Hst.detector ℚ Unit) (⟨2, 1,
      [.node (.node .nil .nil 0 0 0 0 1) (.node .nil .nil 0 0 0 0 1) 0 0 0 4 0], true, 0⟩)
      ([.fit [1] none, .fit [1] none, .fit [6] none] ++ [.fit [1] none])).2 (.score [1])).1 =
      .value (-4) := by
    decide +kernel
  rw [e1] at h1
  rw [e2] at h2
  simp only [Answer.value.injEq, id] at h1 h2
  subst h1 h2
  norm_num at h3

/-! ### xStream -/

section
variable {β : Type*} {k : ℕ}

theorem chainScore_fit_le (W : ℕ) (hW : 1 ≤ W) (fs : List (Fin k)) (r : Fin k → ℝ)
    (xs : List (Fin k → ℝ)) (z : Fin k → ℝ) (hX : (xs.length + 1) % W ≠ 0) :
    chainScore npLog2 W fs r (xs ++ [z]) z ≤ chainScore npLog2 W fs r xs z := by
  have hdiv : (xs ++ [z]).length / W = xs.length / W := by
    rw [List.length_append, List.length_singleton, Nat.succ_div_of_not_dvd]
    exact fun hdv => hX (Nat.mod_eq_zero_of_dvd hdv)
  have hle := Nat.mul_div_le xs.length W
  have hcur : currentWidth W (xs ++ [z]) = currentWidth W xs := by
    unfold currentWidth
    rw [hdiv]
    exact XStream.widthAt_snoc W xs z _ hle
  have hcmp : comparedWidth W (xs ++ [z]) = comparedWidth W xs := by
    unfold comparedWidth
    rw [hdiv]
    exact XStream.widthAt_snoc W xs z _ ((Nat.mul_le_mul_left W (Nat.sub_le _ _)).trans hle)
  have hcount : ∀ d < fs.length, foundCount W fs r xs z d ≤
      foundCount W fs r (xs ++ [z]) z d := by
    intro d _
    unfold foundCount
    rw [hcur, hcmp]
    unfold binCount comparedWindow
    by_cases h1 : xs.length < W
    · have h2 : (xs ++ [z]).length < W := by
        rw [List.length_append, List.length_singleton]
        by_contra hc
        have : xs.length + 1 = W := by omega
        exact hX (by rw [this, Nat.mod_self])
      rw [if_pos h1, if_pos h2, List.countP_append]
      exact Nat.le_add_right _ _
    · have h2 : ¬ (xs ++ [z]).length < W := by
        rw [List.length_append]; omega
      have h3 : 1 ≤ xs.length / W := (Nat.one_le_div_iff hW).2 (by omega)
      rw [if_neg h1, if_neg h2, hdiv, XStream.windowAt_snoc]
      rw [Nat.sub_add_cancel h3]; exact hle
  unfold chainScore
  apply neg_le_neg
  by_cases hfs : fs = []
  · simp [hfs]
  apply le_min?_getD
  · intro hnil
    have := congrArg List.length hnil
    simp only [List.length_map, List.length_range, List.length_nil] at this
    exact hfs (List.length_eq_zero_iff.1 this)
  · intro a ha
    obtain ⟨d, hd, rfl⟩ := List.mem_map.1 ha
    refine (min?_getD_le (K := ℝ) (List.mem_map_of_mem (f := fun d : ℕ =>
      npLog2 (1 + (foundCount W fs r xs z d : ℝ)) + ((d : ℝ) + 1)) hd)).trans ?_
    have := npLog2_mono (hcount d (List.mem_range.1 hd))
    linarith

/-- **C145 (partial), xStream.** Unless the fit completes a window, fitting an instance does not
raise its score. -/
theorem C145_xstream_partial (mmh3 : String → ℕ → ℕ) (p : StreamhashState ℝ)
    (W : ℕ) (hW : 1 ≤ W) (draws : List (XsDraw ℝ k)) (hd : draws ≠ [])
    (hfs : ∀ draw ∈ draws, draw.fs ≠ []) :
    GrowsFamiliar (β := β) (XStream.detector (k := k) mmh3 npLog2) (XStream.new p W draws) .fin
      fun X _ => (X.length + 1) % W ≠ 0 := by
  intro cs x y hX
  have himg : (XStream.images mmh3 p (cs ++ [.fit x y]) : List (Fin k → ℝ)) =
      XStream.images mmh3 p cs ++ [XStream.project mmh3 p x] := by
    simp [XStream.images, fitted_snoc_fit]
  have hlen : (XStream.images mmh3 p cs : List (Fin k → ℝ)).length = (fitted cs).length := by
    simp [XStream.images]
  have e1 := C77_xstream_score mmh3 npLog2 p W hW draws hd hfs cs x
  have e2 := C77_xstream_score mmh3 npLog2 p W hW draws hd hfs (cs ++ [.fit x y]) x
  rw [himg] at e2
  refine ⟨_, _, e1, e2, ?_⟩
  apply div_le_div_of_nonneg_right _ (by positivity)
  apply List.sum_le_sum
  intro draw _
  exact chainScore_fit_le W hW _ _ _ _ (hlen ▸ hX)

end

/-- The statement for xStream: at all times. -/
def C145_xstream_statement : Prop :=
  ∀ (k : ℕ) (mmh3 : String → ℕ → ℕ) (p : StreamhashState ℝ) (W : ℕ) (draws : List (XsDraw ℝ k)),
    Streamhash.new Real.sqrt k (1 / 3) = .ok p → 1 ≤ W → draws ≠ [] →
    (∀ draw ∈ draws, draw.fs ≠ [] ∧ ∀ f, 0 ≤ draw.randArr f ∧ draw.randArr f < 1) →
    GrowsFamiliar (β := Unit) (XStream.detector (k := k) mmh3 npLog2) (XStream.new p W draws) .fin
      fun _ _ => True

theorem chainScore_singleton (W : ℕ) (f : Fin 1) (r : Fin 1 → ℝ) (xs : List (Fin 1 → ℝ))
    (x : Fin 1 → ℝ) : chainScore npLog2 W [f] r xs x =
      -(npLog2 (1 + (foundCount W [f] r xs x 0 : ℝ)) + 1) := by
  simp [chainScore]

/-- **C145 (refuted), xStream.** The fit that completes a window replaces the window the instance
was frequent in. -/
theorem C145_xstream_refuted : ¬ C145_xstream_statement := by
  intro hall
  let p : StreamhashState ℝ := ⟨1, Real.sqrt (1 / (1 / 3)) / Real.sqrt (1 : ℕ), 1 / 3⟩
  let y : ℝ := -(1 / Real.sqrt 3)
  let draws : List (XsDraw ℝ 1) := [⟨[0], fun _ => 0⟩]
  have hh : ((0 : ℕ) : ℝ) / (2 ^ 32 - 1) ≤ 1 / 3 / 2 := by norm_num
  have hproj : ∀ a : ℝ, (XStream.project (fun _ _ => 0) p [a] : Fin 1 → ℝ) =
      fun _ => -(a * Real.sqrt 3) := by
    intro a
    funext i
    simp only [XStream.project, p, Streamhash.hashString, List.length_singleton, List.range_one,
      List.map_cons, List.map_nil, List.zipWith_cons_cons, List.zipWith_nil_left, List.sum_cons,
      List.sum_nil, if_pos hh]
    rw [show (1 / (1 / 3) : ℝ) = 3 by norm_num, Nat.cast_one, Real.sqrt_one]
    field_simp
    ring
  have hy : (XStream.project (fun _ _ => 0) p [y] : Fin 1 → ℝ) = fun _ => 1 := by
    have h3 : Real.sqrt 3 ≠ 0 := by norm_num
    rw [hproj]; funext i; simp only [y]; field_simp
  have h0 : (XStream.project (fun _ _ => 0) p [0] : Fin 1 → ℝ) = fun _ => 0 := by
    rw [hproj]; funext i; simp
  have e1 := C77_xstream_score (β := Unit) (fun _ _ => 0) npLog2 p 2 (by norm_num) draws
    (by simp [draws]) (by simp [draws]) [.fit [0] none, .fit [0] none, .fit [y] none] [0]
  have e2 := C77_xstream_score (β := Unit) (fun _ _ => 0) npLog2 p 2 (by norm_num) draws
    (by simp [draws]) (by simp [draws])
    ([.fit [0] none, .fit [0] none, .fit [y] none] ++ [.fit [0] none]) [0]
  obtain ⟨v, w, h1, h2, h3⟩ := hall 1 (fun _ _ => 0) p 2 draws
    (by norm_num [Streamhash.new, p]) (by norm_num) (by simp [draws])
    (by simp [draws]) [.fit [0] none, .fit [0] none, .fit [y] none] [0] none trivial
  rw [e1] at h1
  rw [e2] at h2
  have i1 : (XStream.images (fun _ _ => 0) p ([.fit [0] none, .fit [0] none, .fit [y] none] :
      List (Call (List ℝ) Unit)) : List (Fin 1 → ℝ)) = [fun _ => 0, fun _ => 0, fun _ => 1] := by
    simp [XStream.images, fitted, hy, h0]
  have i2 : (XStream.images (fun _ _ => 0) p ([.fit [0] none, .fit [0] none, .fit [y] none] ++
      [.fit [0] none] : List (Call (List ℝ) Unit)) : List (Fin 1 → ℝ)) =
      [fun _ => 0, fun _ => 0, fun _ => 1, fun _ => 0] := by
    simp [XStream.images, fitted, hy, h0]
  rw [i1, h0] at h1
  rw [i2, h0] at h2
  have c1 : foundCount 2 [(0 : Fin 1)] (fun _ => (0 : ℝ)) [fun _ => 0, fun _ => 0, fun _ => 1]
      (fun _ => 0) 0 = 2 := by
    simp only [foundCount, binCount, comparedWindow, windowAt]
    rw [List.countP_eq_length.2]
    · simp
    · intro z hz
      have : z = fun _ => 0 := by simpa using hz
      subst this
      rw [decide_eq_true_eq]
      funext f
      simp [halfSpaceBin]
  have c2 : foundCount 2 [(0 : Fin 1)] (fun _ => (0 : ℝ))
      [fun _ => 0, fun _ => 0, fun _ => 1, fun _ => 0] (fun _ => 0) 0 = 1 := by
    simp [foundCount, binCount, comparedWindow, windowAt, halfSpaceBin, comparedWidth, widthAt,
      binWidth, funext_iff]
  simp only [draws, List.map_cons, List.map_nil, chainScore_singleton, c1, c2, List.sum_cons,
    List.sum_nil, List.length_singleton, Answer.value.injEq, Num.fin.injEq] at h1 h2
  have : npLog2 (1 + ((1 : ℕ) : ℝ)) < npLog2 (1 + ((2 : ℕ) : ℝ)) := by
    unfold npLog2
    exact Real.logb_lt_logb (by norm_num) (by norm_num) (by norm_num)
  rw [← h1, ← h2] at h3
  norm_num at h3 this
  linarith

/-! ### The deviation detectors -/

section
variable {K : Type*} [Field K] [LinearOrder K] [IsStrictOrderedRing K]

/-- Adding a value moves the median towards it, not beyond it. -/
theorem medianOf_cons_toward {m : Multiset K} {x r r' : K} (h : medianOf m = some r)
    (h' : medianOf (x ::ₘ m) = some r') : (r ≤ x → r ≤ r' ∧ r' ≤ x) ∧ (x ≤ r → x ≤ r' ∧ r' ≤ r) := by
  obtain ⟨h1, h2⟩ := C09_median_halves m r h
  rw [← Multiset.countP_eq_card_filter] at h1 h2
  have up : ∀ c, c ≤ x → c ≤ r → c ≤ r' := by
    intro c hx hr
    refine le_medianOf_of_mostly ?_ h'
    unfold Mostly
    rw [Multiset.card_cons, Multiset.countP_cons_of_pos (p := fun y => c ≤ y) _ hx]
    have : m.countP (r ≤ ·) ≤ m.countP (c ≤ ·) := by
      rw [Multiset.countP_eq_card_filter, Multiset.countP_eq_card_filter]
      exact Multiset.card_le_card (Multiset.monotone_filter_right m fun y hy => hr.trans hy)
    omega
  have down : ∀ c, x ≤ c → r ≤ c → r' ≤ c := by
    intro c hx hr
    refine medianOf_le_of_mostly ?_ h'
    unfold Mostly
    rw [Multiset.card_cons, Multiset.countP_cons_of_pos (p := fun y => y ≤ c) _ hx]
    have : m.countP (· ≤ r) ≤ m.countP (· ≤ c) := by
      rw [Multiset.countP_eq_card_filter, Multiset.countP_eq_card_filter]
      exact Multiset.card_le_card (Multiset.monotone_filter_right m fun y hy => le_trans hy hr)
    omega
  exact ⟨fun hx => ⟨up r hx le_rfl, down x le_rfl hx⟩, fun hx => ⟨up x le_rfl hx, down r hx le_rfl⟩⟩

theorem abs_sub_median_cons_le {m : Multiset K} {x r r' : K} (h : medianOf m = some r)
    (h' : medianOf (x ::ₘ m) = some r') : |x - r'| ≤ |x - r| := by
  obtain ⟨a, b⟩ := medianOf_cons_toward h h'
  rcases le_total r x with hx | hx
  · obtain ⟨h1, h2⟩ := a hx
    rw [abs_of_nonneg (by linarith), abs_of_nonneg (by linarith)]; linarith
  · obtain ⟨h1, h2⟩ := b hx
    rw [abs_of_nonpos (by linarith), abs_of_nonpos (by linarith)]; linarith

theorem runningDeviations_snoc_eq {xs ds ds' : List K} {x m : K} (h : RunningDeviations xs ds)
    (h' : RunningDeviations (xs ++ [x]) ds')
    (hm : medianOf ((xs ++ [x] : List K) : Multiset K) = some m) : ds' = ds ++ [|x - m|] := by
  refine runningDeviations_unique h' ⟨by simp [h.1], fun i y hy => ?_⟩
  rcases lt_or_ge i xs.length with hi | hi
  · rw [List.getElem?_append_left hi] at hy
    obtain ⟨q, h1, h2⟩ := h.2 i y hy
    refine ⟨q, ?_, ?_⟩
    · rw [List.take_append_of_le_length (by omega)]; exact h1
    · rw [List.getElem?_append_left (by rw [h.1]; exact hi)]; exact h2
  · have hi' : i = xs.length := by
      have := (List.getElem?_eq_some_iff.1 hy).1
      rw [List.length_append, List.length_singleton] at this
      omega
    subst hi'
    have : y = x := by simpa using hy.symm
    subst this
    refine ⟨m, ?_, ?_⟩
    · rw [List.take_of_length_le (by simp)]; exact hm
    · rw [← h.1]; simp

end

theorem univariate_snoc_fit {K β : Type*} [Field K] [LinearOrder K] (cs : List (Call (List K) β))
    (x : K) (y : Option β) :
    univariate (fitted (cs ++ [.fit [x] y])) = univariate (fitted cs) ++ [x] := by
  rw [fitted_snoc_fit, univariate_append]; rfl

/-- The statement for MedianAbsoluteDeviation: once some value has been fitted. -/
def C145_mad_statement : Prop :=
  ∀ b : ℚ, 0 < b → GrowsFamiliar (β := Unit) medianAbsoluteDeviation (MadState.new true b)
    (fun v => [.fin v]) fun X x => univariate X ≠ [] ∧ x.length = 1

/-- **C145 (refuted), MedianAbsoluteDeviation.** An instance closer to the median than the median
distance pulls the median distance down. -/
theorem C145_mad_refuted : ¬ C145_mad_statement := by
  intro h
  obtain ⟨v, w, h1, h2, h3⟩ := h 1 one_pos [.fit [0] none, .fit [10] none, .fit [0] none,
    .fit [-10] none] [1] none (by decide)
  have e1 : (call (medianAbsoluteDeviation (K := ℚ) (β := Unit))
      (calls (medianAbsoluteDeviation (β := Unit))
      (MadState.new true 1) [.fit [0] none, .fit [10] none, .fit [0] none, .fit [-10] none]).2
      (.score [1])).1 = .value [.fin (1 / (5 / 2 + 1 / 10 ^ 10))] := by decide +kernel
  have e2 : (call (medianAbsoluteDeviation (K := ℚ) (β := Unit))
      (calls (medianAbsoluteDeviation (β := Unit))
      (MadState.new true 1) ([.fit [0] none, .fit [10] none, .fit [0] none, .fit [-10] none] ++
      [.fit [1] none])).2 (.score [1])).1 = .value [.fin (1 / (1 + 1 / 10 ^ 10))] := by
    decide +kernel
  rw [e1] at h1
  rw [e2] at h2
  simp only [Answer.value.injEq, List.cons.injEq, Num.fin.injEq, and_true] at h1 h2
  rw [← h1, ← h2] at h3
  norm_num at h3

/-- **C145 (partial), MedianAbsoluteDeviation.** The score does not rise if, after the fit, the
distance of the instance to the median is at least the median distance of before. -/
theorem C145_mad_partial {K β : Type*} [Field K] [LinearOrder K] [IsStrictOrderedRing K] (b : K)
    (hb : 0 ≤ b) : GrowsFamiliar (β := β) medianAbsoluteDeviation (MadState.new true b)
      (fun v => [.fin v]) fun X x => univariate X ≠ [] ∧ ∃ v m ds mad, x = [v] ∧
        medianOf ((univariate X ++ [v] : List K) : Multiset K) = some m ∧
        RunningDeviations (univariate X) ds ∧ medianOf (ds : Multiset K) = some mad ∧
        mad ≤ |v - m| := by
  rintro cs _ y ⟨hne, x, r', ds, mad, rfl, hr', hds, hmad, hle⟩
  obtain ⟨m, ds0, mad0, e1, e2, e3, e4⟩ := C67_mad_score (β := β) b hb true cs hne [x]
  obtain rfl := runningDeviations_unique e2 hds
  obtain rfl : mad0 = mad := Option.some.inj (e3.symm.trans hmad)
  obtain ⟨m', ds', mad', e1', e2', e3', e4'⟩ := C67_mad_score (β := β) b hb true
    (cs ++ [.fit [x] y]) (by rw [univariate_snoc_fit]; simp) [x]
  rw [univariate_snoc_fit] at e1' e2'
  obtain rfl : m' = r' := Option.some.inj (e1'.symm.trans hr')
  obtain rfl := runningDeviations_snoc_eq e2 e2' e1'
  rw [coe_snoc] at e1' e3'
  have h1 := abs_sub_median_cons_le e1 e1'
  have h2 := ((medianOf_cons_toward e3 e3').1 hle).1
  have h0 : 0 ≤ mad0 := by
    refine medianOf_nonneg e3 fun z hz => ?_
    obtain ⟨i, hi, rfl⟩ := List.mem_iff_getElem.1 (show z ∈ ds0 by simpa using hz)
    have hi' : i < (univariate (fitted cs)).length := e2.1 ▸ hi
    obtain ⟨q, -, h⟩ := e2.2 i _ (List.getElem?_eq_getElem hi')
    rw [List.getElem?_eq_getElem hi] at h
    rw [Option.some.inj h]
    exact abs_nonneg _
  simp only [if_true, List.map_cons, List.map_nil] at e4 e4'
  refine ⟨_, _, call_score_value e4, call_score_value e4', ?_⟩
  have hp : 0 < b * mad0 + 1 / 10 ^ 10 := by positivity
  have hp' : b * mad0 + 1 / 10 ^ 10 ≤ b * mad' + 1 / 10 ^ 10 := by
    have := mul_le_mul_of_nonneg_left h2 hb
    linarith
  rw [abs_div, abs_div, abs_of_pos hp, abs_of_pos (hp.trans_le hp')]
  exact div_le_div₀ (abs_nonneg _) h1 hp hp'

section
variable {β : Type*}

theorem varianceOf_cons {m : Multiset ℝ} (hm : m ≠ 0) (x : ℝ) :
    varianceOf (x ::ₘ m) = (m.card : ℝ) / (m.card + 1) * varianceOf m +
      m.card * (x - meanOf m) ^ 2 / (m.card + 1) ^ 2 := by
  have hc := card_pos_of_ne (K := ℝ) hm
  rw [variance_formula (by simp), variance_formula hm, meanOf, Multiset.card_cons,
    Multiset.map_cons, Multiset.sum_cons, Multiset.sum_cons]
  push_cast
  field_simp
  ring

theorem sub_meanOf_cons {m : Multiset ℝ} (hm : m ≠ 0) (x : ℝ) :
    x - meanOf (x ::ₘ m) = (m.card : ℝ) / (m.card + 1) * (x - meanOf m) := by
  have hc := card_pos_of_ne (K := ℝ) hm
  rw [meanOf, meanOf, Multiset.card_cons, Multiset.sum_cons]
  push_cast
  field_simp
  ring

/-- **C145, StandardAbsoluteDeviation with the mean.** Fitting an instance does not raise its
score. -/
theorem C145_sad_mean : GrowsFamiliar (β := β) (standardAbsoluteDeviation Real.sqrt (averageMeter ℝ))
    (SadState.new (averageMeter ℝ) true) (fun v => [.fin v])
    fun X x => univariate X ≠ [] ∧ x.length = 1 := by
  rintro cs x' y ⟨hne, hx⟩
  obtain ⟨x, rfl⟩ := List.length_eq_one_iff.1 hx
  have e1 := C68_sad_mean (β := β) true cs hne [x]
  have e2 := C68_sad_mean (β := β) true (cs ++ [.fit [x] y]) (by rw [univariate_snoc_fit]; simp) [x]
  rw [univariate_snoc_fit, coe_snoc] at e2
  simp only [if_true, List.map_cons, List.map_nil] at e1 e2
  refine ⟨_, _, call_score_value e1, call_score_value e2, ?_⟩
  have hm : ((univariate (fitted cs) : List ℝ) : Multiset ℝ) ≠ 0 := by simpa using hne
  generalize ((univariate (fitted cs) : List ℝ) : Multiset ℝ) = m at *
  have hc := card_pos_of_ne (K := ℝ) hm
  set q : ℝ := (m.card : ℝ) / (m.card + 1) with hq
  have hq0 : 0 < q := by positivity
  have hq1 : q < 1 := by rw [hq, div_lt_one (by positivity)]; linarith
  have hs : q * √(varianceOf m) ≤ √(varianceOf (x ::ₘ m)) := by
    apply Real.le_sqrt_of_sq_le
    rw [mul_pow, Real.sq_sqrt (varianceOf_nonneg m), varianceOf_cons hm, ← hq]
    have h1 : q ^ 2 * varianceOf m ≤ q * varianceOf m := by
      apply mul_le_mul_of_nonneg_right _ (varianceOf_nonneg m)
      nlinarith
    have h2 : 0 ≤ (m.card : ℝ) * (x - meanOf m) ^ 2 / (m.card + 1) ^ 2 := by positivity
    linarith
  rw [sub_meanOf_cons hm, ← hq, abs_div, abs_div, abs_mul, abs_of_pos hq0]
  have hp : 0 < √(varianceOf m) + 1 / 10 ^ 10 := by positivity
  have hp' : 0 < √(varianceOf (x ::ₘ m)) + 1 / 10 ^ 10 := by positivity
  rw [abs_of_pos hp, abs_of_pos hp', div_le_div_iff₀ hp' hp]
  have : q * (√(varianceOf m) + 1 / 10 ^ 10) ≤ √(varianceOf (x ::ₘ m)) + 1 / 10 ^ 10 := by
    linarith
  calc q * |x - meanOf m| * (√(varianceOf m) + 1 / 10 ^ 10)
      = |x - meanOf m| * (q * (√(varianceOf m) + 1 / 10 ^ 10)) := by ring
    _ ≤ _ := mul_le_mul_of_nonneg_left this (abs_nonneg _)

/-- The statement for StandardAbsoluteDeviation with the median. -/
def C145_sad_median_statement : Prop :=
  GrowsFamiliar (β := Unit) (standardAbsoluteDeviation Real.sqrt (medianMeter ℝ))
    (SadState.new (medianMeter ℝ) true) (fun v => [.fin v])
    fun X x => univariate X ≠ [] ∧ x.length = 1

/-- **C145 (refuted), StandardAbsoluteDeviation with the median.** After 0, 0, 0, 4 the instance 1,
at the mean, reduces the variance and leaves the median where it is. -/
theorem C145_sad_median_refuted : ¬ C145_sad_median_statement := by
  intro h
  obtain ⟨v, w, h1, h2, h3⟩ := h [.fit [0] none, .fit [0] none, .fit [0] none, .fit [4] none] [1]
    none (by simp [univariate, fitted])
  have u1 : univariate (fitted [(Call.fit [0] none : Call (List ℝ) Unit), .fit [0] none,
      .fit [0] none, .fit [4] none]) = [0, 0, 0, 4] := rfl
  have u2 : univariate (fitted ([(Call.fit [0] none : Call (List ℝ) Unit), .fit [0] none,
      .fit [0] none, .fit [4] none] ++ [.fit [1] none])) = [0, 0, 0, 4, 1] := rfl
  obtain ⟨m, a1, a2⟩ := C68_sad_median (β := Unit) true [.fit [0] none, .fit [0] none,
    .fit [0] none, .fit [4] none] (by rw [u1]; simp) [1]
  obtain ⟨m', b1, b2⟩ := C68_sad_median (β := Unit) true ([.fit [0] none, .fit [0] none,
    .fit [0] none, .fit [4] none] ++ [.fit [1] none]) (by rw [u2]; simp) [1]
  rw [u1] at a1 a2
  rw [u2] at b1 b2
  have hm : m = 0 := by
    have := medianOf_mostlyWithin (lo := 0) (hi := 0) (by
      simp only [MostlyWithin, Mostly, Multiset.coe_card, Multiset.coe_countP, List.countP_cons,
        List.countP_nil, List.length_cons, List.length_nil]
      norm_num) a1
    linarith [this.1, this.2]
  have hm' : m' = 0 := by
    have := medianOf_mostlyWithin (lo := 0) (hi := 0) (by
      simp only [MostlyWithin, Mostly, Multiset.coe_card, Multiset.coe_countP, List.countP_cons,
        List.countP_nil, List.length_cons, List.length_nil]
      norm_num) b1
    linarith [this.1, this.2]
  have v1 : varianceOf (([0, 0, 0, 4] : List ℝ) : Multiset ℝ) = 3 := by
    rw [variance_formula (by simp)]
    simp only [Multiset.map_coe, Multiset.sum_coe, Multiset.coe_card]
    norm_num
  have v2 : varianceOf (([0, 0, 0, 4, 1] : List ℝ) : Multiset ℝ) = 12 / 5 := by
    rw [variance_formula (by simp)]
    simp only [Multiset.map_coe, Multiset.sum_coe, Multiset.coe_card]
    norm_num
  have f1 := value_of_call_score a2 h1
  have f2 := value_of_call_score b2 h2
  simp only [hm, hm', v1, v2, if_true, List.map_cons, List.map_nil, List.cons.injEq, Num.fin.injEq,
    and_true] at f1 f2
  rw [← f1, ← f2, sub_zero, abs_of_pos (by positivity), abs_of_pos (by positivity),
    div_le_div_iff_of_pos_left one_pos (by positivity) (by positivity)] at h3
  have : √(12 / 5 : ℝ) < √3 := Real.sqrt_lt_sqrt (by norm_num) (by norm_num)
  linarith

/-- **C145 (partial), StandardAbsoluteDeviation with the median.** The score does not rise if the
fit does not reduce the variance. -/
theorem C145_sad_median_partial :
    GrowsFamiliar (β := β) (standardAbsoluteDeviation Real.sqrt (medianMeter ℝ))
      (SadState.new (medianMeter ℝ) true) (fun v => [.fin v])
      fun X x => univariate X ≠ [] ∧ ∃ v, x = [v] ∧ varianceOf (K := ℝ) (univariate X) ≤
        varianceOf (K := ℝ) (univariate X ++ [v] : List ℝ) := by
  rintro cs _ y ⟨hne, x, rfl, hv⟩
  obtain ⟨m, a1, a2⟩ := C68_sad_median (β := β) true cs hne [x]
  obtain ⟨m', b1, b2⟩ := C68_sad_median (β := β) true (cs ++ [.fit [x] y])
    (by rw [univariate_snoc_fit]; simp) [x]
  rw [univariate_snoc_fit] at b1 b2
  simp only [if_true, List.map_cons, List.map_nil] at a2 b2
  refine ⟨_, _, call_score_value a2, call_score_value b2, ?_⟩
  rw [coe_snoc] at b1
  have h1 := abs_sub_median_cons_le a1 b1
  have hp : 0 < √(varianceOf (K := ℝ) (univariate (fitted cs))) + 1 / 10 ^ 10 := by positivity
  have hp' := Real.sqrt_le_sqrt hv
  have hq : 0 < √(varianceOf (K := ℝ) (univariate (fitted cs) ++ [x] : List ℝ)) + 1 / 10 ^ 10 := by
    positivity
  rw [abs_div, abs_div, abs_of_pos hp, abs_of_pos hq]
  exact div_le_div₀ (abs_nonneg _) h1 hp (by linarith)

end

/-- In the first window of `HalfSpaceTrees` the score falls: one feature in `[0, 8]`, a window of
two. -/
example : ∃ s0 : HstState ℚ, Hst.new (fun (g : Unit) _ => (0, g)) [0] [8] 2 1 1 () = .ok s0 ∧
    (calls (Hst.detector ℚ Unit) s0 [.score [3], .fit [3] none, .score [3]]).1 =
      [.value 0, .done, .value (-3)] := ⟨_, rfl, by decide +kernel⟩

/-- An instance far from the median: after 0, 10, 0, -10 the median distance is 5/2, and the
instance 20 lies at distance 20 from the median. -/
example : (calls (medianAbsoluteDeviation (K := ℚ) (β := Unit)) (MadState.new true 1)
    [.fit [0] none, .fit [10] none, .fit [0] none, .fit [-10] none, .score [20], .fit [20] none,
      .score [20]]).1 = [.done, .done, .done, .done, .value [.fin (20 / (5 / 2 + 1 / 10 ^ 10))],
      .done, .value [.fin (20 / (5 + 1 / 10 ^ 10))]] := by decide +kernel

end Pysad
