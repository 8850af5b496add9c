import Verif.Props.ReadOnly

/-! C104: in which detectors a more isolated instance gets a higher score. -/

namespace Pysad

open Spec

/-! ### `HalfSpaceTrees` -/

section
variable {β K : Type*} [Field K] [LinearOrder K] [IsStrictOrderedRing K]

theorem sum_range_weighted_le (D : ℕ) (m n : ℕ → ℕ) (h : ∀ j ≤ D, m j ≤ n j) :
    ((List.range (D + 1)).map fun j => (m j : K) * 2 ^ j).sum ≤
      ((List.range (D + 1)).map fun j => (n j : K) * 2 ^ j).sum := by
  apply List.sum_le_sum
  intro j hj
  have : (m j : K) ≤ n j := Nat.cast_le.2 (h j (by rw [List.mem_range] at hj; omega))
  exact mul_le_mul_of_nonneg_right this (by positivity)

/-- **C104.** HalfSpaceTrees: if in every tree and at every depth fewer (or as many) instances of
the reference window share the cell of `x'` than share the cell of `x`, then `x'` gets at least
as high a score as `x`; a higher one, if at some place the number is smaller. -/
theorem C104_hst_isolated {G : Type*} (randint : G → ℕ → ℕ × G) (hr : InRange randint)
    (mins maxes : List K) (hd : 1 ≤ maxes.length) (w n D : ℕ) (hw : 1 ≤ w) (g : G) (s0 : HstState K)
    (h0 : Hst.new randint mins maxes w n D g = .ok s0) (cs : List (Call (List K) β))
    (hX : ∀ x ∈ fitted cs, x.length = maxes.length) (x x' : List K) (hx : x.length = maxes.length)
    (hx' : x'.length = maxes.length)
    (h : ∀ t ∈ s0.roots, ∀ j ≤ D, neighbours t j (referenceWindow w (fitted cs)) x' ≤
      neighbours t j (referenceWindow w (fitted cs)) x) :
    ∃ v v', ((Hst.detector K β).scorePartial (calls (Hst.detector K β) s0 cs).2 x).out = .ok v ∧
      ((Hst.detector K β).scorePartial (calls (Hst.detector K β) s0 cs).2 x').out = .ok v' ∧
      v ≤ v' ∧
      ((∃ t ∈ s0.roots, ∃ j ≤ D, neighbours t j (referenceWindow w (fitted cs)) x' <
        neighbours t j (referenceWindow w (fitted cs)) x) → v < v') := by
  refine ⟨_, _, C53_hst_score randint hr mins maxes hd w n D hw g s0 h0 cs hX x hx,
    C53_hst_score randint hr mins maxes hd w n D hw g s0 h0 cs hX x' hx', ?_, ?_⟩
  · apply neg_le_neg
    apply List.sum_le_sum
    intro t ht
    exact sum_range_weighted_le D _ _ (h t ht)
  · rintro ⟨t, ht, j, hj, hlt⟩
    apply neg_lt_neg
    apply List.sum_lt_sum
    · intro t ht
      exact sum_range_weighted_le D _ _ (h t ht)
    · refine ⟨t, ht, ?_⟩
      apply List.sum_lt_sum
      · intro i hi
        have : (neighbours t i (referenceWindow w (fitted cs)) x' : K) ≤
          neighbours t i (referenceWindow w (fitted cs)) x :=
          Nat.cast_le.2 (h t ht i (by rw [List.mem_range] at hi; omega))
        exact mul_le_mul_of_nonneg_right this (by positivity)
      · refine ⟨j, List.mem_range.2 (by omega), ?_⟩
        have : (neighbours t j (referenceWindow w (fitted cs)) x' : K) <
          neighbours t j (referenceWindow w (fitted cs)) x := Nat.cast_lt.2 hlt
        exact mul_lt_mul_of_pos_right this (by positivity)

end

/-- One feature in `[0, 8]`, one tree of depth 1 (split at 4), window of 2; instances 1 and 2.
The cell of 6 is empty, that of 3 is not: 6 gets the higher score. -/
example : ∃ s0 : HstState ℚ, Hst.new (fun (g : Unit) _ => (0, g)) [0] [8] 2 1 1 () = .ok s0 ∧
    (calls (Hst.detector ℚ Unit) s0 [.fit [1] none, .fit [2] none, .score [3], .score [6]]).1 =
      [.done, .done, .value (-6), .value (-2)] := ⟨_, rfl, by decide +kernel⟩

/-! ### xStream -/

section
variable {β : Type*} {k : ℕ}

theorem chainScore_antitone (W : ℕ) (fs : List (Fin k)) (r : Fin k → ℝ) (xs : List (Fin k → ℝ))
    (x x' : Fin k → ℝ)
    (h : ∀ d < fs.length, foundCount W fs r xs x' d ≤ foundCount W fs r xs x d) :
    chainScore npLog2 W fs r xs x ≤ chainScore npLog2 W fs r xs x' := by
  unfold chainScore
  apply neg_le_neg
  by_cases hfs : fs = []
  · subst hfs; simp
  apply le_min?_getD
  · intro hnil
    have := congrArg List.length hnil
    simp only [List.length_map, List.length_range, List.length_nil] at this
    exact hfs (List.length_eq_zero_iff.1 this)
  · intro a ha
    obtain ⟨d, hd, rfl⟩ := List.mem_map.1 ha
    have h0 := min?_getD_le (K := ℝ) (List.mem_map_of_mem (f := fun d : ℕ =>
      npLog2 (1 + (foundCount W fs r xs x' d : ℝ)) + ((d : ℝ) + 1)) hd)
    refine h0.trans ?_
    have := npLog2_mono (h d (List.mem_range.1 hd))
    linarith

/-- **C104.** xStream: if in every chain and at every depth fewer (or as many) instances of the
reference window are found in the bin of `x'` than in the bin of `x`, then `x'` gets at least as
high a score as `x`. -/
theorem C104_xstream_isolated (mmh3 : String → ℕ → ℕ) (p : StreamhashState ℝ)
    (W : ℕ) (hW : 1 ≤ W) (draws : List (XsDraw ℝ k)) (hd : draws ≠ [])
    (hfs : ∀ draw ∈ draws, draw.fs ≠ []) (cs : List (Call (List ℝ) β)) (x x' : List ℝ)
    (h : ∀ draw ∈ draws, ∀ d < draw.fs.length,
      foundCount W draw.fs draw.randArr (XStream.images mmh3 p cs) (XStream.project mmh3 p x') d ≤
        foundCount W draw.fs draw.randArr (XStream.images mmh3 p cs) (XStream.project mmh3 p x) d) :
    let d := XStream.detector (k := k) mmh3 npLog2
    let s := (calls d (XStream.new p W draws) cs).2
    ∃ v v', (call d s (.score x : Call (List ℝ) β)).1 = .value (.fin v) ∧
      (call d s (.score x' : Call (List ℝ) β)).1 = .value (.fin v') ∧ v ≤ v' := by
  intro d s
  refine ⟨_, _, C77_xstream_score mmh3 npLog2 p W hW draws hd hfs cs x,
    C77_xstream_score mmh3 npLog2 p W hW draws hd hfs cs x', ?_⟩
  apply div_le_div_of_nonneg_right _ (by positivity)
  apply List.sum_le_sum
  intro draw hm
  exact chainScore_antitone W draw.fs draw.randArr _ _ _ (h draw hm)

end

/-! ### The deviation detectors -/

section
variable {β K : Type*} [Field K] [LinearOrder K] [IsStrictOrderedRing K]

theorem abs_div_le_iff {x x' m q : K} (hq : 0 < q) :
    |(x - m) / q| ≤ |(x' - m) / q| ↔ |x - m| ≤ |x' - m| := by
  rw [abs_div, abs_div, div_le_div_iff_of_pos_right (abs_pos.2 hq.ne')]

/-- **C104.** MedianAbsoluteDeviation: the instance at the greater distance from the median gets
the higher score, and only that one. -/
theorem C104_mad_isolated (b : K) (hb : 0 ≤ b) (cs : List (Call (List K) β))
    (hne : univariate (fitted cs) ≠ []) (x x' : K) :
    let d := medianAbsoluteDeviation (β := β) (K := K)
    let s := (calls d (MadState.new true b) cs).2
    ∃ m v v', medianOf (univariate (fitted cs) : Multiset K) = some m ∧
      (d.scorePartial s [x]).out = .ok [.fin v] ∧ (d.scorePartial s [x']).out = .ok [.fin v'] ∧
      (v ≤ v' ↔ |x - m| ≤ |x' - m|) := by
  intro d s
  obtain ⟨m, ds, mad, h1, h2, h3, h4⟩ := C67_mad_score b hb true cs hne [x]
  obtain ⟨m', ds', mad', h1', h2', h3', h4'⟩ := C67_mad_score b hb true cs hne [x']
  obtain rfl : m = m' := Option.some.inj (h1.symm.trans h1')
  obtain rfl : ds = ds' := runningDeviations_unique h2 h2'
  obtain rfl : mad = mad' := Option.some.inj (h3.symm.trans h3')
  refine ⟨m, _, _, h1, h4, h4', ?_⟩
  simp only [if_true]
  apply abs_div_le_iff
  have : 0 ≤ mad := by
    refine medianOf_nonneg h3 fun y hy => ?_
    obtain ⟨i, hi, rfl⟩ := List.mem_iff_getElem.1 (show y ∈ ds by simpa using hy)
    have hi' : i < (univariate (fitted cs)).length := h2.1 ▸ hi
    obtain ⟨q, -, h⟩ := h2.2 i _ (List.getElem?_eq_getElem hi')
    rw [List.getElem?_eq_getElem hi] at h
    rw [Option.some.inj h]
    exact abs_nonneg _
  positivity

end

section
variable {β : Type*}

/-- **C104.** StandardAbsoluteDeviation with the mean: the instance at the greater distance from
the mean gets the higher score, and only that one. -/
theorem C104_sad_mean_isolated (cs : List (Call (List ℝ) β)) (hne : univariate (fitted cs) ≠ [])
    (x x' : ℝ) :
    let d := standardAbsoluteDeviation (β := β) Real.sqrt (averageMeter ℝ)
    let s := (calls d (SadState.new (averageMeter ℝ) true) cs).2
    let m := meanOf (K := ℝ) (univariate (fitted cs))
    ∃ v v', (d.scorePartial s [x]).out = .ok [.fin v] ∧ (d.scorePartial s [x']).out = .ok [.fin v'] ∧
      (v ≤ v' ↔ |x - m| ≤ |x' - m|) := by
  intro d s m
  refine ⟨_, _, C68_sad_mean true cs hne [x], C68_sad_mean true cs hne [x'], ?_⟩
  simp only [if_true]
  exact abs_div_le_iff (by positivity)

/-- **C104.** ... with the median: from the median. -/
theorem C104_sad_median_isolated (cs : List (Call (List ℝ) β)) (hne : univariate (fitted cs) ≠ [])
    (x x' : ℝ) :
    let d := standardAbsoluteDeviation (β := β) Real.sqrt (medianMeter ℝ)
    let s := (calls d (SadState.new (medianMeter ℝ) true) cs).2
    ∃ m v v', medianOf (univariate (fitted cs) : Multiset ℝ) = some m ∧
      (d.scorePartial s [x]).out = .ok [.fin v] ∧ (d.scorePartial s [x']).out = .ok [.fin v'] ∧
      (v ≤ v' ↔ |x - m| ≤ |x' - m|) := by
  intro d s
  obtain ⟨m, h1, h2⟩ := C68_sad_median true cs hne [x]
  obtain ⟨m', h1', h2'⟩ := C68_sad_median true cs hne [x']
  obtain rfl : m = m' := Option.some.inj (h1.symm.trans h1')
  refine ⟨m, _, _, h1, h2, h2', ?_⟩
  simp only [if_true]
  exact abs_div_le_iff (by positivity)

end

end Pysad
