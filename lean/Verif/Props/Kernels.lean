import Verif.Proofs.Shifts
import Verif.Props.RsHash
import Verif.Props.RsHashInit
import Verif.Props.XStream

/-! Property C131: what `RSHash` and `xStream` estimate. -/

namespace Pysad

open Spec MeasureTheory

/-! ### RSHash -/

/-- A component of `RSHash` of width `f` and features `V`, with the shifts `f * u`. -/
def Spec.rsShifted {dim : ℕ} (f : ℝ) (V : List (Fin dim)) (u : Fin dim → ℝ) : RsComponent ℝ dim :=
  ⟨V.map fun d => (d, 0 + (f - 0) * u d), f⟩

/-- How similar two instances are to a component: the product over its features of the triangular
kernel of the difference in units of the width. -/
noncomputable def Spec.rsKernel {dim : ℕ} (f : ℝ) (V : List (Fin dim)) (x y : Fin dim → ℝ) : ℝ :=
  (V.map fun d => tent ((x d - y d) / f)).prod

/-- The kernel density of the earlier instances at `x`, the `j`-th of `n` weighted with
`2 ^ (-decay * (n - j))`. -/
noncomputable def Spec.rsDensity {dim : ℕ} (decay f : ℝ) (V : List (Fin dim))
    (earlier : List (Fin dim → ℝ)) (x : Fin dim → ℝ) : ℝ :=
  (earlier.zipIdx.map fun p =>
    (2 : ℝ) ^ (-(decay * ((earlier.length : ℝ) - (p.2 : ℝ)))) * rsKernel f V p.1 x).sum

section
variable {m dim : ℕ} {β : Type*}

theorem sameCell_shifted (f : ℝ) (hf : 0 < f) (V : List (Fin dim)) (u : Fin dim → ℝ) (x y : Fin dim → ℝ) :
    SameCell (rsShifted f V u) x y ↔ ∀ d ∈ V, ⌊x d / f + u d⌋ = ⌊y d / f + u d⌋ := by
  have e : ∀ (a v : ℝ), (a + (0 + (f - 0) * v)) / f = a / f + v := by
    intro a v; field_simp; ring
  simp only [SameCell, rsShifted, List.mem_map, forall_exists_index, and_imp, forall_apply_eq_imp_iff₂, e]

theorem sameCell_event (f : ℝ) (hf : 0 < f) (V : List (Fin dim)) (r : Fin m) (x y : Fin dim → ℝ) :
    {u : Fin m × Fin dim → ℝ | SameCell (rsShifted f V fun d => u (r, d)) x y} =
      {u | ∀ i ∈ V.toFinset.map (Function.Embedding.sectR r (Fin dim)),
        ⌊x i.2 / f + u i⌋ = ⌊y i.2 / f + u i⌋} := by
  ext u
  simp only [Set.mem_setOf_eq]
  rw [sameCell_shifted f hf V]
  simp

/-- **C131 (RSHash).** For every width and every choice of different features, if the shifts are
drawn uniformly, the chance that two instances fall into the same cell is the product of the
triangular kernels of their differences. -/
theorem C131_rshash_cell (f : ℝ) (hf : 0 < f) (V : List (Fin dim)) (hV : V.Nodup) (r : Fin m)
    (x y : Fin dim → ℝ) :
    chanceOf {u : Fin m × Fin dim → ℝ | SameCell (rsShifted f V fun d => u (r, d)) x y} =
      rsKernel f V x y := by
  rw [sameCell_event f hf V r x y,
    Shifts.chance_box _ (fun i : Fin m × Fin dim => x i.2 / f) (fun i => y i.2 / f), Finset.prod_map]
  unfold rsKernel
  rw [← List.prod_toFinset _ hV]
  refine Finset.prod_congr rfl fun d _ => ?_
  simp [sub_div]

theorem decayedCount_eq (decay : ℝ) (c : RsComponent ℝ dim) (earlier : List (Fin dim → ℝ))
    (x : Fin dim → ℝ) :
    decayedCount realPow2 decay c earlier x = (earlier.zipIdx.map fun p =>
      if SameCell c p.1 x then (2 : ℝ) ^ (-(decay * ((earlier.length : ℝ) - (p.2 : ℝ)))) else 0).sum := by
  unfold decayedCount
  generalize earlier.zipIdx = L
  induction L with
  | nil => rfl
  | cons p L ih =>
    by_cases h : SameCell c p.1 x
    · simp only [List.filter_cons, h, decide_true, if_true, List.map_cons, List.sum_cons, ih]
    · simp only [List.filter_cons, h, decide_false, if_false, List.map_cons, List.sum_cons, ih, zero_add,
        Bool.false_eq_true]

theorem decayedCount_average (decay f : ℝ) (hf : 0 < f) (V : List (Fin dim)) (hV : V.Nodup) (r : Fin m)
    (earlier : List (Fin dim → ℝ)) (x : Fin dim → ℝ) :
    Integrable (fun u : Fin m × Fin dim → ℝ =>
      decayedCount realPow2 decay (rsShifted f V fun d => u (r, d)) earlier x) (uniformDraws _) ∧
    average (fun u : Fin m × Fin dim → ℝ =>
      decayedCount realPow2 decay (rsShifted f V fun d => u (r, d)) earlier x) =
      rsDensity decay f V earlier x := by
  classical
  have h := Shifts.average_sum earlier.zipIdx
    (fun p => {u : Fin m × Fin dim → ℝ | SameCell (rsShifted f V fun d => u (r, d)) p.1 x}) (by
      intro p _
      rw [sameCell_event f hf V r p.1 x]
      exact Shifts.measurable_box _ (fun i : Fin m × Fin dim => p.1 i.2 / f) (fun i => x i.2 / f))
    (fun p => (2 : ℝ) ^ (-(decay * ((earlier.length : ℝ) - (p.2 : ℝ)))))
  simp only [Set.mem_setOf_eq] at h
  have e : (fun u : Fin m × Fin dim → ℝ =>
      decayedCount realPow2 decay (rsShifted f V fun d => u (r, d)) earlier x) = fun u =>
      (earlier.zipIdx.map fun p => if SameCell (rsShifted f V fun d => u (r, d)) p.1 x
        then (2 : ℝ) ^ (-(decay * ((earlier.length : ℝ) - (p.2 : ℝ)))) else 0).sum := by
    ext u
    rw [decayedCount_eq]
  rw [e]
  refine ⟨by convert h.1, ?_⟩
  unfold rsDensity
  have h2 := h.2
  simp only [C131_rshash_cell f hf V hV r] at h2
  convert h2

theorem decayedCount_nonneg (decay : ℝ) (c : RsComponent ℝ dim) (earlier : List (Fin dim → ℝ))
    (x : Fin dim → ℝ) : 0 ≤ decayedCount realPow2 decay c earlier x := by
  rw [decayedCount_eq]
  refine List.sum_nonneg fun a ha => ?_
  obtain ⟨p, -, rfl⟩ := List.mem_map.1 ha
  split
  · exact Real.rpow_nonneg (by norm_num) _
  · exact le_rfl

/-- **C131 (RSHash).** After every history with last fitted instance `x`, for every number of
components, every widths and features: the score is the mean of `log (1 + count)` over the
components, where the count of each component is on average the kernel density of the earlier
instances at `x`. Hence the average score is at most the one computed from the densities. -/
theorem C131_rshash_score (hm : 1 ≤ m) (f : Fin m → ℝ) (hf : ∀ r, 0 < f r)
    (V : Fin m → List (Fin dim)) (hV : ∀ r, (V r).Nodup) (sp : ℕ) (decay : ℝ) (nh : ℕ) (hnh : 1 ≤ nh)
    (cs : List (Call (Fin dim → ℝ) β)) (earlier : List (Fin dim → ℝ)) (x z : Fin dim → ℝ)
    (hx : fitted cs = earlier ++ [x]) :
    ∃ (score : (Fin m × Fin dim → ℝ) → ℝ) (count : Fin m → (Fin m × Fin dim → ℝ) → ℝ),
      (∀ u, (call (RsHash.detector realPow2 Real.log) (calls (RsHash.detector realPow2 Real.log)
        (RsHash.new (List.ofFn fun r => rsShifted (f r) (V r) fun d => u (r, d)) sp decay nh) cs).2
        (.score z : Call (Fin dim → ℝ) β)).1 = .value (some (score u))) ∧
      (∀ u, score u = (List.ofFn fun r => Real.log (1 + count r u)).sum / m) ∧
      (∀ r, average (count r) = rsDensity decay (f r) (V r) earlier x) ∧
      average score ≤ (List.ofFn fun r => Real.log (1 + rsDensity decay (f r) (V r) earlier x)).sum / m := by
  set count : Fin m → (Fin m × Fin dim → ℝ) → ℝ := fun r u =>
    decayedCount realPow2 decay (rsShifted (f r) (V r) fun d => u (r, d)) earlier x with hcount
  have hav := fun r => decayedCount_average decay (f r) (hf r) (V r) (hV r) r earlier x
  have h0 : ∀ r u, 0 ≤ count r u := fun r u => decayedCount_nonneg _ _ _ _
  refine ⟨fun u => (List.ofFn fun r => Real.log (1 + count r u)).sum / m, count, ?_, fun _ => rfl,
    fun r => (hav r).2, ?_⟩
  · intro u
    have hne : (List.ofFn fun r => rsShifted (f r) (V r) fun d => u (r, d)) ≠ [] := by
      intro h
      have := congrArg List.length h
      simp at this
      omega
    have := C72_rshash_score (β := β) _ hne sp decay nh hnh cs earlier x z hx
    simp only [call] at this ⊢
    rw [this]
    simp only [rsScore, List.map_ofFn, List.length_ofFn]
    rfl
  · have hl := Shifts.average_list (List.finRange m) (fun r u => Real.log (1 + count r u))
      (fun r _ => Shifts.integrable_log _ (h0 r) (hav r).1)
    simp only [List.ofFn_eq_map]
    rw [Shifts.average_div, hl.2]
    refine div_le_div_of_nonneg_right (List.sum_le_sum fun r _ => ?_) (by positivity)
    rw [← (hav r).2]
    exact Shifts.average_log_le _ (h0 r) (hav r).1

/-- **C131 (RSHash).** An instance that differs from every earlier one, in some feature of every
component, by the width or more scores 0, whatever the shifts. -/
theorem C131_rshash_far (hm : 1 ≤ m) (f : Fin m → ℝ) (hf : ∀ r, 0 < f r)
    (V : Fin m → List (Fin dim)) (sp : ℕ) (decay : ℝ) (nh : ℕ) (hnh : 1 ≤ nh)
    (cs : List (Call (Fin dim → ℝ) β)) (earlier : List (Fin dim → ℝ)) (x z : Fin dim → ℝ)
    (hx : fitted cs = earlier ++ [x])
    (hfar : ∀ r, ∀ y ∈ earlier, ∃ d ∈ V r, f r ≤ |y d - x d|) (u : Fin m × Fin dim → ℝ) :
    (call (RsHash.detector realPow2 Real.log) (calls (RsHash.detector realPow2 Real.log)
      (RsHash.new (List.ofFn fun r => rsShifted (f r) (V r) fun d => u (r, d)) sp decay nh) cs).2
      (.score z : Call (Fin dim → ℝ) β)).1 = .value (some 0) := by
  have hne : (List.ofFn fun r => rsShifted (f r) (V r) fun d => u (r, d)) ≠ [] := by
    intro h
    have := congrArg List.length h
    simp at this
    omega
  have := C72_rshash_score (β := β) _ hne sp decay nh hnh cs earlier x z hx
  simp only [call] at this ⊢
  rw [this]
  simp only [Answer.value.injEq, Option.some.injEq]
  unfold rsScore
  rw [div_eq_zero_iff]
  left
  apply List.sum_eq_zero
  intro a ha
  obtain ⟨c, hc, rfl⟩ := List.mem_map.1 ha
  obtain ⟨r, rfl⟩ := (List.mem_ofFn' _ _).1 hc
  rw [decayedCount_eq, List.sum_eq_zero, add_zero, Real.log_one]
  intro a ha
  obtain ⟨p, hp, rfl⟩ := List.mem_map.1 ha
  rw [if_neg]
  rw [sameCell_shifted _ (hf r)]
  intro hs
  obtain ⟨d, hd, h⟩ := hfar r p.1 (List.fst_mem_of_mem_zipIdx hp)
  have he := Int.abs_sub_lt_one_of_floor_eq_floor (hs d hd)
  rw [show p.1 d / f r + u (r, d) - (x d / f r + u (r, d)) = (p.1 d - x d) / f r by ring,
    abs_div, abs_of_pos (hf r), div_lt_one (hf r)] at he
  linarith

end

/-- **C131 (RSHash).** The components that the constructor makes are of this form, for whatever it
draws: different features, widths and shifts computed from draws in `[0, 1)`. -/
theorem C131_rshash_draws {G : Type*} {dim : ℕ} (rnd : RsRandom G ℝ dim)
    (l : List (ℝ × List (Fin dim))) (hl : ∀ q ∈ l, q.2.Nodup) (g : G) :
    List.Forall₂ (fun c q => ∃ u : Fin dim → ℝ, (∀ d, 0 ≤ u d ∧ u d < 1) ∧ c = rsShifted q.1 q.2 u)
      (RsHash.sampleShifts rnd l g).1 l := by
  induction l generalizing g with
  | nil => exact List.Forall₂.nil
  | cons q l ih =>
    obtain ⟨f, V⟩ := q
    refine List.Forall₂.cons ?_ (ih (fun q hq => hl q (by simp [hq])) _)
    obtain ⟨h1, h2⟩ := RsHash.uniforms_ok rnd V.length g
    generalize (RsHash.uniforms rnd V.length g).1 = us at h1 h2
    have hV : V.Nodup := hl (f, V) (by simp)
    refine ⟨fun d => us.getD (V.idxOf d) 0, ?_, ?_⟩
    · intro d
      simp only
      rcases lt_or_ge (V.idxOf d) us.length with h | h
      · rw [List.getD_eq_getElem?_getD, List.getElem?_eq_getElem h]
        exact h2 _ (List.getElem_mem h)
      · rw [List.getD_eq_getElem?_getD, List.getElem?_eq_none h]; norm_num
    · unfold rsShifted
      congr 1
      apply List.ext_getElem
      · simp [h1]
      · intro i h3 h4
        simp only [List.length_map] at h4
        simp only [List.getElem_zip, List.getElem_map, Prod.mk.injEq, true_and]
        rw [hV.idxOf_getElem i h4, List.getD_eq_getElem?_getD, List.getElem?_eq_getElem (by omega)]
        rfl

/-- Two instances half a width apart in one feature of two share a cell with chance 1/2; with the
second feature three quarters of a width apart, 1/8. -/
example : rsKernel (1 / 2) [(0 : Fin 2)] ![1, 0] ![5 / 4, 7] = 1 / 2 ∧
    rsKernel (1 / 2) [(0 : Fin 2), 1] ![1, 0] ![5 / 4, 3 / 8] = 1 / 8 := by
  constructor <;> simp [rsKernel, tent] <;> norm_num [abs_of_nonneg, abs_of_nonpos, max_def]

/-! ### xStream -/

/-- How similar `y`, binned with widths `δ`, and `x`, binned with widths `δ'`, are to a chain that has
used the given features: the product over these features of the triangular kernel of the difference
in units of the width, which is halved with each further use. -/
noncomputable def Spec.xsKernel {k : ℕ} (used : List (Fin k)) (δ δ' : Fin k → ℝ) (y x : Fin k → ℝ) : ℝ :=
  ∏ f ∈ used.toFinset, tent (2 ^ (used.count f - 1) * (y f / δ f - x f / δ' f))

/-- The kernel density of the reference window at `x`, at depth `d` (from 0). -/
noncomputable def Spec.xsDensity {k : ℕ} (W : ℕ) (fs : List (Fin k)) (xs : List (Fin k → ℝ))
    (x : Fin k → ℝ) (d : ℕ) : ℝ :=
  ((comparedWindow W xs).map fun y =>
    xsKernel (fs.take (d + 1)) (comparedWidth W xs) (currentWidth W xs) y x).sum

/-- The score of a chain with densities in the place of counts. -/
noncomputable def Spec.xsDensityScore {k : ℕ} (W : ℕ) (fs : List (Fin k)) (xs : List (Fin k → ℝ))
    (x : Fin k → ℝ) : ℝ :=
  -(((List.range fs.length).map fun d =>
      Real.logb 2 (1 + xsDensity W fs xs x d) + ((d : ℝ) + 1)).min?.getD 0)

section
variable {n k : ℕ} {β : Type*}

theorem sameBin_event (used : List (Fin k)) (δ δ' : Fin k → ℝ) (i : Fin n) (y x : Fin k → ℝ) :
    {u : Fin n × Fin k → ℝ | halfSpaceBin used (fun f => u (i, f)) δ y =
        halfSpaceBin used (fun f => u (i, f)) δ' x} =
      {u | ∀ j ∈ used.toFinset.map (Function.Embedding.sectR i (Fin k)),
        ⌊2 ^ (used.count j.2 - 1) * (y j.2 / δ j.2) + u j⌋ =
          ⌊2 ^ (used.count j.2 - 1) * (x j.2 / δ' j.2) + u j⌋} := by
  ext u
  simp only [Set.mem_setOf_eq, funext_iff, halfSpaceBin]
  simp only [Finset.mem_map, List.mem_toFinset, Function.Embedding.sectR_apply, forall_exists_index,
    and_imp, forall_apply_eq_imp_iff₂]
  refine forall_congr' fun f => ?_
  by_cases h : f ∈ used
  · have : used.count f ≠ 0 := (List.count_pos_iff.2 h).ne'
    simp only [this, if_false, h, true_implies]
  · simp [List.count_eq_zero_of_not_mem h, h]

/-- **C131 (xStream).** If the shifts are drawn uniformly, the chance that two projected instances
fall into the same bin is the product of the triangular kernels of their differences. -/
theorem C131_xstream_bin (used : List (Fin k)) (δ δ' : Fin k → ℝ) (i : Fin n) (y x : Fin k → ℝ) :
    chanceOf {u : Fin n × Fin k → ℝ | halfSpaceBin used (fun f => u (i, f)) δ y =
        halfSpaceBin used (fun f => u (i, f)) δ' x} = xsKernel used δ δ' y x := by
  rw [sameBin_event, Shifts.chance_box _ (fun j : Fin n × Fin k => 2 ^ (used.count j.2 - 1) * (y j.2 / δ j.2))
    (fun j => 2 ^ (used.count j.2 - 1) * (x j.2 / δ' j.2)), Finset.prod_map]
  unfold xsKernel
  refine Finset.prod_congr rfl fun f _ => ?_
  simp [mul_sub]

theorem foundCount_eq (W : ℕ) (fs : List (Fin k)) (r : Fin k → ℝ) (xs : List (Fin k → ℝ))
    (x : Fin k → ℝ) (d : ℕ) :
    (foundCount W fs r xs x d : ℝ) = ((comparedWindow W xs).map fun y =>
      if halfSpaceBin (fs.take (d + 1)) r (comparedWidth W xs) y =
        halfSpaceBin (fs.take (d + 1)) r (currentWidth W xs) x then (1 : ℝ) else 0).sum := by
  unfold foundCount binCount
  generalize comparedWindow W xs = L
  induction L with
  | nil => simp
  | cons y L ih =>
    rw [List.countP_cons, List.map_cons, List.sum_cons, ← ih]
    split_ifs with h1 h2 <;> simp_all [add_comm]

theorem foundCount_average (W : ℕ) (fs : List (Fin k)) (i : Fin n) (xs : List (Fin k → ℝ))
    (x : Fin k → ℝ) (d : ℕ) :
    Measurable (fun u : Fin n × Fin k → ℝ => (foundCount W fs (fun f => u (i, f)) xs x d : ℝ)) ∧
    Integrable (fun u : Fin n × Fin k → ℝ => (foundCount W fs (fun f => u (i, f)) xs x d : ℝ))
      (uniformDraws _) ∧
    average (fun u : Fin n × Fin k → ℝ => (foundCount W fs (fun f => u (i, f)) xs x d : ℝ)) =
      xsDensity W fs xs x d := by
  classical
  have hms : ∀ y : Fin k → ℝ, MeasurableSet {u : Fin n × Fin k → ℝ |
      halfSpaceBin (fs.take (d + 1)) (fun f => u (i, f)) (comparedWidth W xs) y =
        halfSpaceBin (fs.take (d + 1)) (fun f => u (i, f)) (currentWidth W xs) x} := by
    intro y
    rw [sameBin_event]
    exact Shifts.measurable_box _ (fun j : Fin n × Fin k => 2 ^ ((fs.take (d + 1)).count j.2 - 1) * (y j.2 / _))
      (fun j => 2 ^ ((fs.take (d + 1)).count j.2 - 1) * (x j.2 / _))
  have h := Shifts.average_sum (comparedWindow W xs)
    (fun y => {u : Fin n × Fin k → ℝ |
      halfSpaceBin (fs.take (d + 1)) (fun f => u (i, f)) (comparedWidth W xs) y =
        halfSpaceBin (fs.take (d + 1)) (fun f => u (i, f)) (currentWidth W xs) x})
    (fun y _ => hms y) (fun _ => 1)
  have e : (fun u : Fin n × Fin k → ℝ => (foundCount W fs (fun f => u (i, f)) xs x d : ℝ)) = fun u =>
      ((comparedWindow W xs).map fun y =>
      if halfSpaceBin (fs.take (d + 1)) (fun f => u (i, f)) (comparedWidth W xs) y =
        halfSpaceBin (fs.take (d + 1)) (fun f => u (i, f)) (currentWidth W xs) x
        then (1 : ℝ) else 0).sum := by
    ext u
    rw [foundCount_eq]
  simp only [Set.mem_setOf_eq] at h
  rw [e]
  refine ⟨?_, by convert h.1, ?_⟩
  · generalize comparedWindow W xs = L
    induction L with
    | nil => simp only [List.map_nil, List.sum_nil]; exact measurable_const
    | cons y L ih =>
      simp only [List.map_cons, List.sum_cons]
      exact (Measurable.ite (hms y) measurable_const measurable_const).add ih
  · unfold xsDensity
    have h2 := h.2
    simp only [C131_xstream_bin, one_mul] at h2
    convert h2

theorem measurable_min {α γ : Type*} [MeasurableSpace α] (L : List γ) (X : γ → α → ℝ)
    (hX : ∀ g, Measurable (X g)) : Measurable fun u => (L.map fun g => X g u).min?.getD 0 := by
  cases L with
  | nil => simp only [List.map_nil, List.min?_nil, Option.getD_none]; exact measurable_const
  | cons g L =>
    simp only [List.map_cons, List.min?_cons', Option.getD_some]
    suffices h : ∀ a : α → ℝ, Measurable a → Measurable fun u => (L.map fun g => X g u).foldl min (a u) from
      h _ (hX g)
    intro a ha
    induction L generalizing a with
    | nil => exact ha
    | cons g' L ih =>
      simp only [List.map_cons, List.foldl_cons]
      exact ih _ (ha.min (hX g'))

theorem chainScore_average (W : ℕ) (fs : List (Fin k)) (hfs : fs ≠ []) (i : Fin n)
    (xs : List (Fin k → ℝ)) (x : Fin k → ℝ) :
    Integrable (fun u : Fin n × Fin k → ℝ => chainScore npLog2 W fs (fun f => u (i, f)) xs x)
      (uniformDraws _) ∧
    xsDensityScore W fs xs x ≤
      average (fun u : Fin n × Fin k → ℝ => chainScore npLog2 W fs (fun f => u (i, f)) xs x) := by
  have hpos : 0 < fs.length := List.length_pos_iff.2 hfs
  have hav := fun d => foundCount_average (n := n) W fs i xs x d
  have hint : Integrable (fun u : Fin n × Fin k → ℝ => chainScore npLog2 W fs (fun f => u (i, f)) xs x)
      (uniformDraws _) := by
    refine Integrable.of_bound (C := 1 + npLog2 (1 + (W : ℝ))) ?_ (ae_of_all _ fun u => ?_)
    · refine Measurable.aestronglyMeasurable ?_
      unfold chainScore
      refine (measurable_min _ _ fun d => ?_).neg
      refine Measurable.add ?_ measurable_const
      have := (hav d).1
      exact (Real.measurable_log.comp (measurable_const.add this)).div_const _
    · have := chainScore_bounds W fs hfs (fun f => u (i, f)) xs x
      have h1 := npLog2_nonneg W
      rw [Real.norm_eq_abs, abs_le]
      constructor <;> linarith
  refine ⟨hint, ?_⟩
  unfold xsDensityScore
  rw [neg_le]
  apply le_min?_getD
  · intro hnil
    have := congrArg List.length hnil
    simp only [List.length_map, List.length_range, List.length_nil] at this
    omega
  · intro a ha
    obtain ⟨d, hd, rfl⟩ := List.mem_map.1 ha
    have h0 : ∀ u : Fin n × Fin k → ℝ, 0 ≤ (foundCount W fs (fun f => u (i, f)) xs x d : ℝ) :=
      fun u => Nat.cast_nonneg _
    have hj := Shifts.average_log_le _ h0 (hav d).2.1
    have hlog := Shifts.integrable_log _ h0 (hav d).2.1
    rw [(hav d).2.2] at hj
    have hb : average (fun u : Fin n × Fin k → ℝ => -(Real.log (1 + (foundCount W fs (fun f => u (i, f)) xs x d : ℝ)) / Real.log 2 + ((d : ℝ) + 1)))
        ≤ average (fun u : Fin n × Fin k → ℝ => chainScore npLog2 W fs (fun f => u (i, f)) xs x) := by
      refine integral_mono ((hlog.div_const _).add (integrable_const _)).neg hint fun u => ?_
      simp only [chainScore]
      exact neg_le_neg (min?_getD_le (List.mem_map_of_mem (f := fun d : ℕ =>
        npLog2 (1 + (foundCount W fs (fun f => u (i, f)) xs x d : ℝ)) + ((d : ℝ) + 1)) hd))
    have he : average (fun u : Fin n × Fin k → ℝ => -(Real.log (1 + (foundCount W fs (fun f => u (i, f)) xs x d : ℝ)) / Real.log 2 + ((d : ℝ) + 1)))
        = -(average (fun u : Fin n × Fin k → ℝ => Real.log (1 + (foundCount W fs (fun f => u (i, f)) xs x d : ℝ))) / Real.log 2 + ((d : ℝ) + 1)) := by
      unfold average
      rw [integral_neg, integral_add (hlog.div_const _) (integrable_const _), integral_div]
      simp
    rw [he] at hb
    have hl2 : 0 < Real.log 2 := Real.log_pos (by norm_num)
    have := div_le_div_of_nonneg_right hj hl2.le
    simp only [Real.logb]
    linarith

/-- **C131 (xStream).** After every history, for every window size, number of chains and features
drawn: the score is the mean over the chains of minus the least `log2 (1 + count) + depth`, where
the count of each chain and depth is on average the kernel density of the reference window at the
projected instance. Hence the average score is at least the one computed from the densities. -/
theorem C131_xstream_score (mmh3 : String → ℕ → ℕ) (p : StreamhashState ℝ) (W : ℕ) (hW : 1 ≤ W)
    (hn : 1 ≤ n) (fs : Fin n → List (Fin k)) (hfs : ∀ i, fs i ≠ []) (h : List (Call (List ℝ) β))
    (x : List ℝ) :
    ∃ (score : (Fin n × Fin k → ℝ) → ℝ) (count : Fin n → ℕ → (Fin n × Fin k → ℝ) → ℕ),
      (∀ u, (call (XStream.detector mmh3 npLog2) (calls (XStream.detector mmh3 npLog2)
        (XStream.new p W (List.ofFn fun i => ⟨fs i, fun f => u (i, f)⟩)) h).2
        (.score x : Call (List ℝ) β)).1 = .value (.fin (score u))) ∧
      (∀ u, score u = (List.ofFn fun i => -(((List.range (fs i).length).map fun d =>
        npLog2 (1 + (count i d u : ℝ)) + ((d : ℝ) + 1)).min?.getD 0)).sum / n) ∧
      (∀ i d, average (fun u => (count i d u : ℝ)) =
        xsDensity W (fs i) (XStream.images mmh3 p h) (XStream.project mmh3 p x) d) ∧
      (List.ofFn fun i => xsDensityScore W (fs i) (XStream.images mmh3 p h)
        (XStream.project mmh3 p x)).sum / n ≤ average score := by
  refine ⟨fun u => (List.ofFn fun i => chainScore npLog2 W (fs i) (fun f => u (i, f))
      (XStream.images mmh3 p h) (XStream.project mmh3 p x)).sum / n,
    fun i d u => foundCount W (fs i) (fun f => u (i, f)) (XStream.images mmh3 p h)
      (XStream.project mmh3 p x) d, ?_, fun _ => rfl,
    fun i d => (foundCount_average W (fs i) i _ _ d).2.2, ?_⟩
  · intro u
    rw [C77_xstream_score mmh3 npLog2 p W hW _ ?_ ?_ h x]
    · simp only [List.map_ofFn, List.length_ofFn]
      rfl
    · intro h
      have := congrArg List.length h
      simp at this
      omega
    · intro d hd
      obtain ⟨i, rfl⟩ := (List.mem_ofFn' _ _).1 hd
      exact hfs i
  · have hl := Shifts.average_list (List.finRange n) (fun i (u : Fin n × Fin k → ℝ) =>
      chainScore npLog2 W (fs i) (fun f => u (i, f)) (XStream.images mmh3 p h) (XStream.project mmh3 p x))
      (fun i _ => (chainScore_average W (fs i) (hfs i) i _ _).1)
    simp only [List.ofFn_eq_map]
    rw [Shifts.average_div, hl.2]
    refine div_le_div_of_nonneg_right (List.sum_le_sum fun i _ => ?_) (by positivity)
    exact (chainScore_average W (fs i) (hfs i) i _ _).2

end

end Pysad
