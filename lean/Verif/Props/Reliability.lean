import Verif.Props.Kernels
import Verif.Proofs.Hoeffding

/-! C156: with many components or chains the random shifts hardly matter. -/

namespace Pysad

open Spec MeasureTheory

/-- The total weight of `N` earlier instances: what the count of a component would be if all of
them were in the cell of the latest one. -/
noncomputable def Spec.fullCount (decay : ℝ) (N : ℕ) : ℝ :=
  ((List.range N).map fun i : ℕ => (2 : ℝ) ^ (-(decay * ((N : ℝ) - (i : ℝ))))).sum

section rshash
variable {β : Type*} {dim m : ℕ}

theorem decayedCount_le (decay : ℝ) (c : RsComponent ℝ dim) (earlier : List (Fin dim → ℝ))
    (x : Fin dim → ℝ) : decayedCount realPow2 decay c earlier x ≤ fullCount decay earlier.length := by
  have h : fullCount decay earlier.length = (earlier.zipIdx.map fun p : (Fin dim → ℝ) × ℕ =>
      realPow2 (-(decay * ((earlier.length : ℝ) - (p.2 : ℝ))))).sum := by
    unfold fullCount
    rw [List.range_eq_range', ← List.zipIdx_map_snd 0 earlier, List.map_map]
    rfl
  rw [h]
  unfold decayedCount
  exact (List.Sublist.map _ List.filter_sublist).sum_le_sum fun a ha => by
    obtain ⟨p, -, rfl⟩ := List.mem_map.1 ha
    exact Real.rpow_nonneg (by norm_num) _

theorem decayedCount_measurable (decay f : ℝ) (hf : 0 < f) (V : List (Fin dim))
    (earlier : List (Fin dim → ℝ)) (x : Fin dim → ℝ) :
    Measurable fun v : Fin dim → ℝ => decayedCount realPow2 decay (rsShifted f V v) earlier x := by
  classical
  have hms : ∀ y : Fin dim → ℝ, MeasurableSet {v : Fin dim → ℝ | SameCell (rsShifted f V v) y x} := by
    intro y
    have : {v : Fin dim → ℝ | SameCell (rsShifted f V v) y x} =
        {v | ∀ d ∈ V.toFinset, ⌊y d / f + v d⌋ = ⌊x d / f + v d⌋} := by
      ext v
      simp only [Set.mem_setOf_eq, sameCell_shifted f hf, List.mem_toFinset]
    rw [this]
    exact Shifts.measurable_box _ _ _
  unfold decayedCount
  generalize earlier.zipIdx = L
  induction L with
  | nil => simp only [List.filter_nil, List.map_nil, List.sum_nil]; exact measurable_const
  | cons p L ih =>
    have : (fun v : Fin dim → ℝ => (((p :: L).filter fun p => SameCell (rsShifted f V v) p.1 x).map
        fun p => realPow2 (-(decay * ((earlier.length : ℝ) - (p.2 : ℝ))))).sum) = fun v =>
        (if SameCell (rsShifted f V v) p.1 x then
          realPow2 (-(decay * ((earlier.length : ℝ) - (p.2 : ℝ)))) else 0) +
        ((L.filter fun p => SameCell (rsShifted f V v) p.1 x).map
        fun p => realPow2 (-(decay * ((earlier.length : ℝ) - (p.2 : ℝ))))).sum := by
      ext v
      by_cases h : SameCell (rsShifted f V v) p.1 x <;> simp [List.filter_cons, h]
    rw [this]
    exact (Measurable.ite (hms p.1) measurable_const measurable_const).add ih

/-- **C156 (RSHash).** After every history with last fitted instance `x`, for every widths and
features of the `m` components: the chance that the shifts move the score by `ε` or more away from
its average is at most `2 exp (-2 m ε² / B²)`, with `B = log (1 + total weight)` the greatest score
there can be. -/
theorem C156_rshash (hm : 1 ≤ m) (f : Fin m → ℝ) (hf : ∀ r, 0 < f r)
    (V : Fin m → List (Fin dim)) (sp : ℕ) (decay : ℝ) (nh : ℕ) (hnh : 1 ≤ nh)
    (cs : List (Call (Fin dim → ℝ) β)) (earlier : List (Fin dim → ℝ)) (x z : Fin dim → ℝ)
    (hx : fitted cs = earlier ++ [x]) :
    ∃ score : (Fin m × Fin dim → ℝ) → ℝ,
      (∀ u, (call (RsHash.detector realPow2 Real.log) (calls (RsHash.detector realPow2 Real.log)
        (RsHash.new (List.ofFn fun r => rsShifted (f r) (V r) fun d => u (r, d)) sp decay nh) cs).2
        (.score z : Call (Fin dim → ℝ) β)).1 = .value (some (score u))) ∧
      (∀ u, 0 ≤ score u ∧ score u ≤ Real.log (1 + fullCount decay earlier.length)) ∧
      ∀ ε, 0 ≤ ε → chanceOf {u | ε ≤ |score u - average score|} ≤
        2 * Real.exp (-(2 * m * ε ^ 2 / Real.log (1 + fullCount decay earlier.length) ^ 2)) := by
  set X : Fin m → (Fin dim → ℝ) → ℝ := fun r v =>
    Real.log (1 + decayedCount realPow2 decay (rsShifted (f r) (V r) v) earlier x) with hX
  have hb : ∀ r v, 0 ≤ X r v ∧ X r v ≤ Real.log (1 + fullCount decay earlier.length) := by
    intro r v
    have h0 := decayedCount_nonneg decay (rsShifted (f r) (V r) v) earlier x
    have h1 := decayedCount_le decay (rsShifted (f r) (V r) v) earlier x
    exact ⟨Real.log_nonneg (by linarith), Real.log_le_log (by linarith) (by linarith)⟩
  have hm' : (0 : ℝ) < m := by exact_mod_cast hm
  refine ⟨fun u => (∑ r, X r fun d => u (r, d)) / m, ?_, fun u => ⟨?_, ?_⟩, fun ε hε => ?_⟩
  · intro u
    have hne : (List.ofFn fun r => rsShifted (f r) (V r) fun d => u (r, d)) ≠ [] := by
      intro h
      have := congrArg List.length h
      simp at this
      omega
    have := C72_rshash_score (β := β) _ hne sp decay nh hnh cs earlier x z hx
    simp only [call] at this ⊢
    rw [this]
    simp only [rsScore, List.map_ofFn, List.length_ofFn, List.sum_ofFn]
    rfl
  · exact div_nonneg (Finset.sum_nonneg fun r _ => (hb r _).1) hm'.le
  · rw [div_le_iff₀ hm']
    refine (Finset.sum_le_sum fun r _ => (hb r _).2).trans ?_
    simp [mul_comm]
  · have h := Shifts.hoeffding (by omega) X (fun r => ?_) 0 _ hb ε hε
    · rwa [sub_zero] at h
    · exact Real.measurable_log.comp
        (measurable_const.add (decayedCount_measurable decay (f r) (hf r) (V r) earlier x))

end rshash

section xstream
variable {β : Type*} {k n : ℕ}

theorem chainScore_measurable (W : ℕ) (fs : List (Fin k)) (xs : List (Fin k → ℝ)) (x : Fin k → ℝ) :
    Measurable fun v : Fin k → ℝ => chainScore npLog2 W fs v xs x := by
  unfold chainScore
  refine (measurable_min _ _ fun d => Measurable.add ?_ measurable_const).neg
  have h := (foundCount_average (n := 1) W fs 0 xs x d).1
  have h' : Measurable fun v : Fin k → ℝ => (foundCount W fs v xs x d : ℝ) :=
    h.comp (g := fun u : Fin 1 × Fin k → ℝ => (foundCount W fs (fun f => u (0, f)) xs x d : ℝ))
      (f := fun (v : Fin k → ℝ) (p : Fin 1 × Fin k) => v p.2) (by fun_prop)
  exact (Real.measurable_log.comp (measurable_const.add h')).div_const _

/-- The score as a function of the shifts. -/
theorem xstream_of_shifts (mmh3 : String → ℕ → ℕ) (p : StreamhashState ℝ) (W : ℕ) (hW : 1 ≤ W)
    (hn : 1 ≤ n) (fs : Fin n → List (Fin k)) (hfs : ∀ i, fs i ≠ []) (h : List (Call (List ℝ) β))
    (x : List ℝ) (u : Fin n × Fin k → ℝ) :
    (call (XStream.detector mmh3 npLog2) (calls (XStream.detector mmh3 npLog2)
      (XStream.new p W (List.ofFn fun i => ⟨fs i, fun f => u (i, f)⟩)) h).2
      (.score x : Call (List ℝ) β)).1 = .value (.fin ((∑ i, chainScore npLog2 W (fs i)
        (fun f => u (i, f)) (XStream.images mmh3 p h) (XStream.project mmh3 p x)) / n)) := by
  rw [C77_xstream_score mmh3 npLog2 p W hW _ ?_ ?_ h x]
  · simp only [List.map_ofFn, List.length_ofFn, List.sum_ofFn]
    rfl
  · intro h
    have := congrArg List.length h
    simp at this
    omega
  · intro d hd
    obtain ⟨i, rfl⟩ := (List.mem_ofFn' _ _).1 hd
    exact hfs i

/-- **C156 (xStream).** After every history, for every window size `W` and features drawn for the
`n` chains: the chance that the shifts move the score by `ε` or more away from its average is at
most `2 exp (-2 n ε² / log2 (1 + W)²)`. -/
theorem C156_xstream (mmh3 : String → ℕ → ℕ) (p : StreamhashState ℝ) (W : ℕ) (hW : 1 ≤ W)
    (hn : 1 ≤ n) (fs : Fin n → List (Fin k)) (hfs : ∀ i, fs i ≠ []) (h : List (Call (List ℝ) β))
    (x : List ℝ) :
    ∃ score : (Fin n × Fin k → ℝ) → ℝ,
      (∀ u, (call (XStream.detector mmh3 npLog2) (calls (XStream.detector mmh3 npLog2)
        (XStream.new p W (List.ofFn fun i => ⟨fs i, fun f => u (i, f)⟩)) h).2
        (.score x : Call (List ℝ) β)).1 = .value (.fin (score u))) ∧
      ∀ ε, 0 ≤ ε → chanceOf {u | ε ≤ |score u - average score|} ≤
        2 * Real.exp (-(2 * n * ε ^ 2 / Real.logb 2 (1 + W) ^ 2)) := by
  refine ⟨_, xstream_of_shifts mmh3 p W hW hn fs hfs h x, fun ε hε => ?_⟩
  have h := Shifts.hoeffding (by omega) (fun i v => chainScore npLog2 W (fs i) v
    (XStream.images mmh3 p h) (XStream.project mmh3 p x)) (fun i => chainScore_measurable _ _ _ _)
    _ _ (fun i v => chainScore_bounds W (fs i) (hfs i) v _ _) ε hε
  have e : (-1 - -(1 + npLog2 (1 + (W : ℝ)))) ^ 2 = Real.logb 2 (1 + W) ^ 2 := by
    show _ = npLog2 (1 + (W : ℝ)) ^ 2
    ring
  rwa [e] at h

/-- **C156 (xStream, order).** If one instance scores higher than another by `g` on average over
the shifts, then the chance that it does not score higher is at most
`exp (-n g² / (2 log2 (1 + W)²))`. -/
theorem C156_xstream_order (mmh3 : String → ℕ → ℕ) (p : StreamhashState ℝ) (W : ℕ) (hW : 1 ≤ W)
    (hn : 1 ≤ n) (fs : Fin n → List (Fin k)) (hfs : ∀ i, fs i ≠ []) (h : List (Call (List ℝ) β))
    (x y : List ℝ) :
    ∃ scoreX scoreY : (Fin n × Fin k → ℝ) → ℝ,
      (∀ u, (call (XStream.detector mmh3 npLog2) (calls (XStream.detector mmh3 npLog2)
        (XStream.new p W (List.ofFn fun i => ⟨fs i, fun f => u (i, f)⟩)) h).2
        (.score x : Call (List ℝ) β)).1 = .value (.fin (scoreX u))) ∧
      (∀ u, (call (XStream.detector mmh3 npLog2) (calls (XStream.detector mmh3 npLog2)
        (XStream.new p W (List.ofFn fun i => ⟨fs i, fun f => u (i, f)⟩)) h).2
        (.score y : Call (List ℝ) β)).1 = .value (.fin (scoreY u))) ∧
      ∀ g, 0 ≤ g → g ≤ average scoreX - average scoreY →
        chanceOf {u | scoreX u ≤ scoreY u} ≤
          Real.exp (-(n * g ^ 2 / (2 * Real.logb 2 (1 + W) ^ 2))) := by
  refine ⟨_, _, xstream_of_shifts mmh3 p W hW hn fs hfs h x,
    xstream_of_shifts mmh3 p W hW hn fs hfs h y, fun g hg hgap => ?_⟩
  set xs := XStream.images (k := k) mmh3 p h
  set A : Fin n → (Fin k → ℝ) → ℝ := fun i v =>
    chainScore npLog2 W (fs i) v xs (XStream.project mmh3 p x) with hA
  set C : Fin n → (Fin k → ℝ) → ℝ := fun i v =>
    chainScore npLog2 W (fs i) v xs (XStream.project mmh3 p y) with hC
  have hAm : ∀ i, Measurable (A i) := fun i => chainScore_measurable _ _ _ _
  have hCm : ∀ i, Measurable (C i) := fun i => chainScore_measurable _ _ _ _
  have hAb := fun i v => chainScore_bounds W (fs i) (hfs i) v xs (XStream.project mmh3 p x)
  have hCb := fun i v => chainScore_bounds W (fs i) (hfs i) v xs (XStream.project mmh3 p y)
  have hAi : Integrable (fun u : Fin n × Fin k → ℝ => (∑ i, A i fun f => u (i, f)) / n) (uniformDraws _) :=
    (integrable_finset_sum _ fun i _ => (chainScore_average W (fs i) (hfs i) i xs _).1).div_const _
  have hCi : Integrable (fun u : Fin n × Fin k → ℝ => (∑ i, C i fun f => u (i, f)) / n) (uniformDraws _) :=
    (integrable_finset_sum _ fun i _ => (chainScore_average W (fs i) (hfs i) i xs _).1).div_const _
  have hh := Shifts.hoeffding_below (by omega) (fun i v => A i v - C i v)
    (fun i => (hAm i).sub (hCm i)) (-npLog2 (1 + (W : ℝ))) (npLog2 (1 + (W : ℝ)))
    (fun i v => ⟨by have := hAb i v; have := hCb i v; simp only [hA, hC]; linarith,
      by have := hAb i v; have := hCb i v; simp only [hA, hC]; linarith⟩) g hg
  have hsum : ∀ u : Fin n × Fin k → ℝ, (∑ i, (A i (fun f => u (i, f)) - C i fun f => u (i, f))) / (n : ℝ) =
      (∑ i, A i fun f => u (i, f)) / n - (∑ i, C i fun f => u (i, f)) / n := by
    intro u
    rw [Finset.sum_sub_distrib, sub_div]
  have hav : (average fun u : Fin n × Fin k → ℝ =>
      (∑ i, (A i (fun f => u (i, f)) - C i fun f => u (i, f))) / (n : ℝ)) =
      (average fun u : Fin n × Fin k → ℝ => (∑ i, A i fun f => u (i, f)) / n) -
        average fun u : Fin n × Fin k → ℝ => (∑ i, C i fun f => u (i, f)) / n := by
    simp only [hsum]
    exact integral_sub hAi hCi
  have e : Real.exp (-(2 * n * g ^ 2 / (npLog2 (1 + (W : ℝ)) - -npLog2 (1 + (W : ℝ))) ^ 2)) =
      Real.exp (-(n * g ^ 2 / (2 * Real.logb 2 (1 + W) ^ 2))) := by
    congr 2
    show _ = n * g ^ 2 / (2 * npLog2 (1 + (W : ℝ)) ^ 2)
    rw [sub_neg_eq_add, ← two_mul, mul_pow]
    rw [show (2 : ℝ) ^ 2 * npLog2 (1 + (W : ℝ)) ^ 2 = 2 * (2 * npLog2 (1 + (W : ℝ)) ^ 2) by ring,
      mul_assoc, mul_div_mul_left _ _ (by norm_num)]
  rw [e] at hh
  refine le_trans ?_ hh
  unfold chanceOf
  refine ENNReal.toReal_mono (measure_ne_top _ _) (measure_mono fun u hu => ?_)
  simp only [Set.mem_setOf_eq] at hu ⊢
  rw [hav, hsum u]
  linarith

end xstream

/-! The hypotheses are met: a history with two earlier instances, and a hundred chains. -/

example : fitted ([.fit (fun _ => 0) none, .fit (fun _ => 1) none, .fit (fun _ => 2) none] :
    List (Call (Fin 1 → ℝ) Unit)) = [fun _ => 0, fun _ => 1] ++ [fun _ => 2] := rfl

example (mmh3 : String → ℕ → ℕ) (p : StreamhashState ℝ) :=
  C156_xstream (β := Unit) (k := 2) (n := 100) mmh3 p 25 (by norm_num) (by norm_num)
    (fun _ => [0, 1]) (fun _ => by simp) [.fit [1, 2] none] [3, 4]

end Pysad
