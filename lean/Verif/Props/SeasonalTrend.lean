import Verif.Model.SeasonalTrend
import Verif.Proofs.Meters
import Verif.Proofs.Lists

/-! Properties C44-C46: `SeasonalTrendDecomposer`. -/

namespace Pysad

open Spec

/-- Calls for consecutive numbers `k, k+1, ...`, with an invariant `P` on the number
of calls made and a property `Q` of the `j`-th result. -/
theorem inOrder_range_inv {σ α : Type*} {f : σ → ℕ → Res σ α} {P : ℕ → σ → Prop}
    {Q : ℕ → α → Prop}
    (hstep : ∀ k s, P k s → ∃ a s', f s k = .ok a s' ∧ P (k + 1) s' ∧ Q k a) :
    ∀ (n k : ℕ) (s : σ), P k s → ∃ out s', inOrder f s (List.range' k n) = .ok out s' ∧
      P (k + n) s' ∧ out.length = n ∧ ∀ i, i < n → ∃ a, out[i]? = some a ∧ Q (k + i) a := by
  intro n
  induction n with
  | zero => intro k s h; exact ⟨[], s, rfl, by simpa using h, rfl, by simp⟩
  | succ n ih =>
    intro k s h
    obtain ⟨a, s', hf, hP, hQ⟩ := hstep k s h
    obtain ⟨out, s'', ho, hP', hl, hi⟩ := ih (k + 1) s' hP
    refine ⟨a :: out, s'', by simp [List.range'_succ, inOrder, hf, ho],
      by rwa [show k + (n + 1) = k + 1 + n by omega], by simp [hl], ?_⟩
    intro i hlt
    cases i with
    | zero => exact ⟨a, rfl, by simpa using hQ⟩
    | succ i =>
      obtain ⟨b, hb, hq⟩ := hi i (by omega)
      exact ⟨b, by simpa using hb, by rwa [show k + (i + 1) = k + 1 + i by omega]⟩

theorem Transformer.fitTransform_eq {σ α β : Type*} (t : Transformer σ α β) (s : σ)
    (xs : List α) : t.fitTransform s xs = inOrder t.fitTransformPartial s xs := by
  unfold Transformer.fitTransform
  rw [iterate_none, Gen.forEach_ofList]
  simp only [pairs, inOrder_map]

variable {K : Type*} [Field K] [DecidableEq K] {d : ℕ}

/-! ### C44 -/

/-- **C44.** In every state (reachable or not) and for every instance, passed bare or
as the pair that `fit` passes, `fit_transform_partial` succeeds and leaves exactly
the state that `fit_partial` leaves. -/
theorem C44_same_training (s : DecomposerState K d) (x : Fin d → K) :
    ∃ y s', (seasonalTrendDecomposer K d).fitTransformPartial s x = .ok y s' ∧
      (seasonalTrendDecomposer K d).fitPartial s (.row x) = .ok () s' ∧
      (seasonalTrendDecomposer K d).fitPartial s (.pair x) = .ok () s' :=
  ⟨_, _, rfl, rfl, rfl⟩

/-- **C44** for whole datasets: `fit_transform(X)` trains like `fit(X)`. -/
theorem C44_same_training_batch (s : DecomposerState K d) (X : List (Fin d → K)) :
    ((seasonalTrendDecomposer K d).fitTransform s X).state
      = ((seasonalTrendDecomposer K d).fit s X).state := by
  unfold Transformer.fit Transformer.fitTransform
  rw [iterate_none, Gen.forEach_ofList, Gen.forEach_ofList]
  simp only [pairs, inOrder_map]
  suffices h : ∀ X s, ∃ ys us s', inOrder (seasonalTrendDecomposer K d).fitTransformPartial s X
      = .ok ys s' ∧ inOrder (fun s x => (seasonalTrendDecomposer K d).fitPartial s (.pair x)) s X
        = .ok us s' by
    obtain ⟨ys, us, s', h1, h2⟩ := h X s
    rw [h1, h2]; rfl
  intro X
  induction X with
  | nil => intro s; exact ⟨[], [], s, rfl, rfl⟩
  | cons x X ih =>
    intro s
    obtain ⟨y, s', h1, -, h2⟩ := C44_same_training s x
    obtain ⟨ys, us, s'', h3, h4⟩ := ih s'
    exact ⟨y :: ys, () :: us, s'', by simp [inOrder, h1, h3], by simp [inOrder, h2, h4]⟩

/-! ### C45 -/

theorem lastN_range_map {α : Type*} (x : ℕ → α) {w k : ℕ} (h : w ≤ k) :
    lastN w ((List.range k).map x) = (List.range w).map fun j => x (k - w + j) := by
  apply List.ext_getElem
  · simp [lastN]; omega
  · intro i h1 h2
    simp [lastN]

omit [DecidableEq K] in
theorem push_lastN (w : ℕ) (l : List (Fin d → K)) (x : Fin d → K) :
    Decomposer.push w (lastN w l) x = lastN w (l ++ [x]) := by
  rw [lastN_snoc]; rfl

/-- The sum over any `w` consecutive values of a `w`-periodic sequence is the same. -/
theorem sum_window {M : Type*} [AddCommMonoid M] {f : ℕ → M} {w : ℕ}
    (h : ∀ n, f (n + w) = f n) (a : ℕ) :
    ∑ j ∈ Finset.range w, f (a + j) = ∑ j ∈ Finset.range w, f j := by
  induction a with
  | zero => simp
  | succ a ih =>
    rw [← ih]
    cases w with
    | zero => simp
    | succ w =>
      rw [Finset.sum_range_succ, Finset.sum_range_succ']
      have e : f (a + 1 + w) = f (a + 0) := by rw [← h (a + 0)]; congr 1; omega
      rw [e]
      congr 1
      apply Finset.sum_congr rfl
      intro j _
      congr 1; omega

/-- What is known after `k` values of the periodic stream `x`: the window holds the
last `w` of them, and every seasonal estimate is either unused or exact. -/
structure PeriodicInv (s w : ℕ) (x : ℕ → Fin d → K) (m : Fin d → K) (k : ℕ)
    (st : DecomposerState K d) : Prop where
  season : st.seasonLength = s
  trend : st.trendWindow = w
  window : st.window = lastN w ((List.range k).map x)
  seen : st.numSeen = k
  counts : ∃ c : ℕ → ℕ, ∀ p, (Decomposer.arrays st).2 p = (c p : K) ∧
    (p < s → ∀ i, (Decomposer.arrays st).1 p i = (c p : K) * (x p i - m i))

omit [DecidableEq K] in
theorem trend_full [CharZero K] {s w : ℕ} (hw : 0 < w) {x : ℕ → Fin d → K}
    (hx : ∀ n, x (n + s) = x n) (hd : s ∣ w) {k : ℕ} (hk : w ≤ k) (i : Fin d) :
    Decomposer.trend (lastN w ((List.range k).map x)) i
      = (∑ j ∈ Finset.range w, x j i) / (w : K) := by
  have hper : ∀ n, x (n + w) = x n := by
    obtain ⟨q, rfl⟩ := hd
    intro n
    clear hw hk
    induction q with
    | zero => simp
    | succ q ih => rw [← ih, Nat.mul_succ, ← Nat.add_assoc, hx]
  rw [lastN_range_map x hk]
  unfold Decomposer.trend
  simp only [List.length_map, List.length_range, hw.ne', if_false, npMean, List.map_map]
  congr 1
  rw [← sum_window (f := fun j => x j i) (fun n => by rw [hper]) (k - w), ← Multiset.sum_coe,
    ← Multiset.map_coe]
  rfl

theorem periodic_step [CharZero K] {s w : ℕ} (hs : 0 < s) (hw : 0 < w) {x : ℕ → Fin d → K}
    (hx : ∀ n, x (n + s) = x n) (hd : s ∣ w) (k : ℕ) (st : DecomposerState K d)
    (h : PeriodicInv s w x (fun i => (∑ j ∈ Finset.range w, x j i) / (w : K)) k st) :
    ∃ y st', Decomposer.fitTransformPartial st (x k) = .ok y st' ∧
      PeriodicInv s w x (fun i => (∑ j ∈ Finset.range w, x j i) / (w : K)) (k + 1) st' ∧
      (w ≤ k + 1 → y = fun _ => 0) := by
  obtain ⟨h1, h2, h3, h4, c, hc⟩ := h
  have hmod : ∀ n, x (n % s) = x n := by
    intro n
    conv_rhs => rw [← Nat.mod_add_div n s]
    generalize n / s = q
    induction q with
    | zero => simp
    | succ q ih => rw [Nat.mul_succ, ← Nat.add_assoc, hx, ih]
  have hpush : Decomposer.push st.trendWindow st.window (x k)
      = lastN w ((List.range (k + 1)).map x) := by
    rw [h2, h3, push_lastN, List.range_succ, List.map_append]; rfl
  have hlen : (lastN w ((List.range (k + 1)).map x)).length = min w (k + 1) := by
    rw [lastN_length]; simp
  refine ⟨_, _, rfl, ⟨h1, h2, ?_, by simp [h4], ?_⟩, ?_⟩
  · simp [hpush]
  · simp only [Decomposer.arrays, Option.getD_some]
    rw [hpush]
    by_cases hk : w ≤ k + 1
    · refine ⟨Function.update c (st.numSeen % st.seasonLength)
        (c (st.numSeen % st.seasonLength) + 1), ?_⟩
      intro p
      have hl : (lastN w ((List.range (k + 1)).map x)).length = st.trendWindow := by
        rw [hlen, h2]; omega
      simp only [Decomposer.learn, if_pos hl]
      by_cases hp : p = st.numSeen % st.seasonLength
      · subst hp
        simp only [Function.update_self]
        refine ⟨by rw [show (Option.getD st.seasonal (fun _ _ => 0, fun _ => 0)).2
            (st.numSeen % st.seasonLength) = _ from (hc _).1]; push_cast; ring, ?_⟩
        intro hlt i
        rw [show (Option.getD st.seasonal (fun _ _ => 0, fun _ => 0)).1
            (st.numSeen % st.seasonLength) i = _ from (hc _).2 hlt i,
          trend_full hw hx hd hk, h4, h1, hmod]
        push_cast; ring
      · simp only [Function.update_of_ne hp]
        exact hc p
    · have hl : ¬ (lastN w ((List.range (k + 1)).map x)).length = st.trendWindow := by
        rw [hlen, h2]; omega
      simp only [Decomposer.learn, if_neg hl]
      exact ⟨c, hc⟩
  · intro hk
    funext i
    have hl : (lastN w ((List.range (k + 1)).map x)).length = st.trendWindow := by
      rw [hlen, h2]; omega
    have hlt : st.numSeen % st.seasonLength < s := by rw [h1]; exact Nat.mod_lt _ hs
    obtain ⟨hc1, hc2⟩ := hc (st.numSeen % st.seasonLength)
    have hne : (c (st.numSeen % st.seasonLength) : K) + 1 ≠ 0 :=
      Nat.cast_add_one_ne_zero _
    simp only [hpush, Decomposer.learn, if_pos hl, Decomposer.seasonalAt, Function.update_self, hc1,
      if_neg hne, hc2 hlt, trend_full hw hx hd hk]
    rw [h4, h1, hmod]
    field_simp
    ring

/-- **C45.** On a stream `x 0, x 1, ...` that repeats with the season length, for a
trend window that is a multiple `q ≥ 1` of the season length (the default is `q = 1`),
`fit_transform` returns exactly 0 in every feature from the moment the trend window
is full. -/
theorem C45_periodic_zero [CharZero K] (s q : ℕ) (hs : 0 < s) (hq : 0 < q) (x : ℕ → Fin d → K)
    (hx : ∀ n, x (n + s) = x n) (n : ℕ) (s0 : DecomposerState K d)
    (h0 : Decomposer.new (s : ℤ) (some (q * s : ℕ)) = .ok s0) :
    ∃ out s', (seasonalTrendDecomposer K d).fitTransform s0 ((List.range n).map x) = .ok out s' ∧
      out.length = n ∧ ∀ i, i < n → q * s ≤ i + 1 → out[i]? = some fun _ => 0 := by
  have hw : 0 < q * s := Nat.mul_pos hq hs
  have hs0 : s0 = ⟨s, q * s, [], none, 0⟩ := by
    unfold Decomposer.new at h0
    rw [if_neg (by omega)] at h0
    simp only at h0
    rw [if_neg (by push_cast at *; exact_mod_cast Nat.not_lt.2 hw)] at h0
    simp only [Except.ok.injEq] at h0
    rw [← h0]
    simp only [Int.toNat_natCast]
  rw [Transformer.fitTransform_eq, inOrder_map, List.range_eq_range']
  obtain ⟨out, s', ho, -, hl, hi⟩ := inOrder_range_inv
    (f := fun st k => (seasonalTrendDecomposer K d).fitTransformPartial st (x k))
    (Q := fun k y => q * s ≤ k + 1 → y = fun _ => 0)
    (periodic_step hs hw hx (Dvd.intro_left q rfl)) n 0 s0
    ⟨by rw [hs0], by rw [hs0], by simp [hs0], by rw [hs0],
      ⟨fun _ => 0, fun p => by simp [hs0, Decomposer.arrays]⟩⟩
  refine ⟨out, s', ho, hl, ?_⟩
  intro i hlt hk
  obtain ⟨a, ha, hq⟩ := hi i hlt
  rw [ha, hq (by simpa using hk)]

/-- **C45** for the default trend window. -/
theorem C45_periodic_zero_default [CharZero K] (s : ℕ) (hs : 0 < s) (x : ℕ → Fin d → K)
    (hx : ∀ n, x (n + s) = x n) (n : ℕ) (s0 : DecomposerState K d)
    (h0 : Decomposer.new (s : ℤ) none = .ok s0) :
    ∃ out s', (seasonalTrendDecomposer K d).fitTransform s0 ((List.range n).map x) = .ok out s' ∧
      out.length = n ∧ ∀ i, i < n → s ≤ i + 1 → out[i]? = some fun _ => 0 := by
  have := C45_periodic_zero s 1 hs one_pos x hx n s0 (by
    rw [← h0, Nat.one_mul]
    unfold Decomposer.new
    rw [if_neg (by omega)])
  simpa using this

/-- A nontrivial case: period 2, values 1, 5, 1, 5, ... -/
example : ∃ s0 : DecomposerState ℚ 1, Decomposer.new 2 none = .ok s0 ∧
    ∃ out s', (seasonalTrendDecomposer ℚ 1).fitTransform s0
      ((List.range 7).map fun n _ => if n % 2 = 0 then 1 else 5) = .ok out s' ∧
      out[3]? = some fun _ => 0 := by
  refine ⟨⟨2, 2, [], none, 0⟩, rfl, ?_⟩
  obtain ⟨out, s', h1, -, h2⟩ := C45_periodic_zero_default (K := ℚ) (d := 1) 2 (by norm_num)
    (fun n _ => if n % 2 = 0 then 1 else 5) (by intro n; funext; simp) 7 ⟨2, 2, [], none, 0⟩ rfl
  exact ⟨out, s', h1, h2 3 (by norm_num) (by norm_num)⟩

/-! ### C46 -/

/-- The full claim of **C46**: after any history, `fit_transform_partial(x)` returns
what `fit_partial(x)` followed by `transform_partial(x)` returns. -/
def FitTransformIsFitThenTransform : Prop :=
  ∀ (d seasonLength trendWindow : ℕ) (s0 s : DecomposerState ℚ d) (history : List (Fin d → ℚ))
    (x : Fin d → ℚ),
    Decomposer.new seasonLength (some trendWindow) = .ok s0 →
    (seasonalTrendDecomposer ℚ d).fit s0 history = .ok () s →
    ((seasonalTrendDecomposer ℚ d).fitTransformPartial s x).out
      = (((seasonalTrendDecomposer ℚ d).fitPartial s (.row x)).bind fun _ s' =>
          (seasonalTrendDecomposer ℚ d).transformPartial s' x).out

/-- **C46 is false**: season 2, stream 0, 1, 0. -/
theorem C46_fit_then_transform_refuted : ¬ FitTransformIsFitThenTransform := by
  intro h
  have := h 1 2 2 ⟨2, 2, [], none, 0⟩ _ [fun _ => 0, fun _ => 1] (fun _ => 0) rfl rfl
  simp only [seasonalTrendDecomposer, Decomposer.fitTransformPartial, Decomposer.fitPartial,
    Decomposer.transformPartial, Res.bind_ok, Res.out_ok, Except.ok.injEq] at this
  have := congrFun this 0
  revert this
  decide +kernel

/-- **C46, what holds.** In every state and for every `x`, the two differ by the
difference of the seasonal estimates of the next phase and of the phase of `x` itself,
both taken after learning `x`: `transform_partial` assumes that `x` is the next value.
They agree for season length 1, or whenever those two estimates are equal. -/
theorem C46_fit_then_transform_partial (s : DecomposerState K d) (x : Fin d → K) :
    ∃ (y z here next : Fin d → K) (s' s'' : DecomposerState K d),
      (seasonalTrendDecomposer K d).fitTransformPartial s x = .ok y s' ∧
      (((seasonalTrendDecomposer K d).fitPartial s (.row x)).bind fun _ s' =>
        (seasonalTrendDecomposer K d).transformPartial s' x) = .ok z s'' ∧
      here = Decomposer.seasonalAt (Decomposer.arrays s') (s.numSeen % s.seasonLength) ∧
      next = Decomposer.seasonalAt (Decomposer.arrays s') ((s.numSeen + 1) % s.seasonLength) ∧
      (∀ i, y i - z i = next i - here i) ∧
      (s.seasonLength = 1 → y = z) := by
  refine ⟨_, _, _, _, _, _, rfl, rfl, rfl, rfl, ?_, ?_⟩
  · intro i
    simp only [Decomposer.arrays, Option.getD_some, Decomposer.asArray]
    ring
  · intro h1
    simp only [Decomposer.arrays, Option.getD_some, Decomposer.asArray, h1, Nat.mod_one]

end Pysad
