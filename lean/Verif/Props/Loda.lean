import Verif.Model.Loda
import Verif.Proofs.Calls
import Mathlib.Analysis.SpecialFunctions.Log.Basic
import Mathlib.Algebra.Order.BigOperators.Group.List

/-! Properties C65, C66, C86: `LODA`. -/

namespace Pysad

open Spec Loda

/-- numpy's logarithm of a real number. -/
noncomputable def npLog (x : ℝ) : Num ℝ :=
  if x < 0 then .nan else if x = 0 then .negInf else .fin (Real.log x)

section hist
variable {K : Type*} [Field K] [LinearOrder K] [IsStrictOrderedRing K]

/-- The histogram of a single value: its bin is the middle one. -/
theorem npHistogram_single (v : K) (n : ℕ) (hn : 1 ≤ n) :
    npHistogram [v] n = .ok ((List.range n).map (fun i => if i = n / 2 then 1 else 0),
      (List.range (n + 1)).map fun i : ℕ => v - 1 / 2 + (i : K) * (1 / (n : K))) := by
  have hn0 : n ≠ 0 := by omega
  have hnK : (0 : K) < (n : K) := by exact_mod_cast hn
  simp only [npHistogram, if_neg hn0, List.foldl_nil, if_true]
  have hw : (v + 1 / 2 - (v - 1 / 2)) / (n : K) = 1 / (n : K) := by ring_nf
  rw [hw]
  congr 2
  apply List.map_congr_left
  intro i hi
  have hi' := List.mem_range.1 hi
  have key : ∀ j : ℕ, (v - 1 / 2 + (j : K) * (1 / (n : K)) ≤ v ↔ 2 * j ≤ n) := by
    intro j
    rw [show (v - 1 / 2 + (j : K) * (1 / (n : K)) ≤ v) ↔ ((j : K) / n ≤ 1 / 2) by
      rw [mul_one_div]; constructor <;> intro h <;> linarith]
    rw [div_le_div_iff₀ hnK (by norm_num)]
    constructor
    · intro h; have : ((2 * j : ℕ) : K) ≤ (n : K) := by push_cast; linarith
      exact_mod_cast this
    · intro h; have : ((2 * j : ℕ) : K) ≤ (n : K) := by exact_mod_cast h
      push_cast at this; linarith
  have key2 : ∀ j : ℕ, (v < v - 1 / 2 + (j : K) * (1 / (n : K)) ↔ n < 2 * j) := by
    intro j
    rw [← not_le, key j, not_le]
  have key3 : v ≤ v - 1 / 2 + (n : K) * (1 / (n : K)) := by
    rw [mul_one_div_cancel hnK.ne']; linarith
  simp only [List.countP_cons, List.countP_nil, zero_add, Bool.and_eq_true, Bool.or_eq_true,
    decide_eq_true_eq]
  have e1 := key i
  have e2 := key2 (i + 1)
  by_cases hc : i = n / 2
  · rw [if_pos hc, if_pos]
    exact ⟨e1.2 (by omega), Or.inl (e2.2 (by omega))⟩
  · rw [if_neg hc, if_neg]
    rintro ⟨h1, h2⟩
    have := e1.1 h1
    rcases h2 with h2 | ⟨h2, -⟩
    · have := e2.1 h2; omega
    · omega

end hist

section sums

theorem sum_indicator {K : Type*} [Field K] (n k : ℕ) (hk : k < n) (e : K) :
    ((List.range n).map fun i => ((if i = k then 1 else 0 : ℕ) : K) + e).sum = 1 + n * e := by
  induction n with
  | zero => omega
  | succ n ih =>
    rw [List.range_succ, List.map_append, List.sum_append]
    rcases Nat.lt_or_ge k n with h | h
    · rw [ih h]
      have : ¬ n = k := by omega
      simp [this]; ring
    · have : k = n := by omega
      subst this
      have h0 : ((List.range k).map fun i => ((if i = k then 1 else 0 : ℕ) : K) + e)
          = (List.range k).map fun _ => e := by
        apply List.map_congr_left
        intro i hi
        have : ¬ i = k := by have := List.mem_range.1 hi; omega
        simp [this]
      rw [h0]
      simp; ring

end sums

/-- The smallest entry of a histogram: an empty bin. -/
noncomputable def Spec.lodaEmpty (nBins : ℕ) : ℝ := (1 / 10 ^ 12) / (1 + nBins * (1 / 10 ^ 12))

/-- The largest entry of a histogram: the bin with the instance. -/
noncomputable def Spec.lodaFull (nBins : ℕ) : ℝ := (1 + 1 / 10 ^ 12) / (1 + nBins * (1 / 10 ^ 12))

theorem lodaEmpty_pos (n : ℕ) : 0 < lodaEmpty n := by unfold lodaEmpty; positivity

theorem lodaFull_le (n : ℕ) (hn : 1 ≤ n) : lodaFull n ≤ 1 := by
  unfold lodaFull
  rw [div_le_one (by positivity)]
  have : (1 : ℝ) ≤ n := by exact_mod_cast hn
  nlinarith

theorem lodaEmpty_lt_full (n : ℕ) : lodaEmpty n < lodaFull n := by
  unfold lodaEmpty lodaFull
  apply div_lt_div_of_pos_right _ (by positivity)
  linarith

/-- A cut whose histogram was last computed from an instance projected to `v`. -/
def CutOk (nBins d : ℕ) (v : ℝ) (c : LodaCut ℝ) : Prop :=
  c.projection.length = d ∧
  c.histogram = (List.range nBins).map (fun i => if i = nBins / 2 then lodaFull nBins
    else lodaEmpty nBins) ∧
  c.limits = (List.range (nBins + 1)).map fun i : ℕ => v - 1 / 2 + (i : ℝ) * (1 / (nBins : ℝ))

theorem refit_ok (nBins : ℕ) (hn : 1 ≤ nBins) (c : LodaCut ℝ) (v : ℝ) :
    ∃ c', refit nBins c v = .ok c' ∧ c'.projection = c.projection ∧
      CutOk nBins c.projection.length v c' := by
  unfold refit
  rw [npHistogram_single v nBins hn]
  refine ⟨_, rfl, rfl, rfl, ?_, rfl⟩
  simp only [List.map_map]
  have hsum : (List.map ((fun n : ℕ => (n : ℝ) + 1 / 10 ^ 12) ∘
      fun i : ℕ => if i = nBins / 2 then 1 else 0) (List.range nBins)).sum
      = (1 + (nBins : ℝ) * (1 / 10 ^ 12) : ℝ) :=
    sum_indicator nBins (nBins / 2) (by omega) _
  rw [hsum]
  apply List.map_congr_left
  intro i _
  simp only [Function.comp]
  split
  · simp [lodaFull]
  · simp [lodaEmpty]

@[simp] theorem length_zeroAt {K : Type*} [Field K] [LinearOrder K] (r : List ℕ) (p : List K) :
    (zeroAt r p).length = p.length := by
  simp [zeroAt]

/-- A cut that can be scored. -/
def CutGood (nBins d : ℕ) (c : LodaCut ℝ) : Prop := ∃ v, CutOk nBins d v c

theorem fitCuts_ok {G : Type*} (rng : LodaRng G ℝ) (nBins d : ℕ) (hn : 1 ≤ nBins) (x : List ℝ)
    (hx : x.length = d) (g : G) (cs : List (LodaCut ℝ)) (hc : ∀ c ∈ cs, c.projection.length = d) :
    ∃ g' cs', fitCuts rng nBins d x g cs = .ok () (g', cs') ∧ cs'.length = cs.length ∧
      ∀ c ∈ cs', CutOk nBins d (List.zipWith (· * ·) c.projection x).sum c := by
  induction cs generalizing g with
  | nil => exact ⟨g, [], rfl, rfl, by simp⟩
  | cons c cs ih =>
    have hl := hc c (by simp)
    obtain ⟨g', cs', h1, h2, h3⟩ := ih (rng.permutation g d).2 (fun c h => hc c (by simp [h]))
    obtain ⟨c', h4, h5, h6⟩ := refit_ok nBins hn
      { c with projection := zeroAt ((rng.permutation g d).1.take (d - d.sqrt)) c.projection }
      (List.zipWith (· * ·) (zeroAt ((rng.permutation g d).1.take (d - d.sqrt)) c.projection) x).sum
    refine ⟨g', c' :: cs', ?_, by simp [h2], ?_⟩
    · unfold fitCuts
      simp only [project, length_zeroAt, hl, hx, if_true, Except.bind, h4, h1, Res.mapState_ok]
    · intro a ha
      rcases List.mem_cons.1 ha with rfl | ha
      · rw [h5]
        simpa [hl] using h6
      · exact h3 a ha

/-- Whatever happens in a later fit, every cut can still be scored. -/
theorem fitCuts_good {G : Type*} (rng : LodaRng G ℝ) (nBins d : ℕ) (hn : 1 ≤ nBins) (x : List ℝ)
    (g : G) (cs : List (LodaCut ℝ)) (hc : ∀ c ∈ cs, CutGood nBins d c) :
    (fitCuts rng nBins d x g cs).state.2.length = cs.length ∧
      ∀ c ∈ (fitCuts rng nBins d x g cs).state.2, CutGood nBins d c := by
  by_cases hx : x.length = d
  · obtain ⟨g', cs', h1, h2, h3⟩ := fitCuts_ok rng nBins d hn x hx g cs
      (fun c h => (hc c h).choose_spec.1)
    rw [h1]
    exact ⟨h2, fun c h => ⟨_, h3 c h⟩⟩
  · cases cs with
    | nil => simp [fitCuts]
    | cons c cs =>
      obtain ⟨v, h1, h2, h3⟩ := hc c (by simp)
      have hne : ¬ d = x.length := fun h => hx h.symm
      simp only [fitCuts, project, length_zeroAt, h1, if_neg hne, Except.bind, Res.state_err,
        List.length_cons, List.mem_cons, forall_eq_or_imp, true_and]
      exact ⟨⟨v, by simp [h1], h2, h3⟩, fun c h => hc c (by simp [h])⟩

section
variable {G β : Type*}

/-- `randn` returns an array of the requested shape. -/
def Spec.RandnShape {K : Type*} (rng : LodaRng G K) : Prop :=
  ∀ g r c, (rng.randn g r c).1.length = r ∧ ∀ row ∈ (rng.randn g r c).1, row.length = c

/-- The state after a history. -/
def LodaInv (nBins nCuts : ℕ) (X : List (List ℝ)) (s : LodaState G ℝ) : Prop :=
  s.nBins = nBins ∧ s.nRandomCuts = nCuts ∧
  match X with
  | [] => s.arrays = none
  | x :: _ => ∃ cs, s.arrays = some (x.length, cs) ∧ cs.length = nCuts ∧
      ∀ c ∈ cs, CutGood nBins x.length c

theorem loda_inv (rng : LodaRng G ℝ) (hr : RandnShape rng) (log : ℝ → Num ℝ) (nBins nCuts : ℕ)
    (hn : 1 ≤ nBins) (g : G) (cs : List (Call (List ℝ) β)) :
    LodaInv nBins nCuts (fitted cs)
      (calls (Loda.detector rng log) (Loda.new g nBins nCuts) cs).2 := by
  refine calls_inv (d := Loda.detector rng log) (P := fun cs s => LodaInv nBins nCuts (fitted cs) s)
    ?_ _ (⟨rfl, rfl, rfl⟩ : LodaInv nBins nCuts [] (Loda.new g nBins nCuts)) cs
  intro cs s c h
  rw [fitted_append]
  cases c with
  | score x =>
    have : (call (Loda.detector (β := β) rng log) s (.score x)).2 = s := by
      simp only [call, Loda.detector, Loda.scorePartial]
      split <;> rename_i heq
      · split at heq
        · split at heq <;> cases heq <;> rfl
        · split at heq <;> cases heq <;> rfl
      · split at heq
        · split at heq <;> cases heq <;> rfl
        · split at heq <;> cases heq <;> rfl
    rw [this]
    simpa [fitted] using h
  | fit x y =>
    have hcall : (call (Loda.detector (β := β) rng log) s (.fit x y)).2
        = (Loda.fitPartial rng s x).state := by
      simp only [call, Loda.detector]
      cases Loda.fitPartial rng s x <;> rfl
    rw [hcall]
    obtain ⟨hb, hc, h⟩ := h
    cases hX : fitted cs with
    | nil =>
      rw [hX] at h
      simp only at h
      simp only [Loda.fitPartial, h, fitted, List.nil_append]
      obtain ⟨hl, hrow⟩ := hr s.rng s.nRandomCuts x.length
      obtain ⟨g', cs', h1, h2, h3⟩ := fitCuts_ok rng s.nBins x.length (hb ▸ hn) x rfl
        (rng.randn s.rng s.nRandomCuts x.length).2
        ((rng.randn s.rng s.nRandomCuts x.length).1.map fun r =>
          ⟨r, List.replicate s.nBins 0, List.replicate (s.nBins + 1) 0⟩)
        (by
          intro c hc'
          obtain ⟨r, hr', rfl⟩ := List.mem_map.1 hc'
          exact hrow r hr')
      rw [h1]
      refine ⟨hb, hc, cs', rfl, ?_, ?_⟩
      · rw [h2, List.length_map, hl, hc]
      · intro c hc'; rw [← hb]; exact ⟨_, h3 c hc'⟩
    | cons x0 X =>
      rw [hX] at h
      simp only at h
      obtain ⟨cs', h1, h2, h3⟩ := h
      simp only [Loda.fitPartial, h1, List.cons_append]
      obtain ⟨h4, h5⟩ := fitCuts_good rng s.nBins x0.length (hb ▸ hn) x s.rng cs' (hb ▸ h3)
      cases hf : fitCuts rng s.nBins x0.length x s.rng cs' with
      | ok a p =>
        rw [hf] at h4 h5
        exact ⟨hb, hc, p.2, rfl, by rw [← h2]; exact h4, hb ▸ h5⟩
      | err e p =>
        rw [hf] at h4 h5
        exact ⟨hb, hc, p.2, rfl, by rw [← h2]; exact h4, hb ▸ h5⟩

theorem searchLeft_lt (nBins : ℕ) (hn : 1 ≤ nBins) (limits : List ℝ) (v : ℝ) :
    searchLeft nBins limits v < nBins := by
  unfold searchLeft
  have h1 := (limits.take (nBins - 1)).countP_le_length (p := fun l => decide (l < v))
  have h2 : (limits.take (nBins - 1)).length ≤ nBins - 1 := by simp
  omega

theorem scoreCut_ok (nBins nCuts d : ℕ) (hn : 1 ≤ nBins) (x : List ℝ) (hx : x.length = d)
    (a : ℝ) (c : LodaCut ℝ) (hc : CutGood nBins d c) :
    scoreCut npLog nBins nCuts x (.fin a) c = .ok (.fin (a + 1 / nCuts *
      (-Real.log (if searchLeft nBins c.limits (List.zipWith (· * ·) c.projection x).sum = nBins / 2
        then lodaFull nBins else lodaEmpty nBins)))) := by
  obtain ⟨v, h1, h2, h3⟩ := hc
  have hi := searchLeft_lt nBins hn c.limits (List.zipWith (· * ·) c.projection x).sum
  unfold scoreCut
  simp only [project, h1, hx, if_true, Except.bind, pyIndex]
  rw [if_neg (by omega), if_neg (by omega)]
  have : c.histogram[(searchLeft nBins c.limits (List.zipWith (· * ·) c.projection x).sum : ℤ).toNat]?
      = some (if searchLeft nBins c.limits (List.zipWith (· * ·) c.projection x).sum = nBins / 2
        then lodaFull nBins else lodaEmpty nBins) := by
    rw [h2, Int.toNat_natCast, List.getElem?_map, List.getElem?_range hi]; rfl
  rw [this]
  simp only
  set h := (if searchLeft nBins c.limits (List.zipWith (· * ·) c.projection x).sum = nBins / 2
        then lodaFull nBins else lodaEmpty nBins) with hh
  have hpos : 0 < h := by
    rw [hh]; split
    · exact (lodaEmpty_pos _).trans (lodaEmpty_lt_full _)
    · exact lodaEmpty_pos _
  rw [npLog, if_neg (not_lt.2 hpos.le), if_neg hpos.ne']
  simp only [Num.smul, Num.add]
  congr 2
  ring

/-- The mass that cut `c` gives to `x`. -/
noncomputable def Spec.lodaMass (nBins : ℕ) (x : List ℝ) (c : LodaCut ℝ) : ℝ :=
  if searchLeft nBins c.limits (List.zipWith (· * ·) c.projection x).sum = nBins / 2
    then lodaFull nBins else lodaEmpty nBins

theorem foldlM_scoreCut (nBins nCuts d : ℕ) (hn : 1 ≤ nBins) (x : List ℝ) (hx : x.length = d)
    (cs : List (LodaCut ℝ)) (hc : ∀ c ∈ cs, CutGood nBins d c) (a : ℝ) :
    cs.foldlM (scoreCut npLog nBins nCuts x) (.fin a) = .ok (.fin (a + 1 / nCuts *
      (cs.map fun c => -Real.log (lodaMass nBins x c)).sum)) := by
  induction cs generalizing a with
  | nil => simp; rfl
  | cons c cs ih =>
    rw [List.foldlM_cons, scoreCut_ok nBins nCuts d hn x hx a c (hc c (by simp))]
    change List.foldlM _ _ cs = _
    rw [ih (fun c h => hc c (by simp [h]))]
    simp only [List.map_cons, List.sum_cons, lodaMass]
    congr 2
    ring

theorem neg_log_mass (nBins : ℕ) (hn : 1 ≤ nBins) (x : List ℝ) (c : LodaCut ℝ) :
    0 ≤ -Real.log (lodaMass nBins x c) ∧
      -Real.log (lodaMass nBins x c) ≤ -Real.log (lodaEmpty nBins) := by
  have h1 := lodaEmpty_pos nBins
  have h2 := lodaEmpty_lt_full nBins
  have h3 := lodaFull_le nBins hn
  unfold lodaMass
  split
  · exact ⟨by have := Real.log_nonpos (h1.trans h2).le h3; linarith,
      by have := Real.log_le_log h1 h2.le; linarith⟩
  · exact ⟨by have := Real.log_nonpos h1.le (h2.le.trans h3); linarith, le_refl _⟩

/-- The score in a state whose cuts can all be scored. -/
theorem loda_score_of (rng : LodaRng G ℝ) (nBins nCuts d : ℕ) (hn : 1 ≤ nBins) (hc : 1 ≤ nCuts)
    (s : LodaState G ℝ) (hb : s.nBins = nBins) (hcc : s.nRandomCuts = nCuts)
    (arr : List (LodaCut ℝ)) (h1 : s.arrays = some (d, arr))
    (h3 : ∀ c ∈ arr, CutGood nBins d c) (x : List ℝ) (hx : x.length = d) :
    ((Loda.detector (β := β) rng npLog).scorePartial s x).out = .ok (.fin
      ((1 / nCuts * (arr.map fun c => -Real.log (lodaMass nBins x c)).sum) / nCuts)) := by
  simp only [Loda.detector, Loda.scorePartial, h1, hb, hcc]
  rw [foldlM_scoreCut nBins nCuts d hn x hx arr h3]
  simp only [Res.out_ok, Num.divNat, zero_add]
  rw [if_neg (by omega)]

/-- **C65.** After any history with at least one fit (raising calls included), an
instance with the number of features of the first one scores a finite nonnegative
number, at most `-log` of the mass of an empty bin divided by the number of cuts. -/
theorem C65_loda_finite (rng : LodaRng G ℝ) (hr : RandnShape rng) (nBins nCuts : ℕ)
    (hn : 1 ≤ nBins) (hc : 1 ≤ nCuts) (g : G) (cs : List (Call (List ℝ) β)) (x0 : List ℝ)
    (X : List (List ℝ)) (hX : fitted cs = x0 :: X) (x : List ℝ) (hx : x.length = x0.length) :
    ∃ v : ℝ, 0 ≤ v ∧ v ≤ -Real.log (lodaEmpty nBins) / nCuts ∧
      ((Loda.detector (β := β) rng npLog).scorePartial
        (calls (Loda.detector rng npLog) (Loda.new g nBins nCuts) cs).2 x).out = .ok (.fin v) := by
  have h := loda_inv (β := β) rng hr npLog nBins nCuts hn g cs
  rw [hX] at h
  obtain ⟨hb, hcc, arr, h1, h2, h3⟩ := h
  have hcK : (0 : ℝ) < nCuts := by exact_mod_cast hc
  refine ⟨(1 / nCuts * (arr.map fun c => -Real.log (lodaMass nBins x c)).sum) / nCuts, ?_, ?_, ?_⟩
  · have : 0 ≤ (arr.map fun c => -Real.log (lodaMass nBins x c)).sum := by
      apply List.sum_nonneg
      intro y hy
      obtain ⟨c, -, rfl⟩ := List.mem_map.1 hy
      exact (neg_log_mass nBins hn x c).1
    positivity
  · have hs : (arr.map fun c => -Real.log (lodaMass nBins x c)).sum
        ≤ (arr.map fun c => -Real.log (lodaMass nBins x c)).length • (-Real.log (lodaEmpty nBins)) := by
      apply List.sum_le_card_nsmul
      intro y hy
      obtain ⟨c, -, rfl⟩ := List.mem_map.1 hy
      exact (neg_log_mass nBins hn x c).2
    rw [List.length_map, h2, nsmul_eq_mul] at hs
    apply div_le_div_of_nonneg_right _ hcK.le
    rw [one_div, inv_mul_le_iff₀ hcK]
    exact hs
  · exact loda_score_of rng nBins nCuts x0.length hn hc _ hb hcc arr h1 h3 x hx

/-- **C65.** Before the first fit scoring raises `AttributeError`. -/
theorem C65_loda_unfitted (rng : LodaRng G ℝ) (hr : RandnShape rng) (nBins nCuts : ℕ)
    (hn : 1 ≤ nBins) (hc : 1 ≤ nCuts) (g : G) (cs : List (Call (List ℝ) β))
    (hX : fitted cs = []) (x : List ℝ) :
    ((Loda.detector (β := β) rng npLog).scorePartial
        (calls (Loda.detector rng npLog) (Loda.new g nBins nCuts) cs).2 x).out
      = .error .attributeError := by
  have h := loda_inv (β := β) rng hr npLog nBins nCuts hn g cs
  rw [hX] at h
  obtain ⟨hb, hcc, h1⟩ := h
  simp only at h1
  simp only [Loda.detector, Loda.scorePartial] at h1 hcc ⊢
  simp only [h1, hcc]
  rw [if_neg (by omega)]; rfl

/-! ### The last instance -/

/-- After a fit with the right number of features, every cut holds the histogram of
that instance alone. -/
theorem loda_last (rng : LodaRng G ℝ) (hr : RandnShape rng) (log : ℝ → Num ℝ) (nBins nCuts : ℕ)
    (hn : 1 ≤ nBins) (g : G) (cs : List (Call (List ℝ) β)) (z : List ℝ) (y : Option β)
    (hd : ∀ x0 ∈ (fitted cs).head?, z.length = x0.length) :
    ∃ s arr, (calls (Loda.detector rng log) (Loda.new g nBins nCuts) (cs ++ [.fit z y])).2 = s ∧
      s.nBins = nBins ∧ s.nRandomCuts = nCuts ∧ s.arrays = some (z.length, arr) ∧
      arr.length = nCuts ∧
      ∀ c ∈ arr, CutOk nBins z.length (List.zipWith (· * ·) c.projection z).sum c := by
  have h := loda_inv (β := β) rng hr log nBins nCuts hn g cs
  rw [calls_snoc]
  set s := (calls (Loda.detector rng log) (Loda.new g nBins nCuts) cs).2 with hs
  have hcall : (call (Loda.detector (β := β) rng log) s (.fit z y)).2
      = (Loda.fitPartial rng s z).state := by
    simp only [call, Loda.detector]
    cases Loda.fitPartial rng s z <;> rfl
  rw [hcall]
  obtain ⟨hb, hc, h⟩ := h
  cases hX : fitted cs with
  | nil =>
    rw [hX] at h
    simp only at h
    obtain ⟨hl, hrow⟩ := hr s.rng s.nRandomCuts z.length
    obtain ⟨g', cs', h1, h2, h3⟩ := fitCuts_ok rng s.nBins z.length (hb ▸ hn) z rfl
      (rng.randn s.rng s.nRandomCuts z.length).2
      ((rng.randn s.rng s.nRandomCuts z.length).1.map fun r =>
        ⟨r, List.replicate s.nBins 0, List.replicate (s.nBins + 1) 0⟩)
      (by
        intro c hc'
        obtain ⟨r, hr', rfl⟩ := List.mem_map.1 hc'
        exact hrow r hr')
    have hf : (Loda.fitPartial rng s z).state
        = { s with rng := g', arrays := some (z.length, cs') } := by
      simp only [Loda.fitPartial, h, h1, Res.mapState_ok, Res.state_ok]
    rw [List.length_map, hl, hc] at h2
    exact ⟨_, cs', hf, hb, hc, rfl, h2, hb ▸ h3⟩
  | cons x0 X =>
    rw [hX] at h hd
    simp only at h
    have hz : z.length = x0.length := hd x0 (by simp)
    obtain ⟨cs', h1, h2, h3⟩ := h
    obtain ⟨g', cs'', h4, h5, h6⟩ := fitCuts_ok rng s.nBins x0.length (hb ▸ hn) z hz s.rng cs'
      (fun c h => (h3 c h).choose_spec.1)
    have hf : (Loda.fitPartial rng s z).state
        = { s with rng := g', arrays := some (x0.length, cs'') } := by
      simp only [Loda.fitPartial, h1, h4, Res.mapState_ok, Res.state_ok]
    rw [hz]
    exact ⟨_, cs'', hf, hb, hc, rfl, by rw [h5, h2], hb ▸ h6⟩

theorem countP_double (n m : ℕ) :
    (List.range m).countP (fun i => decide (2 * i < n)) = min m ((n + 1) / 2) := by
  induction m with
  | zero => simp
  | succ m ih =>
    rw [List.range_succ, List.countP_append, ih]
    simp only [List.countP_cons, List.countP_nil, decide_eq_true_eq]
    split <;> omega

theorem searchLeft_last (nBins : ℕ) (hn : 1 ≤ nBins) (v : ℝ) :
    searchLeft nBins ((List.range (nBins + 1)).map
      fun i : ℕ => v - 1 / 2 + (i : ℝ) * (1 / (nBins : ℝ))) v = min (nBins - 1) ((nBins + 1) / 2) := by
  have hnK : (0 : ℝ) < (nBins : ℝ) := by exact_mod_cast hn
  unfold searchLeft
  rw [← List.map_take, List.take_range, List.countP_map, ← countP_double]
  rw [min_eq_left (by omega)]
  apply List.countP_congr
  intro i _
  simp only [Function.comp, decide_eq_true_eq]
  rw [show (v - 1 / 2 + (i : ℝ) * (1 / (nBins : ℝ)) < v) ↔ ((i : ℝ) / nBins < 1 / 2) by
      rw [mul_one_div]; constructor <;> intro h <;> linarith]
  rw [div_lt_div_iff₀ hnK (by norm_num)]
  constructor
  · intro h; have : ((2 * i : ℕ) : ℝ) < (nBins : ℝ) := by push_cast; linarith
    exact_mod_cast this
  · intro h; have : ((2 * i : ℕ) : ℝ) < (nBins : ℝ) := by exact_mod_cast h
    push_cast at this; linarith

/-- The score of the instance just fitted. -/
theorem loda_score_last (rng : LodaRng G ℝ) (hr : RandnShape rng) (nBins nCuts : ℕ)
    (hn : 1 ≤ nBins) (hc : 1 ≤ nCuts) (g : G) (cs : List (Call (List ℝ) β)) (z : List ℝ)
    (y : Option β) (hd : ∀ x0 ∈ (fitted cs).head?, z.length = x0.length) :
    ((Loda.detector (β := β) rng npLog).scorePartial
        (calls (Loda.detector rng npLog) (Loda.new g nBins nCuts) (cs ++ [.fit z y])).2 z).out
      = .ok (.fin (-Real.log (if min (nBins - 1) ((nBins + 1) / 2) = nBins / 2 then lodaFull nBins
          else lodaEmpty nBins) / nCuts)) := by
  obtain ⟨s, arr, h0, hb, hcc, h1, h2, h3⟩ := loda_last rng hr npLog nBins nCuts hn g cs z y hd
  rw [h0, loda_score_of rng nBins nCuts z.length hn hc s hb hcc arr h1 (fun c h => ⟨_, h3 c h⟩) z rfl]
  have hcK : (nCuts : ℝ) ≠ 0 := by have : (0 : ℝ) < nCuts := by exact_mod_cast hc
                                   exact this.ne'
  have : (arr.map fun c => -Real.log (lodaMass nBins z c)) = List.replicate nCuts
      (-Real.log (if min (nBins - 1) ((nBins + 1) / 2) = nBins / 2 then lodaFull nBins
          else lodaEmpty nBins)) := by
    rw [← h2, ← List.map_const']
    apply List.map_congr_left
    intro c hc'
    obtain ⟨-, -, h6⟩ := h3 c hc'
    simp only [lodaMass]
    rw [h6, searchLeft_last nBins hn]
  rw [this, List.sum_replicate, nsmul_eq_mul]
  congr 2
  field_simp

/-- **C86, as one would expect it**: the instance just fitted lies in the full bin of
every cut, so it gets the smallest score there is. -/
def C86_loda_bin_statement : Prop :=
  ∀ (rng : LodaRng Unit ℝ), RandnShape rng → ∀ nBins nCuts, 1 ≤ nBins → 1 ≤ nCuts →
  ∀ (cs : List (Call (List ℝ) Unit)) (z : List ℝ),
    (∀ x0 ∈ (fitted cs).head?, z.length = x0.length) →
    ((Loda.detector (β := Unit) rng npLog).scorePartial
        (calls (Loda.detector rng npLog) (Loda.new () nBins nCuts) (cs ++ [.fit z none])).2 z).out
      = .ok (.fin (-Real.log (lodaFull nBins) / nCuts))

/-- **C86.** With an odd number of bins (three or more) it is looked up in the next bin,
which is empty: for every history it gets the greatest score there is. -/
theorem C86_loda_odd (rng : LodaRng G ℝ) (hr : RandnShape rng) (k nCuts : ℕ)
    (hk : 1 ≤ k) (hc : 1 ≤ nCuts) (g : G) (cs : List (Call (List ℝ) β)) (z : List ℝ)
    (y : Option β) (hd : ∀ x0 ∈ (fitted cs).head?, z.length = x0.length) :
    ((Loda.detector (β := β) rng npLog).scorePartial
        (calls (Loda.detector rng npLog) (Loda.new g (2 * k + 1) nCuts) (cs ++ [.fit z y])).2 z).out
      = .ok (.fin (-Real.log (lodaEmpty (2 * k + 1)) / nCuts)) := by
  rw [loda_score_last rng hr (2 * k + 1) nCuts (by omega) hc g cs z y hd, if_neg (by omega)]

/-- **C86 (partial).** With an even number of bins, or with one, it gets the smallest. -/
theorem C86_loda_even_partial (rng : LodaRng G ℝ) (hr : RandnShape rng) (nBins nCuts : ℕ)
    (hn : nBins = 1 ∨ (1 ≤ nBins ∧ nBins % 2 = 0)) (hc : 1 ≤ nCuts) (g : G)
    (cs : List (Call (List ℝ) β)) (z : List ℝ)
    (y : Option β) (hd : ∀ x0 ∈ (fitted cs).head?, z.length = x0.length) :
    ((Loda.detector (β := β) rng npLog).scorePartial
        (calls (Loda.detector rng npLog) (Loda.new g nBins nCuts) (cs ++ [.fit z y])).2 z).out
      = .ok (.fin (-Real.log (lodaFull nBins) / nCuts)) := by
  rw [loda_score_last rng hr nBins nCuts (by omega) hc g cs z y hd, if_pos (by omega)]

end

/-- A generator for examples: all directions are the all-ones vector. -/
def onesRng (K : Type*) [Field K] : LodaRng Unit K where
  randn _ r c := (List.replicate r (List.replicate c 1), ())
  permutation _ n := (List.range n, ())

theorem onesRng_shape : RandnShape (onesRng ℝ) := by
  intro g r c
  refine ⟨by simp [onesRng], ?_⟩
  intro row h
  simp only [onesRng] at h
  rw [List.eq_of_mem_replicate h]; simp

/-- **C86 is false.** -/
theorem C86_loda_bin_refuted : ¬ C86_loda_bin_statement := by
  intro h
  have h1 := h (onesRng ℝ) onesRng_shape 3 1 (by norm_num) (by norm_num) [] [0] (by simp [fitted])
  rw [C86_loda_odd (onesRng ℝ) onesRng_shape 1 1 (by norm_num) (by norm_num) () [] [0] none
    (by simp [fitted])] at h1
  simp only [Except.ok.injEq, Num.fin.injEq, Nat.cast_one, div_one, neg_inj] at h1
  have h2 := Real.log_lt_log (lodaEmpty_pos 3) (lodaEmpty_lt_full 3)
  exact h2.ne h1

/-! ### C66 -/

/-- **C66, as one would expect it**: the histogram of every cut is made of counts of all
the instances fitted so far. -/
def C66_loda_accumulates_statement : Prop :=
  ∀ (rng : LodaRng Unit ℝ), RandnShape rng → ∀ nBins nCuts d, 1 ≤ nBins → 1 ≤ nCuts →
  ∀ X : List (List ℝ), X ≠ [] → (∀ x ∈ X, x.length = d) →
  ∀ arr, (calls (Loda.detector (β := Unit) rng npLog) (Loda.new () nBins nCuts)
      (X.map fun x => .fit x none)).2.arrays = some (d, arr) →
  ∀ c ∈ arr, ∃ counts : List ℕ, counts.length = nBins ∧ counts.sum = X.length ∧
    c.histogram = counts.map fun n : ℕ =>
      ((n : ℝ) + 1 / 10 ^ 12) / (X.length + nBins * (1 / 10 ^ 12))

/-- **C66 is false**: after two fits with two bins the masses are still those of one
instance. -/
theorem C66_loda_accumulates_refuted : ¬ C66_loda_accumulates_statement := by
  intro h
  obtain ⟨s, arr, h0, -, -, h1, h2, h3⟩ := loda_last (β := Unit) (onesRng ℝ) onesRng_shape npLog 2 1
    (by norm_num) () [.fit [0] none] [0] none (by simp [fitted])
  have h4 := h (onesRng ℝ) onesRng_shape 2 1 1 (by norm_num) (by norm_num) [[0], [0]] (by simp)
    (by simp) arr
    (by
      simp only [List.map_cons, List.map_nil]
      rw [show ([.fit [0] none, .fit [0] none] : List (Call (List ℝ) Unit))
        = [.fit [0] none] ++ [.fit [0] none] from rfl, h0, h1]; rfl)
  match arr, h2 with
  | [c], _ =>
    obtain ⟨counts, hl, hs, hh⟩ := h4 c (by simp)
    obtain ⟨-, hist, -⟩ := h3 c (by simp)
    match counts, hl with
    | [a, b], _ =>
      rw [hist] at hh
      simp only [List.range_succ, List.range_zero, List.nil_append, List.map_append, List.map_cons,
        List.map_nil, List.cons_append, List.length_cons, List.length_nil, lodaFull,
        lodaEmpty] at hh
      norm_num at hh
      have hb := hh.2
      rcases Nat.lt_or_ge b 2 with h5 | h5
      · interval_cases b <;> norm_num at hb
      · have : (2 : ℝ) ≤ (b : ℝ) := by exact_mod_cast h5
        nlinarith

section forget
variable {G β K : Type*} [Field K] [LinearOrder K]

/-- The arrays a refit computes from the projected value. -/
theorem refit_eq [IsStrictOrderedRing K] (nBins : ℕ) (hn : 1 ≤ nBins) :
    ∃ (H : List K) (L : K → List K), ∀ c v, refit nBins c v = .ok ⟨c.projection, H, L v⟩ := by
  have h : ∃ H : List K, H = (let h := ((List.range nBins).map fun i : ℕ =>
      if i = nBins / 2 then 1 else 0).map fun n : ℕ => (n : K) + 1 / 10 ^ 12
    h.map (· / h.sum)) := ⟨_, rfl⟩
  obtain ⟨H, hH⟩ := h
  refine ⟨H, fun v => (List.range (nBins + 1)).map fun i : ℕ => v - 1 / 2 + (i : K) * (1 / (nBins : K)),
    fun c v => ?_⟩
  unfold refit
  rw [npHistogram_single v nBins hn, hH]

/-- One fit with the right number of features: what does not depend on the instance. -/
theorem fitCuts_same [IsStrictOrderedRing K] (rng : LodaRng G K) (nBins d : ℕ) (hn : 1 ≤ nBins)
    (x x' : List K) (hx : x.length = d) (hx' : x'.length = d) (g : G) (cs cs' : List (LodaCut K))
    (hp : cs.map LodaCut.projection = cs'.map LodaCut.projection)
    (hc : ∀ c ∈ cs, c.projection.length = d) :
    ∃ g' a a', fitCuts rng nBins d x g cs = .ok () (g', a) ∧
      fitCuts rng nBins d x' g cs' = .ok () (g', a') ∧
      a.map LodaCut.projection = a'.map LodaCut.projection ∧
      (∀ c ∈ a, c.projection.length = d) ∧ (x = x' → a = a') := by
  induction cs generalizing g cs' with
  | nil =>
    simp only [List.map_nil] at hp
    rw [eq_comm, List.map_eq_nil_iff] at hp
    subst hp
    exact ⟨g, [], [], rfl, rfl, rfl, by simp, fun _ => rfl⟩
  | cons c cs ih =>
    cases cs' with
    | nil => simp at hp
    | cons c' cs' =>
      simp only [List.map_cons, List.cons.injEq] at hp
      obtain ⟨hp1, hp2⟩ := hp
      have hl := hc c (by simp)
      obtain ⟨g', a, a', h1, h2, h3, h4, h5⟩ :=
        ih (rng.permutation g d).2 cs' hp2 (fun c h => hc c (by simp [h]))
      have hl' : c'.projection.length = d := by rw [← hp1]; exact hl
      obtain ⟨H, L, hR⟩ := refit_eq (K := K) nBins hn
      set z := zeroAt ((rng.permutation g d).1.take (d - d.sqrt)) c.projection with hz
      have hzl : z.length = d := by simp [hz, hl]
      refine ⟨g', ⟨z, H, L (List.zipWith (· * ·) z x).sum⟩ :: a,
        ⟨z, H, L (List.zipWith (· * ·) z x').sum⟩ :: a', ?_, ?_, ?_, ?_, ?_⟩
      · simp only [fitCuts, project, ← hz, hzl, hx, if_true, Except.bind, hR, h1,
          Res.mapState_ok]
      · simp only [fitCuts, project, ← hp1, ← hz, hzl, hx', if_true, Except.bind, hR, h2,
          Res.mapState_ok]
      · simp only [List.map_cons, h3]
      · intro a ha
        rcases List.mem_cons.1 ha with rfl | ha
        · exact hzl
        · exact h4 a ha
      · intro hxx
        subst hxx
        rw [h5 rfl]

/-- Two states that differ at most in the histograms and limits. -/
def SameButHistograms (d : ℕ) (s s' : LodaState G K) : Prop :=
  s.rng = s'.rng ∧ s.nBins = s'.nBins ∧ s.nRandomCuts = s'.nRandomCuts ∧
  ((s.arrays = none ∧ s'.arrays = none) ∨
    ∃ cs cs', s.arrays = some (d, cs) ∧ s'.arrays = some (d, cs') ∧
      cs.map LodaCut.projection = cs'.map LodaCut.projection ∧
      ∀ c ∈ cs, c.projection.length = d)

theorem fit_same [IsStrictOrderedRing K] (rng : LodaRng G K) (hr : RandnShape rng) (d : ℕ)
    (s s' : LodaState G K) (h : SameButHistograms d s s') (hn : 1 ≤ s.nBins) (x x' : List K)
    (hx : x.length = d) (hx' : x'.length = d) :
    SameButHistograms d (Loda.fitPartial rng s x).state (Loda.fitPartial rng s' x').state ∧
    (Loda.fitPartial rng s x).state.nBins = s.nBins ∧
    (x = x' → (Loda.fitPartial rng s x).state = (Loda.fitPartial rng s' x').state) := by
  obtain ⟨g, n, m, a⟩ := s
  obtain ⟨g', n', m', a'⟩ := s'
  obtain ⟨rfl, rfl, rfl, h⟩ := h
  simp only at h hn
  rcases h with ⟨rfl, rfl⟩ | ⟨cs, cs', rfl, rfl, h1, h2⟩
  · have hrow := (hr g m d).2
    obtain ⟨g', a, a', e1, e2, e3, e4, e5⟩ := fitCuts_same rng n d hn x x' hx hx'
      (rng.randn g m d).2 ((rng.randn g m d).1.map fun r =>
          ⟨r, List.replicate n 0, List.replicate (n + 1) 0⟩) _ rfl
      (by
        intro c hc'
        obtain ⟨r, hr', rfl⟩ := List.mem_map.1 hc'
        exact hrow r hr')
    simp only [Loda.fitPartial, hx, hx', e1, e2, Res.mapState_ok, Res.state_ok, true_and]
    refine ⟨⟨rfl, rfl, rfl, Or.inr ⟨a, a', rfl, rfl, e3, e4⟩⟩, ?_⟩
    intro hxx; rw [e5 hxx]
  · obtain ⟨g', a, a', e1, e2, e3, e4, e5⟩ := fitCuts_same rng n d hn x x' hx hx' g cs cs' h1 h2
    simp only [Loda.fitPartial, e1, e2, Res.mapState_ok, Res.state_ok, true_and]
    refine ⟨⟨rfl, rfl, rfl, Or.inr ⟨a, a', rfl, rfl, e3, e4⟩⟩, ?_⟩
    intro hxx; rw [e5 hxx]

/-- **C66 (partial).** What does hold: everything but the random directions is
forgotten. Two streams of the same length with the same last instance leave `LODA` in
the same state, so all later scores agree. -/
theorem C66_loda_forgets_partial [IsStrictOrderedRing K] (rng : LodaRng G K)
    (hr : RandnShape rng) (log : K → Num K) (nBins nCuts d : ℕ) (hn : 1 ≤ nBins) (g : G)
    (X X' : List (List K)) (hl : X.length = X'.length) (hX : ∀ x ∈ X, x.length = d)
    (hX' : ∀ x ∈ X', x.length = d) (z : List K) (hz : z.length = d) :
    (calls (Loda.detector (β := β) rng log) (Loda.new g nBins nCuts)
      ((X ++ [z]).map fun x => .fit x none)).2 =
    (calls (Loda.detector (β := β) rng log) (Loda.new g nBins nCuts)
      ((X' ++ [z]).map fun x => .fit x none)).2 := by
  have hcall : ∀ (s : LodaState G K) (x : List K),
      (call (Loda.detector (β := β) rng log) s (.fit x none)).2
        = (Loda.fitPartial rng s x).state := by
    intro s x
    simp only [call, Loda.detector]
    cases Loda.fitPartial rng s x <;> rfl
  have key : ∀ (X X' : List (List K)), X.length = X'.length → (∀ x ∈ X, x.length = d) →
      (∀ x ∈ X', x.length = d) → ∀ s s' : LodaState G K, SameButHistograms d s s' → 1 ≤ s.nBins →
      SameButHistograms d
        (calls (Loda.detector (β := β) rng log) s (X.map fun x => .fit x none)).2
        (calls (Loda.detector (β := β) rng log) s' (X'.map fun x => .fit x none)).2 ∧
      1 ≤ (calls (Loda.detector (β := β) rng log) s (X.map fun x => .fit x none)).2.nBins := by
    intro X
    induction X with
    | nil =>
      intro X' hl _ _ s s' h h'
      have : X' = [] := List.length_eq_zero_iff.1 hl.symm
      subst this
      exact ⟨h, h'⟩
    | cons x X ih =>
      intro X' hl hX hX' s s' h h'
      cases X' with
      | nil => simp at hl
      | cons x' X' =>
        simp only [List.map_cons, calls, hcall]
        obtain ⟨e1, e2, -⟩ := fit_same rng hr d s s' h h' x x' (hX x (by simp)) (hX' x' (by simp))
        exact ih X' (by simpa using hl) (fun x h => hX x (by simp [h]))
          (fun x h => hX' x (by simp [h])) _ _ e1 (by rw [e2]; exact h')
  obtain ⟨h1, h2⟩ := key X X' hl hX hX' (Loda.new g nBins nCuts) (Loda.new g nBins nCuts)
    ⟨rfl, rfl, rfl, Or.inl ⟨rfl, rfl⟩⟩ hn
  simp only [List.map_append, List.map_cons, List.map_nil, calls_snoc, hcall]
  exact (fit_same rng hr d _ _ h1 h2 z z hz hz).2.2 rfl

end forget

/-- A concrete run: one direction (1, 1) of which one component is zeroed, two bins;
the third fit is refused for its length. -/
example : (calls (Loda.detector (β := Unit) (onesRng ℚ) .fin) (Loda.new () 2 1)
    [.score [1, 2], .fit [3, 4] none, .fit [1, 2] none, .fit [1] none]).1
      = [.raised .attributeError, .done, .done, .raised .valueError] ∧
    (calls (Loda.detector (β := Unit) (onesRng ℚ) .fin) (Loda.new () 2 1)
      [.score [1, 2], .fit [3, 4] none, .fit [1, 2] none, .fit [1] none]).2.arrays
      = some (2, [⟨[0, 1], [(1 / 10 ^ 12) / (1 + 2 / 10 ^ 12),
        (1 + 1 / 10 ^ 12) / (1 + 2 / 10 ^ 12)], [3 / 2, 2, 5 / 2]⟩]) := by
  decide +kernel

end Pysad
