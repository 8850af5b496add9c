import Verif.Props.SeasonalEsd
import Verif.Proofs.Grubbs

/-! Properties C160, C161: what `SeasonalESD` and `SeasonalHybridESD` make of a single spike. -/

namespace Pysad

open Spec

/-! ### Specification -/

/-- After the calls `h`, the instance `X` completes a window of `W` values, the decomposition of
which succeeds; `residuals` is what is left of the values without the seasonal component and the
median. The last of them belongs to `X`. -/
def Spec.FullWindow {β : Type*} (stl : List ℝ → Except PyErr (List ℝ)) (W : ℕ)
    (h : List (Call (NdArray ℝ) β)) (X : NdArray ℝ) (residuals : List ℝ) : Prop :=
  ∃ v seasonal median, oneNumber X = some v ∧
    (lastN W ((fitted h).filterMap oneNumber ++ [v])).length = W ∧
    stl (lastN W ((fitted h).filterMap oneNumber ++ [v])) = .ok seasonal ∧ seasonal.length = W ∧
    medianOf (lastN W ((fitted h).filterMap oneNumber ++ [v]) : Multiset ℝ) = some median ∧
    residuals = List.zipWith (fun x s => x - s - median)
      (lastN W ((fitted h).filterMap oneNumber ++ [v])) seasonal

/-- What `score_partial(X)` returns after the calls `h` on a new detector. -/
noncomputable def Spec.sesdScore {β : Type*} (ppf : ℝ → ℤ → ℝ)
    (stl : List ℝ → Except PyErr (List ℝ)) (s0 : SesdState ℝ) (h : List (Call (NdArray ℝ) β))
    (X : NdArray ℝ) : Except PyErr ℝ :=
  ((Sesd.detector (β := β) ⟨Real.sqrt, ppf, stl⟩).scorePartial
    (calls (Sesd.detector ⟨Real.sqrt, ppf, stl⟩) s0 h).2 X).out

/-- Large enough spikes are reported: if all residuals of the window but the newest lie within `b`
of some level `c`, and the newest is further than `T` from it, the score is not 0. How large is
large enough depends only on `b` and on the parameters of the detector. -/
def Spec.ReportsSpikes (hybrid : Bool) : Prop :=
  ∀ (period W m : ℤ) (alpha : ℝ) (s0 : SesdState ℝ), Sesd.new hybrid period W m alpha = .ok s0 →
    ∀ (ppf : ℝ → ℤ → ℝ) (b : ℝ), ∃ T : ℝ, ∀ (stl : List ℝ → Except PyErr (List ℝ))
      (h : List (Call (NdArray ℝ) Unit)) (X : NdArray ℝ) (others : List ℝ) (z c : ℝ),
      FullWindow stl W.toNat h X (others ++ [z]) → (∀ x ∈ others, |x - c| ≤ b) → T < |z - c| →
      ∃ score, sesdScore ppf stl s0 h X = .ok score ∧ 0 < score

/-- The claim of **C160**. -/
def C160_statement : Prop := ∀ hybrid, ReportsSpikes hybrid

/-- The claim of **C161**: the scores have a bound that depends only on the window size. -/
def C161_statement : Prop := ∀ hybrid, ∃ ceiling : ℕ → ℝ,
  ∀ (period W m : ℤ) (alpha : ℝ) (s0 : SesdState ℝ), Sesd.new hybrid period W m alpha = .ok s0 →
    ∀ (ppf : ℝ → ℤ → ℝ) (stl : List ℝ → Except PyErr (List ℝ)) (h : List (Call (NdArray ℝ) Unit))
      (X : NdArray ℝ) (score : ℝ), sesdScore ppf stl s0 h X = .ok score → score ≤ ceiling W.toNat

/-! ### Proofs -/

namespace SesdSpike

section
variable {β : Type*} {hybrid : Bool} {period W m : ℤ} {alpha : ℝ} {s0 : SesdState ℝ}
  (h0 : Sesd.new hybrid period W m alpha = .ok s0) (ppf : ℝ → ℤ → ℝ)
  (stl : List ℝ → Except PyErr (List ℝ)) (h : List (Call (NdArray ℝ) β)) (X : NdArray ℝ)
include h0

theorem sizes : 4 ≤ W.toNat ∧ 1 ≤ m.toNat ∧ 2 * m.toNat ≤ W.toNat := by
  obtain ⟨a1, a2, a3, a4, -⟩ := sesd_new_ok h0
  omega

/-- The score of a full window. -/
theorem run {residuals : List ℝ} (hf : FullWindow stl W.toNat h X residuals) :
    residuals.length = W.toNat ∧
    ∃ cands reported score, EsdCandidates Real.sqrt ppf hybrid alpha m.toNat residuals cands ∧
      LongestSignificantPrefix cands reported ∧ sesdScore ppf stl s0 h X = .ok score ∧
      ((∃ c ∈ reported, c.idx = W.toNat - 1 ∧ score = c.statistic) ∨
        (∀ c ∈ reported, c.idx ≠ W.toNat - 1) ∧ score = 0) := by
  obtain ⟨v, seasonal, median, hX, hlen, hstl, hsl, hmed, rfl⟩ := hf
  constructor
  · rw [List.length_zipWith, hlen, hsl, Nat.min_self]
  have := C75_sesd_value h0 ⟨Real.sqrt, ppf, stl⟩ h X v hX
  simp only at this
  rw [if_neg (by omega), hstl] at this
  obtain ⟨median', cands, reported, e1, e2, e3, score, e4, e5⟩ := this (by omega)
  rw [hmed] at e1
  cases e1
  exact ⟨cands, reported, score, e2, e3, e4, e5⟩

/-- A score is 0 or that of a full window. -/
theorem full_of_ok {score : ℝ} (hs : sesdScore ppf stl s0 h X = .ok score) :
    score = 0 ∨ ∃ residuals, FullWindow stl W.toNat h X residuals := by
  cases hX : oneNumber X with
  | none =>
    have := (C75_sesd_nonneg h0 ⟨Real.sqrt, ppf, stl⟩ h X).1 hX
    unfold sesdScore at hs
    rw [show (Sesd.detector (β := β) ⟨Real.sqrt, ppf, stl⟩).scorePartial = Sesd.scorePartial (K := ℝ)
      ⟨Real.sqrt, ppf, stl⟩ from rfl, this] at hs
    cases hs
  | some v =>
    have hv := C75_sesd_value h0 ⟨Real.sqrt, ppf, stl⟩ h X v hX
    simp only at hv
    by_cases hl : (lastN W.toNat ((fitted h).filterMap oneNumber ++ [v])).length < W.toNat
    · rw [if_pos hl] at hv
      left
      unfold sesdScore at hs
      rw [show (Sesd.detector (β := β) ⟨Real.sqrt, ppf, stl⟩).scorePartial = Sesd.scorePartial (K := ℝ)
        ⟨Real.sqrt, ppf, stl⟩ from rfl, hv] at hs
      exact (Except.ok.inj hs).symm
    · rw [if_neg hl] at hv
      have hfull : (lastN W.toNat ((fitted h).filterMap oneNumber ++ [v])).length = W.toNat := by
        have := lastN_length W.toNat ((fitted h).filterMap oneNumber ++ [v])
        omega
      right
      cases hstl : stl (lastN W.toNat ((fitted h).filterMap oneNumber ++ [v])) with
      | error e =>
        rw [hstl] at hv
        unfold sesdScore at hs
        rw [show (Sesd.detector (β := β) ⟨Real.sqrt, ppf, stl⟩).scorePartial = Sesd.scorePartial (K := ℝ)
          ⟨Real.sqrt, ppf, stl⟩ from rfl, hv] at hs
        cases hs
      | ok seasonal =>
        have hsl : seasonal.length = W.toNat := by
          by_contra hne
          obtain ⟨_, _, _, _, _, _, hs0⟩ := sesd_new_ok h0
          have hst := sesd_calls h0 ⟨Real.sqrt, ppf, stl⟩ h
          have : sesdScore ppf stl s0 h X
              = Sesd.scoreWindow ⟨Real.sqrt, ppf, stl⟩ (calls (Sesd.detector ⟨Real.sqrt, ppf, stl⟩) s0 h).2
                (lastN W.toNat ((fitted h).filterMap oneNumber ++ [v])) := by
            unfold sesdScore
            show (Sesd.scorePartial _ _ X).out = _
            unfold Sesd.scorePartial Sesd.candidateWindow
            rw [asValue_eq, hX, Res.out_ofExcept]
            simp only [Except.map, Except.bind]
            rw [hst]
            simp only [Window.get]
            have h3 : (lastN W.toNat ((fitted h).filterMap oneNumber) ++ [v]).drop
                ((lastN W.toNat ((fitted h).filterMap oneNumber) ++ [v]).length - W.toNat)
                = lastN W.toNat ((fitted h).filterMap oneNumber ++ [v]) := lastN_lastN_append _ _ _
            rw [show s0.windowSize = W.toNat by rw [hs0], h3]
          rw [this, hst] at hs
          unfold Sesd.scoreWindow at hs
          simp only at hs
          rw [if_neg (by rw [hs0]; simpa using hl)] at hs
          unfold ModifiedStl.transformWindow ModifiedStl.subtract at hs
          rw [hs0] at hs
          simp only [hstl, Except.bind] at hs
          split at hs
          · rename_i heq
            split at heq
            · cases hs
            · cases hs
          · rename_i heq
            split at heq
            · cases heq
            · rw [if_pos (by omega)] at heq
              cases heq
        obtain ⟨median, hmed⟩ := medianOf_isSome
          (l := lastN W.toNat ((fitted h).filterMap oneNumber ++ [v])) (by
            intro hn
            rw [hn] at hfull
            have := (sizes h0).1
            simp at hfull
            omega)
        exact ⟨_, v, seasonal, median, hX, hfull, hstl, hsl, hmed, rfl⟩

end

/-- What is at a position. -/
theorem zipIdx_cases {others : List ℝ} {z v : ℝ} {i : ℕ} (h : (v, i) ∈ (others ++ [z]).zipIdx) :
    (v ∈ others ∧ i < others.length) ∨ (v = z ∧ i = others.length) := by
  rw [List.mem_zipIdx_iff_getElem?] at h
  rcases lt_trichotomy i others.length with hi | hi | hi
  · rw [List.getElem?_append_left hi] at h
    exact .inl ⟨List.mem_of_getElem? h, hi⟩
  · subst hi
    simp at h
    exact .inr ⟨h.symm, rfl⟩
  · rw [List.getElem?_eq_none (by simp; omega)] at h
    cases h

/-- If the newest residual is strictly the furthest from the center of the window, and
significantly so, its deviation is the score. -/
theorem score_of_significant {β : Type*} {hybrid : Bool} {period W m : ℤ} {alpha : ℝ}
    {s0 : SesdState ℝ} (h0 : Sesd.new hybrid period W m alpha = .ok s0) (ppf : ℝ → ℤ → ℝ)
    (stl : List ℝ → Except PyErr (List ℝ)) (h : List (Call (NdArray ℝ) β)) (X : NdArray ℝ)
    {others : List ℝ} {z : ℝ} (hf : FullWindow stl W.toNat h X (others ++ [z]))
    (hsig : ∀ center scale, CenterScale Real.sqrt hybrid (others ++ [z]) center scale →
      1 / 10 ^ 10 < scale ∧ (∀ x ∈ others, |x - center| < |z - center|) ∧
        esdCritical Real.sqrt ppf alpha W.toNat 1 < |z - center| / scale) :
    ∃ center scale, CenterScale Real.sqrt hybrid (others ++ [z]) center scale ∧
      sesdScore ppf stl s0 h X = .ok (|z - center| / scale) ∧ 0 < |z - center| / scale := by
  obtain ⟨hlen, cands, reported, score, ⟨k1, k2, k3⟩, ⟨l1, l2, l3⟩, hs, hcase⟩ :=
    run h0 ppf stl h X hf
  obtain ⟨hW, hm, -⟩ := sizes h0
  have hol : others.length + 1 = W.toNat := by simpa using hlen
  have hfst : ((rest (others ++ [z]) []).map Prod.fst) = others ++ [z] := by
    rw [Sesd.rest_nil]; simp
  cases cands with
  | nil =>
    obtain ⟨center, scale, hc, hle⟩ := k3 (by simp; omega)
    simp only [List.map_nil] at hc
    rw [hfst] at hc
    have := (hsig center scale hc).1
    exact absurd this (not_lt.2 hle)
  | cons c cs =>
    obtain ⟨center, scale, v, hc, -, hmem, hst, hmax, -, hcrit⟩ := k2 0 c rfl
    simp only [List.take_zero, List.map_nil] at hc hmem hmax hcrit
    rw [hfst] at hc
    rw [Sesd.rest_nil] at hmem hmax
    obtain ⟨g1, g2, g3⟩ := hsig center scale hc
    have hpos : (0 : ℝ) < scale := lt_trans (by positivity) g1
    have hzmem : (z, others.length) ∈ (others ++ [z]).zipIdx := by
      rw [List.mem_zipIdx_iff_getElem?]; simp
    have hvz : v = z ∧ c.idx = others.length := by
      rcases zipIdx_cases hmem with ⟨hv, -⟩ | hv
      · have h1 := hmax _ hzmem
        rw [hst] at h1
        have h2 := div_lt_div_of_pos_right (g2 v hv) hpos
        exact absurd h1 (not_le.2 h2)
      · exact hv
    obtain ⟨rfl, hidx⟩ := hvz
    have hex : Exceeds c := by
      unfold Exceeds
      rw [hcrit, hst, hlen]
      simpa using g3
    have hrep : ∃ rs, reported = c :: rs := by
      cases reported with
      | nil => exact absurd hex (l3 [c] ⟨cs, rfl⟩ (by simp) c rfl)
      | cons r rs =>
        obtain ⟨t, ht⟩ := l1
        cases ht
        exact ⟨rs, rfl⟩
    obtain ⟨rs, rfl⟩ := hrep
    have hscore : score = c.statistic := by
      rcases hcase with ⟨d, hd, hdi, hds⟩ | ⟨hno, -⟩
      · rcases List.mem_cons.1 hd with rfl | hd
        · exact hds
        · exfalso
          have hd' : d ∈ cs := by
            obtain ⟨t, ht⟩ := l1
            rw [List.cons_append, List.cons.injEq] at ht
            rw [← ht.2]
            exact List.mem_append_left _ hd
          obtain ⟨j, hj⟩ := List.mem_iff_getElem?.1 hd'
          obtain ⟨_, _, w, _, _, hmem', _⟩ := k2 (j + 1) d (by simpa using hj)
          have hnot := (List.mem_filter.1 hmem').2
          rw [decide_eq_true_eq] at hnot
          apply hnot
          simp only [List.take_succ_cons, List.map_cons, List.mem_cons]
          left
          omega
      · exact absurd (by omega) (hno c (by simp))
    refine ⟨center, scale, hc, ?_, ?_⟩
    · rw [hs, hscore, hst]
    · apply div_pos _ hpos
      cases others with
      | nil => simp at hol; omega
      | cons x _ => exact lt_of_le_of_lt (abs_nonneg _) (g2 x (by simp))

theorem centerScale_plain {l : List ℝ} {center scale : ℝ}
    (h : CenterScale Real.sqrt false l center scale) :
    center = Grubbs.mean l ∧ scale = Grubbs.std l := by
  obtain ⟨rfl, rfl⟩ := h
  exact ⟨rfl, rfl⟩

end SesdSpike

open SesdSpike

/-- **C160**, partial: `SeasonalESD` (mean and standard deviation). With `n` the window size, `t`
the quantile of Student's distribution used for the first removal, all other residuals within `b`
of a level `c` and the newest at a distance `D` from it, the spike is reported if `D > 5 b`,
`(n - 2) (D - b)² > n t² b²` and `D - b > √n / 10¹⁰`. -/
theorem C160_esd_partial {β : Type*} {period W m : ℤ} {alpha : ℝ} {s0 : SesdState ℝ}
    (h0 : Sesd.new false period W m alpha = .ok s0) (ppf : ℝ → ℤ → ℝ)
    (stl : List ℝ → Except PyErr (List ℝ)) (h : List (Call (NdArray ℝ) β)) (X : NdArray ℝ)
    (others : List ℝ) (z c b : ℝ) (hf : FullWindow stl W.toNat h X (others ++ [z]))
    (hb : ∀ x ∈ others, |x - c| ≤ b) (h1 : 5 * b < |z - c|)
    (h2 : (W.toNat : ℝ) * ppf (1 - alpha / (2 * W.toNat)) (W.toNat - 2) ^ 2 * b ^ 2
      < (W.toNat - 2) * (|z - c| - b) ^ 2)
    (h3 : W.toNat / (10 ^ 10) ^ 2 < (|z - c| - b) ^ 2) :
    ∃ score, sesdScore ppf stl s0 h X = .ok score ∧ 0 < score := by
  have hlen := (run h0 ppf stl h X hf).1
  obtain ⟨hW, hm, -⟩ := sizes h0
  have hol : W.toNat = others.length + 1 := by simpa using hlen.symm
  have hk : 3 ≤ others.length := by omega
  have hb0 : 0 ≤ b := by
    cases others with
    | nil => simp at hk
    | cons x _ => exact (abs_nonneg _).trans (hb x (by simp))
  have hWr : (W.toNat : ℝ) = others.length + 1 := by rw [hol]; push_cast; ring
  obtain ⟨center, scale, -, hs, hpos⟩ := score_of_significant h0 ppf stl h X hf (by
    intro center scale hcs
    obtain ⟨rfl, rfl⟩ := centerScale_plain hcs
    have g1 : (1 : ℝ) / 10 ^ 10 < Grubbs.std (others ++ [z]) := by
      refine Grubbs.std_large hk hb (by linarith) _ (by positivity) ?_
      rw [← hWr, div_pow, one_pow, one_div, inv_mul_eq_div]
      exact h3
    refine ⟨g1, fun x hx => Grubbs.farthest hk hb h1 x hx, ?_⟩
    have g2 := Grubbs.exceeds hk hb (z := z) (by linarith)
      (ppf (1 - alpha / (2 * W.toNat)) (W.toNat - 2)) (lt_trans (by positivity) g1) (by
        have e : (W.toNat : ℝ) - 2 = others.length - 1 := by rw [hWr]; ring
        rw [e, hWr] at h2
        rw [hWr]
        exact h2)
    refine lt_of_eq_of_lt ?_ g2
    unfold esdCritical
    simp only [Nat.cast_one]
    rw [show (W.toNat : ℝ) - 1 + 1 = W.toNat by ring,
      show ((W.toNat : ℤ) - 1 - 1) = (W.toNat : ℤ) - 2 by ring,
      show (W.toNat : ℝ) - 1 - 1 = others.length - 1 by rw [hWr]; ring,
      show (W.toNat : ℝ) - 1 = others.length by rw [hWr]; ring, hWr])
  exact ⟨_, hs, hpos⟩

/-- **C160**, partial: in particular `SeasonalESD` reports every large enough spike. -/
theorem C160_esd_reports_partial : ReportsSpikes false := by
  intro period W m alpha s0 h0 ppf b
  refine ⟨5 * |b| + (W.toNat + W.toNat * |ppf (1 - alpha / (2 * W.toNat)) (W.toNat - 2)| * |b|), ?_⟩
  intro stl h X others z c hf hb hT
  have hlen := (run h0 ppf stl h X hf).1
  obtain ⟨hW, hm, -⟩ := sizes h0
  have hW' : (4 : ℝ) ≤ W.toNat := by exact_mod_cast hW
  have hol : W.toNat = others.length + 1 := by simpa using hlen.symm
  have hb0 : 0 ≤ b := by
    cases others with
    | nil => simp at hol; omega
    | cons x _ => exact (abs_nonneg _).trans (hb x (by simp))
  rw [abs_of_nonneg hb0] at hT
  set t := ppf (1 - alpha / (2 * W.toNat)) (W.toNat - 2) with ht
  have hn : 0 ≤ W.toNat * |t| * b := by positivity
  have hR1 : (W.toNat : ℝ) ≤ |z - c| - b := by linarith
  have hR2 : W.toNat * |t| * b < |z - c| - b := by linarith
  refine C160_esd_partial h0 ppf stl h X others z c b hf hb (by linarith) ?_ ?_
  · rw [← ht]
    have s1 := pow_lt_pow_left₀ hR2 hn (two_ne_zero)
    rw [mul_pow, mul_pow, sq_abs] at s1
    have s2 : 0 ≤ (W.toNat : ℝ) * t ^ 2 * b ^ 2 := by positivity
    calc (W.toNat : ℝ) * t ^ 2 * b ^ 2 ≤ W.toNat * (W.toNat * t ^ 2 * b ^ 2) := by nlinarith
      _ = (W.toNat : ℝ) ^ 2 * t ^ 2 * b ^ 2 := by ring
      _ < (|z - c| - b) ^ 2 := s1
      _ ≤ (W.toNat - 2) * (|z - c| - b) ^ 2 := by nlinarith [sq_nonneg (|z - c| - b)]
  · have s1 := pow_le_pow_left₀ (by linarith) hR1 2
    refine lt_of_lt_of_le ?_ s1
    rw [div_lt_iff₀ (by positivity)]
    nlinarith

/-- **C160**, partial: `SeasonalHybridESD` (median and median absolute deviation), provided that
the median absolute deviation of the residuals is not (almost) 0: the spike is reported if it is
further from the level than `3 b` and than `b + 2.9652 b` times the critical value. -/
theorem C160_hybrid_partial {β : Type*} {period W m : ℤ} {alpha : ℝ} {s0 : SesdState ℝ}
    (h0 : Sesd.new true period W m alpha = .ok s0) (ppf : ℝ → ℤ → ℝ)
    (stl : List ℝ → Except PyErr (List ℝ)) (h : List (Call (NdArray ℝ) β)) (X : NdArray ℝ)
    (others : List ℝ) (z c b : ℝ) (hf : FullWindow stl W.toNat h X (others ++ [z]))
    (hb : ∀ x ∈ others, |x - c| ≤ b)
    (hmad : ∀ med mad, medianOf ((others ++ [z] : List ℝ) : Multiset ℝ) = some med →
      medianOf (((others ++ [z]).map fun v => |v - med| : List ℝ) : Multiset ℝ) = some mad →
      1 / 10 ^ 10 < 14826 / 10000 * mad)
    (h1 : 3 * b < |z - c|)
    (h2 : 14826 / 10000 * (2 * b) * esdCritical Real.sqrt ppf alpha W.toNat 1 < |z - c| - b) :
    ∃ score, sesdScore ppf stl s0 h X = .ok score ∧ 0 < score ∧
      (|z - c| - b) / (14826 / 10000 * (2 * b)) ≤ score := by
  have hlen := (run h0 ppf stl h X hf).1
  obtain ⟨hW, hm, -⟩ := sizes h0
  have hol : W.toNat = others.length + 1 := by simpa using hlen.symm
  have key : ∀ center scale, CenterScale Real.sqrt true (others ++ [z]) center scale →
      1 / 10 ^ 10 < scale ∧ scale ≤ 14826 / 10000 * (2 * b) ∧ |center - c| ≤ b := by
    intro center scale hcs
    obtain ⟨hc, mad, hmd, rfl⟩ := hcs
    have hcnt : ∀ p : ℝ → Prop, ∀ [DecidablePred p], (∀ x ∈ others, p x) →
        Mostly p ((others ++ [z] : List ℝ) : Multiset ℝ) := by
      intro p _ hp
      have e : others.countP (fun x => decide (p x)) = others.length :=
        List.countP_eq_length.2 (by intro x hx; simpa using hp x hx)
      unfold Mostly
      rw [Multiset.coe_card, Multiset.coe_countP, List.countP_append, e, List.length_append]
      simp only [List.length_singleton]
      omega
    have hin : c - b ≤ center ∧ center ≤ c + b :=
      medianOf_mostlyWithin (hcnt _ fun x hx => by
        have := abs_le.1 (hb x hx)
        constructor <;> linarith) hc
    have hcen : |center - c| ≤ b := abs_le.2 ⟨by linarith, by linarith⟩
    refine ⟨hmad _ _ hc hmd, ?_, hcen⟩
    have hle : mad ≤ 2 * b := by
      refine medianOf_le_of_mostly (b := 2 * b) ?_ hmd
      rw [← Multiset.map_coe]
      have := hcnt (fun x => |x - center| ≤ 2 * b) fun x hx => by
        have h4 := abs_sub_le x c center
        rw [abs_sub_comm c] at h4
        linarith [hb x hx]
      unfold Mostly at this ⊢
      rw [Multiset.countP_map, Multiset.card_map, ← Multiset.countP_eq_card_filter]
      exact this
    linarith
  have hdist : ∀ center, |center - c| ≤ b → |z - c| - b ≤ |z - center| := by
    intro center hc
    have h4 := abs_sub_le z center c
    linarith
  obtain ⟨center, scale, hcs, hs, hpos⟩ := score_of_significant h0 ppf stl h X hf (by
    intro center scale hcs
    obtain ⟨g1, g2, g3⟩ := key center scale hcs
    have hsp : (0 : ℝ) < scale := lt_trans (by positivity) g1
    have hd := hdist center g3
    refine ⟨g1, fun x hx => ?_, ?_⟩
    · have h4 := abs_sub_le x c center
      rw [abs_sub_comm c] at h4
      linarith [hb x hx]
    · rw [lt_div_iff₀ hsp]
      refine lt_of_lt_of_le ?_ hd
      by_cases hneg : esdCritical Real.sqrt ppf alpha W.toNat 1 ≤ 0
      · refine lt_of_le_of_lt (mul_nonpos_of_nonpos_of_nonneg hneg hsp.le) ?_
        have : 0 ≤ b := (abs_nonneg _).trans g3
        linarith
      · rw [mul_comm]
        exact lt_of_le_of_lt (mul_le_mul_of_nonneg_right g2 (not_le.1 hneg).le) h2)
  obtain ⟨g1, g2, g3⟩ := key center scale hcs
  have hsp : (0 : ℝ) < scale := lt_trans (by positivity) g1
  have h5 : 0 ≤ |z - c| - b := by
    have : 0 ≤ b := (abs_nonneg _).trans g3
    linarith
  exact ⟨_, hs, hpos, div_le_div₀ (abs_nonneg _) (hdist center g3) hsp g2⟩

/-- **C160 is false of `SeasonalHybridESD`**: if more than half of the residuals are the same
number `a`, nothing is reported, however large the spike. -/
theorem C160_hybrid_blind {β : Type*} {period W m : ℤ} {alpha : ℝ} {s0 : SesdState ℝ}
    (h0 : Sesd.new true period W m alpha = .ok s0) (ppf : ℝ → ℤ → ℝ)
    (stl : List ℝ → Except PyErr (List ℝ)) (h : List (Call (NdArray ℝ) β)) (X : NdArray ℝ)
    (residuals : List ℝ) (hf : FullWindow stl W.toNat h X residuals) (a : ℝ)
    (ha : residuals.length < 2 * residuals.count a) :
    sesdScore ppf stl s0 h X = .ok 0 := by
  obtain ⟨hlen, cands, reported, score, ⟨k1, k2, k3⟩, ⟨l1, l2, l3⟩, hs, hcase⟩ :=
    run h0 ppf stl h X hf
  have hmost : ∀ p : ℝ → Prop, ∀ [DecidablePred p], p a →
      Mostly p (residuals : Multiset ℝ) := by
    intro p _ hp
    unfold Mostly
    rw [Multiset.coe_card, Multiset.coe_countP]
    have : residuals.count a ≤ residuals.countP (fun x => decide (p x)) := by
      rw [List.count]
      apply List.countP_mono_left
      intro x _ hx
      have : x = a := by simpa using hx
      subst this
      simpa using hp
    omega
  cases cands with
  | cons c cs =>
    exfalso
    obtain ⟨center, scale, v, hcs, hpos, -⟩ := k2 0 c rfl
    simp only [List.take_zero, List.map_nil] at hcs
    rw [Sesd.rest_nil, show (residuals.zipIdx.map Prod.fst) = residuals by simp] at hcs
    obtain ⟨hc, mad, hmd, rfl⟩ := hcs
    have hin := medianOf_mostlyWithin (lo := a) (hi := a) (hmost _ ⟨le_rfl, le_rfl⟩) hc
    obtain rfl : center = a := le_antisymm hin.2 hin.1
    have hle : mad ≤ 0 := by
      refine medianOf_le_of_mostly (b := 0) ?_ hmd
      rw [← Multiset.map_coe]
      have := hmost (fun x => |x - center| ≤ 0) (by simp)
      unfold Mostly at this ⊢
      rw [Multiset.countP_map, Multiset.card_map, ← Multiset.countP_eq_card_filter]
      exact this
    have : (0 : ℝ) < 1 / 10 ^ 10 := by positivity
    linarith
  | nil =>
    obtain rfl : reported = [] := List.prefix_nil.1 l1
    rcases hcase with ⟨c, hc, -⟩ | ⟨-, rfl⟩
    · cases hc
    · exact hs

namespace SesdSpike

/-- No seasonality. -/
def flat (l : List ℝ) : Except PyErr (List ℝ) := .ok (l.map fun _ => 0)

/-- A stream of five values, the newest of which is `z`. -/
def five (a b c d : ℝ) : List (Call (NdArray ℝ) Unit) :=
  [.fit (.vec [a]) none, .fit (.vec [b]) none, .fit (.vec [c]) none, .fit (.vec [d]) none]

theorem five_full (a b c d z median : ℝ)
    (hm : medianOf (([a, b, c, d, z] : List ℝ) : Multiset ℝ) = some median) :
    FullWindow flat 5 (five a b c d) (.vec [z])
      [a - median, b - median, c - median, d - median, z - median] :=
  ⟨z, [0, 0, 0, 0, 0], median, rfl, rfl, rfl, rfl, hm, by simp [five, fitted, oneNumber, lastN]⟩

theorem median_of_mostly {l : List ℝ} (hl : l ≠ []) {a : ℝ} (h1 : Mostly (· ≤ a) (l : Multiset ℝ))
    (h2 : Mostly (a ≤ ·) (l : Multiset ℝ)) : medianOf (l : Multiset ℝ) = some a := by
  obtain ⟨r, hr⟩ := medianOf_isSome hl
  rw [hr, le_antisymm (medianOf_le_of_mostly h1 hr) (le_medianOf_of_mostly h2 hr)]

theorem new_ok (hybrid : Bool) : ∃ s0, Sesd.new hybrid 2 5 2 (1 / 20 : ℝ) = .ok s0 := by
  unfold Sesd.new ModifiedStl.new
  rw [if_neg (by norm_num), if_neg (by norm_num), if_neg (by decide), if_neg (by norm_num),
    if_neg (by norm_num)]
  exact ⟨_, rfl⟩

end SesdSpike

/-- **C160 is false of `SeasonalHybridESD`**: values 0, 0, 0, 0 and a spike of any size. -/
theorem C160_hybrid_refuted : ¬ C160_statement ∧ ¬ ReportsSpikes true := by
  have : ¬ ReportsSpikes true := by
    intro hr
    obtain ⟨s0, h0⟩ := new_ok true
    obtain ⟨T, hT⟩ := hr 2 5 2 (1 / 20) s0 h0 (fun _ _ => 0) 0
    have hz : (0 : ℝ) < |T| + 1 := by positivity
    have hmed : medianOf (([0, 0, 0, 0, |T| + 1] : List ℝ) : Multiset ℝ) = some 0 := by
      apply median_of_mostly (by simp)
      · unfold Mostly
        rw [Multiset.coe_card, Multiset.coe_countP]
        simp [List.countP_cons]
        omega
      · unfold Mostly
        rw [Multiset.coe_card, Multiset.coe_countP]
        simp [List.countP_cons, hz.le]
    have hf := five_full 0 0 0 0 (|T| + 1) 0 hmed
    simp only [sub_zero] at hf
    obtain ⟨score, e, hpos⟩ := hT flat (five 0 0 0 0) (.vec [|T| + 1]) [0, 0, 0, 0] (|T| + 1) 0 hf
      (by simp) (by rw [sub_zero, abs_of_pos hz]; linarith [le_abs_self T])
    have hb := C160_hybrid_blind h0 (fun _ _ => 0) flat (five 0 0 0 0) (.vec [|T| + 1]) _ hf 0 (by
      simp [List.count_cons, hz.ne'])
    rw [hb] at e
    cases e
    exact lt_irrefl _ hpos
  exact ⟨fun h => this (h true), this⟩

/-- **C161**, partial: a score of `SeasonalESD` is at most `(W - 1) / √W`, however large the
spike. -/
theorem C161_esd_partial {β : Type*} {period W m : ℤ} {alpha : ℝ} {s0 : SesdState ℝ}
    (h0 : Sesd.new false period W m alpha = .ok s0) (ppf : ℝ → ℤ → ℝ)
    (stl : List ℝ → Except PyErr (List ℝ)) (h : List (Call (NdArray ℝ) β)) (X : NdArray ℝ)
    (score : ℝ) (hs : sesdScore ppf stl s0 h X = .ok score) :
    score ≤ (W.toNat - 1) / √(W.toNat : ℝ) := by
  obtain ⟨hW, hm, hmW⟩ := sizes h0
  have hW' : (4 : ℝ) ≤ W.toNat := by exact_mod_cast hW
  rcases full_of_ok h0 ppf stl h X hs with rfl | ⟨residuals, hf⟩
  · exact div_nonneg (by linarith) (Real.sqrt_nonneg _)
  obtain ⟨hlen, cands, reported, score', ⟨k1, k2, k3⟩, ⟨l1, l2, l3⟩, hs', hcase⟩ :=
    run h0 ppf stl h X hf
  rw [hs] at hs'
  cases hs'
  rcases hcase with ⟨c, hc, -, rfl⟩ | ⟨-, rfl⟩
  · obtain ⟨j, hj⟩ := List.mem_iff_getElem?.1 (l1.subset hc)
    have hjl : j < cands.length := (List.getElem?_eq_some_iff.1 hj).1
    obtain ⟨center, scale, v, hcs, hpos, hmem, hst, -⟩ := k2 j c hj
    obtain ⟨rfl, rfl⟩ := centerScale_plain hcs
    set l := (rest residuals ((cands.take j).map SesdCandidate.idx)).map Prod.fst with hl
    have hle : l.length ≤ W.toNat := by
      rw [hl, List.length_map, ← hlen, ← List.length_zipIdx (l := residuals) (i := 0)]
      exact List.length_filter_le _ _
    have hge : 2 ≤ l.length := by
      have : residuals.length - ((cands.take j).map SesdCandidate.idx).length ≤ l.length := by
        rw [hl]
        simp only [List.length_map]
        have hpart := List.length_eq_length_filter_add (l := residuals.zipIdx)
          (fun p => decide (p.2 ∉ (cands.take j).map SesdCandidate.idx))
        have hbad : (residuals.zipIdx.filter
            fun p => !decide (p.2 ∉ (cands.take j).map SesdCandidate.idx)).length
            ≤ (cands.take j).length := by
          rw [← List.length_map (f := Prod.snd), ← List.length_map (as := cands.take j) (f := SesdCandidate.idx)]
          apply List.Subperm.length_le
          apply List.subperm_of_subset
          · have hnd : (residuals.zipIdx.map Prod.snd).Nodup := by
              simpa using List.nodup_range' (s := 0) (n := residuals.length)
            exact hnd.sublist ((List.filter_sublist).map _)
          · intro i hi
            obtain ⟨p, hp, rfl⟩ := List.mem_map.1 hi
            simpa using (List.mem_filter.1 hp).2
        rw [List.length_zipIdx] at hpart
        unfold rest
        omega
      simp only [List.length_map, List.length_take] at this
      omega
    have hv : v ∈ l := by rw [hl]; exact List.mem_map.2 ⟨_, hmem, rfl⟩
    have hstd : 0 < Grubbs.std l := lt_trans (by positivity) hpos
    rw [hst]
    refine (Grubbs.ceiling l hge v hv hstd).trans ?_
    -- the ceiling grows with the size of the sample
    have hlr : (l.length : ℝ) ≤ W.toNat := by exact_mod_cast hle
    have hgr : (2 : ℝ) ≤ l.length := by exact_mod_cast hge
    have e : ∀ n : ℝ, 2 ≤ n → (n - 1) / √n = √n - 1 / √n := by
      intro n hn
      have hp : 0 < √n := Real.sqrt_pos.2 (by linarith)
      rw [eq_sub_iff_add_eq, ← add_div, sub_add_cancel, div_eq_iff hp.ne', Real.mul_self_sqrt (by linarith)]
    rw [e _ hgr, e _ (by linarith)]
    have h1 : √(l.length : ℝ) ≤ √(W.toNat : ℝ) := Real.sqrt_le_sqrt hlr
    have h2 : 1 / √(W.toNat : ℝ) ≤ 1 / √(l.length : ℝ) :=
      one_div_le_one_div_of_le (Real.sqrt_pos.2 (by linarith)) h1
    linarith
  · exact div_nonneg (by linarith) (Real.sqrt_nonneg _)

/-- **C161 is false of `SeasonalHybridESD`**: its scores have no bound. -/
theorem C161_hybrid_refuted : ¬ C161_statement := by
  intro hst
  obtain ⟨ceiling, hce⟩ := hst true
  obtain ⟨s0, h0⟩ := new_ok true
  set B := |ceiling 5| with hB
  have hB0 : 0 ≤ B := abs_nonneg _
  set z : ℝ := 9 + 3 * B with hz
  have hmed : medianOf (([-1, 1, -1, 1, z] : List ℝ) : Multiset ℝ) = some 1 := by
    apply median_of_mostly (by simp)
    · unfold Mostly
      rw [Multiset.coe_card, Multiset.coe_countP]
      simp [List.countP_cons]
      split_ifs <;> omega
    · unfold Mostly
      rw [Multiset.coe_card, Multiset.coe_countP]
      have : (1 : ℝ) ≤ z := by rw [hz]; linarith
      norm_num [List.countP_cons, this]
  have hf := five_full (-1) 1 (-1) 1 z 1 hmed
  obtain ⟨score, e, -, hlow⟩ := C160_hybrid_partial h0 (fun _ _ => 0) flat (five (-1) 1 (-1) 1)
    (.vec [z]) [-1 - 1, 1 - 1, -1 - 1, 1 - 1] (z - 1) (-1) 1 hf (by
      intro x hx
      simp at hx
      rcases hx with rfl | rfl | rfl | rfl <;> norm_num) (by
      intro med mad h1 h2
      have hm0 : medianOf (([-1 - 1, 1 - 1, -1 - 1, 1 - 1, z - 1] : List ℝ) : Multiset ℝ) = some 0 := by
        apply median_of_mostly (by simp)
        · unfold Mostly
          rw [Multiset.coe_card, Multiset.coe_countP]
          simp [List.countP_cons]
          norm_num
          split_ifs <;> omega
        · unfold Mostly
          rw [Multiset.coe_card, Multiset.coe_countP]
          have : (1 : ℝ) ≤ z := by rw [hz]; linarith
          simp [List.countP_cons, this]
      simp only [List.cons_append, List.nil_append] at h1 h2
      rw [hm0] at h1
      cases h1
      have hmad : 2 ≤ mad := by
        refine le_medianOf_of_mostly ?_ h2
        unfold Mostly
        rw [Multiset.coe_card, Multiset.coe_countP]
        have : (2 : ℝ) ≤ |z - 1| := by rw [abs_of_pos (by linarith)]; linarith
        simp [List.countP_cons, this]
        norm_num
      have : (1 : ℝ) / 10 ^ 10 < 1 := by norm_num
      linarith)
    (by rw [abs_of_pos (by linarith)]; linarith) (by
      unfold esdCritical
      simp only [mul_zero, zero_div]
      rw [abs_of_pos (by linarith)]
      linarith)
  have hle := hce 2 5 2 (1 / 20) s0 h0 (fun _ _ => 0) flat (five (-1) 1 (-1) 1) (.vec [z]) score e
  have hle' : score ≤ B := hle.trans (le_abs_self _)
  rw [abs_of_pos (by linarith), div_le_iff₀ (by norm_num)] at hlow
  nlinarith

/-- The hypotheses of `C160_esd_partial` are met: values -1, 1, -1, 1 and a spike of 100. -/
example : ∃ s0 : SesdState ℝ, Sesd.new false 2 5 2 (1 / 20) = .ok s0 ∧
    ∃ score, sesdScore (fun _ _ => 3) flat s0 (five (-1) 1 (-1) 1) (.vec [100]) = .ok score ∧
      0 < score := by
  obtain ⟨s0, h0⟩ := new_ok false
  refine ⟨s0, h0, ?_⟩
  have hmed : medianOf (([-1, 1, -1, 1, 100] : List ℝ) : Multiset ℝ) = some 1 := by
    apply median_of_mostly (by simp)
    · unfold Mostly
      rw [Multiset.coe_card, Multiset.coe_countP]
      norm_num [List.countP_cons]
    · unfold Mostly
      rw [Multiset.coe_card, Multiset.coe_countP]
      norm_num [List.countP_cons]
  exact C160_esd_partial h0 (fun _ _ => 3) flat (five (-1) 1 (-1) 1) (.vec [100])
    [-1 - 1, 1 - 1, -1 - 1, 1 - 1] (100 - 1) (-1) 1 (five_full (-1) 1 (-1) 1 100 1 hmed) (by
      intro x hx
      simp at hx
      rcases hx with rfl | rfl | rfl | rfl <;> norm_num) (by norm_num)
    (by rw [show (5 : ℤ).toNat = 5 from rfl]; norm_num)
    (by rw [show (5 : ℤ).toNat = 5 from rfl]; norm_num)

end Pysad
