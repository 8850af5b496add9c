import Verif.Model.SeasonalEsd
import Verif.Proofs.Calls
import Verif.Props.ModifiedStl

/-! Properties C74-C76: `SeasonalESD` and `SeasonalHybridESD`. -/

namespace Pysad

open Spec

section
variable {K : Type*} [Field K] [LinearOrder K]

/-! ### Specification -/

/-- Center and scale of a sample: mean and sample standard deviation (divisor `n - 1`), or,
for the hybrid method, median and 1.4826 times the median absolute deviation. -/
def Spec.CenterScale (sqrt : K → K) (hybrid : Bool) (l : List K) (center scale : K) : Prop :=
  if hybrid then
    medianOf (l : Multiset K) = some center ∧
      ∃ mad, medianOf ((l.map fun v => |v - center| : List K) : Multiset K) = some mad ∧
        scale = 14826 / 10000 * mad
  else
    center = l.sum / (l.length : K) ∧
      scale = sqrt ((l.map fun v => (v - center) ^ 2).sum / ((l.length : K) - 1))

/-- The critical value of the generalized ESD test for the `i`-th of at most `n` removals,
with Student's quantile function `ppf`. -/
def Spec.esdCritical (sqrt : K → K) (ppf : K → ℤ → K) (alpha : K) (n i : ℕ) : K :=
  let t := ppf (1 - alpha / (2 * ((n : K) - i + 1))) ((n : ℤ) - i - 1)
  (((n : K) - i) * t) / sqrt (((n : K) - i - 1 + t ^ 2) * ((n : K) - i + 1))

/-- The values, with their indices, except those at the indices `removed`. -/
def Spec.rest (values : List K) (removed : List ℕ) : List (K × ℕ) :=
  values.zipIdx.filter fun p => decide (p.2 ∉ removed)

/-- `c` is the right candidate after removing `removed`: the value with the greatest deviation
from the center of the rest, in units of its scale; the first of them if there are several. -/
def Spec.IsCandidate (sqrt : K → K) (ppf : K → ℤ → K) (hybrid : Bool) (alpha : K)
    (values : List K) (removed : List ℕ) (c : SesdCandidate K) : Prop :=
  ∃ center scale v, CenterScale sqrt hybrid ((rest values removed).map Prod.fst) center scale ∧
    1 / 10 ^ 10 < scale ∧ (v, c.idx) ∈ rest values removed ∧
    c.statistic = |v - center| / scale ∧
    (∀ p ∈ rest values removed, |p.1 - center| / scale ≤ c.statistic) ∧
    (∀ p ∈ rest values removed, p.2 < c.idx → |p.1 - center| / scale < c.statistic) ∧
    c.critical = esdCritical sqrt ppf alpha values.length (removed.length + 1)

/-- The candidates of the ESD test with at most `m` removals: each is the right one after
removing the earlier ones, and there are fewer than `m` only if what is left has (almost) no
spread. -/
def Spec.EsdCandidates (sqrt : K → K) (ppf : K → ℤ → K) (hybrid : Bool) (alpha : K) (m : ℕ)
    (values : List K) (cands : List (SesdCandidate K)) : Prop :=
  cands.length ≤ m ∧
  (∀ (j : ℕ) c, cands[j]? = some c →
    IsCandidate sqrt ppf hybrid alpha values ((cands.take j).map SesdCandidate.idx) c) ∧
  (cands.length < m → ∃ center scale,
    CenterScale sqrt hybrid ((rest values (cands.map SesdCandidate.idx)).map Prod.fst)
      center scale ∧ scale ≤ 1 / 10 ^ 10)

/-- The candidate is significant. -/
def Spec.Exceeds (c : SesdCandidate K) : Prop := c.critical < c.statistic

/-- `p` is the longest prefix of `l` that is empty or ends with a significant candidate. -/
def Spec.LongestSignificantPrefix (l p : List (SesdCandidate K)) : Prop :=
  p <+: l ∧ (∀ c, p.getLast? = some c → Exceeds c) ∧
    ∀ q, q <+: l → p.length < q.length → ∀ c, q.getLast? = some c → ¬ Exceeds c

/-! ### Proofs -/

namespace Sesd

theorem argmaxFrom_spec :
    ∀ (xs pre : List K) (best : K) (a : ℕ), pre[a]? = some best →
      (∀ (j : ℕ) x, pre[j]? = some x → x ≤ best) →
      (∀ (j : ℕ) x, pre[j]? = some x → j < a → x < best) →
      ∃ d, (pre ++ xs)[argmaxFrom best a pre.length xs]? = some d ∧
        (∀ (j : ℕ) x, (pre ++ xs)[j]? = some x → x ≤ d) ∧
        (∀ (j : ℕ) x, (pre ++ xs)[j]? = some x → j < argmaxFrom best a pre.length xs → x < d) := by
  intro xs
  induction xs with
  | nil =>
    intro pre best a h1 h2 h3
    exact ⟨best, by simpa [argmaxFrom] using h1, by simpa using h2,
      by simpa [argmaxFrom] using h3⟩
  | cons y xs ih =>
    intro pre best a h1 h2 h3
    have ha : a < pre.length := by
      by_contra h
      rw [List.getElem?_eq_none (by omega)] at h1
      cases h1
    have hsplit : ∀ (j : ℕ) (x : K), (pre ++ [y])[j]? = some x →
        (pre[j]? = some x ∧ j < pre.length) ∨ (j = pre.length ∧ x = y) := by
      intro j x hx
      rcases Nat.lt_trichotomy j pre.length with h | h | h
      · left; rw [List.getElem?_append_left h] at hx; exact ⟨hx, h⟩
      · right
        subst h
        rw [List.getElem?_append_right le_rfl] at hx
        simp only [Nat.sub_self, List.getElem?_cons_zero, Option.some.injEq] at hx
        exact ⟨rfl, hx.symm⟩
      · rw [List.getElem?_eq_none (by simp; omega)] at hx; cases hx
    rw [argmaxFrom]
    split
    · rename_i hlt
      have := ih (pre ++ [y]) y pre.length (by simp) (by
        intro j x hx
        rcases hsplit j x hx with ⟨h, _⟩ | ⟨_, rfl⟩
        · exact (h2 j x h).trans hlt.le
        · exact le_rfl) (by
        intro j x hx hj
        rcases hsplit j x hx with ⟨h, _⟩ | ⟨h, _⟩
        · exact (h2 j x h).trans_lt hlt
        · omega)
      simpa using this
    · rename_i hlt
      have := ih (pre ++ [y]) best a (by rw [List.getElem?_append_left ha]; exact h1) (by
        intro j x hx
        rcases hsplit j x hx with ⟨h, _⟩ | ⟨_, rfl⟩
        · exact h2 j x h
        · exact not_lt.1 hlt) (by
        intro j x hx hj
        rcases hsplit j x hx with ⟨h, _⟩ | ⟨h, _⟩
        · exact h3 j x h hj
        · omega)
      simpa using this

theorem argmax_spec (l : List K) (hl : l ≠ []) :
    ∃ k d, argmax l = .ok k ∧ l[k]? = some d ∧ (∀ (j : ℕ) x, l[j]? = some x → x ≤ d) ∧
      (∀ (j : ℕ) x, l[j]? = some x → j < k → x < d) := by
  cases l with
  | nil => exact absurd rfl hl
  | cons a l =>
    obtain ⟨d, h1, h2, h3⟩ := argmaxFrom_spec l [a] a 0 rfl
      (by
        intro j x hx
        cases j with
        | zero => simp at hx; exact hx.symm.le
        | succ j => simp at hx)
      (by intro j x _ h; omega)
    exact ⟨_, d, rfl, h1, h2, h3⟩

theorem centerScale_spec (env : SesdEnv K) (hybrid : Bool) (l : List K) (hl : l ≠ []) :
    ∃ c s, centerScale env hybrid l = .ok (c, s) ∧ CenterScale env.sqrt hybrid l c s := by
  cases hybrid with
  | false =>
    exact ⟨_, _, rfl, rfl, rfl⟩
  | true =>
    obtain ⟨m, hm⟩ := medianOf_isSome hl
    obtain ⟨d, hd⟩ := medianOf_isSome (l := l.map fun v => |v - m|) (by simpa using hl)
    refine ⟨m, 14826 / 10000 * d, ?_, ?_⟩
    · unfold centerScale
      simp only [npMedian_eq, hm, hd, if_true]
    · unfold CenterScale
      rw [if_pos rfl]
      exact ⟨hm, d, hd, rfl⟩

theorem nodup_rest (values : List K) (removed : List ℕ) :
    ((rest values removed).map Prod.snd).Nodup := by
  have h : (values.zipIdx.map Prod.snd).Nodup := by
    simpa using List.nodup_range' (s := 0) (n := values.length)
  exact h.sublist ((List.filter_sublist).map _)

theorem eraseIdx_eq_filter : ∀ (l : List (K × ℕ)) (k : ℕ) (p : K × ℕ), (l.map Prod.snd).Nodup →
    l[k]? = some p → l.eraseIdx k = l.filter fun q => decide (q.2 ≠ p.2) := by
  intro l
  induction l with
  | nil => intro k p _ h; simp at h
  | cons a l ih =>
    intro k p hn h
    rw [List.map_cons, List.nodup_cons] at hn
    cases k with
    | zero =>
      simp only [List.getElem?_cons_zero, Option.some.injEq] at h
      subst h
      rw [List.eraseIdx_zero, List.tail_cons, List.filter_cons, if_neg (by simp)]
      symm
      rw [List.filter_eq_self]
      intro q hq
      rw [decide_eq_true_eq]
      intro he
      exact hn.1 (he ▸ List.mem_map_of_mem hq)
    | succ k =>
      simp only [List.getElem?_cons_succ] at h
      rw [List.eraseIdx_cons_succ, ih k p hn.2 h, List.filter_cons, if_pos]
      rw [decide_eq_true_eq]
      intro he
      exact hn.1 (he ▸ List.mem_map_of_mem (List.mem_of_getElem? h))

theorem rest_snoc (values : List K) (removed : List ℕ) (i : ℕ) :
    rest values (removed ++ [i]) = (rest values removed).filter fun q => decide (q.2 ≠ i) := by
  unfold rest
  rw [List.filter_filter]
  apply List.filter_congr
  intro p _
  simp only [List.mem_append, List.mem_singleton, not_or, ne_eq]
  rw [Bool.eq_iff_iff]
  simp [and_comm]

theorem rest_nil (values : List K) : rest values [] = values.zipIdx := by
  simp [rest]

theorem rest_sorted (values : List K) (removed : List ℕ) :
    ((rest values removed).map Prod.snd).Pairwise (· < ·) := by
  have h : (values.zipIdx.map Prod.snd).Pairwise (· < ·) := by
    simpa using List.pairwise_lt_range' (s := 0) (n := values.length)
  exact h.sublist ((List.filter_sublist).map _)

theorem candidates_spec (env : SesdEnv K) (hybrid : Bool) (alpha : K) (values : List K) :
    ∀ (fuel : ℕ) (removed : List ℕ), fuel ≤ (rest values removed).length →
      ∃ cands, candidates env hybrid alpha values.length fuel (removed.length + 1)
          (rest values removed) = .ok cands ∧ cands.length ≤ fuel ∧
        (∀ (j : ℕ) c, cands[j]? = some c → IsCandidate env.sqrt env.tPpf hybrid alpha values
          (removed ++ (cands.take j).map SesdCandidate.idx) c) ∧
        (cands.length < fuel → ∃ center scale, CenterScale env.sqrt hybrid
          ((rest values (removed ++ cands.map SesdCandidate.idx)).map Prod.fst) center scale ∧
          scale ≤ 1 / 10 ^ 10) := by
  intro fuel
  induction fuel with
  | zero =>
    intro removed _
    exact ⟨[], rfl, le_rfl, by simp, by simp⟩
  | succ fuel ih =>
    intro removed hlen
    have hne : rest values removed ≠ [] := by
      intro h; rw [h] at hlen; simp at hlen
    obtain ⟨c, s, hcs, hspec⟩ := centerScale_spec env hybrid ((rest values removed).map Prod.fst)
      (by simpa using hne)
    rw [candidates, hcs]
    simp only [Except.bind]
    by_cases hs : s ≤ 1 / 10 ^ 10
    · rw [if_pos hs]
      exact ⟨[], rfl, by simp, by simp, fun _ => ⟨c, s, by simpa using hspec, hs⟩⟩
    · rw [if_neg hs]
      obtain ⟨k, d, hk, hd, hmax, hfirst⟩ := argmax_spec
        ((rest values removed).map fun p => |p.1 - c| / s) (by simpa using hne)
      rw [hk]
      simp only
      rw [hd]
      rw [List.getElem?_map] at hd
      cases hp : (rest values removed)[k]? with
      | none => rw [hp] at hd; simp at hd
      | some p =>
        rw [hp] at hd
        simp only [Option.map_some, Option.some.injEq] at hd
        simp only
        have herase : (rest values removed).eraseIdx k = rest values (removed ++ [p.2]) := by
          rw [eraseIdx_eq_filter _ k p (nodup_rest values removed) hp, rest_snoc]
        have hlen' : fuel ≤ (rest values (removed ++ [p.2])).length := by
          rw [← herase, List.length_eraseIdx]
          split <;> omega
        obtain ⟨cands, h1, h2, h3, h4⟩ := ih (removed ++ [p.2]) hlen'
        rw [List.length_append, List.length_singleton] at h1
        rw [herase, h1]
        refine ⟨⟨p.2, d, criticalValue env alpha values.length (removed.length + 1)⟩ :: cands,
          rfl, by simp only [List.length_cons]; omega, ?_, ?_⟩
        · intro j cand hj
          cases j with
          | zero =>
            simp only [List.getElem?_cons_zero, Option.some.injEq] at hj
            subst hj
            simp only [List.take_zero, List.map_nil, List.append_nil]
            refine ⟨c, s, p.1, hspec, not_le.1 hs, List.mem_of_getElem? hp, hd.symm, ?_, ?_, ?_⟩
            · intro q hq
              obtain ⟨j, hj⟩ := List.mem_iff_getElem?.1 hq
              exact hmax j _ (by rw [List.getElem?_map, hj]; rfl)
            · intro q hq hlt
              obtain ⟨j, hj⟩ := List.mem_iff_getElem?.1 hq
              refine hfirst j _ (by rw [List.getElem?_map, hj]; rfl) ?_
              by_contra hjk
              rcases Nat.lt_or_ge k j with h | h
              · have hsorted := rest_sorted values removed
                rw [List.pairwise_iff_getElem] at hsorted
                obtain ⟨hk1, hk2⟩ := List.getElem?_eq_some_iff.1 hp
                obtain ⟨hj1, hj2⟩ := List.getElem?_eq_some_iff.1 hj
                have := hsorted k j (by simpa using hk1) (by simpa using hj1) h
                simp only [List.getElem_map, hk2, hj2] at this
                simp only at hlt
                omega
              · have : j = k := by omega
                subst this
                rw [hp] at hj
                simp only [Option.some.injEq] at hj
                subst hj
                simp only at hlt
                omega
            · rfl
          | succ j =>
            simp only [List.getElem?_cons_succ] at hj
            have := h3 j cand hj
            simpa using this
        · intro hl
          have := h4 (by simpa using hl)
          simpa using this

theorem selectedCount_spec : ∀ (cs : List (SesdCandidate K)) (count i : ℕ),
    (selectedCount count i cs = count ∧ ∀ c ∈ cs, ¬ Exceeds c) ∨
    ∃ (j : ℕ) (c : SesdCandidate K), cs[j]? = some c ∧ Exceeds c ∧
      selectedCount count i cs = i + j ∧
      ∀ (j' : ℕ) (c' : SesdCandidate K), j < j' → cs[j']? = some c' → ¬ Exceeds c' := by
  intro cs
  induction cs with
  | nil => intro count i; left; exact ⟨rfl, by simp⟩
  | cons c cs ih =>
    intro count i
    rw [selectedCount]
    rcases ih (if c.critical < c.statistic then i else count) (i + 1) with ⟨h1, h2⟩ | ⟨j, d, h1, h2, h3, h4⟩
    · by_cases he : c.critical < c.statistic
      · right
        refine ⟨0, c, rfl, he, by rw [h1, if_pos he]; omega, ?_⟩
        intro j' c' hj hc'
        cases j' with
        | zero => omega
        | succ j' => exact h2 c' (List.mem_of_getElem? (by simpa using hc'))
      · left
        refine ⟨by rw [h1, if_neg he], ?_⟩
        intro d hd
        rcases List.mem_cons.1 hd with rfl | hd
        · exact he
        · exact h2 d hd
    · right
      refine ⟨j + 1, d, by simpa using h1, h2, by omega, ?_⟩
      intro j' c' hj hc'
      cases j' with
      | zero => omega
      | succ j' => exact h4 j' c' (by omega) (by simpa using hc')

theorem prefix_getLast? {α : Type*} {q l : List α} (h : q <+: l) (c : α)
    (hc : q.getLast? = some c) : l[q.length - 1]? = some c := by
  obtain ⟨t, rfl⟩ := h
  rw [List.getLast?_eq_getElem?] at hc
  have : q.length - 1 < q.length := by
    obtain ⟨h, _⟩ := List.getElem?_eq_some_iff.1 hc
    exact h
  rw [List.getElem?_append_left this]
  exact hc

theorem take_selectedCount (cs : List (SesdCandidate K)) :
    LongestSignificantPrefix cs (cs.take (selectedCount 0 1 cs)) := by
  refine ⟨List.take_prefix _ _, ?_, ?_⟩
  · intro c hc
    rcases selectedCount_spec cs 0 1 with ⟨h1, _⟩ | ⟨j, d, h1, h2, h3, _⟩
    · rw [h1] at hc; simp at hc
    · obtain ⟨hj, _⟩ := List.getElem?_eq_some_iff.1 h1
      have := prefix_getLast? (List.take_prefix _ _) c hc
      rw [h3, List.length_take, show min (1 + j) cs.length - 1 = j by omega, h1] at this
      simp only [Option.some.injEq] at this
      exact this ▸ h2
  · intro q hq hlen c hc
    have hget := prefix_getLast? hq c hc
    have hq0 : 0 < q.length := by omega
    rcases selectedCount_spec cs 0 1 with ⟨_, h2⟩ | ⟨j, d, h1, h2, h3, h4⟩
    · exact h2 c (List.mem_of_getElem? hget)
    · obtain ⟨hj, _⟩ := List.getElem?_eq_some_iff.1 h1
      rw [h3, List.length_take] at hlen
      exact h4 (q.length - 1) c (by omega) hget

end Sesd

/-- **C74.** For every series of residuals, every number `m` of anomalies up to its length,
both methods, every square root and every quantile function: the test does not fail, its
candidates are the ones the generalized ESD test prescribes, and it reports the longest prefix
of them whose last statistic exceeds its critical value. -/
theorem C74_sesd_reported (env : SesdEnv K) (hybrid : Bool) (alpha : K) (m : ℕ) (values : List K)
    (hm : m ≤ values.length) :
    ∃ cands reported, Sesd.esd env hybrid m alpha values = .ok reported ∧
      EsdCandidates env.sqrt env.tPpf hybrid alpha m values cands ∧
      LongestSignificantPrefix cands reported := by
  obtain ⟨cands, h1, h2, h3, h4⟩ := Sesd.candidates_spec env hybrid alpha values m []
    (by rw [Sesd.rest_nil]; simpa using hm)
  rw [Sesd.rest_nil] at h1
  refine ⟨cands, _, ?_, ⟨h2, ?_, ?_⟩, Sesd.take_selectedCount cands⟩
  · unfold Sesd.esd
    rw [List.length_nil, Nat.zero_add] at h1
    rw [h1]
    rfl
  · simpa using h3
  · simpa using h4

/-- **C74 (consequences).** Hence there are at most `m` of them, their indices are distinct and
in range, and their statistics are not negative. -/
theorem C74_sesd_indices [IsStrictOrderedRing K] (env : SesdEnv K) (hybrid : Bool) (alpha : K)
    (m : ℕ) (values : List K) (reported : List (SesdCandidate K)) (hm : m ≤ values.length)
    (h : Sesd.esd env hybrid m alpha values = .ok reported) :
    reported.length ≤ m ∧ (reported.map SesdCandidate.idx).Nodup ∧
      ∀ c ∈ reported, c.idx < values.length ∧ 0 ≤ c.statistic := by
  obtain ⟨cands, rep, h1, ⟨h2, h3, _⟩, ⟨hpre, _⟩⟩ := C74_sesd_reported env hybrid alpha m values hm
  rw [h] at h1
  cases h1
  refine ⟨hpre.length_le.trans h2, ?_, ?_⟩
  · apply List.Nodup.sublist (hpre.sublist.map _)
    rw [List.nodup_iff_getElem?_ne_getElem?]
    intro i j hij hj
    rw [List.length_map] at hj
    rw [List.getElem?_map, List.getElem?_map, List.getElem?_eq_getElem (show i < cands.length by omega),
      List.getElem?_eq_getElem hj]
    intro he
    simp only [Option.map_some, Option.some.injEq] at he
    obtain ⟨_, _, v, _, _, hmem, _⟩ := h3 j cands[j] (List.getElem?_eq_getElem hj)
    have hnot := (List.mem_filter.1 hmem).2
    rw [decide_eq_true_eq] at hnot
    apply hnot
    simp only
    rw [← he]
    refine List.mem_map_of_mem ?_
    rw [List.mem_take_iff_getElem]
    exact ⟨i, by omega, rfl⟩
  · intro c hc
    obtain ⟨j, hj⟩ := List.mem_iff_getElem?.1 (hpre.subset hc)
    obtain ⟨ce, sc, v, _, hpos, hmem, hst, _⟩ := h3 j c hj
    constructor
    · have := List.snd_lt_of_mem_zipIdx (List.mem_filter.1 hmem).1
      simpa using this
    · rw [hst]
      have : (0 : K) < 1 / 10 ^ 10 := by positivity
      exact div_nonneg (abs_nonneg _) (this.trans hpos).le

end

/-! ### C76 -/

section
variable {K : Type*} [Field K] [LinearOrder K]

theorem sesd_new_ok {hybrid : Bool} {period W m : ℤ} {alpha : K} {s : SesdState K}
    (h : Sesd.new hybrid period W m alpha = .ok s) :
    2 ≤ period ∧ 2 * period ≤ W ∧ 1 ≤ m ∧ 100 * m ≤ 49 * W ∧ 0 < alpha ∧ alpha < 1 ∧
      s = ⟨hybrid, period.toNat, W.toNat, m.toNat, alpha, ⟨W.toNat, []⟩,
        ⟨period.toNat, some W.toNat, some ⟨W.toNat, []⟩⟩⟩ := by
  unfold Sesd.new at h
  by_cases h1 : m < 1
  · rw [if_pos h1] at h; cases h
  by_cases h2 : W < 2 * period
  · rw [if_neg h1, if_pos h2] at h; cases h
  by_cases h3 : m > (W * 49).tdiv 100
  · rw [if_neg h1, if_neg h2, if_pos h3] at h; cases h
  by_cases h4 : ¬ (0 < alpha ∧ alpha < 1)
  · rw [if_neg h1, if_neg h2, if_neg h3, if_pos h4] at h; cases h
  rw [if_neg h1, if_neg h2, if_neg h3, if_neg h4] at h
  unfold ModifiedStl.new at h
  by_cases h5 : period < 2
  · rw [if_pos h5] at h; cases h
  · rw [if_neg h5] at h
    simp only [if_neg h2, Except.map] at h
    cases h
    rw [not_not] at h4
    have hW : 0 ≤ W * 49 := by omega
    rw [Int.tdiv_eq_ediv_of_nonneg hW] at h3
    refine ⟨by omega, by omega, by omega, by omega, h4.1, h4.2, rfl⟩

/-- **C76 (arithmetic).** For every accepted configuration, at every iteration `i` of the ESD
test on a full window the sample has at least two values and Student's distribution at least
one degree of freedom. -/
theorem C76_sesd_guards {hybrid : Bool} {period W m : ℤ} {alpha : K} {s : SesdState K}
    (h : Sesd.new hybrid period W m alpha = .ok s) (i : ℤ) (h1 : 1 ≤ i) (hi : i ≤ m) :
    2 ≤ W - (i - 1) ∧ 1 ≤ W - i - 1 := by
  obtain ⟨a1, a2, a3, a4, _, _, rfl⟩ := sesd_new_ok h
  omega

/-- **C76 (run).** ... and that is what a test on a full window of residuals does: after `j`
removals, another being allowed, what is left has `windowSize - j ≥ 2` values. -/
theorem C76_sesd_samples {hybrid : Bool} {period W m : ℤ} {alpha : K} {s : SesdState K}
    (h : Sesd.new hybrid period W m alpha = .ok s) (env : SesdEnv K) (values : List K)
    (hv : values.length = s.windowSize) :
    ∃ cands reported, Sesd.esd env s.hybrid s.maxAnomalies s.alpha values = .ok reported ∧
      EsdCandidates env.sqrt env.tPpf s.hybrid s.alpha s.maxAnomalies values cands ∧
      LongestSignificantPrefix cands reported ∧
      ∀ j ≤ cands.length, j < s.maxAnomalies →
        (rest values ((cands.take j).map SesdCandidate.idx)).length = s.windowSize - j ∧
        2 ≤ s.windowSize - j := by
  obtain ⟨a1, a2, a3, a4, _, _, hs⟩ := sesd_new_ok h
  have hsW : s.windowSize = W.toNat := by rw [hs]
  have hsm : s.maxAnomalies = m.toNat := by rw [hs]
  obtain ⟨cands, reported, h1, h2, h3⟩ := C74_sesd_reported env s.hybrid s.alpha s.maxAnomalies
    values (by omega)
  refine ⟨cands, reported, h1, h2, h3, ?_⟩
  intro j hj hjm
  refine ⟨?_, by omega⟩
  induction j with
  | zero => simp [Sesd.rest_nil, hv]
  | succ j ih =>
    obtain ⟨_, hc, _⟩ := h2
    have hlt : j < cands.length := by omega
    obtain ⟨_, _, v, _, _, hmem, _⟩ := hc j cands[j] (List.getElem?_eq_getElem hlt)
    obtain ⟨k, hk⟩ := List.mem_iff_getElem?.1 hmem
    have herase := Sesd.eraseIdx_eq_filter _ k _ (Sesd.nodup_rest values _) hk
    have htake : (cands.take (j + 1)).map SesdCandidate.idx
        = (cands.take j).map SesdCandidate.idx ++ [cands[j].idx] := by
      rw [List.take_succ_eq_append_getElem hlt, List.map_append]; rfl
    rw [htake, Sesd.rest_snoc, ← herase, List.length_eraseIdx, ih (by omega) (by omega)]
    obtain ⟨hk1, _⟩ := List.getElem?_eq_some_iff.1 hk
    rw [ih (by omega) (by omega)] at hk1
    rw [if_pos hk1]
    omega

end

/-! ### C75 -/

section
variable {K β : Type*} [Field K] [LinearOrder K]

/-- The number in an argument of shape `(1,)`. -/
def Spec.oneNumber : NdArray K → Option K
  | .vec [v] => some v
  | _ => none

theorem asValue_eq (X : NdArray K) : Sesd.asValue X =
    match oneNumber X with
    | some v => .ok v
    | none => .error .valueError := by
  unfold Sesd.asValue oneNumber
  split <;> simp_all

theorem sesd_score_state (env : SesdEnv K) (s : SesdState K) (X : NdArray K) :
    (Sesd.scorePartial env s X).state = s := by
  unfold Sesd.scorePartial
  cases (Sesd.candidateWindow s X).bind (Sesd.scoreWindow env s) <;> rfl

theorem latestStatistic_spec (latest : ℕ) (reported : List (SesdCandidate K)) :
    (∃ c ∈ reported, c.idx = latest ∧ Sesd.latestStatistic latest reported = c.statistic) ∨
      (∀ c ∈ reported, c.idx ≠ latest) ∧ Sesd.latestStatistic latest reported = 0 := by
  induction reported with
  | nil => right; exact ⟨by simp, rfl⟩
  | cons c cs ih =>
    unfold Sesd.latestStatistic
    split
    · rename_i he
      left; exact ⟨c, by simp, he, rfl⟩
    · rename_i he
      rcases ih with ⟨d, hd, h2, h3⟩ | ⟨h2, h3⟩
      · left; exact ⟨d, by simp [hd], h2, h3⟩
      · right
        refine ⟨?_, h3⟩
        intro d hd
        rcases List.mem_cons.1 hd with rfl | hd
        · exact he
        · exact h2 d hd

/-- The state after any history of calls. -/
theorem sesd_calls {hybrid : Bool} {period W m : ℤ} {alpha : K} {s0 : SesdState K}
    (h0 : Sesd.new hybrid period W m alpha = .ok s0) (env : SesdEnv K)
    (h : List (Call (NdArray K) β)) :
    (calls (Sesd.detector env) s0 h).2
      = { s0 with window := ⟨W.toNat, lastN W.toNat ((fitted h).filterMap oneNumber)⟩ } := by
  obtain ⟨_, _, _, _, _, _, hs⟩ := sesd_new_ok h0
  refine calls_inv (d := Sesd.detector env)
    (P := fun (cs : List (Call (NdArray K) β)) s =>
      s = { s0 with window := ⟨W.toNat, lastN W.toNat ((fitted cs).filterMap oneNumber)⟩ })
    (fun cs s c hinv => ?_) s0 ?_ h
  · cases c with
    | fit X y =>
      rw [fitted_append, List.filterMap_append]
      simp only [call, Sesd.detector, Sesd.fitPartial, asValue_eq, fitted]
      cases hX : oneNumber X with
      | none => simp [hX, hinv]
      | some v =>
        simp only [hX, List.filterMap_cons, List.filterMap_nil]
        rw [hinv]
        simp only
        have h1 := window_updates_eq W.toNat ((fitted cs).filterMap oneNumber ++ [v])
        have h2 := window_updates_eq W.toNat ((fitted cs).filterMap oneNumber)
        unfold Window.updates at h1 h2
        rw [List.foldl_append, h2] at h1
        simp only [List.foldl_cons, List.foldl_nil] at h1
        rw [h1]
    | score X =>
      have hs : (call (Sesd.detector env) s (Call.score X : Call (NdArray K) β)).2 = s := by
        have := sesd_score_state env s X
        simp only [call, Sesd.detector]
        revert this
        cases Sesd.scorePartial env s X <;> exact fun h => h
      rw [hs, fitted_append]
      simpa [fitted] using hinv
  · rw [hs]
    simp [fitted]

section
variable {hybrid : Bool} {period W m : ℤ} {alpha : K} {s0 : SesdState K}
  (h0 : Sesd.new hybrid period W m alpha = .ok s0) (env : SesdEnv K)
include h0

/-- **C75 (preview).** After any history of calls, for any argument whatsoever, both methods and
any STL: `score_partial` returns or raises exactly what `fit_score_partial` would, and changes
nothing. -/
theorem C75_sesd_preview (h : List (Call (NdArray K) β)) (X : NdArray K) :
    let s := (calls (Sesd.detector env) s0 h).2
    (Sesd.scorePartial env s X).out = (Sesd.fitScorePartial env s X).out ∧
      (Sesd.scorePartial env s X).state = s := by
  intro s
  refine ⟨?_, sesd_score_state env s X⟩
  have hs : s = { s0 with
      window := ⟨W.toNat, lastN W.toNat ((fitted h).filterMap oneNumber)⟩ } :=
    sesd_calls h0 env h
  have hW : s0.windowSize = W.toNat := by
    obtain ⟨_, _, _, _, _, _, hs⟩ := sesd_new_ok h0
    rw [hs]
  rw [hs]
  unfold Sesd.scorePartial Sesd.fitScorePartial Sesd.candidateWindow Sesd.fitPartial
  rw [asValue_eq]
  cases hX : oneNumber X with
  | none => rfl
  | some v =>
    simp only [Except.map, Except.bind, Res.bind_ok]
    have h1 := window_updates_eq W.toNat ((fitted h).filterMap oneNumber ++ [v])
    have h2 := window_updates_eq W.toNat ((fitted h).filterMap oneNumber)
    unfold Window.updates at h1 h2
    rw [List.foldl_append, h2] at h1
    simp only [List.foldl_cons, List.foldl_nil] at h1
    rw [h1]
    simp only [Window.get, hW]
    have h3 : (lastN W.toNat ((fitted h).filterMap oneNumber) ++ [v]).drop
        ((lastN W.toNat ((fitted h).filterMap oneNumber) ++ [v]).length - W.toNat)
        = lastN W.toNat ((fitted h).filterMap oneNumber ++ [v]) := lastN_lastN_append _ _ _
    rw [h3, Res.out_ofExcept, Res.out_ofExcept]
    rfl

omit h0 in
theorem candidates_degrees [IsStrictOrderedRing K] (halpha : 0 < alpha ∧ alpha < 1)
    (env env' : SesdEnv K) (hsqrt : ∀ y, 0 ≤ y → env.sqrt y = env'.sqrt y)
    (hppf : ∀ p df, 1 / 2 < p → p < 1 → 1 ≤ df → env.tPpf p df = env'.tPpf p df) (n m : ℕ)
    (hm : m + 2 ≤ n) :
    ∀ (fuel i : ℕ) (remaining : List (K × ℕ)), 1 ≤ i → i + fuel ≤ m + 1 →
      remaining.length + i = n + 1 →
      Sesd.candidates env hybrid alpha n fuel i remaining
        = Sesd.candidates env' hybrid alpha n fuel i remaining := by
  intro fuel
  induction fuel with
  | zero => intro i remaining _ _ _; rfl
  | succ fuel ih =>
    intro i remaining h1 h2 h3
    have hcs : Sesd.centerScale env hybrid (remaining.map Prod.fst)
        = Sesd.centerScale env' hybrid (remaining.map Prod.fst) := by
      unfold Sesd.centerScale Sesd.npStd1
      rw [hsqrt]
      have hl : (2 : K) ≤ ((remaining.map Prod.fst).length : K) := by
        rw [List.length_map]
        exact_mod_cast (by omega : 2 ≤ remaining.length)
      apply div_nonneg
      · exact List.sum_nonneg fun y hy => by
          obtain ⟨v, _, rfl⟩ := List.mem_map.1 hy
          exact sq_nonneg _
      · linarith
    have hcrit : Sesd.criticalValue env alpha n i = Sesd.criticalValue env' alpha n i := by
      unfold Sesd.criticalValue
      have hni : (2 : K) ≤ (n : K) - i := by
        have : ((i + 2 : ℕ) : K) ≤ (n : K) := by exact_mod_cast (by omega : i + 2 ≤ n)
        push_cast at this
        linarith
      have hpos : (0 : K) < 2 * ((n : K) - i + 1) := by linarith
      have hq : alpha / (2 * ((n : K) - i + 1)) < 1 / 2 := by
        rw [div_lt_iff₀ hpos]
        linarith [halpha.2]
      have hq0 : 0 < alpha / (2 * ((n : K) - i + 1)) := div_pos halpha.1 hpos
      simp only
      rw [hppf _ _ (by linarith) (by linarith) (by omega), hsqrt]
      apply mul_nonneg
      · have := sq_nonneg (env'.tPpf (1 - alpha / (2 * ((n : K) - i + 1))) ((n : ℤ) - i - 1))
        linarith
      · linarith
    unfold Sesd.candidates
    rw [hcs]
    cases Sesd.centerScale env' hybrid (remaining.map Prod.fst) with
    | error e => rfl
    | ok cs =>
      simp only [Except.bind]
      split
      · rfl
      · cases Sesd.argmax (remaining.map fun p => |p.1 - cs.1| / cs.2) with
        | error e => rfl
        | ok k =>
          simp only
          split
          · rename_i p d hp hd
            obtain ⟨hk, _⟩ := List.getElem?_eq_some_iff.1 hp
            rw [ih (i + 1) (remaining.eraseIdx k) (by omega) (by omega)
              (by rw [List.length_eraseIdx, if_pos hk]; omega), hcrit]
          · rfl

/-- **C76 (only within their domains).** Whatever is fitted and scored, scores depend on the
square root only at numbers that are not negative, and on the quantile function of Student's
distribution only at probabilities strictly between 1/2 and 1 and at least one degree of
freedom. -/
theorem C76_sesd_domains [IsStrictOrderedRing K] (env' : SesdEnv K)
    (hsqrt : ∀ y, 0 ≤ y → env.sqrt y = env'.sqrt y)
    (hppf : ∀ p df, 1 / 2 < p → p < 1 → 1 ≤ df → env.tPpf p df = env'.tPpf p df)
    (hstl : env.stl = env'.stl) (h : List (Call (NdArray K) β)) :
    (calls (Sesd.detector env) s0 h).1 = (calls (Sesd.detector env') s0 h).1 := by
  obtain ⟨a1, a2, a3, a4, a5, a6, hs⟩ := sesd_new_ok h0
  have hscore : ∀ (s : SesdState K) (X : NdArray K), s.windowSize = W.toNat →
      s.maxAnomalies = m.toNat → s.alpha = alpha → s.hybrid = hybrid →
      s.window.get.length ≤ W.toNat →
      Sesd.scorePartial env s X = Sesd.scorePartial env' s X := by
    intro s X e1 e2 e3 e4 e5
    unfold Sesd.scorePartial
    congr 1
    unfold Sesd.candidateWindow
    cases Sesd.asValue X with
    | error e => rfl
    | ok v =>
      simp only [Except.map, Except.bind]
      set values := (s.window.get ++ [v]).drop ((s.window.get ++ [v]).length - s.windowSize)
        with hvalues
      unfold Sesd.scoreWindow
      split
      · rfl
      · rename_i hlen
        rw [hstl]
        cases ht : ModifiedStl.transformWindow env'.stl s.residual values with
        | error e => rfl
        | ok residuals =>
          simp only [Except.bind]
          congr 1
          have hr : residuals.length = W.toNat := by
            have hvl : values.length = W.toNat := by
              rw [hvalues, List.length_drop] at hlen ⊢
              omega
            unfold ModifiedStl.transformWindow at ht
            split at ht
            · cases ht
            · cases hst : env'.stl values with
              | error e => rw [hst] at ht; cases ht
              | ok seasonal =>
                rw [hst] at ht
                simp only [Except.bind] at ht
                unfold ModifiedStl.subtract at ht
                split at ht
                · cases ht
                · rename_i hne
                  rw [not_not] at hne
                  split at ht
                  · cases ht
                  · cases ht
                    simp [← hne, hvl]
          unfold Sesd.esd
          rw [hr, e2, e3, e4, candidates_degrees (hybrid := hybrid) ⟨a5, a6⟩ env env' hsqrt hppf
            W.toNat m.toNat (by omega) m.toNat 1 residuals.zipIdx le_rfl (by omega)
            (by simp [hr])]
  induction h using List.reverseRecOn with
  | nil => rfl
  | append_singleton h c ih =>
    have g1 := sesd_calls h0 env h
    have g2 := sesd_calls h0 env' h
    rw [calls_append, calls_append, ih, g1, g2]
    simp only [calls]
    congr 2
    cases c with
    | fit X y => rfl
    | score X =>
      simp only [call, Sesd.detector]
      rw [hscore]
      · rw [hs]
      · rw [hs]
      · rw [hs]
      · rw [hs]
      · simp [Window.get, lastN]; omega

/-- **C75 (value).** With `values` the last `window_size` accepted values including the new
one: the score is 0.0 while there are fewer than `window_size` of them. Then it is what the ESD
test reports for the newest residual, or 0.0 if it does not report it, unless the STL fit raises
or returns a series of another length. -/
theorem C75_sesd_value (h : List (Call (NdArray K) β)) (X : NdArray K) (v : K)
    (hX : oneNumber X = some v) :
    let s := (calls (Sesd.detector env) s0 h).2
    let values := lastN W.toNat ((fitted h).filterMap oneNumber ++ [v])
    if values.length < W.toNat then (Sesd.scorePartial env s X).out = .ok 0
    else
      match env.stl values with
      | .error e => (Sesd.scorePartial env s X).out = .error e
      | .ok seasonal =>
        seasonal.length = values.length →
        ∃ median cands reported, medianOf (values : Multiset K) = some median ∧
          EsdCandidates env.sqrt env.tPpf hybrid alpha m.toNat
            (List.zipWith (fun x s => x - s - median) values seasonal) cands ∧
          LongestSignificantPrefix cands reported ∧
          ∃ score, (Sesd.scorePartial env s X).out = .ok score ∧
            ((∃ c ∈ reported, c.idx = W.toNat - 1 ∧ score = c.statistic) ∨
              (∀ c ∈ reported, c.idx ≠ W.toNat - 1) ∧ score = 0) := by
  intro s values
  obtain ⟨a1, a2, a3, a4, _, _, hs0⟩ := sesd_new_ok h0
  have hW : s0.windowSize = W.toNat := by rw [hs0]
  have hm : s0.maxAnomalies = m.toNat := by rw [hs0]
  have hres : s0.residual = ⟨period.toNat, some W.toNat, some ⟨W.toNat, []⟩⟩ := by rw [hs0]
  have hhy : s0.hybrid = hybrid := by rw [hs0]
  have hal : s0.alpha = alpha := by rw [hs0]
  rw [← hhy, ← hal, ← hm]
  revert values
  rw [← hW]
  intro values
  have hs : s = { s0 with
      window := ⟨W.toNat, lastN W.toNat ((fitted h).filterMap oneNumber)⟩ } :=
    sesd_calls h0 env h
  have hout : (Sesd.scorePartial env s X).out = Sesd.scoreWindow env s values := by
    unfold Sesd.scorePartial Sesd.candidateWindow
    rw [asValue_eq, hX, Res.out_ofExcept]
    simp only [Except.map, Except.bind]
    have h3 : (lastN W.toNat ((fitted h).filterMap oneNumber) ++ [v]).drop
        ((lastN W.toNat ((fitted h).filterMap oneNumber) ++ [v]).length - W.toNat)
        = lastN W.toNat ((fitted h).filterMap oneNumber ++ [v]) := lastN_lastN_append _ _ _
    have h4 : s.window.get = lastN W.toNat ((fitted h).filterMap oneNumber) := by rw [hs]; rfl
    have h5 : s.windowSize = W.toNat := by rw [hs, ← hW]
    rw [h4, h5, h3, ← hW]
  have hsw : s.windowSize = s0.windowSize := by rw [hs]
  have hsr : s.residual = s0.residual := by rw [hs]
  have hsm : s.maxAnomalies = s0.maxAnomalies := by rw [hs]
  have hsh : s.hybrid = s0.hybrid := by rw [hs]
  have hsa : s.alpha = s0.alpha := by rw [hs]
  rw [hout]
  unfold Sesd.scoreWindow
  rw [hsw, hsr, hsm, hsh, hsa]
  split
  · rfl
  · rename_i hl
    have hfull : values.length = s0.windowSize := by
      have : values.length = min s0.windowSize _ := lastN_length _ _
      omega
    have htw : ModifiedStl.transformWindow env.stl s0.residual values
        = (env.stl values).bind fun seasonal => ModifiedStl.subtract values seasonal := by
      unfold ModifiedStl.transformWindow
      rw [if_neg]
      rw [hres, hfull]
      simp only
      omega
    rw [htw]
    cases hstl : env.stl values with
    | error e => rfl
    | ok seasonal =>
      simp only
      intro hlen
      have hne : values ≠ [] := by
        intro hn; rw [hn] at hfull; simp at hfull; omega
      obtain ⟨med, hmed⟩ := medianOf_isSome hne
      have hsub : ModifiedStl.subtract values seasonal
          = .ok (List.zipWith (fun x s => x - s - med) values seasonal) := by
        unfold ModifiedStl.subtract
        rw [if_neg (by simp [hlen]), npMedian_eq, hmed]
      have hzl : (List.zipWith (fun x s => x - s - med) values seasonal).length = s0.windowSize := by
        rw [List.length_zipWith, hlen, hfull, Nat.min_self]
      obtain ⟨cands, reported, h1, h5, h6⟩ := C74_sesd_reported env s0.hybrid s0.alpha
        s0.maxAnomalies (List.zipWith (fun x s => x - s - med) values seasonal) (by omega)
      refine ⟨med, cands, reported, hmed, h5, h6, Sesd.latestStatistic (s0.windowSize - 1) reported, ?_, ?_⟩
      · simp only [Except.bind, hsub, h1, Except.map, hfull]
      · exact latestStatistic_spec _ _

/-- **C75 (sign).** No score is negative, and an argument that is not a single number raises
`ValueError`. -/
theorem C75_sesd_nonneg [IsStrictOrderedRing K] (h : List (Call (NdArray K) β)) (X : NdArray K) :
    let s := (calls (Sesd.detector env) s0 h).2
    (oneNumber X = none → (Sesd.scorePartial env s X).out = .error .valueError) ∧
    ∀ score, (Sesd.scorePartial env s X).out = .ok score → 0 ≤ score := by
  intro s
  constructor
  · intro hX
    unfold Sesd.scorePartial Sesd.candidateWindow
    rw [asValue_eq, hX]
    rfl
  · intro score hsc
    unfold Sesd.scorePartial at hsc
    rw [Res.out_ofExcept] at hsc
    cases hc : Sesd.candidateWindow s X with
    | error e => rw [hc] at hsc; cases hsc
    | ok values =>
      rw [hc] at hsc
      simp only [Except.bind] at hsc
      unfold Sesd.scoreWindow at hsc
      split at hsc
      · cases hsc; exact le_rfl
      · rename_i hl
        cases ht : ModifiedStl.transformWindow env.stl s.residual values with
        | error e => rw [ht] at hsc; cases hsc
        | ok residuals =>
          rw [ht] at hsc
          simp only [Except.bind] at hsc
          cases he : Sesd.esd env s.hybrid s.maxAnomalies s.alpha residuals with
          | error e => rw [he] at hsc; cases hsc
          | ok reported =>
            rw [he] at hsc
            simp only [Except.map, Except.ok.injEq] at hsc
            have hlen : residuals.length = values.length := by
              unfold ModifiedStl.transformWindow at ht
              split at ht
              · cases ht
              · cases hst : env.stl values with
                | error e => rw [hst] at ht; cases ht
                | ok seasonal =>
                  rw [hst] at ht
                  simp only [Except.bind, ModifiedStl.subtract] at ht
                  split at ht
                  · cases ht
                  · rename_i hne
                    cases hmed : npMedian values with
                    | none => rw [hmed] at ht; cases ht
                    | some med =>
                      rw [hmed] at ht
                      simp only [Except.ok.injEq] at ht
                      rw [← ht, List.length_zipWith]
                      rw [not_not] at hne
                      omega
            obtain ⟨a1, a2, a3, a4, _, _, hs0⟩ := sesd_new_ok h0
            have hs := sesd_calls h0 env h
            have hsm : s.maxAnomalies = m.toNat := by
              have : s.maxAnomalies = s0.maxAnomalies := by rw [show s = _ from hs]
              rw [this, hs0]
            have hsW : s.windowSize = W.toNat := by
              have : s.windowSize = s0.windowSize := by rw [show s = _ from hs]
              rw [this, hs0]
            obtain ⟨_, _, hpos⟩ := C74_sesd_indices env s.hybrid s.alpha s.maxAnomalies residuals
              reported (by omega) he
            rcases latestStatistic_spec (values.length - 1) reported with ⟨c, hc, _, h2⟩ | ⟨_, h2⟩
            · rw [← hsc, h2]; exact (hpos c hc).2
            · rw [← hsc, h2]

end

end

/-! A concrete run: period 2, window 5, at most 2 anomalies, no seasonality. -/

def sesdExampleEnv : SesdEnv ℚ where
  sqrt x := x
  tPpf _ _ := 1
  stl l := .ok (l.map fun _ => 0)

def sesdExample : Except PyErr (SesdState ℚ) := Sesd.new true 2 5 2 (1 / 20)

example : sesdExample.isOk = true := by decide +kernel

example : (sesdExample.bind fun s => (Sesd.scorePartial sesdExampleEnv
    (calls (Sesd.detector (β := Unit) sesdExampleEnv) s
      [.fit (.vec [0]) none, .fit (.vec [1]) none, .fit (.vec [2]) none, .fit (.vec [3]) none]).2
    (.vec [100])).out) = .ok (980000 / 14826) := by decide +kernel

example : (sesdExample.bind fun s => (Sesd.scorePartial sesdExampleEnv
    (calls (Sesd.detector (β := Unit) sesdExampleEnv) s
      [.fit (.vec [0]) none, .fit (.vec [1]) none, .fit (.vec [2]) none]).2
    (.vec [100])).out) = .ok 0 := by decide +kernel

end Pysad
