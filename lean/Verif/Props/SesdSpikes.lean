import Verif.Props.SesdSpike

/-! Property C165: several spikes in the same window do not hide each other from `SeasonalESD` and
`SeasonalHybridESD`. -/

namespace Pysad

open Spec

/-! ### Specification -/

/-- Large enough spikes are reported even if the window holds others: if each residual of the
window lies within `b` of some level `c` or is further than `T` from it, on any side, the newest
is one of the latter, and at most `max_anomalies` are not within `b`, the score is not 0. How large
is large enough depends only on `b` and on the parameters of the detector. -/
def Spec.ReportsEachSpike (hybrid : Bool) : Prop :=
  ∀ (period W m : ℤ) (alpha : ℝ) (s0 : SesdState ℝ), Sesd.new hybrid period W m alpha = .ok s0 →
    ∀ (ppf : ℝ → ℤ → ℝ) (b : ℝ), ∃ T : ℝ, ∀ (stl : List ℝ → Except PyErr (List ℝ))
      (h : List (Call (NdArray ℝ) Unit)) (X : NdArray ℝ) (others : List ℝ) (z c : ℝ),
      FullWindow stl W.toNat h X (others ++ [z]) →
      (∀ x ∈ others, |x - c| ≤ b ∨ T < |x - c|) → T < |z - c| →
      (((others ++ [z]).filter fun x => b < |x - c|).length : ℤ) ≤ m →
      ∃ score, sesdScore ppf stl s0 h X = .ok score ∧ 0 < score

/-- The claim of **C165**. -/
def C165_statement : Prop := ∀ hybrid, ReportsEachSpike hybrid

/-! ### Proofs -/

namespace SesdSpike

/-- Removing the value at an index. -/
theorem rest_perm {values : List ℝ} {removed : List ℕ} {v : ℝ} {i : ℕ}
    (h : (v, i) ∈ rest values removed) :
    (rest values removed).Perm ((v, i) :: rest values (removed ++ [i])) := by
  obtain ⟨k, hk⟩ := List.mem_iff_getElem?.1 h
  have hlt : k < (rest values removed).length := (List.getElem?_eq_some_iff.1 hk).1
  have he := (List.getElem?_eq_some_iff.1 hk).2
  rw [Sesd.rest_snoc, ← Sesd.eraseIdx_eq_filter _ k (v, i) (Sesd.nodup_rest _ _) hk, ← he]
  exact (List.getElem_cons_eraseIdx_perm hlt).symm

/-- If each removal takes a spike while there is one, and the last spike is significant, the newest
spike is reported. -/
theorem score_of_spikes {β : Type*} {hybrid : Bool} {period W m : ℤ} {alpha : ℝ}
    {s0 : SesdState ℝ} (h0 : Sesd.new hybrid period W m alpha = .ok s0) (ppf : ℝ → ℤ → ℝ)
    (stl : List ℝ → Except PyErr (List ℝ)) (h : List (Call (NdArray ℝ) β)) (X : NdArray ℝ)
    {others : List ℝ} {z : ℝ} (hf : FullWindow stl W.toNat h X (others ++ [z]))
    (O : ℝ → Prop) [DecidablePred O] (hz : O z) (k : ℕ)
    (hk : (others ++ [z]).countP (fun x => O x) = k) (hkm : k ≤ m.toNat)
    (hstep : ∀ l : List ℝ, l.Sublist (others ++ [z]) → 1 ≤ l.countP (fun x => O x) →
      l.countP (fun x => O x) ≤ k → l.countP (fun x => ¬ O x) + k = W.toNat →
      ∀ center scale, CenterScale Real.sqrt hybrid l center scale →
        1 / 10 ^ 10 < scale ∧ ∃ y ∈ l, O y ∧ ∀ x ∈ l, ¬ O x → |x - center| < |y - center|)
    (hlast : ∀ l : List ℝ, l.Sublist (others ++ [z]) → l.countP (fun x => O x) = 1 →
      l.countP (fun x => ¬ O x) + k = W.toNat →
      ∀ center scale, CenterScale Real.sqrt hybrid l center scale → 1 / 10 ^ 10 < scale →
        ∀ y ∈ l, O y → esdCritical Real.sqrt ppf alpha W.toNat k < |y - center| / scale) :
    ∃ score, sesdScore ppf stl s0 h X = .ok score ∧ 0 < score := by
  obtain ⟨hlen, cands, reported, score, ⟨k1, k2, k3⟩, ⟨l1, l2, l3⟩, hs, hcase⟩ :=
    run h0 ppf stl h X hf
  obtain ⟨hW, hm, hmW⟩ := sizes h0
  have hol : others.length + 1 = W.toNat := by simpa using hlen
  set values := others ++ [z] with hvalues
  let R : ℕ → List (ℝ × ℕ) := fun j => rest values ((cands.take j).map SesdCandidate.idx)
  have hR : ∀ j, ((R j).map Prod.fst).Sublist values := by
    intro j
    have h1 : ((R j).map Prod.fst).Sublist (values.zipIdx.map Prod.fst) := (List.filter_sublist).map _
    simpa using h1
  have hpos : 1 ≤ k := by
    rw [← hk, hvalues, List.countP_append]
    simp [hz]
  have hsplit : values.countP (fun x => ¬ O x) + k = W.toNat := by
    rw [← hk, ← hlen, List.length_eq_countP_add_countP (fun x => decide (O x)) (l := values)]
    simp only [decide_not, Bool.decide_eq_true]
    omega
  -- the first removals take spikes
  have hinv : ∀ j, j ≤ k → j ≤ cands.length ∧
      ((R j).map Prod.fst).countP (fun x => O x) + j = k ∧
      ((R j).map Prod.fst).countP (fun x => ¬ O x) + k = W.toNat := by
    intro j
    induction j with
    | zero =>
      intro _
      have : (R 0).map Prod.fst = values := by
        simp only [R, List.take_zero, List.map_nil]
        rw [Sesd.rest_nil]
        simp
      rw [this]
      exact ⟨Nat.zero_le _, by omega, hsplit⟩
    | succ j ih =>
      intro hj
      obtain ⟨i1, i2, i3⟩ := ih (by omega)
      have hst := hstep _ (hR j) (by omega) (by omega) i3
      have hlt : j < cands.length := by
        by_contra hge
        have hjl : cands.length = j := by omega
        obtain ⟨center, scale, hc, hle⟩ := k3 (by omega)
        have e : cands = cands.take j := by rw [← hjl, List.take_length]
        rw [e] at hc
        exact absurd (hst center scale hc).1 (not_lt.2 hle)
      obtain ⟨center, scale, v, hc, -, hmem, hstat, hmax, -⟩ := k2 j cands[j] (by simp [hlt])
      obtain ⟨g1, y, hy, hyO, hbeat⟩ := hst center scale hc
      have hsp : (0 : ℝ) < scale := lt_trans (by positivity) g1
      have hvO : O v := by
        by_contra hn
        obtain ⟨p, hp, rfl⟩ := List.mem_map.1 hy
        have h1 := hmax p hp
        rw [hstat] at h1
        exact absurd h1 (not_le.2 (div_lt_div_of_pos_right
          (hbeat v (List.mem_map.2 ⟨_, hmem, rfl⟩) hn) hsp))
      have hperm := (rest_perm hmem).map Prod.fst
      have htake : (cands.take (j + 1)).map SesdCandidate.idx
          = (cands.take j).map SesdCandidate.idx ++ [cands[j].idx] := by
        rw [List.take_succ_eq_append_getElem hlt, List.map_append]
        rfl
      have e1 := hperm.countP_eq (fun x => decide (O x))
      have e2 := hperm.countP_eq (fun x => decide (¬ O x))
      rw [List.map_cons, List.countP_cons, ← htake] at e1 e2
      simp only [hvO, decide_true, if_true, not_true, decide_false, Bool.false_eq_true, if_false,
        add_zero] at e1 e2
      refine ⟨hlt, ?_, ?_⟩
      · have : ((R j).map Prod.fst).countP (fun x => O x)
            = ((R (j + 1)).map Prod.fst).countP (fun x => O x) + 1 := e1
        omega
      · have : ((R j).map Prod.fst).countP (fun x => ¬ O x)
            = ((R (j + 1)).map Prod.fst).countP (fun x => ¬ O x) := e2
        omega
  -- the newest is among them
  obtain ⟨hkl, hk0, -⟩ := hinv k le_rfl
  have hzmem : (z, others.length) ∈ values.zipIdx := by
    rw [List.mem_zipIdx_iff_getElem?, hvalues]; simp
  have hnew : others.length ∈ (cands.take k).map SesdCandidate.idx := by
    by_contra hn
    have hin : (z, others.length) ∈ R k := List.mem_filter.2 ⟨hzmem, by simpa using hn⟩
    have h0' : ((R k).map Prod.fst).countP (fun x => O x) = 0 := by omega
    have := List.countP_eq_zero.1 h0' z (List.mem_map.2 ⟨_, hin, rfl⟩)
    simp [hz] at this
  -- and the last spike is significant
  obtain ⟨_, j2, j3⟩ := hinv (k - 1) (by omega)
  have hlt : k - 1 < cands.length := by omega
  have hex : Exceeds cands[k - 1] := by
    obtain ⟨center, scale, v, hc, hsc, hmem, hstat, hmax, -, hcrit⟩ := k2 (k - 1) cands[k - 1] (by simp [hlt])
    obtain ⟨g1, y, hy, hyO, hbeat⟩ := hstep _ (hR (k - 1)) (by omega) (by omega) j3 center scale hc
    have hsp : (0 : ℝ) < scale := lt_trans (by positivity) g1
    have hvO : O v := by
      by_contra hn
      obtain ⟨p, hp, rfl⟩ := List.mem_map.1 hy
      have h1 := hmax p hp
      rw [hstat] at h1
      exact absurd h1 (not_le.2 (div_lt_div_of_pos_right
        (hbeat v (List.mem_map.2 ⟨_, hmem, rfl⟩) hn) hsp))
    have := hlast _ (hR (k - 1)) (by omega) j3 center scale hc g1 v
      (List.mem_map.2 ⟨_, hmem, rfl⟩) hvO
    unfold Exceeds
    rw [hcrit, hstat, hlen]
    have e : ((cands.take (k - 1)).map SesdCandidate.idx).length + 1 = k := by
      rw [List.length_map, List.length_take]
      omega
    rw [e]
    exact this
  have hrep : k ≤ reported.length := by
    by_contra hlt'
    refine l3 (cands.take k) (List.take_prefix _ _) (by rw [List.length_take]; omega) cands[k - 1]
      ?_ hex
    rw [List.getLast?_eq_getElem?, List.length_take, Nat.min_eq_left hkl, List.getElem?_take,
      if_pos (by omega)]
    simp [hlt]
  have hpre : cands.take k <+: reported := by
    obtain ⟨t, rfl⟩ := l1
    rw [List.take_append_of_le_length hrep]
    exact List.take_prefix _ _
  obtain ⟨d, hd, hdi⟩ := List.mem_map.1 hnew
  rcases hcase with ⟨e, he, hei, hes⟩ | ⟨hno, -⟩
  · refine ⟨score, hs, ?_⟩
    obtain ⟨j, hj⟩ := List.mem_iff_getElem?.1 (l1.subset he)
    have hjk : j < k := by
      by_contra hge
      obtain ⟨_, _, w, _, _, hmem, _⟩ := k2 j e hj
      have hnot := (List.mem_filter.1 hmem).2
      rw [decide_eq_true_eq] at hnot
      apply hnot
      show e.idx ∈ _
      rw [hei, show W.toNat - 1 = others.length by omega, ← hdi]
      apply List.mem_map_of_mem
      exact (List.take_prefix_take_left (by omega)).subset hd
    obtain ⟨_, i2, i3⟩ := hinv j hjk.le
    obtain ⟨center, scale, v, hc, -, hmem, hstat, hmax, -⟩ := k2 j e hj
    obtain ⟨g1, y, hy, hyO, hbeat⟩ := hstep _ (hR j) (by omega) (by omega) i3 center scale hc
    have hsp : (0 : ℝ) < scale := lt_trans (by positivity) g1
    obtain ⟨x, hx, hxO⟩ : ∃ x ∈ (R j).map Prod.fst, ¬ O x := by
      have : 0 < ((R j).map Prod.fst).countP (fun x => ¬ O x) := by omega
      obtain ⟨x, hx, hxO⟩ := List.countP_pos_iff.1 this
      exact ⟨x, hx, by simpa using hxO⟩
    have hlt2 := hbeat x hx hxO
    obtain ⟨p, hp, rfl⟩ := List.mem_map.1 hy
    rw [hes]
    exact lt_of_lt_of_le (div_pos (lt_of_le_of_lt (abs_nonneg _) hlt2) hsp) (hmax p hp)
  · exact absurd (by rw [hdi]; omega) (hno d (hpre.subset hd))

/-- Deviations of the spikes and of the rest. -/
theorem abs_sum_many (O : ℝ → Prop) [DecidablePred O] (c b M : ℝ) : ∀ l : List ℝ,
    (∀ x ∈ l, |x - c| ≤ M) → (∀ x ∈ l, ¬ O x → |x - c| ≤ b) →
    |l.sum - l.length * c| ≤ l.countP (fun x => O x) * M + l.countP (fun x => ¬ O x) * b := by
  intro l hM hb
  rw [← Grubbs.sum_sub]
  induction l with
  | nil => simp
  | cons x l ih =>
    have h1 := ih (fun y hy => hM y (by simp [hy])) (fun y hy => hb y (by simp [hy]))
    rw [List.map_cons, List.sum_cons]
    refine (abs_add_le _ _).trans ?_
    by_cases hx : O x
    · have := hM x (by simp)
      simp only [List.countP_cons, hx, decide_true, if_true, not_true, decide_false,
        Bool.false_eq_true, if_false, add_zero]
      push_cast
      linarith
    · have := hb x (by simp) hx
      simp only [List.countP_cons, hx, decide_true, if_true, not_false_eq_true, decide_false,
        Bool.false_eq_true, if_false, add_zero]
      push_cast
      linarith

/-- As long as fewer than half of the values are spikes, the mean stays nearer to the rest than to
the largest of the spikes. -/
theorem mean_near (O : ℝ → Prop) [DecidablePred O] (l : List ℝ) (c b y : ℝ) (hb0 : 0 ≤ b)
    (hM : ∀ x ∈ l, |x - c| ≤ |y - c|) (hb : ∀ x ∈ l, ¬ O x → |x - c| ≤ b)
    (hmaj : 2 * l.countP (fun x => O x) < l.length) (hD : 3 * l.length * b < |y - c|) :
    2 * |Grubbs.mean l - c| < |y - c| - b := by
  have h1 := abs_sum_many O c b _ l hM hb
  have hN : (0 : ℝ) < l.length := by exact_mod_cast (by omega : 0 < l.length)
  have hM0 : 0 ≤ |y - c| := abs_nonneg _
  have h2 : (2 : ℝ) * l.countP (fun x => O x) + 1 ≤ l.length := by exact_mod_cast hmaj
  have h3 : (l.countP (fun x => ¬ O x) : ℝ) ≤ l.length := by exact_mod_cast List.countP_le_length
  have e : Grubbs.mean l - c = (l.sum - l.length * c) / l.length := by
    unfold Grubbs.mean
    field_simp
  rw [e, abs_div, abs_of_pos hN, ← mul_div_assoc, div_lt_iff₀ hN]
  have h4 := mul_le_mul_of_nonneg_right h2 hM0
  have h5 := mul_le_mul_of_nonneg_right h3 hb0
  nlinarith

/-- The scale is not tiny. -/
theorem std_many {l : List ℝ} {y ε : ℝ} (hy : y ∈ l) (hl : 2 ≤ l.length) (hε : 0 ≤ ε)
    (h : ε ^ 2 * (l.length - 1) < (y - Grubbs.mean l) ^ 2) : ε < Grubbs.std l := by
  have hp : (2 : ℝ) ≤ l.length := by exact_mod_cast hl
  unfold Grubbs.std
  rw [Real.lt_sqrt hε, lt_div_iff₀ (by linarith)]
  refine lt_of_lt_of_le h ?_
  refine List.single_le_sum ?_ _ (List.mem_map.2 ⟨y, hy, rfl⟩)
  intro x hx
  obtain ⟨v, -, rfl⟩ := List.mem_map.1 hx
  positivity

theorem exists_farthest (c : ℝ) : ∀ l : List ℝ, l ≠ [] → ∃ y ∈ l, ∀ x ∈ l, |x - c| ≤ |y - c| := by
  intro l hl
  induction l with
  | nil => exact absurd rfl hl
  | cons a l ih =>
    by_cases h : l = []
    · subst h
      exact ⟨a, by simp, by simp⟩
    · obtain ⟨y, hy, hmax⟩ := ih h
      rcases le_total (|a - c|) (|y - c|) with hle | hle
      · exact ⟨y, by simp [hy], by
          intro x hx
          rcases List.mem_cons.1 hx with rfl | hx
          · exact hle
          · exact hmax x hx⟩
      · exact ⟨a, by simp, by
          intro x hx
          rcases List.mem_cons.1 hx with rfl | hx
          · exact le_rfl
          · exact (hmax x hx).trans hle⟩

/-- The only spike of a list, last. -/
theorem perm_single {O : ℝ → Prop} [DecidablePred O] {l : List ℝ} {y : ℝ} (hy : y ∈ l) (hO : O y)
    (h1 : l.countP (fun x => O x) = 1) : l.Perm (l.filter (fun x => ¬ O x) ++ [y]) := by
  have e1 : l.filter (fun x => O x) = [y] := by
    have hlen : (l.filter (fun x => O x)).length = 1 := by rw [← List.countP_eq_length_filter, h1]
    obtain ⟨a, ha⟩ := List.length_eq_one_iff.1 hlen
    have : y ∈ l.filter (fun x => O x) := List.mem_filter.2 ⟨hy, by simpa using hO⟩
    rw [ha] at this ⊢
    rw [List.mem_singleton.1 this]
  have := (List.filter_append_perm (fun x => decide (O x)) l).symm
  refine this.trans ?_
  rw [e1]
  refine List.perm_append_comm.trans ?_
  simp only [decide_not]
  exact List.Perm.refl _

theorem mean_perm {l l' : List ℝ} (h : l.Perm l') : Grubbs.mean l = Grubbs.mean l' := by
  unfold Grubbs.mean
  rw [h.sum_eq, h.length_eq]

theorem std_perm {l l' : List ℝ} (h : l.Perm l') : Grubbs.std l = Grubbs.std l' := by
  unfold Grubbs.std
  rw [mean_perm h, (h.map _).sum_eq, h.length_eq]

end SesdSpike

open SesdSpike

/-- **C165**, partial: `SeasonalESD`. With `n` the window size and `t i` the quantile of Student's
distribution used for the `i`-th removal, the newest of at most `max_anomalies` spikes is reported
if they are further than `T` from the level and the rest within `b`, for `T ≥ 3 n b`,
`T ≥ n / 10¹⁰` and `T ≥ b + n |t i| b` for all `i`. -/
theorem C165_esd_partial {β : Type*} {period W m : ℤ} {alpha : ℝ} {s0 : SesdState ℝ}
    (h0 : Sesd.new false period W m alpha = .ok s0) (ppf : ℝ → ℤ → ℝ)
    (stl : List ℝ → Except PyErr (List ℝ)) (h : List (Call (NdArray ℝ) β)) (X : NdArray ℝ)
    (others : List ℝ) (z c b T : ℝ) (hf : FullWindow stl W.toNat h X (others ++ [z]))
    (hb0 : 0 ≤ b) (hb : ∀ x ∈ others, |x - c| ≤ b ∨ T < |x - c|) (hz : T < |z - c|)
    (hcount : (((others ++ [z]).filter fun x => b < |x - c|).length : ℤ) ≤ m)
    (h1 : 3 * W.toNat * b ≤ T) (h2 : W.toNat / 10 ^ 10 ≤ T)
    (h3 : ∀ i : ℕ, 1 ≤ i → i ≤ m.toNat →
      W.toNat * |ppf (1 - alpha / (2 * ((W.toNat : ℝ) - i + 1))) (W.toNat - i - 1)| * b ≤ T - b) :
    ∃ score, sesdScore ppf stl s0 h X = .ok score ∧ 0 < score := by
  obtain ⟨hW, hm, -⟩ := sizes h0
  obtain ⟨a1, a2, a3, a4, -⟩ := sesd_new_ok h0
  have hW4 : (4 : ℝ) ≤ W.toNat := by exact_mod_cast hW
  have hbT : b ≤ T := by nlinarith
  have hmem : ∀ x ∈ others ++ [z], ¬ T < |x - c| → |x - c| ≤ b := by
    intro x hx hn
    rcases List.mem_append.1 hx with hx | hx
    · exact (hb x hx).resolve_right hn
    · rw [List.mem_singleton.1 hx] at hn
      exact absurd hz hn
  have hstep : ∀ l : List ℝ, l ⊆ others ++ [z] → 1 ≤ l.countP (fun x => T < |x - c|) →
      2 * l.countP (fun x => T < |x - c|) < l.length → l.length ≤ W.toNat →
        1 / 10 ^ 10 < Grubbs.std l ∧ ∃ y ∈ l, T < |y - c| ∧
          ∀ x ∈ l, ¬ T < |x - c| → |x - Grubbs.mean l| < |y - Grubbs.mean l| := by
    intro l hsub c1 c2 c3
    obtain ⟨y, hy, hmax⟩ := exists_farthest c l (by rintro rfl; simp at c1)
    obtain ⟨w, hw, hwO⟩ := List.countP_pos_iff.1 (by omega : 0 < l.countP (fun x => T < |x - c|))
    have hyO : T < |y - c| := lt_of_lt_of_le (by simpa using hwO) (hmax w hw)
    have hlW : (l.length : ℝ) ≤ W.toNat := by exact_mod_cast c3
    have hl2 : 2 ≤ l.length := by omega
    have hnear := mean_near (fun x => T < |x - c|) l c b y hb0 hmax
      (fun x hx hn => hmem x (hsub hx) hn) c2 (by
        refine lt_of_le_of_lt ?_ hyO
        refine le_trans ?_ h1
        nlinarith)
    have hd := abs_sub_le y (Grubbs.mean l) c
    refine ⟨std_many hy hl2 (by positivity) ?_, y, hy, hyO, ?_⟩
    · have h5 : |y - c| / 2 < |y - Grubbs.mean l| := by linarith
      have h6 : (W.toNat : ℝ) / 10 ^ 10 / 2 < |y - Grubbs.mean l| := by linarith
      have h7 := pow_lt_pow_left₀ h6 (by positivity) two_ne_zero
      rw [sq_abs] at h7
      refine lt_of_le_of_lt ?_ h7
      rw [div_pow, div_pow, div_pow, one_pow]
      have : ((l.length : ℝ) - 1) * 4 ≤ (W.toNat : ℝ) ^ 2 := by nlinarith
      rw [div_div, one_div, inv_mul_eq_div, div_le_div_iff₀ (by positivity) (by positivity)]
      nlinarith
    · intro x hx hn
      have h4 := abs_sub_le x c (Grubbs.mean l)
      rw [abs_sub_comm c] at h4
      have := hmem x (hsub hx) hn
      linarith
  have hsplit : ∀ l : List ℝ, l.countP (fun x => T < |x - c|)
      + l.countP (fun x => ¬ T < |x - c|) = l.length := by
    intro l
    rw [List.length_eq_countP_add_countP (fun x => decide (T < |x - c|)) (l := l)]
    simp only [decide_not, Bool.decide_eq_true]
  set k := (others ++ [z]).countP (fun x => T < |x - c|) with hk
  have hkm : k ≤ m.toNat := by
    have hle : k ≤ (others ++ [z]).countP (fun x => b < |x - c|) := by
      rw [hk]
      apply List.countP_mono_left
      intro x _ hx
      simp only [decide_eq_true_eq] at hx ⊢
      linarith
    rw [← List.countP_eq_length_filter] at hcount
    omega
  have hk1 : 1 ≤ k := by
    rw [hk, List.countP_append]
    simp [hz]
  refine score_of_spikes h0 ppf stl h X hf (fun x => T < |x - c|) hz k hk.symm hkm ?_ ?_
  · intro l hsub c1 c2 c3 center scale hcs
    obtain ⟨rfl, rfl⟩ := centerScale_plain hcs
    have := hsplit l
    exact hstep l hsub.subset c1 (by omega) (by omega)
  · intro l hsub c1 c2 center scale hcs hsc y hy hyO
    obtain ⟨rfl, rfl⟩ := centerScale_plain hcs
    have hp := perm_single (O := fun x => T < |x - c|) hy hyO c1
    set o := l.filter (fun x => ¬ T < |x - c|) with ho
    have hol : o.length = W.toNat - k := by
      rw [ho, ← List.countP_eq_length_filter]
      omega
    rw [mean_perm hp, std_perm hp] at *
    have hoc : ∀ x ∈ o, |x - c| ≤ b := by
      intro x hx
      obtain ⟨hx1, hx2⟩ := List.mem_filter.1 hx
      exact hmem x (hsub.subset hx1) (by simpa using hx2)
    have hkW : k ≤ W.toNat := by omega
    have hoR : (o.length : ℝ) = W.toNat - k := by rw [hol, Nat.cast_sub hkW]
    have ho3 : 3 ≤ o.length := by omega
    have ho3' : (3 : ℝ) ≤ o.length := by exact_mod_cast ho3
    have g2 := Grubbs.exceeds ho3 hoc (z := y) (by linarith)
      (ppf (1 - alpha / (2 * ((W.toNat : ℝ) - k + 1))) (W.toNat - k - 1))
      (lt_trans (by positivity) hsc) (by
        have h5 := h3 k hk1 hkm
        set t := ppf (1 - alpha / (2 * ((W.toNat : ℝ) - k + 1))) (W.toNat - k - 1) with ht
        have h6 : W.toNat * |t| * b < |y - c| - b := by linarith
        have h7 := pow_lt_pow_left₀ h6 (by positivity) two_ne_zero
        rw [mul_pow, mul_pow, sq_abs] at h7
        have hk1' : (1 : ℝ) ≤ k := by exact_mod_cast hk1
        have h8 : (o.length : ℝ) + 1 ≤ (W.toNat : ℝ) ^ 2 := by nlinarith
        have h9 : 0 ≤ t ^ 2 * b ^ 2 := by positivity
        have h10 := mul_le_mul_of_nonneg_right h8 h9
        nlinarith [sq_nonneg (|y - c| - b)])
    refine lt_of_eq_of_lt ?_ g2
    unfold esdCritical
    simp only
    rw [hoR]

/-- **C165**, partial: in particular `SeasonalESD` reports every large enough spike among at most
`max_anomalies`. -/
theorem C165_esd_reports_partial : ReportsEachSpike false := by
  intro period W m alpha s0 h0 ppf b
  let t : ℕ → ℝ := fun i => |ppf (1 - alpha / (2 * ((W.toNat : ℝ) - i + 1))) (W.toNat - i - 1)|
  let S : ℝ := ∑ i ∈ Finset.range (m.toNat + 1), t i
  have hS : 0 ≤ S := Finset.sum_nonneg fun i _ => abs_nonneg _
  refine ⟨3 * W.toNat * |b| + W.toNat + |b| + W.toNat * S * |b|, ?_⟩
  intro stl h X others z c hf hb hz hcount
  have e1 : 0 ≤ 3 * (W.toNat : ℝ) * |b| := by positivity
  have e2 : 0 ≤ (W.toNat : ℝ) * S * |b| := by positivity
  have e3 : (0 : ℝ) ≤ W.toNat := by positivity
  have e4 := abs_nonneg b
  refine C165_esd_partial h0 ppf stl h X others z c |b| _ hf (abs_nonneg b) ?_ hz ?_ ?_ ?_ ?_
  · intro x hx
    rcases hb x hx with hx | hx
    · exact .inl (hx.trans (le_abs_self b))
    · exact .inr hx
  · refine le_trans ?_ hcount
    rw [← List.countP_eq_length_filter, ← List.countP_eq_length_filter]
    have : (others ++ [z]).countP (fun x => |b| < |x - c|)
        ≤ (others ++ [z]).countP (fun x => b < |x - c|) := by
      apply List.countP_mono_left
      intro x _ hx
      simp only [decide_eq_true_eq] at hx ⊢
      exact lt_of_le_of_lt (le_abs_self b) hx
    exact_mod_cast this
  · linarith
  · have : (W.toNat : ℝ) / 10 ^ 10 ≤ W.toNat := div_le_self e3 (by norm_num)
    linarith
  · intro i hi1 him
    have hle : t i ≤ S := Finset.single_le_sum (f := t) (fun i _ => abs_nonneg _)
      (Finset.mem_range.2 (by omega))
    have : W.toNat * t i * |b| ≤ W.toNat * S * |b| :=
      mul_le_mul_of_nonneg_right (mul_le_mul_of_nonneg_left hle e3) e4
    show W.toNat * t i * |b| ≤ _
    linarith

/-- **C165**, partial: `SeasonalHybridESD`, provided that the residuals are spread out: no more
than `(n - max_anomalies) / 2` of the `n` residuals lie within `ε` of each other. The newest of at
most `max_anomalies` spikes is reported if they are further than `T` from the level and the rest
within `b`, for `T ≥ 3 b` and `T ≥ b + 2.9652 b` times each of the critical values. -/
theorem C165_hybrid_partial {β : Type*} {period W m : ℤ} {alpha : ℝ} {s0 : SesdState ℝ}
    (h0 : Sesd.new true period W m alpha = .ok s0) (ppf : ℝ → ℤ → ℝ)
    (stl : List ℝ → Except PyErr (List ℝ)) (h : List (Call (NdArray ℝ) β)) (X : NdArray ℝ)
    (others : List ℝ) (z c b T ε : ℝ) (hf : FullWindow stl W.toNat h X (others ++ [z]))
    (hb0 : 0 ≤ b) (hb : ∀ x ∈ others, |x - c| ≤ b ∨ T < |x - c|) (hz : T < |z - c|)
    (hcount : (((others ++ [z]).filter fun x => b < |x - c|).length : ℤ) ≤ m)
    (hε : 1 / 10 ^ 10 < 14826 / 10000 * ε)
    (hspread : ∀ a, 2 * (((others ++ [z]).filter fun x => |x - a| < ε).length : ℤ) + m ≤ W)
    (h1 : 3 * b ≤ T)
    (h2 : ∀ i : ℕ, 1 ≤ i → i ≤ m.toNat →
      14826 / 10000 * (2 * b) * esdCritical Real.sqrt ppf alpha W.toNat i ≤ T - b) :
    ∃ score, sesdScore ppf stl s0 h X = .ok score ∧ 0 < score := by
  obtain ⟨hW, hm, -⟩ := sizes h0
  obtain ⟨a1, a2, a3, a4, -⟩ := sesd_new_ok h0
  have hmem : ∀ x ∈ others ++ [z], ¬ T < |x - c| → |x - c| ≤ b := by
    intro x hx hn
    rcases List.mem_append.1 hx with hx | hx
    · exact (hb x hx).resolve_right hn
    · rw [List.mem_singleton.1 hx] at hn
      exact absurd hz hn
  have hsplit : ∀ l : List ℝ, ∀ p : ℝ → Prop, ∀ [DecidablePred p],
      l.countP (fun x => p x) + l.countP (fun x => ¬ p x) = l.length := by
    intro l p _
    rw [List.length_eq_countP_add_countP (fun x => decide (p x)) (l := l)]
    simp only [decide_not, Bool.decide_eq_true]
  set k := (others ++ [z]).countP (fun x => T < |x - c|) with hk
  have hkm : k ≤ m.toNat := by
    have hle : k ≤ (others ++ [z]).countP (fun x => b < |x - c|) := by
      rw [hk]
      apply List.countP_mono_left
      intro x _ hx
      simp only [decide_eq_true_eq] at hx ⊢
      linarith
    rw [← List.countP_eq_length_filter] at hcount
    omega
  have hk1 : 1 ≤ k := by
    rw [hk, List.countP_append]
    simp [hz]
  have key : ∀ l : List ℝ, l.Sublist (others ++ [z]) → 1 ≤ l.countP (fun x => T < |x - c|) →
      l.countP (fun x => T < |x - c|) ≤ k → l.countP (fun x => ¬ T < |x - c|) + k = W.toNat →
      ∀ center scale, CenterScale Real.sqrt true l center scale →
        1 / 10 ^ 10 < scale ∧ scale ≤ 14826 / 10000 * (2 * b) ∧ |center - c| ≤ b := by
    intro l hsub c1 c2 c3 center scale hcs
    obtain ⟨hc, mad, hmd, rfl⟩ := hcs
    have hl := hsplit l (fun x => T < |x - c|)
    have hmost : ∀ p : ℝ → Prop, ∀ [DecidablePred p], (∀ x, |x - c| ≤ b → p x) →
        Mostly p (l : Multiset ℝ) := by
      intro p _ hp
      unfold Mostly
      rw [Multiset.coe_card, Multiset.coe_countP]
      have : l.countP (fun x => ¬ T < |x - c|) ≤ l.countP (fun x => p x) := by
        apply List.countP_mono_left
        intro x hx hn
        simpa using hp x (hmem x (hsub.subset hx) (by simpa using hn))
      omega
    have hin : c - b ≤ center ∧ center ≤ c + b :=
      medianOf_mostlyWithin (hmost _ fun x hx => by
        have := abs_le.1 hx
        constructor <;> linarith) hc
    have hcen : |center - c| ≤ b := abs_le.2 ⟨by linarith, by linarith⟩
    refine ⟨?_, ?_, hcen⟩
    · have hge : ε ≤ mad := by
        refine le_medianOf_of_mostly ?_ hmd
        rw [← Multiset.map_coe]
        unfold Mostly
        rw [Multiset.countP_map, Multiset.card_map, ← Multiset.countP_eq_card_filter,
          Multiset.coe_card, Multiset.coe_countP]
        have e1 := hsplit l (fun x => |x - center| < ε)
        have e2 : l.countP (fun x => |x - center| < ε)
            ≤ (others ++ [z]).countP (fun x => |x - center| < ε) := hsub.countP_le
        have e3 := hspread center
        rw [← List.countP_eq_length_filter] at e3
        have e4 : l.countP (fun x => ¬ |x - center| < ε) = l.countP (fun x => ε ≤ |x - center|) := by
          simp only [not_lt]
        omega
      linarith
    · have hle : mad ≤ 2 * b := by
        refine medianOf_le_of_mostly (b := 2 * b) ?_ hmd
        rw [← Multiset.map_coe]
        have := hmost (fun x => |x - center| ≤ 2 * b) fun x hx => by
          have h4 := abs_sub_le x c center
          rw [abs_sub_comm c] at h4
          linarith
        unfold Mostly at this ⊢
        rw [Multiset.countP_map, Multiset.card_map, ← Multiset.countP_eq_card_filter]
        exact this
      linarith
  refine score_of_spikes h0 ppf stl h X hf (fun x => T < |x - c|) hz k hk.symm hkm ?_ ?_
  · intro l hsub c1 c2 c3 center scale hcs
    obtain ⟨g1, g2, g3⟩ := key l hsub c1 c2 c3 center scale hcs
    obtain ⟨y, hy, hyO⟩ := List.countP_pos_iff.1 (by omega : 0 < l.countP (fun x => T < |x - c|))
    have hyO' : T < |y - c| := by simpa using hyO
    refine ⟨g1, y, hy, hyO', fun x hx hn => ?_⟩
    have h4 := abs_sub_le x c center
    rw [abs_sub_comm c] at h4
    have h5 := abs_sub_le y center c
    have h6 := hmem x (hsub.subset hx) hn
    linarith
  · intro l hsub c1 c2 center scale hcs hsc y hy hyO
    obtain ⟨g1, g2, g3⟩ := key l hsub (by omega) (by omega) c2 center scale hcs
    have hsp : (0 : ℝ) < scale := lt_trans (by positivity) g1
    have h5 := abs_sub_le y center c
    have hyO' : T < |y - c| := hyO
    rw [lt_div_iff₀ hsp]
    by_cases hneg : esdCritical Real.sqrt ppf alpha W.toNat k ≤ 0
    · refine lt_of_le_of_lt (mul_nonpos_of_nonpos_of_nonneg hneg hsp.le) ?_
      linarith
    · have h6 := h2 k hk1 hkm
      have h7 := mul_le_mul_of_nonneg_right g2 (not_le.1 hneg).le
      rw [mul_comm]
      linarith

/-- **C165 is false of `SeasonalHybridESD`**, already for a single spike. -/
theorem C165_hybrid_refuted : ¬ C165_statement ∧ ¬ ReportsEachSpike true := by
  have : ¬ ReportsEachSpike true := by
    intro hr
    refine C160_hybrid_refuted.2 ?_
    intro period W m alpha s0 h0 ppf b
    obtain ⟨T, hT⟩ := hr period W m alpha s0 h0 ppf b
    refine ⟨max T b, fun stl h X others z c hf hb hz => ?_⟩
    refine hT stl h X others z c hf (fun x hx => .inl (hb x hx))
      (lt_of_le_of_lt (le_max_left _ _) hz) ?_
    obtain ⟨-, -, a3, -⟩ := sesd_new_ok h0
    have e : others.filter (fun x => b < |x - c|) = [] := by
      rw [List.filter_eq_nil_iff]
      intro x hx
      simpa using hb x hx
    rw [List.filter_append, e, List.nil_append]
    have := List.length_filter_le (fun x => decide (b < |x - c|)) [z]
    simp only [List.length_singleton] at this
    omega
  exact ⟨fun h => this (h true), this⟩

/-- There can be no such claim for more than `max_anomalies` spikes: with `max_anomalies = 1`, of
the values 0, 0, z, z the newest is not reported, however large `z`. -/
theorem C165_too_many {β : Type*} : ∃ s0 : SesdState ℝ, Sesd.new false 2 4 1 (1 / 20) = .ok s0 ∧
    ∀ z : ℝ, 0 < z → sesdScore (β := β) (fun _ _ => 3) flat s0
      [.fit (.vec [0]) none, .fit (.vec [0]) none, .fit (.vec [z]) none] (.vec [z]) = .ok 0 := by
  have hnew : ∃ s0, Sesd.new false 2 4 1 (1 / 20 : ℝ) = .ok s0 := by
    unfold Sesd.new ModifiedStl.new
    rw [if_neg (by norm_num), if_neg (by norm_num), if_neg (by decide), if_neg (by norm_num),
      if_neg (by norm_num)]
    exact ⟨_, rfl⟩
  obtain ⟨s0, h0⟩ := hnew
  refine ⟨s0, h0, fun z hz => ?_⟩
  have hmed : ∃ median, medianOf (([0, 0, z, z] : List ℝ) : Multiset ℝ) = some median :=
    medianOf_isSome (by simp)
  obtain ⟨μ, hμ⟩ := hmed
  have hf : FullWindow (β := β) flat (4 : ℤ).toNat
      [.fit (.vec [0]) none, .fit (.vec [0]) none, .fit (.vec [z]) none] (.vec [z])
      [0 - μ, 0 - μ, z - μ, z - μ] :=
    ⟨z, [0, 0, 0, 0], μ, rfl, rfl, rfl, rfl, hμ, by simp [fitted, oneNumber, lastN]⟩
  obtain ⟨hlen, cands, reported, score, ⟨k1, k2, k3⟩, ⟨l1, l2, l3⟩, hs, hcase⟩ :=
    run h0 (fun _ _ => 3) flat _ _ hf
  have hno : reported = [] := by
    cases hr : reported with
    | nil => rfl
    | cons c cs =>
      exfalso
      subst hr
      obtain ⟨t, ht⟩ := l1
      have hcs : cs = [] := by
        cases cs with
        | nil => rfl
        | cons _ _ =>
          exfalso
          rw [← ht] at k1
          simp at k1
      subst hcs
      have hex := l2 c rfl
      obtain ⟨center, scale, v, hc, hpos, hmem, hstat, -, -, hcrit⟩ := k2 0 c (by rw [← ht]; rfl)
      simp only [List.take_zero, List.map_nil] at hc hmem hcrit
      rw [Sesd.rest_nil] at hc hmem
      obtain ⟨rfl, rfl⟩ := centerScale_plain hc
      have hl : (([0 - μ, 0 - μ, z - μ, z - μ].zipIdx.map Prod.fst) : List ℝ)
          = [0 - μ, 0 - μ, z - μ, z - μ] := by simp
      rw [hl] at hstat
      have hmean : Grubbs.mean [0 - μ, 0 - μ, z - μ, z - μ] = z / 2 - μ := by
        unfold Grubbs.mean
        simp
        ring
      have hstd : Grubbs.std [0 - μ, 0 - μ, z - μ, z - μ] = √(z ^ 2 / 3) := by
        unfold Grubbs.std
        rw [hmean]
        congr 1
        simp
        ring
      have hv : |v - (z / 2 - μ)| = z / 2 := by
        have : v = 0 - μ ∨ v = z - μ := by
          have := List.mem_of_getElem? (List.mem_zipIdx_iff_getElem?.1 hmem)
          simpa using this
        rcases this with rfl | rfl
        · rw [show 0 - μ - (z / 2 - μ) = -(z / 2) by ring, abs_neg, abs_of_pos (by linarith)]
        · rw [show z - μ - (z / 2 - μ) = z / 2 by ring, abs_of_pos (by linarith)]
      unfold Exceeds at hex
      rw [hstat, hcrit, hmean, hstd, hv] at hex
      unfold esdCritical at hex
      norm_num at hex
      have e1 : √(44 : ℝ) < 7 := by
        rw [Real.sqrt_lt' (by norm_num)]; norm_num
      have e2 : z / 2 / (z / √3) < 9 / √44 := by
        have h44 : (0 : ℝ) < √44 := Real.sqrt_pos.2 (by norm_num)
        have h3 : √(3 : ℝ) < 2 := by
          rw [Real.sqrt_lt' (by norm_num)]; norm_num
        have : z / 2 / (z / √3) = √3 / 2 := by field_simp
        rw [this, div_lt_div_iff₀ (by norm_num) h44]
        nlinarith [Real.sqrt_nonneg (3 : ℝ)]
      rw [Real.sqrt_sq hz.le] at hex
      linarith
  subst hno
  rcases hcase with ⟨c, hc, -⟩ | ⟨-, rfl⟩
  · cases hc
  · exact hs

/-- The hypotheses of `C165_esd_partial` are met: values -1, 1, -1, 100, 100. -/
example : ∃ s0 : SesdState ℝ, Sesd.new false 2 5 2 (1 / 20) = .ok s0 ∧
    ∃ score, sesdScore (fun _ _ => 3) flat s0 (five (-1) 1 (-1) 100) (.vec [100]) = .ok score ∧
      0 < score := by
  obtain ⟨s0, h0⟩ := new_ok false
  refine ⟨s0, h0, ?_⟩
  have hmed : medianOf (([-1, 1, -1, 100, 100] : List ℝ) : Multiset ℝ) = some 1 := by
    apply median_of_mostly (by simp)
    · unfold Mostly
      rw [Multiset.coe_card, Multiset.coe_countP]
      norm_num [List.countP_cons]
    · unfold Mostly
      rw [Multiset.coe_card, Multiset.coe_countP]
      norm_num [List.countP_cons]
  exact C165_esd_partial h0 (fun _ _ => 3) flat (five (-1) 1 (-1) 100) (.vec [100])
    [-1 - 1, 1 - 1, -1 - 1, 100 - 1] (100 - 1) (-1) 1 50 (five_full (-1) 1 (-1) 100 100 1 hmed)
    (by norm_num) (by
      intro x hx
      simp at hx
      rcases hx with rfl | rfl | rfl | rfl <;> norm_num) (by norm_num)
    (by norm_num [List.filter_cons])
    (by rw [show (5 : ℤ).toNat = 5 from rfl]; norm_num)
    (by rw [show (5 : ℤ).toNat = 5 from rfl]; norm_num)
    (by intro i _ _; rw [show (5 : ℤ).toNat = 5 from rfl]; norm_num)

/-- The hypotheses of `C165_hybrid_partial` are met: values -1, 0, 1, 100, -200. -/
example : ∃ s0 : SesdState ℝ, Sesd.new true 2 5 2 (1 / 20) = .ok s0 ∧
    ∃ score, sesdScore (fun _ _ => 0) flat s0 (five (-1) 0 1 100) (.vec [-200]) = .ok score ∧
      0 < score := by
  obtain ⟨s0, h0⟩ := new_ok true
  refine ⟨s0, h0, ?_⟩
  have hmed : medianOf (([-1, 0, 1, 100, -200] : List ℝ) : Multiset ℝ) = some 0 := by
    apply median_of_mostly (by simp)
    · unfold Mostly
      rw [Multiset.coe_card, Multiset.coe_countP]
      norm_num [List.countP_cons]
    · unfold Mostly
      rw [Multiset.coe_card, Multiset.coe_countP]
      norm_num [List.countP_cons]
  have hf := five_full (-1) 0 1 100 (-200) 0 hmed
  simp only [sub_zero] at hf
  refine C165_hybrid_partial h0 (fun _ _ => 0) flat (five (-1) 0 1 100) (.vec [-200])
    [-1, 0, 1, 100] (-200) 0 1 50 (1 / 4) hf (by norm_num) (by
      intro x hx
      simp at hx
      rcases hx with rfl | rfl | rfl | rfl <;> norm_num) (by norm_num)
    (by norm_num [List.filter_cons]) (by norm_num) ?_ (by norm_num)
    (by intro i _ _; unfold esdCritical; norm_num)
  intro a
  have : (([-1, 0, 1, 100] ++ [-200] : List ℝ).filter fun x => |x - a| < 1 / 4).length ≤ 1 := by
    have hpw : ([-1, 0, 1, 100] ++ [-200] : List ℝ).Pairwise fun x y => 1 / 2 ≤ |x - y| := by
      norm_num
    have hfl := hpw.filter (p := fun x => decide (|x - a| < 1 / 4))
    have hin : ∀ x ∈ ([-1, 0, 1, 100] ++ [-200] : List ℝ).filter fun x => |x - a| < 1 / 4,
        |x - a| < 1 / 4 := fun x hx => by simpa using (List.mem_filter.1 hx).2
    revert hfl hin
    generalize ([-1, 0, 1, 100] ++ [-200] : List ℝ).filter (fun x => |x - a| < 1 / 4) = l
    intro hfl hin
    match l, hfl, hin with
    | [], _, _ => simp
    | [_], _, _ => simp
    | x :: y :: _, hfl, hin =>
      exfalso
      have h1 := (List.pairwise_cons.1 hfl).1 y (by simp)
      have h2 := hin x (by simp)
      have h3 := hin y (by simp)
      have h4 := abs_sub_le x a y
      rw [abs_sub_comm a] at h4
      linarith
  omega

end Pysad
