import Verif.Props.Baselines
import Verif.Proofs.Expectation
import Mathlib.Data.List.OfFn
import Mathlib.Logic.Equiv.Basic

/-! Property C127: how `RandomModel` fares under the ranking metrics on average. -/

namespace Pysad

open Spec

namespace RandomBaseline

variable {n : ℕ}

theorem zip_ofFn (y : Fin n → Bool) (s : Fin n → ℝ) :
    (List.ofFn y).zip (List.ofFn s) = (List.finRange n).map fun i => (y i, s i) := by
  rw [List.ofFn_eq_map, List.ofFn_eq_map, List.zip_map']

theorem sum_filter {ι : Type*} (L : List ι) (p : ι → Bool) (f : ι → ℝ) :
    ((L.filter p).map f).sum = (L.map fun i => if p i then f i else 0).sum := by
  induction L with
  | nil => rfl
  | cons a L ih =>
    by_cases h : p a <;> simp [h, ih]

theorem sum_anomalies (y : Fin n → Bool) (s : Fin n → ℝ) (f : ℝ → ℝ) :
    ((anomalies ((List.finRange n).map fun i => (y i, s i))).map f).sum
      = ∑ i, if y i then f (s i) else 0 := by
  unfold anomalies
  rw [List.filter_map, List.map_map, List.map_map, sum_filter, ← Fin.sum_univ_def]
  rfl

theorem sum_normals (y : Fin n → Bool) (s : Fin n → ℝ) (f : ℝ → ℝ) :
    ((normals ((List.finRange n).map fun i => (y i, s i))).map f).sum
      = ∑ i, if y i then 0 else f (s i) := by
  unfold normals
  rw [List.filter_map, List.map_map, List.map_map, sum_filter, ← Fin.sum_univ_def]
  apply Finset.sum_congr rfl
  intro i _
  simp only [Function.comp]
  cases y i <;> rfl

theorem length_eq_sum (l : List ℝ) : (l.length : ℝ) = (l.map fun _ => (1 : ℝ)).sum := by simp

theorem filter_length (l : List ℝ) (t : ℝ) :
    ((l.filter fun x => t ≤ x).length : ℝ) = (l.map fun x => if t ≤ x then (1 : ℝ) else 0).sum := by
  induction l with
  | nil => simp
  | cons a l ih =>
    by_cases h : t ≤ a
    · rw [List.filter_cons_of_pos (by simpa using h), List.length_cons, List.map_cons, List.sum_cons,
        if_pos h, ← ih]
      push_cast; ring
    · rw [List.filter_cons_of_neg (by simpa using h), List.map_cons, List.sum_cons, if_neg h, ← ih]
      ring

/-- `1` if instance `j` is scored at least as high as instance `i`. -/
noncomputable def reach (s : Fin n → ℝ) (i j : Fin n) : ℝ := if s i ≤ s j then 1 else 0

theorem ranking_eq (y : Fin n → Bool) (s : Fin n → ℝ) :
    rankingProbability ((List.ofFn y).zip (List.ofFn s))
      = (∑ i, if y i then ∑ j, (if y j then 0 else duel (s i) (s j)) else 0)
        / ((∑ i, if y i then 1 else 0) * ∑ i, if y i then 0 else 1) := by
  rw [zip_ofFn]
  unfold rankingProbability
  rw [length_eq_sum (anomalies _), length_eq_sum (normals _), sum_anomalies, sum_anomalies,
    sum_normals]
  simp only [sum_normals]

theorem precision_eq (y : Fin n → Bool) (s : Fin n → ℝ) (i : Fin n) :
    precisionAt (s i) ((List.finRange n).map fun i => (y i, s i))
      = (∑ j, if y j then reach s i j else 0) / ∑ j, reach s i j := by
  unfold precisionAt
  rw [filter_length, sum_anomalies]
  congr 1
  have : (((List.finRange n).map fun i => (y i, s i)).filter fun q => s i ≤ q.2).length
      = (((List.finRange n).map s).filter fun x => s i ≤ x).length := by
    rw [List.filter_map, List.filter_map, List.length_map, List.length_map]
    rfl
  rw [this, filter_length, List.map_map, ← Fin.sum_univ_def]
  rfl

theorem mean_eq (y : Fin n → Bool) (s : Fin n → ℝ) :
    meanPrecision ((List.ofFn y).zip (List.ofFn s))
      = (∑ i, if y i then (∑ j, if y j then reach s i j / ∑ k, reach s i k else 0) else 0)
        / ∑ i, if y i then 1 else 0 := by
  rw [zip_ofFn]
  unfold meanPrecision
  rw [length_eq_sum, sum_anomalies, sum_anomalies]
  congr 1
  apply Finset.sum_congr rfl
  intro i _
  cases y i with
  | false => rfl
  | true =>
    simp only [if_true]
    rw [precision_eq, Finset.sum_div]
    apply Finset.sum_congr rfl
    intro j _
    cases y j <;> simp

theorem expect_sum {Ω ι : Type*} [Fintype Ω] (t : Finset ι) (f : ι → Ω → ℝ) :
    expectation (fun v => ∑ i ∈ t, f i v) = ∑ i ∈ t, expectation (f i) := by
  unfold expectation
  rw [Finset.sum_comm, Finset.sum_div]

theorem expect_equiv {Ω : Type*} [Fintype Ω] (e : Ω ≃ Ω) (f : Ω → ℝ) :
    expectation (fun v => f (e v)) = expectation f := by
  unfold expectation
  rw [e.sum_comp]

variable {A : Type*} [Fintype A] [Nonempty A]

/-- Exchanging two instances does not change an average. -/
theorem expect_swap (a b : Fin n) (f : (Fin n → A) → ℝ) :
    expectation (fun v : Fin n → A => f (fun k => v (Equiv.swap a b k))) = expectation f := by
  have := expect_equiv ((Equiv.swap a b).arrowCongr (Equiv.refl A)) f
  simp only [Equiv.arrowCongr, Equiv.coe_fn_mk, Equiv.refl_apply, Equiv.symm_swap,
    Function.comp_def, Equiv.coe_refl, id] at this
  exact this

theorem duel_sum (a b : ℝ) : duel a b + duel b a = 1 := by
  unfold duel
  rcases lt_trichotomy a b with h | h | h
  · rw [if_neg (not_lt.2 h.le), if_neg (ne_of_gt h), if_pos h]; norm_num
  · subst h; simp; norm_num
  · rw [if_pos h, if_neg (not_lt.2 h.le), if_neg (ne_of_gt h)]; norm_num

theorem expect_duel (val : A → ℝ) (i j : Fin n) :
    expectation (fun v : Fin n → A => duel (val (v i)) (val (v j))) = 1 / 2 := by
  have h := expect_swap i j (fun v : Fin n → A => duel (val (v i)) (val (v j)))
  simp only [Equiv.swap_apply_left, Equiv.swap_apply_right] at h
  have h2 := Expect.add (fun v : Fin n → A => duel (val (v i)) (val (v j)))
    (fun v => duel (val (v j)) (val (v i)))
  simp only [duel_sum, Expect.const] at h2
  linarith

theorem expect_ite {Ω : Type*} [Fintype Ω] [Nonempty Ω] (b : Bool) (f : Ω → ℝ) :
    expectation (fun v => if b then f v else 0) = if b then expectation f else 0 := by
  cases b
  · simp [Expect.const]
  · simp

theorem expect_ite' {Ω : Type*} [Fintype Ω] [Nonempty Ω] (b : Bool) (f : Ω → ℝ) :
    expectation (fun v => if b then 0 else f v) = if b then 0 else expectation f := by
  cases b
  · simp
  · simp [Expect.const]

theorem expect_div {Ω : Type*} [Fintype Ω] (c : ℝ) (f : Ω → ℝ) :
    expectation (fun v => f v / c) = expectation f / c := by
  simp only [div_eq_mul_inv]
  exact Expect.mul_right _ _

theorem ranking_average (val : A → ℝ) (y : Fin n → Bool) (h1 : ∃ i, y i = true)
    (h2 : ∃ i, y i = false) :
    expectation (fun v : Fin n → A =>
      rankingProbability ((List.ofFn y).zip (List.ofFn fun i => val (v i)))) = 1 / 2 := by
  simp only [ranking_eq]
  rw [expect_div, expect_sum]
  simp only [expect_ite, expect_sum, expect_ite', expect_duel]
  have hp : (0 : ℝ) < ∑ i, if y i then 1 else 0 := by
    obtain ⟨i, hi⟩ := h1
    refine Finset.sum_pos' (fun j _ => by split <;> norm_num) ⟨i, Finset.mem_univ _, by simp [hi]⟩
  have hq : (0 : ℝ) < ∑ i, if y i then 0 else 1 := by
    obtain ⟨i, hi⟩ := h2
    refine Finset.sum_pos' (fun j _ => by split <;> norm_num) ⟨i, Finset.mem_univ _, by simp [hi]⟩
  rw [div_eq_iff (by positivity)]
  have e1 : (∑ j, if y j then (0 : ℝ) else 1 / 2) = 1 / 2 * ∑ j, if y j then 0 else 1 := by
    rw [Finset.mul_sum]
    apply Finset.sum_congr rfl
    intro j _
    split <;> simp
  have e2 : ∀ c : ℝ, (∑ i, if y i then c else 0) = c * ∑ i, if y i then 1 else 0 := by
    intro c
    rw [Finset.mul_sum]
    apply Finset.sum_congr rfl
    intro j _
    split <;> simp
  rw [e2, e1]
  ring

theorem reach_self (s : Fin n → ℝ) (i : Fin n) : reach s i i = 1 := by simp [reach]

theorem reach_range (s : Fin n → ℝ) (i j : Fin n) : 0 ≤ reach s i j ∧ reach s i j ≤ 1 := by
  unfold reach
  split <;> norm_num

theorem reach_total (s : Fin n → ℝ) (i : Fin n) :
    1 ≤ ∑ k, reach s i k ∧ ∑ k, reach s i k ≤ n := by
  constructor
  · rw [← reach_self s i]
    exact Finset.single_le_sum (f := reach s i) (fun j _ => (reach_range s i j).1)
      (Finset.mem_univ i)
  · have := Finset.sum_le_sum fun k (_ : k ∈ Finset.univ) => (reach_range s i k).2
    simpa using this

/-- The chance that `j` is reported together with `i`, weighted with the number of reports, is
the same for all `j` other than `i`. -/
theorem share_symm (val : A → ℝ) (i j j' : Fin n) (hj : j ≠ i) (hj' : j' ≠ i) :
    expectation (fun v : Fin n → A =>
        reach (fun k => val (v k)) i j / ∑ k, reach (fun k => val (v k)) i k)
      = expectation (fun v : Fin n → A =>
        reach (fun k => val (v k)) i j' / ∑ k, reach (fun k => val (v k)) i k) := by
  rw [← expect_swap j j' (fun v : Fin n → A =>
    reach (fun k => val (v k)) i j / ∑ k, reach (fun k => val (v k)) i k)]
  apply Expect.congr
  intro v
  have hi : Equiv.swap j j' i = i := Equiv.swap_apply_of_ne_of_ne hj.symm hj'.symm
  have hr : ∀ k, reach (fun k => val (v (Equiv.swap j j' k))) i k
      = reach (fun k => val (v k)) i (Equiv.swap j j' k) := by
    intro k
    simp only [reach, hi]
  simp only [hr, Equiv.swap_apply_left]
  congr 1
  exact Equiv.sum_comp (Equiv.swap j j') (fun k => reach (fun k => val (v k)) i k)

theorem precision_average (val : A → ℝ) (y : Fin n → Bool) (i : Fin n) (hi : y i = true) :
    (∑ j, if y j then (1 : ℝ) else 0) / n ≤ ∑ j, if y j then expectation (fun v : Fin n → A =>
      reach (fun k => val (v k)) i j / ∑ k, reach (fun k => val (v k)) i k) else 0 := by
  generalize ht : (fun j => expectation (fun v : Fin n → A =>
    reach (fun k => val (v k)) i j / ∑ k, reach (fun k => val (v k)) i k)) = t
  have ht' : ∀ j, expectation (fun v : Fin n → A =>
    reach (fun k => val (v k)) i j / ∑ k, reach (fun k => val (v k)) i k) = t j :=
    fun j => congrFun ht j
  simp only [ht']
  have hn : 0 < n := i.pos
  have hn' : (0 : ℝ) < n := by exact_mod_cast hn
  -- all shares together make one
  have htot : ∑ j, t j = 1 := by
    simp only [← ht', ← expect_sum, ← Finset.sum_div]
    rw [Expect.congr (g := fun _ => 1), Expect.const]
    intro v
    exact div_self (by have := (reach_total (fun k => val (v k)) i).1; positivity)
  -- the instance itself has at least the share 1/n
  have hself : 1 / (n : ℝ) ≤ t i := by
    rw [← ht', ← Expect.const (Ω := Fin n → A) (1 / (n : ℝ))]
    apply Expect.mono
    intro v
    rw [reach_self]
    have h := reach_total (fun k => val (v k)) i
    exact one_div_le_one_div_of_le (by linarith) h.2
  -- split off the instance itself
  have hsplit : ∀ f : Fin n → ℝ, ∑ j, f j = f i + ∑ j ∈ Finset.univ.erase i, f j := fun f =>
    (Finset.add_sum_erase _ _ (Finset.mem_univ i)).symm
  by_cases h1 : (Finset.univ.erase i).Nonempty
  · obtain ⟨j0, hj0⟩ := h1
    have hj0' := (Finset.mem_erase.1 hj0).1
    have hc : ∀ j ∈ Finset.univ.erase i, t j = t j0 := fun j hj => by
      rw [← ht', ← ht']; exact share_symm val i j j0 (Finset.mem_erase.1 hj).1 hj0'
    rw [hsplit, Finset.sum_congr rfl hc, Finset.sum_const, nsmul_eq_mul,
      Finset.card_erase_of_mem (Finset.mem_univ i), Finset.card_univ, Fintype.card_fin] at htot
    rw [hsplit, hsplit (fun j => if y j then t j else 0), hi]
    simp only [if_true]
    have hm : ∑ j ∈ Finset.univ.erase i, (if y j then t j else 0)
        = (∑ j ∈ Finset.univ.erase i, if y j then (1 : ℝ) else 0) * t j0 := by
      rw [Finset.sum_mul]
      apply Finset.sum_congr rfl
      intro j hj
      rw [hc j hj]
      split <;> simp
    rw [hm]
    have hle : (∑ j ∈ Finset.univ.erase i, if y j then (1 : ℝ) else 0) ≤ ((n - 1 : ℕ) : ℝ) := by
      have := Finset.sum_le_sum fun j (_ : j ∈ Finset.univ.erase i) =>
        (show (if y j then (1 : ℝ) else 0) ≤ 1 by split <;> norm_num)
      rw [Finset.sum_const, nsmul_eq_mul, mul_one, Finset.card_erase_of_mem (Finset.mem_univ i),
        Finset.card_univ, Fintype.card_fin] at this
      exact this
    generalize (∑ j ∈ Finset.univ.erase i, if y j then (1 : ℝ) else 0) = p at *
    have hcast : ((n - 1 : ℕ) : ℝ) = n - 1 := by rw [Nat.cast_sub hn]; simp
    rw [hcast] at htot hle
    rw [div_le_iff₀ hn']
    rw [div_le_iff₀ hn'] at hself
    have hn1 : (0 : ℝ) < n - 1 := by
      have hcard : 0 < (Finset.univ.erase i).card := Finset.card_pos.2 ⟨j0, hj0⟩
      rw [Finset.card_erase_of_mem (Finset.mem_univ i), Finset.card_univ, Fintype.card_fin] at hcard
      have : 1 < n := by omega
      have : (1 : ℝ) < n := by exact_mod_cast this
      linarith
    -- t i = 1 - (n-1) t j0, so t j0 ≤ 1/n
    have hu : t j0 * n ≤ 1 := by
      have h3 : (1 - t i) * n ≤ n - 1 := by nlinarith
      have h4 : (1 - t i) = (n - 1) * t j0 := by linarith
      rw [h4] at h3
      have h5 : (n - 1 : ℝ) * (t j0 * n) ≤ (n - 1) * 1 := by linarith
      exact le_of_mul_le_mul_left h5 hn1
    have h6 : t i = 1 - (n - 1) * t j0 := by linarith
    rw [h6]
    have h7 : 0 ≤ ((n : ℝ) - 1 - p) * (1 - t j0 * n) :=
      mul_nonneg (by linarith) (by linarith)
    nlinarith
  · rw [Finset.not_nonempty_iff_eq_empty] at h1
    rw [hsplit, h1] at htot
    rw [hsplit, hsplit (fun j => if y j then t j else 0), h1, hi]
    simp only [Finset.sum_empty, add_zero, if_true] at htot ⊢
    rw [htot, div_le_one hn']
    exact_mod_cast hn

theorem mean_average (val : A → ℝ) (y : Fin n → Bool) (h1 : ∃ i, y i = true) :
    (∑ j, if y j then (1 : ℝ) else 0) / n ≤ expectation (fun v : Fin n → A =>
      meanPrecision ((List.ofFn y).zip (List.ofFn fun i => val (v i)))) := by
  simp only [mean_eq]
  rw [expect_div, expect_sum]
  simp only [expect_ite, expect_sum]
  have hp : (0 : ℝ) < ∑ i, if y i then 1 else 0 := by
    obtain ⟨i, hi⟩ := h1
    refine Finset.sum_pos' (fun j _ => by split <;> norm_num) ⟨i, Finset.mem_univ _, by simp [hi]⟩
  rw [le_div_iff₀ hp, mul_comm, Finset.sum_mul]
  apply Finset.sum_le_sum
  intro i _
  cases hi : y i with
  | false => simp
  | true =>
    simp only [if_true, one_mul]
    exact precision_average val y i hi

theorem random_fit_score {α β G : Type*} (uniform : G → ℝ × G) (g : G) (X : List α) :
    ∃ s, (randomModel α β uniform).fitScore g X none = .ok (stream uniform g X.length) s := by
  unfold Detector.fitScore
  rw [iterate_none, Gen.forEach_ofList]
  induction X generalizing g with
  | nil => exact ⟨g, rfl⟩
  | cons x X ih =>
    obtain ⟨s, hs⟩ := ih (uniform g).2
    refine ⟨s, ?_⟩
    simp only [pairs, List.map_cons, inOrder, Detector.fitScorePartial, randomModel, Res.bind_ok,
      List.length_cons, stream] at hs ⊢
    rw [hs]

end RandomBaseline

open RandomBaseline

/-- **C127.** RandomModel on any stream with both classes, if its numbers are drawn
independently from any finite distribution (`val` lists the values, equally likely, with
repetitions; `gen v` is the generator that will draw the values `v`): the AUROC it is
rated with is on average exactly 1/2, and the AUPR on average at least the fraction of anomalies
(which is what NullModel gets). -/
theorem C127_random {α β G A : Type*} [Fintype A] [Nonempty A] (val : A → ℝ)
    (uniform : G → ℝ × G) (X : List α) (ys : List Bool) (h : X.length = ys.length)
    (h1 : true ∈ ys) (h2 : false ∈ ys) (gen : (Fin ys.length → A) → G)
    (hgen : ∀ v, stream uniform (gen v) ys.length = List.ofFn fun i => val (v i)) :
    ∃ auroc aupr : (Fin ys.length → A) → ℝ,
      (∀ v, ∃ scores s, (randomModel α β uniform).fitScore (gen v) X none = .ok scores s ∧
        reported (aurocMetric rocAucCurve) ys scores = .ok (auroc v) ∧
        reported (auprMetric averagePrecisionScore) ys scores = .ok (aupr v)) ∧
      expectation auroc = 1 / 2 ∧ (ys.count true : ℝ) / ys.length ≤ expectation aupr := by
  refine ⟨fun v => rankingProbability ((List.ofFn ys.get).zip (List.ofFn fun i => val (v i))),
    fun v => meanPrecision ((List.ofFn ys.get).zip (List.ofFn fun i => val (v i))), ?_, ?_, ?_⟩
  · intro v
    obtain ⟨s, hs⟩ := random_fit_score (β := β) uniform (gen v) X
    rw [h, hgen v] at hs
    refine ⟨_, s, hs, ?_, ?_⟩
    · rw [auroc_reported _ _ (by simp) h1 h2, List.ofFn_get]
    · rw [aupr_reported _ _ (by simp) (List.ne_nil_of_mem h1), List.ofFn_get]
  · obtain ⟨i, hi⟩ := List.mem_iff_get.1 h1
    obtain ⟨j, hj⟩ := List.mem_iff_get.1 h2
    exact ranking_average val ys.get ⟨i, hi⟩ ⟨j, hj⟩
  · obtain ⟨i, hi⟩ := List.mem_iff_get.1 h1
    have := mean_average val ys.get ⟨i, hi⟩
    refine le_trans (le_of_eq ?_) this
    congr 1
    rw [Fin.sum_univ_def, ← List.ofFn_eq_map]
    have e : (List.ofFn fun i => if ys.get i = true then (1 : ℝ) else 0)
        = ys.map fun b => if b = true then 1 else 0 := by
      conv_rhs => rw [← List.ofFn_get ys, List.map_ofFn]
      rfl
    rw [e]
    clear e this hgen gen h h1 h2 hi i
    induction ys with
    | nil => simp
    | cons b ys ih =>
      cases b
      · simpa using ih
      · simp only [List.count_cons_self, List.map_cons, List.sum_cons, if_true, ← ih]
        push_cast; ring

theorem stream_list (l : List ℝ) :
    stream (fun g : List ℝ => (g.headD 0, g.tail)) l l.length = l := by
  induction l with
  | nil => rfl
  | cons a l ih => simp only [List.length_cons, stream, List.headD_cons, List.tail_cons, ih]

/-- The hypotheses are met by a generator that knows its future draws, here three throws of a
fair coin with values 0 and 1. -/
example : ∃ auroc aupr : (Fin [true, false, true].length → Bool) → ℝ,
    (∀ v, ∃ scores s, (randomModel ℕ ℕ fun g : List ℝ => (g.headD 0, g.tail)).fitScore
        (List.ofFn fun i => if v i then (1 : ℝ) else 0) [7, 8, 9] none = .ok scores s ∧
      reported (aurocMetric rocAucCurve) [true, false, true] scores = .ok (auroc v) ∧
      reported (auprMetric averagePrecisionScore) [true, false, true] scores = .ok (aupr v)) ∧
    expectation auroc = 1 / 2 ∧
    (([true, false, true].count true : ℕ) : ℝ) / ([true, false, true].length : ℕ)
      ≤ expectation aupr :=
  C127_random (α := ℕ) (β := ℕ) (fun b : Bool => if b then (1 : ℝ) else 0) _ [7, 8, 9] [true, false, true] rfl
    (by simp) (by simp) (fun v => List.ofFn fun i => if v i then (1 : ℝ) else 0)
    (fun v => by
      have := stream_list (List.ofFn fun i => if v i then (1 : ℝ) else 0)
      rwa [List.length_ofFn] at this)

/-- The average AUPR can exceed the fraction of anomalies: of one anomaly and one normal instance,
two ways to tie and one of the two rankings give 1/2, the other 1. -/
example : ([((0 : ℚ), (0 : ℚ)), (1, 1), (1, 0), (0, 1)].map fun q =>
    meanPrecision ([true, false].zip [q.1, q.2])).sum / 4 = 5 / 8 := by decide +kernel

end Pysad
