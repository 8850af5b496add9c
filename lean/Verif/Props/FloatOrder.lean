import Verif.Props.Float
import Verif.Proofs.RoundingMono
import Verif.Props.Calibration
import Verif.Props.SimpleModels
import Verif.Props.Statistics

/-! C111-C113: means, order statistics and fractions in doubles. -/

namespace Pysad
open Spec

theorem F64.val_injective : Function.Injective F64.val := by
  intro a b h; cases a; cases b; cases h; rfl

/-- Doubles are ordered by their values. -/
instance : LinearOrder F64 where
  le a b := a.val ≤ b.val
  lt a b := a.val < b.val
  le_refl a := le_refl a.val
  le_trans a b c h1 h2 := le_trans (α := ℚ) h1 h2
  le_antisymm a b h1 h2 := F64.val_injective (le_antisymm h1 h2)
  le_total a b := le_total a.val b.val
  lt_iff_le_not_ge a b := lt_iff_le_not_ge (α := ℚ)
  toDecidableLE a b := inferInstanceAs (Decidable (a.val ≤ b.val))
  toDecidableEq := inferInstance
  toDecidableLT := inferInstance

theorem F64.natCast_val (n : ℕ) (h : n ≤ 2 ^ 53) : ((n : F64)).val = n := by
  show roundF64 (n : ℚ) = n
  have := roundF64_int (n : ℤ) (by simpa using h)
  simpa using this

theorem F64.intCast_val (n : ℤ) (h : n.natAbs ≤ 2 ^ 53) : ((n : F64)).val = n :=
  roundF64_int n h

theorem F64.div_val (a b : F64) : (a / b).val = roundF64 (a.val / b.val) := rfl

/-! ### C111: the mean -/

/-- The full claim of **C111**: the mean of doubles is between the least and the greatest of
them. -/
def C111_mean_statement : Prop :=
  ∀ (xs : List F64) (lo hi v : F64), (∀ x ∈ xs, IsDouble x.val) →
    (∀ x ∈ xs, lo.val ≤ x.val ∧ x.val ≤ hi.val) → lo ∈ xs → hi ∈ xs →
    ((averageMeter F64).get ((averageMeter F64).updates (averageMeter F64).init xs)).out = .ok v →
    lo.val ≤ v.val ∧ v.val ≤ hi.val

/-- **C111 is false**: the mean of `0.1, 0.1, 0.1` is greater than `0.1`. -/
theorem C111_mean_refuted : ¬ C111_mean_statement := by
  intro h
  have h1 := h [F64.of (1/10), F64.of (1/10), F64.of (1/10)] (F64.of (1/10)) (F64.of (1/10))
    ((F64.of (1/10) + F64.of (1/10) + F64.of (1/10)) / F64.of 3)
    (by
      intro x hx
      have : x = F64.of (1/10) := by simpa using hx
      rw [this]; exact isDouble_roundF64 _)
    (by
      intro x hx
      have : x = F64.of (1/10) := by simpa using hx
      rw [this]; exact ⟨le_rfl, le_rfl⟩) (by simp) (by simp) (by decide +kernel)
  exact absurd h1.2 (by decide +kernel)

theorem averageMeter_updates (xs : List F64) (s : AverageState F64) :
    ((averageMeter F64).updates s xs).numItems = s.numItems + xs.length ∧
      ((averageMeter F64).updates s xs).sum = xs.foldl (· + ·) s.sum := by
  induction xs generalizing s with
  | nil => simp [Statistic.updates]
  | cons x xs ih =>
    have := ih ((averageMeter F64).update s x)
    simp only [Statistic.updates, List.foldl_cons, List.length_cons] at this ⊢
    refine ⟨?_, this.2⟩
    rw [this.1]
    simp only [averageMeter]
    push_cast; ring

theorem foldl_add_error (M : ℚ) (xs : List F64) (hx : ∀ x ∈ xs, |x.val| ≤ M) :
    |(xs.foldl (· + ·) (0 : F64)).val - (xs.map F64.val).sum| ≤
        (xs.length : ℚ) * M * ((1 + unitRoundoff) ^ xs.length - 1) ∧
      |(xs.map F64.val).sum| ≤ (xs.length : ℚ) * M := by
  induction xs using List.reverseRecOn with
  | nil => exact ⟨by simp [show (0 : F64).val = 0 from rfl], by simp⟩
  | append_singleton xs x ih =>
    obtain ⟨h1, h2⟩ := ih fun y hy => hx y (List.mem_append_left _ hy)
    have hxM := hx x (by simp)
    have hM : 0 ≤ M := (abs_nonneg _).trans hxM
    have hu : (0 : ℚ) ≤ unitRoundoff := by norm_num [unitRoundoff]
    have hpow : (1 : ℚ) ≤ (1 + unitRoundoff) ^ xs.length := one_le_pow₀ (by linarith)
    have hs : |(xs.map F64.val).sum + x.val| ≤ ((xs.length : ℚ) + 1) * M := by
      calc |(xs.map F64.val).sum + x.val| ≤ |(xs.map F64.val).sum| + |x.val| := abs_add_le _ _
        _ ≤ (xs.length : ℚ) * M + M := by linarith
        _ = _ := by ring
    simp only [List.foldl_append, List.foldl_cons, List.foldl_nil, List.map_append, List.map_cons,
      List.map_nil, List.sum_append, List.sum_cons, List.sum_nil, add_zero, List.length_append,
      List.length_singleton, Nat.cast_add, Nat.cast_one]
    refine ⟨?_, hs⟩
    apply roundF64_step _ hs
    refine h1.trans ?_
    apply mul_le_mul_of_nonneg_right _ (by linarith)
    nlinarith

/-- **C111, what holds.** The mean of up to `2^53` doubles of absolute value at most `M` is a
number that differs from the exact mean by at most `M * ((1 + 2^-53)^(n+1) - 1)`, about
`2^-53 * (n + 1) * M`; so it is at most that far outside the range of the values. (Missing: being
exactly in the range, which is false.) -/
theorem C111_mean_partial (M : ℚ) (xs : List F64) (hne : xs ≠ []) (hn : xs.length ≤ 2 ^ 53)
    (hx : ∀ x ∈ xs, |x.val| ≤ M) :
    ∃ v : F64,
      ((averageMeter F64).get ((averageMeter F64).updates (averageMeter F64).init xs)).out = .ok v ∧
      |v.val - meanOf ((xs.map F64.val : List ℚ) : Multiset ℚ)| ≤
        M * ((1 + 1 / 2 ^ 53) ^ (xs.length + 1) - 1) ∧
      ∀ lo hi, (∀ x ∈ xs, lo ≤ x.val ∧ x.val ≤ hi) →
        lo - M * ((1 + 1 / 2 ^ 53) ^ (xs.length + 1) - 1) ≤ v.val ∧
        v.val ≤ hi + M * ((1 + 1 / 2 ^ 53) ^ (xs.length + 1) - 1) := by
  obtain ⟨h1, h2⟩ := averageMeter_updates xs (averageMeter F64).init
  have hlen : 0 < xs.length := List.length_pos_iff.2 hne
  have hlenq : (0 : ℚ) < (xs.length : ℚ) := by exact_mod_cast hlen
  have e0 : (averageMeter F64).init.numItems = 0 := rfl
  have e1 : (averageMeter F64).init.sum = 0 := rfl
  rw [e0, zero_add] at h1
  rw [e1] at h2
  set S := xs.foldl (· + ·) (0 : F64) with hS
  have hget : ((averageMeter F64).get ((averageMeter F64).updates (averageMeter F64).init xs)).out
      = .ok (S / ((xs.length : ℤ) : F64)) := by
    have : ((xs.length : ℤ)) ≠ 0 := by omega
    simp only [averageMeter] at h1 h2 ⊢
    simp only [h1, h2, this, if_false, Res.out_ok]
  refine ⟨_, hget, ?_⟩
  have hmean : |(S / ((xs.length : ℤ) : F64)).val - meanOf ((xs.map F64.val : List ℚ) : Multiset ℚ)| ≤
      M * ((1 + 1 / 2 ^ 53) ^ (xs.length + 1) - 1) := by
    obtain ⟨h3, h4⟩ := foldl_add_error M xs hx
    rw [← hS] at h3
    have hM : 0 ≤ M := by
      obtain ⟨x, hx'⟩ := List.exists_mem_of_ne_nil _ hne
      exact (abs_nonneg _).trans (hx x hx')
    rw [F64.div_val, F64.intCast_val _ (by simpa using hn)]
    have hu0 : (0 : ℚ) ≤ unitRoundoff := by norm_num [unitRoundoff]
    have hue : (1 : ℚ) + 1 / 2 ^ 53 = 1 + unitRoundoff := rfl
    rw [hue]
    set p := (1 + unitRoundoff) ^ xs.length with hp
    have hp1 : 1 ≤ p := one_le_pow₀ (by linarith)
    unfold meanOf
    rw [Multiset.sum_coe, Multiset.coe_card, List.length_map]
    set T := (xs.map F64.val).sum with hT
    have herr := roundF64_error (S.val / ((xs.length : ℤ) : ℚ))
    rw [Int.cast_natCast] at herr ⊢
    have hSabs : |S.val| ≤ (xs.length : ℚ) * M * p := by
      calc |S.val| = |T + (S.val - T)| := by ring_nf
        _ ≤ |T| + |S.val - T| := abs_add_le _ _
        _ ≤ (xs.length : ℚ) * M + (xs.length : ℚ) * M * (p - 1) := by linarith
        _ = _ := by ring
    have h5 : |S.val / (xs.length : ℚ)| ≤ M * p := by
      rw [abs_div, abs_of_pos hlenq, div_le_iff₀ hlenq]
      linarith
    have h6 : |S.val / (xs.length : ℚ) - T / (xs.length : ℚ)| ≤ M * (p - 1) := by
      rw [← sub_div, abs_div, abs_of_pos hlenq, div_le_iff₀ hlenq]
      linarith
    have h7 : unitRoundoff * |S.val / (xs.length : ℚ)| ≤ unitRoundoff * (M * p) :=
      mul_le_mul_of_nonneg_left h5 hu0
    calc |roundF64 (S.val / (xs.length : ℚ)) - T / (xs.length : ℚ)|
        = |(roundF64 (S.val / (xs.length : ℚ)) - S.val / (xs.length : ℚ)) +
            (S.val / (xs.length : ℚ) - T / (xs.length : ℚ))| := by ring_nf
      _ ≤ |roundF64 (S.val / (xs.length : ℚ)) - S.val / (xs.length : ℚ)| +
            |S.val / (xs.length : ℚ) - T / (xs.length : ℚ)| := abs_add_le _ _
      _ ≤ unitRoundoff * (M * p) + M * (p - 1) := by linarith
      _ = M * ((1 + unitRoundoff) ^ (xs.length + 1) - 1) := by rw [pow_succ, ← hp]; ring
  refine ⟨hmean, ?_⟩
  intro lo hi hr
  have hsum : ∀ l : List F64, (∀ x ∈ l, lo ≤ x.val ∧ x.val ≤ hi) →
      (l.length : ℚ) * lo ≤ (l.map F64.val).sum ∧ (l.map F64.val).sum ≤ (l.length : ℚ) * hi := by
    intro l
    induction l with
    | nil => intro _; simp
    | cons a l ih =>
      intro h
      have h8 := h a (by simp)
      have h9 := ih fun x hx => h x (List.mem_cons_of_mem _ hx)
      simp only [List.map_cons, List.sum_cons, List.length_cons, Nat.cast_add, Nat.cast_one]
      constructor <;> linarith [h9.1, h9.2, h8.1, h8.2]
  have hb := hsum xs hr
  have hm : lo ≤ meanOf ((xs.map F64.val : List ℚ) : Multiset ℚ) ∧
      meanOf ((xs.map F64.val : List ℚ) : Multiset ℚ) ≤ hi := by
    unfold meanOf
    rw [Multiset.sum_coe, Multiset.coe_card, List.length_map]
    rw [le_div_iff₀ hlenq, div_le_iff₀ hlenq]
    exact ⟨by linarith [hb.1], by linarith [hb.2]⟩
  have := abs_le.1 hmean
  constructor <;> linarith [this.1, this.2, hm.1, hm.2]

theorem foldl_add_int (B : ℕ) (xs : List ℤ) (hx : ∀ x ∈ xs, x.natAbs ≤ B)
    (hB : xs.length * B ≤ 2 ^ 53) :
    (xs.map F64.int).foldl (· + ·) (0 : F64) = F64.int xs.sum := by
  induction xs using List.reverseRecOn with
  | nil => rfl
  | append_singleton xs x ih =>
    have h1 : ∀ y ∈ xs, y.natAbs ≤ B := fun y hy => hx y (List.mem_append_left _ hy)
    have h2 : xs.length * B ≤ 2 ^ 53 := by
      refine le_trans (Nat.mul_le_mul_right _ ?_) hB
      simp
    rw [List.map_append, List.foldl_append, ih h1 h2]
    simp only [List.map_cons, List.map_nil, List.foldl_cons, List.foldl_nil, List.sum_append,
      List.sum_cons, List.sum_nil, add_zero]
    apply F64.int_add
    have h3 := natAbs_sum_le B (xs ++ [x]) hx
    simp only [List.sum_append, List.sum_cons, List.sum_nil, add_zero] at h3
    exact h3.trans hB

/-- **C111, what holds.** The mean of `n` integers of absolute value at most `B` with
`n * B ≤ 2^53` is the correctly rounded exact mean, and in the range of the values. -/
theorem C111_mean_integers_partial (B : ℕ) (xs : List ℤ) (hne : xs ≠ [])
    (hx : ∀ x ∈ xs, x.natAbs ≤ B) (hn : xs.length ≤ 2 ^ 53) (hB : xs.length * B ≤ 2 ^ 53) :
    ∃ v : F64, ((averageMeter F64).get ((averageMeter F64).updates (averageMeter F64).init
        (xs.map F64.int))).out = .ok v ∧
      v.val = roundF64 ((xs.sum : ℚ) / (xs.length : ℚ)) ∧
      ∀ lo hi : ℤ, lo ∈ xs → hi ∈ xs → (∀ x ∈ xs, lo ≤ x ∧ x ≤ hi) → (lo : ℚ) ≤ v.val ∧ v.val ≤ hi := by
  obtain ⟨h1, h2⟩ := averageMeter_updates (xs.map F64.int) (averageMeter F64).init
  have hlen : 0 < xs.length := List.length_pos_iff.2 hne
  have hlenq : (0 : ℚ) < (xs.length : ℚ) := by exact_mod_cast hlen
  have e0 : (averageMeter F64).init.numItems = 0 := rfl
  have e1 : (averageMeter F64).init.sum = 0 := rfl
  rw [e0, zero_add, List.length_map] at h1
  rw [e1, foldl_add_int B xs hx hB] at h2
  have hget : ((averageMeter F64).get ((averageMeter F64).updates (averageMeter F64).init
      (xs.map F64.int))).out = .ok (F64.int xs.sum / ((xs.length : ℤ) : F64)) := by
    have : ((xs.length : ℤ)) ≠ 0 := by omega
    simp only [averageMeter] at h1 h2 ⊢
    simp only [h1, h2, this, if_false, Res.out_ok]
  have hval : (F64.int xs.sum / ((xs.length : ℤ) : F64)).val
      = roundF64 ((xs.sum : ℚ) / (xs.length : ℚ)) := by
    rw [F64.div_val, F64.intCast_val _ (by simpa using hn), Int.cast_natCast]
    rfl
  refine ⟨_, hget, hval, ?_⟩
  intro lo hi hlo hhi hr
  have hB1 : B ≤ 2 ^ 53 := (Nat.le_mul_of_pos_left _ hlen).trans hB
  have hdouble : ∀ n ∈ xs, IsDouble (n : ℚ) := by
    intro n hn'
    apply isDouble_int
    rw [Int.abs_eq_natAbs]
    exact_mod_cast (hx n hn').trans hB1
  have hsum : ∀ l : List ℤ, (∀ x ∈ l, lo ≤ x ∧ x ≤ hi) →
      (l.length : ℤ) * lo ≤ l.sum ∧ l.sum ≤ (l.length : ℤ) * hi := by
    intro l
    induction l with
    | nil => intro _; simp
    | cons a l ih =>
      intro h
      have h8 := h a (by simp)
      have h9 := ih fun x hx => h x (List.mem_cons_of_mem _ hx)
      simp only [List.sum_cons, List.length_cons, Nat.cast_add, Nat.cast_one]
      constructor <;> linarith [h9.1, h9.2, h8.1, h8.2]
  have hb := hsum xs hr
  have hb1 : (xs.length : ℚ) * lo ≤ (xs.sum : ℚ) := by exact_mod_cast hb.1
  have hb2 : (xs.sum : ℚ) ≤ (xs.length : ℚ) * hi := by exact_mod_cast hb.2
  rw [hval]
  constructor
  · apply le_roundF64 (hdouble lo hlo)
    rw [le_div_iff₀ hlenq]; linarith
  · apply roundF64_le (hdouble hi hhi)
    rw [div_le_iff₀ hlenq]; linarith

example : ∃ v : F64, ((averageMeter F64).get ((averageMeter F64).updates (averageMeter F64).init
    ([1, 2, 2].map F64.int))).out = .ok v ∧ v.val = roundF64 (5 / 3) := by
  obtain ⟨v, h1, h2, -⟩ := C111_mean_integers_partial 2 [1, 2, 2] (by simp) (by decide) (by norm_num)
    (by norm_num)
  exact ⟨v, h1, by rw [h2]; norm_num⟩

/-! ### C112: order statistics -/

theorem ilog2_unique {q : ℚ} (hq : 0 < q) {k : ℤ} (h1 : 2 ^ k ≤ q) (h2 : q < 2 ^ (k + 1)) :
    ilog2 q = k := by
  obtain ⟨g1, g2⟩ := ilog2_spec hq
  rcases lt_trichotomy (ilog2 q) k with h | h | h
  · have : (2 : ℚ) ^ (ilog2 q + 1) ≤ 2 ^ k := zpow_le_zpow_right₀ (by norm_num) (by omega)
    linarith
  · exact h
  · have : (2 : ℚ) ^ (k + 1) ≤ 2 ^ ilog2 q := zpow_le_zpow_right₀ (by norm_num) (by omega)
    linarith

/-- Halving commutes with rounding. -/
theorem roundF64_half (q : ℚ) : roundF64 (q / 2) = roundF64 q / 2 := by
  by_cases h : q = 0
  · subst h; simp [roundF64]
  have h2 : q / 2 ≠ 0 := by simpa using h
  have habs : 0 < |q| := abs_pos.2 h
  have hl : ilog2 |q / 2| = ilog2 |q| - 1 := by
    obtain ⟨g1, g2⟩ := ilog2_spec habs
    rw [abs_div, abs_two]
    apply ilog2_unique (by positivity)
    · rw [zpow_sub₀ (by norm_num), zpow_one]; linarith
    · rw [zpow_add₀ (by norm_num), zpow_one] at g2
      rw [sub_add_cancel]; linarith
  rw [roundF64_eq h, roundF64_eq h2, hl]
  have e : (2 : ℚ) ^ (ilog2 |q| - 1 - 52) = 2 ^ (ilog2 |q| - 52) / 2 := by
    rw [show ilog2 |q| - 1 - 52 = ilog2 |q| - 52 - 1 by ring, zpow_sub₀ (by norm_num) _ 1, zpow_one]
  rw [e]
  have hp : (2 : ℚ) ^ (ilog2 |q| - 52) ≠ 0 := by positivity
  rw [show q / 2 / (2 ^ (ilog2 |q| - 52) / 2) = q / 2 ^ (ilog2 |q| - 52) by field_simp]
  ring

/-- Reading the median of a bag of doubles: the exact median, rounded once; `IndexError` without
values. (Nothing is said of bags with other numbers.) -/
def Spec.RoundedMedian (m : Multiset F64) (r : Except PyErr F64) : Prop :=
  (∀ x ∈ m, IsDouble x.val) →
    (m = 0 ∧ r = .error .indexError) ∨
    ∃ b, medianOf (m.map F64.val) = some b ∧ r = .ok (F64.of b)

theorem map_val_pySorted (l : List F64) : (pySorted l).map F64.val = pySorted (l.map F64.val) := by
  unfold pySorted
  apply List.map_insertionSort
  intro a _ b _
  exact Iff.rfl

theorem F64.of_val_self {x : F64} (h : IsDouble x.val) : F64.of x.val = x := by
  apply F64.val_injective
  exact roundF64_double h

theorem median_get_out_f64 (l : List F64) :
    RoundedMedian (l : Multiset F64) ((medianMeter F64).get ⟨l, (l.length : ℤ)⟩).out := by
  intro hd
  have hs := pySorted_eq_sort (l.map F64.val)
  rw [← map_val_pySorted] at hs
  have hlen : (pySorted l).length = l.length := by simp [pySorted]
  have hd' : ∀ x ∈ pySorted l, IsDouble x.val := by
    intro x hx
    apply hd
    have : x ∈ l := (List.perm_insertionSort _ l).mem_iff.1 hx
    simpa using this
  have h2val : (((2 : ℤ) : F64)).val = 2 := by
    have := F64.intCast_val 2 (by norm_num)
    simpa using this
  rw [Multiset.map_coe]
  rcases Nat.even_or_odd' l.length with ⟨k, hk | hk⟩
  · have hmod : ((l.length : ℤ) % 2 = 0) := by omega
    by_cases h0 : l = []
    · subst h0
      left
      simp [medianMeter, pySorted, pyIndex_nil]
    · right
      have hpos : 0 < k := by
        rcases Nat.eq_zero_or_pos k with h | h
        · subst h; simp at hk; exact absurd hk h0
        · exact h
      have e1 : (l.length : ℤ) / 2 = (k : ℕ) := by omega
      have e2 : (l.length : ℤ) / 2 - 1 = ((k - 1 : ℕ) : ℤ) := by omega
      have i1 : k < (pySorted l).length := by omega
      have i2 : k - 1 < (pySorted l).length := by omega
      refine ⟨((pySorted l)[k - 1].val + (pySorted l)[k].val) / 2, ?_, ?_⟩
      · unfold medianOf
        rw [← hs]
        have h2 : ((pySorted l).map F64.val).length / 2 = k := by rw [List.length_map]; omega
        have h3 : ¬ ((pySorted l).map F64.val).length % 2 = 1 := by rw [List.length_map]; omega
        simp only [h3, if_false, h2]
        rw [List.getElem?_eq_getElem (by simpa using i2), List.getElem?_eq_getElem (by simpa using i1)]
        simp
      · simp only [medianMeter, hmod, if_true]
        rw [e1, pyIndex_nat _ _ i1]
        simp only [Res.ofExcept_ok, Res.bind_ok]
        rw [e2, pyIndex_nat _ _ i2]
        simp only [Res.ofExcept_ok, Res.bind_ok, Res.out_ok, Except.ok.injEq]
        apply F64.val_injective
        rw [F64.div_val, h2val]
        show roundF64 (roundF64 _ / 2) = roundF64 _
        rw [roundF64_half, roundF64_half, roundF64_double (isDouble_roundF64 _), add_comm]
  · have hmod : ¬ ((l.length : ℤ) % 2 = 0) := by omega
    right
    have e1 : (l.length : ℤ) / 2 = (k : ℕ) := by omega
    have i1 : k < (pySorted l).length := by omega
    refine ⟨(pySorted l)[k].val, ?_, ?_⟩
    · unfold medianOf
      rw [← hs]
      have h2 : ((pySorted l).map F64.val).length / 2 = k := by rw [List.length_map]; omega
      have h3 : ((pySorted l).map F64.val).length % 2 = 1 := by rw [List.length_map]; omega
      simp only [h3, if_true, h2]
      rw [List.getElem?_eq_getElem (by simpa using i1)]
      simp
    · simp only [medianMeter, hmod, if_false]
      rw [e1, pyIndex_nat _ _ i1]
      simp only [Res.ofExcept_ok, Res.out_ok, Except.ok.injEq]
      exact (F64.of_val_self (hd' _ (List.getElem_mem i1))).symm

theorem median_refines_f64 : Refines (medianMeter F64) RoundedMedian
    (fun m s => (s.lst : Multiset F64) = m ∧ s.numItems = (s.lst.length : ℤ)) where
  init := by simp [medianMeter]
  update := by
    intro m s h x
    refine ⟨?_, ?_⟩
    · have := coe_heappush s.lst x
      rw [h.1] at this
      exact this
    · simp only [medianMeter, h.2, (heappush_perm s.lst x).length_eq, List.length_cons]
      push_cast; ring
  remove := by
    intro m s h x hx
    obtain ⟨h1, h2⟩ := h
    subst h1
    have hx' : x ∈ s.lst := by simpa using hx
    simp only [medianMeter, pyRemove, hx', if_true]
    refine ⟨_, rfl, by simp, ?_⟩
    have := List.length_pos_of_mem hx'
    simp only [List.length_erase_of_mem hx', h2]; omega
  get_out := by
    intro m s h
    obtain ⟨h1, h2⟩ := h
    subst h1
    have := median_get_out_f64 s.lst
    rwa [← h2] at this
  get_state := by
    intro m s h
    rw [median_get_state]
    refine ⟨?_, ?_⟩
    · rw [← h.1]; exact Multiset.coe_eq_coe.2 (List.perm_insertionSort _ _)
    · simp [pySorted, h.2]

theorem median_rejects_f64 : RejectsAbsent (medianMeter F64)
    (fun m s => (s.lst : Multiset F64) = m ∧ s.numItems = (s.lst.length : ℤ)) := by
  intro m s h x hx
  obtain ⟨h1, h2⟩ := h
  subst h1
  have hx' : x ∉ s.lst := by simpa using hx
  simp [medianMeter, pyRemove, hx']

/-- **C112.** In doubles, on every history, `MedianMeter` reads the exact median of the live
values, rounded once. -/
theorem C112_median_doubles (h : List (Op F64)) :
    IdealTrace RoundedMedian 0 h ((medianMeter F64).observe (medianMeter F64).init h) :=
  median_refines_f64.trace median_rejects_f64 h 0 _ median_refines_f64.init

/-- **C112.** In doubles, on every history, `MaxMeter` reads the greatest live value. -/
theorem C112_max_doubles (h : List (Op F64)) :
    IdealTrace MaxValue 0 h ((maxMeter F64).observe (maxMeter F64).init h) :=
  C07_max h

/-- **C112.** In doubles, on every history, `MinMeter` reads the least live value. -/
theorem C112_min_doubles (h : List (Op F64)) :
    IdealTrace MinValue 0 h ((minMeter F64).observe (minMeter F64).init h) :=
  C08_min h

/-- **C112.** The median read lies between any two doubles that bound the live values. -/
theorem C112_median_range (m : Multiset F64) (hm : m ≠ 0) (hd : ∀ x ∈ m, IsDouble x.val)
    (r : Except PyErr F64) (hr : RoundedMedian m r) (lo hi : F64) (hlo : IsDouble lo.val)
    (hhi : IsDouble hi.val) (hb : ∀ x ∈ m, lo.val ≤ x.val ∧ x.val ≤ hi.val) :
    ∃ v, r = .ok v ∧ lo.val ≤ v.val ∧ v.val ≤ hi.val := by
  rcases hr hd with ⟨h0, -⟩ | ⟨b, h1, rfl⟩
  · exact absurd h0 hm
  · have hmem : ∀ y ∈ (m.map F64.val).sort (· ≤ ·), lo.val ≤ y ∧ y ≤ hi.val := by
      intro y hy
      rw [Multiset.mem_sort, Multiset.mem_map] at hy
      obtain ⟨x, hx, rfl⟩ := hy
      exact hb x hx
    have hbb : lo.val ≤ b ∧ b ≤ hi.val := by
      unfold medianOf at h1
      simp only at h1
      split at h1
      · exact hmem b (List.mem_of_getElem? h1)
      · split at h1
        · rename_i a c ha hc
          have hA := hmem a (List.mem_of_getElem? ha)
          have hC := hmem c (List.mem_of_getElem? hc)
          have := Option.some.inj h1
          subst this
          constructor <;> linarith [hA.1, hA.2, hC.1, hC.2]
        · cases h1
    exact ⟨_, rfl, le_roundF64 hlo hbb.1, roundF64_le hhi hbb.2⟩

example : (medianMeter F64).observe (medianMeter F64).init
    [.update (F64.of (1/10)), .update (F64.of (3/10)), .get, .update (F64.of 1), .get] =
    [.done, .done, .value (F64.of (1/5)), .done, .value (F64.of (3/10))] := by decide +kernel

/-! ### C113: fractions -/

theorem roundF64_fraction {k n : ℕ} (hk : k ≤ n) (hn : 0 < n) :
    0 ≤ roundF64 ((k : ℚ) / n) ∧ roundF64 ((k : ℚ) / n) ≤ 1 := by
  have hn' : (0 : ℚ) < n := by exact_mod_cast hn
  refine ⟨roundF64_nonneg (by positivity), ?_⟩
  have h1 : IsDouble ((1 : ℤ) : ℚ) := isDouble_int (by norm_num)
  have := roundF64_le h1 (q := (k : ℚ) / n) (by
    rw [Int.cast_one, div_le_one hn']; exact_mod_cast hk)
  simpa using this

/-- Different fractions with the same small denominator stay different. -/
theorem roundF64_fraction_strict {k l n : ℕ} (hk : k < l) (hl : l ≤ n) (hn : n < 2 ^ 52) :
    roundF64 ((k : ℚ) / n) < roundF64 ((l : ℚ) / n) := by
  have hn0 : 0 < n := by omega
  have hn' : (0 : ℚ) < n := by exact_mod_cast hn0
  have e1 := (abs_le.1 (roundF64_error ((k : ℚ) / n))).2
  have e2 := (abs_le.1 (roundF64_error ((l : ℚ) / n))).1
  have hk1 : |(k : ℚ) / n| ≤ 1 := by
    rw [abs_of_nonneg (by positivity), div_le_one hn']
    exact_mod_cast (by omega : k ≤ n)
  have hl1 : |(l : ℚ) / n| ≤ 1 := by
    rw [abs_of_nonneg (by positivity), div_le_one hn']
    exact_mod_cast hl
  have hu : (0 : ℚ) ≤ unitRoundoff := by norm_num [unitRoundoff]
  have h1 : unitRoundoff * |(k : ℚ) / n| ≤ unitRoundoff * 1 := mul_le_mul_of_nonneg_left hk1 hu
  have h2 : unitRoundoff * |(l : ℚ) / n| ≤ unitRoundoff * 1 := mul_le_mul_of_nonneg_left hl1 hu
  have h3 : (k : ℚ) / n + 1 / n ≤ (l : ℚ) / n := by
    rw [← add_div]
    apply div_le_div_of_nonneg_right _ hn'.le
    exact_mod_cast hk
  have h4 : 2 * unitRoundoff < 1 / n := by
    rw [lt_div_iff₀ hn', unitRoundoff]
    have h5 : (n : ℚ) < ((2 ^ 52 : ℕ) : ℚ) := Nat.cast_lt.2 hn
    have h6 : ((2 ^ 52 : ℕ) : ℚ) = 4503599627370496 := by norm_num
    rw [h6] at h5
    norm_num
    linarith
  linarith

section
variable {α : Type*} [LinearOrder α]

/-- **C113.** In doubles, after fitting scores of which `n ≤ 2^53` are retained, the conformal
calibrator returns the fraction of retained scores above the given one, rounded once; for
`n = 0` it returns `nan`. -/
theorem C113_conformal_doubles (windowed : Bool) (w : ℕ) (xs : List α)
    (hn : (retained windowed w xs).length ≤ 2 ^ 53) :
    ∃ s, (Conformal.postprocessor F64).fit (Conformal.new windowed w) xs = .ok () s ∧
      ∀ y, (Conformal.postprocessor F64).transformPartial s y =
        .ok (if retained windowed w xs = [] then .nan
          else .fin (F64.of (tailFraction ℚ (retained windowed w xs) y))) s := by
  obtain ⟨s, h1, h2⟩ := conformal_contents (K := F64) windowed w xs
  refine ⟨s, h1, fun y => ?_⟩
  set l := retained windowed w xs with hl
  simp only [Conformal.postprocessor, Conformal.transformPartial, h2]
  congr 1
  by_cases h0 : l = []
  · rw [if_pos h0, h0]
    show npDiv ((0 : ℕ) : F64) ((0 : ℕ) : F64) = Num.nan
    decide +kernel
  · rw [if_neg h0]
    have hlen : 0 < l.length := List.length_pos_iff.2 h0
    have hne : ((l.length : ℕ) : F64) ≠ 0 := by
      intro h
      have h3 := congrArg F64.val h
      rw [F64.natCast_val _ hn] at h3
      have h4 : (l.length : ℚ) = 0 := h3
      have : l.length = 0 := by exact_mod_cast h4
      omega
    rw [npDiv, if_neg hne]
    congr 1
    apply F64.val_injective
    have hle : (l.filter fun z => decide (y < z)).length ≤ 2 ^ 53 :=
      (List.length_filter_le _ _).trans hn
    rw [F64.div_val, F64.natCast_val _ hn, F64.natCast_val _ hle]
    show _ = roundF64 _
    rw [tailFraction, List.countP_eq_length_filter]

/-- **C113.** So the result is a probability, it does not increase with the score, and for less
than `2^52` retained scores it decreases strictly exactly where the exact fraction does. -/
theorem C113_conformal_order (l : List α) (hne : l ≠ []) (y z : α) (hyz : y ≤ z) :
    let p := (F64.of (tailFraction ℚ l y)).val
    let q := (F64.of (tailFraction ℚ l z)).val
    (0 ≤ q ∧ p ≤ 1) ∧ q ≤ p ∧
    (l.length < 2 ^ 52 → (q < p ↔ tailFraction ℚ l z < tailFraction ℚ l y)) := by
  intro p q
  have hlen : 0 < l.length := List.length_pos_iff.2 hne
  have hlen' : (0 : ℚ) < (l.length : ℚ) := by exact_mod_cast hlen
  have hanti := C37_antitone (K := ℚ) l hyz
  have hqp : q ≤ p := roundF64_mono hanti
  refine ⟨⟨(roundF64_fraction List.countP_le_length hlen).1,
    (roundF64_fraction List.countP_le_length hlen).2⟩, hqp, ?_⟩
  intro hn
  constructor
  · intro h
    by_contra hc
    have : tailFraction ℚ l z = tailFraction ℚ l y := le_antisymm hanti (not_lt.1 hc)
    have : q = p := by simp only [p, q, this]
    exact absurd this h.ne
  · intro h
    unfold tailFraction at h
    rw [div_lt_div_iff_of_pos_right hlen'] at h
    exact roundF64_fraction_strict (by exact_mod_cast h) List.countP_le_length hn

end

section
variable {α β : Type*}

/-- **C113.** In doubles, with a window of at most `2^53` instances, `ExactStorm` scores by the
fraction of near instances rounded once, a number of [0, 1]. -/
theorem C113_storm_doubles (dist : α → α → F64) (w : ℕ) (hw : w ≤ 2 ^ 53) (r : F64)
    (cs : List (Call α β)) (x : α) :
    let s := (calls (exactStorm (β := β) dist) (StormState.new w r) cs).2
    let older := (lastN w (fitted cs)).dropLast
    let p := F64.of (nearFraction (fun a b => (dist a b).val) r.val older x)
    (exactStorm (β := β) dist).scorePartial s x = .ok p s ∧ 0 ≤ p.val ∧ p.val ≤ 1 := by
  intro s older p
  have hs : s = _ := storm_state dist w r cs
  have hlen : older.length ≤ 2 ^ 53 := by
    simp only [older, List.length_dropLast, lastN_length]
    omega
  by_cases h0 : older = []
  · have hp : p = 0 := by
      simp only [p, nearFraction, h0, if_true]
      apply F64.val_injective
      show roundF64 0 = 0
      simp [roundF64]
    refine ⟨?_, ?_⟩
    · rw [hs]
      have : ((lastN w (fitted cs)).dropLast).length = 0 := by
        rw [show (lastN w (fitted cs)).dropLast = older from rfl, h0]; rfl
      simp only [exactStorm, Window.get, this, if_true, hp]
    · rw [hp]; exact ⟨le_rfl, by show (0 : ℚ) ≤ 1; norm_num⟩
  · have hpos : 0 < older.length := List.length_pos_iff.2 h0
    have hp : p = F64.of ((older.countP (fun a => (dist a x).val < r.val) : ℚ) / older.length) := by
      simp only [p, nearFraction, h0, if_false]
    refine ⟨?_, ?_⟩
    · rw [hs]
      have hne : ¬ ((lastN w (fitted cs)).dropLast).length = 0 := by
        rw [show (lastN w (fitted cs)).dropLast = older from rfl]; omega
      simp only [exactStorm, Window.get, hne, if_false, hp]
      congr 1
      rw [← List.countP_eq_length_filter, List.countP_map, List.length_map,
        show (lastN w (fitted cs)).dropLast = older from rfl]
      apply F64.val_injective
      rw [F64.div_val, F64.natCast_val _ hlen,
        F64.natCast_val _ (List.countP_le_length.trans hlen)]
      rfl
    · rw [hp]
      exact roundF64_fraction List.countP_le_length hpos

end

example : retained true 3 [5, 1, 2, 8] ≠ [] ∧
    (F64.of (tailFraction ℚ (retained true 3 [5, 1, 2, 8]) (1 : ℤ))).val ≠ 2 / 3 := by
  decide +kernel

end Pysad
