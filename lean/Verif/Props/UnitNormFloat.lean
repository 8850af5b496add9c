import Verif.Proofs.Sqrt
import Verif.Props.FloatOrder
import Mathlib.Algebra.Order.BigOperators.Group.List
import Mathlib.Algebra.BigOperators.Group.List.Basic
import Mathlib.Algebra.Order.Ring.Pow

/-! Property C152: `InstanceUnitNormScaler` with the rounding of doubles. -/

namespace Pysad

namespace Spec

/-- `sum` adds up the numbers of a list, two at a time and rounding every time, in some order. -/
def AddsUp (sum : List F64 → F64) : Prop :=
  ∀ l, l ≠ [] → ∃ t : SumTree, t.leaves.Perm l ∧ sum l = t.value

/-- What the norm of the scaled vector should be: the sum of the magnitudes, the sum of the squares,
or the greatest magnitude. -/
def normOf (o : NormOrdF64) (y : List ℚ) : ℚ :=
  match o with
  | .one => (y.map fun a => |a|).sum
  | .two => (y.map fun a => a ^ 2).sum
  | .inf => (y.map fun a => |a|).foldr max 0

end Spec

namespace UnitNormF64

/-! ### Nearness up to `k` roundings -/

/-- `a` and `b` are within `k` roundings of each other. -/
def Near (k : ℕ) (a b : ℚ) : Prop :=
  (1 - unitRoundoff) ^ k * b ≤ a ∧ (1 - unitRoundoff) ^ k * a ≤ b

theorem u_pos : (0 : ℚ) < 1 - unitRoundoff := by norm_num [unitRoundoff]

theorem u_le : 1 - unitRoundoff ≤ 1 := by norm_num [unitRoundoff]

theorem pow_pos' (k : ℕ) : (0 : ℚ) < (1 - unitRoundoff) ^ k := pow_pos u_pos k

theorem Near.trans {k l : ℕ} {a b c : ℚ} (h : Near k a b) (g : Near l b c) : Near (k + l) a c := by
  constructor
  · rw [pow_add, mul_assoc]
    exact (mul_le_mul_of_nonneg_left g.1 (pow_pos' k).le).trans h.1
  · rw [pow_add, mul_comm ((1 - unitRoundoff) ^ k), mul_assoc]
    exact (mul_le_mul_of_nonneg_left h.2 (pow_pos' l).le).trans g.2

theorem Near.symm {k : ℕ} {a b : ℚ} (h : Near k a b) : Near k b a := ⟨h.2, h.1⟩

theorem Near.mono {k l : ℕ} {a b : ℚ} (h : Near k a b) (hkl : k ≤ l) (ha : 0 ≤ a) (hb : 0 ≤ b) :
    Near l a b := by
  have hp : (1 - unitRoundoff) ^ l ≤ (1 - unitRoundoff) ^ k :=
    pow_le_pow_of_le_one u_pos.le u_le hkl
  exact ⟨(mul_le_mul_of_nonneg_right hp hb).trans h.1, (mul_le_mul_of_nonneg_right hp ha).trans h.2⟩

theorem Near.add {k : ℕ} {a b c d : ℚ} (h : Near k a b) (g : Near k c d) :
    Near k (a + c) (b + d) :=
  ⟨by rw [mul_add]; exact add_le_add h.1 g.1, by rw [mul_add]; exact add_le_add h.2 g.2⟩

theorem Near.mul {k l : ℕ} {a b c d : ℚ} (h : Near k a b) (g : Near l c d) (ha : 0 ≤ a) (hb : 0 ≤ b)
    (hc : 0 ≤ c) (hd : 0 ≤ d) : Near (k + l) (a * c) (b * d) := by
  constructor
  · calc (1 - unitRoundoff) ^ (k + l) * (b * d)
        = ((1 - unitRoundoff) ^ k * b) * ((1 - unitRoundoff) ^ l * d) := by rw [pow_add]; ring
      _ ≤ a * c := mul_le_mul h.1 g.1 (mul_nonneg (pow_pos' l).le hd) ha
  · calc (1 - unitRoundoff) ^ (k + l) * (a * c)
        = ((1 - unitRoundoff) ^ k * a) * ((1 - unitRoundoff) ^ l * c) := by rw [pow_add]; ring
      _ ≤ b * d := mul_le_mul h.2 g.2 (mul_nonneg (pow_pos' l).le hc) hb

theorem Near.sum {k : ℕ} {f g : F64 → ℚ} :
    ∀ {l : List F64}, (∀ a ∈ l, Near k (f a) (g a)) → Near k (l.map f).sum (l.map g).sum
  | [], _ => by simp [Near]
  | a :: l, h => by
    simp only [List.map_cons, List.sum_cons]
    exact (h a (by simp)).add (Near.sum fun b hb => h b (by simp [hb]))

/-- Near 1 means near 1. -/
theorem Near.abs_sub_one {k : ℕ} {s : ℚ} (h : Near k s 1) (hk : k ≤ 2 ^ 52) :
    |s - 1| ≤ k / 2 ^ 52 := by
  have hb : 1 - (k : ℚ) / 2 ^ 53 ≤ (1 - unitRoundoff) ^ k := by
    have := one_add_mul_le_pow (a := -unitRoundoff) (by norm_num [unitRoundoff]) k
    have e : (1 : ℚ) + k * -unitRoundoff = 1 - k / 2 ^ 53 := by
      unfold unitRoundoff; ring
    rw [e] at this
    rwa [sub_eq_add_neg 1 unitRoundoff]
  have hk0 : (0 : ℚ) ≤ k := by positivity
  have hk' : (k : ℚ) ≤ 2 ^ 52 := by exact_mod_cast hk
  have h1 := h.1
  have h2 := h.2
  rw [mul_one] at h1
  have hs0 : 0 ≤ s := (pow_pos' k).le.trans h1
  have h3 : (1 - (k : ℚ) / 2 ^ 53) * s ≤ 1 := (mul_le_mul_of_nonneg_right hb hs0).trans h2
  set v : ℚ := k / 2 ^ 53 with hv
  have hv0 : 0 ≤ v := by positivity
  have hv1 : v ≤ 1 / 2 := by
    rw [hv, div_le_iff₀ (by norm_num)]; linarith
  have e2 : (k : ℚ) / 2 ^ 52 = 2 * v := by rw [hv]; ring
  rw [e2, abs_le]
  constructor
  · linarith
  · by_contra hc
    push Not at hc
    nlinarith

theorem near_round {q : ℚ} (h : 0 ≤ q) : Near 1 (roundF64 q) q := by
  have he := abs_le.1 (roundF64_error q)
  rw [abs_of_nonneg h] at he
  have hu : (0 : ℚ) < unitRoundoff := by norm_num [unitRoundoff]
  have hu1 := u_pos
  constructor
  · rw [pow_one]; linarith [he.1]
  · rw [pow_one]
    have : roundF64 q ≤ (1 + unitRoundoff) * q := by linarith [he.2]
    calc (1 - unitRoundoff) * roundF64 q ≤ (1 - unitRoundoff) * ((1 + unitRoundoff) * q) :=
          mul_le_mul_of_nonneg_left this hu1.le
      _ = q - unitRoundoff ^ 2 * q := by ring
      _ ≤ q := by have := mul_nonneg (sq_nonneg unitRoundoff) h; linarith

theorem near_sqrt {q : ℚ} (h : 0 < q) : Near 2 (sqrtF64 q ^ 2) q := by
  obtain ⟨h1, h2⟩ := sqrtF64_error h
  refine ⟨h1, ?_⟩
  have hu : (0 : ℚ) < unitRoundoff := by norm_num [unitRoundoff]
  have hu1 := u_pos
  have hb : (1 - unitRoundoff) ^ 2 * (1 + unitRoundoff) ^ 2 ≤ 1 := by norm_num [unitRoundoff]
  calc (1 - unitRoundoff) ^ 2 * sqrtF64 q ^ 2
      ≤ (1 - unitRoundoff) ^ 2 * ((1 + unitRoundoff) ^ 2 * q) :=
        mul_le_mul_of_nonneg_left h2 (sq_nonneg _)
    _ = ((1 - unitRoundoff) ^ 2 * (1 + unitRoundoff) ^ 2) * q := by ring
    _ ≤ 1 * q := mul_le_mul_of_nonneg_right hb h.le
    _ = q := one_mul q

/-! ### Sums in any order -/

theorem leaves_ne (t : SumTree) : t.leaves ≠ [] := by
  induction t with
  | leaf v => simp [SumTree.leaves]
  | node l r ihl ihr => simp [SumTree.leaves, ihl]

theorem leaves_length (t : SumTree) : 1 ≤ t.leaves.length :=
  List.length_pos_iff.2 (leaves_ne t)

theorem tree_facts (t : SumTree) (h : ∀ a ∈ t.leaves, IsDouble a.val ∧ 0 ≤ a.val) :
    IsDouble t.value.val ∧ (∀ a ∈ t.leaves, a.val ≤ t.value.val) ∧ 0 ≤ t.value.val ∧
    Near (t.leaves.length - 1) t.value.val (t.leaves.map F64.val).sum := by
  induction t with
  | leaf v =>
    obtain ⟨h1, h2⟩ := h v (by simp [SumTree.leaves])
    refine ⟨h1, by simp [SumTree.leaves, SumTree.value], h2, ?_⟩
    simp [SumTree.leaves, SumTree.value, Near]
  | node l r ihl ihr =>
    obtain ⟨l1, l2, l3, l4⟩ := ihl fun a ha => h a (by simp [SumTree.leaves, ha])
    obtain ⟨r1, r2, r3, r4⟩ := ihr fun a ha => h a (by simp [SumTree.leaves, ha])
    have hl : ∀ a ∈ l.leaves.map F64.val, 0 ≤ a := by
      intro a ha
      obtain ⟨b, hb, rfl⟩ := List.mem_map.1 ha
      exact (h b (by simp [SumTree.leaves, hb])).2
    have hr : ∀ a ∈ r.leaves.map F64.val, 0 ≤ a := by
      intro a ha
      obtain ⟨b, hb, rfl⟩ := List.mem_map.1 ha
      exact (h b (by simp [SumTree.leaves, hb])).2
    have hv : (SumTree.node l r).value.val = roundF64 (l.value.val + r.value.val) := rfl
    rw [hv]
    refine ⟨isDouble_roundF64 _, ?_, roundF64_nonneg (by linarith), ?_⟩
    · intro a ha
      rw [SumTree.leaves, List.mem_append] at ha
      rcases ha with ha | ha
      · exact (l2 a ha).trans (le_roundF64 l1 (by linarith))
      · exact (r2 a ha).trans (le_roundF64 r1 (by linarith))
    · have hll := leaves_length l
      have hrl := leaves_length r
      rw [SumTree.leaves, List.map_append, List.sum_append, List.length_append]
      have sl := List.sum_nonneg hl
      have sr := List.sum_nonneg hr
      have e1 := l4.mono (l := l.leaves.length + r.leaves.length - 2) (by omega) l3 sl
      have e2 := r4.mono (l := l.leaves.length + r.leaves.length - 2) (by omega) r3 sr
      have e3 := (near_round (add_nonneg l3 r3)).trans (e1.add e2)
      exact e3.mono (by omega) (roundF64_nonneg (by linarith)) (by linarith)

theorem sum_facts {sum : List F64 → F64} (hs : Spec.AddsUp sum) {l : List F64} (hne : l ≠ [])
    (h : ∀ a ∈ l, IsDouble a.val ∧ 0 ≤ a.val) :
    IsDouble (sum l).val ∧ (∀ a ∈ l, a.val ≤ (sum l).val) ∧ 0 ≤ (sum l).val ∧
    Near (l.length - 1) (sum l).val (l.map F64.val).sum := by
  obtain ⟨t, ht, e⟩ := hs l hne
  rw [e]
  obtain ⟨h1, h2, h3, h4⟩ := tree_facts t fun a ha => h a (ht.mem_iff.1 ha)
  refine ⟨h1, fun a ha => h2 a (ht.mem_iff.2 ha), h3, ?_⟩
  rwa [ht.length_eq, (ht.map F64.val).sum_eq] at h4

/-! ### The norms -/

theorem isDouble_abs {q : ℚ} (h : IsDouble q) : IsDouble |q| := by
  rcases abs_choice q with e | e <;> rw [e]
  · exact h
  · exact h.neg

theorem foldl_max_facts (x : List F64) (m : F64) :
    let r := x.foldl (fun m y => if m < abs y then abs y else m) m
    m.val ≤ r.val ∧ (∀ a ∈ x, |a.val| ≤ r.val) ∧ (r = m ∨ ∃ a ∈ x, r = abs a) := by
  induction x generalizing m with
  | nil => simp
  | cons b x ih =>
    simp only [List.foldl_cons]
    obtain ⟨h1, h2, h3⟩ := ih (if m < abs b then abs b else m)
    have hm : m.val ≤ (if m < abs b then abs b else m).val ∧
        |b.val| ≤ (if m < abs b then abs b else m).val := by
      split
      · rename_i hlt
        exact ⟨le_of_lt hlt, le_rfl⟩
      · rename_i hlt
        exact ⟨le_rfl, not_lt.1 hlt⟩
    refine ⟨hm.1.trans h1, ?_, ?_⟩
    · intro a ha
      rcases List.mem_cons.1 ha with rfl | ha
      · exact hm.2.trans h1
      · exact h2 a ha
    · rcases h3 with e | ⟨a, ha, e⟩
      · rw [e]
        split
        · exact Or.inr ⟨b, by simp, rfl⟩
        · exact Or.inl rfl
      · exact Or.inr ⟨a, by simp [ha], e⟩

/-- The computed norm: a double, at least as great as every magnitude, and near to the norm. -/
theorem norm_facts {sum : List F64 → F64} (hs : Spec.AddsUp sum) (o : NormOrdF64) {x : List F64}
    (hd : ∀ a ∈ x, IsDouble a.val) (hne : ∃ a ∈ x, a.val ≠ 0) :
    ∃ n : F64, norm sum o x = .ok n ∧ 0 < n.val ∧ IsDouble n.val ∧ (∀ a ∈ x, |a.val| ≤ n.val) ∧
      (match o with
        | .one => Near (x.length - 1) n.val (x.map fun a => |a.val|).sum
        | .two => Near (x.length + 2) (n.val ^ 2) (x.map fun a => a.val ^ 2).sum
        | .inf => ∃ a ∈ x, n.val = |a.val|) := by
  obtain ⟨a₀, ha₀, hne₀⟩ := hne
  have hx : x ≠ [] := List.ne_nil_of_mem ha₀
  have habs : 0 < |a₀.val| := abs_pos.2 hne₀
  cases o with
  | one =>
    obtain ⟨h1, h2, h3, h4⟩ := sum_facts hs (l := x.map abs) (by simpa using hx) (by
      intro b hb
      obtain ⟨a, ha, rfl⟩ := List.mem_map.1 hb
      exact ⟨isDouble_abs (hd a ha), abs_nonneg a.val⟩)
    have h2' : ∀ a ∈ x, |a.val| ≤ (sum (x.map abs)).val :=
      fun a ha => h2 (abs a) (List.mem_map.2 ⟨a, ha, rfl⟩)
    refine ⟨_, rfl, habs.trans_le (h2' a₀ ha₀), h1, h2', ?_⟩
    rw [List.length_map, List.map_map] at h4
    exact h4
  | two =>
    obtain ⟨h1, h2, h3, h4⟩ := sum_facts hs (l := x.map fun a => a * a) (by simpa using hx) (by
      intro b hb
      obtain ⟨a, ha, rfl⟩ := List.mem_map.1 hb
      exact ⟨isDouble_roundF64 _, roundF64_nonneg (mul_self_nonneg _)⟩)
    have h2' : ∀ a ∈ x, roundF64 (a.val * a.val) ≤ (sum (x.map fun a => a * a)).val :=
      fun a ha => h2 (a * a) (List.mem_map.2 ⟨a, ha, rfl⟩)
    have h5 : ∀ a ∈ x, |a.val| ≤ sqrtF64 (sum (x.map fun a => a * a)).val := by
      intro a ha
      by_cases h0 : a.val = 0
      · rw [h0, abs_zero]
        by_cases hS : 0 < (sum (x.map fun a => a * a)).val
        · exact (sqrtF64_pos hS).le
        · rw [sqrtF64, if_pos (not_lt.1 hS)]
      · refine le_sqrtF64 (abs_pos.2 h0) (isDouble_abs (hd a ha)) ?_
        rw [abs_mul_abs_self]
        exact h2' a ha
    have hS : 0 < (sum (x.map fun a => a * a)).val := by
      refine lt_of_lt_of_le ?_ (h2' a₀ ha₀)
      have hp : 0 < a₀.val * a₀.val := mul_self_pos.2 hne₀
      exact lt_of_lt_of_le (by positivity) (roundF64_bounds hp).1
    refine ⟨_, rfl, habs.trans_le (h5 a₀ ha₀), isDouble_sqrtF64 _, h5, ?_⟩
    rw [List.length_map, List.map_map] at h4
    have hq : Near 1 (x.map (F64.val ∘ fun a => a * a)).sum (x.map fun a => a.val ^ 2).sum := by
      refine Near.sum fun a _ => ?_
      have := near_round (mul_self_nonneg a.val)
      rw [sq]
      exact this
    have hlen : 1 ≤ x.length := List.length_pos_iff.2 hx
    have := ((near_sqrt hS).trans h4).trans hq
    rw [show 2 + (x.length - 1) + 1 = x.length + 2 by omega] at this
    exact this
  | inf =>
    obtain ⟨b, xs, rfl⟩ := List.exists_cons_of_ne_nil hx
    obtain ⟨h1, h2, h3⟩ := foldl_max_facts xs (abs b)
    set r := xs.foldl (fun m y => if m < abs y then abs y else m) (abs b) with hr
    have h4 : ∀ a ∈ b :: xs, |a.val| ≤ r.val := by
      intro a ha
      rcases List.mem_cons.1 ha with rfl | ha
      · exact h1
      · exact h2 a ha
    have h5 : ∃ a ∈ b :: xs, r.val = |a.val| := by
      rcases h3 with e | ⟨a, ha, e⟩
      · exact ⟨b, by simp, by rw [e]; rfl⟩
      · exact ⟨a, by simp [ha], by rw [e]; rfl⟩
    refine ⟨r, rfl, habs.trans_le (h4 a₀ ha₀), ?_, h4, h5⟩
    obtain ⟨a, ha, e⟩ := h5
    rw [e]
    exact isDouble_abs (hd a ha)

theorem transform_eq {sum : List F64 → F64} {o : NormOrdF64} {x : List F64} {n : F64}
    (h : norm sum o x = .ok n) (hn : 0 < n.val) :
    transformPartial sum o x = .ok (x.map fun a => Num.fin (a / n)) := by
  have h0 : n ≠ 0 := by
    intro e
    rw [e] at hn
    exact lt_irrefl _ hn
  rw [transformPartial, h]
  simp [Except.map, npDiv, h0]

theorem round_abs (q : ℚ) : |roundF64 q| = roundF64 |q| := by
  rcases le_total 0 q with h | h
  · rw [abs_of_nonneg h, abs_of_nonneg (roundF64_nonneg h)]
  · rw [abs_of_nonpos h, roundF64_neg, abs_of_nonpos]
    have := roundF64_nonneg (q := -q) (by linarith)
    rw [roundF64_neg] at this
    linarith

theorem round_pos {q : ℚ} (h : 0 < q) : 0 < roundF64 q :=
  lt_of_lt_of_le (by positivity) (roundF64_bounds h).1

end UnitNormF64

open UnitNormF64

/-- **C152.** In doubles, and however the sums are computed, a vector that is not zero is scaled to
numbers of [−1, 1], each with the sign of the entry that it comes from, in the order of the entries;
entries of opposite signs and equal magnitudes give opposite numbers. -/
theorem C152_unit_norm_range (sum : List F64 → F64) (hs : Spec.AddsUp sum) (o : NormOrdF64)
    (x : List F64) (hd : ∀ a ∈ x, IsDouble a.val) (hne : ∃ a ∈ x, a.val ≠ 0) :
    ∃ f : F64 → F64, UnitNormF64.transformPartial sum o x = .ok (x.map fun a => Num.fin (f a)) ∧
      (∀ a ∈ x, -1 ≤ (f a).val ∧ (f a).val ≤ 1) ∧
      (∀ a, (0 < (f a).val ↔ 0 < a.val) ∧ ((f a).val < 0 ↔ a.val < 0)) ∧
      (∀ a b, a.val ≤ b.val → (f a).val ≤ (f b).val) ∧
      (∀ a b, a.val = -b.val → (f a).val = -(f b).val) := by
  obtain ⟨n, h1, h2, h3, h4, -⟩ := norm_facts hs o hd hne
  refine ⟨fun a => a / n, transform_eq h1 h2, ?_, ?_, ?_, ?_⟩
  · intro a ha
    have one : IsDouble (1 : ℚ) := ⟨1, 0, by norm_num, by simp⟩
    have hb := abs_le.1 (h4 a ha)
    constructor
    · refine le_roundF64 one.neg ?_
      rw [le_div_iff₀ h2]; linarith
    · refine roundF64_le one ?_
      rw [div_le_iff₀ h2]; linarith
  · intro a
    have hpos : ∀ q : ℚ, 0 < q → 0 < roundF64 (q / n.val) := fun q hq => round_pos (div_pos hq h2)
    have hneg : ∀ q : ℚ, q < 0 → roundF64 (q / n.val) < 0 := by
      intro q hq
      have := hpos (-q) (by linarith)
      rw [neg_div, roundF64_neg] at this
      linarith
    have hzero : roundF64 ((0 : ℚ) / n.val) = 0 := by simp [roundF64]
    rw [F64.div_val]
    rcases lt_trichotomy a.val 0 with h | h | h
    · have := hneg _ h
      exact ⟨⟨fun g => by linarith, fun g => by linarith⟩, ⟨fun _ => h, fun _ => this⟩⟩
    · rw [h, hzero]; simp
    · have := hpos _ h
      exact ⟨⟨fun _ => h, fun _ => this⟩, ⟨fun g => by linarith, fun g => by linarith⟩⟩
  · intro a b hab
    exact roundF64_mono (div_le_div_of_nonneg_right hab h2.le)
  · intro a b hab
    rw [F64.div_val, F64.div_val, hab, neg_div, roundF64_neg]

/-- **C152.** In doubles, and however the sums are computed, the scaled vector has norm 1 up to
rounding: exactly for the order infinity, up to `n · 2^-52` for the order 1, where `n` is the number
of features, and for the order 2 the sum of the squares is 1 up to `(n + 4) · 2^-52`. -/
theorem C152_unit_norm_accuracy (sum : List F64 → F64) (hs : Spec.AddsUp sum) (o : NormOrdF64)
    (x : List F64) (hd : ∀ a ∈ x, IsDouble a.val) (hne : ∃ a ∈ x, a.val ≠ 0)
    (hx : x.length + 4 ≤ 2 ^ 52) :
    ∃ y : List F64, UnitNormF64.transformPartial sum o x = .ok (y.map Num.fin) ∧
      match o with
      | .one => |Spec.normOf .one (y.map F64.val) - 1| ≤ x.length / 2 ^ 52
      | .two => |Spec.normOf .two (y.map F64.val) - 1| ≤ (x.length + 4) / 2 ^ 52
      | .inf => Spec.normOf .inf (y.map F64.val) = 1 := by
  obtain ⟨n, h1, h2, h3, h4, h5⟩ := norm_facts hs o hd hne
  refine ⟨x.map fun a => a / n, by rw [transform_eq h1 h2, List.map_map]; rfl, ?_⟩
  have hlen : 1 ≤ x.length := by
    obtain ⟨a, ha, -⟩ := hne
    exact List.length_pos_iff.2 (List.ne_nil_of_mem ha)
  have hab : ∀ a : F64, |(a / n).val| = roundF64 (|a.val| / n.val) := by
    intro a
    rw [F64.div_val, round_abs, abs_div, abs_of_pos h2]
  cases o with
  | one =>
    simp only at h5 ⊢
    have hsum : Spec.normOf .one ((x.map fun a => a / n).map F64.val) =
        (x.map fun a => roundF64 (|a.val| / n.val)).sum := by
      rw [Spec.normOf, List.map_map, List.map_map]
      exact congrArg List.sum (List.map_congr_left fun a _ => hab a)
    have g1 : Near 1 (x.map fun a => roundF64 (|a.val| / n.val)).sum
        (x.map fun a => |a.val| / n.val).sum :=
      Near.sum fun a _ => near_round (by positivity)
    have g2 : (x.map fun a => |a.val| / n.val).sum = (x.map fun a => |a.val|).sum / n.val := by
      simp only [div_eq_mul_inv]
      rw [List.sum_map_mul_right]
    rw [g2] at g1
    have g3 : Near (x.length - 1) ((x.map fun a => |a.val|).sum / n.val) 1 := by
      refine ⟨?_, ?_⟩
      · rw [mul_one, le_div_iff₀ h2]; exact h5.2
      · rw [← mul_div_assoc, div_le_one h2]; exact h5.1
    have g4 := g1.trans g3
    rw [hsum]
    rw [show 1 + (x.length - 1) = x.length by omega] at g4
    exact g4.abs_sub_one (by omega)
  | two =>
    simp only at h5 ⊢
    have hsum : Spec.normOf .two ((x.map fun a => a / n).map F64.val) =
        (x.map fun a => roundF64 (|a.val| / n.val) * roundF64 (|a.val| / n.val)).sum := by
      rw [Spec.normOf, List.map_map, List.map_map]
      refine congrArg List.sum (List.map_congr_left fun a _ => ?_)
      show (a / n).val ^ 2 = _
      rw [← sq_abs, hab, sq]
    have hn2 : 0 < n.val ^ 2 := by positivity
    have g1 : Near 2 (x.map fun a => roundF64 (|a.val| / n.val) * roundF64 (|a.val| / n.val)).sum
        (x.map fun a => (|a.val| / n.val) * (|a.val| / n.val)).sum := by
      refine Near.sum fun a _ => ?_
      have h0 : 0 ≤ |a.val| / n.val := by positivity
      have := near_round h0
      exact this.mul this (roundF64_nonneg h0) h0 (roundF64_nonneg h0) h0
    have g2 : (x.map fun a => (|a.val| / n.val) * (|a.val| / n.val)).sum =
        (x.map fun a => a.val ^ 2).sum / n.val ^ 2 := by
      rw [div_eq_mul_inv, ← List.sum_map_mul_right]
      refine congrArg List.sum (List.map_congr_left fun a _ => ?_)
      rw [← sq, div_pow, sq_abs, div_eq_mul_inv]
    rw [g2] at g1
    have g3 : Near (x.length + 2) ((x.map fun a => a.val ^ 2).sum / n.val ^ 2) 1 := by
      refine ⟨?_, ?_⟩
      · rw [mul_one, le_div_iff₀ hn2]; exact h5.2
      · rw [← mul_div_assoc, div_le_one hn2]; exact h5.1
    have g4 := g1.trans g3
    rw [hsum]
    rw [show 2 + (x.length + 2) = x.length + 4 by omega] at g4
    have := g4.abs_sub_one (by omega)
    push_cast at this
    exact this
  | inf =>
    simp only at h5 ⊢
    have one : IsDouble (1 : ℚ) := ⟨1, 0, by norm_num, by simp⟩
    have hle : ∀ a ∈ x, |(a / n).val| ≤ 1 := by
      intro a ha
      rw [hab]
      refine roundF64_le one ?_
      rw [div_le_one h2]; exact h4 a ha
    have heq : ∃ a ∈ x, |(a / n).val| = 1 := by
      obtain ⟨a, ha, e⟩ := h5
      refine ⟨a, ha, ?_⟩
      rw [hab, ← e, div_self h2.ne', roundF64_double one]
    rw [Spec.normOf, List.map_map, List.map_map]
    clear h5 hx hlen hne hd h1 h4
    have hfold : ∀ l : List F64, (∀ a ∈ l, |(a / n).val| ≤ 1) →
        (l.map ((fun a => |a|) ∘ F64.val ∘ fun a => a / n)).foldr max 0 ≤ 1 ∧
        ∀ a ∈ l, |(a / n).val| ≤ (l.map ((fun a => |a|) ∘ F64.val ∘ fun a => a / n)).foldr max 0 := by
      intro l
      induction l with
      | nil => intro _; simp
      | cons b l ih =>
        intro h
        obtain ⟨i1, i2⟩ := ih fun a ha => h a (by simp [ha])
        simp only [List.map_cons, List.foldr_cons]
        refine ⟨max_le (h b (by simp)) i1, ?_⟩
        intro a ha
        rcases List.mem_cons.1 ha with rfl | ha
        · exact le_max_left _ _
        · exact (i2 a ha).trans (le_max_right _ _)
    obtain ⟨f1, f2⟩ := hfold x hle
    obtain ⟨a, ha, e⟩ := heq
    exact le_antisymm f1 (e ▸ f2 a ha)

/-- **C152.** The zero vector has no direction: every entry of the answer is `nan`. -/
theorem C152_unit_norm_zero (sum : List F64 → F64) (hs : Spec.AddsUp sum) (o : NormOrdF64)
    (x : List F64) (hne : x ≠ []) (hz : ∀ a ∈ x, a = 0) :
    UnitNormF64.transformPartial sum o x = .ok (x.map fun _ => Num.nan) := by
  have hs0 : ∀ l : List F64, l ≠ [] → (∀ a ∈ l, a.val = 0) → (sum l).val = 0 := by
    intro l hl h
    obtain ⟨h1, h2, h3, h4⟩ := sum_facts hs hl fun a ha => by
      rw [h a ha]; exact ⟨⟨0, 0, by simp, by simp⟩, le_rfl⟩
    have : (l.map F64.val).sum = 0 := List.sum_eq_zero (by
      intro q hq
      obtain ⟨a, ha, rfl⟩ := List.mem_map.1 hq
      exact h a ha)
    rw [this] at h4
    have h5 := h4.2
    have := pow_pos' (l.length - 1)
    by_contra hc
    have : 0 < (sum l).val := lt_of_le_of_ne h3 (Ne.symm hc)
    have := mul_pos (pow_pos' (l.length - 1)) this
    linarith
  have hn : norm sum o x = .ok 0 := by
    cases o with
    | one =>
      rw [UnitNormF64.norm]
      refine congrArg Except.ok (F64.val_injective ?_)
      refine hs0 _ (by simpa using hne) ?_
      intro b hb
      obtain ⟨a, ha, rfl⟩ := List.mem_map.1 hb
      rw [hz a ha]; rfl
    | two =>
      rw [UnitNormF64.norm]
      refine congrArg Except.ok (F64.val_injective ?_)
      show sqrtF64 _ = (0 : ℚ)
      rw [hs0 _ (by simpa using hne) ?_]
      · rfl
      · intro b hb
        obtain ⟨a, ha, rfl⟩ := List.mem_map.1 hb
        rw [hz a ha]
        show roundF64 ((0 : ℚ) * 0) = 0
        simp [roundF64]
    | inf =>
      obtain ⟨b, xs, rfl⟩ := List.exists_cons_of_ne_nil hne
      rw [UnitNormF64.norm, maxAbs]
      obtain ⟨-, -, h3⟩ := foldl_max_facts xs (abs b)
      refine congrArg Except.ok ?_
      rcases h3 with e | ⟨a, ha, e⟩
      · rw [e, hz b (by simp)]; rfl
      · rw [e, hz a (by simp [ha])]; rfl
  rw [transformPartial, hn]
  simp only [Except.map]
  refine congrArg Except.ok (List.map_congr_left fun a ha => ?_)
  rw [hz a ha]
  simp [npDiv]

/-- Adding from left to right is one of the orders. -/
def leftSum : List F64 → F64
  | [] => 0
  | a :: l => l.foldl (· + ·) a

theorem leftSum_addsUp : Spec.AddsUp leftSum := by
  intro l hl
  obtain ⟨a, l, rfl⟩ := List.exists_cons_of_ne_nil hl
  have key : ∀ (l : List F64) (t : SumTree), ∃ t' : SumTree, t'.leaves.Perm (t.leaves ++ l) ∧
      l.foldl (· + ·) t.value = t'.value := by
    intro l
    induction l with
    | nil => intro t; exact ⟨t, by simp, rfl⟩
    | cons b l ih =>
      intro t
      obtain ⟨t', h1, h2⟩ := ih (.node t (.leaf b))
      exact ⟨t', by simpa [SumTree.leaves] using h1, h2⟩
  obtain ⟨t', h1, h2⟩ := key l (.leaf a)
  exact ⟨t', h1, h2⟩

/-- A vector of 1/10ths: its computed Euclidean norm is rounded. -/
example : ∃ y : List F64,
    UnitNormF64.transformPartial leftSum .two [F64.of (1 / 10), F64.of (-3 / 10), 0] =
      .ok (y.map Num.fin) ∧ |Spec.normOf .two (y.map F64.val) - 1| ≤ (3 + 4) / 2 ^ 52 := by
  have := C152_unit_norm_accuracy leftSum leftSum_addsUp .two [F64.of (1 / 10), F64.of (-3 / 10), 0]
    (by
      intro a ha
      simp only [List.mem_cons, List.not_mem_nil, or_false] at ha
      rcases ha with rfl | rfl | rfl
      · exact isDouble_roundF64 _
      · exact isDouble_roundF64 _
      · exact ⟨0, 0, by simp, by show (0 : ℚ) = _; simp⟩)
    ⟨F64.of (1 / 10), by simp, by decide +kernel⟩ (by decide)
  simpa using this

example : sqrtF64 2 = 6369051672525773 / 4503599627370496 := by decide +kernel

example : UnitNormF64.transformPartial leftSum .two [⟨3⟩, ⟨-4⟩] =
    .ok [.fin (F64.of (3 / 5)), .fin (F64.of (-4 / 5))] := by decide +kernel

end Pysad
