import Verif.Props.HalfSpaceTrees
import Verif.Proofs.Expectation
import Mathlib.Logic.Equiv.Fin.Basic
import Mathlib.Data.List.OfFn
import Mathlib.Data.Setoid.Basic

/-! Property C154: the score of `HalfSpaceTrees` over the draws of its trees. -/

namespace Pysad

open Spec Hst

/-- `v` and `w` lie in the same of the `2 ^ c` equal parts of the interval from `a` to `b`:
on the same side of each of the `2 ^ c - 1` cuts. -/
def Spec.SamePart (a b : ℝ) (c : ℕ) (v w : ℝ) : Prop :=
  ∀ m : ℕ, 0 < m → m < 2 ^ c →
    (a + m * ((b - a) / 2 ^ c) < v ↔ a + m * ((b - a) / 2 ^ c) < w)

/-- How often feature `j` is among `k` drawn features. -/
def Spec.timesDrawn {d k : ℕ} (q : Fin k → Fin d) (j : Fin d) : ℕ :=
  (Finset.univ.filter fun i => q i = j).card

/-- Draw `k` of the `d` features, and cut the range of each feature in halves as often as
it is drawn: the instances lie in the same box. -/
def Spec.SameBox {d k : ℕ} (lo hi : List ℝ) (q : Fin k → Fin d) (x y : List ℝ) : Prop :=
  ∀ j : Fin d, SamePart (feature lo j) (feature hi j) (timesDrawn q j) (feature x j) (feature y j)

/-- The chance that `x` and `y` lie in the same box after `k` uniform draws. -/
noncomputable def Spec.boxChance (d : ℕ) (lo hi : List ℝ) (k : ℕ) (x y : List ℝ) : ℝ :=
  fraction fun q : Fin k → Fin d => SameBox lo hi q x y

/-- The similarity of `x` and `y` for trees of depth `D`. -/
noncomputable def Spec.boxKernel (d : ℕ) (lo hi : List ℝ) (D : ℕ) (x y : List ℝ) : ℝ :=
  ∑ k ∈ Finset.range (D + 1), 2 ^ k * boxChance d lo hi k x y

/-- A generator whose draws are the entries of a list (the remainder modulo `n`, so that
every draw is in range). -/
def Spec.nextDraw : List ℕ → ℕ → ℕ × List ℕ
  | [], _ => (0, [])
  | a :: l, n => (a % n, l)

/-- The draws of `T` trees with `n` inner nodes each, one after the other. -/
def Spec.drawsOf {T n d : ℕ} (ω : Fin T → Fin n → Fin d) : List ℕ :=
  (List.ofFn fun t => List.ofFn fun i => ((ω t i : Fin d) : ℕ)).flatten

namespace HstKernel

theorem nextDraw_inRange : InRange nextDraw := by
  intro g n hn
  match g with
  | [] => exact hn
  | a :: l => exact Nat.mod_lt _ hn

/-! ### Chance -/

theorem fraction_eq {Ω : Type*} [Fintype Ω] (p : Ω → Prop) [DecidablePred p] :
    fraction p = expectation fun v => if p v then (1 : ℝ) else 0 := by
  unfold fraction expectation
  rw [Finset.sum_boole]
  congr!

theorem fraction_congr {Ω : Type*} [Fintype Ω] {p q : Ω → Prop} (h : ∀ v, p v ↔ q v) :
    fraction p = fraction q := congrArg fraction (funext fun v => propext (h v))

theorem fraction_mono {Ω : Type*} [Fintype Ω] {p q : Ω → Prop} (h : ∀ v, p v → q v) :
    fraction p ≤ fraction q := by
  classical
  rw [fraction_eq, fraction_eq]
  apply Expect.mono
  intro v
  by_cases hp : p v
  · simp [hp, h v hp]
  · rw [if_neg hp]; split_ifs <;> norm_num

theorem fraction_true {Ω : Type*} [Fintype Ω] [Nonempty Ω] {p : Ω → Prop} (h : ∀ v, p v) :
    fraction p = 1 := by
  classical
  rw [fraction_eq, Expect.congr (g := fun _ => (1 : ℝ)) (fun v => if_pos (h v)), Expect.const]

theorem fraction_nonneg {Ω : Type*} [Fintype Ω] (p : Ω → Prop) : 0 ≤ fraction p := by
  unfold fraction; positivity

theorem fraction_le_one {Ω : Type*} [Fintype Ω] [Nonempty Ω] (p : Ω → Prop) : fraction p ≤ 1 :=
  (fraction_mono fun _ _ => trivial).trans (fraction_true (p := fun _ : Ω => True) fun _ => trivial).le

theorem expect_append {α : Type*} [Fintype α] (m n : ℕ) (F : List α → ℝ) :
    (expectation fun v : Fin (m + n) → α => F (List.ofFn v)) =
      expectation fun u : Fin m → α => expectation fun w : Fin n → α =>
        F (List.ofFn u ++ List.ofFn w) := by
  unfold expectation
  rw [← (Fin.appendEquiv (α := α) m n).sum_comp, Fintype.sum_prod_type]
  simp only [Fin.appendEquiv, Equiv.coe_fn_mk, List.ofFn_fin_append]
  rw [← Finset.sum_div, div_div]
  congr 1
  rw [Fintype.card_fun, Fintype.card_fun, Fintype.card_fun, Fintype.card_fin, Fintype.card_fin,
    Fintype.card_fin]
  push_cast
  ring

theorem expect_cons {α : Type*} [Fintype α] (n : ℕ) (F : List α → ℝ) :
    (expectation fun v : Fin (n + 1) → α => F (List.ofFn v)) =
      expectation fun a : α => expectation fun w : Fin n → α => F (a :: List.ofFn w) := by
  rw [Expect.cons]
  simp [List.ofFn_succ]

/-! ### Parts and boxes -/

theorem samePart_zero (a b v w : ℝ) : SamePart a b 0 v w := by
  intro m h1 h2
  simp at h2
  omega

theorem samePart_succ {a b : ℝ} (h : a ≤ b) (c : ℕ) (v w : ℝ) :
    SamePart a b (c + 1) v w ↔ (((b + a) / 2 < v ↔ (b + a) / 2 < w) ∧
      if (b + a) / 2 < v then SamePart ((b + a) / 2) b c v w
      else SamePart a ((b + a) / 2) c v w) := by
  have h2 : (0 : ℝ) < 2 ^ c := by positivity
  have left : ∀ m : ℕ, a + m * (((b + a) / 2 - a) / 2 ^ c) = a + m * ((b - a) / 2 ^ (c + 1)) := by
    intro m
    rw [pow_succ]; field_simp; ring
  have right : ∀ m : ℕ, (b + a) / 2 + m * ((b - (b + a) / 2) / 2 ^ c)
      = a + ((2 ^ c + m : ℕ) : ℝ) * ((b - a) / 2 ^ (c + 1)) := by
    intro m
    push_cast
    rw [pow_succ]; field_simp; ring
  have mid : a + ((2 ^ c : ℕ) : ℝ) * ((b - a) / 2 ^ (c + 1)) = (b + a) / 2 := by
    push_cast
    rw [pow_succ]; field_simp; ring
  have cut : ∀ m n : ℕ, m ≤ n →
      a + m * ((b - a) / 2 ^ (c + 1)) ≤ a + n * ((b - a) / 2 ^ (c + 1)) := by
    intro m n hmn
    have h3 : (m : ℝ) ≤ n := by exact_mod_cast hmn
    have h4 : 0 ≤ (b - a) / 2 ^ (c + 1) := div_nonneg (by linarith) (by positivity)
    nlinarith [mul_le_mul_of_nonneg_right h3 h4]
  have hp : (2 : ℕ) ^ (c + 1) = 2 ^ c + 2 ^ c := by ring
  have hpos : 0 < (2 : ℕ) ^ c := by positivity
  constructor
  · intro hs
    refine ⟨?_, ?_⟩
    · have := hs (2 ^ c) (by positivity) (by omega)
      rwa [mid] at this
    · split_ifs with hv
      · intro m h1 h2
        rw [right]
        exact hs _ (by omega) (by omega)
      · intro m h1 h2
        rw [left]
        exact hs _ h1 (by omega)
  · rintro ⟨hm, hs⟩ m h1 h2
    rcases lt_trichotomy m (2 ^ c) with hlt | rfl | hgt
    · by_cases hv : (b + a) / 2 < v
      · have hw := hm.1 hv
        have := cut m (2 ^ c) hlt.le
        rw [mid] at this
        exact ⟨fun _ => this.trans_lt hw, fun _ => this.trans_lt hv⟩
      · rw [if_neg hv] at hs
        have := hs m h1 hlt
        rwa [left] at this
    · rw [mid]; exact hm
    · by_cases hv : (b + a) / 2 < v
      · rw [if_pos hv] at hs
        obtain ⟨i, rfl⟩ := Nat.exists_eq_add_of_lt hgt
        have := hs (i + 1) (by omega) (by omega)
        rwa [right] at this
      · have hw := mt hm.2 hv
        have := cut (2 ^ c) m hgt.le
        rw [mid] at this
        constructor
        · intro h'; exact absurd (this.trans_lt h') hv
        · intro h'; exact absurd (this.trans_lt h') hw

theorem samePart_refl (a b : ℝ) (c : ℕ) (v : ℝ) : SamePart a b c v v := fun _ _ _ => Iff.rfl

theorem samePart_symm {a b : ℝ} {c : ℕ} {v w : ℝ} (h : SamePart a b c v w) : SamePart a b c w v :=
  fun m h1 h2 => (h m h1 h2).symm

theorem samePart_trans {a b : ℝ} {c : ℕ} {u v w : ℝ} (h : SamePart a b c u v)
    (h' : SamePart a b c v w) : SamePart a b c u w :=
  fun m h1 h2 => (h m h1 h2).trans (h' m h1 h2)

theorem samePart_between {a b : ℝ} {c : ℕ} {u v w : ℝ} (h : SamePart a b c u w)
    (hb : u ≤ v ∧ v ≤ w ∨ w ≤ v ∧ v ≤ u) : SamePart a b c u v := by
  intro m h1 h2
  have := h m h1 h2
  rcases hb with ⟨h3, h4⟩ | ⟨h3, h4⟩
  · exact ⟨fun h' => h'.trans_le h3, fun h' => this.2 (h'.trans_le h4)⟩
  · exact ⟨fun h' => (this.1 h').trans_le h3, fun h' => h'.trans_le h4⟩

theorem timesDrawn_cons {d k : ℕ} (a : Fin d) (q : Fin k → Fin d) (j : Fin d) :
    timesDrawn (Fin.cons a q : Fin (k + 1) → Fin d) j =
      if a = j then timesDrawn q j + 1 else timesDrawn q j := by
  unfold timesDrawn
  rw [Finset.card_filter, Finset.card_filter, Fin.sum_univ_succ]
  simp only [Fin.cons_zero, Fin.cons_succ]
  split_ifs <;> omega

theorem feature_set {l : List ℝ} {q j : ℕ} (hq : q < l.length) (p : ℝ) :
    feature (l.set q p) j = if q = j then p else feature l j := by
  unfold feature
  rw [List.getD_eq_getElem?_getD, List.getElem?_set]
  split_ifs with h
  · rfl
  · rw [List.getD_eq_getElem?_getD]

/-- Bounds of `d` features, in order. -/
def Bounds (d : ℕ) (lo hi : List ℝ) : Prop :=
  lo.length = d ∧ hi.length = d ∧ ∀ j : ℕ, feature lo j ≤ feature hi j

/-- The middle of feature `q`. -/
noncomputable def middle (lo hi : List ℝ) (q : ℕ) : ℝ := (feature hi q + feature lo q) / 2

theorem bounds_left {d : ℕ} {lo hi : List ℝ} (h : Bounds d lo hi) {q : ℕ} (hq : q < d) :
    Bounds d lo (hi.set q (middle lo hi q)) := by
  obtain ⟨h1, h2, h3⟩ := h
  refine ⟨h1, by simp [h2], fun j => ?_⟩
  rw [feature_set (by omega)]
  split_ifs with e
  · subst e
    unfold middle
    linarith [h3 q]
  · exact h3 j

theorem bounds_right {d : ℕ} {lo hi : List ℝ} (h : Bounds d lo hi) {q : ℕ} (hq : q < d) :
    Bounds d (lo.set q (middle lo hi q)) hi := by
  obtain ⟨h1, h2, h3⟩ := h
  refine ⟨by simp [h1], h2, fun j => ?_⟩
  rw [feature_set (by omega)]
  split_ifs with e
  · subst e
    unfold middle
    linarith [h3 q]
  · exact h3 j

theorem sameBox_cons {d k : ℕ} {lo hi : List ℝ} (h : Bounds d lo hi) (a : Fin d)
    (q : Fin k → Fin d) (x y : List ℝ) :
    SameBox lo hi (Fin.cons a q : Fin (k + 1) → Fin d) x y ↔
      ((middle lo hi a < feature x a ↔ middle lo hi a < feature y a) ∧
        if middle lo hi a < feature x a then SameBox (lo.set a (middle lo hi a)) hi q x y
        else SameBox lo (hi.set a (middle lo hi a)) q x y) := by
  obtain ⟨h1, h2, h3⟩ := h
  have key : ∀ j : Fin d, SamePart (feature lo j) (feature hi j)
      (timesDrawn (Fin.cons a q : Fin (k + 1) → Fin d) j) (feature x j) (feature y j) ↔
      (a = j → (middle lo hi a < feature x a ↔ middle lo hi a < feature y a)) ∧
      if middle lo hi a < feature x a then
        SamePart (feature (lo.set a (middle lo hi a)) j) (feature hi j) (timesDrawn q j)
          (feature x j) (feature y j)
      else SamePart (feature lo j) (feature (hi.set a (middle lo hi a)) j) (timesDrawn q j)
          (feature x j) (feature y j) := by
    intro j
    have ha := a.2
    rw [timesDrawn_cons, feature_set (by omega), feature_set (by omega)]
    by_cases e : a = j
    · subst e
      simp only [if_true, true_imp_iff]
      exact samePart_succ (h3 a) _ _ _
    · have e' : (a : ℕ) ≠ j := fun h => e (Fin.ext h)
      simp [e, e']
  unfold SameBox
  simp only [key]
  constructor
  · intro h
    refine ⟨(h a).1 rfl, ?_⟩
    split_ifs with hv
    · intro j; have := (h j).2; rwa [if_pos hv] at this
    · intro j; have := (h j).2; rwa [if_neg hv] at this
  · rintro ⟨hm, hs⟩ j
    refine ⟨fun _ => hm, ?_⟩
    split_ifs with hv
    · rw [if_pos hv] at hs; exact hs j
    · rw [if_neg hv] at hs; exact hs j

/-! ### Trees -/

/-- The tree that a list of draws gives. -/
noncomputable def planted : ℕ → ℕ → List ℝ → List ℝ → List ℕ → HsTree ℝ
  | 0, k, _, _, _ => .node .nil .nil 0 0 0 0 k
  | rem + 1, k, lo, hi, l =>
    let q := l.headD 0
    let p := middle lo hi q
    .node (planted rem (k + 1) lo (hi.set q p) (l.tail.take (2 ^ rem - 1)))
      (planted rem (k + 1) (lo.set q p) hi (l.tail.drop (2 ^ rem - 1))) 0 0 q p k

theorem planted_cons (rem k : ℕ) (lo hi : List ℝ) (q : ℕ) (u w : List ℕ)
    (hu : u.length + 1 = 2 ^ rem) :
    planted (rem + 1) k lo hi (q :: (u ++ w)) =
      .node (planted rem (k + 1) lo (hi.set q (middle lo hi q)) u)
        (planted rem (k + 1) (lo.set q (middle lo hi q)) hi w) 0 0 q (middle lo hi q) k := by
  have e : 2 ^ rem - 1 = u.length := by omega
  simp [planted, e]

theorem build_planted (d : ℕ) (hd : 0 < d) : ∀ (rem k : ℕ) (lo hi : List ℝ) (l rest : List ℕ),
    lo.length = d → hi.length = d → (∀ a ∈ l, a < d) → l.length + 1 = 2 ^ rem →
    build nextDraw d rem k lo hi (l ++ rest) = .ok (planted rem k lo hi l, rest) := by
  intro rem
  induction rem with
  | zero =>
    intro k lo hi l rest _ _ _ hl
    have : l = [] := List.eq_nil_of_length_eq_zero (by simpa using hl)
    subst this
    rfl
  | succ rem ih =>
    intro k lo hi l rest h1 h2 hlt hl
    have hp : (2 : ℕ) ^ (rem + 1) = 2 ^ rem + 2 ^ rem := by ring
    have hpos : 0 < (2 : ℕ) ^ rem := by positivity
    match l, hl with
    | [], hl => simp at hl; omega
    | q :: l, hl =>
      have hq : q < d := hlt q (by simp)
      obtain ⟨u, w, rfl, hu⟩ : ∃ u w, l = u ++ w ∧ u.length + 1 = 2 ^ rem := by
        refine ⟨l.take (2 ^ rem - 1), l.drop (2 ^ rem - 1), (List.take_append_drop _ _).symm, ?_⟩
        rw [List.length_take]
        simp at hl
        omega
      have hw : w.length + 1 = 2 ^ rem := by simp at hl; omega
      rw [planted_cons _ _ _ _ _ _ _ hu]
      have e : nextDraw ((q :: (u ++ w)) ++ rest) d = (q, u ++ (w ++ rest)) := by
        simp [nextDraw, Nat.mod_eq_of_lt hq]
      unfold build
      rw [if_neg (by omega), e]
      simp only [getElem?_of_lt (x := hi) (q := q) (by omega),
        getElem?_of_lt (x := lo) (q := q) (by omega)]
      rw [show (feature hi q + feature lo q) / 2 = middle lo hi q from rfl,
        ih _ _ _ u _ h1 (by simp [h2]) (fun a ha => hlt a (by simp [ha])) hu]
      simp only
      rw [ih _ _ _ w _ (by simp [h1]) h2 (fun a ha => hlt a (by simp [ha])) hw]

theorem buildAll_planted (d : ℕ) (hd : 0 < d) (D : ℕ) (lo hi : List ℝ) (h1 : lo.length = d)
    (h2 : hi.length = d) : ∀ (ls : List (List ℕ)), (∀ l ∈ ls, (∀ a ∈ l, a < d) ∧ l.length + 1 = 2 ^ D) →
    buildAll nextDraw D lo hi ls.length ls.flatten = .ok (ls.map (planted D 0 lo hi), []) := by
  intro ls
  induction ls with
  | nil => intro _; rfl
  | cons l ls ih =>
    intro h
    rw [List.flatten_cons, List.length_cons, buildAll, h2,
      build_planted d hd D 0 lo hi l _ h1 h2 (h l (by simp)).1 (h l (by simp)).2]
    simp only
    rw [ih fun l hl => h l (by simp [hl])]
    rfl

/-- The tree of the draws `v`. -/
noncomputable def treeOf {n d : ℕ} (D : ℕ) (lo hi : List ℝ) (v : Fin n → Fin d) : HsTree ℝ :=
  planted D 0 lo hi ((List.ofFn v).map fun a : Fin d => (a : ℕ))

theorem new_planted {T n d : ℕ} (hd : 0 < d) (D w : ℕ) (hn : n + 1 = 2 ^ D) (lo hi : List ℝ)
    (h1 : lo.length = d) (h2 : hi.length = d) (ω : Fin T → Fin n → Fin d) :
    Hst.new nextDraw lo hi w T D (drawsOf ω) =
      .ok ⟨w, D, List.ofFn fun t => treeOf D lo hi (ω t), true, 0⟩ := by
  have := buildAll_planted d hd D lo hi h1 h2
    (List.ofFn fun t => List.ofFn fun i => ((ω t i : Fin d) : ℕ)) (by
      intro l hl
      obtain ⟨t, rfl⟩ := (List.mem_ofFn' _ _).1 hl
      refine ⟨fun a ha => ?_, by simpa using hn⟩
      obtain ⟨i, rfl⟩ := (List.mem_ofFn' _ _).1 ha
      exact (ω t i).2)
  rw [List.length_ofFn] at this
  unfold Hst.new drawsOf
  rw [this]
  simp [treeOf, List.map_ofFn, Function.comp_def]

open Classical in
/-- The chance that a drawn tree has `x` and `y` in the same cell of depth `j`. -/
theorem tree_chance {d : ℕ} [NeZero d] (x y : List ℝ) : ∀ (rem k j : ℕ) (lo hi : List ℝ) (n : ℕ),
    Bounds d lo hi → j ≤ rem → n + 1 = 2 ^ rem →
    (expectation fun v : Fin n → Fin d =>
      if cell (planted rem k lo hi ((List.ofFn v).map fun a : Fin d => (a : ℕ))) j y =
        cell (planted rem k lo hi ((List.ofFn v).map fun a : Fin d => (a : ℕ))) j x
      then (1 : ℝ) else 0) = boxChance d lo hi j x y := by
  have zero : ∀ lo hi : List ℝ, boxChance d lo hi 0 x y = 1 := by
    intro lo hi
    apply fraction_true
    intro q j
    have : timesDrawn q j = 0 := by simp [timesDrawn]
    rw [this]
    exact samePart_zero _ _ _ _
  intro rem
  induction rem with
  | zero =>
    intro k j lo hi n hb hj hn
    obtain rfl : j = 0 := by omega
    rw [zero, Expect.congr (g := fun _ => (1 : ℝ)) (fun v => by simp [planted, cell]), Expect.const]
  | succ rem ih =>
    intro k j lo hi n hb hj hn
    match j with
    | 0 =>
      rw [zero, Expect.congr (g := fun _ => (1 : ℝ)) (fun v => by simp [planted, cell]), Expect.const]
    | j + 1 =>
      have hp : (2 : ℕ) ^ (rem + 1) = 2 ^ rem + 2 ^ rem := by ring
      have hpos : 0 < (2 : ℕ) ^ rem := by positivity
      obtain ⟨m, hm⟩ : ∃ m, m + 1 = 2 ^ rem := ⟨2 ^ rem - 1, by omega⟩
      obtain rfl : n = (m + m) + 1 := by omega
      rw [expect_cons (m + m) fun l : List (Fin d) =>
        if cell (planted (rem + 1) k lo hi (l.map fun a : Fin d => (a : ℕ))) (j + 1) y =
          cell (planted (rem + 1) k lo hi (l.map fun a : Fin d => (a : ℕ))) (j + 1) x
        then (1 : ℝ) else 0]
      unfold boxChance
      rw [fraction_eq, Expect.cons]
      apply Expect.congr
      intro a
      rw [expect_append m m fun l : List (Fin d) =>
        if cell (planted (rem + 1) k lo hi ((a :: l).map fun a : Fin d => (a : ℕ))) (j + 1) y =
          cell (planted (rem + 1) k lo hi ((a :: l).map fun a : Fin d => (a : ℕ))) (j + 1) x
        then (1 : ℝ) else 0]
      have e : ∀ u w : Fin m → Fin d, planted (rem + 1) k lo hi
          ((a :: (List.ofFn u ++ List.ofFn w)).map fun a : Fin d => (a : ℕ)) =
          .node (planted rem (k + 1) lo (hi.set a (middle lo hi a))
              ((List.ofFn u).map fun a : Fin d => (a : ℕ)))
            (planted rem (k + 1) (lo.set a (middle lo hi a)) hi
              ((List.ofFn w).map fun a : Fin d => (a : ℕ))) 0 0 a (middle lo hi a) k := by
        intro u w
        rw [List.map_cons, List.map_append, planted_cons]
        simpa using hm
      simp only [e, cell, sameBox_cons hb]
      by_cases hx : middle lo hi a < feature x a
      · by_cases hy : middle lo hi a < feature y a
        · simp only [hx, hy, if_true, true_and, List.cons.injEq]
          rw [Expect.const]
          exact (ih (k + 1) j _ _ m (bounds_right hb a.2) (by omega) hm).trans (fraction_eq _)
        · simp [hx, hy, Expect.const]
      · by_cases hy : middle lo hi a < feature y a
        · simp [hx, hy, Expect.const]
        · simp only [hx, hy, if_false, true_and, List.cons.injEq]
          simp only [Expect.const]
          exact (ih (k + 1) j _ _ m (bounds_left hb a.2) (by omega) hm).trans (fraction_eq _)

/-- The part of a tree in the score. -/
noncomputable def treeScore (D : ℕ) (R : List (List ℝ)) (x : List ℝ) (t : HsTree ℝ) : ℝ :=
  ((List.range (D + 1)).map fun j => (neighbours t j R x : ℝ) * 2 ^ j).sum

theorem expect_list_sum {Ω α : Type*} [Fintype Ω] [Nonempty Ω] (f : α → Ω → ℝ) (l : List α) :
    (expectation fun v => (l.map fun a => f a v).sum) = (l.map fun a => expectation (f a)).sum := by
  induction l with
  | nil => simp [Expect.const]
  | cons a l ih => simp only [List.map_cons, List.sum_cons, Expect.add, ih]

theorem list_sum_range (f : ℕ → ℝ) (n : ℕ) :
    ((List.range n).map f).sum = ∑ i ∈ Finset.range n, f i := by
  induction n with
  | zero => rfl
  | succ n ih => rw [List.range_succ, Finset.sum_range_succ, ← ih]; simp

theorem treeScore_mean {d : ℕ} [NeZero d] (D n : ℕ) (lo hi : List ℝ) (hb : Bounds d lo hi)
    (hn : n + 1 = 2 ^ D) (R : List (List ℝ)) (x : List ℝ) :
    (expectation fun v : Fin n → Fin d => treeScore D R x (treeOf D lo hi v)) =
      (R.map fun y => boxKernel d lo hi D x y).sum := by
  classical
  unfold treeScore
  rw [expect_list_sum]
  have e : ∀ j ∈ List.range (D + 1),
      (expectation fun v : Fin n → Fin d => (neighbours (treeOf D lo hi v) j R x : ℝ) * 2 ^ j) =
      (R.map fun y => 2 ^ j * boxChance d lo hi j x y).sum := by
    intro j hj
    have hj' : j ≤ D := by have := List.mem_range.1 hj; omega
    rw [Expect.mul_right, List.sum_map_mul_left, mul_comm]
    congr 1
    rw [← List.map_congr_left (fun y _ => tree_chance x y D 0 j lo hi n hb hj' hn),
      ← expect_list_sum]
    apply Expect.congr
    intro v
    unfold neighbours treeOf
    induction R with
    | nil => simp
    | cons y R ih =>
      rw [List.countP_cons, List.map_cons, List.sum_cons, ← ih]
      simp only [decide_eq_true_eq]
      split_ifs <;> push_cast <;> ring
  rw [List.map_congr_left e]
  clear e
  unfold boxKernel
  induction R with
  | nil => simp
  | cons y R ih =>
    simp only [List.map_cons, List.sum_cons] at ih ⊢
    rw [List.sum_map_add, ih, list_sum_range]

theorem treeScore_nonneg (D : ℕ) (R : List (List ℝ)) (x : List ℝ) (t : HsTree ℝ) :
    0 ≤ treeScore D R x t := by
  unfold treeScore
  rw [list_sum_range]
  exact Finset.sum_nonneg fun j _ => by positivity

theorem treeScore_le (D : ℕ) (R : List (List ℝ)) (x : List ℝ) (t : HsTree ℝ) :
    treeScore D R x t ≤ R.length * (2 ^ (D + 1) - 1) := by
  unfold treeScore
  rw [← sum_two_pow (K := ℝ), list_sum_range, list_sum_range, Finset.mul_sum]
  apply Finset.sum_le_sum
  intro j _
  have : (neighbours t j R x : ℝ) ≤ R.length := by exact_mod_cast neighbours_le t j R x
  nlinarith [pow_pos (two_pos (α := ℝ)) j]

theorem sameBox_refl {d k : ℕ} (lo hi : List ℝ) (q : Fin k → Fin d) (x : List ℝ) :
    SameBox lo hi q x x := fun _ => samePart_refl _ _ _ _

theorem sameBox_symm {d k : ℕ} {lo hi : List ℝ} {q : Fin k → Fin d} {x y : List ℝ}
    (h : SameBox lo hi q x y) : SameBox lo hi q y x := fun j => samePart_symm (h j)

theorem sameBox_trans {d k : ℕ} {lo hi : List ℝ} {q : Fin k → Fin d} {x y z : List ℝ}
    (h : SameBox lo hi q x y) (h' : SameBox lo hi q y z) : SameBox lo hi q x z :=
  fun j => samePart_trans (h j) (h' j)

open Classical in
/-- The indicator of an equivalence relation is positive semidefinite. -/
theorem equivalence_psd {α : Type*} (s : Setoid α) {n : ℕ} (c : Fin n → ℝ) (x : Fin n → α) :
    0 ≤ ∑ a, ∑ b, c a * c b * (if s (x a) (x b) then (1 : ℝ) else 0) := by
  let f : Fin n → Quotient s := fun a => Quotient.mk s (x a)
  have h : ∑ a, ∑ b, c a * c b * (if s (x a) (x b) then (1 : ℝ) else 0)
      = ∑ z ∈ Finset.univ.image f, (∑ a, c a * if f a = z then (1 : ℝ) else 0) ^ 2 := by
    simp only [sq, Finset.sum_mul_sum]
    symm
    rw [Finset.sum_comm]
    apply Finset.sum_congr rfl
    intro a _
    rw [Finset.sum_comm]
    apply Finset.sum_congr rfl
    intro b _
    have e : ∀ z, (c a * if f a = z then (1 : ℝ) else 0) * (c b * if f b = z then (1 : ℝ) else 0)
        = if f a = z then c a * c b * (if s (x a) (x b) then 1 else 0) else 0 := by
      intro z
      by_cases h : f a = z
      · subst h
        have hq : f b = f a ↔ s (x a) (x b) := eq_comm.trans Quotient.eq
        simp only [hq, if_true]
        split_ifs <;> ring
      · simp [h]
    simp only [e]
    rw [Finset.sum_ite_eq, if_pos (Finset.mem_image_of_mem f (Finset.mem_univ a))]
  rw [h]
  exact Finset.sum_nonneg fun z _ => sq_nonneg _

end HstKernel

open HstKernel

/-- **C154.** Over independent uniform draws of the split features, the expected score of
`x` is minus the number of trees times the summed similarity of `x` to the instances of the
reference window; and the chance that the score per tree is `ε` away from that is at most
`B ^ 2 / (T * ε ^ 2)`, where `B` is the range of the score of one tree. -/
theorem C154_hst_expected {β : Type*} (d D T w : ℕ) (hd : 0 < d) (hT : 0 < T) (hw : 1 ≤ w)
    (lo hi : List ℝ) (hlo : lo.length = d) (hhi : hi.length = d)
    (hb : ∀ j, feature lo j ≤ feature hi j) (cs : List (Call (List ℝ) β))
    (hX : ∀ x ∈ fitted cs, x.length = d) (x : List ℝ) (hx : x.length = d) :
    ∃ score : (Fin T → Fin (2 ^ D - 1) → Fin d) → ℝ,
      (∀ ω, ∃ s0, Hst.new nextDraw lo hi w T D (drawsOf ω) = .ok s0 ∧
        ((Hst.detector ℝ β).scorePartial (calls (Hst.detector ℝ β) s0 cs).2 x).out = .ok (score ω)) ∧
      expectation score =
        -(T * ((referenceWindow w (fitted cs)).map fun y => boxKernel d lo hi D x y).sum) ∧
      ∀ ε : ℝ, 0 < ε →
        fraction (fun ω => ε ≤ |score ω / T +
          ((referenceWindow w (fitted cs)).map fun y => boxKernel d lo hi D x y).sum|) ≤
        ((referenceWindow w (fitted cs)).length * (2 ^ (D + 1) - 1)) ^ 2 / (T * ε ^ 2) := by
  have : NeZero d := ⟨by omega⟩
  have hn : 2 ^ D - 1 + 1 = 2 ^ D := Nat.sub_add_cancel (Nat.one_le_two_pow)
  set R := referenceWindow w (fitted cs) with hR
  set μ := (R.map fun y => boxKernel d lo hi D x y).sum with hμ
  let F : (Fin (2 ^ D - 1) → Fin d) → ℝ := fun v => treeScore D R x (treeOf D lo hi v)
  have hF : expectation F = μ := treeScore_mean D _ lo hi ⟨hlo, hhi, hb⟩ hn R x
  have hT' : (0 : ℝ) < T := by exact_mod_cast hT
  have hmean : (expectation fun ω : Fin T → Fin (2 ^ D - 1) → Fin d => ∑ t, F (ω t)) = T * μ := by
    have := Expect.sum_mean F μ hF T (fun _ => 1)
    simpa [mul_comm] using this
  refine ⟨fun ω => -∑ t, F (ω t), ?_, ?_, ?_⟩
  · intro ω
    refine ⟨_, new_planted hd D w hn lo hi hlo hhi ω, ?_⟩
    rw [C53_hst_score nextDraw nextDraw_inRange lo hi (by omega) w T D hw _ _
      (new_planted hd D w hn lo hi hlo hhi ω) cs (by rwa [hhi]) x (by rw [hx, hhi])]
    simp only [List.map_ofFn, List.sum_ofFn, Function.comp_def]
    rfl
  · have := Expect.mul_left (-1) fun ω : Fin T → Fin (2 ^ D - 1) → Fin d => ∑ t, F (ω t)
    rw [hmean] at this
    simpa using this
  · intro ε hε
    have h1 := Expect.chebyshev (fun ω : Fin T → Fin (2 ^ D - 1) → Fin d => ∑ t, F (ω t)) (T * μ)
      (T * ε) (by positivity)
    rw [Expect.sum_var F μ _ hF rfl T (T * μ)] at h1
    have h2 : (expectation fun a => F a ^ 2) ≤ (R.length * (2 ^ (D + 1) - 1)) ^ 2 := by
      rw [← Expect.const (Ω := Fin (2 ^ D - 1) → Fin d) ((R.length * (2 ^ (D + 1) - 1)) ^ 2 : ℝ)]
      exact Expect.mono fun v => pow_le_pow_left₀ (treeScore_nonneg _ _ _ _) (treeScore_le _ _ _ _) 2
    refine (fraction_mono ?_).trans (h1.trans ?_)
    · intro ω h
      have e : -(∑ t, F (ω t)) / T + μ = -((∑ t, F (ω t)) - T * μ) / T := by
        field_simp; ring
      rw [e, abs_div, abs_neg, abs_of_pos hT', le_div_iff₀ hT'] at h
      linarith
    · rw [div_le_div_iff₀ (by positivity) (by positivity)]
      have h3 : (expectation fun a => F a ^ 2) - μ ^ 2 ≤ (R.length * (2 ^ (D + 1) - 1)) ^ 2 := by
        nlinarith [sq_nonneg μ]
      have h4 : (0 : ℝ) ≤ T * (T * ε ^ 2) := by positivity
      nlinarith [mul_le_mul_of_nonneg_right h3 h4]

/-- **C154.** The similarity is symmetric, greatest for equal instances, at least `1`, and
does not grow when an instance moves away in every feature. -/
theorem C154_hst_similarity (d D : ℕ) (hd : 0 < d) (lo hi x y : List ℝ) :
    boxKernel d lo hi D x y = boxKernel d lo hi D y x ∧
    boxKernel d lo hi D x x = 2 ^ (D + 1) - 1 ∧
    boxKernel d lo hi D x y ≤ 2 ^ (D + 1) - 1 ∧ 1 ≤ boxKernel d lo hi D x y ∧
    ∀ z : List ℝ, (∀ j : Fin d, feature x j ≤ feature z j ∧ feature z j ≤ feature y j ∨
      feature y j ≤ feature z j ∧ feature z j ≤ feature x j) →
      boxKernel d lo hi D x y ≤ boxKernel d lo hi D x z := by
  have : NeZero d := ⟨by omega⟩
  have hone : ∀ k, boxChance d lo hi k x x = 1 := fun k => fraction_true fun q => sameBox_refl _ _ _ _
  have hs := sum_two_pow (K := ℝ) D
  rw [list_sum_range] at hs
  refine ⟨?_, ?_, ?_, ?_, ?_⟩
  · refine Finset.sum_congr rfl fun k _ => ?_
    congr 1
    exact fraction_congr fun q => ⟨sameBox_symm, sameBox_symm⟩
  · unfold boxKernel
    simp only [hone, mul_one]
    exact hs
  · rw [← hs]
    refine Finset.sum_le_sum fun k _ => ?_
    have : boxChance d lo hi k x y ≤ 1 := fraction_le_one _
    nlinarith [pow_pos (two_pos (α := ℝ)) k]
  · unfold boxKernel
    rw [Finset.sum_range_succ']
    have h0 : boxChance d lo hi 0 x y = 1 := by
      apply fraction_true
      intro q j
      rw [show timesDrawn q j = 0 by simp [timesDrawn]]
      exact samePart_zero _ _ _ _
    rw [h0]
    have : 0 ≤ ∑ k ∈ Finset.range D, (2 : ℝ) ^ (k + 1) * boxChance d lo hi (k + 1) x y :=
      Finset.sum_nonneg fun k _ => mul_nonneg (by positivity) (fraction_nonneg _)
    linarith
  · intro z hz
    refine Finset.sum_le_sum fun k _ => ?_
    refine mul_le_mul_of_nonneg_left ?_ (by positivity)
    exact fraction_mono fun q h j => samePart_between (h j) (hz j)

/-- **C154.** The similarity is a positive semidefinite kernel. -/
theorem C154_hst_kernel (d D : ℕ) (lo hi : List ℝ) {n : ℕ} (c : Fin n → ℝ) (x : Fin n → List ℝ) :
    0 ≤ ∑ a, ∑ b, c a * c b * boxKernel d lo hi D (x a) (x b) := by
  classical
  have e : ∑ a, ∑ b, c a * c b * boxKernel d lo hi D (x a) (x b) =
      ∑ k ∈ Finset.range (D + 1), 2 ^ k * ∑ a, ∑ b, c a * c b * boxChance d lo hi k (x a) (x b) := by
    simp only [boxKernel, Finset.mul_sum]
    rw [Finset.sum_congr rfl fun a _ => Finset.sum_comm, Finset.sum_comm]
    refine Finset.sum_congr rfl fun k _ => Finset.sum_congr rfl fun a _ =>
      Finset.sum_congr rfl fun b _ => by ring
  have e' : ∀ k, ∑ a, ∑ b, c a * c b * boxChance d lo hi k (x a) (x b) =
      (∑ q : Fin k → Fin d, ∑ a, ∑ b, c a * c b *
        (if SameBox lo hi q (x a) (x b) then (1 : ℝ) else 0)) / Fintype.card (Fin k → Fin d) := by
    intro k
    simp only [boxChance, fraction_eq, expectation, mul_div_assoc', ← Finset.sum_div,
      Finset.mul_sum]
    rw [Finset.sum_congr rfl fun a _ => Finset.sum_comm, Finset.sum_comm]
  rw [e]
  refine Finset.sum_nonneg fun k _ => mul_nonneg (by positivity) ?_
  rw [e']
  refine div_nonneg (Finset.sum_nonneg fun q _ => ?_) (by positivity)
  exact equivalence_psd ⟨SameBox lo hi q, ⟨sameBox_refl _ _ _, sameBox_symm, sameBox_trans⟩⟩ c x

/-- A case that meets the hypotheses: two features, trees of depth 3, a window of 2. -/
example : ∃ score : (Fin 5 → Fin (2 ^ 3 - 1) → Fin 2) → ℝ,
    expectation score = -(5 * (boxKernel 2 [0, 0] [1, 4] 3 [0.5, 1] [0.25, 3] +
      boxKernel 2 [0, 0] [1, 4] 3 [0.5, 1] [2, 2])) := by
  obtain ⟨score, -, h, -⟩ := C154_hst_expected (β := Unit) 2 3 5 2 (by norm_num) (by norm_num)
    (by norm_num) [0, 0] [1, 4] rfl rfl (fun j => by
      match j with
      | 0 => simp [feature]
      | 1 => simp [feature]
      | j + 2 => simp [feature]) [.fit [0.25, 3] none, .fit [2, 2] none]
      (by simp [fitted]) [0.5, 1] rfl
  refine ⟨score, h.trans ?_⟩
  simp [fitted, referenceWindow]

/-- The similarity of instances in the same and in different halves, one feature, depth 1. -/
example : boxKernel 1 [0] [1] 1 [0.25] [0.75] = 1 ∧ boxKernel 1 [0] [1] 1 [0.125] [0.25] = 3 := by
  have h : ∀ q : Fin 1 → Fin 1, timesDrawn q 0 = 1 := fun q => by
    unfold timesDrawn
    rw [Finset.filter_true_of_mem fun i _ => Subsingleton.elim _ _]
    rfl
  have h0 : ∀ x y : List ℝ, boxChance 1 [0] [1] 0 x y = 1 := by
    intro x y
    apply fraction_true
    intro q j
    rw [show timesDrawn q j = 0 by simp [timesDrawn]]
    exact samePart_zero _ _ _ _
  have h1 : boxChance 1 [0] [1] 1 [0.25] [0.75] = 0 := by
    classical
    unfold boxChance
    rw [fraction_eq, Expect.congr (g := fun _ => (0 : ℝ)), Expect.const]
    intro q
    rw [if_neg]
    intro hs
    have := hs 0 1 one_pos (by rw [h q]; norm_num)
    rw [h q] at this
    norm_num [feature] at this
  have h2 : boxChance 1 [0] [1] 1 [0.125] [0.25] = 1 := by
    apply fraction_true
    intro q j m m1 m2
    obtain rfl : j = 0 := Subsingleton.elim _ _
    rw [h q] at m2 ⊢
    obtain rfl : m = 1 := by omega
    norm_num [feature]
  unfold boxKernel
  simp only [Finset.sum_range_succ, Finset.sum_range_zero, h0, h1, h2]
  norm_num

end Pysad
