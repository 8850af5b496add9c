import Verif.Model.HstArrays
import Verif.Props.HalfSpaceTrees
import Verif.Props.FloatOrder

/-! **C120.** The scores of HalfSpaceTrees in doubles. -/

namespace Pysad

open Spec Hst

variable {β : Type*}

theorem F64.natCast_int (n : ℕ) (h : n ≤ 2 ^ 53) : ((n : ℕ) : F64) = F64.int n := by
  show F64.of _ = _
  unfold F64.of F64.int
  have := roundF64_int (n : ℤ) (by simpa using h)
  simpa using this

theorem scoreTreeF64_exact (x : List ℚ) (t : HsTree ℚ) (v : ℚ) (h : scoreTree x t = .ok v) :
    ∃ n : ℕ, v = n ∧ (n ≤ 2 ^ 53 → scoreTreeF64 x t = .ok (F64.int n)) := by
  induction t generalizing v with
  | nil => cases h; exact ⟨0, by simp, fun _ => by simp [scoreTreeF64, F64.int]; rfl⟩
  | node l r rm lm q p k ihl ihr =>
    unfold scoreTree at h
    unfold scoreTreeF64
    cases hq : x[q]? with
    | none => rw [hq] at h; cases h
    | some y =>
      rw [hq] at h
      have key : ∀ (a : Except PyErr ℚ) (b : Except PyErr F64),
          (∀ v, a = .ok v → ∃ n : ℕ, v = n ∧ (n ≤ 2 ^ 53 → b = .ok (F64.int n))) →
          (a.map fun s => (rm : ℚ) * 2 ^ k + s) = .ok v →
          ∃ n : ℕ, v = n ∧ (n ≤ 2 ^ 53 →
            (b.map fun s => ((rm * 2 ^ k : ℕ) : F64) + s) = .ok (F64.int n)) := by
        intro a b ih h
        cases a with
        | error e => cases h
        | ok s =>
          cases h
          obtain ⟨n, rfl, hn⟩ := ih s rfl
          refine ⟨rm * 2 ^ k + n, by push_cast; rfl, fun hle => ?_⟩
          rw [hn (by omega)]
          simp only [Except.map]
          rw [F64.natCast_int _ (by omega), F64.int_add]
          · push_cast; rfl
          · omega
      by_cases hp : p < y
      · simp only [hp, if_true] at h ⊢
        exact key _ _ ihr h
      · simp only [hp, if_false] at h ⊢
        exact key _ _ ihl h

theorem foldlM_F64_exact (x : List ℚ) (ts : List (HsTree ℚ)) (a : ℕ) (v : ℚ)
    (h : ts.foldlM (fun acc t => (scoreTree x t).map (acc + ·)) (a : ℚ) = .ok v) :
    ∃ n : ℕ, v = n ∧ a ≤ n ∧ (n ≤ 2 ^ 53 →
      ts.foldlM (fun acc t => (scoreTreeF64 x t).map (acc + ·)) (F64.int a) = .ok (F64.int n)) := by
  induction ts generalizing a with
  | nil => cases h; exact ⟨a, rfl, le_rfl, fun _ => rfl⟩
  | cons t ts ih =>
    rw [List.foldlM_cons] at h
    cases h1 : scoreTree x t with
    | error e => rw [h1] at h; cases h
    | ok s =>
      rw [h1] at h
      obtain ⟨m, rfl, hm⟩ := scoreTreeF64_exact x t s h1
      obtain ⟨n, rfl, hle, hn⟩ := ih (a + m) (by push_cast; exact h)
      refine ⟨n, rfl, by omega, fun hb => ?_⟩
      rw [List.foldlM_cons, hm (by omega)]
      have : F64.int a + F64.int m = F64.int ((a + m : ℕ) : ℤ) := by
        rw [F64.int_add]
        · push_cast; rfl
        · omega
      have hn' := hn hb
      rw [← this] at hn'
      exact hn'

theorem calls_detectorF64 (s : HstState ℚ) (cs : List (Call (List ℚ) β)) :
    (calls (detectorF64 β) s cs).2 = (calls (Hst.detector ℚ β) s cs).2 := by
  induction cs generalizing s with
  | nil => rfl
  | cons c cs ih =>
    simp only [calls]
    rw [ih]
    congr 1
    cases c with
    | fit x y =>
      have h : (call (detectorF64 β) s (.fit x y)).2 = (call (Hst.detector ℚ β) s (.fit x y)).2 := by
        simp only [call, detectorF64, Hst.detector]
        cases Hst.fitPartial s x <;> rfl
      rw [h]
    | score x =>
      have h1 : (call (detectorF64 β) s (.score x)).2 = s := by
        simp only [call, detectorF64, scorePartialF64]
        split <;> rename_i heq <;> split at heq <;> cases heq <;> rfl
      have h2 : (call (Hst.detector ℚ β) s (.score x)).2 = s := by
        simp only [call, Hst.detector, Hst.scorePartial]
        split <;> rename_i heq <;> split at heq <;> cases heq <;> rfl
      rw [h1, h2]

theorem buildStore_spec {G : Type*} (mid : ℚ → ℚ → ℚ) (store : ℚ → ℚ) (randint : G → ℕ → ℕ × G)
    (dims : ℕ) (hr : ∀ g, 1 ≤ dims → (randint g dims).1 < dims) :
    ∀ (rem k : ℕ) (lo hi : List ℚ) (g : G) (t : HsTree ℚ) (g' : G),
      buildStore mid store randint dims rem k lo hi g = .ok (t, g') →
      Complete dims rem k t ∧ Massless t := by
  intro rem
  induction rem with
  | zero =>
    intro k lo hi g t g' h
    cases h
    exact ⟨⟨rfl, rfl, rfl, rfl⟩, massless_node massless_nil massless_nil _ _ _⟩
  | succ rem ih =>
    intro k lo hi g t g' h
    unfold buildStore at h
    by_cases h0 : dims = 0
    · rw [if_pos h0] at h; cases h
    rw [if_neg h0] at h
    have hq := hr g (by omega)
    simp only at h
    split at h
    · split at h
      · cases h
      · rename_i l g1 h1
        split at h
        · cases h
        · rename_i r g2 h2
          cases h
          obtain ⟨c1, m1⟩ := ih _ _ _ _ _ _ h1
          obtain ⟨c2, m2⟩ := ih _ _ _ _ _ _ h2
          exact ⟨⟨rfl, hq, c1, c2⟩, massless_node m1 m2 _ _ _⟩
    · cases h

theorem newF64_spec {G : Type*} (randint : G → ℕ → ℕ × G) (hr : InRange randint)
    (mins maxes : List F64) (w n D : ℕ) (g : G) (s : HstState ℚ)
    (h : newF64 randint mins maxes w n D g = .ok s) :
    ∃ ts, s = ⟨w, D, ts, true, 0⟩ ∧ ts.length = n ∧ FreshTrees maxes.length D ts := by
  have all : ∀ (mid : ℚ → ℚ → ℚ) (store : ℚ → ℚ) (mins maxes : List ℚ) (n : ℕ) (g g' : G) (ts : List (HsTree ℚ)),
      buildAllStore mid store randint D mins maxes n g = .ok (ts, g') →
      ts.length = n ∧ FreshTrees maxes.length D ts := by
    intro mid store mins maxes n
    induction n with
    | zero => intro g g' ts h; cases h; exact ⟨rfl, fun t ht => absurd ht (by simp)⟩
    | succ n ih =>
      intro g g' ts h
      unfold buildAllStore at h
      split at h
      · cases h
      · rename_i t1 g1 e1
        split at h
        · cases h
        · rename_i ts1 g2 e2
          cases h
          obtain ⟨i1, i2⟩ := ih _ _ _ e2
          refine ⟨by simp [i1], ?_⟩
          intro t ht
          rcases List.mem_cons.1 ht with rfl | ht
          · exact buildStore_spec _ _ _ _ (fun g => hr g _) _ _ _ _ _ _ _ e1
          · exact i2 t ht
  unfold newF64 newStore at h
  split at h
  · cases h
  · rename_i ts g1 e1
    cases h
    obtain ⟨e2, e3⟩ := all _ _ _ _ _ _ _ _ e1
    exact ⟨ts, rfl, e2, by simpa using e3⟩

/-- **C120.** As long as `num_trees * window_size * (2 ^ (max_depth + 1) - 1)` is at most `2 ^ 53`,
the score computed in doubles is, after any history, exactly minus the sum over the trees and the
depths `j` of `2 ^ j` times the number of instances of the reference window in the same depth-`j`
cell: nothing is lost to rounding, and the order of the trees does not matter. (The cells are
those of the trees as built in doubles.) -/
theorem C120_hst_exact {G : Type*} (randint : G → ℕ → ℕ × G) (hr : InRange randint)
    (mins maxes : List F64) (hd : 1 ≤ maxes.length) (w n D : ℕ) (hw : 1 ≤ w)
    (hsmall : n * w * (2 ^ (D + 1) - 1) ≤ 2 ^ 53) (g : G) (s0 : HstState ℚ)
    (h0 : newF64 randint mins maxes w n D g = .ok s0) (cs : List (Call (List ℚ) β))
    (hX : ∀ x ∈ fitted cs, x.length = maxes.length) (x : List ℚ) (hx : x.length = maxes.length) :
    ((detectorF64 β).scorePartial (calls (detectorF64 β) s0 cs).2 x).out =
      .ok (F64.int (-((s0.roots.map fun t => ((List.range (D + 1)).map fun j =>
        neighbours t j (referenceWindow w (fitted cs)) x * 2 ^ j).sum).sum : ℕ))) := by
  obtain ⟨ts, rfl, hlen, hf⟩ := newF64_spec randint hr mins maxes w n D g s0 h0
  have hi := hst_inv (β := β) maxes.length w D hw ts hf cs (fun x h => (hX x h).ge)
  rw [calls_detectorF64]
  have hex := foldlM_scoreTree maxes.length hd x hx.ge D (referenceWindow w (fitted cs))
    (currentWindow w (fitted cs)) ts (fun t h => (hf t h).1) (0 : ℚ)
  rw [← hi.2.2.2.2] at hex
  set N : ℕ := (ts.map fun t => ((List.range (D + 1)).map fun j =>
        neighbours t j (referenceWindow w (fitted cs)) x * 2 ^ j).sum).sum with hN
  have hNle : N ≤ 2 ^ 53 := by
    refine le_trans ?_ hsmall
    have h2 : ∀ D : ℕ, ((List.range (D + 1)).map fun j => 2 ^ j).sum = 2 ^ (D + 1) - 1 := by
      intro D
      induction D with
      | zero => rfl
      | succ D ih =>
        rw [List.range_succ, List.map_append, List.sum_append, ih]
        have := Nat.one_le_two_pow (n := D + 1)
        simp [pow_succ]; omega
    have hb : ∀ y ∈ ts.map (fun t => ((List.range (D + 1)).map fun j =>
        neighbours t j (referenceWindow w (fitted cs)) x * 2 ^ j).sum), y ≤ w * (2 ^ (D + 1) - 1) := by
      intro y hy
      obtain ⟨t, -, rfl⟩ := List.mem_map.1 hy
      rw [← h2, ← List.sum_map_mul_left]
      apply List.sum_le_sum
      intro j _
      exact Nat.mul_le_mul_right _ ((neighbours_le t j _ x).trans (referenceWindow_length_le w _))
    have := List.sum_le_card_nsmul _ _ hb
    rw [List.length_map, hlen, smul_eq_mul, ← mul_assoc] at this
    exact this
  obtain ⟨m, hm, -, hm2⟩ := foldlM_F64_exact x _ 0 _ (by simpa using hex)
  have hmN : m = N := by
    have : (m : ℚ) = N := by rw [← hm, hN]; push_cast; simp [Function.comp_def]
    exact_mod_cast this
  subst hmN
  have := hm2 hNle
  have h00 : F64.int ((0 : ℕ) : ℤ) = (0 : F64) := by simp [F64.int]; rfl
  rw [h00] at this
  simp only [detectorF64, scorePartialF64, this, Res.out_ok]
  simp [F64.int]

/-! ### The splits -/

/-- Every split of the tree is the middle of the node's box in the chosen feature, rounded. -/
def RoundedHalves : ℕ → List ℚ → List ℚ → HsTree ℚ → Prop
  | _, _, _, .nil => False
  | 0, _, _, .node _ _ _ _ _ _ _ => True
  | rem + 1, lo, hi, .node left right _ _ q p _ =>
    (∃ a b, lo[q]? = some a ∧ hi[q]? = some b ∧ p = roundF64 ((a + b) / 2)) ∧
    RoundedHalves rem lo (hi.set q p) left ∧ RoundedHalves rem (lo.set q p) hi right

/-- Adding and halving round only once. -/
theorem mid_rounded (hi lo : ℚ) :
    (((⟨hi⟩ : F64) + ⟨lo⟩) / ⟨2⟩).val = roundF64 ((lo + hi) / 2) := by
  rw [F64.div_val]
  show roundF64 (roundF64 (hi + lo) / 2) = _
  rw [roundF64_half, roundF64_half, roundF64_double (isDouble_roundF64 _), add_comm hi lo]

theorem buildStore_halves {G : Type*} (randint : G → ℕ → ℕ × G) (dims : ℕ) :
    ∀ (rem k : ℕ) (lo hi : List ℚ) (g : G) (t : HsTree ℚ) (g' : G),
      buildStore (fun hi lo => (((⟨hi⟩ : F64) + ⟨lo⟩) / ⟨2⟩).val) id randint dims rem k lo hi g
        = .ok (t, g') → RoundedHalves rem lo hi t := by
  intro rem
  simp only [mid_rounded]
  induction rem with
  | zero =>
    intro k lo hi g t g' h
    cases h
    trivial
  | succ rem ih =>
    intro k lo hi g t g' h
    unfold buildStore at h
    by_cases h0 : dims = 0
    · rw [if_pos h0] at h; cases h
    rw [if_neg h0] at h
    simp only [id_eq] at h
    split at h
    · rename_i b a hb ha
      split at h
      · cases h
      · rename_i l g1 h1
        split at h
        · cases h
        · rename_i r g2 h2
          cases h
          exact ⟨⟨a, b, ha, hb, rfl⟩, ih _ _ _ _ _ _ h1, ih _ _ _ _ _ _ h2⟩
    · cases h

theorem newF64_halves {G : Type*} (randint : G → ℕ → ℕ × G) (mins maxes : List F64) (w n D : ℕ)
    (g : G) (s : HstState ℚ) (h : newF64 randint mins maxes w n D g = .ok s) :
    ∀ t ∈ s.roots, RoundedHalves D (mins.map F64.val) (maxes.map F64.val) t := by
  have all : ∀ (mins maxes : List ℚ) (n : ℕ) (g g' : G) (ts : List (HsTree ℚ)),
      buildAllStore (fun hi lo => (((⟨hi⟩ : F64) + ⟨lo⟩) / ⟨2⟩).val) id randint D mins maxes n g
        = .ok (ts, g') → ∀ t ∈ ts, RoundedHalves D mins maxes t := by
    intro mins maxes n
    induction n with
    | zero => intro g g' ts h; cases h; simp
    | succ n ih =>
      intro g g' ts h
      unfold buildAllStore at h
      split at h
      · cases h
      · rename_i t1 g1 e1
        split at h
        · cases h
        · rename_i ts1 g2 e2
          cases h
          intro t ht
          rcases List.mem_cons.1 ht with rfl | ht
          · exact buildStore_halves _ _ _ _ _ _ _ _ _ e1
          · exact ih _ _ _ e2 t ht
  unfold newF64 newStore at h
  split at h
  · cases h
  · rename_i ts g1 e1
    cases h
    exact all _ _ _ _ _ _ e1

theorem mem_set_double {l : List ℚ} (hl : ∀ v ∈ l, IsDouble v) (q : ℕ) (x : ℚ) :
    ∀ v ∈ l.set q (roundF64 x), IsDouble v := by
  intro v hv
  rcases List.mem_or_eq_of_mem_set hv with h | rfl
  · exact hl v h
  · exact isDouble_roundF64 x

theorem rounded_between {a b : ℚ} (ha : IsDouble a) (hb : IsDouble b) (h : a ≤ b) :
    a ≤ roundF64 ((a + b) / 2) ∧ roundF64 ((a + b) / 2) ≤ b := by
  refine ⟨?_, roundF64_le hb (by linarith)⟩
  have := roundF64_mono (q := a) (r := (a + b) / 2) (by linarith)
  rwa [roundF64_double ha] at this

theorem roundedHalves_boxes :
    ∀ (rem : ℕ) (lo hi : List ℚ) (t : HsTree ℚ), RoundedHalves rem lo hi t → BoundsOk lo hi →
      (∀ v ∈ lo, IsDouble v) → (∀ v ∈ hi, IsDouble v) →
      ∀ a : List Bool, a.length ≤ rem →
      SubBox (boxAt t lo hi a).1 (boxAt t lo hi a).2 lo hi ∧
      (a.length < rem → ∃ l r rm lm q p k, nodeAt t a = .node l r rm lm q p k ∧
        ∃ u v, (boxAt t lo hi a).1[q]? = some u ∧ (boxAt t lo hi a).2[q]? = some v ∧
          p = roundF64 ((u + v) / 2)) := by
  intro rem
  have hself : ∀ lo hi : List ℚ, BoundsOk lo hi → SubBox lo hi lo hi := by
    intro lo hi hb j u v u' v' h1 h2 h3 h4
    rw [h1] at h3; cases h3
    rw [h2] at h4; cases h4
    exact ⟨le_rfl, hb.2 j _ _ h1 h2, le_rfl⟩
  induction rem with
  | zero =>
    intro lo hi t ht hb _ _ a ha
    have : a = [] := List.length_eq_zero_iff.1 (by omega)
    subst this
    match t, ht with
    | .node l r rm lm q p k, _ => exact ⟨hself _ _ hb, by simp⟩
  | succ rem ih =>
    intro lo hi t ht hb hlo hhi a ha
    match t, ht with
    | .node l r rm lm q p k, ht =>
      obtain ⟨⟨u, v, hu, hv, rfl⟩, hl, hr⟩ := ht
      have hm := rounded_between (hlo u (List.mem_of_getElem? hu)) (hhi v (List.mem_of_getElem? hv))
        (hb.2 _ _ _ hu hv)
      match a with
      | [] => exact ⟨hself _ _ hb, fun _ => ⟨l, r, rm, lm, q, _, k, rfl, u, v, hu, hv, rfl⟩⟩
      | true :: a =>
        have hb' : BoundsOk (lo.set q (roundF64 ((u + v) / 2))) hi := by
          refine ⟨by simp [hb.1], fun j c d hc hd => ?_⟩
          rcases getElem?_set_of hc with ⟨rfl, rfl⟩ | ⟨-, hc⟩
          · rw [hv] at hd; cases hd; exact hm.2
          · exact hb.2 j c d hc hd
        obtain ⟨e2, e3⟩ := ih _ _ r hr hb' (mem_set_double hlo _ _) hhi a (by simpa using ha)
        simp only [boxAt, if_true, nodeAt, List.length_cons, Nat.add_lt_add_iff_right]
        refine ⟨?_, e3⟩
        intro j c d c' d' h1 h2 h3 h4
        by_cases hj : j = q
        · subst hj
          have hset : (lo.set j (roundF64 ((u + v) / 2)))[j]? = some (roundF64 ((u + v) / 2)) := by
            rw [List.getElem?_set_self]
            exact (List.getElem?_eq_some_iff.1 hu).1
          have := e2 j _ _ _ _ hset h2 h3 h4
          rw [hu] at h1; cases h1
          exact ⟨hm.1.trans this.1, this.2⟩
        · exact e2 j _ _ _ _ (by rw [List.getElem?_set_ne (fun h => hj h.symm)]; exact h1) h2 h3 h4
      | false :: a =>
        have hb' : BoundsOk lo (hi.set q (roundF64 ((u + v) / 2))) := by
          refine ⟨by simp [hb.1], fun j c d hc hd => ?_⟩
          rcases getElem?_set_of hd with ⟨rfl, rfl⟩ | ⟨-, hd⟩
          · rw [hu] at hc; cases hc; exact hm.1
          · exact hb.2 j c d hc hd
        obtain ⟨e2, e3⟩ := ih _ _ l hl hb' hlo (mem_set_double hhi _ _) a (by simpa using ha)
        simp only [boxAt, nodeAt, List.length_cons, Nat.add_lt_add_iff_right, Bool.false_eq_true,
          if_false]
        refine ⟨?_, e3⟩
        intro j c d c' d' h1 h2 h3 h4
        by_cases hj : j = q
        · subst hj
          have hset : (hi.set j (roundF64 ((u + v) / 2)))[j]? = some (roundF64 ((u + v) / 2)) := by
            rw [List.getElem?_set_self]
            exact (List.getElem?_eq_some_iff.1 hv).1
          have := e2 j _ _ _ _ h1 hset h3 h4
          rw [hv] at h2; cases h2
          exact ⟨this.1, this.2.1, this.2.2.trans hm.2⟩
        · exact e2 j _ _ _ _ h1 (by rw [List.getElem?_set_ne (fun h => hj h.symm)]; exact h2) h3 h4

/-- **C120 (splits).** When the feature bounds are doubles, the box of every node lies inside them
although its splits are rounded, and the node splits it at the middle of the chosen feature,
rounded once. -/
theorem C120_hst_splits {G : Type*} (randint : G → ℕ → ℕ × G) (mins maxes : List F64)
    (hb : BoundsOk (mins.map F64.val) (maxes.map F64.val)) (hmin : ∀ v ∈ mins, IsDouble v.val)
    (hmax : ∀ v ∈ maxes, IsDouble v.val) (w n D : ℕ) (g : G) (s : HstState ℚ)
    (h : newF64 randint mins maxes w n D g = .ok s) (t : HsTree ℚ) (ht : t ∈ s.roots)
    (a : List Bool) (ha : a.length ≤ D) :
    let box := boxAt t (mins.map F64.val) (maxes.map F64.val) a
    SubBox box.1 box.2 (mins.map F64.val) (maxes.map F64.val) ∧
    (a.length < D → ∃ l r rm lm q p k, nodeAt t a = .node l r rm lm q p k ∧
      ∃ u v, box.1[q]? = some u ∧ box.2[q]? = some v ∧ p = roundF64 ((u + v) / 2)) :=
  roundedHalves_boxes D _ _ t (newF64_halves randint mins maxes w n D g s h t ht) hb
    (by simpa using hmin) (by simpa using hmax) a ha

/-- The middle of 1 and the next double is not a double: it is rounded to 1. -/
example : ((newF64 (fun g _ => (0, g)) [⟨1⟩] [⟨1 + 1 / 2 ^ 52⟩] 3 1 1 (0 : ℕ)).toOption.map fun s =>
    s.roots.map fun t => match t with | .node _ _ _ _ _ p _ => p | .nil => 0) = some [1] := by
  decide +kernel

/-- One tree of depth 1 over [0, 1] and the window `[0.3, 0.7], [0.3]`: 0.4 shares the root with
all three and its half with two. -/
example : ((newF64 (fun g _ => (0, g)) [F64.of 0] [F64.of 1] 3 1 1 (0 : ℕ)).toOption.map fun s =>
    (((detectorF64 Unit).scorePartial (calls (detectorF64 Unit) s
      [.fit [3 / 10] none, .fit [7 / 10] none, .fit [3 / 10] none]).2 [4 / 10]).out))
    = some (.ok (F64.int (-7))) := by
  decide +kernel

/-- The default parameters of the class meet the bound. -/
example : 25 * 100 * (2 ^ (15 + 1) - 1) ≤ 2 ^ 53 := by norm_num

end Pysad
