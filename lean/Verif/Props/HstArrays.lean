import Verif.Model.HstArrays
import Verif.Spec.HalfSpaceTrees
import Mathlib.Tactic.Ring
import Mathlib.Tactic.FieldSimp
import Mathlib.Tactic.Linarith
import Mathlib.Algebra.Order.Floor.Ring
import Mathlib.Data.Rat.Floor

/-! **C119.** HalfSpaceTrees with bounds of integer type. -/

namespace Pysad

open Spec Hst

/-- The full claim of **C119**: the same bounds give the same trees, whether they are integers or
floats. -/
def C119_statement : Prop :=
  ∀ (randint : ℕ → ℕ → ℕ × ℕ) (mins maxes : List ℤ) (w n D g : ℕ),
    (newIntegers randint mins maxes w n D g : Except PyErr (HstState ℚ)) =
      Hst.new randint (mins.map (Int.cast : ℤ → ℚ)) (maxes.map (Int.cast : ℤ → ℚ)) w n D g

/-- **C119 is false**: with the bounds 0 and 1 and depth 2. -/
theorem C119_integers_refuted : ¬ C119_statement := by
  intro h
  have := h (fun g _ => (0, g)) [0] [1] 1 1 2 0
  revert this
  decide +kernel

variable {G K : Type*} [Field K] [LinearOrder K] [IsStrictOrderedRing K] [FloorRing K]

theorem truncate_int (n : ℤ) : truncate (n : K) = n := by
  unfold truncate; split <;> simp

/-- All ranges are multiples of `m`. -/
def Spec.RangesDivisible (m : ℤ) (mins maxes : List ℤ) : Prop :=
  ∀ (j : ℕ) (a b : ℤ), mins[j]? = some a → maxes[j]? = some b → m ∣ b - a

theorem build_integers (randint : G → ℕ → ℕ × G) (dims rem k : ℕ) (mins maxes : List ℤ)
    (h : RangesDivisible (2 ^ rem) mins maxes) (g : G) :
    buildStore (fun hi lo => (hi + lo) / 2) truncate randint dims rem k (mins.map (Int.cast : ℤ → K))
        (maxes.map (Int.cast : ℤ → K)) g =
      build randint dims rem k (mins.map (Int.cast : ℤ → K)) (maxes.map (Int.cast : ℤ → K)) g := by
  induction rem generalizing k mins maxes g with
  | zero => rfl
  | succ rem ih =>
    unfold buildStore build
    simp only [List.getElem?_map]
    cases hb : maxes[(randint g dims).1]? with
    | none => rfl
    | some b =>
      cases ha : mins[(randint g dims).1]? with
      | none => rfl
      | some a =>
        obtain ⟨c, hc⟩ := h _ a b ha hb
        have hp : ((b : K) + a) / 2 = ((a + 2 ^ rem * c : ℤ) : K) := by
          have : b = a + 2 ^ (rem + 1) * c := by linarith
          rw [this]; push_cast; ring
        have e1 : RangesDivisible (2 ^ rem) mins (maxes.set (randint g dims).1 (a + 2 ^ rem * c)) := by
          intro j a' b' ha' hb'
          rw [List.getElem?_set] at hb'
          split at hb'
          · rename_i hj
            subst hj
            split at hb'
            · cases hb'
              rw [ha] at ha'; cases ha'
              exact ⟨c, by ring⟩
            · cases hb'
          · exact (dvd_trans (pow_dvd_pow 2 (Nat.le_succ rem)) (h j a' b' ha' hb'))
        have e2 : RangesDivisible (2 ^ rem) (mins.set (randint g dims).1 (a + 2 ^ rem * c)) maxes := by
          intro j a' b' ha' hb'
          rw [List.getElem?_set] at ha'
          split at ha'
          · rename_i hj
            subst hj
            split at ha'
            · cases ha'
              rw [hb] at hb'; cases hb'
              exact ⟨c, by rw [pow_succ] at hc; linarith⟩
            · cases ha'
          · exact (dvd_trans (pow_dvd_pow 2 (Nat.le_succ rem)) (h j a' b' ha' hb'))
        simp only [Option.map_some, hp, truncate_int, ← List.map_set]
        rw [ih _ _ _ e1]
        simp only [ih _ _ _ e2]
        rfl

/-- **C119, what holds.** When the range of every feature is a multiple of `2 ^ max_depth`, the
trees are those built from floats. (Missing: all other integer bounds.) -/
theorem C119_integers_partial (randint : G → ℕ → ℕ × G) (mins maxes : List ℤ) (w n D : ℕ) (g : G)
    (h : RangesDivisible (2 ^ D) mins maxes) :
    (newIntegers randint mins maxes w n D g : Except PyErr (HstState K)) =
      Hst.new randint (mins.map (Int.cast : ℤ → K)) (maxes.map (Int.cast : ℤ → K)) w n D g := by
  have key : ∀ n (g : G), buildAllStore (fun hi lo => (hi + lo) / 2) truncate randint D (mins.map (Int.cast : ℤ → K))
      (maxes.map (Int.cast : ℤ → K)) n g = buildAll randint D (mins.map (Int.cast : ℤ → K))
      (maxes.map (Int.cast : ℤ → K)) n g := by
    intro n
    induction n with
    | zero => intro g; rfl
    | succ n ih =>
      intro g
      simp only [buildAllStore, buildAll, build_integers _ _ _ _ _ _ h, ih]
      rfl
  simp only [newIntegers, newStore, Hst.new, key]
  rfl

/-- The half of the range of one integer step is not a bound any more. -/
theorem truncate_middle (lo : ℤ) (h : 0 ≤ lo) :
    truncate ((((lo + 1 : ℤ) : K) + lo) / 2) = lo := by
  have h0 : (0 : K) ≤ lo := by exact_mod_cast h
  have h1 : (0 : K) ≤ (((lo + 1 : ℤ) : K) + lo) / 2 := by push_cast; linarith
  unfold truncate
  rw [if_pos h1]
  congr 1
  rw [Int.floor_eq_iff]
  push_cast
  constructor <;> linarith

theorem cells_point (randint : G → ℕ → ℕ × G) (hr : ∀ g, (randint g 1).1 = 0) (lo : ℤ) (D k : ℕ)
    (g g' : G) (t : HsTree K)
    (h : buildStore (fun hi lo => (hi + lo) / 2) truncate randint 1 D k [(lo : K)] [(lo : K)] g = .ok (t, g')) (x : K) :
    cell t D [x] = List.replicate D (decide ((lo : K) < x)) := by
  induction D generalizing k g g' t with
  | zero => cases h; rfl
  | succ D ih =>
    have e : ((lo : K) + lo) / 2 = lo := by ring
    simp only [buildStore, hr, one_ne_zero, if_false, List.getElem?_cons_zero, e, truncate_int,
      List.set_cons_zero] at h
    split at h
    · cases h
    · rename_i l g1 h1
      split at h
      · cases h
      · rename_i r g2 h2
        cases h
        simp only [cell, feature, List.getD_cons_zero, List.replicate_succ]
        split
        · rename_i hx; rw [ih _ _ _ _ h2]; simp [hx]
        · rename_i hx; rw [ih _ _ _ _ h1]; simp [hx]

/-- **C119, what goes wrong.** Between two neighbouring integers a tree tells three intervals apart,
however deep it is: one up to the lower integer, one up to the middle, one above it. (With floats
there are `2 ^ max_depth` cells, `C54_hst_halves`.) -/
theorem C119_collapse_partial (randint : G → ℕ → ℕ × G) (hr : ∀ g, (randint g 1).1 = 0) (lo : ℤ)
    (hlo : 0 ≤ lo) (w n D : ℕ) (g : G) (s : HstState K)
    (hs : newIntegers randint [lo] [lo + 1] w n D g = .ok s) (t : HsTree K) (ht : t ∈ s.roots)
    (x y : K) (h1 : x ≤ lo ↔ y ≤ lo) (h2 : x ≤ lo + 1 / 2 ↔ y ≤ lo + 1 / 2) :
    cell t D [x] = cell t D [y] := by
  have key : ∀ (D k : ℕ) (g g' : G) (t : HsTree K),
      buildStore (fun hi lo => (hi + lo) / 2) truncate randint 1 D k [(lo : K)] [((lo + 1 : ℤ) : K)] g = .ok (t, g') →
      cell t D [x] = cell t D [y] := by
    intro D
    induction D with
    | zero => intro k g g' t h; cases h; rfl
    | succ D ih =>
      intro k g g' t h
      simp only [buildStore, hr, one_ne_zero, if_false, List.getElem?_cons_zero,
        truncate_middle lo hlo, List.set_cons_zero] at h
      split at h
      · cases h
      · rename_i l g1 e1
        split at h
        · cases h
        · rename_i r g2 e2
          cases h
          have hp : (((lo + 1 : ℤ) : K) + lo) / 2 = lo + 1 / 2 := by push_cast; ring
          simp only [cell, feature, List.getD_cons_zero, hp]
          by_cases hx : x ≤ lo + 1 / 2
          · rw [if_neg (not_lt.2 hx), if_neg (not_lt.2 (h2.1 hx)),
              cells_point randint hr lo _ _ _ _ _ e1, cells_point randint hr lo _ _ _ _ _ e1]
            have : decide ((lo : K) < x) = decide ((lo : K) < y) := by
              rw [decide_eq_decide, ← not_le, ← not_le, h1]
            rw [this]
          · rw [if_pos (not_le.1 hx), if_pos (not_le.1 fun h => hx (h2.2 h)), ih _ _ _ _ e2]
  have all : ∀ (n : ℕ) (g g' : G) (ts : List (HsTree K)),
      buildAllStore (fun hi lo => (hi + lo) / 2) truncate randint D [(lo : K)] [((lo + 1 : ℤ) : K)] n g = .ok (ts, g') →
      ∀ t ∈ ts, cell t D [x] = cell t D [y] := by
    intro n
    induction n with
    | zero => intro g g' ts h; cases h; simp
    | succ n ih =>
      intro g g' ts h
      simp only [buildAllStore, List.length_singleton] at h
      split at h
      · cases h
      · rename_i t1 g1 e1
        split at h
        · cases h
        · rename_i ts1 g2 e2
          cases h
          intro t ht
          rcases List.mem_cons.1 ht with rfl | ht
          · exact key _ _ _ _ _ e1
          · exact ih _ _ _ e2 t ht
  unfold newIntegers newStore at hs
  simp only [List.map_cons, List.map_nil] at hs
  split at hs
  · cases hs
  · rename_i ts g1 e1
    cases hs
    exact all _ _ _ _ e1 t ht

/-- Bounds 0 and 8 with depth 3 meet the hypothesis of `C119_integers_partial`. -/
example : RangesDivisible (2 ^ 3) [0, -8] [8, 24] := by
  intro j a b ha hb
  match j, ha, hb with
  | 0, ha, hb => cases ha; cases hb; decide
  | 1, ha, hb => cases ha; cases hb; decide
  | _ + 2, ha, _ => simp at ha

/-- Depth 2 over 0 and 1: 0.6 and 0.9 share all cells, with floats they do not. -/
example :
    ((newIntegers (fun g _ => (0, g)) [0] [1] 1 1 2 (0 : ℕ) : Except PyErr (HstState ℚ)).map
      fun s => s.roots.map fun t => (cell t 2 [6 / 10], cell t 2 [9 / 10]))
      = .ok [([true, true], [true, true])] ∧
    ((Hst.new (fun g _ => (0, g)) [0] [1] 1 1 2 (0 : ℕ) : Except PyErr (HstState ℚ)).map
      fun s => s.roots.map fun t => (cell t 2 [6 / 10], cell t 2 [9 / 10]))
      = .ok [([true, false], [true, true])] := by
  decide +kernel

end Pysad
