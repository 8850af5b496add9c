import Verif.Spec.KitNet
import Mathlib.Tactic.Ring
import Mathlib.Tactic.Linarith

/-! The vectors and the condensed distances of `KitNet`, as its specification sees them. -/

namespace Pysad

open Spec

section
variable {K : Type*} [Field K] [LinearOrder K] {n : ℕ}

theorem flatMap_getElem? {α β : Type*} (f : α → List β) :
    ∀ (l : List α) (i k : ℕ) (hi : i < l.length), k < (f l[i]).length →
      (l.flatMap f)[((l.take i).map fun a => (f a).length).sum + k]? = (f l[i])[k]? := by
  intro l
  induction l with
  | nil => intro i k hi; exact absurd hi (Nat.not_lt_zero _)
  | cons a l ih =>
    intro i k hi hk
    cases i with
    | zero =>
      simp only [List.take_zero, List.map_nil, List.sum_nil, Nat.zero_add, List.flatMap_cons,
        List.getElem_cons_zero] at hk ⊢
      rw [List.getElem?_append_left hk]
    | succ i =>
      simp only [List.take_succ_cons, List.map_cons, List.sum_cons, List.flatMap_cons,
        List.getElem_cons_succ] at hk ⊢
      rw [List.getElem?_append_right (by omega), ← ih i k (by simpa using hi) hk]
      congr 1
      omega

theorem filter_lt_finRange (i : Fin n) :
    (List.finRange n).filter (fun j => decide (i < j)) = (List.finRange n).drop (i + 1) := by
  conv_lhs => rw [← List.take_append_drop (i.val + 1) (List.finRange n)]
  rw [List.filter_append, List.filter_eq_nil_iff.2, List.filter_eq_self.2, List.nil_append]
  · intro j hj
    obtain ⟨k, hk, rfl⟩ := List.mem_iff_getElem.1 hj
    simp only [List.getElem_drop, List.getElem_finRange, decide_eq_true_eq, Fin.lt_def,
      Fin.val_cast]
    omega
  · intro j hj
    obtain ⟨k, hk, rfl⟩ := List.mem_iff_getElem.1 hj
    rw [List.length_take] at hk
    simp only [List.getElem_take, List.getElem_finRange, decide_eq_true_eq, Fin.lt_def,
      Fin.val_cast]
    omega

omit [Field K] [LinearOrder K] in
theorem condensed_row (D : Fin n → Fin n → K) (i : Fin n) :
    (((List.finRange n).filter fun j => decide (i < j)).map (D i)).length = n - (i + 1) := by
  rw [filter_lt_finRange]; simp

theorem rows_sum (n i : ℕ) (hi : i ≤ n) :
    2 * (((List.finRange n).take i).map fun a : Fin n => n - (a.val + 1)).sum + i * (i + 1)
      = 2 * (n * i) := by
  induction i with
  | zero => simp
  | succ i ih =>
    have := ih (by omega)
    rw [List.take_add_one, List.map_append, List.sum_append]
    have h : (List.finRange n)[i]? = some ⟨i, hi⟩ := by
      rw [List.getElem?_eq_getElem (by rw [List.length_finRange]; omega)]
      simp
    rw [h]
    simp only [Option.toList_some, List.map_cons, List.map_nil, List.sum_cons, List.sum_nil]
    obtain ⟨m, rfl⟩ := Nat.exists_eq_add_of_le hi
    have e : i + 1 + m - (i + 1) = m := by omega
    rw [e]
    nlinarith

omit [Field K] [LinearOrder K] in
theorem condensed_length (D : Fin n → Fin n → K) :
    2 * (CorClust.condensed D).length = n * (n - 1) := by
  unfold CorClust.condensed
  rw [List.length_flatMap]
  simp only [condensed_row]
  have h := rows_sum n n le_rfl
  rw [List.take_of_length_le (by simp)] at h
  cases n with
  | zero => simp
  | succ m => rw [Nat.add_sub_cancel]; nlinarith

omit [Field K] [LinearOrder K] in
theorem condensed_get (D : Fin n → Fin n → K) (i j : Fin n) (hij : i < j) :
    (CorClust.condensed D)[pairIndex n i j]? = some (D i j) := by
  have hij' : i.val < j.val := hij
  have hj := j.isLt
  have h := rows_sum n i i.isLt.le
  have h2 : (i.val + 2) * (i.val + 1) / 2 = i + 1 + i * (i + 1) / 2 := by
    rw [show (i.val + 2) * (i.val + 1) = i * (i + 1) + (i + 1) * 2 by ring,
      Nat.add_mul_div_right _ _ (by norm_num)]
    omega
  have h3 : 2 ∣ i.val * (i + 1) := (Nat.even_mul_succ_self i.val).two_dvd
  obtain ⟨c, hc⟩ := h3
  have hidx : pairIndex n i j = ((((List.finRange n).take i.val).map fun a : Fin n =>
      (((List.finRange n).filter fun b => decide (a < b)).map (D a)).length).sum
        + (j.val - (i + 1))) := by
    simp only [condensed_row]
    unfold pairIndex
    rw [h2, hc]
    rw [hc] at h
    rw [Nat.mul_div_cancel_left _ (by norm_num)]
    omega
  have hget : (List.finRange n)[i.val]'(by simp) = i := by simp
  have hk : j.val - (i + 1) < (((List.finRange n).filter fun b => decide
      ((List.finRange n)[i.val]'(by simp) < b)).map
        (D ((List.finRange n)[i.val]'(by simp)))).length := by
    rw [condensed_row, hget]; omega
  rw [hidx]
  unfold CorClust.condensed
  rw [flatMap_getElem?
    (fun a : Fin n => ((List.finRange n).filter fun b => decide (a < b)).map (D a)) (List.finRange n) i.val _ (by simp) hk]
  simp only [hget]
  rw [filter_lt_finRange, List.getElem?_map, List.getElem?_drop,
    List.getElem?_eq_getElem (by simp; omega)]
  simp only [List.getElem_finRange, Option.map_some]
  congr 2
  ext
  simp
  omega

omit [LinearOrder K] in
theorem ofList_eq (l : List K) : Da.ofList l = vectorOf l := by
  funext i
  unfold Da.ofList vectorOf
  split
  · rename_i h; rw [List.getD_eq_getElem?_getD, List.getElem?_eq_getElem h, Option.getD_some]
  · rename_i h
    rw [List.getD_eq_getElem?_getD, List.getElem?_eq_none (not_lt.1 h), Option.getD_none]

omit [LinearOrder K] in
theorem part_eq (x : Fin n → K) (idx : List (Fin n)) : KitNET.part x idx = featuresOf x idx := by
  unfold KitNET.part
  rw [ofList_eq]
  funext i
  unfold vectorOf featuresOf
  simp

theorem executeNums_eq (env : KnEnv K) (s : DaState K) (l : List (Num K))
    (h : ∀ e ∈ l, e = .nan ∨ ∃ r, e = .fin r) :
    Da.executeNums env s l = if .nan ∈ l then .nan
      else Da.execute env s (vectorOf (l.filterMap fun | .fin e => some e | _ => none)) := by
  have key : ∀ l : List (Num K), (∀ e ∈ l, e = .nan ∨ ∃ r, e = .fin r) →
      l.mapM Da.finite? = if .nan ∈ l then none
        else some (l.filterMap fun | .fin e => some e | _ => none) := by
    intro l
    induction l with
    | nil => intro _; rfl
    | cons a l ih =>
      intro h
      rw [List.mapM_cons, ih fun e he => h e (by simp [he])]
      rcases h a (by simp) with rfl | ⟨r, rfl⟩
      · simp [Da.finite?]
      · by_cases hl : Num.nan ∈ l
        · simp [Da.finite?, hl]
        · simp [Da.finite?, hl]
  unfold Da.executeNums
  rw [key l h]
  split <;> rename_i heq <;> split at heq
  · rename_i h1; rw [if_pos h1]
  · cases heq
  · cases heq
  · rename_i h1; cases heq; rw [if_neg h1, ofList_eq]

end

end Pysad
