import Verif.Spec.Basic

/-! List lemmas about `lastN`. -/

namespace Pysad

open Spec

variable {α : Type*}

@[simp] theorem lastN_nil (w : ℕ) : lastN w ([] : List α) = [] := by simp [lastN]

theorem lastN_length (w : ℕ) (l : List α) : (lastN w l).length = min w l.length := by
  simp only [lastN, List.length_drop]; omega

theorem lastN_of_le {w : ℕ} {l : List α} (h : l.length ≤ w) : lastN w l = l := by
  simp [lastN, Nat.sub_eq_zero_of_le h]

/-- Appending one item: append, then drop the oldest if there are too many. -/
theorem lastN_snoc (w : ℕ) (l : List α) (x : α) :
    lastN w (l ++ [x]) =
      if (lastN w l ++ [x]).length > w then (lastN w l ++ [x]).drop 1 else lastN w l ++ [x] := by
  have hlen : (lastN w l ++ [x]).length = min w l.length + 1 := by simp [lastN_length]
  split
  · rename_i h
    rw [hlen] at h
    rcases Nat.eq_zero_or_pos w with hw | hw
    · subst hw; simp [lastN]
    · have h1 : l.length + 1 - w ≤ l.length := by omega
      have h2 : l.length - w + 1 = l.length + 1 - w := by omega
      have h3 : 1 ≤ (lastN w l).length := by rw [lastN_length]; omega
      rw [List.drop_append_of_le_length h3]
      simp only [lastN, List.length_append, List.length_cons, List.length_nil, List.drop_drop, h2]
      rw [List.drop_append_of_le_length (by omega)]
  · rename_i h
    rw [hlen] at h
    have h1 : l.length + 1 ≤ w := by omega
    rw [lastN_of_le (by simpa using h1), lastN_of_le (by omega)]

theorem lastN_append_of_le {w : ℕ} {l r : List α} (h : w ≤ r.length) :
    lastN w (l ++ r) = lastN w r := by
  unfold lastN
  rw [List.length_append, List.drop_append]
  have : l.length + r.length - w - l.length = r.length - w := by omega
  rw [this, List.drop_eq_nil_of_le (by omega)]
  simp

theorem lastN_suffix (w : ℕ) (l : List α) : lastN w l <:+ l := List.drop_suffix _ _

theorem lastN_lastN_append (w : ℕ) (l r : List α) :
    lastN w (lastN w l ++ r) = lastN w (l ++ r) := by
  induction r using List.reverseRecOn with
  | nil => simp only [List.append_nil]; rw [lastN_of_le]; rw [lastN_length]; omega
  | append_singleton r x ih =>
    rw [← List.append_assoc, lastN_snoc, ih, ← List.append_assoc, lastN_snoc]

theorem mem_lastN_snoc {w : ℕ} (hw : 1 ≤ w) (l : List α) (x : α) : x ∈ lastN w (l ++ [x]) := by
  rw [lastN_snoc]
  split
  · rename_i h
    rw [List.length_append, lastN_length] at h
    have : 1 ≤ (lastN w l).length := by rw [lastN_length]; simp at h; omega
    rw [List.drop_append_of_le_length this]
    simp
  · simp

end Pysad
