import Verif.Spec.KitNet
import Verif.Proofs.KitNetVectors
import Mathlib.Algebra.BigOperators.Fin
import Mathlib.Tactic.Ring

/-! Lemmas about the correlation distances of `KitNet`. -/

namespace Pysad

open Spec

section
variable {K : Type*} [Field K] {n : ℕ}

theorem runningDeviation_snoc (xs : List (Fin n → K)) (x : Fin n → K) (i : Fin n) {t : ℕ}
    (ht : t < xs.length) : runningDeviation (xs ++ [x]) i t = runningDeviation xs i t := by
  unfold runningDeviation
  rw [List.take_append_of_le_length (by omega), List.map_append,
    List.getD_eq_getElem?_getD, List.getElem?_append_left (by simpa using ht),
    ← List.getD_eq_getElem?_getD]

theorem runningDeviation_last (xs : List (Fin n → K)) (x : Fin n → K) (i : Fin n) :
    runningDeviation (xs ++ [x]) i xs.length
      = x i - ((xs.map fun y => y i).sum + x i) / (xs.length + 1 : ℕ) := by
  unfold runningDeviation
  rw [List.take_of_length_le (by simp), List.map_append,
    List.getD_eq_getElem?_getD, List.getElem?_append_right (by simp)]
  simp

theorem deviationProduct_snoc (xs : List (Fin n → K)) (x : Fin n → K) (i j : Fin n) :
    deviationProduct (xs ++ [x]) i j = deviationProduct xs i j
      + runningDeviation (xs ++ [x]) i xs.length * runningDeviation (xs ++ [x]) j xs.length := by
  unfold deviationProduct
  rw [List.length_append, List.length_singleton, Finset.sum_range_succ]
  congr 1
  refine Finset.sum_congr rfl fun t ht => ?_
  rw [Finset.mem_range] at ht
  rw [runningDeviation_snoc _ _ _ ht, runningDeviation_snoc _ _ _ ht]

/-- The sums that `corClust` keeps. -/
theorem corClust_sums (xs : List (Fin n → K)) :
    let s := xs.foldl CorClust.update (CorClust.new n)
    s.N = xs.length ∧ (∀ i, s.c i = (xs.map fun x => x i).sum) ∧
      (∀ i, s.crs i = deviationProduct xs i i) ∧ ∀ i j, s.C i j = deviationProduct xs i j := by
  induction xs using List.reverseRecOn with
  | nil => simp [CorClust.new, deviationProduct]
  | append_singleton xs x ih =>
    simp only at ih ⊢
    rw [List.foldl_append]
    simp only [List.foldl_cons, List.foldl_nil]
    obtain ⟨h1, h2, h3, h4⟩ := ih
    refine ⟨by simp [CorClust.update, h1], fun i => by simp [CorClust.update, h2], ?_, ?_⟩
    · intro i
      rw [deviationProduct_snoc, runningDeviation_last]
      simp only [CorClust.update, h1, h2, h3]
      ring
    · intro i j
      rw [deviationProduct_snoc, runningDeviation_last, runningDeviation_last]
      simp only [CorClust.update, h1, h2, h4]

theorem corrDist_eq [LinearOrder K] (sqrt : K → K) (xs : List (Fin n → K)) (i j : Fin n) :
    (xs.foldl CorClust.update (CorClust.new n)).corrDist sqrt i j
      = featureDistance sqrt xs i j := by
  obtain ⟨_, _, h3, h4⟩ := corClust_sums xs
  unfold CorClust.corrDist featureDistance
  simp only [h3, h4]
  generalize (1 - deviationProduct xs i j / _ : K) = d
  split
  · rename_i h; rw [max_eq_left h.le]
  · rename_i h; rw [max_eq_right (not_lt.1 h)]

end

/-! Every position of the list of distances belongs to a pair of features. -/

theorem pairIndex_surjective {n k : ℕ} (hk : 2 * k < n * (n - 1)) :
    ∃ i j : Fin n, i < j ∧ pairIndex n i j = k := by
  have hlen := condensed_length fun i j : Fin n => (i, j)
  have hk' : k < (CorClust.condensed fun i j : Fin n => (i, j)).length := by omega
  have hmem := List.getElem_mem hk'
  have hij : ∃ i j : Fin n, i < j ∧
      (CorClust.condensed fun i j : Fin n => (i, j))[k] = (i, j) := by
    generalize (CorClust.condensed fun i j : Fin n => (i, j))[k] = p at hmem
    unfold CorClust.condensed at hmem
    simp only [List.mem_flatMap, List.mem_map, List.mem_filter, decide_eq_true_eq] at hmem
    obtain ⟨i, _, j, ⟨_, h⟩, rfl⟩ := hmem
    exact ⟨i, j, h, rfl⟩
  obtain ⟨i, j, h, e⟩ := hij
  refine ⟨i, j, h, ?_⟩
  have hnd : (CorClust.condensed fun i j : Fin n => (i, j)).Nodup := by
    unfold CorClust.condensed
    rw [List.nodup_flatMap]
    refine ⟨fun i _ => ((List.nodup_finRange n).filter _).map fun a b hab => by simpa using hab, ?_⟩
    refine (List.nodup_finRange n).pairwise_of_forall_ne ?_
    intro a _ b _ hab p hp hq
    simp only [List.mem_map] at hp hq
    obtain ⟨_, _, rfl⟩ := hp
    obtain ⟨_, _, e⟩ := hq
    exact hab (Prod.ext_iff.1 e).1.symm
  have hget := condensed_get (fun i j : Fin n => (i, j)) i j h
  obtain ⟨hp, he⟩ := List.getElem?_eq_some_iff.1 hget
  exact (hnd.getElem_inj_iff (hi := hp) (hj := hk')).1 (by rw [he, e])

/-- Two lists of distances that agree at the position of every pair are the same. -/
theorem distances_unique {K : Type*} {n : ℕ} {L M : List K} (hL : 2 * L.length = n * (n - 1))
    (hM : 2 * M.length = n * (n - 1))
    (h : ∀ i j : Fin n, i < j → L[pairIndex n i j]? = M[pairIndex n i j]?) : L = M := by
  apply List.ext_getElem?
  intro k
  by_cases hk : 2 * k < n * (n - 1)
  · obtain ⟨i, j, hij, rfl⟩ := pairIndex_surjective hk
    exact h i j hij
  · rw [List.getElem?_eq_none (by omega), List.getElem?_eq_none (by omega)]

theorem LargestSubtrees.unique {n : ℕ} {b : ℤ} {t : Dendro n} {v w : List (List (Fin n))}
    (hv : LargestSubtrees b t v) (hw : LargestSubtrees b t w) : v = w := by
  induction hv generalizing w with
  | whole h =>
    cases hw with
    | whole => rfl
    | split h' => exact absurd h h'
  | split h _ _ ih1 ih2 =>
    cases hw with
    | whole h' => exact absurd h' h
    | split _ h1 h2 => rw [ih1 h1, ih2 h2]

/-- There is only one feature map. -/
theorem featureMap_unique {K : Type*} [Field K] [LinearOrder K] {n : ℕ} {env : KnEnv K}
    {maxSize : ℤ} {xs : List (Fin n → K)} {v w : List (List (Fin n))}
    (hv : FeatureMap env maxSize xs v) (hw : FeatureMap env maxSize xs w) : v = w := by
  obtain ⟨L, t, h1, h2, h3, h4⟩ := hv
  obtain ⟨M, u, g1, g2, g3, g4⟩ := hw
  obtain rfl := distances_unique h1 g1 fun i j hij => by rw [h2 i j hij, g2 i j hij]
  rw [h3] at g3
  cases g3
  exact LargestSubtrees.unique h4 g4

end Pysad
