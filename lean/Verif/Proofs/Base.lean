import Verif.Model.Base
import Verif.Spec.Batch

namespace Pysad

open Spec

/-- The generator that yields the items of a list. -/
def Gen.ofList {ι : Type*} : List ι → Gen ι
  | [] => .stop
  | a :: l => .yield a (Gen.ofList l)

@[simp] theorem Gen.map_ofList {ι κ : Type*} (f : ι → κ) (l : List ι) :
    (Gen.ofList l).map f = Gen.ofList (l.map f) := by
  induction l with
  | nil => rfl
  | cons a l ih => simp [Gen.ofList, Gen.map, ih]

@[simp] theorem Gen.toList_ofList {ι : Type*} (l : List ι) : (Gen.ofList l).toList = .ok l := by
  induction l with
  | nil => rfl
  | cons a l ih => simp [Gen.ofList, Gen.toList, ih]

@[simp] theorem Gen.map_id' {ι : Type*} (g : Gen ι) : g.map id = g := by
  induction g with
  | stop => rfl
  | raise e => rfl
  | yield a r ih => simp [Gen.map, ih]

theorem Gen.forEach_ofList {σ ι α : Type*} (f : σ → ι → Res σ α) (s : σ) (l : List ι) :
    Gen.forEach f s (Gen.ofList l) = inOrder f s l := by
  induction l generalizing s with
  | nil => rfl
  | cons a l ih =>
    simp only [Gen.ofList, Gen.forEach, inOrder]
    cases f s a with
    | err e s' => rfl
    | ok b s' =>
      simp only [Res.bind_ok, ih]
      cases inOrder f s' l <;> rfl

theorem ArrayStreamer.iterX_eq {α : Type*} (X : List α) (idx : List ℕ) (h : ∀ i ∈ idx, i < X.length) :
    ArrayStreamer.iterX idx X = Gen.ofList (idx.filterMap fun i => X[i]?) := by
  induction idx with
  | nil => rfl
  | cons i is ih =>
    have hi := h i (by simp)
    simp only [ArrayStreamer.iterX, List.getElem?_eq_getElem hi, List.filterMap_cons, Gen.ofList]
    rw [ih fun j hj => h j (by simp [hj])]

theorem ArrayStreamer.loopXY_eq {α β : Type*} (X : List α) (y : List β) (idx : List ℕ)
    (hl : X.length = y.length) (h : ∀ i ∈ idx, i < X.length) :
    ArrayStreamer.loopXY idx X y = Gen.ofList (idx.filterMap fun i => (X.zip y)[i]?) := by
  induction idx with
  | nil => rfl
  | cons i is ih =>
    have hi := h i (by simp)
    have hi' : i < y.length := hl ▸ hi
    have hz : i < (X.zip y).length := by simp; omega
    simp only [ArrayStreamer.loopXY, List.getElem?_eq_getElem hi, List.getElem?_eq_getElem hi',
      List.filterMap_cons, List.getElem?_eq_getElem hz, Gen.ofList, List.getElem_zip]
    rw [ih fun j hj => h j (by simp [hj])]

theorem filterMap_range {α : Type*} (X : List α) :
    (List.range X.length).filterMap (fun i => X[i]?) = X := by
  induction X using List.reverseRecOn with
  | nil => rfl
  | append_singleton X x ih =>
    rw [List.length_append, List.length_singleton, List.range_succ, List.filterMap_append]
    have : (List.range X.length).filterMap (fun i => (X ++ [x])[i]?)
        = (List.range X.length).filterMap (fun i => X[i]?) := by
      apply List.filterMap_congr
      intro i hi
      rw [List.getElem?_append_left (by simpa using hi)]
    rw [this, ih]
    simp

theorem iterate_none {α β : Type*} (X : List α) :
    iterate X (none : Option (List β)) = Gen.ofList (pairs X none) := by
  simp only [iterate]
  rw [ArrayStreamer.iterX_eq X _ (by simp), filterMap_range, Gen.map_ofList]
  rfl

theorem iterate_some {α β : Type*} (X : List α) (y : List β) (h : X.length = y.length) :
    iterate X (some y) = Gen.ofList (pairs X (some y)) := by
  simp only [iterate, ArrayStreamer.iterXY, h, ne_eq, not_true_eq_false, if_false]
  rw [ArrayStreamer.loopXY_eq X y _ h (by simp [h])]
  have : (List.range y.length).filterMap (fun i => (X.zip y)[i]?) = X.zip y := by
    have := filterMap_range (X.zip y)
    rwa [List.length_zip, h, Nat.min_self] at this
  rw [this, Gen.map_ofList, pairs]
  congr 1
  rw [List.zip_map_right]
  rfl

theorem iterate_wf {α β : Type*} (X : List α) (y : Option (List β)) (h : WellFormed X y) :
    iterate X y = Gen.ofList (pairs X y) := by
  cases y with
  | none => exact iterate_none X
  | some y => exact iterate_some X y h

theorem iterate_mismatch {α β : Type*} (X : List α) (y : List β) (h : X.length ≠ y.length) :
    iterate X (some y) = .raise .assertionError := by
  simp [iterate, ArrayStreamer.iterXY, h, Gen.map]

theorem inOrder_append {σ ι α : Type*} (f : σ → ι → Res σ α) (s : σ) (l r : List ι) :
    inOrder f s (l ++ r) = (inOrder f s l).bind fun as s' =>
      (inOrder f s' r).map fun bs => as ++ bs := by
  induction l generalizing s with
  | nil => simp only [List.nil_append, inOrder, Res.bind_ok]; cases inOrder f s r <;> rfl
  | cons a l ih =>
    simp only [List.cons_append, inOrder]
    cases f s a with
    | err e s' => rfl
    | ok b s' =>
      simp only [ih]
      cases inOrder f s' l with
      | err e s'' => rfl
      | ok bs s'' =>
        simp only [Res.bind_ok]
        cases inOrder f s'' r <;> rfl

theorem inOrder_length {σ ι α : Type*} {f : σ → ι → Res σ α} {s s' : σ} {l : List ι} {as : List α}
    (h : inOrder f s l = .ok as s') : as.length = l.length := by
  induction l generalizing s as s' with
  | nil => simp only [inOrder, Res.ok.injEq] at h; simp [← h.1]
  | cons a l ih =>
    simp only [inOrder] at h
    cases hf : f s a with
    | err e t => simp [hf] at h
    | ok b t =>
      simp only [hf] at h
      cases hi : inOrder f t l with
      | err e u => simp [hi] at h
      | ok bs u =>
        simp only [hi, Res.ok.injEq] at h
        rw [← h.1]
        simp [ih hi]

theorem pairs_append {α β : Type*} (X₁ X₂ : List α) (y₁ y₂ : List β) (h : X₁.length = y₁.length) :
    pairs (X₁ ++ X₂) (some (y₁ ++ y₂)) = pairs X₁ (some y₁) ++ pairs X₂ (some y₂) := by
  simp only [pairs, List.map_append]
  rw [List.zip_append (by simp [h])]

theorem forEach_map_unit {σ α : Type*} (r : Res σ (List α)) :
    r.map (fun _ => ()) = dropValue r := by cases r <;> rfl

end Pysad
