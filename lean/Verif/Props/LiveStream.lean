import Verif.Model.LiveStream
import Verif.Model.Streamers

/-! Property C133: streaming while the caller works with the arrays. -/

namespace Pysad

open LiveStream

namespace Spec
variable {ι : Type*}

/-- The array after the writes among the actions. -/
def written (X : List ι) : List (Act ι) → List ι
  | [] => X
  | .next :: acts => written X acts
  | .write i a :: acts => written (X.set i a) acts

/-- How many items were asked for. -/
def asked : List (Act ι) → ℕ
  | [] => 0
  | .next :: acts => asked acts + 1
  | .write _ _ :: acts => asked acts

/-- The indices are visited in some order, each once. -/
def IsShuffle (shuffled : ℕ → List ℕ) : Prop := ∀ n, (shuffled n).Perm (List.range n)

end Spec

open Spec

section
variable {ι : Type*} (shuffled : ℕ → List ℕ)

theorem run_append (it : Iter) (X : List ι) (as bs : List (Act ι)) :
    run shuffled it X (as ++ bs) =
      ((run shuffled it X as).1 ++
        (run shuffled (run shuffled it X as).2.2 (run shuffled it X as).2.1 bs).1,
       (run shuffled (run shuffled it X as).2.2 (run shuffled it X as).2.1 bs).2) := by
  induction as generalizing it X with
  | nil => simp [run]
  | cons a as ih =>
    cases a with
    | next => simp [run, ih]
    | write i a => simp [run, ih]

theorem written_length (X : List ι) (acts : List (Act ι)) : (written X acts).length = X.length := by
  induction acts generalizing X with
  | nil => rfl
  | cons a acts ih => cases a <;> simp [written, ih]

/-- The state of things after some actions. -/
theorem run_state (hs : IsShuffle shuffled) (X : List ι) (acts : List (Act ι)) :
    (run shuffled .fresh X acts).2.1 = written X acts ∧
    (run shuffled .fresh X acts).1.length = asked acts ∧
    (if asked acts = 0 then (run shuffled .fresh X acts).2.2 = .fresh
     else if asked acts ≤ X.length then
      (run shuffled .fresh X acts).2.2 = .running ((shuffled X.length).drop (asked acts))
     else (run shuffled .fresh X acts).2.2 = .finished) := by
  suffices h : ∀ (acts : List (Act ι)) (k : ℕ) (it : Iter) (Y : List ι), Y.length = X.length →
      (if k = 0 then it = .fresh else if k ≤ X.length then
        it = .running ((shuffled X.length).drop k) else it = .finished) →
      (run shuffled it Y acts).2.1 = written Y acts ∧
      (run shuffled it Y acts).1.length = asked acts ∧
      (if k + asked acts = 0 then (run shuffled it Y acts).2.2 = .fresh
       else if k + asked acts ≤ X.length then
        (run shuffled it Y acts).2.2 = .running ((shuffled X.length).drop (k + asked acts))
       else (run shuffled it Y acts).2.2 = .finished) by
    have := h acts 0 .fresh X rfl (by simp)
    simpa using this
  intro acts
  induction acts with
  | nil => intro k it Y _ h; exact ⟨rfl, rfl, by simpa [run, asked] using h⟩
  | cons a acts ih =>
    intro k it Y hY h
    cases a with
    | write i a =>
      simp only [run, written, asked]
      exact ih k it _ (by simpa using hY) h
    | next =>
      have hlen : (shuffled X.length).length = X.length := by simpa using (hs X.length).length_eq
      have hmem : ∀ i ∈ shuffled X.length, i < Y.length := by
        intro i hi
        rw [hY]
        simpa using (hs X.length).subset hi
      have key : if k + 1 ≤ X.length then (next shuffled it Y).2 = .running ((shuffled X.length).drop (k + 1))
          else (next shuffled it Y).2 = .finished := by
        by_cases hk : k < X.length
        · rw [if_pos (by omega)]
          have e : next shuffled it Y = resume ((shuffled X.length).drop k) Y := by
            by_cases h0 : k = 0
            · rw [if_pos h0] at h
              subst h; subst h0
              simp [next, hY]
            · rw [if_neg h0, if_pos (by omega)] at h
              subst h
              rfl
          rw [e, List.drop_eq_getElem_cons (by omega)]
          have := hmem _ (List.getElem_mem (show k < (shuffled X.length).length by omega))
          simp only [resume, List.getElem?_eq_getElem this]
        · rw [if_neg (by omega)]
          by_cases h0 : k = 0
          · rw [if_pos h0] at h
            subst h; subst h0
            have : X.length = 0 := by omega
            have h2 : shuffled Y.length = [] := by
              rw [hY]; exact List.length_eq_zero_iff.1 (by omega)
            simp [next, h2, resume]
          · rw [if_neg h0] at h
            by_cases h1 : k ≤ X.length
            · rw [if_pos h1] at h
              subst h
              rw [List.drop_eq_nil_of_le (by omega)]
              rfl
            · rw [if_neg h1] at h
              subst h
              rfl
      have := ih (k + 1) (next shuffled it Y).2 Y hY (by
        rw [if_neg (by omega)]
        split
        · rename_i h; rw [if_pos h] at key; exact key
        · rename_i h; rw [if_neg h] at key; exact key)
      simp only [run, written, asked]
      refine ⟨this.1, by simp [this.2.1], ?_⟩
      have h3 := this.2.2
      rw [show k + 1 + asked acts = k + (asked acts + 1) by omega] at h3
      exact h3

/-- The claim of **C133**: whatever the caller does meanwhile, item `k` of a stream is the row that
the array had at the `k`-th index when the stream was opened. -/
def C133_statement : Prop :=
  ∀ (ι : Type) (shuffled : ℕ → List ℕ), IsShuffle shuffled → ∀ (X : List ι) (acts : List (Act ι)) (k i : ℕ)
    (a : ι), (shuffled X.length)[k]? = some i → X[i]? = some a → k < asked acts →
    (run shuffled .fresh X acts).1[k]? = some (.item a)

/-- **C133 is false**: a row that is written to before its turn is delivered as it is then. -/
theorem C133_live_refuted : ¬ C133_statement := by
  intro h
  have := h ℕ List.range (fun n => List.Perm.refl _) [1, 2] [.next, .write 1 5, .next] 1 1 2 rfl rfl
    (by decide)
  revert this
  decide

/-- **C133**, partial: what is delivered. After any actions, `next()` gives the row at the next index
as it is at that moment; the order of the rows and their number are those of the beginning; after
the last row the stream is over. -/
theorem C133_live_partial (hs : IsShuffle shuffled) (X : List ι) (acts more : List (Act ι)) :
    (run shuffled .fresh X (acts ++ .next :: more)).1[asked acts]? =
      match (shuffled X.length)[asked acts]? with
      | none => some .stopIteration
      | some i => (written X acts)[i]?.map .item := by
  obtain ⟨h1, h2, h3⟩ := run_state shuffled hs X acts
  have hlen : (shuffled X.length).length = X.length := by simpa using (hs X.length).length_eq
  have hmem : ∀ i ∈ shuffled X.length, i < X.length := by
    intro i hi
    simpa using (hs X.length).subset hi
  rw [run_append, List.getElem?_append_right (by omega), h1, h2]
  simp only [Nat.sub_self, run, List.getElem?_cons_zero]
  by_cases hk : asked acts < X.length
  · have e : next shuffled (run shuffled .fresh X acts).2.2 (written X acts) =
        resume ((shuffled X.length).drop (asked acts)) (written X acts) := by
      by_cases h0 : asked acts = 0
      · rw [if_pos h0] at h3
        rw [h3, h0]
        simp [next, written_length]
      · rw [if_neg h0, if_pos (by omega)] at h3
        rw [h3]
        rfl
    have hi := hmem _ (List.getElem_mem (show asked acts < (shuffled X.length).length by omega))
    rw [e, List.drop_eq_getElem_cons (by omega), List.getElem?_eq_getElem (by omega)]
    simp only [resume, List.getElem?_eq_getElem (show _ < (written X acts).length by
      rw [written_length]; exact hi), Option.map_some]
  · rw [List.getElem?_eq_none (by omega)]
    by_cases h0 : asked acts = 0
    · rw [if_pos h0] at h3
      have h4 : shuffled (written X acts).length = [] := by
        rw [written_length]; exact List.length_eq_zero_iff.1 (by omega)
      rw [h3]
      simp [next, h4, resume]
    · rw [if_neg h0] at h3
      by_cases h5 : asked acts ≤ X.length
      · rw [if_pos h5] at h3
        rw [h3, List.drop_eq_nil_of_le (by omega)]
        rfl
      · rw [if_neg h5] at h3
        rw [h3]
        rfl

/-- The caller writes only to rows that were delivered already (for instance, changes an instance in
place after using it). -/
def Spec.WritesBehind (order : List ℕ) : ℕ → List (Act ι) → Prop
  | _, [] => True
  | k, .next :: acts => WritesBehind order (k + 1) acts
  | k, .write i _ :: acts => i ∈ order.take k ∧ WritesBehind order k acts

theorem written_behind (order : List ℕ) (hn : order.Nodup) (acts : List (Act ι)) (k : ℕ)
    (h : WritesBehind order k acts) (X : List ι) (j i : ℕ) (hj : k + asked acts ≤ j)
    (hi : order[j]? = some i) : (written X acts)[i]? = X[i]? := by
  induction acts generalizing k X with
  | nil => rfl
  | cons a acts ih =>
    cases a with
    | next =>
      simp only [written]
      exact ih (k + 1) h X (by simp only [asked] at hj; omega)
    | write i' a =>
      obtain ⟨h1, h2⟩ := h
      simp only [written]
      rw [ih k h2 _ (by simpa [asked] using hj)]
      rw [List.getElem?_set_ne]
      rintro rfl
      obtain ⟨m, hm, e⟩ := List.mem_iff_getElem.1 h1
      rw [List.getElem_take] at e
      simp only [List.length_take] at hm
      obtain ⟨hjl, e2⟩ := List.getElem?_eq_some_iff.1 hi
      have := (List.Nodup.getElem_inj_iff hn (hi := by omega) (hj := hjl)).1 (e.trans e2.symm)
      omega

/-- **C133**, partial: the claim holds for every caller that writes only to rows that were delivered
already. -/
theorem C133_behind_partial (hs : IsShuffle shuffled) (X : List ι) (acts more : List (Act ι))
    (hw : WritesBehind (shuffled X.length) 0 acts) (i : ℕ) (a : ι)
    (hi : (shuffled X.length)[asked acts]? = some i) (ha : X[i]? = some a) :
    (run shuffled .fresh X (acts ++ .next :: more)).1[asked acts]? = some (.item a) := by
  rw [C133_live_partial shuffled hs X acts more, hi]
  simp only
  rw [written_behind _ ((hs X.length).nodup_iff.2 List.nodup_range) acts 0 hw X (asked acts) i
    (by omega) hi, ha]
  rfl

/-- **C133**: without writes the stream is the one of the earlier properties (C25, C26). -/
theorem C133_no_writes (hs : IsShuffle shuffled) (X : List ι) :
    ∃ l, (ArrayStreamer.iterX (shuffled X.length) X).toList = .ok l ∧
      (run shuffled .fresh X (List.replicate (X.length + 1) .next)).1 =
        l.map .item ++ [.stopIteration] := by
  have hlen : (shuffled X.length).length = X.length := by simpa using (hs X.length).length_eq
  have hmem : ∀ i ∈ shuffled X.length, i < X.length := by
    intro i hi
    simpa using (hs X.length).subset hi
  have key : ∀ is : List ℕ, (∀ i ∈ is, i < X.length) →
      ∃ l, (ArrayStreamer.iterX is X).toList = .ok l ∧
        (run shuffled (.running is) X (List.replicate (is.length + 1) .next)).1 =
          l.map .item ++ [.stopIteration] := by
    intro is
    induction is with
    | nil => intro _; exact ⟨[], rfl, rfl⟩
    | cons i is ih =>
      intro h
      obtain ⟨l, h1, h2⟩ := ih fun i hi => h i (by simp [hi])
      have hi := h i (by simp)
      refine ⟨X[i] :: l, ?_, ?_⟩
      · simp only [ArrayStreamer.iterX, List.getElem?_eq_getElem hi, Gen.toList, h1]
      · rw [List.length_cons, List.replicate_succ]
        simp only [run, next, resume, List.getElem?_eq_getElem hi]
        rw [h2]
        rfl
  obtain ⟨l, h1, h2⟩ := key _ hmem
  refine ⟨l, h1, ?_⟩
  rw [hlen] at h2
  rw [← h2, List.replicate_succ]
  rfl

/-- A run that meets the hypotheses: rows 2, 0, 1; the first row is changed after it was used. -/
example : let shuffled : ℕ → List ℕ := fun n => if n = 3 then [2, 0, 1] else List.range n
    IsShuffle shuffled ∧
    WritesBehind (shuffled 3) 0 [(Act.next : Act ℕ), .write 2 0, .next, .write 0 7, .write 2 9] ∧
    (run shuffled .fresh [10, 20, 30] [.next, .write 2 0, .next, .write 0 7, .write 2 9, .next, .next]).1 =
      [.item 30, .item 10, .item 20, .stopIteration] := by
  refine ⟨?_, by simp [WritesBehind], by decide⟩
  intro n
  by_cases h : n = 3
  · subst h; exact (by decide : [2, 0, 1].Perm (List.range 3))
  · simp only [h, if_false]; exact List.Perm.refl _

end

end Pysad
