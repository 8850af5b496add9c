import Verif.Model.Threads
import Verif.Proofs.Statistics

/-! Property C185: updates of one object by several threads. -/

namespace Pysad

section
variable {σ ρ ι α : Type*}

/-- `l` lists the calls of all threads in some order: those of each thread in the order of that thread. -/
def Spec.Merge (calls : ℕ → List ι) (l : List (ℕ × ι)) : Prop :=
  ∀ i, (l.filter fun e => e.1 = i).map Prod.snd = calls i

/-- Whatever threads call `update`, and however they are scheduled: when all are done, the object reads as if
the calls had been made one after the other, in some order. -/
def Spec.Serializable (atoms : ι → List (Atom σ ρ)) (s0 : σ) (r0 : ρ) (update : σ → ι → σ) (read : σ → α) : Prop :=
  ∀ (calls : ℕ → List ι) (schedule : List ℕ), ((Threads.start atoms s0 r0 calls).run schedule).Finished →
    ∃ l, Spec.Merge calls l ∧ read ((Threads.start atoms s0 r0 calls).run schedule).shared
      = read ((l.map Prod.snd).foldl update s0)

end

open Spec

namespace ThreadTrace
variable {σ ρ ι α : Type*}

/-- The steps of a call, numbered. -/
def numbered (atoms : ι → List (Atom σ ρ)) (q : ι) : List (ι × ℕ) :=
  (List.range (atoms q).length).map fun j => (q, j)

/-- What thread `e.1` does in step `e.2.2` of the call `e.2.1`. -/
def exec (atoms : ι → List (Atom σ ρ)) (x : σ × (ℕ → ρ)) (e : ℕ × ι × ℕ) : σ × (ℕ → ρ) :=
  let a := ((atoms e.2.1)[e.2.2]?).getD id
  ((a (x.1, x.2 e.1)).1, Function.update x.2 e.1 (a (x.1, x.2 e.1)).2)

private theorem trace_from (atoms : ι → List (Atom σ ρ)) (schedule : List ℕ) :
    ∀ (t : Threads σ ρ) (T : ℕ → List (ι × ℕ)),
      (∀ i, t.todo i = (T i).map fun c => ((atoms c.1)[c.2]?).getD id) →
      (t.run schedule).Finished →
      ∃ tr : List (ℕ × ι × ℕ), (∀ i, (tr.filter fun e => e.1 = i).map Prod.snd = T i) ∧
        (t.run schedule).shared = (tr.foldl (exec atoms) (t.shared, t.vars)).1 := by
  induction schedule with
  | nil =>
    intro t T hT hf
    refine ⟨[], fun i => ?_, rfl⟩
    have h1 : t.todo i = [] := hf i
    rw [hT i, List.map_eq_nil_iff] at h1
    simp [h1]
  | cons i schedule ih =>
    intro t T hT hf
    have hrun : t.run (i :: schedule) = (t.step i).run schedule := rfl
    rw [hrun] at hf ⊢
    match hTi : T i with
    | [] =>
      have h1 : t.step i = t := by simp [Threads.step, hT i, hTi]
      rw [h1] at hf ⊢
      exact ih t T hT hf
    | c :: rest =>
      have h2 : t.todo i = ((atoms c.1)[c.2]?).getD id :: rest.map fun c => ((atoms c.1)[c.2]?).getD id := by
        rw [hT i, hTi]; rfl
      have h1 : t.step i = ⟨((((atoms c.1)[c.2]?).getD id) (t.shared, t.vars i)).1,
          Function.update t.todo i (rest.map fun c => ((atoms c.1)[c.2]?).getD id),
          Function.update t.vars i ((((atoms c.1)[c.2]?).getD id) (t.shared, t.vars i)).2⟩ := by
        simp [Threads.step, h2]
      obtain ⟨tr, g1, g2⟩ := ih (t.step i) (Function.update T i rest) (fun j => by
        rw [h1]
        by_cases hj : j = i
        · subst hj; simp
        · simp [hj, hT j]) hf
      refine ⟨(i, c) :: tr, fun j => ?_, ?_⟩
      · by_cases hj : i = j
        · subst hj
          have := g1 i
          simp only [Function.update_self] at this
          simp [this, hTi]
        · have := g1 j
          rw [Function.update_of_ne (Ne.symm hj)] at this
          simp [hj, this]
      · rw [g2, h1]
        rfl

/-- Every finished run executes all the steps of all the calls in an order that keeps those of each thread. -/
theorem exists_trace (atoms : ι → List (Atom σ ρ)) (s : σ) (r : ρ) (calls : ℕ → List ι) (schedule : List ℕ)
    (hf : ((Threads.start atoms s r calls).run schedule).Finished) :
    ∃ tr : List (ℕ × ι × ℕ),
      (∀ i, (tr.filter fun e => e.1 = i).map Prod.snd = (calls i).flatMap (numbered atoms)) ∧
      ((Threads.start atoms s r calls).run schedule).shared = (tr.foldl (exec atoms) (s, fun _ => r)).1 := by
  refine trace_from atoms schedule _ (fun i => (calls i).flatMap (numbered atoms)) (fun i => ?_) hf
  show (calls i).flatMap atoms = _
  rw [List.map_flatMap]
  congr 1
  funext q
  rw [numbered, List.map_map]
  refine List.ext_getElem (by simp) fun n h1 h2 => ?_
  simp [h1]

/-- The calls in the order of their steps number `k`. -/
def order (k : ℕ) (tr : List (ℕ × ι × ℕ)) : List (ℕ × ι) :=
  (tr.filter fun e => e.2.2 = k).map fun e => (e.1, e.2.1)

theorem order_merge {atoms : ι → List (Atom σ ρ)} {calls : ℕ → List ι} {tr : List (ℕ × ι × ℕ)} (k : ℕ)
    (hk : ∀ q, k < (atoms q).length)
    (h : ∀ i, (tr.filter fun e => e.1 = i).map Prod.snd = (calls i).flatMap (numbered atoms)) :
    Merge calls (order k tr) := by
  intro i
  have h1 : ((order k tr).filter fun e => e.1 = i).map Prod.snd
      = ((((tr.filter fun e => e.1 = i).map Prod.snd).filter fun c => c.2 = k).map Prod.fst) := by
    simp only [order, List.filter_map, List.map_map, List.filter_filter]
    congr 1
    apply List.filter_congr
    intro e _
    simp [Bool.and_comm]
  rw [h1, h i]
  induction calls i with
  | nil => rfl
  | cons q l ih =>
    rw [List.flatMap_cons, List.filter_append, List.map_append, ih]
    have : ((numbered atoms q).filter fun c => c.2 = k).map Prod.fst = [q] := by
      have h2 : (List.range (atoms q).length).filter (fun j => j = k) = [k] := by
        have : ∀ n, k < n → (List.range n).filter (fun j => j = k) = [k] := by
          intro n
          induction n with
          | zero => intro h; omega
          | succ n ih =>
            intro hn
            rw [List.range_succ, List.filter_append]
            by_cases hnk : n = k
            · subst hnk
              have : (List.range n).filter (fun j => j = n) = [] := by
                rw [List.filter_eq_nil_iff]; intro a ha; have := List.mem_range.1 ha; simp; omega
              simp [this]
            · rw [ih (by omega)]; simp [hnk]
        exact this _ (hk q)
      simp only [numbered, List.filter_map, List.map_map]
      have h3 : (fun c : ι × ℕ => decide (c.2 = k)) ∘ (fun j => (q, j)) = fun j => decide (j = k) := rfl
      rw [h3, h2]
      rfl
    rw [this]
    rfl

theorem order_cons (k : ℕ) (e : ℕ × ι × ℕ) (tr : List (ℕ × ι × ℕ)) :
    order k (e :: tr) = (if e.2.2 = k then [(e.1, e.2.1)] else []) ++ order k tr := by
  by_cases h : e.2.2 = k <;> simp [order, h]

theorem order_append (k : ℕ) (tr tr' : List (ℕ × ι × ℕ)) : order k (tr ++ tr') = order k tr ++ order k tr' := by
  simp [order]

/-- A merge of two threads' calls is a permutation of them. -/
theorem merge_perm [DecidableEq ι] {calls : ℕ → List ι} {l : List (ℕ × ι)} (n : ℕ) (hn : ∀ i, n ≤ i → calls i = [])
    (h : Merge calls l) : (l.map Prod.snd).Perm ((List.range n).flatMap calls) := by
  have hlt : ∀ e ∈ l, e.1 < n := by
    intro e he
    by_contra hc
    have h1 := h e.1
    rw [hn e.1 (by omega), List.map_eq_nil_iff, List.filter_eq_nil_iff] at h1
    exact h1 e he (by simp)
  have : ∀ (n : ℕ) (l : List (ℕ × ι)), (∀ e ∈ l, e.1 < n) →
      l.Perm ((List.range n).flatMap fun i => l.filter fun e => e.1 = i) := by
    intro n
    induction n with
    | zero =>
      intro l hl
      cases l with
      | nil => rfl
      | cons e l => exact absurd (hl e (by simp)) (by omega)
    | succ n ih =>
      intro l hl
      rw [List.range_succ, List.flatMap_append]
      have h1 := List.filter_append_perm (fun e : ℕ × ι => decide (e.1 < n)) l
      refine h1.symm.trans (List.Perm.append ?_ ?_)
      · refine (ih (l.filter fun e => decide (e.1 < n)) (fun e he => by simpa using (List.mem_filter.1 he).2)).trans ?_
        refine List.Perm.of_eq ?_
        rw [List.flatMap_congr]
        intro i hi
        rw [List.filter_filter]
        apply List.filter_congr
        intro e _
        have := List.mem_range.1 hi
        by_cases he : e.1 = i
        · simp [he, this]
        · simp [he]
      · refine List.Perm.of_eq ?_
        simp only [List.flatMap_cons, List.flatMap_nil, List.append_nil]
        apply List.filter_congr
        intro e he
        have := hl e he
        by_cases h2 : e.1 = n
        · simp [h2]
        · simp [h2]; omega
  refine ((this n l hlt).map Prod.snd).trans (List.Perm.of_eq ?_)
  rw [List.map_flatMap]
  rw [List.flatMap_congr]
  intro i _
  exact h i

theorem todo_nil (schedule : List ℕ) (i : ℕ) : ∀ t : Threads σ ρ, t.todo i = [] → (t.run schedule).todo i = [] := by
  induction schedule with
  | nil => intro t h; exact h
  | cons j schedule ih =>
    intro t h
    refine ih (t.step j) ?_
    unfold Threads.step
    split
    · exact h
    · by_cases hij : i = j
      · subst hij; simp_all
      · simp [hij, h]

/-- The calls of two threads. -/
def two (a b : List ι) : ℕ → List ι
  | 0 => a
  | 1 => b
  | _ => []

theorem two_finished {atoms : ι → List (Atom σ ρ)} {s : σ} {r : ρ} {a b : List ι} {schedule : List ℕ}
    (h0 : (((Threads.start atoms s r (two a b)).run schedule).todo 0).isEmpty = true)
    (h1 : (((Threads.start atoms s r (two a b)).run schedule).todo 1).isEmpty = true) :
    ((Threads.start atoms s r (two a b)).run schedule).Finished := by
  intro i
  match i with
  | 0 => exact List.isEmpty_iff.1 h0
  | 1 => exact List.isEmpty_iff.1 h1
  | i + 2 => exact todo_nil _ _ _ rfl

theorem two_refuted [DecidableEq ι] {atoms : ι → List (Atom σ ρ)} {s : σ} {r : ρ} {update : σ → ι → σ} {read : σ → α}
    (a b : ι) (schedule : List ℕ)
    (h0 : (((Threads.start atoms s r (two [a] [b])).run schedule).todo 0).isEmpty = true)
    (h1 : (((Threads.start atoms s r (two [a] [b])).run schedule).todo 1).isEmpty = true)
    (h2 : read ((Threads.start atoms s r (two [a] [b])).run schedule).shared ≠ read (update (update s a) b) ∧
      read ((Threads.start atoms s r (two [a] [b])).run schedule).shared ≠ read (update (update s b) a)) : ¬ Serializable atoms s r update read := by
  intro h
  obtain ⟨l, g1, g2⟩ := h _ schedule (two_finished h0 h1)
  have h3 : (l.map Prod.snd).Perm [a, b] := (merge_perm 2 (fun i hi => by
    match i, hi with
    | i + 2, _ => rfl) g1).trans (by simp [List.range_succ, two])
  match hl : l.map Prod.snd, h3.length_eq with
  | [c, d], _ =>
    rw [hl] at g2 h3
    have hc : c ∈ [a, b] := h3.mem_iff.1 (by simp)
    simp only [List.mem_cons, List.not_mem_nil, or_false] at hc
    rcases hc with rfl | rfl
    · have := List.singleton_perm_singleton.1 ((List.perm_cons c).1 h3)
      subst this
      exact h2.1 g2
    · have := List.singleton_perm_singleton.1 ((List.perm_cons c).1 (h3.trans (List.Perm.swap _ _ _)))
      subst this
      exact h2.2 g2

end ThreadTrace

open ThreadTrace

/-! ### What is safe -/

section
variable {σ ρ ι α : Type*}

/-- **C185 (a lock around every call).** If threads are switched only between calls (a caller that takes a
lock for every call), the object is in the state it is in after the calls one by one, whatever the object. -/
theorem C185_locked_partial (atoms : ι → List (Atom σ ρ)) (s0 : σ) (r0 : ρ) (update : σ → ι → σ)
    (hu : ∀ s q r, (runAtoms (atoms q) (s, r)).1 = update s q) (calls : ℕ → List ι) (l : List (ℕ × ι))
    (hl : Merge calls l) :
    let t := (Threads.start atoms s0 r0 calls).run (l.flatMap fun e => List.replicate (atoms e.2).length e.1)
    t.Finished ∧ t.shared = (l.map Prod.snd).foldl update s0 := by
  have call : ∀ (as : List (Atom σ ρ)) (i : ℕ) (t : Threads σ ρ) (rest : List (Atom σ ρ)), t.todo i = as ++ rest →
      (t.run (List.replicate as.length i)).shared = (runAtoms as (t.shared, t.vars i)).1 ∧
      (t.run (List.replicate as.length i)).todo = Function.update t.todo i rest := by
    intro as i
    induction as with
    | nil =>
      intro t rest h
      refine ⟨rfl, ?_⟩
      show t.todo = _
      simp only [List.nil_append] at h
      rw [← h, Function.update_eq_self]
    | cons a as ih =>
      intro t rest h
      have hs : t.step i = ⟨(a (t.shared, t.vars i)).1, Function.update t.todo i (as ++ rest),
          Function.update t.vars i (a (t.shared, t.vars i)).2⟩ := by
        rw [List.cons_append] at h
        simp [Threads.step, h]
      have hr : t.run (List.replicate (a :: as).length i) = (t.step i).run (List.replicate as.length i) := rfl
      obtain ⟨g1, g2⟩ := ih (t.step i) rest (by rw [hs]; simp)
      rw [hr]
      refine ⟨g1.trans ?_, g2.trans ?_⟩
      · rw [hs]; simp [runAtoms]
      · rw [hs]; simp
  have main : ∀ (l : List (ℕ × ι)) (t : Threads σ ρ),
      (∀ i, t.todo i = ((l.filter fun e => e.1 = i).map Prod.snd).flatMap atoms) →
      (t.run (l.flatMap fun e => List.replicate (atoms e.2).length e.1)).Finished ∧
      (t.run (l.flatMap fun e => List.replicate (atoms e.2).length e.1)).shared
        = (l.map Prod.snd).foldl update t.shared := by
    intro l
    induction l with
    | nil => intro t h; exact ⟨fun i => h i, rfl⟩
    | cons e l ih =>
      intro t h
      have h1 : t.todo e.1 = atoms e.2 ++ ((l.filter fun e' => e'.1 = e.1).map Prod.snd).flatMap atoms := by
        rw [h e.1]; simp
      obtain ⟨g1, g2⟩ := call _ _ _ _ h1
      have hr : t.run ((e :: l).flatMap fun e => List.replicate (atoms e.2).length e.1)
          = (t.run (List.replicate (atoms e.2).length e.1)).run
            (l.flatMap fun e => List.replicate (atoms e.2).length e.1) := by
        simp [Threads.run, List.foldl_append]
      rw [hr]
      obtain ⟨i1, i2⟩ := ih (t.run (List.replicate (atoms e.2).length e.1)) (fun i => by
        rw [g2]
        by_cases hi : i = e.1
        · subst hi; simp
        · rw [Function.update_of_ne hi, h i]
          simp [Ne.symm hi])
      refine ⟨i1, i2.trans ?_⟩
      rw [g1, hu]
      rfl
  exact main l _ fun i => by rw [hl i]; rfl

/-- **C185 (what is interrupted).** The steps of a call, taken without interruption, are the call. -/
theorem C185_complete {K : Type*} [Field K] [LinearOrder K] {β Y P : Type*} (evaluate : List Y → List P → Except PyErr K) :
    (∀ s (q : β) r, (runAtoms (Atoms.count q) (s, r)).1 = (countMeter β).update s q) ∧
    (∀ s q r, (runAtoms (Atoms.sum q) (s, r)).1 = (averageMeter K).update s q) ∧
    (∀ s q r, (runAtoms (Atoms.maximum q) (s, r)).1 = (maxMeter K).update s q) ∧
    (∀ s (q : β) r, (runAtoms (Atoms.unlimited q) (s, r)).1 = s.update q) ∧
    (∀ s (q : β) r, (runAtoms (Atoms.window q) (s, r)).1 = s.1.update s.2 q) ∧
    (∀ s q r, (runAtoms (Atoms.sklearn q) (s, r)).1 = ((sklearnMetric evaluate).update s q.1 q.2).state) := by
  refine ⟨fun _ _ _ => rfl, fun _ _ _ => rfl, fun s q r => ?_, fun _ _ _ => rfl, fun s q r => ?_, fun _ _ _ => rfl⟩
  · obtain ⟨ext, lst⟩ := s
    cases ext with
    | none => simp [runAtoms, Atoms.maximum, maxMeter]
    | some m => by_cases h : m < q <;> simp [runAtoms, Atoms.maximum, maxMeter, h]
  · obtain ⟨⟨w, ref⟩, st⟩ := s
    by_cases h : w < (st.contents ref).length + 1
    · simp [runAtoms, Atoms.window, WindowRef.update, h]
    · simp [runAtoms, Atoms.window, WindowRef.update, h]

/-- **C185 (UnlimitedWindow).** Nothing is lost, whatever threads call `update`, and each thread's items stay
in their order. -/
theorem C185_unlimited : Serializable (Atoms.unlimited (α := α)) UnlimitedWindow.new () UnlimitedWindow.update
    UnlimitedWindow.get := by
  intro calls schedule hf
  obtain ⟨tr, h1, h2⟩ := exists_trace _ _ _ _ _ hf
  refine ⟨order 0 tr, order_merge 0 (fun _ => by show 0 < 1; omega) h1, ?_⟩
  rw [h2]
  have hlt : ∀ e ∈ tr, e.2.2 = 0 := by
    intro e he
    have : e.2 ∈ (tr.filter fun e' => e'.1 = e.1).map Prod.snd := List.mem_map.2 ⟨e, by simp [he], rfl⟩
    rw [h1 e.1, List.mem_flatMap] at this
    obtain ⟨q, _, hq⟩ := this
    simp only [numbered, Atoms.unlimited, List.mem_map, List.mem_range] at hq
    obtain ⟨j, hj, hj'⟩ := hq
    rw [← hj']
    simp at hj
    exact hj
  have key : ∀ (tr : List (ℕ × α × ℕ)) (x : UnlimitedWindow α × (ℕ → Unit)), (∀ e ∈ tr, e.2.2 = 0) →
      (tr.foldl (exec Atoms.unlimited) x).1 = ((order 0 tr).map Prod.snd).foldl UnlimitedWindow.update x.1 := by
    intro tr
    induction tr with
    | nil => intro x _; rfl
    | cons e tr ih =>
      intro x h
      obtain ⟨i, q, j⟩ := e
      have hj : j = 0 := h (i, q, j) (by simp)
      subst hj
      rw [List.foldl_cons, ih _ fun e he => h e (by simp [he]), order_cons]
      rfl
  rw [key tr _ hlt]

end

/-! ### What is not -/

/-- **C185 is false of CountMeter**: two updates may count as one. -/
theorem C185_count_refuted : ¬ Serializable (Atoms.count (α := ℕ)) 0 0 (countMeter ℕ).update id :=
  two_refuted 5 6 [0, 1, 0, 1] (by decide +kernel) (by decide +kernel) (by decide +kernel)

/-- **C185 is false of AverageMeter**: of the values 1 and 2 the mean may be read as 1. -/
theorem C185_average_refuted : ¬ Serializable (Atoms.sum (K := ℚ)) ⟨0, 0⟩ (0, 0) (averageMeter ℚ).update
    fun s => s.sum / s.numItems :=
  two_refuted 1 2 [0, 1, 1, 0, 0, 0, 1, 1] (by decide +kernel) (by decide +kernel) (by decide +kernel)

/-- **C185 is false of AverageMeter**: ... or as 3, which is greater than both. -/
theorem C185_average_items_refuted : ∃ schedule : List ℕ,
    let t := (Threads.start (Atoms.sum (K := ℚ)) ⟨0, 0⟩ (0, 0) (two [1] [2])).run schedule
    t.Finished ∧ ((averageMeter ℚ).get t.shared).out.toOption = some 3 :=
  ⟨[0, 0, 1, 1, 0, 1, 0, 1], two_finished (by decide +kernel) (by decide +kernel), by decide +kernel⟩

/-- **C185 is false of MaxMeter**: of the values 1 and 2 the maximum may be read as 1. -/
theorem C185_max_refuted : ¬ Serializable (Atoms.maximum (K := ℕ)) ⟨none, []⟩ false (maxMeter ℕ).update
    ExtremeState.ext :=
  two_refuted 1 2 [0, 1, 1, 1, 0, 0] (by decide +kernel) (by decide +kernel) (by decide +kernel)

/-- **C185 is false of Window**: a window of size 1 may be empty after two updates. -/
theorem C185_window_refuted : ¬ Serializable (Atoms.window (α := ℕ)) (WindowRef.new ⟨0, fun _ => []⟩ 1) (0, false)
    (fun s q => s.1.update s.2 q) fun s => s.2.contents s.1.ref :=
  two_refuted 1 2 [0, 0, 1, 1, 0, 0, 1, 1, 0, 0, 0, 1, 1, 1] (by decide +kernel) (by decide +kernel)
    (by decide +kernel)

/-- **C185 is false of the metrics**: labels and predictions of different threads are paired. Here both
predictions are right, and precision is 0 in place of 1. -/
theorem C185_metric_refuted : ¬ Serializable (Atoms.sklearn (Y := Bool) (P := Bool)) ([], []) ()
    (fun s q => (s.1 ++ [q.1], s.2 ++ [q.2])) fun s => (precisionScore s.1 s.2 : ℚ) :=
  two_refuted (true, true) (false, false) [0, 1, 1, 0] (by decide +kernel) (by decide +kernel) (by decide +kernel)

/-! ### What holds of them -/

section
variable {α : Type*}

/-- **C185 (CountMeter, partial).** The count is at least 1 and at most the number of calls. -/
theorem C185_count_partial (calls : ℕ → List α) (schedule : List ℕ)
    (hf : ((Threads.start Atoms.count 0 0 calls).run schedule).Finished) :
    ∃ l, Merge calls l ∧ ((Threads.start Atoms.count 0 0 calls).run schedule).shared ≤ l.length ∧
      (l ≠ [] → 1 ≤ ((Threads.start Atoms.count 0 0 calls).run schedule).shared) := by
  obtain ⟨tr, h1, h2⟩ := exists_trace _ _ _ _ _ hf
  refine ⟨order 1 tr, order_merge 1 (fun _ => by show 1 < 2; omega) h1, ?_⟩
  rw [h2]
  have key : ∀ tr : List (ℕ × α × ℕ), ∀ x : ℤ × (ℕ → ℤ), ∀ n : ℕ, 0 ≤ x.1 → x.1 ≤ n → (n ≠ 0 → 1 ≤ x.1) →
      (∀ i, 0 ≤ x.2 i ∧ x.2 i ≤ n) →
      (tr.foldl (exec Atoms.count) x).1 ≤ n + (order 1 tr).length ∧
      (n + (order 1 tr).length ≠ 0 → 1 ≤ (tr.foldl (exec Atoms.count) x).1) := by
    intro tr
    induction tr with
    | nil => intro x n _ g1 g2 _; exact ⟨by simpa [order] using g1, by simpa [order] using g2⟩
    | cons e tr ih =>
      intro x n g0 g1 g2 g3
      obtain ⟨i, q, j⟩ := e
      rw [List.foldl_cons, order_cons]
      match j with
      | 0 =>
        have := ih (exec Atoms.count x (i, q, 0)) n g0 g1 g2 (fun k => by
          by_cases hk : k = i
          · subst hk; simp [exec, Atoms.count, g0, g1]
          · simp [exec, hk, g3 k])
        simpa using this
      | 1 =>
        have h4 := g3 i
        have := ih (exec Atoms.count x (i, q, 1)) (n + 1) (by simp [exec, Atoms.count]; omega)
          (by simp [exec, Atoms.count]; omega) (fun _ => by simp [exec, Atoms.count]; omega) (fun k => by
          by_cases hk : k = i
          · subst hk; simp [exec, Atoms.count]; omega
          · have := g3 k
            simp [exec, hk]; omega)
        refine ⟨?_, fun _ => this.2 (by omega)⟩
        have h5 := this.1
        simp only [if_true, List.length_append, List.length_singleton]
        push_cast at h5 ⊢
        omega
      | j + 2 =>
        have hx : exec Atoms.count x (i, q, j + 2) = x := by simp [exec, Atoms.count]
        rw [hx]
        simpa using ih x n g0 g1 g2 g3
  have := key tr (0, fun _ => 0) 0 le_rfl le_rfl (fun h => absurd rfl h) (fun _ => ⟨le_rfl, le_rfl⟩)
  refine ⟨by simpa using this.1, fun h => this.2 ?_⟩
  have := List.length_pos_of_ne_nil h
  omega

/-- However many updates two threads make: they may count as two. -/
theorem C185_count_two (m : ℕ) (q : α) :
    ∃ schedule, ((Threads.start Atoms.count 0 0 (two (List.replicate (m + 2) q) (List.replicate (m + 2) q))).run
        schedule).Finished ∧
      ((Threads.start Atoms.count 0 0 (two (List.replicate (m + 2) q) (List.replicate (m + 2) q))).run
        schedule).shared = 2 := by
  have updates : ∀ (n i : ℕ) (t : Threads ℤ ℤ) (rest : List (Atom ℤ ℤ)),
      t.todo i = (List.replicate n q).flatMap Atoms.count ++ rest →
      (t.run (List.replicate (2 * n) i)).shared = t.shared + n ∧
      (t.run (List.replicate (2 * n) i)).todo = Function.update t.todo i rest ∧
      ∀ j, j ≠ i → (t.run (List.replicate (2 * n) i)).vars j = t.vars j := by
    intro n i
    induction n with
    | zero =>
      intro t rest h
      have h' : t.todo i = rest := h
      refine ⟨?_, ?_, fun _ _ => rfl⟩
      · show t.shared = t.shared + ((0 : ℕ) : ℤ); simp
      · show t.todo = _
        rw [← h', Function.update_eq_self]
    | succ n ih =>
      intro t rest h
      have h' : t.todo i = (fun x => (x.1, x.1)) :: (fun x => (x.2 + 1, x.2)) ::
          ((List.replicate n q).flatMap Atoms.count ++ rest) := by
        rw [h, List.replicate_succ]; rfl
      have hs : (t.step i).step i = ⟨t.shared + 1,
          Function.update t.todo i ((List.replicate n q).flatMap Atoms.count ++ rest),
          Function.update t.vars i t.shared⟩ := by
        simp [Threads.step, h']
      have hr : t.run (List.replicate (2 * (n + 1)) i) = ((t.step i).step i).run (List.replicate (2 * n) i) := rfl
      obtain ⟨g1, g2, g3⟩ := ih ((t.step i).step i) rest (by rw [hs]; simp)
      rw [hr]
      refine ⟨?_, ?_, fun j hj => ?_⟩
      · rw [g1, hs]; push_cast; ring
      · rw [g2, hs]; simp
      · rw [g3 j hj, hs]; simp [hj]
  let load : Atom ℤ ℤ := fun x => (x.1, x.1)
  let store : Atom ℤ ℤ := fun x => (x.2 + 1, x.2)
  let R : ℕ → List (Atom ℤ ℤ) := fun n => (List.replicate n q).flatMap Atoms.count
  have hR : ∀ n, R (n + 1) = load :: store :: R n := fun n => by
    simp only [R, List.replicate_succ, List.flatMap_cons]; rfl
  have hR' : ∀ n, R (n + 1) = R n ++ [load, store] := fun n => by
    simp only [R, List.replicate_succ', List.flatMap_append]; rfl
  set t0 := Threads.start (Atoms.count (α := α)) 0 0 (two (List.replicate (m + 2) q) (List.replicate (m + 2) q))
  -- thread 0 loads 0
  have ht0 : t0.todo 0 = load :: store :: R (m + 1) := hR (m + 1)
  have ht0' : t0.todo 1 = R (m + 1) ++ [load, store] := hR' (m + 1)
  have e1 : t0.step 0 = ⟨0, Function.update t0.todo 0 (store :: R (m + 1)), Function.update t0.vars 0 0⟩ := by
    simp only [Threads.step, ht0]; rfl
  -- thread 1 makes all its calls but one
  obtain ⟨a1, a2, a3⟩ := updates (m + 1) 1 (t0.step 0) [load, store] (by rw [e1]; simpa using ht0')
  set t1 := (t0.step 0).run (List.replicate (2 * (m + 1)) 1)
  have b0 : t1.todo 0 = store :: R (m + 1) := by rw [a2, e1]; simp
  have b1 : t1.todo 1 = [load, store] := by rw [a2]; simp
  have bv : t1.vars 0 = 0 := by rw [a3 0 (by omega), e1]; simp
  -- thread 0 stores 1, thread 1 loads it
  have e2 : (t1.step 0).step 1 = ⟨1, Function.update (Function.update t1.todo 0 (R (m + 1))) 1 [store],
      Function.update t1.vars 1 1⟩ := by
    have h1 : t1.step 0 = ⟨1, Function.update t1.todo 0 (R (m + 1)), t1.vars⟩ := by
      simp only [Threads.step, b0, bv, store]
      simp [← bv]
    rw [h1]
    simp [Threads.step, b1, load]
  -- thread 0 makes all its other calls
  obtain ⟨c1, c2, c3⟩ := updates (m + 1) 0 ((t1.step 0).step 1) [] (by rw [e2]; simp [R])
  set t2 := ((t1.step 0).step 1).run (List.replicate (2 * (m + 1)) 0)
  have d0 : t2.todo 0 = [] := by rw [c2]; simp
  have d1 : t2.todo 1 = [store] := by rw [c2, e2]; simp
  have dv : t2.vars 1 = 1 := by rw [c3 1 (by omega), e2]; simp
  -- thread 1 stores 2
  have e3 : t2.step 1 = ⟨2, Function.update t2.todo 1 [], t2.vars⟩ := by
    have hv : Function.update t2.vars 1 1 = t2.vars := by rw [← dv, Function.update_eq_self]
    simp only [Threads.step, d1, dv, store, hv]
    rfl
  let schedule := 0 :: (List.replicate (2 * (m + 1)) 1 ++ (0 :: 1 :: (List.replicate (2 * (m + 1)) 0 ++ [1])))
  have hrun : t0.run schedule = t2.step 1 := by
    simp only [schedule, Threads.run, List.foldl_cons, List.foldl_append, List.foldl_nil]
    rfl
  refine ⟨schedule, ?_, ?_⟩
  · apply two_finished
    · show ((t0.run schedule).todo 0).isEmpty = true
      rw [hrun, e3]; simp [d0]
    · show ((t0.run schedule).todo 1).isEmpty = true
      rw [hrun, e3]; simp
  · rw [hrun, e3]

/-- **C185 (the metrics, partial).** No label and no prediction is lost, and those of each thread stay in
their order; but labels and predictions need not be in the same order. -/
theorem C185_metric_partial {Y P : Type*} (calls : ℕ → List (Y × P)) (schedule : List ℕ)
    (hf : ((Threads.start Atoms.sklearn ([], []) () calls).run schedule).Finished) :
    ∃ l l', Merge calls l ∧ Merge calls l' ∧ ((Threads.start Atoms.sklearn ([], []) () calls).run schedule).shared
      = (l.map fun e => e.2.1, l'.map fun e => e.2.2) := by
  obtain ⟨tr, h1, h2⟩ := exists_trace _ _ _ _ _ hf
  refine ⟨order 0 tr, order 1 tr, order_merge 0 (fun _ => by show 0 < 2; omega) h1, order_merge 1 (fun _ => by show 1 < 2; omega) h1, ?_⟩
  rw [h2]
  have key : ∀ (tr : List (ℕ × (Y × P) × ℕ)) (x : (List Y × List P) × (ℕ → Unit)),
      (tr.foldl (exec Atoms.sklearn) x).1
        = (x.1.1 ++ (order 0 tr).map fun e => e.2.1, x.1.2 ++ (order 1 tr).map fun e => e.2.2) := by
    intro tr
    induction tr with
    | nil => intro x; simp [order]
    | cons e tr ih =>
      intro x
      obtain ⟨i, q, j⟩ := e
      rw [List.foldl_cons, ih, order_cons, order_cons]
      match j with
      | 0 => simp [exec, Atoms.sklearn]
      | 1 => simp [exec, Atoms.sklearn]
      | j + 2 => simp [exec, Atoms.sklearn]
  rw [key]
  simp

/-- **C185 (MaxMeter, partial).** No value is missing from the stored ones, and the maximum is one of the
values given (though perhaps not the greatest). -/
theorem C185_max_partial {K : Type*} [LinearOrder K] (calls : ℕ → List K) (schedule : List ℕ)
    (hf : ((Threads.start Atoms.maximum ⟨none, []⟩ false calls).run schedule).Finished) :
    ∃ l, Merge calls l ∧
      ((Threads.start Atoms.maximum ⟨none, []⟩ false calls).run schedule).shared.lst.Perm (l.map Prod.snd) ∧
      ∀ m, ((Threads.start Atoms.maximum ⟨none, []⟩ false calls).run schedule).shared.ext = some m →
        m ∈ l.map Prod.snd := by
  obtain ⟨tr, h1, h2⟩ := exists_trace _ _ _ _ _ hf
  have hm2 := order_merge 2 (fun _ => by show 2 < 3; omega) h1
  refine ⟨order 2 tr, hm2, ?_, ?_⟩
  · rw [h2]
    have key : ∀ (tr : List (ℕ × K × ℕ)) (x : ExtremeState K × (ℕ → Bool)),
        (tr.foldl (exec Atoms.maximum) x).1.lst.Perm (x.1.lst ++ (order 2 tr).map Prod.snd) := by
      intro tr
      induction tr with
      | nil => intro x; simp [order]
      | cons e tr ih =>
        intro x
        obtain ⟨i, q, j⟩ := e
        rw [List.foldl_cons, order_cons]
        refine (ih _).trans ?_
        match j with
        | 0 => simp [exec, Atoms.maximum]
        | 1 => by_cases hx : x.2 i <;> simp [exec, Atoms.maximum, hx]
        | 2 =>
          have := (heappush_perm x.1.lst q).append_right ((order 2 tr).map Prod.snd)
          refine this.trans ?_
          simp only [if_true, List.map_append, List.map_cons, List.map_nil]
          refine (List.perm_middle.symm.trans ?_)
          simp
        | j + 3 => simp [exec, Atoms.maximum]
    simpa using key tr (⟨none, []⟩, fun _ => false)
  · intro m hm
    rw [h2] at hm
    have key : ∀ (tr : List (ℕ × K × ℕ)) (x : ExtremeState K × (ℕ → Bool)),
        (tr.foldl (exec Atoms.maximum) x).1.ext = some m → x.1.ext = some m ∨ ∃ i, (i, m, 1) ∈ tr := by
      intro tr
      induction tr with
      | nil => intro x h; exact Or.inl h
      | cons e tr ih =>
        intro x h
        rw [List.foldl_cons] at h
        rcases ih _ h with h | ⟨i, h⟩
        · obtain ⟨i, q, j⟩ := e
          match j with
          | 0 => exact Or.inl (by simpa [exec, Atoms.maximum] using h)
          | 1 =>
            by_cases hx : x.2 i
            · right
              refine ⟨i, ?_⟩
              have : q = m := by simpa [exec, Atoms.maximum, hx] using h
              simp [this]
            · exact Or.inl (by simpa [exec, Atoms.maximum, hx] using h)
          | 2 => exact Or.inl (by simpa [exec, Atoms.maximum] using h)
          | j + 3 => exact Or.inl (by simpa [exec, Atoms.maximum] using h)
        · exact Or.inr ⟨i, by simp [h]⟩
    rcases key tr _ hm with h | ⟨i, h⟩
    · cases h
    · have h3 : (m, 1) ∈ (tr.filter fun e => e.1 = i).map Prod.snd := List.mem_map.2 ⟨(i, m, 1), by simp [h], rfl⟩
      rw [h1 i, List.mem_flatMap] at h3
      obtain ⟨q, hq, hq'⟩ := h3
      have : q = m := by
        simp only [numbered, List.mem_map] at hq'
        obtain ⟨_, _, h4⟩ := hq'
        exact (Prod.mk.inj h4).1
      subst this
      rw [← hm2 i, List.mem_map] at hq
      obtain ⟨e, he, he'⟩ := hq
      exact List.mem_map.2 ⟨e, (List.mem_filter.1 he).1, he'⟩

end

/-! ### The hypotheses are met -/

/-- Two threads that take turns in the middle of their calls and finish. -/
example : ((Threads.start Atoms.count 0 0 (two ["a", "b"] ["c"])).run [0, 1, 0, 1, 0, 0]).Finished :=
  two_finished (by decide +kernel) (by decide +kernel)

example : ((Threads.start Atoms.count 0 0 (two ["a", "b"] ["c"])).run [0, 1, 0, 1, 0, 0]).shared = 2 := by
  decide +kernel

example : ((Threads.start Atoms.unlimited UnlimitedWindow.new () (two [1, 2] [7])).run [0, 1, 0]).Finished ∧
    ((Threads.start Atoms.unlimited UnlimitedWindow.new () (two [1, 2] [7])).run [0, 1, 0]).shared.window = [1, 7, 2] :=
  ⟨two_finished (by decide +kernel) (by decide +kernel), by decide +kernel⟩

/-- A schedule with a lock. -/
example : Merge (two ["a", "b"] ["c"]) [(0, "a"), (1, "c"), (0, "b")] := by
  intro i
  match i with
  | 0 => rfl
  | 1 => rfl
  | i + 2 => rfl

example : ((Threads.start Atoms.maximum ⟨none, []⟩ false (two [3] [5])).run [0, 1, 1, 1, 0, 0]).Finished ∧
    ((Threads.start Atoms.maximum ⟨none, []⟩ false (two [3] [5])).run [0, 1, 1, 1, 0, 0]).shared.ext = some 3 :=
  ⟨two_finished (by decide +kernel) (by decide +kernel), by decide +kernel⟩

end Pysad
