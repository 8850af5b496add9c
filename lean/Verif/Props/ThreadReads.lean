import Verif.Props.Threads
import Verif.Props.MetricRecovery

/-! Property C186: one thread updates an object, other threads read it. -/

namespace Pysad

open Spec ThreadTrace

section
variable {σ ρ τ β ι : Type*}

/-- While thread 0 updates the object with `xs`, other threads read it: what each of them reads are values
that the object has after some of the updates, in order. -/
def Spec.ReadsConsistent (atoms : ι → List (Atom σ ρ)) (first : σ → τ) (second : τ → σ → β) (s0 : σ) (r0 : ρ)
    (update : σ → ι → σ) (read : σ → β) : Prop :=
  ∀ (xs : List ι) (reads : ℕ → ℕ) (schedule : List ℕ) (i : ℕ), i ≠ 0 → ∃ ks : List ℕ, ks.Pairwise (· ≤ ·) ∧
    (∀ k ∈ ks, k ≤ xs.length) ∧
    (((Threads.start (Atoms.shared atoms first second) s0 ⟨r0, none, []⟩ (oneWriter xs reads)).run schedule).vars
      i).answers = ks.map fun k => read ((xs.take k).foldl update s0)

end

namespace ThreadReads
variable {σ ρ τ β ι : Type*}

/-- The object and the variables of the updating thread after `n` of its steps. -/
def stage (W : List (Atom σ ρ)) (s0 : σ) (r0 : ρ) (n : ℕ) : σ × ρ := runAtoms (W.take n) (s0, r0)

private theorem stage_succ (W : List (Atom σ ρ)) (s0 : σ) (r0 : ρ) (n : ℕ) (h : n < W.length) :
    stage W s0 r0 (n + 1) = W[n] (stage W s0 r0 n) := by
  simp only [stage, List.take_succ_eq_append_getElem h, runAtoms, List.foldl_append]
  rfl

/-- The two steps of `get`. -/
private def g1 (first : σ → τ) : Atom σ (ReaderVars ρ τ β) :=
  fun x => (x.1, { x.2 with loaded := some (first x.1) })
private def g2 (second : τ → σ → β) : Atom σ (ReaderVars ρ τ β) :=
  fun x => (x.1, { x.2 with loaded := none, answers := match x.2.loaded with
      | none => x.2.answers
      | some v => x.2.answers ++ [second v x.1] })

private def gets (first : σ → τ) (second : τ → σ → β) (m : ℕ) : List (Atom σ (ReaderVars ρ τ β)) :=
  (List.replicate m ()).flatMap fun _ => [g1 first, g2 second]

private theorem gets_succ (first : σ → τ) (second : τ → σ → β) (m : ℕ) :
    (gets first second (m + 1) : List (Atom σ (ReaderVars ρ τ β))) = g1 first :: g2 second :: gets first second m := by
  simp [gets, List.replicate_succ]

/-- When the values were loaded. -/
private def Times (ps : List (ℕ × ℕ)) (n : ℕ) : Prop :=
  ps.Pairwise (fun p p' => p.2 ≤ p'.1) ∧ ∀ p ∈ ps, p.1 ≤ p.2 ∧ p.2 ≤ n

private structure Good (W : List (Atom σ ρ)) (first : σ → τ) (second : τ → σ → β) (s0 : σ) (r0 : ρ)
    (t : Threads σ (ReaderVars ρ τ β)) (n : ℕ) : Prop where
  le : n ≤ W.length
  object : t.shared = (stage W s0 r0 n).1
  todo : t.todo 0 = (W.drop n).map Atoms.lift
  own : (t.vars 0).own = (stage W s0 r0 n).2
  readers : ∀ i, i ≠ 0 → ∃ ps, Times ps n ∧
    (t.vars i).answers = ps.map (fun p => second (first (stage W s0 r0 p.1).1) (stage W s0 r0 p.2).1) ∧
    ((∃ m, t.todo i = gets first second m) ∨
      ∃ m n1, t.todo i = g2 second :: gets first second m ∧ n1 ≤ n ∧ (∀ p ∈ ps, p.2 ≤ n1) ∧
        (t.vars i).loaded = some (first (stage W s0 r0 n1).1))

private theorem good_step {W : List (Atom σ ρ)} {first : σ → τ} {second : τ → σ → β} {s0 : σ} {r0 : ρ}
    {t : Threads σ (ReaderVars ρ τ β)} {n : ℕ} (h : Good W first second s0 r0 t n) (i : ℕ) :
    ∃ n', Good W first second s0 r0 (t.step i) n' := by
  by_cases hi : i = 0
  · subst hi
    by_cases hn : n = W.length
    · refine ⟨n, ?_⟩
      have : t.step 0 = t := by simp [Threads.step, h.todo, hn]
      rw [this]
      exact h
    · have hlt : n < W.length := lt_of_le_of_ne h.le hn
      have htodo : t.todo 0 = Atoms.lift W[n] :: (W.drop (n + 1)).map Atoms.lift := by
        rw [h.todo, List.drop_eq_getElem_cons hlt]; rfl
      have hs : t.step 0 = ⟨(W[n] (t.shared, (t.vars 0).own)).1,
          Function.update t.todo 0 ((W.drop (n + 1)).map Atoms.lift),
          Function.update t.vars 0 { t.vars 0 with own := (W[n] (t.shared, (t.vars 0).own)).2 }⟩ := by
        simp [Threads.step, htodo, Atoms.lift]
      have hx : W[n] (t.shared, (t.vars 0).own) = stage W s0 r0 (n + 1) := by
        rw [h.object, h.own, stage_succ W s0 r0 n hlt]
      refine ⟨n + 1, ⟨hlt, ?_, ?_, ?_, fun j hj => ?_⟩⟩
      · rw [hs, hx]
      · rw [hs]; simp
      · rw [hs, hx]; simp
      · obtain ⟨ps, a1, a2, a3⟩ := h.readers j hj
        refine ⟨ps, ⟨a1.1, fun p hp => ⟨(a1.2 p hp).1, (a1.2 p hp).2.trans (Nat.le_succ n)⟩⟩, ?_, ?_⟩
        · rw [hs]; simpa [hj] using a2
        · rw [hs]
          simp only [Function.update_of_ne hj]
          rcases a3 with a3 | ⟨m, n1, b1, b2, b3⟩
          · exact Or.inl a3
          · exact Or.inr ⟨m, n1, b1, b2.trans (Nat.le_succ n), b3⟩
  · refine ⟨n, ?_⟩
    obtain ⟨ps, a1, a2, a3⟩ := h.readers i hi
    have rest : ∀ (sh : σ) (l : List (Atom σ (ReaderVars ρ τ β))) (v : ReaderVars ρ τ β),
        sh = t.shared →
        (∃ ps, Times ps n ∧
          v.answers = ps.map (fun p => second (first (stage W s0 r0 p.1).1) (stage W s0 r0 p.2).1) ∧
          ((∃ m, l = gets first second m) ∨
            ∃ m n1, l = g2 second :: gets first second m ∧ n1 ≤ n ∧ (∀ p ∈ ps, p.2 ≤ n1) ∧
              v.loaded = some (first (stage W s0 r0 n1).1))) →
        Good W first second s0 r0 ⟨sh, Function.update t.todo i l, Function.update t.vars i v⟩ n := by
      intro sh l v hsh hl
      refine ⟨h.le, hsh.trans h.object, ?_, ?_, fun j hj => ?_⟩
      · simpa [Ne.symm hi] using h.todo
      · simpa [Ne.symm hi] using h.own
      · by_cases hji : j = i
        · subst hji
          simpa using hl
        · simpa [hji] using h.readers j hj
    rcases a3 with ⟨m, hm⟩ | ⟨m, n1, b1, b2, b3, b4⟩
    · cases m with
      | zero =>
        have : t.step i = t := by simp [Threads.step, hm, gets]
        rw [this]
        exact h
      | succ m =>
        rw [gets_succ] at hm
        have hs : t.step i = ⟨t.shared, Function.update t.todo i (g2 second :: gets first second m),
            Function.update t.vars i { t.vars i with loaded := some (first t.shared) }⟩ := by
          simp [Threads.step, hm, g1]
        rw [hs]
        exact rest _ _ _ rfl ⟨ps, a1, a2, Or.inr ⟨m, n, rfl, le_rfl, fun p hp => (a1.2 p hp).2, by rw [← h.object]⟩⟩
    · have hs : t.step i = ⟨t.shared, Function.update t.todo i (gets first second m),
          Function.update t.vars i { t.vars i with
            loaded := none
            answers := (t.vars i).answers ++ [second (first (stage W s0 r0 n1).1) t.shared] }⟩ := by
        simp [Threads.step, b1, g2, b4]
      rw [hs]
      refine rest _ _ _ rfl ⟨ps ++ [(n1, n)], ⟨?_, ?_⟩, ?_, Or.inl ⟨m, rfl⟩⟩
      · rw [List.pairwise_append]
        refine ⟨a1.1, List.pairwise_singleton _ _, fun p hp q hq => ?_⟩
        rw [List.mem_singleton] at hq
        subst hq
        exact b3 p hp
      · intro p hp
        rcases List.mem_append.1 hp with hp | hp
        · exact a1.2 p hp
        · rw [List.mem_singleton] at hp
          subst hp
          exact ⟨b2, le_rfl⟩
      · simp [a2, h.object]

private theorem good_run (atoms : ι → List (Atom σ ρ)) (first : σ → τ) (second : τ → σ → β) (s0 : σ) (r0 : ρ)
    (xs : List ι) (reads : ℕ → ℕ) (schedule : List ℕ) :
    ∃ n, Good (xs.flatMap atoms) first second s0 r0
      ((Threads.start (Atoms.shared atoms first second) s0 ⟨r0, none, []⟩ (oneWriter xs reads)).run schedule) n := by
  induction schedule using List.reverseRecOn with
  | nil =>
    refine ⟨0, Nat.zero_le _, rfl, ?_, rfl, fun i hi => ⟨[], ⟨.nil, by simp⟩, rfl, Or.inl ⟨reads i, ?_⟩⟩⟩
    · show (oneWriter xs reads 0).flatMap (Atoms.shared atoms first second) = _
      simp only [oneWriter, if_true, List.flatMap_map, List.drop_zero, List.map_flatMap]
      rfl
    · show (oneWriter xs reads i).flatMap (Atoms.shared atoms first second) = _
      simp only [oneWriter, if_neg hi, gets]
      induction reads i with
      | zero => rfl
      | succ m ih => rw [List.replicate_succ, List.replicate_succ, List.flatMap_cons, List.flatMap_cons, ih]; rfl
  | append_singleton l i ih =>
    obtain ⟨n, hn⟩ := ih
    have : (Threads.start (Atoms.shared atoms first second) s0 ⟨r0, none, []⟩ (oneWriter xs reads)).run (l ++ [i])
        = ((Threads.start (Atoms.shared atoms first second) s0 ⟨r0, none, []⟩ (oneWriter xs reads)).run l).step i := by
      simp [Threads.run, List.foldl_append]
    rw [this]
    exact good_step hn i

/-- What a reader gets: the first load sees the object after `p.1` steps of the updating thread, the second
after `p.2`. -/
theorem answers (atoms : ι → List (Atom σ ρ)) (first : σ → τ) (second : τ → σ → β) (s0 : σ) (r0 : ρ)
    (xs : List ι) (reads : ℕ → ℕ) (schedule : List ℕ) (i : ℕ) (hi : i ≠ 0) :
    ∃ ps : List (ℕ × ℕ), ps.Pairwise (fun p p' => p.2 ≤ p'.1) ∧
      (∀ p ∈ ps, p.1 ≤ p.2 ∧ p.2 ≤ (xs.flatMap atoms).length) ∧
      (((Threads.start (Atoms.shared atoms first second) s0 ⟨r0, none, []⟩ (oneWriter xs reads)).run schedule).vars
        i).answers = ps.map fun p => second (first (stage (xs.flatMap atoms) s0 r0 p.1).1)
          (stage (xs.flatMap atoms) s0 r0 p.2).1 := by
  obtain ⟨n, hn⟩ := good_run atoms first second s0 r0 xs reads schedule
  obtain ⟨ps, h1, h2, -⟩ := hn.readers i hi
  exact ⟨ps, h1.1, fun p hp => ⟨(h1.2 p hp).1, (h1.2 p hp).2.trans hn.le⟩, h2⟩

/-- The object after `n` steps: whole updates, and a part of the next. -/
theorem stage_eq (atoms : ι → List (Atom σ ρ)) (update : σ → ι → σ) (c : ℕ) (hc : 1 ≤ c)
    (hlen : ∀ q, (atoms q).length = c) (hu : ∀ s q r, (runAtoms (atoms q) (s, r)).1 = update s q) (xs : List ι) :
    ∀ (s0 : σ) (r0 : ρ) (n : ℕ), ∃ r, stage (xs.flatMap atoms) s0 r0 n
      = runAtoms ((((xs.drop (n / c)).head?.map atoms).getD []).take (n % c)) ((xs.take (n / c)).foldl update s0, r) := by
  induction xs with
  | nil => intro s0 r0 n; exact ⟨r0, by simp [stage, runAtoms]⟩
  | cons x xs ih =>
    intro s0 r0 n
    by_cases hn : n < c
    · refine ⟨r0, ?_⟩
      rw [Nat.div_eq_of_lt hn, Nat.mod_eq_of_lt hn]
      simp only [stage, List.flatMap_cons, List.take_append, hlen x, Nat.sub_eq_zero_of_le hn.le, List.take_zero,
        List.append_nil, List.drop_zero, List.head?_cons, Option.map_some, Option.getD_some, List.foldl_nil]
    · obtain ⟨r, hr⟩ := ih (update s0 x) (runAtoms (atoms x) (s0, r0)).2 (n - c)
      refine ⟨r, ?_⟩
      have h1 : n / c = (n - c) / c + 1 := by
        rw [← Nat.add_div_right _ (by omega)]; congr 1; omega
      have h2 : n % c = (n - c) % c := by
        rw [← Nat.add_mod_right (n - c) c]; congr 1; omega
      rw [h1, h2, List.take_succ_cons, List.drop_succ_cons, List.foldl_cons, ← hr]
      simp only [stage, List.flatMap_cons, List.take_append, hlen x]
      rw [List.take_of_length_le (by rw [hlen]; omega)]
      simp only [runAtoms, List.foldl_append]
      congr 1
      have := hu s0 x r0
      simp only [runAtoms] at this
      rw [← this]

theorem flatMap_length (atoms : ι → List (Atom σ ρ)) (c : ℕ) (hlen : ∀ q, (atoms q).length = c) (xs : List ι) :
    (xs.flatMap atoms).length = c * xs.length := by
  induction xs with
  | nil => simp
  | cons x xs ih => simp [ih, hlen x]; ring

/-- One load per `get`: if after `n` steps that load sees the object after `f n` updates, reads are consistent. -/
theorem one_load (atoms : ι → List (Atom σ ρ)) (read : σ → β) (s0 : σ) (r0 : ρ) (update : σ → ι → σ) (f : ℕ → ℕ)
    (hf : Monotone f) (h : ∀ (xs : List ι) (n : ℕ), n ≤ (xs.flatMap atoms).length → f n ≤ xs.length ∧
      read (stage (xs.flatMap atoms) s0 r0 n).1 = read ((xs.take (f n)).foldl update s0)) :
    ReadsConsistent atoms read (fun v _ => v) s0 r0 update read := by
  intro xs reads schedule i hi
  obtain ⟨ps, h1, h2, h3⟩ := answers atoms read (fun v _ => v) s0 r0 xs reads schedule i hi
  refine ⟨ps.map fun p => f p.1, ?_, ?_, ?_⟩
  · rw [List.pairwise_map]
    refine h1.imp_of_mem fun {p q} hp hq hpq => hf ?_
    exact (h2 p hp).1.trans hpq
  · intro k hk
    obtain ⟨p, hp, rfl⟩ := List.mem_map.1 hk
    exact (h xs p.1 ((h2 p hp).1.trans (h2 p hp).2)).1
  · rw [h3, List.map_map]
    refine List.map_congr_left fun p hp => ?_
    exact (h xs p.1 ((h2 p hp).1.trans (h2 p hp).2)).2

theorem take_succ_foldl {γ : Type*} (update : γ → ι → γ) (s0 : γ) (xs : List ι) (k : ℕ) (x : ι)
    (h : (xs.drop k).head? = some x) : (xs.take (k + 1)).foldl update s0 = update ((xs.take k).foldl update s0) x ∧
      k + 1 ≤ xs.length := by
  have hk : k < xs.length := by
    by_contra hc
    rw [List.drop_of_length_le (by omega)] at h
    cases h
  rw [List.head?_drop, List.getElem?_eq_getElem hk, Option.some.injEq] at h
  rw [List.take_succ_eq_append_getElem hk, List.foldl_append, h]
  exact ⟨rfl, hk⟩

end ThreadReads

open ThreadReads

/-! ### Readers do not disturb the updating thread -/

/-- **C186.** Readers whose `get` stores nothing leave the object to the updating thread: when it is done, the
object is as after the updates alone. (CountMeter, SumMeter, AverageMeter, MaxMeter, the metrics.) -/
theorem C186_writer {σ ρ τ β ι : Type*} (atoms : ι → List (Atom σ ρ)) (first : σ → τ) (second : τ → σ → β) (s0 : σ)
    (r0 : ρ) (update : σ → ι → σ) (hu : ∀ s q r, (runAtoms (atoms q) (s, r)).1 = update s q) (xs : List ι)
    (reads : ℕ → ℕ) (schedule : List ℕ)
    (hf : ((Threads.start (Atoms.shared atoms first second) s0 ⟨r0, none, []⟩ (oneWriter xs reads)).run
      schedule).todo 0 = []) :
    ((Threads.start (Atoms.shared atoms first second) s0 ⟨r0, none, []⟩ (oneWriter xs reads)).run schedule).shared
      = xs.foldl update s0 := by
  obtain ⟨n, hn⟩ := ThreadReads.good_run atoms first second s0 r0 xs reads schedule
  rw [hn.object]
  have h1 := hn.todo
  rw [hf] at h1
  have h2 : (xs.flatMap atoms).length ≤ n := by
    have := congrArg List.length h1
    simp only [List.length_nil, List.length_map, List.length_drop] at this
    omega
  rw [stage, List.take_of_length_le h2]
  clear hn h1 h2 hf
  induction xs generalizing s0 r0 with
  | nil => rfl
  | cons x xs ih =>
    simp only [List.flatMap_cons, runAtoms, List.foldl_append, List.foldl_cons]
    have := ih (update s0 x) (runAtoms (atoms x) (s0, r0)).2
    rw [← this, ← hu s0 x r0]
    rfl

/-! ### What readers see -/

section
variable {K : Type*}

/-- **C186 (CountMeter).** -/
theorem C186_count (α : Type*) : ReadsConsistent (Atoms.count (α := α)) Reads.count (fun v _ => v) 0 0
    (countMeter α).update Reads.count := by
  refine one_load _ _ _ _ _ (fun n => n / 2) (fun a b h => Nat.div_le_div_right h) fun xs n hn => ?_
  rw [flatMap_length _ 2 (fun _ => rfl)] at hn
  refine ⟨by omega, ?_⟩
  obtain ⟨r, hr⟩ := stage_eq (Atoms.count (α := α)) (countMeter α).update 2 (by omega) (fun _ => rfl)
    (fun _ _ _ => rfl) xs 0 0 n
  rw [hr]
  cases hx : (xs.drop (n / 2)).head? with
  | none => simp [runAtoms]
  | some x =>
    rcases Nat.mod_two_eq_zero_or_one n with h | h <;> simp [h, runAtoms, Atoms.count]

variable [Field K]

private theorem sum_stage (xs : List K) (n : ℕ) (hn : n ≤ 4 * xs.length) :
    (stage (xs.flatMap Atoms.sum) ⟨0, 0⟩ (0, 0) n).1 =
      ⟨((xs.take ((n + 2) / 4)).foldl (averageMeter K).update ⟨0, 0⟩).sum,
        ((xs.take (n / 4)).foldl (averageMeter K).update ⟨0, 0⟩).numItems⟩ := by
  obtain ⟨r, hr⟩ := stage_eq (Atoms.sum (K := K)) (averageMeter K).update 4 (by omega) (fun _ => rfl)
    (fun _ _ _ => rfl) xs ⟨0, 0⟩ (0, 0) n
  rw [hr]
  have hm : n % 4 < 4 := Nat.mod_lt _ (by omega)
  cases hx : (xs.drop (n / 4)).head? with
  | none =>
    have h1 : xs.length ≤ n / 4 := by
      rw [List.head?_eq_none_iff, List.drop_eq_nil_iff] at hx; exact hx
    have h2 : (n + 2) / 4 = n / 4 := by omega
    simp [runAtoms, h2]
  | some x =>
    obtain ⟨h1, h2⟩ := take_succ_foldl (averageMeter K).update ⟨0, 0⟩ xs (n / 4) x hx
    have cases4 : n % 4 = 0 ∨ n % 4 = 1 ∨ n % 4 = 2 ∨ n % 4 = 3 := by omega
    rcases cases4 with h | h | h | h
    · have h3 : (n + 2) / 4 = n / 4 := by omega
      simp [h, h3, runAtoms]
    · have h3 : (n + 2) / 4 = n / 4 := by omega
      simp [h, h3, runAtoms, Atoms.sum]
    · have h3 : (n + 2) / 4 = n / 4 + 1 := by omega
      rw [h3, h1]
      simp [h, runAtoms, Atoms.sum, averageMeter]
    · have h3 : (n + 2) / 4 = n / 4 + 1 := by omega
      rw [h3, h1]
      simp [h, runAtoms, Atoms.sum, averageMeter]

/-- **C186 (SumMeter).** -/
theorem C186_sum : ReadsConsistent (Atoms.sum (K := K)) Reads.sum (fun v _ => v) ⟨0, 0⟩ (0, 0)
    (averageMeter K).update Reads.sum := by
  refine one_load _ _ _ _ _ (fun n => (n + 2) / 4) (fun a b h => Nat.div_le_div_right (by omega)) fun xs n hn => ?_
  rw [flatMap_length _ 4 (fun _ => rfl)] at hn
  exact ⟨by omega, by rw [sum_stage xs n hn]; rfl⟩

/-- **C186 (MaxMeter).** -/
theorem C186_max {α : Type*} [LinearOrder α] : ReadsConsistent (Atoms.maximum (K := α)) Reads.maximum (fun v _ => v)
    ⟨none, []⟩ false (maxMeter α).update Reads.maximum := by
  refine one_load _ _ _ _ _ (fun n => (n + 1) / 3) (fun a b h => Nat.div_le_div_right (by omega)) fun xs n hn => ?_
  rw [flatMap_length _ 3 (fun _ => rfl)] at hn
  refine ⟨by omega, ?_⟩
  have hu : ∀ (s : ExtremeState α) q r, (runAtoms (Atoms.maximum q) (s, r)).1 = (maxMeter α).update s q := by
    intro s q r
    obtain ⟨ext, lst⟩ := s
    cases ext with
    | none => simp [runAtoms, Atoms.maximum, maxMeter]
    | some m => by_cases h : m < q <;> simp [runAtoms, Atoms.maximum, maxMeter, h]
  obtain ⟨r, hr⟩ := stage_eq (Atoms.maximum (K := α)) (maxMeter α).update 3 (by omega) (fun _ => rfl) hu xs ⟨none, []⟩ false n
  rw [hr]
  cases hx : (xs.drop (n / 3)).head? with
  | none =>
    have h1 : xs.length ≤ n / 3 := by
      rw [List.head?_eq_none_iff, List.drop_eq_nil_iff] at hx; exact hx
    have h2 : (n + 1) / 3 = n / 3 := by omega
    simp [runAtoms, h2]
  | some x =>
    obtain ⟨h1, h2⟩ := take_succ_foldl (maxMeter α).update ⟨none, []⟩ xs (n / 3) x hx
    have cases3 : n % 3 = 0 ∨ n % 3 = 1 ∨ n % 3 = 2 := by omega
    rcases cases3 with h | h | h
    · have h3 : (n + 1) / 3 = n / 3 := by omega
      simp [h, h3, runAtoms]
    · have h3 : (n + 1) / 3 = n / 3 := by omega
      simp [h, h3, runAtoms, Atoms.maximum]
    · have h3 : (n + 1) / 3 = n / 3 + 1 := by omega
      rw [h3, h1]
      generalize (xs.take (n / 3)).foldl (maxMeter α).update ⟨none, []⟩ = s
      obtain ⟨ext, lst⟩ := s
      cases ext with
      | none => simp [h, runAtoms, Atoms.maximum, maxMeter, Reads.maximum]
      | some m => by_cases hm : m < x <;> simp [h, runAtoms, Atoms.maximum, maxMeter, Reads.maximum, hm]

/-- **C186 is false of AverageMeter**: of a stream of ones a reader may get the mean 1/2. -/
theorem C186_average_refuted : ¬ ReadsConsistent (Atoms.sum (K := ℚ)) Reads.sum Reads.average ⟨0, 0⟩ (0, 0)
    (averageMeter ℚ).update fun s => ((averageMeter ℚ).get s).out := by
  intro h
  obtain ⟨ks, -, h1, h2⟩ := h [1, 1] (fun _ => 1) [0, 0, 0, 0, 1, 0, 0, 0, 0, 1] 1 (by omega)
  have h3 : (((Threads.start (Atoms.shared (Atoms.sum (K := ℚ)) Reads.sum Reads.average) ⟨0, 0⟩ ⟨(0, 0), none, []⟩
      (oneWriter [1, 1] (fun _ => 1))).run [0, 0, 0, 0, 1, 0, 0, 0, 0, 1]).vars 1).answers.map (fun a => a.toOption)
        = [some (1 / 2)] := by decide +kernel
  rw [h2, List.map_map] at h3
  match ks, h3, congrArg List.length h3 with
  | [k], h3, _ =>
    have hk := h1 k (by simp)
    simp only [List.length_cons, List.length_nil] at hk
    have : ∀ k, k ≤ 2 → ((averageMeter ℚ).get (([1, 1].take k).foldl (averageMeter ℚ).update ⟨0, 0⟩)).out.toOption
        ≠ some (1 / 2) := by decide +kernel
    refine this k hk ?_
    simpa using h3

/-- **C186 (AverageMeter, partial).** What a reader gets is the sum of the first `p.1` values divided by
`p.2`, with `p.1` at most one more than `p.2`; the later the second load, the smaller the quotient may be. -/
theorem C186_average_partial (xs : List K) (reads : ℕ → ℕ) (schedule : List ℕ) (i : ℕ) (hi : i ≠ 0) :
    ∃ ps : List (ℕ × ℕ), (∀ p ∈ ps, p.1 ≤ p.2 + 1 ∧ p.1 ≤ xs.length ∧ p.2 ≤ xs.length) ∧
      (((Threads.start (Atoms.shared (Atoms.sum (K := K)) Reads.sum Reads.average) ⟨0, 0⟩ ⟨(0, 0), none, []⟩
        (oneWriter xs reads)).run schedule).vars i).answers
        = ps.map fun p => if p.2 = 0 then .error .zeroDivision else .ok ((xs.take p.1).sum / (p.2 : K)) := by
  obtain ⟨ps, h1, h2, h3⟩ := answers (Atoms.sum (K := K)) Reads.sum Reads.average ⟨0, 0⟩ (0, 0) xs reads schedule i hi
  rw [flatMap_length _ 4 (fun _ => rfl)] at h2
  refine ⟨ps.map fun p => ((p.1 + 2) / 4, p.2 / 4), ?_, ?_⟩
  · intro p hp
    obtain ⟨q, hq, rfl⟩ := List.mem_map.1 hp
    have := h2 q hq
    simp only
    omega
  · rw [h3, List.map_map]
    refine List.map_congr_left fun p hp => ?_
    have h4 := h2 p hp
    rw [sum_stage xs p.1 (h4.1.trans h4.2), sum_stage xs p.2 h4.2]
    have hs : ∀ (l : List K) (s : AverageState K), l.foldl (averageMeter K).update s
        = ⟨s.sum + l.sum, s.numItems + l.length⟩ := by
      intro l
      induction l with
      | nil => intro s; simp
      | cons x l ih => intro s; rw [List.foldl_cons, ih]; simp [averageMeter]; constructor <;> ring
    have hlen : (xs.take (p.2 / 4)).length = p.2 / 4 := by rw [List.length_take]; omega
    simp only [Reads.sum, Reads.average, hs, hlen, Function.comp, zero_add]
    by_cases h0 : p.2 / 4 = 0
    · simp [averageMeter, h0]
    · have : ((p.2 / 4 : ℕ) : ℤ) ≠ 0 := by exact_mod_cast h0
      simp only [averageMeter, if_neg h0, if_neg this]
      rw [Int.cast_natCast]
      rfl

/-! ### Metrics -/

private theorem metric_stage {Y P : Type*} (xs : List (Y × P)) (n : ℕ) (hn : n ≤ 2 * xs.length) :
    (stage (xs.flatMap Atoms.sklearn) ([], []) () n).1 =
      ((xs.take ((n + 1) / 2)).map Prod.fst, (xs.take (n / 2)).map Prod.snd) := by
  have hs : ∀ (l : List (Y × P)) (s : List Y × List P), l.foldl (fun s q => (s.1 ++ [q.1], s.2 ++ [q.2])) s
      = (s.1 ++ l.map Prod.fst, s.2 ++ l.map Prod.snd) := by
    intro l
    induction l with
    | nil => intro s; simp
    | cons x l ih => intro s; rw [List.foldl_cons, ih]; simp
  obtain ⟨r, hr⟩ := stage_eq (Atoms.sklearn (Y := Y) (P := P)) (fun s q => (s.1 ++ [q.1], s.2 ++ [q.2])) 2 (by omega)
    (fun _ => rfl) (fun _ _ _ => rfl) xs ([], []) () n
  rw [hr]
  cases hx : (xs.drop (n / 2)).head? with
  | none =>
    have h1 : xs.length ≤ n / 2 := by
      rw [List.head?_eq_none_iff, List.drop_eq_nil_iff] at hx; exact hx
    have h2 : (n + 1) / 2 = n / 2 := by omega
    simp [runAtoms, h2, hs]
  | some x =>
    have h1 := (take_succ_foldl (fun (l : List (Y × P)) q => l ++ [q]) [] xs (n / 2) x hx).1
    have h2 : ∀ l m : List (Y × P), l.foldl (fun l q => l ++ [q]) m = m ++ l := by
      intro l
      induction l with
      | nil => simp
      | cons x l ih => intro m; rw [List.foldl_cons, ih]; simp
    rw [h2, h2, List.nil_append, List.nil_append] at h1
    rcases Nat.mod_two_eq_zero_or_one n with h | h
    · have h3 : (n + 1) / 2 = n / 2 := by omega
      simp [h, h3, runAtoms, hs]
    · have h3 : (n + 1) / 2 = n / 2 + 1 := by omega
      rw [h3, h1]
      simp [h, runAtoms, Atoms.sklearn, hs]

/-- **C186 is false of the metrics**: a reader may get a `ValueError` in the middle of a stream. -/
theorem C186_metric_refuted : ¬ ReadsConsistent (Atoms.sklearn (Y := Bool) (P := Bool)) Prod.fst
    (Reads.metric checkedPrecision) ([], []) () (fun s q => (s.1 ++ [q.1], s.2 ++ [q.2]))
    fun s => checkedPrecision s.1 s.2 := by
  intro h
  obtain ⟨ks, -, h1, h2⟩ := h [(true, true)] (fun _ => 1) [0, 1, 1] 1 (by omega)
  have h3 : (((Threads.start (Atoms.shared (Atoms.sklearn (Y := Bool) (P := Bool)) Prod.fst
      (Reads.metric checkedPrecision)) ([], []) ⟨(), none, []⟩
      (oneWriter [(true, true)] (fun _ => 1))).run [0, 1, 1]).vars 1).answers.map (fun a => a.toOption)
        = [none] := by decide +kernel
  rw [h2, List.map_map] at h3
  match ks, h3, congrArg List.length h3 with
  | [k], h3, _ =>
    have hk := h1 k (by simp)
    simp only [List.length_cons, List.length_nil] at hk
    have : ∀ k, k ≤ 1 → (checkedPrecision (([(true, true)].take k).foldl (fun (s : List Bool × List Bool) q =>
        (s.1 ++ [q.1], s.2 ++ [q.2])) ([], [])).1 (([(true, true)].take k).foldl (fun (s : List Bool × List Bool) q =>
        (s.1 ++ [q.1], s.2 ++ [q.2])) ([], [])).2).toOption ≠ none := by decide +kernel
    refine this k hk ?_
    simpa using h3

omit [Field K] in
/-- **C186 (the metrics, partial).** Whatever a reader gets is the rating of a beginning of the stream or a
`ValueError`. -/
theorem C186_metric_partial {Y P : Type*} (evaluate : List Y → List P → Except PyErr K) (hc : ChecksLengths evaluate)
    (xs : List (Y × P)) (reads : ℕ → ℕ) (schedule : List ℕ) (i : ℕ) (hi : i ≠ 0) :
    ∀ a ∈ (((Threads.start (Atoms.shared (Atoms.sklearn (Y := Y) (P := P)) Prod.fst (Reads.metric evaluate)) ([], [])
        ⟨(), none, []⟩ (oneWriter xs reads)).run schedule).vars i).answers,
      a = .error .valueError ∨ ∃ k ≤ xs.length, a = evaluate ((xs.take k).map Prod.fst) ((xs.take k).map Prod.snd) := by
  obtain ⟨ps, h1, h2, h3⟩ := answers (Atoms.sklearn (Y := Y) (P := P)) Prod.fst (Reads.metric evaluate) ([], []) ()
    xs reads schedule i hi
  rw [flatMap_length _ 2 (fun _ => rfl)] at h2
  rw [h3]
  intro a ha
  obtain ⟨p, hp, rfl⟩ := List.mem_map.1 ha
  have h4 := h2 p hp
  rw [metric_stage xs p.1 (h4.1.trans h4.2), metric_stage xs p.2 h4.2]
  by_cases hk : (p.1 + 1) / 2 = p.2 / 2
  · right
    refine ⟨p.2 / 2, by omega, ?_⟩
    simp only [Reads.metric, hk]
  · left
    refine hc _ _ ?_
    simp only [List.length_map, List.length_take]
    omega

/-! ### MedianMeter -/

/-- **C186 is false of MedianMeter**: its `get` stores a sorted copy of the values, and a value that arrives
between the copy and the store is lost. After both updates the median of 1 and 2 cannot be read. -/
theorem C186_median_refuted :
    let t := (Threads.start (Atoms.median (K := ℚ)) ⟨[], 0⟩ (0, [], []) (oneWriter [1, 2] (fun i => if i = 1 then 1 else 0))).run
      [0, 0, 0, 1, 0, 1, 1, 0, 0]
    t.Finished ∧ t.shared = ⟨[1], 2⟩ ∧ ((medianMeter ℚ).get t.shared).out.toOption = none ∧
      ((medianMeter ℚ).get (([1, 2] : List ℚ).foldl (medianMeter ℚ).update ⟨[], 0⟩)).out.toOption = some (3 / 2) := by
  refine ⟨fun i => ?_, by decide +kernel, by decide +kernel, by decide +kernel⟩
  match i with
  | 0 => exact List.isEmpty_iff.1 (by decide +kernel)
  | 1 => exact List.isEmpty_iff.1 (by decide +kernel)
  | i + 2 => exact todo_nil _ _ _ rfl

end

/-! ### The hypotheses are met -/

/-- Thread 0 counts two values; two other threads read in between. -/
example : ((Threads.start (Atoms.shared (Atoms.count (α := ℕ)) Reads.count (fun v _ => v)) 0 ⟨0, none, []⟩
      (oneWriter [5, 6] (fun i => if i ≤ 2 then 2 else 0))).run [0, 1, 0, 2, 1, 1, 2, 0, 1, 0]).todo 0 = [] ∧
    (((Threads.start (Atoms.shared (Atoms.count (α := ℕ)) Reads.count (fun v _ => v)) 0 ⟨0, none, []⟩
      (oneWriter [5, 6] (fun i => if i ≤ 2 then 2 else 0))).run [0, 1, 0, 2, 1, 1, 2, 0, 1, 0]).vars 1).answers
        = [0, 1] :=
  ⟨List.isEmpty_iff.1 (by decide +kernel), by decide +kernel⟩

/-- A read in the middle of an update of the precision. -/
example : (((Threads.start (Atoms.shared (Atoms.sklearn (Y := Bool) (P := Bool)) Prod.fst
      (Reads.metric checkedPrecision)) ([], []) ⟨(), none, []⟩
      (oneWriter [(true, true), (false, true)] (fun i => if i = 1 then 2 else 0))).run [0, 0, 0, 1, 1, 0, 1, 1]).vars
        1).answers.map Except.toOption = [none, some (1 / 2)] := by decide +kernel

end Pysad
