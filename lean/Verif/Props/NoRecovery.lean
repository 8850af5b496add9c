import Verif.Props.Interrupt
import Verif.Proofs.Statistics
import Mathlib.Analysis.SpecialFunctions.Pow.Real

/-! Property C177: an object whose updates were interrupted recovers. -/

namespace Pysad
open Spec

/-- However a history of calls is interrupted, after enough further complete calls the object answers like one
to which every interrupted call either happened or did not. -/
def Spec.Recovers {σ ι β : Type*} (statements : ι → σ → List (σ → σ)) (s : σ) (call : σ → ι → σ) (ask : σ → β) :
    Prop :=
  ∀ h : List (ι × Option ℕ), ∃ N : ℕ, ∀ X : List ι, N ≤ X.length → ∃ l, Reading h l ∧
    ask (afterCalls statements s (h ++ X.map fun x => (x, none))) = ask ((l ++ X).foldl call s)

namespace NoRecovery

theorem complete {σ ι : Type*} {statements : ι → σ → List (σ → σ)} {call : σ → ι → σ}
    (hc : ∀ s x, runStatements (statements x s) s = call s x) (X : List ι) (s : σ) :
    afterCalls statements s (X.map fun x => (x, none)) = X.foldl call s := by
  induction X generalizing s with
  | nil => rfl
  | cons x X ih =>
    rw [List.map_cons, List.foldl_cons, ← ih, ← hc]
    rfl

theorem never {σ ι β : Type*} {statements : ι → σ → List (σ → σ)} {s : σ} {call : σ → ι → σ} {ask : σ → β}
    (hc : ∀ s x, runStatements (statements x s) s = call s x) (h : List (ι × Option ℕ)) (X : ℕ → List ι)
    (hX : ∀ n, n ≤ (X n).length)
    (hr : ∀ n, ∀ l ∈ readings h,
      ask ((X n).foldl call (afterCalls statements s h)) ≠ ask ((X n).foldl call (l.foldl call s))) :
    ¬ Recovers statements s call ask := by
  intro H
  obtain ⟨n, H⟩ := H h
  obtain ⟨l, hl, he⟩ := H (X n) (hX n)
  refine hr n l (mem_readings hl) ?_
  rw [← complete hc, ← List.foldl_append, ← he]
  unfold afterCalls
  rw [List.foldl_append]

theorem foldl_replicate {σ ι : Type*} (f : σ → ι → σ) (x : ι) (P : ℕ → σ) (hP : ∀ n, f (P n) x = P (n + 1)) (n : ℕ) :
    (List.replicate n x).foldl f (P 0) = P n := by
  induction n with
  | zero => rfl
  | succ n ih => rw [List.replicate_succ', List.foldl_append, ih]; exact hP n

end NoRecovery
open NoRecovery

/-- The claim of **C177** for a statistic that is only updated. -/
def C177_statement {σ β K : Type*} (st : Statistic σ K β) (statements : K → σ → List (σ → σ)) : Prop :=
  Recovers statements st.init st.update fun s => (st.get s).out

/-- **C177 is false** for AverageMeter: after a first update by 1 that was interrupted, and however many
complete ones by 1, the average is above 1. -/
theorem C177_average_refuted : ¬ C177_statement (averageMeter ℚ) (fun x _ => Statements.sum (.update x)) := by
  refine never (fun s x => rfl) [(1, some 1)] (fun n => List.replicate (n + 1) 1) (by simp) ?_
  intro n l hl
  have hx : ∀ (a : ℚ) (k : ℤ) (m : ℕ), (List.replicate m (1 : ℚ)).foldl (averageMeter ℚ).update ⟨a, k⟩ =
      ⟨a + m, k + m⟩ := by
    intro a k m
    have := foldl_replicate (averageMeter ℚ).update 1 (fun m => (⟨a + m, k + m⟩ : AverageState ℚ))
      (fun m => by simp [averageMeter, add_assoc]) m
    simpa using this
  have h1 : (((averageMeter ℚ).get ((List.replicate (n + 1) (1 : ℚ)).foldl (averageMeter ℚ).update
      (afterCalls (fun x _ => Statements.sum (.update x)) (averageMeter ℚ).init [(1, some 1)]))).out) =
      .ok (((n : ℚ) + 2) / (n + 1)) := by
    change ((averageMeter ℚ).get ((List.replicate (n + 1) (1 : ℚ)).foldl (averageMeter ℚ).update ⟨0 + 1, 0⟩)).out = _
    rw [hx]
    simp only [averageMeter]
    rw [if_neg (by push_cast; omega)]
    simp only [Res.out]
    congr 1
    push_cast
    ring
  have h2 : ∀ (a : ℚ) (k : ℤ), a = k → 0 ≤ k → ((averageMeter ℚ).get
      ((List.replicate (n + 1) (1 : ℚ)).foldl (averageMeter ℚ).update ⟨a, k⟩)).out = .ok 1 := by
    intro a k hak hk
    rw [hx]
    simp only [averageMeter]
    rw [if_neg (by push_cast; omega)]
    simp only [Res.out, hak]
    congr 1
    push_cast
    rw [div_self]
    have : (0 : ℚ) ≤ k := by exact_mod_cast hk
    positivity
  have h3 : ((n : ℚ) + 2) / (n + 1) ≠ 1 := by
    rw [Ne, div_eq_one_iff_eq (by positivity)]
    linarith
  simp only [readings, List.map_cons, List.map_nil, List.cons_append, List.nil_append, List.mem_cons,
    List.not_mem_nil, or_false] at hl
  rw [h1]
  rcases hl with rfl | rfl
  · intro he
    have := he.trans (h2 (0 + 1) (0 + 1) (by norm_num) (by norm_num))
    exact h3 (Except.ok.inj this)
  · intro he
    have := he.trans (h2 0 0 (by norm_num) le_rfl)
    exact h3 (Except.ok.inj this)

/-- **C177**, AverageMeter, as far as it holds: the average is that of a meter to which every interrupted update
either happened or did not, but divided by a number that is too small by at most one for every interruption. -/
theorem C177_average_partial {K : Type*} [Field K] [LinearOrder K] (h : List (K × Option ℕ)) :
    ∃ l, Reading h l ∧ ∃ k ≤ interruptions h,
      ((averageMeter K).get (afterCalls (fun x _ => Statements.sum (.update x)) (averageMeter K).init h)).out =
        if l.length = k then .error .zeroDivision else .ok (l.sum / (((l.length : ℤ) - k : ℤ) : K)) := by
  have key : ∃ l, Reading h l ∧ ∃ k ≤ interruptions h, k ≤ l.length ∧
      afterCalls (fun x _ => Statements.sum (.update x)) (averageMeter K).init h =
        ⟨l.sum, (l.length : ℤ) - k⟩ := by
    suffices H : ∀ (h : List (K × Option ℕ)) (a : K) (m : ℤ), ∃ l, Reading h l ∧ ∃ k ≤ interruptions h, k ≤ l.length ∧
        afterCalls (fun x _ => Statements.sum (.update x)) (⟨a, m⟩ : AverageState K) h =
          ⟨a + l.sum, m + ((l.length : ℤ) - k)⟩ by
      obtain ⟨l, h1, k, h2, h3, h4⟩ := H h 0 0
      exact ⟨l, h1, k, h2, h3, by simpa [averageMeter] using h4⟩
    intro h
    induction h with
    | nil => intro a m; exact ⟨[], .nil, 0, le_rfl, le_rfl, by simp [afterCalls]⟩
    | cons e h ih =>
      intro a m
      obtain ⟨x, o⟩ := e
      have took : ∀ o, interruptions h ≤ interruptions ((x, o) :: h) → Reading ((x, o) :: h) = Reading ((x, o) :: h) →
          (∀ l, Reading h l → Reading ((x, o) :: h) (x :: l)) →
          afterCalls (fun x _ => Statements.sum (.update x)) (⟨a, m⟩ : AverageState K) ((x, o) :: h) =
            afterCalls (fun x _ => Statements.sum (.update x)) ⟨a + x, m + 1⟩ h →
          ∃ l, Reading ((x, o) :: h) l ∧ ∃ k ≤ interruptions ((x, o) :: h), k ≤ l.length ∧
            afterCalls (fun x _ => Statements.sum (.update x)) (⟨a, m⟩ : AverageState K) ((x, o) :: h) =
              ⟨a + l.sum, m + ((l.length : ℤ) - k)⟩ := by
        intro o hi _ hr ha
        obtain ⟨l, h1, k, h2, h3, h4⟩ := ih (a + x) (m + 1)
        refine ⟨x :: l, hr l h1, k, h2.trans hi, by simp; omega, ?_⟩
        rw [ha, h4]
        simp only [List.sum_cons, List.length_cons, AverageState.mk.injEq]
        constructor
        · ring
        · push_cast; ring
      cases o with
      | none => exact took none (by simp [interruptions]) rfl (fun l hl => .done hl) rfl
      | some j =>
        have hi : interruptions ((x, some j) :: h) = interruptions h + 1 := by simp [interruptions]
        match j with
        | 0 =>
          obtain ⟨l, h1, k, h2, h3, h4⟩ := ih a m
          exact ⟨l, .lost h1, k, by omega, h3, h4⟩
        | 1 =>
          obtain ⟨l, h1, k, h2, h3, h4⟩ := ih (a + x) m
          refine ⟨x :: l, .took h1, k + 1, by omega, by simp; omega, ?_⟩
          change afterCalls (fun x _ => Statements.sum (.update x)) ⟨a + x, m⟩ h = _
          rw [h4]
          simp only [List.sum_cons, List.length_cons, AverageState.mk.injEq]
          constructor
          · ring
          · push_cast; ring
        | j + 2 => exact took (some (j + 2)) (by omega) rfl (fun l hl => .took hl) (by
            simp [afterCalls, Statements.sum, runStatements])
  obtain ⟨l, h1, k, h2, h3, h4⟩ := key
  refine ⟨l, h1, k, h2, ?_⟩
  rw [h4]
  simp only [averageMeter]
  by_cases hk : l.length = k
  · rw [if_pos hk, if_pos (by rw [hk]; simp)]; rfl
  · rw [if_neg hk, if_neg (by omega)]; rfl

/-- **C177 is false** for Window of every size: it keeps an instance too many. -/
theorem C177_window_refuted (w : ℕ) :
    ¬ Recovers (fun c _ => Statements.window c) (Window.new w : Window ℚ) Window.update Window.get := by
  have hc : ∀ (s : Window ℚ) (x : ℚ), runStatements (Statements.window x) s = s.update x := by
    intro s x
    simp only [runStatements, Statements.window, List.foldl, Window.update]
  refine never hc (List.replicate w (0, none) ++ [(0, some 1)]) (fun n => List.replicate n 0) (by simp) ?_
  intro n l hl he
  have hlen : ∀ (X : List ℚ) (s : Window ℚ), s.windowSize = w → w + 1 ≤ s.window.length →
      w + 1 ≤ (X.foldl Window.update s).window.length := by
    intro X
    induction X with
    | nil => intro s _ h; exact h
    | cons x X ih =>
      intro s hs h
      refine ih _ ?_ ?_
      · unfold Window.update; simp only; split_ifs <;> exact hs
      · unfold Window.update
        simp only [List.length_append, List.length_singleton]
        rw [if_pos (by omega)]
        simp [pyTail]
        omega
  have hshort : ∀ (X : List ℚ) (s : Window ℚ), s.windowSize = w → s.window.length ≤ w →
      (X.foldl Window.update s).windowSize = w ∧ (X.foldl Window.update s).window.length ≤ w := by
    intro X
    induction X with
    | nil => intro s hs h; exact ⟨hs, h⟩
    | cons x X ih =>
      intro s hs h
      refine ih _ ?_ ?_
      · unfold Window.update; simp only; split_ifs <;> exact hs
      · unfold Window.update
        simp only [List.length_append, List.length_singleton]
        split_ifs
        · simp [pyTail]; omega
        · simp; omega
  have hfull : ∀ m ≤ w, afterCalls (fun c _ => Statements.window c) (Window.new w : Window ℚ)
      (List.replicate m (0, none)) = ⟨w, List.replicate m 0⟩ := by
    intro m
    induction m with
    | zero => intro _; rfl
    | succ m ih =>
      intro hm
      rw [List.replicate_succ']
      unfold afterCalls at ih ⊢
      rw [List.foldl_append, ih (by omega)]
      change runStatements (Statements.window 0) _ = _
      rw [hc]
      unfold Window.update
      simp only [List.length_append, List.length_replicate, List.length_singleton]
      rw [if_neg (by omega), List.replicate_succ']
  have hstart : afterCalls (fun c _ => Statements.window c) (Window.new w : Window ℚ)
      (List.replicate w (0, none) ++ [(0, some 1)]) = ⟨w, List.replicate w 0 ++ [0]⟩ := by
    have := hfull w le_rfl
    unfold afterCalls at this ⊢
    rw [List.foldl_append, this]
    rfl
  rw [hstart] at he
  have a := hlen (List.replicate n 0) ⟨w, List.replicate w 0 ++ [0]⟩ rfl (by simp)
  have b := hshort l (Window.new w) rfl (by simp [Window.new])
  have c := hshort (List.replicate n 0) _ b.1 b.2
  have := congrArg List.length he
  simp only [Window.get] at this
  omega

/-- **C177 is false** for RunningStatistic with AverageMeter: the value that was stored and not counted is
subtracted when it leaves the window, for good. -/
theorem C177_running_refuted :
    ¬ Recovers (fun x _ => Statements.runningAverage x) (RunningStatistic.new (averageMeter ℚ) 1)
      (fun s x => (RunningStatistic.update (averageMeter ℚ) s x).state)
      fun s => (RunningStatistic.get (averageMeter ℚ) s).out := by
  refine never (fun s x => by rw [runningAverage_complete]; rfl) [(1, some 1)]
    (fun n => List.replicate (n + 1) 1) (by simp) ?_
  intro n l hl
  have fixed : ∀ s : RunningState (AverageState ℚ) ℚ,
      (RunningStatistic.update (averageMeter ℚ) s 1).state = s → ∀ m, (List.replicate m (1 : ℚ)).foldl
        (fun s x => (RunningStatistic.update (averageMeter ℚ) s x).state) s = s := fun s hs m =>
    foldl_replicate (fun s x => (RunningStatistic.update (averageMeter ℚ) s x).state) 1 (fun _ => s) (fun _ => hs) m
  have h1 := fixed ⟨1, ⟨0, 0⟩, [1]⟩ (by decide +kernel)
  have h2 := fixed ⟨1, ⟨1, 1⟩, [1]⟩ (by decide +kernel)
  simp only [readings, List.map_cons, List.map_nil, List.cons_append, List.nil_append, List.mem_cons,
    List.not_mem_nil, or_false] at hl
  have e1 : afterCalls (fun x _ => Statements.runningAverage x) (RunningStatistic.new (averageMeter ℚ) 1)
      [((1 : ℚ), some 1)] = ⟨1, ⟨0, 0⟩, [1]⟩ := by decide +kernel
  rw [e1, h1 (n + 1)]
  have e2 : (List.replicate (n + 1) (1 : ℚ)).foldl (fun s x => (RunningStatistic.update (averageMeter ℚ) s x).state)
      (l.foldl (fun s x => (RunningStatistic.update (averageMeter ℚ) s x).state)
        (RunningStatistic.new (averageMeter ℚ) 1)) = ⟨1, ⟨1, 1⟩, [1]⟩ := by
    rcases hl with rfl | rfl
    · have : [(1 : ℚ)].foldl (fun s x => (RunningStatistic.update (averageMeter ℚ) s x).state)
          (RunningStatistic.new (averageMeter ℚ) 1) = ⟨1, ⟨1, 1⟩, [1]⟩ := by decide +kernel
      rw [this]
      exact h2 (n + 1)
    · have : (RunningStatistic.update (averageMeter ℚ) (RunningStatistic.new (averageMeter ℚ) 1) 1).state =
          ⟨1, ⟨1, 1⟩, [1]⟩ := by decide +kernel
      rw [List.replicate_succ, List.foldl_nil, List.foldl_cons, this]
      exact h2 n
  rw [e2]
  decide +kernel

/-- **C177 is false** for ExactStorm. -/
theorem C177_storm_refuted :
    ¬ Recovers (fun x _ => Statements.storm x) (StormState.new 2 1 : StormState ℚ ℚ)
      (fun s x => ((exactStorm (β := Unit) (fun a b : ℚ => |a - b|)).fitPartial s x none).state)
      fun s => ((exactStorm (β := Unit) (fun a b : ℚ => |a - b|)).scorePartial s 0).out := by
  have hc : ∀ (s : StormState ℚ ℚ) (x : ℚ), runStatements (Statements.storm x) s =
      ((exactStorm (β := Unit) (fun a b : ℚ => |a - b|)).fitPartial s x none).state := by
    intro s x
    simp only [runStatements, Statements.storm, Statements.window, List.map, List.foldl, exactStorm, Window.update,
      Res.state]
  refine never hc [(0, none), (9, none), (0, some 1)]
    (fun n => [9] ++ (List.replicate (n + 1) [0, 9]).flatten) (by intro n; simp; omega) ?_
  intro n l hl
  have fixed : ∀ s : StormState ℚ ℚ, [0, 9].foldl (fun s x => ((exactStorm (β := Unit)
      (fun a b : ℚ => |a - b|)).fitPartial s x none).state) s = s → ∀ m, (List.replicate m [(0 : ℚ), 9]).flatten.foldl
      (fun s x => ((exactStorm (β := Unit) (fun a b : ℚ => |a - b|)).fitPartial s x none).state) s = s := by
    intro s hs m
    induction m with
    | zero => rfl
    | succ m ih => rw [List.replicate_succ, List.flatten_cons, List.foldl_append, hs, ih]
  have h1 := fixed ⟨1, ⟨2, [9, 0, 9]⟩⟩ rfl
  have h2 := fixed ⟨1, ⟨2, [0, 9]⟩⟩ rfl
  have hstart : afterCalls (fun x _ => Statements.storm x) (StormState.new 2 1 : StormState ℚ ℚ)
      [(0, none), (9, none), (0, some 1)] = ⟨1, ⟨2, [0, 9, 0]⟩⟩ := rfl
  rw [hstart, List.foldl_append, List.foldl_append]
  have e1 : [(9 : ℚ)].foldl (fun s x => ((exactStorm (β := Unit) (fun a b : ℚ => |a - b|)).fitPartial s x none).state)
      ⟨1, ⟨2, [0, 9, 0]⟩⟩ = ⟨1, ⟨2, [9, 0, 9]⟩⟩ := rfl
  rw [e1, h1]
  simp only [readings, List.map_cons, List.map_nil, List.cons_append, List.nil_append, List.mem_cons,
    List.not_mem_nil, or_false] at hl
  have e2 : (List.replicate (n + 1) [(0 : ℚ), 9]).flatten.foldl
      (fun s x => ((exactStorm (β := Unit) (fun a b : ℚ => |a - b|)).fitPartial s x none).state)
      ([(9 : ℚ)].foldl (fun s x => ((exactStorm (β := Unit) (fun a b : ℚ => |a - b|)).fitPartial s x none).state)
        (l.foldl (fun s x => ((exactStorm (β := Unit) (fun a b : ℚ => |a - b|)).fitPartial s x none).state)
          (StormState.new 2 1))) = ⟨1, ⟨2, [0, 9]⟩⟩ := by
    rcases hl with rfl | rfl
    · exact h2 (n + 1)
    · rw [List.replicate_succ, List.flatten_cons, List.foldl_append]
      exact h2 n
  rw [e2]
  decide +kernel

/-- **C177 is false** for VarianceMeter: after a first update by 1 that was interrupted, and however many
complete ones by 0, the square of 1 is counted and 1 is not. -/
theorem C177_variance_refuted : ¬ C177_statement (varianceMeter ℚ) (fun x _ => Statements.variance x) := by
  refine never (fun s x => rfl) [(1, some 1)] (fun n => List.replicate (n + 1) 0) (by simp) ?_
  intro n l hl
  have hx : ∀ (a b : ℚ) (i j k : ℤ) (m : ℕ), (List.replicate m (0 : ℚ)).foldl (varianceMeter ℚ).update
      ⟨⟨a, i⟩, ⟨b, j⟩, k⟩ = ⟨⟨a, i + m⟩, ⟨b, j + m⟩, k + m⟩ := by
    intro a b i j k m
    have := foldl_replicate (varianceMeter ℚ).update 0
      (fun m => (⟨⟨a, i + m⟩, ⟨b, j + m⟩, k + m⟩ : VarianceState ℚ))
      (fun m => by simp [varianceMeter, sumMeter, sumSquaresMeter, countMeter, add_assoc]) m
    simpa using this
  have hget : ∀ (a b : ℚ) (i j : ℤ) (k : ℤ), 0 ≤ k → ((varianceMeter ℚ).get ((List.replicate (n + 1) (0 : ℚ)).foldl
      (varianceMeter ℚ).update ⟨⟨a, i⟩, ⟨b, j⟩, k⟩)).out =
      .ok ((b - a * a / (k + (n + 1))) / (k + (n + 1))) := by
    intro a b i j k hk
    rw [hx]
    simp only [varianceMeter]
    rw [if_neg (by push_cast; omega)]
    simp only [Res.out]
    push_cast
    rfl
  have h1 := hget 0 (0 + 1 * 1) 0 0 0 le_rfl
  simp only [readings, List.map_cons, List.map_nil, List.cons_append, List.nil_append, List.mem_cons,
    List.not_mem_nil, or_false] at hl
  intro he
  have he1 := h1.symm.trans he
  rcases hl with rfl | rfl
  · have h2 := hget (0 + 1) (0 + 1 * 1) (0 + 1) (0 + 1) (0 + 1) (by norm_num)
    have := Except.ok.inj (he1.trans h2)
    push_cast at this
    have hn : (0 : ℚ) ≤ n := by positivity
    field_simp at this
    nlinarith
  · have h2 := hget 0 0 0 0 0 le_rfl
    have := Except.ok.inj (he1.trans h2)
    push_cast at this
    have hn : (0 : ℚ) ≤ n := by positivity
    field_simp at this
    norm_num at this
    linarith

/-- **C177 is false** for MedianMeter: after an interrupted update there is a value more than are counted. -/
theorem C177_median_refuted : ¬ C177_statement (medianMeter ℚ) (fun x _ => Statements.median x) := by
  refine never (fun s x => rfl) [(0, some 1)] (fun n => List.replicate n 0 ++ List.replicate (n + 1) 1)
    (by intro n; simp) ?_
  intro n l hl
  have hfold : ∀ (X : List ℚ) (s : MedianState ℚ), (X.foldl (medianMeter ℚ).update s).lst.Perm (s.lst ++ X) ∧
      (X.foldl (medianMeter ℚ).update s).numItems = s.numItems + X.length := by
    intro X
    induction X with
    | nil => intro s; simp
    | cons x X ih =>
      intro s
      obtain ⟨h1, h2⟩ := ih ((medianMeter ℚ).update s x)
      rw [List.foldl_cons]
      refine ⟨h1.trans ?_, ?_⟩
      · refine ((heappush_perm s.lst x).append_right X).trans ?_
        rw [List.cons_append]
        exact List.perm_middle.symm
      · rw [h2]
        simp only [medianMeter, List.length_cons]
        push_cast
        ring
  have hsorted : ∀ (a b : ℕ) (s : MedianState ℚ), s.lst.Perm (List.replicate a 0 ++ List.replicate b 1) →
      pySorted s.lst = List.replicate a 0 ++ List.replicate b 1 := by
    intro a b s hs
    rw [pySorted_eq_sort, Multiset.coe_eq_coe.2 hs]
    refine (Multiset.coe_eq_coe.1 (Multiset.sort_eq _ _)).eq_of_pairwise' (Multiset.pairwise_sort _ _) ?_
    rw [List.pairwise_append]
    refine ⟨List.pairwise_replicate_of_refl, List.pairwise_replicate_of_refl, ?_⟩
    intro u hu v hv
    rw [List.eq_of_mem_replicate hu, List.eq_of_mem_replicate hv]
    norm_num
  have hget : ∀ (z : ℕ) (k : ℤ) (s : MedianState ℚ), s.lst = List.replicate z 0 → s.numItems = k →
      ((medianMeter ℚ).get ((List.replicate n (0 : ℚ) ++ List.replicate (n + 1) 1).foldl (medianMeter ℚ).update s)).out =
      ((medianMeter ℚ).get ⟨List.replicate (z + n) 0 ++ List.replicate (n + 1) 1, k + (2 * n + 1)⟩).out := by
    intro z k s hs hk
    obtain ⟨h1, h2⟩ := hfold (List.replicate n 0 ++ List.replicate (n + 1) 1) s
    rw [hs, ← List.append_assoc, List.replicate_append_replicate] at h1
    rw [hk] at h2
    have h3 : k + ((List.replicate n (0 : ℚ) ++ List.replicate (n + 1) 1).length : ℤ) = k + (2 * n + 1) := by
      simp; ring
    rw [h3] at h2
    generalize (List.replicate n (0 : ℚ) ++ List.replicate (n + 1) 1).foldl (medianMeter ℚ).update s = t at h1 h2 ⊢
    have h4 := hsorted (z + n) (n + 1) t h1
    have h5 := hsorted (z + n) (n + 1) ⟨List.replicate (z + n) 0 ++ List.replicate (n + 1) 1, k + (2 * n + 1)⟩
      (List.Perm.refl _)
    simp only [medianMeter, h2, h4, h5]
  have hidx : ∀ (a : ℕ) (i : ℤ) (j : ℕ), i = j → j < a + (n + 1) →
      pyIndex (List.replicate a (0 : ℚ) ++ List.replicate (n + 1) 1) i = .ok (if j < a then 0 else 1) := by
    intro a i j hi hj
    subst hi
    unfold pyIndex
    simp only [if_neg (show ¬ ((j : ℤ) < 0) by omega), Int.toNat_natCast]
    by_cases h : j < a
    · rw [List.getElem?_append_left (by simpa using h), List.getElem?_replicate, if_pos h, if_pos h]
    · rw [List.getElem?_append_right (by simpa using h), List.getElem?_replicate, List.length_replicate,
        if_pos (by omega), if_neg h]
  have odd : ∀ z : ℕ, ((medianMeter ℚ).get ⟨List.replicate (z + n) 0 ++ List.replicate (n + 1) 1,
      0 + (2 * n + 1)⟩).out = .ok (if n < z + n then 0 else 1) := by
    intro z
    have h5 := hsorted (z + n) (n + 1) ⟨List.replicate (z + n) 0 ++ List.replicate (n + 1) 1, 0 + (2 * n + 1)⟩
      (List.Perm.refl _)
    simp only [medianMeter, h5]
    rw [if_neg (by omega), hidx (z + n) _ n (by omega) (by omega)]
    rfl
  have even : ((medianMeter ℚ).get ⟨List.replicate (1 + n) 0 ++ List.replicate (n + 1) 1,
      1 + (2 * n + 1)⟩).out = .ok (1 / 2) := by
    have h5 := hsorted (1 + n) (n + 1) ⟨List.replicate (1 + n) 0 ++ List.replicate (n + 1) 1, 1 + (2 * n + 1)⟩
      (List.Perm.refl _)
    simp only [medianMeter, h5]
    rw [if_pos (by omega), hidx (1 + n) _ (n + 1) (by omega) (by omega)]
    simp only [Res.ofExcept, Res.bind]
    rw [hidx (1 + n) _ n (by omega) (by omega), if_neg (show ¬ (n + 1 < 1 + n) by omega),
      if_pos (show n < 1 + n by omega)]
    simp [Res.out]
  rw [hget 1 0 _ (by decide +kernel) (by decide +kernel), odd 1, if_pos (by omega)]
  simp only [readings, List.map_cons, List.map_nil, List.cons_append, List.nil_append, List.mem_cons,
    List.not_mem_nil, or_false] at hl
  rcases hl with rfl | rfl
  · rw [hget 1 1 _ (by decide +kernel) (by decide +kernel), even]
    intro he
    have := Except.ok.inj he
    norm_num at this
  · rw [hget 0 0 _ rfl rfl, odd 0, if_neg (by omega)]
    intro he
    have := Except.ok.inj he
    norm_num at this

/-- `StandardAbsoluteDeviation.fit_partial`, `pysad/models/standard_absolute_deviation.py` l.43-44, statement by
statement, with the mean subtracted; instances of a length other than 1 are rejected in l.41. -/
def Statements.sadMean {K : Type*} [Add K] [Sub K] [Mul K] (X : List K) :
    List (SadState (AverageState K) K → SadState (AverageState K) K) :=
  match X with
  | [x] => ((Statements.variance x).map fun f s => { s with varianceMeter := f s.varianceMeter }) ++
      ((Statements.sum (.update x)).map fun f s => { s with subMeter := f s.subMeter })
  | _ => []

/-- **C177 is false** for StandardAbsoluteDeviation, whatever is chosen for `absolute`: an instance counts for
the deviation and not for the mean. -/
theorem C177_sad_refuted (absolute : Bool) :
    ¬ Recovers (fun x _ => Statements.sadMean x) (SadState.new (averageMeter ℝ) absolute)
      (fun s x => ((standardAbsoluteDeviation (β := Unit) Real.sqrt (averageMeter ℝ)).fitPartial s x none).state)
      fun s y => ((standardAbsoluteDeviation (β := Unit) Real.sqrt (averageMeter ℝ)).scorePartial s [y]).out := by
  set call := fun (s : SadState (AverageState ℝ) ℝ) (x : List ℝ) =>
    ((standardAbsoluteDeviation (β := Unit) Real.sqrt (averageMeter ℝ)).fitPartial s x none).state with hcall
  have hc : ∀ (s : SadState (AverageState ℝ) ℝ) (x : List ℝ), runStatements (Statements.sadMean x) s = call s x := by
    intro s x
    match x with
    | [] => rfl
    | [x] => rfl
    | _ :: _ :: _ => rfl
  refine never hc [([1], some 5)] (fun n => List.replicate (n + 1) [0]) (by simp) ?_
  intro n l hl he
  have hx : ∀ (a b c : ℝ) (i j k q : ℤ) (m : ℕ), (List.replicate m [(0 : ℝ)]).foldl call
      ⟨absolute, ⟨⟨a, i⟩, ⟨b, j⟩, k⟩, ⟨c, q⟩⟩ = ⟨absolute, ⟨⟨a, i + m⟩, ⟨b, j + m⟩, k + m⟩, ⟨c, q + m⟩⟩ := by
    intro a b c i j k q m
    have := foldl_replicate call [0]
      (fun m => (⟨absolute, ⟨⟨a, i + m⟩, ⟨b, j + m⟩, k + m⟩, ⟨c, q + m⟩⟩ : SadState (AverageState ℝ) ℝ))
      (fun m => by simp [hcall, standardAbsoluteDeviation, Res.state, averageMeter, varianceMeter, sumMeter,
        sumSquaresMeter, countMeter, add_assoc]) m
    simpa using this
  have hscore : ∀ (a b c : ℝ) (i j k q : ℤ) (y : ℝ), 0 ≤ k → 0 ≤ q →
      ((standardAbsoluteDeviation (β := Unit) Real.sqrt (averageMeter ℝ)).scorePartial
        ((List.replicate (n + 1) [(0 : ℝ)]).foldl call ⟨absolute, ⟨⟨a, i⟩, ⟨b, j⟩, k⟩, ⟨c, q⟩⟩) [y]).out =
      .ok (let v := (y - c / (q + (n + 1))) /
          (√((b - a * a / (k + (n + 1))) / (k + (n + 1))) + epsilon10)
        [.fin (if absolute then |v| else v)]) := by
    intro a b c i j k q y hk hq
    rw [hx]
    have hpos : (0 : ℝ) < √((b - a * a / (k + (n + 1))) / (k + (n + 1))) + epsilon10 := by
      have : (0 : ℝ) < epsilon10 := by unfold epsilon10; positivity
      have := Real.sqrt_nonneg ((b - a * a / ((k : ℝ) + (n + 1))) / (k + (n + 1)))
      linarith
    have e1 : (((k + ((n + 1 : ℕ) : ℤ) : ℤ)) : ℝ) = k + (n + 1) := by push_cast; ring
    have e2 : (((q + ((n + 1 : ℕ) : ℤ) : ℤ)) : ℝ) = q + (n + 1) := by push_cast; ring
    simp only [standardAbsoluteDeviation, averageMeter, varianceMeter]
    rw [if_neg (by push_cast; omega)]
    simp only [Res.mapState, Res.bind]
    rw [if_neg (by push_cast; omega)]
    simp only [Res.out, e1, e2, List.map_cons, List.map_nil]
    unfold npDiv
    rw [if_neg hpos.ne']
    cases absolute <;> rfl
  have hstart : afterCalls (fun x _ => Statements.sadMean x) (SadState.new (averageMeter ℝ) absolute)
      [([1], some 5)] = ⟨absolute, ⟨⟨0 + 1, 0 + 1⟩, ⟨0 + 1 * 1, 0 + 1⟩, 0 + 1⟩, ⟨0, 0⟩⟩ := rfl
  rw [hstart] at he
  have hε : (0 : ℝ) < epsilon10 := by unfold epsilon10; positivity
  have hn : (0 : ℝ) ≤ n := by positivity
  simp only [readings, List.map_cons, List.map_nil, List.cons_append, List.nil_append, List.mem_cons,
    List.not_mem_nil, or_false] at hl
  rcases hl with rfl | rfl
  · have h0 := congrFun he 0
    have h2 := hscore (0 + 1) (0 + 1 * 1) (0 + 1) (0 + 1) (0 + 1) (0 + 1) (0 + 1) 0 (by norm_num) (by norm_num)
    rw [hscore _ _ _ _ _ _ _ _ (by norm_num) (by norm_num)] at h0
    have h3 := h0.trans h2
    have h4 := Num.fin.inj (List.head_eq_of_cons_eq (Except.ok.inj h3))
    set r := √(((0 + 1 * 1 : ℝ) - (0 + 1) * (0 + 1) / (((0 + 1 : ℤ) : ℝ) + (n + 1))) / (((0 + 1 : ℤ) : ℝ) + (n + 1)))
    have hr : 0 ≤ r := Real.sqrt_nonneg _
    have h5 : ((0 : ℝ) - (0 + 1) / (((0 + 1 : ℤ) : ℝ) + (n + 1))) / (r + epsilon10) ≠ 0 := by
      apply div_ne_zero
      · push_cast
        have : (0 : ℝ) < (0 + 1) / ((0 + 1) + (n + 1)) := by positivity
        linarith
      · linarith
    have h6 : ((0 : ℝ) - 0 / (((0 : ℤ) : ℝ) + (n + 1))) / (r + epsilon10) = 0 := by simp
    simp only [h6] at h4
    cases absolute
    · exact h5 h4.symm
    · simp only [if_true, abs_zero] at h4
      exact h5 (abs_eq_zero.1 h4.symm)
  · have h0 := congrFun he 1
    have h2 := hscore 0 0 0 0 0 0 0 1 (by norm_num) (by norm_num)
    rw [hscore _ _ _ _ _ _ _ _ (by norm_num) (by norm_num)] at h0
    have h3 := h0.trans h2
    have h4 := Num.fin.inj (List.head_eq_of_cons_eq (Except.ok.inj h3))
    set r := √(((0 + 1 * 1 : ℝ) - (0 + 1) * (0 + 1) / (((0 + 1 : ℤ) : ℝ) + (n + 1))) / (((0 + 1 : ℤ) : ℝ) + (n + 1)))
      with hrdef
    have hr : 0 < r := by
      apply Real.sqrt_pos.2
      push_cast
      apply div_pos
      · rw [sub_pos, div_lt_iff₀ (by positivity)]; linarith
      · positivity
    have h7 : (1 : ℝ) / (r + epsilon10) = 1 / epsilon10 := by
      have ha : 0 < (1 : ℝ) / (r + epsilon10) := by positivity
      have hb : 0 < (1 : ℝ) / epsilon10 := by positivity
      cases absolute
      · simpa using h4
      · simp only [if_true] at h4
        simp only [zero_div, sub_zero, mul_zero, Real.sqrt_zero, zero_add] at h4
        rw [abs_of_pos ha, abs_of_pos hb] at h4
        exact h4
    rw [div_eq_div_iff (by positivity) (by positivity)] at h7
    linarith

end Pysad
