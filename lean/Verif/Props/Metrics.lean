import Verif.Spec.Metrics
import Verif.Proofs.Meters
import Verif.Proofs.Moments

/-! Properties C30-C33: `pysad/evaluation`. -/

namespace Pysad

open Spec

section Windows
variable {α : Type*}

theorem windowsOf_snoc {w : ℕ} (hw : 1 ≤ w) (l : List α) (x : α) :
    windowsOf w (l ++ [x]) =
      (if (l.length + 1) % w = 0 then windowsOf w l ++ [restOf w l ++ [x]] else windowsOf w l) ∧
    restOf w (l ++ [x]) = if (l.length + 1) % w = 0 then [] else restOf w l ++ [x] := by
  have hlt : l.length / w * w ≤ l.length := Nat.div_mul_le_self _ _
  have hwin : ∀ k ∈ List.range (l.length / w),
      ((l ++ [x]).drop (k * w)).take w = (l.drop (k * w)).take w := by
    intro k hk
    have hk : k + 1 ≤ l.length / w := List.mem_range.1 hk
    have h1 : (k + 1) * w ≤ l.length / w * w := Nat.mul_le_mul_right _ hk
    have h2 : (k + 1) * w = k * w + w := by ring
    rw [List.drop_append_of_le_length (by omega), List.take_append_of_le_length (by
      rw [List.length_drop]; omega)]
  unfold windowsOf restOf
  rw [List.length_append, List.length_singleton, Nat.succ_div]
  by_cases hd : w ∣ l.length + 1
  · rw [if_pos hd, if_pos (Nat.mod_eq_zero_of_dvd hd), if_pos (Nat.mod_eq_zero_of_dvd hd)]
    have hq : (l.length / w + 1) * w = l.length + 1 := by
      have h1 := Nat.div_mul_cancel hd
      rw [Nat.succ_div, if_pos hd] at h1
      exact h1
    constructor
    · rw [List.range_succ, List.map_append, List.map_congr_left hwin]
      congr 1
      simp only [List.map_cons, List.map_nil, List.cons.injEq, and_true]
      rw [List.drop_append_of_le_length hlt, List.take_of_length_le]
      rw [List.length_append, List.length_drop]
      have : (l.length / w + 1) * w = l.length / w * w + w := by ring
      simp only [List.length_singleton]; omega
    · rw [hq]; simp
  · rw [if_neg hd, if_neg (by rwa [← Nat.dvd_iff_mod_eq_zero]),
      if_neg (by rwa [← Nat.dvd_iff_mod_eq_zero]), Nat.add_zero]
    exact ⟨List.map_congr_left hwin, List.drop_append_of_le_length hlt⟩

theorem windowsOf_length (w : ℕ) (l : List α) : (windowsOf w l).length = l.length / w := by
  simp [windowsOf]

end Windows

section Windowed
variable {κ σ Y P K : Type*} [Field K] [LinearOrder K] [IsStrictOrderedRing K]
  {mc : MetricClass κ σ Y P K} {k : κ} {v1 v0 : List (Y × P) → K}

/-- Scores of the completed windows. -/
private def scoresList (v1 v0 : List (Y × P) → K) : List (List (Y × P)) → List K
  | [] => []
  | win :: wins => v1 win :: wins.map v0

omit [Field K] [LinearOrder K] [IsStrictOrderedRing K] in
private theorem scoresList_snoc (wins : List (List (Y × P))) (win : List (Y × P)) :
    scoresList v1 v0 (wins ++ [win]) =
      scoresList v1 v0 wins ++ [if wins = [] then v1 win else v0 win] := by
  cases wins <;> simp [scoresList]

omit [Field K] [LinearOrder K] [IsStrictOrderedRing K] in
private theorem scoresList_length (wins : List (List (Y × P))) :
    (scoresList v1 v0 wins).length = wins.length := by cases wins <;> simp [scoresList]

omit [LinearOrder K] [IsStrictOrderedRing K] in
private theorem updates_snoc (s : WindowedState σ K) (l : List (Y × P)) (q : Y × P) :
    WindowedMetric.updates mc s (l ++ [q]) =
      (WindowedMetric.updates mc s l).bind fun _ s => WindowedMetric.update mc s q.1 q.2 := by
  induction l generalizing s with
  | nil =>
    simp only [List.nil_append, WindowedMetric.updates, Res.bind_ok]
    cases WindowedMetric.update mc s q.1 q.2 <;> rfl
  | cons a l ih =>
    simp only [List.cons_append, WindowedMetric.updates]
    cases WindowedMetric.update mc s a.1 a.2 <;> simp [ih]

private structure WInv (H1 : MetricSpec mc k v1) (H0 : MetricSpec mc mc.noKwargs v0) (w : ℕ)
    (ign : Bool) (l : List (Y × P)) (s : WindowedState σ K) : Prop where
  ign : s.ignoreNonemptyLast = ign
  size : s.windowSize = w
  step : s.step = l.length
  num : s.numWindows = l.length / w + 1
  sum : s.scoreMeter.sum = (scoresList v1 v0 (windowsOf w l)).sum
  count : s.scoreMeter.numItems = ((windowsOf w l).length : ℤ)
  first : windowsOf w l = [] → H1.R l s.metric
  later : windowsOf w l ≠ [] → H0.R (restOf w l) s.metric

omit [LinearOrder K] [IsStrictOrderedRing K] in
private theorem winv_step (H1 : MetricSpec mc k v1) (H0 : MetricSpec mc mc.noKwargs v0) {w : ℕ}
    (hw : 1 ≤ w) {ign : Bool} {l : List (Y × P)} {s : WindowedState σ K}
    (h : WInv H1 H0 w ign l s) (y : Y) (p : P) :
    ∃ s', WindowedMetric.update mc s y p = .ok () s' ∧ WInv H1 H0 w ign (l ++ [(y, p)]) s' := by
  obtain ⟨hs1, hs2⟩ := windowsOf_snoc hw l (y, p)
  have hrest : windowsOf w l = [] → restOf w l = l := by
    intro h0
    have := windowsOf_length w l
    rw [h0] at this
    simp [restOf, ← this]
  -- the metric after the update
  obtain ⟨m, hm, hmR⟩ : ∃ m, mc.update s.metric y p = .ok () m ∧
      ((windowsOf w l = [] → H1.R (l ++ [(y, p)]) m) ∧
       (windowsOf w l ≠ [] → H0.R (restOf w l ++ [(y, p)]) m)) := by
    by_cases h0 : windowsOf w l = []
    · obtain ⟨m, hm, hR⟩ := H1.update (h.first h0) y p
      exact ⟨m, hm, fun _ => hR, fun h1 => absurd h0 h1⟩
    · obtain ⟨m, hm, hR⟩ := H0.update (h.later h0) y p
      exact ⟨m, hm, fun h1 => absurd h1 h0, fun _ => hR⟩
  have hw0 : s.windowSize ≠ 0 := by rw [h.size]; omega
  unfold WindowedMetric.update
  simp only [hm, Res.mapState_ok, Res.bind_ok, if_neg hw0, h.size, h.step]
  by_cases hd : (l.length + 1) % w = 0
  · rw [if_pos hd] at hs1 hs2
    rw [if_neg (by omega), if_pos hd]
    -- reading the finished window
    obtain ⟨m', hm'⟩ : ∃ m', mc.get m =
        .ok (if windowsOf w l = [] then v1 (restOf w l ++ [(y, p)]) else v0 (restOf w l ++ [(y, p)]))
          m' := by
      by_cases h0 : windowsOf w l = []
      · obtain ⟨m', hg, -⟩ := H1.get (hmR.1 h0) (by simp)
        exact ⟨m', by rw [hg, if_pos h0, hrest h0]⟩
      · obtain ⟨m', hg, -⟩ := H0.get (hmR.2 h0) (by simp)
        exact ⟨m', by rw [hg, if_neg h0]⟩
    obtain ⟨n, hn, hnR⟩ := H0.new
    simp only [hm', Res.mapState_ok, Res.bind_ok, hn]
    have hdiv : (l.length + 1) / w = l.length / w + 1 := by
      rw [Nat.succ_div, if_pos (Nat.dvd_of_mod_eq_zero hd)]
    refine ⟨_, rfl, ⟨h.ign, rfl, by simp, ?_, ?_, ?_, ?_, ?_⟩⟩
    · simp [h.num, hdiv]
    · simp only [averageMeter]
      rw [hs1, scoresList_snoc, List.sum_append, h.sum]; simp
    · rw [hs1]; simp [averageMeter, h.count]
    · intro h0; rw [hs1] at h0; simp at h0
    · intro _; rw [hs2]; exact hnR
  · rw [if_neg hd] at hs1 hs2
    rw [if_neg (by omega), if_neg hd]
    have hdiv : (l.length + 1) / w = l.length / w := by
      rw [Nat.succ_div, if_neg (fun hh => hd (Nat.mod_eq_zero_of_dvd hh))]; rfl
    refine ⟨_, rfl, ⟨h.ign, rfl, by simp, ?_, ?_, ?_, ?_, ?_⟩⟩
    · simp [h.num, hdiv]
    · rw [hs1]; exact h.sum
    · rw [hs1]; exact h.count
    · intro h0; rw [hs1] at h0; exact hmR.1 h0
    · intro h0; rw [hs1] at h0; rw [hs2]; exact hmR.2 h0

/-- Everything about `WindowedMetric` on histories without exceptions: the first
window is evaluated by a metric built with the keyword arguments, every later
one by a metric built without. -/
theorem windowed_value (H1 : MetricSpec mc k v1) (H0 : MetricSpec mc mc.noKwargs v0) {w : ℕ}
    (hw : 1 ≤ w) (ign : Bool) (l : List (Y × P)) (hl : l ≠ []) :
    ∃ s0 s s', WindowedMetric.new mc w ign k = .ok s0 ∧
      WindowedMetric.updates mc s0 l = .ok () s ∧
      WindowedMetric.get mc s = .ok (windowedValue v1 v0 w ign l) s' := by
  obtain ⟨m0, hm0, hR0⟩ := H1.new
  refine ⟨⟨ign, w, m0, (averageMeter K).init, 0, 1⟩, ?_⟩
  have hinit : WInv H1 H0 w ign [] (⟨ign, w, m0, (averageMeter K).init, 0, 1⟩ :
      WindowedState σ K) :=
    ⟨rfl, rfl, rfl, by simp, by simp [averageMeter, windowsOf, scoresList],
      by simp [averageMeter, windowsOf],
      fun _ => hR0, fun h => absurd (by simp [windowsOf]) h⟩
  have hall : ∀ l : List (Y × P), ∃ s, WindowedMetric.updates mc
      (⟨ign, w, m0, (averageMeter K).init, 0, 1⟩ : WindowedState σ K) l = .ok () s ∧
      WInv H1 H0 w ign l s := by
    intro l
    induction l using List.reverseRecOn with
    | nil => exact ⟨_, rfl, hinit⟩
    | append_singleton l q ih =>
      obtain ⟨s, h1, h2⟩ := ih
      obtain ⟨s', h3, h4⟩ := winv_step H1 H0 hw h2 q.1 q.2
      exact ⟨s', by rw [updates_snoc, h1]; exact h3, h4⟩
  obtain ⟨s, hs, hinv⟩ := hall l
  have hlen := windowsOf_length w l
  suffices h : ∃ s', WindowedMetric.get mc s = .ok (windowedValue v1 v0 w ign l) s' by
    obtain ⟨s', h⟩ := h
    exact ⟨s, s', by simp [WindowedMetric.new, hm0], hs, h⟩
  unfold WindowedMetric.get windowedValue
  cases hwin : windowsOf w l with
  | nil =>
    rw [hwin] at hlen
    simp only [List.length_nil] at hlen
    rw [if_pos (by rw [hinv.num, ← hlen])]
    obtain ⟨m', hg, -⟩ := H1.get (hinv.first hwin) hl
    simp [hg]
  | cons win wins =>
    rw [hwin] at hlen
    simp only [List.length_cons] at hlen
    have hw0 : s.windowSize ≠ 0 := by rw [hinv.size]; omega
    rw [if_neg (by rw [hinv.num]; omega), if_neg (by simp [hw0])]
    have hcount : s.scoreMeter.numItems ≠ 0 := by rw [hinv.count, hwin]; simp; omega
    have hsum := hinv.sum
    rw [hwin] at hsum
    simp only [scoresList] at hsum
    have hrest : restOf w l = [] ↔ l.length % w = 0 := by
      unfold restOf
      rw [List.drop_eq_nil_iff]
      have := Nat.div_add_mod l.length w
      rw [mul_comm] at this
      omega
    have hmean : s.scoreMeter.sum / (s.scoreMeter.numItems : K) =
        meanOf ((v1 win :: wins.map v0 : List K) : Multiset K) := by
      unfold meanOf
      rw [hsum, hinv.count, hwin, Multiset.sum_coe, Multiset.coe_card]
      simp
    dsimp only
    by_cases hc : ign = true ∨ restOf w l = []
    · have hcond : ¬ ((!s.ignoreNonemptyLast && s.step % s.windowSize != 0) = true) := by
        rw [hinv.ign, hinv.step, hinv.size]
        rcases hc with hc | hc
        · simp [hc]
        · simp [hrest.1 hc]
      rw [if_neg hcond, if_pos hc]
      simp only [averageMeter, if_neg hcount, Res.mapState_ok, hmean]
      exact ⟨_, rfl⟩
    · push Not at hc
      have hcond : (!s.ignoreNonemptyLast && s.step % s.windowSize != 0) = true := by
        rw [hinv.ign, hinv.step, hinv.size]
        have := mt hrest.2 hc.2
        simp [this, hc.1]
      rw [if_pos hcond, if_neg (by push Not; exact hc)]
      obtain ⟨m', hg, -⟩ := H0.get (hinv.later (by simp [hwin])) hc.2
      simp only [hg, averageMeter, if_neg hcount, Res.mapState_ok, Res.bind_ok]
      have e : (v0 (restOf w l) + s.scoreMeter.sum / (s.scoreMeter.numItems : K) *
          ((s.numWindows : K) - 1)) / (s.numWindows : K) =
          meanOf ((v1 win :: wins.map v0) ++ [v0 (restOf w l)] : List K) := by
        rw [hsum, hinv.count, hinv.num, hwin, ← hlen]
        unfold meanOf
        rw [Multiset.sum_coe, Multiset.coe_card]
        simp only [List.sum_append, List.length_append, List.sum_cons, List.sum_nil,
          List.length_cons, List.length_map, List.length_nil, List.cons_append]
        have h1 : ((wins.length : K) + 1) ≠ 0 := by positivity
        have h2 : ((wins.length : K) + 1 + 1) ≠ 0 := by positivity
        push_cast
        field_simp
        ring
      rw [e]
      exact ⟨_, rfl⟩

/-- **C30.** Without keyword arguments `WindowedMetric.get()` after any nonempty
history is: the metric of everything so far before the first window is complete;
then the mean of the metric over the complete windows, together with the
nonempty last one if it is not ignored. -/
theorem C30_windowed_metric (val : List (Y × P) → K) (H : MetricSpec mc mc.noKwargs val) (w : ℕ)
    (hw : 1 ≤ w) (ign : Bool) (l : List (Y × P)) (hl : l ≠ []) :
    ∃ s0 s s', WindowedMetric.new mc w ign mc.noKwargs = .ok s0 ∧
      WindowedMetric.updates mc s0 l = .ok () s ∧
      WindowedMetric.get mc s = .ok (windowedValue val val w ign l) s' :=
  windowed_value H H hw ign l hl

end Windowed

/-! The keyword arguments. -/

/-- The full statement of **C31**: every window is evaluated by a metric built
with the keyword arguments `k` of the `WindowedMetric`, whose value is `v`. -/
def WindowsAlike : Prop :=
  ∀ (κ σ Y P : Type) (mc : MetricClass κ σ Y P ℚ) (k : κ) (v v0 : List (Y × P) → ℚ)
    (_ : MetricSpec mc k v) (_ : MetricSpec mc mc.noKwargs v0) (w : ℕ) (ign : Bool)
    (l : List (Y × P)) (s0 s s' : WindowedState σ ℚ) (r : ℚ), 1 ≤ w → l ≠ [] →
    WindowedMetric.new mc w ign k = .ok s0 → WindowedMetric.updates mc s0 l = .ok () s →
    WindowedMetric.get mc s = .ok r s' → r = windowedValue v v w ign l

/-- A metric with an option: it reports how many predictions exceed a threshold
given as keyword argument (default 0). -/
def thresholdMetric : MetricClass ℚ (ℚ × ℕ) ℕ ℚ ℚ where
  noKwargs := 0
  new k := .ok (k, 0)
  update s _ p := .ok () (s.1, if s.1 < p then s.2 + 1 else s.2)
  get s := .ok s.2 s

/-- It satisfies the hypotheses. -/
def thresholdMetric_spec (k : ℚ) : MetricSpec thresholdMetric k
    (fun l => ((l.filter fun q => k < q.2).length : ℚ)) where
  R l s := s = (k, (l.filter fun q => k < q.2).length)
  new := ⟨_, rfl, rfl⟩
  update := by
    rintro l s rfl y p
    refine ⟨_, rfl, ?_⟩
    by_cases h : k < p <;> simp [thresholdMetric, h, List.filter_cons]
  get := by rintro l s rfl _; exact ⟨_, rfl, rfl⟩

/-- **C31 is false.** With threshold 5 and windows of one item, the second
window is evaluated with the default threshold. -/
theorem C31_kwargs_refuted : ¬ WindowsAlike := by
  intro h
  have := h ℚ (ℚ × ℕ) ℕ ℚ thresholdMetric 5 _ _ (thresholdMetric_spec 5) (thresholdMetric_spec 0)
    1 true [(0, 1), (0, 1)]
    ⟨true, 1, (5, 0), ⟨0, 0⟩, 0, 1⟩ ⟨true, 1, (0, 0), ⟨1, 2⟩, 2, 3⟩ ⟨true, 1, (0, 0), ⟨1, 2⟩, 2, 3⟩ (1/2)
    le_rfl (by simp) (by rfl) (by decide +kernel) (by decide +kernel)
  revert this
  decide +kernel

/-- **C31**, partial: the first window (and everything before it is complete) is
evaluated with the keyword arguments; every later window is evaluated by a
metric built without any. Missing: the keyword arguments in later windows, where
the full statement is false. -/
theorem C31_kwargs_partial {κ σ Y P K : Type*} [Field K] [LinearOrder K] [IsStrictOrderedRing K]
    {mc : MetricClass κ σ Y P K} {k : κ} {v v0 : List (Y × P) → K}
    (H : MetricSpec mc k v) (H0 : MetricSpec mc mc.noKwargs v0) (w : ℕ)
    (hw : 1 ≤ w) (ign : Bool) (l : List (Y × P)) (hl : l ≠ []) :
    ∃ s0 s s', WindowedMetric.new mc w ign k = .ok s0 ∧
      WindowedMetric.updates mc s0 l = .ok () s ∧
      WindowedMetric.get mc s = .ok (windowedValue v v0 w ign l) s' :=
  windowed_value H H0 hw ign l hl

/-! Exceptions. -/

/-- The scores of the windows that were completed by an `update` that returned
normally, in a run where the caller catches exceptions. -/
def completedScores {κ σ Y P K : Type*} [Field K] (mc : MetricClass κ σ Y P K)
    (s : WindowedState σ K) : List (Y × P) → List K
  | [] => []
  | q :: qs =>
    (match WindowedMetric.update mc s q.1 q.2, mc.update s.metric q.1 q.2 with
      | .ok _ _, .ok _ m =>
        if (s.step + 1) % s.windowSize = 0 then
          match mc.get m with
          | .ok v _ => [v]
          | .err _ _ => []
        else []
      | _, _ => []) ++ completedScores mc (WindowedMetric.update mc s q.1 q.2).state qs

/-- The full statement of **C32**: however many `update` calls raised, `get()`
reports the mean over the completed windows, or (when the last window is not
ignored) over these and the current metric. -/
def RecoversFromFailure : Prop :=
  ∀ (κ σ Y P : Type) (mc : MetricClass κ σ Y P ℚ) (w : ℕ) (ign : Bool) (l : List (Y × P))
    (s0 : WindowedState σ ℚ), 1 ≤ w → WindowedMetric.new mc w ign mc.noKwargs = .ok s0 →
    completedScores mc s0 l ≠ [] →
    (WindowedMetric.get mc (WindowedMetric.updatesCaught mc s0 l)).out =
        .ok (meanOf (completedScores mc s0 l : List ℚ)) ∨
    (ign = false ∧ ∃ last m, mc.get (WindowedMetric.updatesCaught mc s0 l).metric = .ok last m ∧
      (WindowedMetric.get mc (WindowedMetric.updatesCaught mc s0 l)).out =
        .ok (meanOf (completedScores mc s0 l ++ [last] : List ℚ)))

/-- The history of the counterexample: windows of two; the first has AUROC 1, the
second has one class only, then one more item arrives. -/
def auroc_history : List (Bool × ℚ) := [(true, 1), (false, 0), (true, 0), (true, 0), (false, 1)]

/-- **C32 is false** for `AUROCMetric`: a window with a single class makes `update` raise
after the window counter was advanced, so the first window is counted twice: 2/3
is reported although one window was completed with AUROC 1 and the current
metric is 0. -/
theorem C32_recovery_refuted : ¬ RecoversFromFailure := by
  intro h
  have := h Unit (List Bool × List ℚ) Bool ℚ (aurocMetric rocAucScore) 2 false auroc_history
    ⟨false, 2, ([], []), ⟨0, 0⟩, 0, 1⟩ (by norm_num) rfl (by decide +kernel)
  have hg : (WindowedMetric.get (aurocMetric rocAucScore) (WindowedMetric.updatesCaught
      (aurocMetric rocAucScore) ⟨false, 2, ([], []), ⟨0, 0⟩, 0, 1⟩ auroc_history)).out =
      (.ok (2/3) : Except PyErr ℚ) := by decide +kernel
  have hc : completedScores (aurocMetric rocAucScore)
      ⟨false, 2, ([], []), ⟨0, 0⟩, 0, 1⟩ auroc_history = [(1 : ℚ)] := by decide +kernel
  have hm : (aurocMetric rocAucScore).get (WindowedMetric.updatesCaught
      (aurocMetric rocAucScore) (⟨false, 2, ([], []), ⟨0, 0⟩, 0, 1⟩ : WindowedState _ ℚ)
        auroc_history).metric =
      .ok (0 : ℚ) ([true, true, false], [0, 0, 1]) := by decide +kernel
  rw [hg, hc] at this
  rcases this with this | ⟨-, last, m, hl, this⟩
  · norm_num [meanOf] at this
  · rw [hm] at hl
    simp only [Res.ok.injEq] at hl
    rw [← hl.1] at this
    norm_num [meanOf] at this

section
variable {κ σ Y P K : Type*} [Field K] {mc : MetricClass κ σ Y P K}

/-- One step of the bookkeeping. -/
theorem caught_step (hnew : ∃ m, mc.new mc.noKwargs = .ok m) (s : WindowedState σ K)
    (q : Y × P) :
    let done := (match WindowedMetric.update mc s q.1 q.2, mc.update s.metric q.1 q.2 with
      | .ok _ _, .ok _ m =>
        if (s.step + 1) % s.windowSize = 0 then
          match mc.get m with
          | .ok v _ => [v]
          | .err _ _ => []
        else []
      | _, _ => [])
    let s' := (WindowedMetric.update mc s q.1 q.2).state
    s'.ignoreNonemptyLast = s.ignoreNonemptyLast ∧ s'.windowSize = s.windowSize ∧
    s'.scoreMeter.sum = s.scoreMeter.sum + done.sum ∧
    s'.scoreMeter.numItems = s.scoreMeter.numItems + done.length ∧
    s.numWindows + done.length ≤ s'.numWindows := by
  obtain ⟨n, hn⟩ := hnew
  unfold WindowedMetric.update
  cases hu : mc.update s.metric q.1 q.2 with
  | err e m => simp [hu]
  | ok u m =>
    by_cases h0 : s.windowSize = 0
    · simp [hu, h0]
    · by_cases h1 : (s.step + 1) % s.windowSize = 0
      · cases hg : mc.get m with
        | err e m' => simp [hu, h0, h1, hg]
        | ok v m' => simp [hu, h0, h1, hg, hn, averageMeter]
      · simp [hu, h0, h1]

theorem caught_inv (hnew : ∃ m, mc.new mc.noKwargs = .ok m) :
    ∀ (l : List (Y × P)) (s : WindowedState σ K),
    let s' := WindowedMetric.updatesCaught mc s l
    s'.ignoreNonemptyLast = s.ignoreNonemptyLast ∧ s'.windowSize = s.windowSize ∧
    s'.scoreMeter.sum = s.scoreMeter.sum + (completedScores mc s l).sum ∧
    s'.scoreMeter.numItems = s.scoreMeter.numItems + (completedScores mc s l).length ∧
    s.numWindows + (completedScores mc s l).length ≤ s'.numWindows := by
  intro l
  induction l with
  | nil => intro s; simp [WindowedMetric.updatesCaught, completedScores]
  | cons q l ih =>
    intro s
    have h1 := caught_step hnew s q
    have h2 := ih (WindowedMetric.update mc s q.1 q.2).state
    simp only [WindowedMetric.updatesCaught, completedScores, List.sum_append,
      List.length_append] at h1 h2 ⊢
    refine ⟨h2.1.trans h1.1, h2.2.1.trans h1.2.1, ?_, ?_, ?_⟩
    · rw [h2.2.2.1, h1.2.2.1, add_assoc]
    · rw [h2.2.2.2.1, h1.2.2.2.1]; push_cast; ring
    · have := h1.2.2.2.2; have := h2.2.2.2.2; omega

end

/-- **C32**, partial: with `ignore_nonempty_last=True` (the default), as soon as one window
was completed `get()` reports the mean over the completed windows, whichever
other updates raised. Missing: `ignore_nonempty_last=False`, where the full
statement is false. -/
theorem C32_recovery_partial {κ σ Y P K : Type*} [Field K] [CharZero K]
    (mc : MetricClass κ σ Y P K)
    (hnew : ∃ m, mc.new mc.noKwargs = .ok m) (k : κ) (w : ℕ) (l : List (Y × P))
    (s0 : WindowedState σ K) (h0 : WindowedMetric.new mc w true k = .ok s0)
    (hdone : completedScores mc s0 l ≠ []) :
    (WindowedMetric.get mc (WindowedMetric.updatesCaught mc s0 l)).out =
      .ok (meanOf (completedScores mc s0 l : List K)) := by
  have hs0 : s0.ignoreNonemptyLast = true ∧ s0.scoreMeter = ⟨0, 0⟩ ∧ s0.numWindows = 1 := by
    unfold WindowedMetric.new at h0
    cases hk : mc.new k with
    | error e => rw [hk] at h0; simp at h0
    | ok m => rw [hk] at h0; simp only [Except.ok.injEq] at h0; subst h0; exact ⟨rfl, rfl, rfl⟩
  obtain ⟨h1, h2, h3, h4, h5⟩ := caught_inv hnew l s0
  have hpos := List.length_pos_iff.2 hdone
  rw [hs0.1] at h1
  rw [hs0.2.1] at h3 h4
  rw [hs0.2.2] at h5
  unfold WindowedMetric.get
  rw [if_neg (by omega), if_neg (by simp [h1]), if_neg (by simp [h1])]
  simp only [averageMeter]
  rw [if_neg (by rw [h4]; simp; exact hdone), h3, h4]
  simp [meanOf]

example : completedScores (aurocMetric rocAucScore)
    (⟨true, 2, ([], []), ⟨0, 0⟩, 0, 1⟩ : WindowedState _ ℚ) auroc_history ≠ [] := by decide +kernel

/-! ### sklearn metrics -/

section SK
variable {Y P V : Type*}

/-- Feeding a metric. -/
def MetricClass.updates {κ σ : Type*} (mc : MetricClass κ σ Y P V) (s : σ) :
    List (Y × P) → Res σ Unit
  | [] => .ok () s
  | q :: qs => (mc.update s q.1 q.2).bind fun _ s => mc.updates s qs

/-- **C33.** `get()` evaluates the wrapped function on the whole history in
order, and leaves the metric unchanged. -/
theorem C33_history (evaluate : List Y → List P → Except PyErr V) (l : List (Y × P)) :
    ∃ s, (sklearnMetric evaluate).updates ([], []) l = .ok () s ∧
      ((sklearnMetric evaluate).get s).out = evaluate (l.map Prod.fst) (l.map Prod.snd) ∧
      ((sklearnMetric evaluate).get s).state = s := by
  suffices h : ∀ (l : List (Y × P)) (s : List Y × List P),
      (sklearnMetric evaluate).updates s l = .ok () (s.1 ++ l.map Prod.fst, s.2 ++ l.map Prod.snd) by
    refine ⟨_, h l _, ?_⟩
    simp only [sklearnMetric, List.nil_append]
    cases evaluate (l.map Prod.fst) (l.map Prod.snd) <;> simp
  intro l
  induction l with
  | nil => intro s; simp [MetricClass.updates]
  | cons q l ih =>
    intro s
    simp only [MetricClass.updates, sklearnMetric, Res.bind_ok] at ih ⊢
    rw [ih]; simp

/-- A sklearn metric whose function does not raise satisfies the hypotheses of **C30**. -/
def sklearn_metricSpec (f : List Y → List P → V) :
    MetricSpec (sklearnMetric fun y p => (.ok (f y p) : Except PyErr V)) ()
      (fun l => f (l.map Prod.fst) (l.map Prod.snd)) where
  R l s := s = (l.map Prod.fst, l.map Prod.snd)
  new := ⟨_, rfl, rfl⟩
  update := by rintro l s rfl y p; exact ⟨_, rfl, by simp⟩
  get := by rintro l s rfl _; exact ⟨_, rfl, rfl⟩

/-- **C33**: AUROC raises `ValueError` iff fewer than two distinct labels were given. -/
theorem C33_auroc_raises [DecidableEq Y] (rocAuc : List Y → List P → V) (l : List (Y × P)) :
    ∃ s, (aurocMetric rocAuc).updates ([], []) l = .ok () s ∧
      ((∃ t, (aurocMetric rocAuc).get s = .err .valueError t) ↔
        ∀ q ∈ l, ∀ r ∈ l, q.1 = r.1) ∧
      ((∃ q ∈ l, ∃ r ∈ l, q.1 ≠ r.1) →
        ((aurocMetric rocAuc).get s).out = .ok (rocAuc (l.map Prod.fst) (l.map Prod.snd))) := by
  obtain ⟨s, h1, h2, -⟩ := C33_history (fun (y : List Y) (p : List P) =>
    if y.dedup.length ≤ 1 then .error .valueError else (.ok (rocAuc y p) : Except PyErr V)) l
  refine ⟨s, h1, ?_⟩
  have hcard : (l.map Prod.fst).dedup.length ≤ 1 ↔ ∀ q ∈ l, ∀ r ∈ l, q.1 = r.1 := by
    rw [← List.card_toFinset, Finset.card_le_one]
    simp only [List.mem_toFinset, List.mem_map]
    constructor
    · intro h q hq r hr; exact h _ ⟨q, hq, rfl⟩ _ ⟨r, hr, rfl⟩
    · rintro h _ ⟨q, hq, rfl⟩ _ ⟨r, hr, rfl⟩; exact h q hq r hr
  change ((aurocMetric rocAuc).get s).out = _ at h2
  by_cases hc : (l.map Prod.fst).dedup.length ≤ 1
  · rw [if_pos hc] at h2
    cases hg : (aurocMetric rocAuc).get s with
    | ok a t => rw [hg] at h2; simp at h2
    | err e t =>
      rw [hg] at h2
      simp only [Res.out_err, Except.error.injEq] at h2
      subst h2
      have hall := hcard.1 hc
      refine ⟨by simpa using hall, ?_⟩
      rintro ⟨q, hq, r, hr, hne⟩; exact absurd (hall q hq r hr) hne
  · rw [if_neg hc] at h2
    cases hg : (aurocMetric rocAuc).get s with
    | err e t => rw [hg] at h2; simp at h2
    | ok a t =>
      rw [hg] at h2
      refine ⟨by simpa using (mt hcard.2 hc), fun _ => h2⟩

end SK

/-! Precision, recall and AUROC of a history. -/

section Values
variable {K : Type*} [Field K] [LinearOrder K] [IsStrictOrderedRing K]

theorem countPairs_eq (t p : Bool) (l : List (Bool × Bool)) :
    countPairs t p (l.map Prod.fst) (l.map Prod.snd) = l.count (t, p) := by
  unfold countPairs
  rw [← List.zip_of_prod (xs := l) rfl rfl, List.count, List.countP_eq_length_filter]
  rfl

/-- **C33**: precision is TP/(TP+FP) of the history, 0 if nothing was predicted
positive; it lies in [0,1] and does not depend on the order. -/
theorem C33_precision (l : List (Bool × Bool)) :
    (l.count (true, true) + l.count (false, true) ≠ 0 →
      precisionScore (l.map Prod.fst) (l.map Prod.snd) =
        (l.count (true, true) : K) / ((l.count (true, true) : K) + l.count (false, true))) ∧
    (l.count (true, true) + l.count (false, true) = 0 →
      precisionScore (l.map Prod.fst) (l.map Prod.snd) = (0 : K)) ∧
    0 ≤ (precisionScore (l.map Prod.fst) (l.map Prod.snd) : K) ∧
    (precisionScore (l.map Prod.fst) (l.map Prod.snd) : K) ≤ 1 ∧
    ∀ l' : List (Bool × Bool), l.Perm l' →
      (precisionScore (l.map Prod.fst) (l.map Prod.snd) : K) =
        precisionScore (l'.map Prod.fst) (l'.map Prod.snd) := by
  simp only [precisionScore, countPairs_eq]
  refine ⟨fun h => by rw [if_neg h]; push_cast; rfl, fun h => by rw [if_pos h], ?_, ?_, ?_⟩
  · split <;> positivity
  · split
    · exact zero_le_one
    · apply div_le_one_of_le₀ _ (by positivity)
      exact_mod_cast Nat.le_add_right _ _
  · intro l' h
    rw [h.count_eq, h.count_eq]

/-- **C33**: recall is TP/(TP+FN). -/
theorem C33_recall (l : List (Bool × Bool)) :
    (l.count (true, true) + l.count (true, false) ≠ 0 →
      recallScore (l.map Prod.fst) (l.map Prod.snd) =
        (l.count (true, true) : K) / ((l.count (true, true) : K) + l.count (true, false))) ∧
    (l.count (true, true) + l.count (true, false) = 0 →
      recallScore (l.map Prod.fst) (l.map Prod.snd) = (0 : K)) ∧
    0 ≤ (recallScore (l.map Prod.fst) (l.map Prod.snd) : K) ∧
    (recallScore (l.map Prod.fst) (l.map Prod.snd) : K) ≤ 1 ∧
    ∀ l' : List (Bool × Bool), l.Perm l' →
      (recallScore (l.map Prod.fst) (l.map Prod.snd) : K) =
        recallScore (l'.map Prod.fst) (l'.map Prod.snd) := by
  simp only [recallScore, countPairs_eq]
  refine ⟨fun h => by rw [if_neg h]; push_cast; rfl, fun h => by rw [if_pos h], ?_, ?_, ?_⟩
  · split <;> positivity
  · split
    · exact zero_le_one
    · apply div_le_one_of_le₀ _ (by positivity)
      exact_mod_cast Nat.le_add_right _ _
  · intro l' h
    rw [h.count_eq, h.count_eq]

/-- **C33**: these are the values the two metrics report for a history of labels and predictions. -/
theorem C33_reported (l : List (Bool × Bool)) :
    (∃ s, (precisionMetric K).updates ([], []) l = .ok () s ∧
      ((precisionMetric K).get s).out = .ok (if ∀ q ∈ l, q.2 = false then 0
        else (l.count (true, true) : K) / (l.countP fun q => q.2 : ℕ))) ∧
    (∃ s, (recallMetric K).updates ([], []) l = .ok () s ∧
      ((recallMetric K).get s).out = .ok (if ∀ q ∈ l, q.1 = false then 0
        else (l.count (true, true) : K) / (l.countP fun q => q.1 : ℕ))) := by
  have split2 : ∀ (f g : Bool × Bool), f ≠ g → ∀ p : Bool × Bool → Bool,
      (∀ q, p q = (q == f || q == g)) → l.count f + l.count g = l.countP p := by
    intro f g hfg p hp
    induction l with
    | nil => rfl
    | cons q l ih =>
      rw [List.count_cons, List.count_cons, List.countP_cons, hp q, ← ih]
      by_cases h1 : q = f
      · have h2 : ¬ q = g := fun h => hfg (h1.symm.trans h)
        simp only [beq_iff_eq, h1, h2, if_true, if_false, beq_self_eq_true, Bool.true_or]
        simp only [← h1, h2, if_false]
        omega
      · by_cases h2 : q = g
        · simp only [beq_iff_eq, h1, h2, if_true, if_false, beq_self_eq_true, Bool.or_true]
          simp only [← h2, h1, if_false]
          omega
        · simp [h1, h2]
  have zero : ∀ p : Bool × Bool → Bool, l.countP p = 0 ↔ ∀ q ∈ l, p q = false := by
    intro p
    rw [List.countP_eq_zero]
    simp
  constructor
  · obtain ⟨s, h1, h2, -⟩ := C33_history
      (fun y p => (Except.ok (precisionScore y p) : Except PyErr K)) l
    refine ⟨s, h1, h2.trans ?_⟩
    have e := split2 (true, true) (false, true) (by simp) (fun q => q.2)
      (by rintro ⟨_ | _, _ | _⟩ <;> rfl)
    simp only [precisionScore, countPairs_eq, e]
    by_cases h : ∀ q ∈ l, q.2 = false
    · rw [if_pos h, if_pos ((zero _).2 h)]
    · rw [if_neg h, if_neg fun h' => h ((zero _).1 h')]
  · obtain ⟨s, h1, h2, -⟩ := C33_history
      (fun y p => (Except.ok (recallScore y p) : Except PyErr K)) l
    refine ⟨s, h1, h2.trans ?_⟩
    have e := split2 (true, true) (true, false) (by simp) (fun q => q.1)
      (by rintro ⟨_ | _, _ | _⟩ <;> rfl)
    simp only [recallScore, countPairs_eq, e]
    by_cases h : ∀ q ∈ l, q.1 = false
    · rw [if_pos h, if_pos ((zero _).2 h)]
    · rw [if_neg h, if_neg fun h' => h ((zero _).1 h')]

omit [IsStrictOrderedRing K] in
theorem scoresOf_eq (t : Bool) (l : List (Bool × K)) :
    scoresOf t (l.map Prod.fst) (l.map Prod.snd) = (l.filter fun q => q.1 == t).map Prod.snd := by
  unfold scoresOf
  rw [← List.zip_of_prod (xs := l) rfl rfl]

/-- **C33**: AUROC (the Mann-Whitney statistic) lies in [0,1]. -/
theorem C33_auroc_range (y : List Bool) (p : List K) :
    0 ≤ rocAucScore y p ∧ rocAucScore y p ≤ 1 := by
  unfold rocAucScore
  have hterm : ∀ a b : K, 0 ≤ (if b < a then (1 : K) else if b = a then 1 / 2 else 0) ∧
      (if b < a then (1 : K) else if b = a then 1 / 2 else 0) ≤ 1 := by
    intro a b
    split_ifs
    · exact ⟨zero_le_one, le_rfl⟩
    · constructor <;> norm_num
    · exact ⟨le_rfl, zero_le_one⟩
  constructor
  · apply div_nonneg _ (by positivity)
    apply List.sum_nonneg
    intro x hx
    obtain ⟨a, -, rfl⟩ := List.mem_map.1 hx
    apply List.sum_nonneg
    intro z hz
    obtain ⟨b, -, rfl⟩ := List.mem_map.1 hz
    exact (hterm a b).1
  · apply div_le_one_of_le₀ _ (by positivity)
    have h1 : ∀ a : K, ((scoresOf false y p).map fun n =>
        if n < a then (1 : K) else if n = a then 1 / 2 else 0).sum ≤ (scoresOf false y p).length := by
      intro a
      have := List.sum_le_card_nsmul ((scoresOf false y p).map fun n =>
        if n < a then (1 : K) else if n = a then 1 / 2 else 0) 1 (by
          intro z hz
          obtain ⟨b, -, rfl⟩ := List.mem_map.1 hz
          exact (hterm a b).2)
      simpa using this
    have := List.sum_le_card_nsmul ((scoresOf true y p).map fun a => ((scoresOf false y p).map fun n =>
        if n < a then (1 : K) else if n = a then 1 / 2 else 0).sum) ((scoresOf false y p).length : K) (by
          intro z hz
          obtain ⟨b, -, rfl⟩ := List.mem_map.1 hz
          exact h1 b)
    simpa [nsmul_eq_mul] using this

/-- **C33**: AUROC does not depend on the order of the history, and only on how
the scores compare: a strictly increasing transformation changes nothing. -/
theorem C33_auroc_invariant (l l' : List (Bool × K)) (f : K → K) (hf : StrictMono f)
    (h : (l.map fun q => (q.1, f q.2)).Perm l') :
    rocAucScore (l'.map Prod.fst) (l'.map Prod.snd) =
      rocAucScore (l.map Prod.fst) (l.map Prod.snd) := by
  have hs : ∀ t, (scoresOf t (l'.map Prod.fst) (l'.map Prod.snd)).Perm
      ((scoresOf t (l.map Prod.fst) (l.map Prod.snd)).map f) := by
    intro t
    rw [scoresOf_eq, scoresOf_eq]
    have := ((h.filter fun q => q.1 == t).map Prod.snd).symm
    rw [List.filter_map, List.map_map] at this
    rw [List.map_map]
    exact this
  unfold rocAucScore
  simp only [(hs true).length_eq, (hs false).length_eq, List.length_map]
  congr 1
  rw [((hs true).map _).sum_eq, List.map_map]
  congr 1
  refine List.map_congr_left fun a _ => ?_
  simp only [Function.comp]
  rw [((hs false).map _).sum_eq, List.map_map]
  congr 1
  refine List.map_congr_left fun b _ => ?_
  simp only [Function.comp, hf.lt_iff_lt, hf.injective.eq_iff]

end Values

example : rocAucScore [true, false, true, false] [(9 : ℚ), 1, 4, 4] = 7 / 8 := by decide +kernel
example : precisionScore [true, false, true] [true, true, false] = (1 / 2 : ℚ) := by decide +kernel
example : windowedValue (fun l => (l.sum : ℚ)) List.sum 2 false [1, 2, 3, 4, 5] = 5 := by
  decide +kernel

end Pysad
