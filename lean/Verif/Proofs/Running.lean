import Verif.Proofs.Statistics
import Verif.Proofs.Lists

/-! `RunningStatistic` over any statistic that refines a bag specification. -/

namespace Pysad

open Spec

variable {σ α β : Type*} [DecidableEq α] {st : Statistic σ α β}
  {V : Multiset α → Except PyErr β → Prop} {R : Multiset α → σ → Prop}

omit [DecidableEq α] in
theorem RunningStatistic.updates_append (s : RunningState σ α) (xs ys : List α) :
    RunningStatistic.updates st s (xs ++ ys) =
      (RunningStatistic.updates st s xs).bind fun _ s => RunningStatistic.updates st s ys := by
  induction xs generalizing s with
  | nil => rfl
  | cons x xs ih =>
    simp only [List.cons_append, RunningStatistic.updates]
    cases RunningStatistic.update st s x with
    | ok a s' => simp [ih]
    | err e s' => simp

theorem Refines.running_step (hr : Refines st V R) (w : ℕ) (xs : List α) (x : α)
    (s : RunningState σ α) (h1 : s.windowSize = w) (h2 : s.window = lastN w xs)
    (h3 : R (lastN w xs : List α) s.statistic) :
    ∃ s', RunningStatistic.update st s x = .ok () s' ∧ s'.windowSize = w ∧
      s'.window = lastN w (xs ++ [x]) ∧ R (lastN w (xs ++ [x]) : List α) s'.statistic := by
  have hup := hr.update h3 x
  have e : x ::ₘ (lastN w xs : Multiset α) = ((lastN w xs ++ [x] : List α) : Multiset α) := by
    rw [Multiset.cons_coe]; exact Multiset.coe_eq_coe.2 (by
      simpa using (List.perm_append_comm (l₁ := [x]) (l₂ := lastN w xs)))
  rw [e] at hup
  unfold RunningStatistic.update
  simp only [h1, h2]
  rw [lastN_snoc]
  split
  · rename_i hgt
    cases hl : lastN w xs ++ [x] with
    | nil => simp at hl
    | cons o rest =>
      rw [hl] at hup
      obtain ⟨q, hq, hR⟩ := hr.remove hup o (by simp)
      simp only [hq, Res.mapState_ok, Res.bind_ok]
      refine ⟨_, rfl, rfl, rfl, ?_⟩
      simpa using hR
  · exact ⟨_, rfl, rfl, rfl, hup⟩

theorem Refines.running (hr : Refines st V R) (w : ℕ) (xs : List α) :
    ∃ s, RunningStatistic.updates st (RunningStatistic.new st w) xs = .ok () s ∧
      s.windowSize = w ∧ s.window = lastN w xs ∧ R (lastN w xs : List α) s.statistic := by
  induction xs using List.reverseRecOn with
  | nil => exact ⟨_, rfl, rfl, by simp [RunningStatistic.new], by simpa [RunningStatistic.new] using hr.init⟩
  | append_singleton xs x ih =>
    obtain ⟨s, he, h1, h2, h3⟩ := ih
    obtain ⟨s', he', h'⟩ := hr.running_step w xs x s h1 h2 h3
    refine ⟨s', ?_, h'⟩
    rw [RunningStatistic.updates_append, he]
    simp [RunningStatistic.updates, he']

/-- `V` determines the outcome of a read. -/
def Deterministic (V : Multiset α → Except PyErr β → Prop) : Prop :=
  ∀ m r r', V m r → V m r' → r = r'

omit [DecidableEq α] in
theorem reads_det (f : Multiset α → β) : Deterministic (Reads f) := by
  intro m r r' h h'; unfold Reads at h h'; rw [h, h']

omit [DecidableEq α] in
theorem readsNonempty_det (e : PyErr) (f : Multiset α → β) : Deterministic (ReadsNonempty e f) := by
  intro m r r' h h'
  rcases h with ⟨h0, h⟩ | ⟨h0, h⟩ <;> rcases h' with ⟨h0', h'⟩ | ⟨h0', h'⟩
  · rw [h, h']
  · exact absurd h0 h0'
  · exact absurd h0' h0
  · rw [h, h']

theorem isGreatestOf_unique {γ : Type*} [LinearOrder γ] {m : Multiset γ} {g g' : Option γ}
    (h : IsGreatestOf m g) (h' : IsGreatestOf m g') : g = g' := by
  cases g <;> cases g' <;> simp only [IsGreatestOf] at h h'
  · rfl
  · subst h; simp at h'
  · subst h'; simp at h
  · rw [le_antisymm (h'.2 _ h.1) (h.2 _ h'.1)]

theorem isLeastOf_unique {γ : Type*} [LinearOrder γ] {m : Multiset γ} {g g' : Option γ}
    (h : IsLeastOf m g) (h' : IsLeastOf m g') : g = g' := by
  cases g <;> cases g' <;> simp only [IsLeastOf] at h h'
  · rfl
  · subst h; simp at h'
  · subst h'; simp at h
  · rw [le_antisymm (h.2 _ h'.1) (h'.2 _ h.1)]

theorem max_det {γ : Type*} [LinearOrder γ] : Deterministic (MaxValue (K := γ)) := by
  rintro m r r' ⟨g, h, rfl⟩ ⟨g', h', rfl⟩; rw [isGreatestOf_unique h h']

theorem min_det {γ : Type*} [LinearOrder γ] : Deterministic (MinValue (K := γ)) := by
  rintro m r r' ⟨g, h, rfl⟩ ⟨g', h', rfl⟩; rw [isLeastOf_unique h h']

theorem medianOf_zero {K : Type*} [Field K] [LinearOrder K] : medianOf (0 : Multiset K) = none := by
  simp [medianOf]

theorem median_det {K : Type*} [Field K] [LinearOrder K] : Deterministic (MedianValue (K := K)) := by
  intro m r r' h h'
  rcases h with ⟨h0, h⟩ | ⟨b, h0, h⟩ <;> rcases h' with ⟨h0', h'⟩ | ⟨b', h0', h'⟩
  · rw [h, h']
  · subst h0; simp [medianOf_zero] at h0'
  · subst h0'; simp [medianOf_zero] at h0
  · rw [h0] at h0'; cases h0'; rw [h, h']

theorem IdealTrace.det (hV : Deterministic V) {m : Multiset α} {h : List (Op α)}
    {o o' : List (Outcome β)} (t : IdealTrace V m h o) (t' : IdealTrace V m h o') : o = o' := by
  induction t generalizing o' with
  | nil m => cases t'; rfl
  | update m x h o _ ih => cases t' with | update _ _ _ o' t' => rw [ih t']
  | remove m x h o hx _ ih =>
    cases t' with
    | remove _ _ _ o' _ t' => rw [ih t']
    | removeAbsent _ _ _ o' hx' t' => exact absurd hx hx'
  | removeAbsent m x h o hx _ ih =>
    cases t' with
    | remove _ _ _ o' hx' t' => exact absurd hx' hx
    | removeAbsent _ _ _ o' hx' t' => rw [ih t']
  | value m b h o hb _ ih =>
    cases t' with
    | value _ b' _ o' hb' t' => cases hV _ _ _ hb hb'; rw [ih t']
    | fails _ e' _ o' he' t' => cases hV _ _ _ hb he'
  | fails m e h o he _ ih =>
    cases t' with
    | value _ b' _ o' hb' t' => cases hV _ _ _ he hb'
    | fails _ e' _ o' he' t' => cases hV _ _ _ he he'; rw [ih t']

theorem Refines.get_det (hr : Refines st V R) (hV : Deterministic V) {m : Multiset α} {s s' : σ}
    (h : R m s) (h' : R m s') : (st.get s).out = (st.get s').out :=
  hV _ _ _ (hr.get_out h) (hr.get_out h')

theorem Refines.after_strict (hr : Refines st V R) (hc : RejectsAbsent st R) :
    ∀ (h : List (Op α)) (m : Multiset α) (s : σ), R m s → R (live m h) (st.after s h) := by
  intro h
  induction h with
  | nil => intro m s hms; exact hms
  | cons o h ih =>
    intro m s hms
    cases o with
    | update x => exact ih _ _ (hr.update hms x)
    | remove x =>
      by_cases hx : x ∈ m
      · obtain ⟨s', he, hR⟩ := hr.remove hms x hx
        have := ih _ _ hR
        simpa [Statistic.after, Statistic.step, he, live] using this
      · have he := hc hms x hx
        have := ih _ _ hms
        simpa [Statistic.after, Statistic.step, he, live, Multiset.erase_of_notMem hx] using this
    | get =>
      have hs := hr.get_state hms
      have := ih _ _ hs
      cases hg : st.get s with
      | ok b s' => simpa [Statistic.after, Statistic.step, hg, live] using this
      | err e s' => simpa [Statistic.after, Statistic.step, hg, live] using this

end Pysad
