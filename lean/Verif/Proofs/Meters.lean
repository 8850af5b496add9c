import Verif.Proofs.Running
import Verif.Proofs.Base
import Verif.Model.Postprocessors

/-! Plain and running meters under one interface, and invariants along
`inOrder`. -/

namespace Pysad

open Spec

/-- `m` implements the statistic `V` of the part `keep xs` of the updates `xs`. -/
structure MeterSpec {σ α β : Type*} (m : Meter σ α β) (keep : List α → List α)
    (V : Multiset α → Except PyErr β → Prop) where
  R : List α → σ → Prop
  init : R [] m.init
  update : ∀ {xs s}, R xs s → ∀ x, ∃ s', m.update s x = .ok () s' ∧ R (xs ++ [x]) s'
  get_out : ∀ {xs s}, R xs s → V (keep xs : List α) (m.get s).out
  get_state : ∀ {xs s}, R xs s → R xs (m.get s).state

theorem coe_snoc {α : Type*} (xs : List α) (x : α) :
    ((xs ++ [x] : List α) : Multiset α) = x ::ₘ (xs : Multiset α) := by
  rw [Multiset.cons_coe]; exact Multiset.coe_eq_coe.2 (by
    simpa using (List.perm_append_comm (l₁ := xs) (l₂ := [x])))

section
variable {σ α β : Type*} [DecidableEq α] {st : Statistic σ α β}
  {V : Multiset α → Except PyErr β → Prop} {R : Multiset α → σ → Prop}

/-- A statistic used directly sees all updates. -/
def Refines.plain (hr : Refines st V R) : MeterSpec (Meter.plain st) id V where
  R xs s := R (xs : Multiset α) s
  init := hr.init
  update h x := ⟨_, rfl, by rw [coe_snoc]; exact hr.update h x⟩
  get_out h := hr.get_out h
  get_state h := hr.get_state h

/-- A `RunningStatistic` sees the last `w` updates. -/
def Refines.runningMeter (hr : Refines st V R) (w : ℕ) :
    MeterSpec (Meter.running st w) (lastN w) V where
  R xs s := s.windowSize = w ∧ s.window = lastN w xs ∧ R (lastN w xs : List α) s.statistic
  init := ⟨rfl, by simp [Meter.running, RunningStatistic.new],
    by simpa [Meter.running, RunningStatistic.new] using hr.init⟩
  update h x := by
    obtain ⟨s', h'⟩ := hr.running_step w _ x _ h.1 h.2.1 h.2.2
    exact ⟨s', h'⟩
  get_out := by
    intro xs s h
    have := hr.get_out h.2.2
    simp only [Meter.running, RunningStatistic.get]
    cases hg : st.get s.statistic <;> simpa [hg] using this
  get_state := by
    intro xs s h
    have := hr.get_state h.2.2
    simp only [Meter.running, RunningStatistic.get]
    cases hg : st.get s.statistic <;> exact ⟨h.1, h.2.1, by simpa [hg] using this⟩

end

/-- Invariant rule for `inOrder`: `P seen s` holds along the way and each
result satisfies `Q` of the items seen so far. -/
theorem inOrder_inv {σ ι α : Type*} {f : σ → ι → Res σ α} {P : List ι → σ → Prop}
    {Q : List ι → α → Prop}
    (hstep : ∀ seen s x, P seen s → ∃ a s', f s x = .ok a s' ∧ P (seen ++ [x]) s' ∧
      Q (seen ++ [x]) a) :
    ∀ (xs seen : List ι) (s : σ), P seen s → ∃ out s', inOrder f s xs = .ok out s' ∧
      P (seen ++ xs) s' ∧ out.length = xs.length ∧
      ∀ i, i < xs.length → ∃ a, out[i]? = some a ∧ Q (seen ++ xs.take (i + 1)) a := by
  intro xs
  induction xs with
  | nil => intro seen s h; exact ⟨[], s, rfl, by simpa using h, rfl, by simp⟩
  | cons x xs ih =>
    intro seen s h
    obtain ⟨a, s', hf, hP, hQ⟩ := hstep seen s x h
    obtain ⟨out, s'', ho, hP', hl, hi⟩ := ih _ _ hP
    refine ⟨a :: out, s'', by simp [inOrder, hf, ho], by simpa using hP', by simp [hl], ?_⟩
    intro i hlt
    cases i with
    | zero => exact ⟨a, rfl, by simpa using hQ⟩
    | succ i =>
      obtain ⟨b, hb, hq⟩ := hi i (by simpa using hlt)
      exact ⟨b, by simpa using hb, by simpa using hq⟩

theorem inOrder_map {σ ι κ α : Type*} (f : σ → ι → Res σ α) (g : κ → ι) (s : σ) (xs : List κ) :
    inOrder f s (xs.map g) = inOrder (fun s x => f s (g x)) s xs := by
  induction xs generalizing s with
  | nil => rfl
  | cons x xs ih => simp only [List.map_cons, inOrder]; cases f s (g x) <;> simp [ih]

theorem Postprocessor.fitTransform_eq {σ S T : Type*} (p : Postprocessor σ S T) (s : σ)
    (xs : List S) : p.fitTransform s xs = inOrder p.fitTransformPartial s xs := by
  unfold Postprocessor.fitTransform
  rw [iterate_none, Gen.forEach_ofList]
  simp only [pairs, inOrder_map]

theorem Postprocessor.fit_eq {σ S T : Type*} (p : Postprocessor σ S T) (s : σ)
    (xs : List S) : p.fit s xs = dropValue (inOrder p.fitPartial s xs) := by
  unfold Postprocessor.fit
  rw [iterate_none, Gen.forEach_ofList]
  simp only [pairs, inOrder_map]
  cases inOrder p.fitPartial s xs <;> rfl

/-- `fit` of a postprocessor keeps an invariant. -/
theorem Postprocessor.fit_inv {σ S T : Type*} (p : Postprocessor σ S T) {P : List S → σ → Prop}
    (hstep : ∀ seen s x, P seen s → ∃ s', p.fitPartial s x = .ok () s' ∧ P (seen ++ [x]) s')
    (xs : List S) (s : σ) (h : P [] s) : ∃ s', p.fit s xs = .ok () s' ∧ P xs s' := by
  obtain ⟨out, s', ho, hP, -⟩ := inOrder_inv (f := p.fitPartial) (P := P) (Q := fun _ _ => True)
    (by
      intro seen s x h
      obtain ⟨s', h1, h2⟩ := hstep seen s x h
      exact ⟨(), s', h1, h2, trivial⟩) xs [] s h
  exact ⟨s', by rw [Postprocessor.fit_eq, ho]; rfl, by simpa using hP⟩

/-- A meter postprocessor whose meter implements `V` over `keep`, when reads of
nonempty bags succeed. -/
theorem meterPostprocessor_spec {σ α β : Type*} {m : Meter σ α β} {keep : List α → List α}
    {V : Multiset α → Except PyErr β → Prop} (hm : MeterSpec m keep V) (Q : Multiset α → β → Prop)
    (hV : ∀ l r, V (keep l : List α) r → l ≠ [] → ∃ b, r = .ok b ∧ Q (keep l : List α) b)
    (xs : List α) :
    ∃ out s, (meterPostprocessor m).fitTransform m.init xs = .ok out s ∧ out.length = xs.length ∧
      ∀ i, i < xs.length → ∃ b, out[i]? = some b ∧ Q (keep (xs.take (i + 1)) : List α) b := by
  rw [Postprocessor.fitTransform_eq]
  obtain ⟨out, s, h1, -, h3, h4⟩ := inOrder_inv
    (f := (meterPostprocessor m).fitTransformPartial) (P := hm.R)
    (Q := fun l b => Q (keep l : List α) b) (by
      intro seen s x h
      obtain ⟨s', hu, hR⟩ := hm.update h x
      have ho := hm.get_out hR
      have hs := hm.get_state hR
      obtain ⟨b, hb, hq⟩ := hV _ _ ho (by simp)
      cases hg : m.get s' with
      | err e t => rw [hg] at hb; simp at hb
      | ok b' t =>
        rw [hg] at hb hs
        simp only [Res.out_ok, Except.ok.injEq] at hb
        subst hb
        exact ⟨b', t, by simp [Postprocessor.fitTransformPartial, meterPostprocessor, hu, hg],
          hs, hq⟩) xs [] m.init hm.init
  exact ⟨out, s, h1, h3, by simpa using h4⟩

/-! Reading nonempty bags. -/

section
variable {K : Type*} [Field K] [LinearOrder K]

omit [LinearOrder K] in
theorem meanValue_ok {l : List K} {r} (h : MeanValue (l : Multiset K) r) (hl : l ≠ []) :
    r = .ok (meanOf (l : Multiset K)) := by
  rcases h with ⟨h0, _⟩ | ⟨_, h⟩
  · simp at h0; exact absurd h0 hl
  · exact h

omit [LinearOrder K] in
theorem varianceValue_ok {l : List K} {r} (h : VarianceValue (l : Multiset K) r) (hl : l ≠ []) :
    r = .ok (varianceOf (l : Multiset K)) := by
  rcases h with ⟨h0, _⟩ | ⟨_, h⟩
  · simp at h0; exact absurd h0 hl
  · exact h

theorem medianValue_ok {l : List K} {r} (h : MedianValue (l : Multiset K) r) (hl : l ≠ []) :
    ∃ b, r = .ok b ∧ medianOf (l : Multiset K) = some b := by
  rcases h with ⟨h0, _⟩ | ⟨b, hb, h⟩
  · simp at h0; exact absurd h0 hl
  · exact ⟨b, h, hb⟩

theorem maxValue_ok {α : Type*} [LinearOrder α] {l : List α} {r}
    (h : MaxValue (l : Multiset α) r) (hl : l ≠ []) :
    ∃ b, r = .ok b ∧ ∃ g, b = some g ∧ IsGreatestOf (l : Multiset α) (some g) := by
  obtain ⟨g, hg, h⟩ := h
  cases g with
  | none => simp [IsGreatestOf] at hg; exact absurd hg hl
  | some g => exact ⟨_, h, g, rfl, hg⟩

end

theorem lastN_ne_nil {α : Type*} {w : ℕ} (hw : 1 ≤ w) {l : List α} (hl : l ≠ []) :
    lastN w l ≠ [] := by
  intro h
  have := lastN_length w l
  rw [h] at this
  have : 0 < l.length := List.length_pos_iff.2 hl
  simp at *; omega

end Pysad
