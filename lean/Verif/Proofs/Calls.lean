import Verif.Spec.Calls
import Verif.Proofs.Base

/-! Rules for histories of calls. -/

namespace Pysad

open Spec

variable {σ α β S : Type*} {d : Detector σ α β S}

theorem calls_append (s : σ) (cs ds : List (Call α β)) :
    calls d s (cs ++ ds) =
      ((calls d s cs).1 ++ (calls d (calls d s cs).2 ds).1, (calls d (calls d s cs).2 ds).2) := by
  induction cs generalizing s with
  | nil => rfl
  | cons c cs ih => simp [calls, ih]

theorem calls_snoc (s : σ) (cs : List (Call α β)) (c : Call α β) :
    (calls d s (cs ++ [c])).2 = (call d (calls d s cs).2 c).2 := by
  rw [calls_append]; rfl

theorem calls_length (s : σ) (cs : List (Call α β)) : (calls d s cs).1.length = cs.length := by
  induction cs generalizing s with
  | nil => rfl
  | cons c cs ih => simp [calls, ih]

/-- An invariant indexed by the history. -/
theorem calls_inv {P : List (Call α β) → σ → Prop}
    (hstep : ∀ cs s c, P cs s → P (cs ++ [c]) (call d s c).2) (s : σ) (h0 : P [] s)
    (cs : List (Call α β)) : P cs (calls d s cs).2 := by
  induction cs using List.reverseRecOn with
  | nil => exact h0
  | append_singleton cs c ih => rw [calls_snoc]; exact hstep _ _ _ ih

theorem fitted_append (cs ds : List (Call α β)) : fitted (cs ++ ds) = fitted cs ++ fitted ds := by
  induction cs with
  | nil => rfl
  | cons c cs ih => cases c <;> simp [fitted, ih]

/-- Scoring is read-only if no score call changes a reachable state. -/
theorem scoringReadOnly_of_inv {I : σ → Prop} (hI : ∀ s c, I s → I (call d s c).2)
    (hr : ∀ s x, I s → (d.scorePartial s x).state = s) (s : σ) (h0 : I s) :
    ScoringReadOnly d s := by
  intro h
  induction h generalizing s with
  | nil => intro _; exact ⟨rfl, rfl⟩
  | cons p h ih =>
    intro hp
    obtain ⟨b, c⟩ := p
    have hp' : ∀ p ∈ h, p.1 = true → p.2.isScore = true := fun p hm => hp p (by simp [hm])
    cases b with
    | false =>
      obtain ⟨h1, h2⟩ := ih (call d s c).2 (hI s c h0) hp'
      simp only [List.map_cons, calls, List.zip_cons_cons, List.filter_cons, Bool.not_false,
        if_true, List.map_cons]
      exact ⟨by rw [h1], h2⟩
    | true =>
      have hc := hp (true, c) (by simp) rfl
      cases c with
      | fit x y => simp [Call.isScore] at hc
      | score x =>
        have hs : (call d s (.score x)).2 = s := by
          have := hr s x h0
          unfold call
          cases hx : d.scorePartial s x <;> simpa [hx] using this
        obtain ⟨h1, h2⟩ := ih s h0 hp'
        simp only [List.map_cons, calls, List.zip_cons_cons, List.filter_cons, Bool.not_true,
          hs]
        exact ⟨h1, h2⟩

theorem scoringReadOnly (hr : ∀ s x, (d.scorePartial s x).state = s) (s : σ) :
    ScoringReadOnly d s :=
  scoringReadOnly_of_inv (I := fun _ => True) (fun _ _ _ => trivial) (fun s x _ => hr s x) s trivial

/-- Scoring is unnoticed if related states answer alike and stay related, also if only one of
them scores. -/
theorem scoringUnnoticed_of_sim {R : σ → σ → Prop}
    (hcall : ∀ s t c, R s t → (call d s c).1 = (call d t c).1 ∧ R (call d s c).2 (call d t c).2)
    (hextra : ∀ s t x, R s t → R (call d s (.score x)).2 t) (s : σ) (h0 : R s s) :
    ScoringUnnoticed d s := by
  suffices h : ∀ (h : List (Bool × Call α β)) (s t : σ), R s t →
      (∀ p ∈ h, p.1 = true → p.2.isScore = true) →
      ((h.zip (calls d s (h.map Prod.snd)).1).filter fun p => !p.1.1).map Prod.snd
        = (calls d t ((h.filter fun p => !p.1).map Prod.snd)).1 from
    fun l hl => h l s s h0 hl
  intro h
  induction h with
  | nil => intro s t _ _; rfl
  | cons p h ih =>
    intro s t hR hp
    obtain ⟨b, c⟩ := p
    have hp' : ∀ p ∈ h, p.1 = true → p.2.isScore = true := fun p hm => hp p (by simp [hm])
    cases b with
    | false =>
      obtain ⟨h1, h2⟩ := hcall s t c hR
      have := ih _ _ h2 hp'
      simp only [List.map_cons, calls, List.zip_cons_cons, List.filter_cons, Bool.not_false,
        if_true, List.map_cons]
      rw [h1, this]
    | true =>
      have hc := hp (true, c) (by simp) rfl
      cases c with
      | fit x y => simp [Call.isScore] at hc
      | score x =>
        have := ih _ t (hextra s t x hR) hp'
        simp only [List.map_cons, calls, List.zip_cons_cons, List.filter_cons, Bool.not_true]
        exact this

/-- Rejections are unnoticed if related states answer alike and stay related, also if only one
of them makes a call that raises. -/
theorem rejectionsUnnoticed_of_sim {R : σ → σ → Prop}
    (hcall : ∀ s t c, R s t → (call d s c).1 = (call d t c).1 ∧ R (call d s c).2 (call d t c).2)
    (hextra : ∀ s t c, R s t → (call d s c).1.isRaised = true → R (call d s c).2 t) (s : σ)
    (h0 : R s s) : RejectionsUnnoticed d s := by
  suffices h : ∀ (cs : List (Call α β)) (s t : σ), R s t →
      (calls d t (((cs.zip (calls d s cs).1).filter fun p => !p.2.isRaised).map Prod.fst)).1
        = ((cs.zip (calls d s cs).1).filter fun p => !p.2.isRaised).map Prod.snd from
    fun cs => h cs s s h0
  intro cs
  induction cs with
  | nil => intro s t _; rfl
  | cons c cs ih =>
    intro s t hR
    cases hx : (call d s c).1.isRaised with
    | true =>
      have := ih _ t (hextra s t c hR hx)
      simp only [calls, List.zip_cons_cons, List.filter_cons, hx, Bool.not_true]
      exact this
    | false =>
      obtain ⟨h1, h2⟩ := hcall s t c hR
      have := ih _ _ h2
      simp only [calls, List.zip_cons_cons, List.filter_cons, hx, Bool.not_false, if_true,
        List.map_cons]
      rw [this, h1]

/-- Rejections are unnoticed if a call that raises on a reachable state leaves it as it was. -/
theorem rejectionsUnnoticed_of_inv {I : σ → Prop} (hI : ∀ s c, I s → I (call d s c).2)
    (hr : ∀ s c, I s → (call d s c).1.isRaised = true → (call d s c).2 = s) (s : σ) (h0 : I s) :
    RejectionsUnnoticed d s := by
  refine rejectionsUnnoticed_of_sim (R := fun s t => s = t ∧ I s) ?_ ?_ s ⟨rfl, h0⟩
  · rintro s t c ⟨rfl, h⟩
    exact ⟨rfl, rfl, hI s c h⟩
  · rintro s t c ⟨rfl, h⟩ hx
    exact ⟨hr s c h hx, hI s c h⟩

theorem rejectionsUnnoticed
    (hr : ∀ s c, (call d s c).1.isRaised = true → (call d s c).2 = s) (s : σ) :
    RejectionsUnnoticed d s :=
  rejectionsUnnoticed_of_inv (I := fun _ => True) (fun _ _ _ => trivial) (fun s c _ => hr s c) s
    trivial

/-- Calls on an object that keeps another one in a field. -/
theorem calls_mapState {τ : Type*} {e : Detector τ α β S} (f : σ → τ)
    (hf : ∀ s x y, e.fitPartial (f s) x y = (d.fitPartial s x y).mapState f)
    (hs : ∀ s x, e.scorePartial (f s) x = (d.scorePartial s x).mapState f) (s : σ)
    (cs : List (Call α β)) : calls e (f s) cs = ((calls d s cs).1, f (calls d s cs).2) := by
  induction cs generalizing s with
  | nil => rfl
  | cons c cs ih =>
    have h : call e (f s) c = ((call d s c).1, f (call d s c).2) := by
      cases c with
      | fit x y => simp only [call, hf]; cases d.fitPartial s x y <;> rfl
      | score x => simp only [call, hs]; cases d.scorePartial s x <;> rfl
    simp only [calls, h, ih]

end Pysad
