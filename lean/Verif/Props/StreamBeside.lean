import Verif.Props.Shared
import Verif.Model.Streamers

/-! **C204.** Reading a data set beside a detector. -/

namespace Pysad

open Spec

namespace Spec

/-- A process with one detector that also reads a data set: the global generator, the detector, and
the iterator last asked for, as long as it has not been advanced. -/
structure ReadingProcess (G σ α β : Type) where
  gen : G
  det : σ
  fresh : Option (G → Gen (α × β) × G)

/-- What the process does: ask for an iterator, take its first item, or call the detector. -/
inductive ReadStep (α β : Type) where
  | ask (shuffle : Bool) (seed : Option ℕ)
  | first
  | call (c : Call α β)

variable {G σ α β S : Type}

/-- The answers of the detector. (An iterator uses the generator when it is first advanced and not
later, so the later items are not steps.) -/
def answersBeside (d : Detector σ α β S) (u : Global σ G) (r : Rng G) (data : List α × List β) :
    ReadingProcess G σ α β → List (ReadStep α β) → List (Answer S)
  | _, [] => []
  | p, .ask shuffle seed :: es =>
    let i := Data.getIterator r shuffle seed p.gen data
    answersBeside d u r data { p with gen := i.2, fresh := some i.1 } es
  | p, .first :: es =>
    match p.fresh with
    | none => answersBeside d u r data p es
    | some f => answersBeside d u r data { p with gen := (f p.gen).2, fresh := none } es
  | p, .call c :: es =>
    let a := Spec.call d (u.set p.gen p.det) c
    a.1 :: answersBeside d u r data { p with gen := u.get a.2, det := a.2 } es

/-- The calls among the steps. -/
def readCalls : List (ReadStep α β) → List (Call α β)
  | [] => []
  | .call c :: es => c :: readCalls es
  | .ask _ _ :: es => readCalls es
  | .first :: es => readCalls es

/-- Reading does not change the answers. -/
def UndisturbedByReading (d : Detector σ α β S) (u : Global σ G) : Prop :=
  ∀ (r : Rng G) (data : List α × List β) (g : G) (s : σ) (es : List (ReadStep α β)),
    answersBeside d u r data ⟨g, s, none⟩ es = (calls d (u.set g s) (readCalls es)).1

/-- Every iterator asked for is unshuffled and unseeded. -/
def PlainReading (es : List (ReadStep α β)) : Prop :=
  ∀ e ∈ es, ∀ shuffle seed, e = .ask shuffle seed → shuffle = false ∧ seed = none

end Spec

variable {G σ α β S : Type}

/-- **C204, what holds (1).** Unshuffled, unseeded iterators change no answer of any detector. (The
hypothesis says that the generator is a field of the state.) -/
theorem C204_plain_partial (d : Detector σ α β S) (u : Global σ G)
    (hget : ∀ s, u.set (u.get s) s = s) (r : Rng G) (data : List α × List β) (g : G) (s : σ)
    (es : List (ReadStep α β)) (hes : PlainReading es) :
    answersBeside d u r data ⟨g, s, none⟩ es = (calls d (u.set g s) (readCalls es)).1 := by
  suffices h : ∀ (es : List (ReadStep α β)) (g : G) (s : σ)
      (f : Option (G → Gen (α × β) × G)), PlainReading es →
      (∀ f', f = some f' → ∀ g, (f' g).2 = g) →
      answersBeside d u r data ⟨g, s, f⟩ es = (calls d (u.set g s) (readCalls es)).1 from
    h es g s none hes (by simp)
  intro es
  induction es with
  | nil => intros; rfl
  | cons e es ih =>
    intro g s f hes hf
    have hes' : PlainReading es := fun e he => hes e (List.mem_cons_of_mem _ he)
    cases e with
    | ask sh sd =>
      obtain ⟨rfl, rfl⟩ := hes _ List.mem_cons_self sh sd rfl
      simp only [answersBeside, readCalls]
      refine ih g s _ hes' ?_
      rintro f' hf'
      cases hf'
      intro g
      rfl
    | first =>
      simp only [answersBeside, readCalls]
      cases f with
      | none => exact ih g s none hes' (by simp)
      | some f' =>
        simp only [hf f' rfl g]
        exact ih g s none hes' (by simp)
    | call c =>
      simp only [answersBeside, readCalls, calls]
      refine congrArg _ ?_
      rw [ih _ _ f hes' hf, hget]

/-- **C204, what holds (2).** A detector that draws nothing after its construction gives the same
answers beside every reading, shuffled or seeded. -/
theorem C204_no_draws_partial (G : Type) (d : Detector σ α β S) :
    UndisturbedByReading (besideGenerator G d) (pairGlobal G σ) := by
  intro r data g s es
  suffices h : ∀ (es : List (ReadStep α β)) (g g' g'' : G) (s : σ)
      (f : Option (G → Gen (α × β) × G)),
      answersBeside (besideGenerator G d) (pairGlobal G σ) r data ⟨g, (g', s), f⟩ es =
        (calls (besideGenerator G d) (g'', s) (readCalls es)).1 from h es g s.1 g s.2 none
  intro es
  induction es with
  | nil => intros; rfl
  | cons e es ih =>
    intro g g' g'' s f
    cases e with
    | ask sh sd => exact ih _ _ _ _ _
    | first => cases f <;> exact ih _ _ _ _ _
    | call c =>
      have hc : ∀ g, call (besideGenerator G d) (g, s) c
          = ((call d s c).1, (g, (call d s c).2)) := by
        intro g
        cases c with
        | fit x y =>
          simp only [call, besideGenerator]
          cases d.fitPartial s x y <;> rfl
        | score x =>
          simp only [call, besideGenerator]
          cases d.scorePartial s x <;> rfl
      simp only [answersBeside, readCalls, calls, pairGlobal, hc]
      exact congrArg _ (ih _ _ _ _ _)

/-- **C204, what a seeded reading does.** From the moment an iterator is asked for with a seed, the
answers of a RandomModel are determined by the seed: whatever the generator was, and so whatever
was drawn before. -/
theorem C204_reset {K : Type} (uniform : G → K × G) (r : Rng G) (data : List α × List β) (seed : ℕ)
    (shuffle : Bool) (p p' : ReadingProcess G G α β) (es : List (ReadStep α β)) :
    answersBeside (randomModel α β uniform) (randomGlobal G) r data p
        (.ask shuffle (some seed) :: es) =
      answersBeside (randomModel α β uniform) (randomGlobal G) r data p'
        (.ask shuffle (some seed) :: es) := by
  have h : ∀ (es : List (ReadStep α β)) (g s s' : G) (f : Option (G → Gen (α × β) × G)),
      answersBeside (randomModel α β uniform) (randomGlobal G) r data ⟨g, s, f⟩ es =
        answersBeside (randomModel α β uniform) (randomGlobal G) r data ⟨g, s', f⟩ es := by
    intro es
    induction es with
    | nil => intros; rfl
    | cons e es ih =>
      intro g s s' f
      cases e with
      | ask sh sd => exact ih _ _ _ _
      | first => cases f <;> exact ih _ _ _ _
      | call c => rfl
  exact h es _ _ _ _

/-- The full claim of **C204** for RandomModel. -/
def C204_statement : Prop := UndisturbedByReading (randomModel Unit Unit counter) (randomGlobal ℕ)

/-- **C204 is false**: with a seeded iterator asked for in between, RandomModel returns the same
number twice. -/
theorem C204_seeded_refuted : ¬ C204_statement := by
  intro h
  have := h ⟨id, fun g l => (l, g)⟩ ([()], [()]) 0 0
    [.call (.score ()), .ask false (some 0), .call (.score ())]
  revert this
  decide +kernel

/-- **C204 is false** also without a seed: taking the first item of a shuffled iterator draws. -/
theorem C204_shuffled_refuted : ¬ C204_statement := by
  intro h
  have := h ⟨id, fun g l => (l, g + 1)⟩ ([()], [()]) 0 0
    [.ask true none, .first, .call (.score ())]
  revert this
  decide +kernel

/-! ### The hypotheses can be met -/

example : (∀ s : LodaState ℕ ℚ, (lodaGlobal ℕ ℚ).set ((lodaGlobal ℕ ℚ).get s) s = s) ∧
    PlainReading ([.ask false none, .first, .call (.fit [1, 1] none), .call (.score [0, 0])] :
      List (ReadStep (List ℚ) Unit)) := by
  refine ⟨fun s => rfl, ?_⟩
  rintro e he sh sd rfl
  simpa using he

end Pysad
