import Verif.Spec.Basic
import Verif.Model.Base

/-! Histories of calls on a detector, with exceptions caught by the caller. -/

namespace Pysad.Spec

/-- One call on a detector. -/
inductive Call (α β : Type*) where
  | fit (x : α) (y : Option β)
  | score (x : α)
  deriving DecidableEq, Repr

/-- Is the call a `score_partial`? -/
def Call.isScore {α β : Type*} : Call α β → Bool
  | .fit _ _ => false
  | .score _ => true

/-- What the caller sees. -/
inductive Answer (S : Type*) where
  | done
  | value (s : S)
  | raised (e : PyErr)
  deriving DecidableEq, Repr

variable {σ α β S : Type*}

/-- Make one call: what the caller sees, and the state the object is left in. -/
def call (d : Detector σ α β S) (s : σ) : Call α β → Answer S × σ
  | .fit x y =>
    match d.fitPartial s x y with
    | .ok _ s' => (.done, s')
    | .err e s' => (.raised e, s')
  | .score x =>
    match d.scorePartial s x with
    | .ok v s' => (.value v, s')
    | .err e s' => (.raised e, s')

/-- Make the calls one after the other on the same object. -/
def calls (d : Detector σ α β S) (s : σ) : List (Call α β) → List (Answer S) × σ
  | [] => ([], s)
  | c :: cs =>
    let a := call d s c
    let r := calls d a.2 cs
    (a.1 :: r.1, r.2)

/-- The instances fitted by a history. -/
def fitted : List (Call α β) → List α
  | [] => []
  | .fit x _ :: cs => x :: fitted cs
  | .score _ :: cs => fitted cs

/-- The results of the score calls of a history. -/
def scoreAnswers : List (Call α β) → List (Answer S) → List (Answer S)
  | .score _ :: cs, a :: as => a :: scoreAnswers cs as
  | .fit _ _ :: cs, _ :: as => scoreAnswers cs as
  | _, _ => []

/-- Extra score calls do not matter: mark any of the score calls of a history as
extra (`true`); leaving them out changes neither the answers of the other calls nor
the final state. -/
def ScoringReadOnly (d : Detector σ α β S) (s : σ) : Prop :=
  ∀ h : List (Bool × Call α β), (∀ p ∈ h, p.1 = true → p.2.isScore = true) →
    let all := calls d s (h.map Prod.snd)
    let kept := calls d s ((h.filter fun p => !p.1).map Prod.snd)
    (((h.zip all.1).filter fun p => !p.1.1).map Prod.snd = kept.1) ∧ all.2 = kept.2

/-- The same, as far as the caller can see: leaving extra score calls out does not change the
answers of the other calls. -/
def ScoringUnnoticed (d : Detector σ α β S) (s : σ) : Prop :=
  ∀ h : List (Bool × Call α β), (∀ p ∈ h, p.1 = true → p.2.isScore = true) →
    ((h.zip (calls d s (h.map Prod.snd)).1).filter fun p => !p.1.1).map Prod.snd
      = (calls d s ((h.filter fun p => !p.1).map Prod.snd)).1

/-- Did the call raise? -/
def Answer.isRaised {S : Type*} : Answer S → Bool
  | .raised _ => true
  | _ => false

/-- Calls that raise do not matter: leaving out of a history all calls that raised (the caller
caught the exceptions) does not change the answers of the other calls. -/
def RejectionsUnnoticed (d : Detector σ α β S) (s : σ) : Prop :=
  ∀ cs : List (Call α β),
    let kept := (cs.zip (calls d s cs).1).filter fun p => !p.2.isRaised
    (calls d s (kept.map Prod.fst)).1 = kept.map Prod.snd

end Pysad.Spec
