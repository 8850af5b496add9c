import Verif.Spec.Calls

/-! Two detectors in one process that share numpy's global random generator. -/

namespace Pysad.Spec

/-- Where a detector's state record keeps the state of the global generator. -/
structure Global (σ G : Type) where
  get : σ → G
  set : G → σ → σ

/-- The generator and the two objects. -/
structure Process (G σ σ' : Type) where
  gen : G
  first : σ
  second : σ'

variable {G σ σ' α α' β β' S S' : Type}

/-- A call on the first object: it sees the generator as the last call of anybody left it. -/
def callFirst (d : Detector σ α β S) (u : Global σ G) (p : Process G σ σ') (c : Call α β) :
    Answer S × Process G σ σ' :=
  let r := call d (u.set p.gen p.first) c
  (r.1, { p with gen := u.get r.2, first := r.2 })

/-- A call on the second object. -/
def callSecond (d : Detector σ' α' β' S') (u : Global σ' G) (p : Process G σ σ')
    (c : Call α' β') : Process G σ σ' :=
  let r := call d (u.set p.gen p.second) c
  { p with gen := u.get r.2, second := r.2 }

/-- The answers the caller of the first object gets under an interleaving of calls on the two
objects. -/
def answersOfFirst (d : Detector σ α β S) (u : Global σ G) (d' : Detector σ' α' β' S')
    (u' : Global σ' G) : Process G σ σ' → List (Call α β ⊕ Call α' β') → List (Answer S)
  | _, [] => []
  | p, .inl c :: cs =>
    let r := callFirst d u p c
    r.1 :: answersOfFirst d u d' u' r.2 cs
  | p, .inr c :: cs => answersOfFirst d u d' u' (callSecond d' u' p c) cs

/-- The calls on the first object. -/
def firstCalls : List (Call α β ⊕ Call α' β') → List (Call α β)
  | [] => []
  | .inl c :: cs => c :: firstCalls cs
  | .inr _ :: cs => firstCalls cs

/-- No other detector in the process makes a difference: under every interleaving with the calls
on any other detector, the caller gets the answers the object would have given alone. -/
def Undisturbed (d : Detector σ α β S) (u : Global σ G) : Prop :=
  ∀ (σ' α' β' S' : Type) (d' : Detector σ' α' β' S') (u' : Global σ' G) (p : Process G σ σ')
    (cs : List (Call α β ⊕ Call α' β')),
    answersOfFirst d u d' u' p cs = (calls d (u.set p.gen p.first) (firstCalls cs)).1

/-- A detector that does not use the global generator, as an object of a process that has one. -/
def besideGenerator (G : Type) (d : Detector σ α β S) : Detector (G × σ) α β S where
  fitPartial s x y := (d.fitPartial s.2 x y).mapState fun t => (s.1, t)
  scorePartial s x := (d.scorePartial s.2 x).mapState fun t => (s.1, t)

/-- The generator of such an object. -/
def pairGlobal (G σ : Type) : Global (G × σ) G where
  get := Prod.fst
  set g s := (g, s.2)

end Pysad.Spec
