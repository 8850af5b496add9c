import Verif.Spec.Shared
import Verif.Model.Seed

/-! Programs that construct objects and use them in a process with two global random
generators. -/

namespace Pysad.Spec

/-- A class of objects, with its constructor arguments: the constructor and every use of an object
may draw from both generators. -/
structure Kind (P G I A : Type) where
  State : Type
  make : Generators P G → Except PyErr State × Generators P G
  use : I → State → Generators P G → A × State × Generators P G

variable {P G I A κ : Type}

/-- An object. -/
structure Obj (kinds : κ → Kind P G I A) where
  kind : κ
  state : (kinds kind).State

/-- The generators, the objects that are older than the last seeding, and the others. -/
structure Memory (kinds : κ → Kind P G I A) where
  gens : Generators P G
  old : List (Obj kinds)
  objs : List (Obj kinds)

/-- What a program can do next: construct an object, use its n-th object, or use the n-th of those
that existed before the seeding. -/
inductive Action (κ I : Type) where
  | make (k : κ)
  | use (n : ℕ) (i : I)
  | useOld (n : ℕ) (i : I)

/-- What the program sees. -/
inductive Seen (A : Type) where
  | created
  | failed (e : PyErr)
  | answer (a : A)
  | noSuchObject
  deriving DecidableEq

/-- One action. -/
def act {kinds : κ → Kind P G I A} (m : Memory kinds) : Action κ I → Seen A × Memory kinds
  | .make k =>
    match (kinds k).make m.gens with
    | (.ok s, g) => (.created, { m with gens := g, objs := m.objs ++ [⟨k, s⟩] })
    | (.error e, g) => (.failed e, { m with gens := g })
  | .use n i =>
    match m.objs[n]? with
    | none => (.noSuchObject, m)
    | some o =>
      let r := (kinds o.kind).use i o.state m.gens
      (.answer r.1, { m with gens := r.2.2, objs := m.objs.set n ⟨o.kind, r.2.1⟩ })
  | .useOld n i =>
    match m.old[n]? with
    | none => (.noSuchObject, m)
    | some o =>
      let r := (kinds o.kind).use i o.state m.gens
      (.answer r.1, { m with gens := r.2.2, old := m.old.set n ⟨o.kind, r.2.1⟩ })

/-- A deterministic program: what it does next is determined by what it has seen; it may end. -/
abbrev Program (κ I A : Type) := List (Seen A) → Option (Action κ I)

/-- What a program has seen after (at most) n actions, and the memory then. -/
def runFor {kinds : κ → Kind P G I A} (prog : Program κ I A) (m : Memory kinds) :
    ℕ → List (Seen A) × Memory kinds
  | 0 => ([], m)
  | n + 1 =>
    let r := runFor prog m n
    match prog r.1 with
    | none => r
    | some a => (r.1 ++ [(act r.2 a).1], (act r.2 a).2)

/-- The program uses only objects it has constructed itself. -/
def OwnObjects (prog : Program κ I A) : Prop :=
  ∀ seen n i, prog seen ≠ some (.useOld n i)

/-- `fix_seed(seed)` in a process. From now on all present objects are old. -/
def seeded {kinds : κ → Kind P G I A} (r : Seeding P G) (seed : ℤ) (m : Memory kinds) :
    Memory kinds where
  gens := (fixSeed r seed m.gens).state
  old := m.old ++ m.objs
  objs := []

/-- A detector as a class of objects: its constructor draws from numpy's generator, and its state
record has a place for that generator. -/
def detectorKind {σ α β S : Type} (d : Detector σ α β S) (u : Global σ G)
    (new : G → Except PyErr σ × G) : Kind P G (Call α β) (Answer S) where
  State := σ
  make g := ((new g.numpy).1, { g with numpy := (new g.numpy).2 })
  use c s g :=
    let r := call d (u.set g.numpy s) c
    (r.1, r.2, { g with numpy := u.get r.2 })

end Pysad.Spec
