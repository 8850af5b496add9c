import Verif.Spec.Program
import Verif.Props.Shared

/-! **C203.** `fix_seed` makes an experiment reproducible. -/

namespace Pysad

open Spec

namespace Seed

variable {P G I A κ : Type} {kinds : κ → Kind P G I A}

/-- Two memories that agree on everything but the old objects. -/
private def Same (m m' : Memory kinds) : Prop := m.gens = m'.gens ∧ m.objs = m'.objs

private theorem same_act {m m' : Memory kinds} (h : Same m m') (a : Action κ I)
    (ha : ∀ n i, a ≠ .useOld n i) : (act m a).1 = (act m' a).1 ∧ Same (act m a).2 (act m' a).2 := by
  obtain ⟨g, o, l⟩ := m
  obtain ⟨g', o', l'⟩ := m'
  obtain ⟨hg, hl⟩ := h
  simp only at hg hl
  subst hg hl
  cases a with
  | make k =>
    simp only [act]
    cases h : (kinds k).make g with
    | mk e g2 => cases e <;> exact ⟨rfl, rfl, rfl⟩
  | use n i =>
    simp only [act]
    cases l[n]? <;> exact ⟨rfl, rfl, rfl⟩
  | useOld n i => exact absurd rfl (ha n i)

private theorem same_run (prog : Program κ I A) (hp : OwnObjects prog) {m m' : Memory kinds}
    (h : Same m m') (n : ℕ) :
    (runFor prog m n).1 = (runFor prog m' n).1 ∧ Same (runFor prog m n).2 (runFor prog m' n).2 := by
  induction n with
  | zero => exact ⟨rfl, h⟩
  | succ n ih =>
    simp only [runFor]
    rw [← ih.1]
    cases hq : prog (runFor prog m n).1 with
    | none => exact ih
    | some a =>
      have := same_act ih.2 a fun k i e => hp _ k i (hq.trans (congrArg _ e))
      exact ⟨by simp only [this.1], this.2⟩

end Seed

/-- **C203, what holds.** After `fix_seed(seed)` with a seed between 0 and 2^32 - 1 a program that
uses only objects it constructs itself sees the same, whatever the process did before: whatever the
two generators were and whatever objects there are. The classes are arbitrary; they may draw from
both generators in the constructor and in every method. (Missing: programs that use older
objects.) -/
theorem C203_reproducible_partial {P G I A κ : Type} {kinds : κ → Kind P G I A} (r : Seeding P G)
    (seed : ℤ) (h0 : 0 ≤ seed) (h1 : seed < 2 ^ 32) (prog : Program κ I A) (hp : OwnObjects prog)
    (m m' : Memory kinds) (n : ℕ) :
    (fixSeed r seed m.gens).out = .ok () ∧
    (runFor prog (seeded r seed m) n).1 = (runFor prog (seeded r seed m') n).1 := by
  have hs : ∀ g, fixSeed r seed g = .ok () ⟨r.python seed, r.numpy seed.toNat⟩ := by
    intro g
    simp only [fixSeed, pySeed, npSeed, Res.bind, h0, h1, and_self, if_true]
  refine ⟨by rw [hs]; rfl, (Seed.same_run prog hp (m := seeded r seed m) (m' := seeded r seed m')
    ⟨?_, rfl⟩ n).1⟩
  simp only [seeded, hs]

/-- **C203, other seeds.** For every other int `fix_seed` raises a ValueError; by then Python's
generator has been seeded, numpy's has not. -/
theorem C203_bad_seed {P G : Type} (r : Seeding P G) (seed : ℤ) (h : seed < 0 ∨ 2 ^ 32 ≤ seed)
    (g : Generators P G) :
    (fixSeed r seed g).out = .error .valueError ∧
    (fixSeed r seed g).state = ⟨r.python seed, g.numpy⟩ := by
  have hn : ¬ (0 ≤ seed ∧ seed < 2 ^ 32) := by omega
  simp only [fixSeed, pySeed, npSeed, Res.bind, if_neg hn]
  exact ⟨rfl, rfl⟩

/-- The full claim of **C203**: two processes do the same, from possibly different states of the
generators; then both call `fix_seed(seed)` and run the same program. It sees the same in both. -/
def C203_statement {P G I A κ : Type} (kinds : κ → Kind P G I A) : Prop :=
  ∀ (r : Seeding P G) (seed : ℤ), 0 ≤ seed → seed < 2 ^ 32 →
    ∀ (before prog : Program κ I A) (k n : ℕ) (g g' : Generators P G),
    (runFor prog (seeded r seed (runFor (kinds := kinds) before ⟨g, [], []⟩ k).2) n).1 =
    (runFor prog (seeded r seed (runFor (kinds := kinds) before ⟨g', [], []⟩ k).2) n).1

/-- LODA as a class of objects of the process (two bins, one random cut). -/
def lodaKind : Kind Unit ℕ (Call (List ℚ) Unit) (Answer (Num ℚ)) :=
  detectorKind (Loda.detector (β := Unit) counterLoda .fin) (lodaGlobal ℕ ℚ)
    fun g => (.ok (Loda.new g 2 1), g)

/-- Construct a LODA object and train it on one instance. -/
def lodaBefore : Program Unit (Call (List ℚ) Unit) (Answer (Num ℚ))
  | [] => some (.make ())
  | [_] => some (.use 0 (.fit [1, 1] none))
  | _ => none

/-- Score with it. -/
def lodaAfter : Program Unit (Call (List ℚ) Unit) (Answer (Num ℚ))
  | [] => some (.useOld 0 (.score [0, 0]))
  | _ => none

/-- **C203 is false**: the projections of a LODA object that was trained before the seeding remain
what they were. -/
theorem C203_refuted : ¬ C203_statement fun _ : Unit => lodaKind := by
  intro h
  have := h ⟨fun _ => (), id⟩ 0 (by decide) (by decide) lodaBefore lodaAfter 2 1 ⟨(), 0⟩ ⟨(), 1⟩
  revert this
  decide +kernel

/-! ### The hypotheses can be met -/

/-- Construct a LODA object, train it and score. -/
def lodaExperiment : Program Unit (Call (List ℚ) Unit) (Answer (Num ℚ))
  | [] => some (.make ())
  | [_] => some (.use 0 (.fit [1, 1] none))
  | [_, _] => some (.use 0 (.score [0, 0]))
  | _ => none

theorem lodaExperiment_own : OwnObjects lodaExperiment := by
  rintro seen n i
  rcases seen with _ | ⟨a, _ | ⟨b, _ | ⟨c, l⟩⟩⟩ <;> simp [lodaExperiment]

/-- Three actions; with another seed the program sees something else. -/
example :
    (runFor lodaExperiment (seeded (kinds := fun _ : Unit => lodaKind) ⟨fun _ => (), id⟩ 0
      ⟨⟨(), 5⟩, [], []⟩) 3).1.length = 3 ∧
    (runFor lodaExperiment (seeded (kinds := fun _ : Unit => lodaKind) ⟨fun _ => (), id⟩ 0
      ⟨⟨(), 5⟩, [], []⟩) 3).1 ≠
    (runFor lodaExperiment (seeded (kinds := fun _ : Unit => lodaKind) ⟨fun _ => (), id⟩ 1
      ⟨⟨(), 5⟩, [], []⟩) 3).1 := by decide +kernel

example : (fixSeed (⟨fun n => n, id⟩ : Seeding ℤ ℕ) (-1) ⟨7, 7⟩).state = ⟨-1, 7⟩ := by decide

end Pysad
