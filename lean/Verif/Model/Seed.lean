import Verif.Prelude

/-! `fix_seed`, `pysad/utils/__init__.py`. -/

namespace Pysad

/-- The two global generators of a process: that of Python's `random` and that of `numpy.random`. -/
structure Generators (P G : Type) where
  python : P
  numpy : G
  deriving DecidableEq, Repr

/-- What seeding makes of the generators (the external functions `random.seed` and
`np.random.seed`). -/
structure Seeding (P G : Type) where
  python : ℤ → P
  numpy : ℕ → G

variable {P G : Type}

/-- `random.seed(seed)`, called in `fix_seed`, `pysad/utils/__init__.py` l.20: every int is a
seed. -/
def pySeed (r : Seeding P G) (seed : ℤ) (g : Generators P G) : Res (Generators P G) Unit :=
  .ok () { g with python := r.python seed }

/-- `np.random.seed(seed)`, called in `fix_seed`, `pysad/utils/__init__.py` l.21: a ValueError
("Seed must be between 0 and 2**32 - 1"), before anything is changed, for the other ints. -/
def npSeed (r : Seeding P G) (seed : ℤ) (g : Generators P G) : Res (Generators P G) Unit :=
  if 0 ≤ seed ∧ seed < 2 ^ 32 then .ok () { g with numpy := r.numpy seed.toNat }
  else .err .valueError g

/-- `fix_seed`, `pysad/utils/__init__.py` l.14-21. Simplification: the seed is an int (with `None`
both generators are seeded from the operating system). -/
def fixSeed (r : Seeding P G) (seed : ℤ) (g : Generators P G) : Res (Generators P G) Unit :=
  (pySeed r seed g).bind fun _ g => npSeed r seed g

end Pysad
