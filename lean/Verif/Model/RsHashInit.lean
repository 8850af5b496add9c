import Verif.Model.RsHash

/-! Model of the random choices of `RSHash.__init__`, `pysad/models/rs_hash.py` l.36-46 and
l.108-164. -/

namespace Pysad

/-- What `RSHash` uses of `numpy.random` (external), over states `G` of the global generator:
`uniform g` is the `u` in `[0, 1)` from which `np.random.uniform(low, high)` computes
`low + (high - low) * u`; `randint g low high` draws an integer of `[low, high)`, or raises
`ValueError` if there is none; `choice g l n` draws `n` different items of `l` (without
replacement), or raises `ValueError` if there are too few. -/
structure RsRandom (G K : Type*) (dim : ℕ) [Zero K] [One K] [LE K] [LT K] where
  uniform : G → K × G
  randint : G → ℤ → ℤ → Except PyErr ℤ × G
  choice : G → List (Fin dim) → ℕ → Except PyErr (List (Fin dim)) × G
  uniform_mem : ∀ g, 0 ≤ (uniform g).1 ∧ (uniform g).1 < 1
  randint_mem : ∀ g low high, low < high →
    ∃ n g', randint g low high = (.ok n, g') ∧ low ≤ n ∧ n < high
  randint_none : ∀ g low high, high ≤ low → ∃ g', randint g low high = (.error .valueError, g')
  choice_mem : ∀ g l n, n ≤ l.length →
    ∃ r g', choice g l n = (.ok r, g') ∧ r.length = n ∧ r.Subperm l
  choice_none : ∀ g l n, l.length < n → ∃ g', choice g l n = (.error .valueError, g')

/-- The features' bounds as given to the constructor: with arrays, `minimum != maximum` (l.139)
compares feature by feature; with lists (or other sequences) it is a single truth value. -/
inductive RsBounds (K : Type*) (dim : ℕ) where
  | arrays (minimum maximum : Fin dim → K)
  | lists (minimum maximum : Fin dim → K)

namespace RsHash

variable {G K : Type*} [Field K] [LinearOrder K] [FloorRing K] {dim : ℕ}

/-- `choice_feats`, l.136-153: the features that are not constant; with lists, all of them unless
the two lists are equal. -/
def choiceFeats : RsBounds K dim → List (Fin dim)
  | .arrays mins maxs => (List.finRange dim).filter fun i => mins i ≠ maxs i
  | .lists mins maxs => if (∃ i, mins i ≠ maxs i) then List.finRange dim else []

variable (pow2 log sqrt : K → K)

/-- `self.effS`, l.36; `none` stands for `inf`, the result of numpy's division by zero. -/
def effS (decay : K) : Option K :=
  let q := 1 - pow2 (-decay)
  if q = 0 then none else some (max 1000 (1 / q))

/-- One width drawn at l.38-39, from the uniform `u`. -/
def width (S : Option K) (u : K) : K :=
  match S with
  | none => 0 + (1 - 0) * u
  | some S =>
    let low := 1 / sqrt S
    let high := 1 - 1 / sqrt S
    low + (high - low) * u

/-- `common_term`, l.120-121, for one component. -/
def commonTerm (S f : K) : K := log S / log (max 2 (1 / f))

/-- The number of dimensions `self.r[i]` wanted for one component, l.122-135. For infinite `effS`
both bounds are infinite, hence equal, unless `f` is 0, when they are `nan` and `randint`
raises. (`randint` truncates its bounds; they are positive.) -/
def numDims (rnd : RsRandom G K dim) (S : Option K) (f : K) (g : G) : Except PyErr ℤ × G :=
  match S with
  | none => if f = 0 then (.error .valueError, g) else (.ok 1, g)
  | some S =>
    let low := 1 + 1 / 2 * commonTerm log S f
    let high := commonTerm log S f
    if ⌊low⌋ = ⌊high⌋ then (.ok 1, g)
    else
      match rnd.randint g ⌊low⌋ ⌊high⌋ with
      | (.error e, g) => (.error e, g)
      | (.ok n, g) => (.ok (min n (dim : ℤ)), g)

/-- One round of the loop of `_sample_dims`, l.127-164. -/
def sampleDim (rnd : RsRandom G K dim) (S : Option K) (bounds : RsBounds K dim) (f : K) (g : G) :
    Except PyErr (List (Fin dim)) × G :=
  match numDims log rnd S f g with
  | (.error e, g) => (.error e, g)
  | (.ok r, g) =>
    let feats := choiceFeats bounds
    if 0 < feats.length then rnd.choice g feats (min r.toNat feats.length)
    else rnd.choice g (List.finRange dim) (min r.toNat (List.finRange dim).length)

/-- `_sample_dims`, l.119-164: the dimensions of each component. -/
def sampleDims (rnd : RsRandom G K dim) (S : Option K) (bounds : RsBounds K dim) :
    List K → G → Except PyErr (List (List (Fin dim))) × G
  | [], g => (.ok [], g)
  | f :: fs, g =>
    match sampleDim log rnd S bounds f g with
    | (.error e, g) => (.error e, g)
    | (.ok V, g) =>
      match sampleDims rnd S bounds fs g with
      | (.error e, g) => (.error e, g)
      | (.ok Vs, g) => (.ok (V :: Vs), g)

/-- `n` uniform draws. -/
def uniforms (rnd : RsRandom G K dim) : ℕ → G → List K × G
  | 0, g => ([], g)
  | n + 1, g =>
    let u := rnd.uniform g
    let us := uniforms rnd n u.2
    (u.1 :: us.1, us.2)

/-- `_sample_shifts`, l.108-116: each component with its shifts. -/
def sampleShifts (rnd : RsRandom G K dim) : List (K × List (Fin dim)) → G →
    List (RsComponent K dim) × G
  | [], g => ([], g)
  | (f, V) :: l, g =>
    let us := uniforms rnd V.length g
    let rest := sampleShifts rnd l us.2
    (⟨V.zip (us.1.map fun u => 0 + (f - 0) * u), f⟩ :: rest.1, rest.2)

/-- `__init__`, l.17-50, with the random choices: the new object, or the exception raised. -/
def init (rnd : RsRandom G K dim) (bounds : RsBounds K dim) (samplingPoints : ℕ) (decay : K)
    (numComponents numHash : ℕ) (g : G) : Except PyErr (RsHashState K dim) × G :=
  let S := effS pow2 decay
  let us := uniforms rnd numComponents g
  let fs := us.1.map (width sqrt S)
  match sampleDims log rnd S bounds fs us.2 with
  | (.error e, g) => (.error e, g)
  | (.ok Vs, g) =>
    let comps := sampleShifts rnd (fs.zip Vs) g
    (.ok (new comps.1 samplingPoints decay numHash), comps.2)

end RsHash

end Pysad
