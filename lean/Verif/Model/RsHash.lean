import Verif.Model.Base
import Mathlib.Algebra.Order.Floor.Ring
import Mathlib.Logic.Function.Basic

/-! Model of `pysad/models/rs_hash.py`. -/

namespace Pysad

/-- The random choices of `RSHash.__init__`, `pysad/models/rs_hash.py` l.38-46, for one
component: the sampled dimensions `V[r]`, the shifts `alpha[r]` (one per sampled
dimension) and the width `f[r]`. They do not depend on `sampling_points` or
`num_hash_fns`. -/
structure RsComponent (K : Type*) (dim : ℕ) where
  dims : List (Fin dim × K)
  f : K

/-- A sketch: a dict from cells to a time stamp and a weight. -/
abbrev RsSketch (K : Type*) := List ℤ → Option (ℤ × K)

/-- Attributes of `RSHash`, l.17-50. -/
structure RsHashState (K : Type*) (dim : ℕ) where
  components : List (RsComponent K dim)
  decay : K
  cmsketches : List (RsSketch K)
  index : ℤ
  lastScore : Option K

namespace RsHash

variable {K : Type*} [Field K] [LinearOrder K] [IsStrictOrderedRing K] [FloorRing K] {dim : ℕ}

/-- `__init__`, l.17-50. -/
def new (components : List (RsComponent K dim)) (samplingPoints : ℕ) (decay : K) (numHash : ℕ) :
    RsHashState K dim :=
  ⟨components, decay, List.replicate numHash fun _ => none, 0 + 1 - samplingPoints, none⟩

/-- The cell of an instance in component `r`, l.64-69: the component's number and the
integer parts of the shifted, scaled coordinates. (The conversion to `int32` is taken to
be exact.) -/
def cell (r : ℕ) (c : RsComponent K dim) (x : Fin dim → K) : List ℤ :=
  (r : ℤ) :: c.dims.map fun p => ⌊(x p.1 + p.2) / c.f⌋

variable (pow2 log : K → K)

/-- One pass of the loop over the sketches, l.73-86: the decayed weight of the cell and
the updated sketch. `pow2` is `np.power(2, ·)`. -/
def visit (decay : K) (index : ℤ) (key : List ℤ) (sketch : RsSketch K) : K × RsSketch K :=
  let value := (sketch key).getD (index, 0)
  let newWt := value.2 * pow2 (-decay * ((index - value.1 : ℤ) : K))
  (newWt, Function.update sketch key (some (index, newWt + 1)))

/-- Python's `min` of a list of numbers. -/
def pyMin : List K → Except PyErr K
  | [] => .error .valueError
  | a :: l => .ok (l.foldl (fun m x => if x < m then x else m) a)

/-- The loop over the components, l.63-90, started at component `r`, with the sum so far:
the sum, or the exception raised, and the sketches. -/
def components (decay : K) (index : ℤ) (x : Fin dim → K) :
    ℕ → List (RsComponent K dim) → K → List (RsSketch K) → Res (List (RsSketch K)) K
  | _, [], acc, sketches => .ok acc sketches
  | r, c :: cs, acc, sketches =>
    let visits := sketches.map (visit pow2 decay index (cell r c x))
    match pyMin (visits.map Prod.fst) with
    | .error e => .err e (visits.map Prod.snd)
    | .ok minC => components decay index x (r + 1) cs (acc + log (1 + minC)) (visits.map Prod.snd)

/-- `fit_partial`, l.52-96. -/
def fitPartial (s : RsHashState K dim) (x : Fin dim → K) : Res (RsHashState K dim) Unit :=
  match components pow2 log s.decay s.index x 0 s.components 0 s.cmsketches with
  | .err e sk => .err e { s with cmsketches := sk }
  | .ok score sk =>
    let s := { s with cmsketches := sk }
    if s.components.length = 0 then .err .zeroDivision s
    else .ok () { s with lastScore := some (score / (s.components.length : K)), index := s.index + 1 }

/-- `RSHash` as a detector; `score_partial`, l.98-106, returns the last score (`None`
before the first fit). -/
def detector {β : Type*} : Detector (RsHashState K dim) (Fin dim → K) β (Option K) where
  fitPartial s x _ := fitPartial pow2 log s x
  scorePartial s _ := .ok s.lastScore s

end RsHash

end Pysad
