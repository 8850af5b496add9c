import Verif.Model.RsHash
import Verif.Model.Interrupt

/-! `RSHash.fit_partial`, `pysad/models/rs_hash.py` l.52-96, store by store: the states the object goes
through, to say what is left behind by a call that is interrupted (`KeyboardInterrupt`, a signal handler that
raises). -/

namespace Pysad.RsHash

variable {K : Type*} [Field K] [LinearOrder K] [IsStrictOrderedRing K] [FloorRing K] {dim : ℕ}
variable (pow2 log : K → K)

/-- The sketches after each assignment of the loop over them, l.72-86. -/
def sketchStages (decay : K) (index : ℤ) (key : List ℤ) : List (RsSketch K) → List (List (RsSketch K))
  | [] => []
  | sk :: sks => ((visit pow2 decay index key sk).2 :: sks) ::
    (sketchStages decay index key sks).map fun sks' => (visit pow2 decay index key sk).2 :: sks'

/-- The sketches after each assignment of the loop over the components, l.63-90, started at component `r`. (If
there are no sketches `min` raises an exception; there are no assignments then.) -/
def componentStages (decay : K) (index : ℤ) (x : Fin dim → K) :
    ℕ → List (RsComponent K dim) → List (RsSketch K) → List (List (RsSketch K))
  | _, [], _ => []
  | r, c :: cs, sks => sketchStages pow2 decay index (cell r c x) sks ++
    componentStages decay index x (r + 1) cs (sks.map fun sk => (visit pow2 decay index (cell r c x) sk).2)

/-- The states after each of the assignments of `fit_partial`, l.63-94. -/
def fitStages (s : RsHashState K dim) (x : Fin dim → K) : List (RsHashState K dim) :=
  ((componentStages pow2 s.decay s.index x 0 s.components s.cmsketches).map fun sks => { s with cmsketches := sks }) ++
  match components pow2 log s.decay s.index x 0 s.components 0 s.cmsketches with
  | .err _ _ => []
  | .ok score sks =>
    if s.components.length = 0 then []
    else
      let s1 := { s with cmsketches := sks, lastScore := some (score / (s.components.length : K)) }
      [s1, { s1 with index := s.index + 1 }]

/-- The assignments of `fit_partial`, called in the state `s`. -/
def statements (x : Fin dim → K) (s : RsHashState K dim) : List (RsHashState K dim → RsHashState K dim) :=
  (fitStages pow2 log s x).map fun t _ => t

end Pysad.RsHash
