import Verif.Model.RsHash

/-! `pysad/models/rs_hash.py` again, with the conversion of the cells to 32-bit integers. -/

namespace Pysad.RsHash

variable {K : Type*} [Field K] [LinearOrder K] [IsStrictOrderedRing K] [FloorRing K] {dim : ℕ}

/-- The cell of an instance, `rs_hash.py` l.64-69, where `conv` is what `astype(np.int32)` makes of a
whole number (left open by the C standard outside the range of the type). -/
def cell32 (conv : ℤ → ℤ) (r : ℕ) (c : RsComponent K dim) (x : Fin dim → K) : List ℤ :=
  (cell r c x).map conv

variable (conv : ℤ → ℤ) (pow2 log : K → K)

/-- The loop over the components, l.63-90, as `components`. -/
def components32 (decay : K) (index : ℤ) (x : Fin dim → K) :
    ℕ → List (RsComponent K dim) → K → List (RsSketch K) → Res (List (RsSketch K)) K
  | _, [], acc, sketches => .ok acc sketches
  | r, c :: cs, acc, sketches =>
    let visits := sketches.map (visit pow2 decay index (cell32 conv r c x))
    match pyMin (visits.map Prod.fst) with
    | .error e => .err e (visits.map Prod.snd)
    | .ok minC => components32 decay index x (r + 1) cs (acc + log (1 + minC)) (visits.map Prod.snd)

/-- `fit_partial`, l.52-96, as `fitPartial`. -/
def fitPartial32 (s : RsHashState K dim) (x : Fin dim → K) : Res (RsHashState K dim) Unit :=
  match components32 conv pow2 log s.decay s.index x 0 s.components 0 s.cmsketches with
  | .err e sk => .err e { s with cmsketches := sk }
  | .ok score sk =>
    let s := { s with cmsketches := sk }
    if s.components.length = 0 then .err .zeroDivision s
    else .ok () { s with lastScore := some (score / (s.components.length : K)), index := s.index + 1 }

/-- `RSHash` with 32-bit cells. -/
def detector32 {β : Type*} : Detector (RsHashState K dim) (Fin dim → K) β (Option K) where
  fitPartial s x _ := fitPartial32 conv pow2 log s x
  scorePartial s _ := .ok s.lastScore s

end Pysad.RsHash
