import Verif.Model.Base

/-! Model of `pysad/models/loop.py`. -/

namespace Pysad

/-- `PyNomaly.loop.LocalOutlierProbability` (external): `fit data extent n` is the object
constructed from the data and fitted; `stream m x` is its method `stream`, which may change the
object. -/
structure LoopLibrary (M α S : Type*) where
  fit : List α → (extent numNeighbors : ℕ) → Except PyErr M
  stream : M → α → Res M S

/-- `LocalOutlierProbability.__init__`, `pysad/models/loop.py` l.14-18; the only attribute is
`model`. -/
def localOutlierProbability.new {M α S : Type*} (lib : LoopLibrary M α S) (initialX : List α)
    (numNeighbors extent : ℕ) : Except PyErr M :=
  lib.fit initialX extent numNeighbors

/-- `LocalOutlierProbability`, `pysad/models/loop.py` l.20-41. -/
def localOutlierProbability {M α β S : Type*} (lib : LoopLibrary M α S) : Detector M α β S where
  fitPartial s _ _ := .ok () s
  scorePartial s x := lib.stream s x

end Pysad
