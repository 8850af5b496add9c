import Verif.Model.Streamers

/-! Model of `pysad/core/base_model.py`, `pysad/core/base_postprocessor.py` and
`pysad/core/base_transformer.py`: the loops that turn the partial methods into
batch methods. -/

namespace Pysad

/-- A subclass of `BaseModel` (`pysad/core/base_model.py`): the two abstract
methods, over attribute record `σ`, instances `α`, labels `β`, scores `S`. -/
structure Detector (σ α β S : Type*) where
  fitPartial : σ → α → Option β → Res σ Unit
  scorePartial : σ → α → Res σ S

namespace Detector
variable {σ α β S : Type*} (d : Detector σ α β S)

/-- `BaseModel.fit_score_partial`, l.35-45. -/
def fitScorePartial (s : σ) (x : α) (y : Option β) : Res σ S :=
  (d.fitPartial s x y).bind fun _ s => d.scorePartial s x

/-- `BaseModel.fit`, l.47-60. -/
def fit (s : σ) (X : List α) (y : Option (List β)) : Res σ Unit :=
  (Gen.forEach (fun s p => d.fitPartial s p.1 p.2) s (iterate X y)).map fun _ => ()

/-- `BaseModel.score`, l.62-76. Assigning into `y_pred[i]` is collecting the
results in order; conversion of one-element arrays to scalars is the identity on
scores. -/
def score (s : σ) (X : List α) : Res σ (List S) :=
  Gen.forEach (fun s (p : α × Option β) => d.scorePartial s p.1) s (iterate X none)

/-- `BaseModel.fit_score`, l.78-96. -/
def fitScore (s : σ) (X : List α) (y : Option (List β)) : Res σ (List S) :=
  Gen.forEach (fun s p => d.fitScorePartial s p.1 p.2) s (iterate X y)

end Detector

/-- A subclass of `BasePostprocessor` (`pysad/core/base_postprocessor.py`): it turns
scores of type `S` into results of type `T`. -/
structure Postprocessor (σ S T : Type*) where
  fitPartial : σ → S → Res σ Unit
  transformPartial : σ → S → Res σ T

namespace Postprocessor
variable {σ S T : Type*} (p : Postprocessor σ S T)

/-- `BasePostprocessor.fit_transform_partial`, l.34-43. -/
def fitTransformPartial (s : σ) (x : S) : Res σ T :=
  (p.fitPartial s x).bind fun _ s => p.transformPartial s x

/-- `BasePostprocessor.transform`, l.45-59. -/
def transform (s : σ) (xs : List S) : Res σ (List T) :=
  Gen.forEach (fun s (q : S × Option Unit) => p.transformPartial s q.1) s (iterate xs none)

/-- `BasePostprocessor.fit`, l.61-73. -/
def fit (s : σ) (xs : List S) : Res σ Unit :=
  (Gen.forEach (fun s (q : S × Option Unit) => p.fitPartial s q.1) s (iterate xs none)).map
    fun _ => ()

/-- `BasePostprocessor.fit_transform`, l.75-89. -/
def fitTransform (s : σ) (xs : List S) : Res σ (List T) :=
  Gen.forEach (fun s (q : S × Option Unit) => p.fitTransformPartial s q.1) s (iterate xs none)

end Postprocessor

/-- What can be handed to a transformer's `fit_partial`: a feature vector, or
the pair `(x, None)` that `_iterate` yields. -/
inductive FitArg (α : Type*) where
  | row (x : α)
  | pair (x : α)
  deriving DecidableEq, Repr

/-- A subclass of `BaseTransformer` (`pysad/core/base_transformer.py`), with the
`fit_transform_partial` it has (inherited or overridden). -/
structure Transformer (σ α β : Type*) where
  fitPartial : σ → FitArg α → Res σ Unit
  transformPartial : σ → α → Res σ β
  fitTransformPartial : σ → α → Res σ β

namespace Transformer
variable {σ α β : Type*} (t : Transformer σ α β)

/-- The inherited `BaseTransformer.fit_transform_partial`, l.36-45. -/
def inherited (fitPartial : σ → FitArg α → Res σ Unit) (transformPartial : σ → α → Res σ β)
    (s : σ) (x : α) : Res σ β :=
  (fitPartial s (.row x)).bind fun _ s => transformPartial s x

/-- `BaseTransformer.transform`, l.47-65. Writing the result into row `i` of the
output array is collecting the rows in order; the array's width is modelled
by `transformArray` in `Verif.Model.TransformArray`. -/
def transform (s : σ) (X : List α) : Res σ (List β) :=
  Gen.forEach (fun s (q : α × Option Unit) => t.transformPartial s q.1) s (iterate X none)

/-- `BaseTransformer.fit`, l.67-79. The loop variable is the pair yielded by
`_iterate`, and the pair is what `fit_partial` gets. -/
def fit (s : σ) (X : List α) : Res σ Unit :=
  (Gen.forEach (fun s (q : α × Option Unit) => t.fitPartial s (.pair q.1)) s
    (iterate X none)).map fun _ => ()

/-- `BaseTransformer.fit_transform`, l.81-99. -/
def fitTransform (s : σ) (X : List α) : Res σ (List β) :=
  Gen.forEach (fun s (q : α × Option Unit) => t.fitTransformPartial s q.1) s (iterate X none)

end Transformer

end Pysad
