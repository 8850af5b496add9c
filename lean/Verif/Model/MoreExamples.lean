import Verif.Model.Examples
import Verif.Model.Inqmad
import Verif.Model.Postprocessors
import Verif.Model.Scalers

/-! Model of the parts of `examples/example_usage_inqmad.py` and `examples/example_statistics.py`
that are not in `Model/Examples.lean`. -/

namespace Pysad

namespace Examples

open Classical in
/-- `preprocessor.fit_transform_partial(X)`, `examples/example_usage_inqmad.py` l.24 and l.29, for a
detector that wants numbers. The scaler turns an instance of length 0 into `nan`s, which make scores
`nan` and `auroc.get()` raise `ValueError`; here the exception is raised at once. -/
noncomputable def unitNormed (n : ℕ) : Transformer Unit (Fin n → ℝ) (Fin n → ℝ) where
  fitPartial s _ := .ok () s
  transformPartial s x := transform s x
  fitTransformPartial := Transformer.inherited (fun s _ => .ok () s) transform
where
  transform (s : Unit) (x : Fin n → ℝ) : Res Unit (Fin n → ℝ) :=
    ((instanceUnitNormScaler (.fin 2) n).fitTransformPartial s x).bind fun v s =>
    if ∀ i, (v i).finite? ≠ none then .ok (fun i => (v i).finite?.getD 0) s
    else .err .valueError s

/-- The body of the loop of `examples/example_usage_inqmad.py`, l.29-32, with the objects of
l.23-25; `env` holds the random draws of the constructor of `Inqmad`. -/
noncomputable def inqmadBody {n d : ℕ} (env : InqEnv ℝ n d)
    (s : Unit × InqState ℝ d × RunningState (AverageState ℝ) ℝ) (x : Fin n → ℝ) :
    Res (Unit × InqState ℝ d × RunningState (AverageState ℝ) ℝ) ℝ :=
  throughPipeline (β := Bool) (unitNormed n) (Inqmad.detector env) (runningAveragePostprocessor ℝ 5)
    s x

/-- The objects of `examples/example_usage_inqmad.py`, l.23-25 (the default batch size is 300). -/
noncomputable def inqmadObjects (d : ℕ) : Unit × InqState ℝ d × RunningState (AverageState ℝ) ℝ :=
  ((), Inqmad.new 300, RunningAveragePostprocessor.new ℝ 5)

/-- `examples/example_statistics.py` l.13-22 for the numbers `X`: the two numbers that are printed.
`sqrt` is `np.sqrt`. -/
def statistics {K : Type*} [Zero K] [Add K] [Sub K] [Mul K] [Div K] [IntCast K] (sqrt : K → K)
    (X : List K) : Except PyErr (K × K) :=
  let s := X.foldl (fun (s : AverageState K × VarianceState K) x =>
    ((averageMeter K).update s.1 x, (varianceMeter K).update s.2 x))
    ((averageMeter K).init, (varianceMeter K).init)
  ((averageMeter K).get s.1).out.bind fun a =>
  ((varianceMeter K).get s.2).out.map fun v => (a, sqrt v)

end Examples

end Pysad
