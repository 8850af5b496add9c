import Verif.Model.Base

/-! Model of the loops of `examples/example_usage.py` and `examples/example_ensemble.py`, the way
the parts of the framework are meant to be combined, and of the same work done with the batch
methods. -/

namespace Pysad

namespace Pipeline
variable {τ σ π α α' β S T : Type*}

/-- One round of the loop of `examples/example_usage.py` l.28-32 (the label is handed to the
model too, which `fit_score_partial` allows). -/
def round (t : Transformer τ α α') (d : Detector σ α' β S) (p : Postprocessor π S T)
    (s : τ × σ × π) (q : α × Option β) : Res (τ × σ × π) T :=
  ((t.fitTransformPartial s.1 q.1).mapState fun a => (a, s.2)).bind fun x s =>
  ((d.fitScorePartial s.2.1 x q.2).mapState fun b => (s.1, b, s.2.2)).bind fun score s =>
  (p.fitTransformPartial s.2.2 score).mapState fun c => (s.1, s.2.1, c)

/-- The loop of `examples/example_usage.py` l.27-32. -/
def stream (t : Transformer τ α α') (d : Detector σ α' β S) (p : Postprocessor π S T)
    (s : τ × σ × π) (X : List α) (y : Option (List β)) : Res (τ × σ × π) (List T) :=
  Gen.forEach (round t d p) s (iterate X y)

/-- The same with batch methods: `postprocessor.fit_transform(model.fit_score(
preprocessor.fit_transform(X), y))`. -/
def batch (t : Transformer τ α α') (d : Detector σ α' β S) (p : Postprocessor π S T)
    (s : τ × σ × π) (X : List α) (y : Option (List β)) : Res (τ × σ × π) (List T) :=
  ((t.fitTransform s.1 X).mapState fun a => (a, s.2)).bind fun X' s =>
  ((d.fitScore s.2.1 X' y).mapState fun b => (s.1, b, s.2.2)).bind fun scores s =>
  (p.fitTransform s.2.2 scores).mapState fun c => (s.1, s.2.1, c)

/-- Fit and score one instance with several models, `examples/example_ensemble.py` l.29-31. -/
def modelScores : List (Detector σ α β S) → List σ → α × Option β → Res (List σ) (List S)
  | d :: ds, s :: ss, q =>
    ((d.fitScorePartial s q.1 q.2).mapState fun a => a :: ss).bind fun score ss' =>
      match ss' with
      | [] => .ok [score] []
      | a :: ss => ((modelScores ds ss q).mapState fun ss => a :: ss).map fun scores =>
          score :: scores
  | _, ss, _ => .ok [] ss

/-- The loop of `examples/example_ensemble.py` l.26-33 up to the ensembler: the row of scores of
each instance. -/
def ensembleRows (ds : List (Detector σ α β S)) (ss : List σ) (X : List α)
    (y : Option (List β)) : Res (List σ) (List (List S)) :=
  Gen.forEach (modelScores ds) ss (iterate X y)

end Pipeline

end Pysad
