import Verif.Spec.Basic

/-! Textbook definitions of the two ranking measures, for a list of instances with their label
(`true`: anomaly) and score. -/

namespace Pysad.Spec

variable {K : Type*} [Field K] [LinearOrder K]

/-- The scores of the anomalies. -/
def anomalies (l : List (Bool × K)) : List K := (l.filter fun q => q.1).map Prod.snd
/-- The scores of the normal instances. -/
def normals (l : List (Bool × K)) : List K := (l.filter fun q => !q.1).map Prod.snd

/-- How the anomaly scored `a` fares against the normal instance scored `n`: win 1, tie one half,
loss 0. -/
def duel (a n : K) : K := if n < a then 1 else if n = a then 1 / 2 else 0

/-- Area under the ROC curve: the probability that a random anomaly is scored higher than a random
normal instance, a tie counting one half. -/
def rankingProbability (l : List (Bool × K)) : K :=
  ((anomalies l).map fun a => ((normals l).map fun n => duel a n).sum).sum
    / ((anomalies l).length * (normals l).length)

/-- Precision if everything scored at least `t` is reported: the fraction of the reported instances
that are anomalies. -/
def precisionAt (t : K) (l : List (Bool × K)) : K :=
  (((anomalies l).filter fun x => t ≤ x).length : K) / ((l.filter fun q => t ≤ q.2).length : K)

/-- Average precision: the mean, over the anomalies, of the precision when reporting everything
scored at least as high as that anomaly. -/
def meanPrecision (l : List (Bool × K)) : K :=
  ((anomalies l).map fun a => precisionAt a l).sum / (anomalies l).length

/-- Every anomaly is scored above every normal instance. -/
def Separated (l : List (Bool × K)) : Prop := ∀ a ∈ anomalies l, ∀ n ∈ normals l, n < a

end Pysad.Spec
