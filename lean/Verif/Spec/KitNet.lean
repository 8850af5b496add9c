import Verif.Spec.Calls
import Verif.Model.KitNet
import Mathlib.Algebra.BigOperators.Group.Finset.Basic

/-! Specification of KitNet: which instances go where. -/

namespace Pysad.Spec

variable {K : Type*} [Field K] [LinearOrder K] [FloorRing K] {n : ℕ}

/-- What is assumed of `to_tree(linkage(...))`: given one distance for every pair of at least two
features it is a dendrogram with every feature at exactly one leaf; for fewer features `linkage`
raises `ValueError`. -/
structure LinkageLaws (env : KnEnv K) : Prop where
  tree : ∀ (n : ℕ) (L : List K), 2 ≤ n → 2 * L.length = n * (n - 1) →
    ∃ t, env.linkageTree n L = .ok t ∧ t.preOrder.Perm (List.finRange n)
  small : ∀ (n : ℕ) (L : List K), n < 2 → 2 * L.length = n * (n - 1) →
    env.linkageTree n L = .error .valueError

/-- Where `linkage` expects the distance of the features `i < j` of `n`. -/
def pairIndex (n i j : ℕ) : ℕ := n * i + j - (i + 2) * (i + 1) / 2

/-- The leaves of a tree, from left to right. -/
def leaves {n : ℕ} : Dendro n → List (Fin n)
  | .leaf i => [i]
  | .node l r => leaves l ++ leaves r

/-- `v` are the leaves of the largest subtrees of a tree with at most `b` leaves, from left to
right. -/
inductive LargestSubtrees {n : ℕ} (b : ℤ) : Dendro n → List (List (Fin n)) → Prop
  | whole {t : Dendro n} : ((leaves t).length : ℤ) ≤ b → LargestSubtrees b t [leaves t]
  | split {l r : Dendro n} {v w : List (List (Fin n))} :
    ¬ ((leaves (.node l r)).length : ℤ) ≤ b → LargestSubtrees b l v → LargestSubtrees b r w →
      LargestSubtrees b (.node l r) (v ++ w)

/-- How far feature `i` of the instance at position `t` is from the mean of that feature over the
instances up to and including it. -/
def runningDeviation (xs : List (Fin n → K)) (i : Fin n) (t : ℕ) : K :=
  (xs.map fun x => x i).getD t 0 - ((xs.take (t + 1)).map fun x => x i).sum / (t + 1 : ℕ)

/-- The sum of the products of the running deviations of two features. -/
def deviationProduct (xs : List (Fin n → K)) (i j : Fin n) : K :=
  ∑ t ∈ Finset.range xs.length, runningDeviation xs i t * runningDeviation xs j t

/-- The distance of two features: one minus the cosine of the angle between their running
deviations. (If one of these vectors is zero, the product of their lengths is taken to be
`1e-100`.) -/
def featureDistance (sqrt : K → K) (xs : List (Fin n → K)) (i j : Fin n) : K :=
  let p := sqrt (deviationProduct xs i i) * sqrt (deviationProduct xs j j)
  max 0 (1 - deviationProduct xs i j / if p = 0 then 1 / 10 ^ 100 else p)

/-- `v` are the largest subtrees with at most `maxSize` (at least 1) leaves of the tree that
linkage makes of the distances of the features over the instances `xs`. -/
def FeatureMap (env : KnEnv K) (maxSize : ℤ) (xs : List (Fin n → K)) (v : List (List (Fin n))) :
    Prop :=
  ∃ (L : List K) (t : Dendro n), 2 * L.length = n * (n - 1) ∧
    (∀ i j : Fin n, i < j → L[pairIndex n i j]? = some (featureDistance env.sqrt xs i j)) ∧
    env.linkageTree n L = .ok t ∧ LargestSubtrees (max 1 maxSize) t v

/-- The features `idx` of an instance, in that order. -/
def featuresOf (x : Fin n → K) (idx : List (Fin n)) (i : ℕ) : K :=
  if h : i < idx.length then x idx[i] else 0

/-- The entries of a list. -/
def vectorOf (l : List K) (i : ℕ) : K := if h : i < l.length then l[i] else 0

/-- A list of lists is a partition of the features. -/
def IsPartition (v : List (List (Fin n))) : Prop :=
  v.flatten.Perm (List.finRange n) ∧ ∀ p ∈ v, p ≠ []

/-- A new autoencoder with `p` inputs. -/
def newAutoencoder (env : KnEnv K) (lr hr : K) (p : ℕ) : DaState K :=
  ⟨p, ⌈(p : K) * hr⌉.toNat, lr, none, 0, env.uniform p ⌈(p : K) * hr⌉.toNat, fun _ => 0,
    fun _ => 0⟩

/-- The autoencoder of the features `idx`, trained on the instances `T` in order. -/
def autoencoderAfter (env : KnEnv K) (lr hr : K) (T : List (Fin n → K)) (idx : List (Fin n)) :
    DaState K :=
  T.foldl (fun a x => (Da.train env a (featuresOf x idx)).2)
    (newAutoencoder env lr hr idx.length)

/-- The training errors of the ensemble on `x` after training on `T`. -/
def trainingErrors (env : KnEnv K) (lr hr : K) (v : List (List (Fin n)))
    (T : List (Fin n → K)) (x : Fin n → K) : List K :=
  v.map fun idx => (Da.train env (autoencoderAfter env lr hr T idx) (featuresOf x idx)).1

/-- The output autoencoder after training on the instances given latest first: each time on
the errors of the ensemble. -/
def outputAfterRev (env : KnEnv K) (lr hr : K) (v : List (List (Fin n))) :
    List (Fin n → K) → DaState K
  | [] => newAutoencoder env lr hr v.length
  | x :: past =>
    (Da.train env (outputAfterRev env lr hr v past)
      (vectorOf (trainingErrors env lr hr v past.reverse x))).2

/-- The output autoencoder after training on the instances `T` in order. -/
def outputAfter (env : KnEnv K) (lr hr : K) (v : List (List (Fin n))) (T : List (Fin n → K)) :
    DaState K :=
  outputAfterRev env lr hr v T.reverse

/-- The instances from which the feature map is learned. -/
def mapInstances (fm : ℕ) (xs : List (Fin n → K)) : List (Fin n → K) := xs.take (fm + 1)

/-- The instances on which the autoencoders are trained. -/
def trainingInstances (fm ad : ℕ) (xs : List (Fin n → K)) : List (Fin n → K) :=
  (xs.drop (fm + 1)).take ad

/-- The score of `x`, given the feature map and the training instances. -/
def kitnetScore (env : KnEnv K) (lr hr : K) (v : List (List (Fin n))) (T : List (Fin n → K))
    (x : Fin n → K) : Num K :=
  let errors := v.map fun idx => Da.execute env (autoencoderAfter env lr hr T idx) (featuresOf x idx)
  if .nan ∈ errors then .nan
  else Da.execute env (outputAfter env lr hr v T) (vectorOf (errors.filterMap fun
    | .fin e => some e
    | _ => none))

end Pysad.Spec
