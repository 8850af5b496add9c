import Verif.Model.Base
import Verif.Model.Num

/-! Model of `pysad/models/loda.py`. -/

namespace Pysad

/-- `np.histogram(xs, bins=n)` (external) by its documentation: `n` equal-width bins
between the least and the greatest value (widened by one half on both sides when
they are equal), half-open except for the last one; the counts and the `n + 1` edges.
`ValueError` if `n = 0`. -/
def npHistogram {K : Type*} [Field K] [LinearOrder K] (xs : List K) (n : ℕ) :
    Except PyErr (List ℕ × List K) :=
  if n = 0 then .error .valueError
  else
    let lo₀ := match xs with
      | [] => (0 : K)
      | x :: xs => xs.foldl min x
    let hi₀ := match xs with
      | [] => (1 : K)
      | x :: xs => xs.foldl max x
    let lo := if lo₀ = hi₀ then lo₀ - 1 / 2 else lo₀
    let hi := if lo₀ = hi₀ then hi₀ + 1 / 2 else hi₀
    let edge := fun i : ℕ => lo + (i : K) * ((hi - lo) / (n : K))
    .ok ((List.range n).map (fun i => xs.countP fun x =>
          decide (edge i ≤ x) && (decide (x < edge (i + 1)) || decide (i + 1 = n ∧ x ≤ edge (i + 1)))),
        (List.range (n + 1)).map edge)

/-- The random draws of `LODA`, from numpy's global generator: `randn g r c` is
`np.random.randn(r, c)`, `permutation g n` is `np.random.permutation(n)`. -/
structure LodaRng (G K : Type*) where
  randn : G → ℕ → ℕ → List (List K) × G
  permutation : G → ℕ → List ℕ × G

/-- One row of `projections_`, `histograms_` and `limits_`. -/
structure LodaCut (K : Type*) where
  projection : List K
  histogram : List K
  limits : List K
  deriving DecidableEq, Repr

/-- Attributes of `LODA`, `pysad/models/loda.py` l.13-16 and l.28-40; `arrays` is `none`
while `to_init` holds, then `num_features` and the rows. `rng` is the state of numpy's
global generator. -/
structure LodaState (G K : Type*) where
  rng : G
  nBins : ℕ
  nRandomCuts : ℕ
  arrays : Option (ℕ × List (LodaCut K))
  deriving DecidableEq, Repr

namespace Loda
variable {G K : Type*} [Field K] [LinearOrder K]

/-- `__init__`, l.13-16. -/
def new (g : G) (numBins numRandomCuts : ℕ) : LodaState G K := ⟨g, numBins, numRandomCuts, none⟩

/-- `self.projections_[i, rands] = 0.`, l.49. -/
def zeroAt (rands : List ℕ) (p : List K) : List K :=
  p.mapIdx fun j v => if j ∈ rands then 0 else v

/-- `projections_[i, :].dot(X.T)`, l.50 and l.71: `ValueError` for a wrong length. -/
def project (p x : List K) : Except PyErr K :=
  if p.length = x.length then .ok (List.zipWith (· * ·) p x).sum else .error .valueError

/-- Lines 51-54: the new histogram of a cut and its limits. -/
def refit (nBins : ℕ) (c : LodaCut K) (v : K) : Except PyErr (LodaCut K) :=
  match npHistogram [v] nBins with
  | .error e => .error e
  | .ok (counts, limits) =>
    let h := counts.map fun n : ℕ => (n : K) + 1 / 10 ^ 12
    .ok { c with histogram := h.map (· / h.sum), limits := limits }

/-- The loop of `fit_partial`, l.46-54, over the remaining cuts. -/
def fitCuts (rng : LodaRng G K) (nBins numFeatures : ℕ) (x : List K) :
    G → List (LodaCut K) → Res (G × List (LodaCut K)) Unit
  | g, [] => .ok () (g, [])
  | g, c :: cs =>
    let drawn := rng.permutation g numFeatures
    let nZero := numFeatures - numFeatures.sqrt
    let c := { c with projection := zeroAt (drawn.1.take nZero) c.projection }
    match (project c.projection x).bind (refit nBins c) with
    | .error e => .err e (drawn.2, c :: cs)
    | .ok c' => (fitCuts rng nBins numFeatures x drawn.2 cs).mapState fun p => (p.1, c' :: p.2)

/-- `fit_partial`, l.18-56. `np.int32(np.sqrt(n))` is the integer square root. -/
def fitPartial (rng : LodaRng G K) (s : LodaState G K) (x : List K) : Res (LodaState G K) Unit :=
  let init : ℕ × List (LodaCut K) × G :=
    match s.arrays with
    | some (d, cs) => (d, cs, s.rng)
    | none =>
      let drawn := rng.randn s.rng s.nRandomCuts x.length
      (x.length, drawn.1.map fun r =>
        ⟨r, List.replicate s.nBins 0, List.replicate (s.nBins + 1) 0⟩, drawn.2)
  (fitCuts rng s.nBins init.1 x init.2.2 init.2.1).mapState fun p =>
    { s with rng := p.1, arrays := some (init.1, p.2) }

/-- `np.searchsorted(limits[:n_bins - 1], v, side='left')` for a sorted `limits`, l.72-73:
the number of entries below `v`. -/
def searchLeft (nBins : ℕ) (limits : List K) (v : K) : ℕ :=
  (limits.take (nBins - 1)).countP fun l => decide (l < v)

/-- One round of the loop of `score_partial`, l.71-75; `log` is `np.log`. -/
def scoreCut (log : K → Num K) (nBins nRandomCuts : ℕ) (x : List K) (acc : Num K)
    (c : LodaCut K) : Except PyErr (Num K) :=
  (project c.projection x).bind fun v =>
  (pyIndex c.histogram (searchLeft nBins c.limits v)).bind fun h =>
  .ok (acc.add (Num.smul (-(1 / (nRandomCuts : K))) (log h)))

/-- `score_partial`, l.58-78: the single entry of the returned array. Before the first
fit `self.projections_` raises `AttributeError` (unless there are no cuts). -/
def scorePartial (log : K → Num K) (s : LodaState G K) (x : List K) :
    Res (LodaState G K) (Num K) :=
  match s.arrays with
  | none => if s.nRandomCuts = 0 then .ok .nan s else .err .attributeError s
  | some (_, cs) =>
    match cs.foldlM (scoreCut log s.nBins s.nRandomCuts x) (.fin 0) with
    | .error e => .err e s
    | .ok a => .ok (a.divNat s.nRandomCuts) s

/-- `LODA` as a detector. -/
def detector {β : Type*} (rng : LodaRng G K) (log : K → Num K) :
    Detector (LodaState G K) (List K) β (Num K) where
  fitPartial s x _ := fitPartial rng s x
  scorePartial := scorePartial log

end Loda

end Pysad
