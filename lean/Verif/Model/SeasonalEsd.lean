import Verif.Model.ModifiedStl

/-! Model of `pysad/models/seasonal_esd.py`. -/

namespace Pysad

/-- Attributes of `SeasonalESD` and `SeasonalHybridESD`, `pysad/models/seasonal_esd.py`
l.46-56. `hybrid` tells the class; `residual` is the residual transformer. -/
structure SesdState (K : Type*) where
  hybrid : Bool
  period : ℕ
  windowSize : ℕ
  maxAnomalies : ℕ
  alpha : K
  window : Window K
  residual : StlState K

/-- A candidate anomaly, l.96-100: index in the window, test statistic, critical value. -/
structure SesdCandidate (K : Type*) where
  idx : ℕ
  statistic : K
  critical : K
  deriving DecidableEq, Repr

/-- The external functions: `np.sqrt`, `scipy.stats.t.ppf` (second argument: degrees of
freedom), and the STL decomposition. -/
structure SesdEnv (K : Type*) where
  sqrt : K → K
  tPpf : K → ℤ → K
  stl : List K → Except PyErr (List K)

namespace Sesd
variable {K : Type*} [Field K] [LinearOrder K]

/-- `__init__`, l.25-56. `int(window_size * 0.49)` is computed exactly. -/
def new (hybrid : Bool) (period windowSize maxAnomalies : ℤ) (alpha : K) :
    Except PyErr (SesdState K) :=
  if maxAnomalies < 1 then .error .valueError
  else if windowSize < 2 * period then .error .valueError
  else if maxAnomalies > (windowSize * 49).tdiv 100 then .error .valueError
  else if ¬ (0 < alpha ∧ alpha < 1) then .error .valueError
  else (ModifiedStl.new period (some windowSize)).map fun r =>
    ⟨hybrid, period.toNat, windowSize.toNat, maxAnomalies.toNat, alpha,
      Window.new windowSize.toNat, r⟩

/-- `_as_value`, l.58-64. -/
def asValue : NdArray K → Except PyErr K
  | .vec [v] => .ok v
  | _ => .error .valueError

/-- `np.std(values, ddof=1)`. -/
def npStd1 (sqrt : K → K) (values : List K) : K :=
  sqrt ((values.map fun v => (v - npMean values) ^ 2).sum / ((values.length : K) - 1))

/-- `SeasonalESD._center_scale`, l.66-67, and `SeasonalHybridESD._center_scale`, l.148-151.
(`np.median` of no values is `nan`; here it is an error.) -/
def centerScale (env : SesdEnv K) (hybrid : Bool) (values : List K) : Except PyErr (K × K) :=
  if hybrid then
    match npMedian values with
    | none => .error .other
    | some center =>
      match npMedian (values.map fun v => |v - center|) with
      | none => .error .other
      | some mad => .ok (center, 14826 / 10000 * mad)
  else .ok (npMean values, npStd1 env.sqrt values)

/-- `_critical_value`, l.79-82. -/
def criticalValue (env : SesdEnv K) (alpha : K) (n i : ℕ) : K :=
  let p := 1 - alpha / (2 * ((n : K) - i + 1))
  let t := env.tPpf p ((n : ℤ) - i - 1)
  (((n : K) - i) * t) / env.sqrt (((n : K) - i - 1 + t ^ 2) * ((n : K) - i + 1))

/-- `np.argmax` of a nonempty list, given as its head and tail: the index of the first
greatest entry. `best` and `at` are the greatest entry so far and its index, `i` the index of
the next entry. -/
def argmaxFrom (best : K) (at' i : ℕ) : List K → ℕ
  | [] => at'
  | x :: xs => if best < x then argmaxFrom x i (i + 1) xs else argmaxFrom best at' (i + 1) xs

/-- `np.argmax`; `ValueError` for an empty array. -/
def argmax : List K → Except PyErr ℕ
  | [] => .error .valueError
  | x :: xs => .ok (argmaxFrom x 0 1 xs)

/-- The first loop of `_esd`, l.89-102, with `fuel` iterations to go, the next one being
number `i`; `remaining` pairs `remaining_values` with `remaining_indices`. -/
def candidates (env : SesdEnv K) (hybrid : Bool) (alpha : K) (n : ℕ) :
    ℕ → ℕ → List (K × ℕ) → Except PyErr (List (SesdCandidate K))
  | 0, _, _ => .ok []
  | fuel + 1, i, remaining =>
    (centerScale env hybrid (remaining.map Prod.fst)).bind fun cs =>
    if cs.2 ≤ 1 / 10 ^ 10 then .ok []
    else
      let deviations := remaining.map fun p => |p.1 - cs.1| / cs.2
      (argmax deviations).bind fun localIdx =>
      match remaining[localIdx]?, deviations[localIdx]? with
      | some p, some d =>
        (candidates env hybrid alpha n fuel (i + 1) (remaining.eraseIdx localIdx)).map
          (⟨p.2, d, criticalValue env alpha n i⟩ :: ·)
      | _, _ => .error .indexError

/-- The second loop of `_esd`, l.104-107, from candidate number `i` on. -/
def selectedCount (count i : ℕ) : List (SesdCandidate K) → ℕ
  | [] => count
  | c :: cs => selectedCount (if c.critical < c.statistic then i else count) (i + 1) cs

/-- `_esd`, l.84-109. -/
def esd (env : SesdEnv K) (hybrid : Bool) (maxAnomalies : ℕ) (alpha : K) (values : List K) :
    Except PyErr (List (SesdCandidate K)) :=
  (candidates env hybrid alpha values.length maxAnomalies 1 values.zipIdx).map fun cs =>
    cs.take (selectedCount 0 1 cs)

/-- The last loop of `_score_window`, l.124-128. -/
def latestStatistic (latest : ℕ) : List (SesdCandidate K) → K
  | [] => 0
  | c :: cs => if c.idx = latest then c.statistic else latestStatistic latest cs

/-- `_score_window`, l.116-128. -/
def scoreWindow (env : SesdEnv K) (s : SesdState K) (values : List K) : Except PyErr K :=
  if values.length < s.windowSize then .ok 0
  else
    (ModifiedStl.transformWindow env.stl s.residual values).bind fun residuals =>
    (esd env s.hybrid s.maxAnomalies s.alpha residuals).map
      (latestStatistic (values.length - 1))

/-- `_candidate_window`, l.69-74. -/
def candidateWindow (s : SesdState K) (X : NdArray K) : Except PyErr (List K) :=
  (asValue X).map fun v =>
    let values := s.window.get ++ [v]
    values.drop (values.length - s.windowSize)

/-- `fit_partial`, l.111-114. -/
def fitPartial (s : SesdState K) (X : NdArray K) : Res (SesdState K) Unit :=
  match asValue X with
  | .error e => .err e s
  | .ok v => .ok () { s with window := s.window.update v }

/-- `score_partial`, l.130-132. -/
def scorePartial (env : SesdEnv K) (s : SesdState K) (X : NdArray K) : Res (SesdState K) K :=
  .ofExcept ((candidateWindow s X).bind (scoreWindow env s)) s

/-- `fit_score_partial`, l.134-137. -/
def fitScorePartial (env : SesdEnv K) (s : SesdState K) (X : NdArray K) : Res (SesdState K) K :=
  (fitPartial s X).bind fun _ s => .ofExcept (scoreWindow env s s.window.get) s

/-- `SeasonalESD`/`SeasonalHybridESD` as a detector (without its own
`fit_score_partial`). -/
def detector {β : Type*} (env : SesdEnv K) : Detector (SesdState K) (NdArray K) β K where
  fitPartial s x _ := fitPartial s x
  scorePartial := scorePartial env

end Sesd

end Pysad
