# pysad in Lean 4: design

This is a machine-checked model of `selimfirat/pysad` (source in `/repo`) and of
the properties listed in `properties.jsonl`.  Lean project: `lean/`, library
`Verif`.  Claims and theorem names: `MANIFEST.json`.  Mutation log:
`seeded/LOG.jsonl`.


## How the seeded-bug log is kept

`seeded/LOG.jsonl` has one line per attempt, in order, survivors included. An edit that survived
and was run again after a theorem was tightened has a line for each run; `theorems_tightened` is
on the line of the run that survived. Edits that do not compile have no line.

- `claim` is the property the edit is meant to break. `claim_at_run` is given if the run was made
  under another number and `claim` was corrected by hand afterwards.
- `theorems_failed` are the theorems whose proofs failed in the run, with those that the run listed
  as depending on them. If no theorem of a property is among them, they are lemmas or examples.
- `theorems_depending_on_failed_ones` was not observed: it was computed later from the final
  project, and may name theorems that were written after the run.
- `claimed_property_failed` says whether a theorem of that property is in one of the two lists. Where it is `false`
  the edit was noticed only through other properties, or was not seen to break the claim.

Correction: earlier versions of this log were more favourable than the runs. They kept only the
last run of each edit, so that about twenty survivors appeared only as kills or not at all. In the
second batch the claim was set by a script to a property whose theorem had failed. The survivors
were restored from the records of the runs (their times are in the notes), the claims of that
batch were assigned by hand from the property titles, and `claimed_property_failed` was added.
Until this version the two lists of theorems were one, named `theorems_failed`.

## 1. How the code is modelled

* One Lean definition per Python function, in `Verif/Model/*`.  Each definition
  cites the file and lines it models and says what was simplified.
* Objects are structures holding the attributes; methods are functions from a
  state to a new state.  A method that can raise returns `Except PyErr α` when
  the exception leaves no trace that is later observed, and `Except PyErr α ×
  State` when the state left behind by the exception matters (the state is the
  one at the raise point, so "fails without changing anything" is a theorem and
  not a modelling convention).
* Python exceptions are the constructors of `PyErr`.  Division by zero, reading
  an empty list, `list.remove` of an absent value and so on are modelled as the
  errors that Python raises.  They are not totalised away.
* Numbers.  The code is float code.  Definitions are written over arbitrary
  arithmetic (`[Add K] [Sub K] ...`), so the same definition can be used
  - in exact arithmetic: theorems for every linearly ordered field (or ℝ when
    `sqrt`, `log`, `exp`, `erfc` occur), and
  - on `F64`, a computable model of IEEE-754 binary64 rounding over ℚ, for
    the counterexamples about rounding.
  Results that only use comparisons are proved for every linear order, which
  covers doubles other than NaN.
* Shared mutable state (aliasing) is modelled with an explicit heap wherever an
  alias could be observed (`Window.get`, xStream's duplicated dictionaries).
* Third-party code is a parameter of the model: PyOD detectors, STL, Student-t
  and chi-square quantiles, `numpy.linalg.inv`, hash functions, every random
  draw, the dendrogram given by scipy, PyNomaly's and rrcf's internals.  A
  theorem then holds for every behaviour of those parameters, or for every
  behaviour meeting a hypothesis written in its statement.

## 2. How the properties are stated

* `Verif/Spec/*` holds small specifications that do not mention the model:
  last `w` items of a list, mean, population variance, median, counts in boxes,
  and so on.
* `Verif/Props/*` holds the property theorems, each with `example`s that show
  that its hypotheses are met by a concrete non-trivial case.
* `Verif/Proofs/*` holds the invariants and lemmas.
* A property that the code violates has a theorem ending in `_refuted`, which
  is the negation of the full statement with a concrete witness, and a theorem
  ending in `_partial` for what does hold.  Status in the manifest: `partial`.

## 3. Trusted base

* Lean's kernel (4.33.0) and the definitions of Mathlib that appear in
  statements.
* Axioms: only `propext`, `Quot.sound`, `Classical.choice`.  No axiom is added,
  there is no `sorry`, no `native_decide`, no `bv_decide`.
* The reading of Python and numpy that went into the model.  Nothing was run:
  the model was written from the text of `/repo`.
* For C210–C216, the reading of the documentation of `scipy.stats.entropy`
  (`ScipyEntropy`), and for C213 and C215 that `chi2.isf` is positive for positive
  degrees of freedom and `nan` for 0 (`Spec.ChiSquaredTail`).

## 4. Plan, property by property

| id | model | proof |
|----|-------|-------|
| C01, C02 | `Window`, `UnlimitedWindow` as lists | induction on the history, invariant `window = lastN w history` |
| C03 | heap of Python lists, `get` returns a reference | concrete aliasing witness; partial: a full window is replaced, so its snapshot is stable |
| C04–C06 | meters as records over an arithmetic type | invariant: fields are the fold of the live multiset |
| C07, C08 | `WithBot`-like extended value, heap list built by concrete `heappush` | `heappush` is a permutation; invariant: list is a permutation of the live multiset and `max` is its supremum |
| C09, C14 | list with `heappush`, `sort` inside `get` | same invariant; median is specified relationally through sorted permutations |
| C10, C11 | all meters | corollaries of the multiset characterisations |
| C12 | `RunningStatistic` over any statistic, instantiated at all eight meters | simulation: state after n updates is that of the history "update each, remove the expired"; then C04–C09 |
| C13 | wrapper | direct simulation for every statistic |
| C15, C16 | `F64` instance of the meters | witnesses evaluated in the kernel; partial theorems in exact arithmetic, and exactly when no operation rounds |
| C17–C22 | `BaseModel`/`BasePostprocessor` loops over an abstract state machine with exceptions | induction over the dataset |
| C23 | `BaseTransformer.fit` with the tuple it passes | witness transformer; partial: transformers that ignore or unwrap the tuple (all shipped ones) |
| C24 | the models listed | per-model theorem that a score leaves the observable state; KNNCAD refuted |
| C25–C27 | index list, arbitrary permutation as shuffle outcome | permutation lemmas |
| C28 | table of rows split at the last column | list lemma |
| C29 | explicit global RNG state | witness; partial: no use in between |
| C30–C32 | `WindowedMetric` over an arbitrary metric that may raise | induction with chunk specification; witnesses for C31, C32 |
| C33 | accumulated lists, precision/recall/AUROC over counts | induction, counting |
| C34–C36 | postprocessors composed of meters | corollaries of C05–C12 |
| C37 | window of scores | counting lemma, monotonicity |
| C38, C39 | ℝ, erfc as a function with stated properties | monotonicity; C39 witness |
| C40 | PyOD's combination functions | order lemmas on lists; weighted means |
| C41, C42 | ℝ vectors as lists / `Fin n → ℝ` | norm and variance identities |
| C43 | base transformer loops | induction |
| C44–C46 | deque, phase counter, per-phase sums | state equality; invariant for periodic streams; witness for C46 |
| C47 | window, STL as parameter | case analysis on candidate window |
| C48 | hash as parameter | sums |
| C49 | RNG as state | witness; partial: shape |
| C50 | window and metric parameter | counting |
| C51 | three models | witnesses; partial: the opposite direction holds |
| C52–C54 | inductive trees, boxes as specification | induction on trees and streams |
| C55–C57 | two windows with optional labels | invariant relating windows to the stream; W = 1 witness for C57 |
| C58–C60 | direct | induction over histories |
| C61–C64 | full bookkeeping; NCM and inverse as parameters | invariant by stream position |
| C65, C66 | ℝ, random matrices as parameters | index and positivity lemmas; C66 witness |
| C67, C68 | ℝ over meters | corollaries of C06, C09 |
| C69, C70 | histogram list, chi-square threshold as parameter | induction; C70 witness |
| C71 | set of leaf indices | invariant `{0} ∪ last tree_size`; refutes the claim |
| C72, C73 | sketches as finite maps | invariant: cell weight is the decayed sum |
| C74–C76 | ESD loop with arbitrary location/scale | induction on iterations |
| C77–C79 | sketches as finite maps under an explicit heap for aliasing | counting invariant; witness for C79 |
| C80 | inductive dendrogram | structural induction |
| C81–C83 | counters and phases; autoencoder over ℝ with ±inf | induction; witness for C83 |
| C84 | running sums over ℝ, specified by the closed form `featureDistance` | induction on the stream; Cauchy–Schwarz; index arithmetic for the condensed distances, induction on the tree |
| C85 | trace-time capture as a cache | witness; partial: first score |

| C86 | the lookup of `Loda.score_partial` | witness with two bins; partial: which bin is looked up instead |
| C87 | truth value of an array | witness; partial: one-entry arrays, no array |
| C88, C89 | Inqmad with the random features and the decomposition as parameters | witnesses; partial: the last batch; the density is highest at the fitted instance |
| C90 | three abstract components run as a loop and as batches | induction over the dataset, comparing where exceptions occur |
| C91 | histories with rejected calls, against the same histories without | per-model simulation; witnesses for four models, and for these the claim about rejected scores by induction |
| C92 | KNNCAD in full, `numpy.linalg.inv` as a partial function | refinement of `Spec/KnnCad` by an invariant over positions |
| C93 | forest of abstract trees | invariant that every tree holds the same indices |
| C94 | RSHash's constructor with every draw as a parameter | interval arithmetic on `log`, `sqrt`, floor |
| C95 | `np.min`, `np.max` as folds | least and greatest elements |
| C96 | `kitnet_model/utils.py` over ℝ | Mathlib's sigmoid, tanh and normal distribution |
| C97 | ring buffer | invariant: the rotated buffer is the last `k` of zeros followed by the stream; witness |
| C98 | `dA.train` over ℝ | derivative of the loss along a path of parameters; witness for the biases |
| C99 | LODA's draws over all fits | induction: the set of features kept; witness with two features |
| C100 | both calibrators | C37 and C38, strict antitonicity of erfc; witness for the conformal one |
| C101 | both calibrators | counting under a strictly increasing map; mean and variance under affine maps; witness |
| C102 | conformal calibrator | counting elements with few greater ones; witness with equal scores |
| C103 | stored items of fourteen detectors | invariants of the stored lists, trees and dictionaries; unbounded families of streams for the refutations |
| C104 | HalfSpaceTrees, xStream, MedianAbsoluteDeviation, StandardAbsoluteDeviation | monotonicity of the score formulas of C53, C77, C67, C68 |
| C105 | HalfSpaceTrees, ExactStorm, RelativeEntropy, deviation models, RSHash with its constructor | simulation between the two runs; witnesses for the others |
| C106 | deviation models | C67, C68 and permutation invariance of mean, variance and median; witness |
| C107 | ExactStorm, HalfSpaceTrees, xStream, SeasonalESD, RSHash | the score formulas only look at recent windows; geometric sums for RSHash |
| C108 | LocalOutlierProbability over an interface of the batch library | `fit_partial` is the identity; induction on the history |
| C109 | `Data.get_data` over given readers | case split on where `.mat` occurs in the name; witness |
| C110 | RSHash, RelativeEntropy, KNNCAD | `score_partial` does not use its argument; concrete pairs for `fit_score_partial` |
| C111 | AverageMeter on `F64` | error analysis by induction on the stream; witness |
| C112 | MaxMeter, MinMeter, MedianMeter on `F64` | refinement as for C07-C09; rounding is monotone and commutes with halving |
| C113 | conformal calibrator, ExactStorm on `F64` | counts are exact, one rounding; rounding is monotone and separates k/n from l/n |
| C114 | ExactStorm, MedianAbsoluteDeviation, StandardAbsoluteDeviation, RelativeEntropy, ReferenceWindowModel over a store of arrays | simulation between the run on references and the run on values, as long as the retained arrays are not written; witnesses |
| C115 | z-score postprocessors, deviation models | closed form of the standard score of a member of the sample; the median of a sample resists one value |
| C116 | statistics over numbers with nan and infinities, ExactStorm | non-finite sums stay non-finite, homomorphism on finite streams; witness |
| C117 | `BaseTransformer.transform`, `fit_transform` with the shape of the output array | every result of the shipped transformers fits the row; loop induction |
| C118 | two detectors sharing numpy's generator, over `Spec/Shared` | simulation up to the generator; witnesses beside a RandomModel |
| C119 | HalfSpaceTrees with midpoints stored in integer arrays | induction on the depth: divisible ranges are never truncated; witness |
| C120 | HalfSpaceTrees with midpoints and score sums in doubles | C52's invariant; induction over the tree for the rounded splits; all partial sums are integers up to 2^53 |
| C121 | scikit-learn's `roc_auc_score` and `average_precision_score` from their curves | telescoping over the distinct scores; counting |
| C122 | PerfectModel, NullModel, metrics | C59, C60 and C121 |
| C123 | WindowedMetric with AUPR | C30, C121 and monotonicity of the mean; witness |
| C124 | meters over integers modulo 2^bits | refinement as for C04-C09 up to congruence; witness |
| C125 | RSHash with an arbitrary conversion of cells to 32 bits | the two runs coincide while the conversion is exact; pigeonhole for the refutation |
| C126 | `StreamhashProjector` with the hash table drawn uniformly from all tables | moments of sums of independent draws by induction on the number of draws (`Proofs/Expectation`), Chebyshev's inequality |
| C127 | `RandomModel` with a generator that draws a given sequence, scikit-learn's ranking scores | symmetry: exchanging two instances preserves averages; linearity |
| C128 | the averaging, maximum and median postprocessors | reduction to C34/C35 and to monotonicity and equivariance of mean, maximum and median |
| C129 | loops of five example scripts with the scoring step, the metric and the streamer as parameters | induction over the stream: loop = scoring in order, then updates of the metric |
| C130 | the quick start: LODA, `fit_score_partial`, AUROC | LODA's score of the instance just fitted is a constant (C86); AUROC of a constant is 1/2 (C121); averages with a constant preserve the order |
| C131 | `RSHash` and `xStream` with uniform shifts (Lebesgue measure on a cube) | measure of the shifts that put two numbers between the same integers; product measure; linearity; Jensen's inequality |
| C132 | the ensemblers, the bucket methods with the random order of the detectors as an interface | monotonicity of C40 on batches; buckets of a permuted row; counterexamples with two orders |
| C133 | the generator of `ArrayStreamer.iter` as an object advanced by `next()` between writes of the caller | invariant of the generator state over all interleavings; counterexample |
| C134 | postprocessors and ensemblers as in C34, C35, C40 | the median of a bag lies where more than half of its values lie (order statistics by counting); counterexamples for averages |
| C135 | the deviation detectors as in C67, C68 | the same lemma for the median and for the recorded distances; counterexamples for the mean and for outliers at the beginning |
| C136 | postprocessors as in C34-C38, metrics as in C121 | AUROC and AUPR under strictly increasing maps; bound of AUROC under decreasing maps; counterexamples |
| C137 | models as in C34-C37, C50, C68, C72 | lists that differ in one place: counts, sums, windows and decayed counts of both; counterexample |
| C138 | constructors and calls as in C50, C55, C70-C78 | invariants of the calls for the good arguments (as in those properties) and for the bad ones: the offending attribute never changes, so every fit raises; counterexamples |
| C139 | `Model/XStreamInit.lean`: the constructor with its draws, in order | recursion over chains and depths: how much is drawn; then C77 and C78 for the object constructed |
| C140 | `Model/Defaults.lean`: constructors with their default arguments | the properties of the classes, at those arguments; numerical bounds |
| C141 | xStream with an arbitrary conversion of bins to 32 bits | the two runs coincide while the conversion is exact; pigeonhole for the refutation; widths exceed 0.0001 |
| C142 | the models of the detectors and scalers | simulation between the runs on the two orders; a permutation of the equally likely choices for the likelihood form |
| C143 | `Inqmad` with the distribution of what `RBFSampler` draws | characteristic function of the normal distribution, Fubini; Hoeffding's inequality for the concentration; the score by C85 and C89 |
| C144 | `DaState`, `Da.train` with the learning rate replaced; specification: `autoencoderLoss` of C98 | derivative of the loss along the step, computed with `hasDerivAt_loss`, is minus a sum of squares; strict decrease from the slope, otherwise all components of the step vanish |
| C145 | `Hst`, `XStream`, the deviation detectors | the score formulas C53, C77, C67, C68 before and after one fit: counts only grow inside a window; adding a value moves the mean and the median towards it; refuted by concrete histories |
| C146 | StandardAbsoluteDeviation, MedianAbsoluteDeviation, running z-scores, any history | Chebyshev and Cantelli by counting; mean and median differ by at most the deviation; witnesses |
| C147 | `RelativeEntropy` with every operation rounded | exact arithmetic: the ceilings lie in 0..n, and the histogram counts each such integer once. Doubles: `D / (D / n)` rounded is at most `n` for `n = 2^i` or `2^i + 2^j`, since the remainder of the first quotient is a multiple of `2^j`; monotone rounding carries it to the other values. Refuted by 7 bins over [0, 17] |
| C148 | KitNet with the real square root and logistic function | the normalised value lies outside [0, 1] by d / (range + 1e-16), its reconstruction inside, so the error of its autoencoder is large; the output autoencoder was trained on errors in [0, 1] (C82), so the same argument applies to it |
| C149 | HalfSpaceTrees | every split lies inside the bounds, so that moving a value into its bounds changes no turn; simulation over the history |
| C150 | deviation detectors, KitNet, Inqmad, HalfSpaceTrees, ExactStorm | closed forms of the scores (C67, C68, C81) are Lipschitz or compositions of continuous functions; counterexamples at a split and at the radius; off the cuts the score is locally constant (C151) |
| C151 | HalfSpaceTrees | the bounds of a box at depth k are multiples of the range over 2^k, so every split is a cut of the grid; simulation over pairs of histories |
| C152 | InstanceUnitNormScaler in doubles, with the sums in any order | a correctly rounded square root (`Proofs/Sqrt`): fl(sqrt(S)) ≥ x whenever S ≥ fl(x²); relation "within k roundings", closed under sums, products and quotients |
| C153 | MedianAbsoluteDeviation, StandardAbsoluteDeviation in doubles | rounding is monotone and keeps signs; invariant with the rounded median and the rounded deviations; error bound for the variance (C16) |
| C154 | HalfSpaceTrees whose split features are the entries of a list of draws | recursion of the chance that two instances share a box; expectation over all draws of all trees; Chebyshev inequality; equivalence relations are positive semidefinite |
| C155 | `HalfSpaceTrees`, `StandardAbsoluteDeviation`, `RelativeEntropy` on numbers that may be `nan` or infinite | the tree trip of an instance equals that of the instance with bounds put in, by induction over the tree under the invariant that every split lies inside the bounds; for the deviation the invariant that the running sums are not finite, hence the variance is `nan`; for the entropy an invariant about the windows of numbers seen so far |
| C156 | `RSHash` and `xStream` scores as functions of uniform shifts; `HalfSpaceTrees` as a function of the drawn splits | Hoeffding bound on the mean over independent components or chains; order of two instances from the one-sided bound on the difference |
| C157 | ExactStorm, RelativeEntropy, xStream, conformal calibration, running z-score, RSHash, LODA, Inqmad | scores are functions of the multiset of each window (from C50, C69, C77, C37, C36); refuted for RSHash, LODA and Inqmad by two streams of two or three instances |
| C158 | HalfSpaceTrees, xStream, ReferenceWindowModel | from the score formulas (C53, C77): the reference window and the bin widths depend on completed blocks only; ReferenceWindowModel by induction over the continuation with the invariant of C55 |
| C159 | running and whole-stream postprocessors on an arbitrary stream followed by one inside an interval | the window theorems C34/C35; a window with enough new scores consists of them (average, maximum) or mostly of them (median, by the majority lemma of C134) |
| C160, C161 | `SeasonalESD`, `SeasonalHybridESD` on a full window with an arbitrary decomposition | the sum of squares of a sample with one outlier splits in two; Cauchy-Schwarz for the ceiling; majority lemma of C134 for medians; counterexamples: four equal values and a spike, four alternating values and a spike |
| C162 | z-score postprocessors, StandardAbsoluteDeviation with mean and median, Gaussian calibration | Samuelson's inequality (Cauchy-Schwarz on the other deviations), and that the median is within one deviation of the mean, applied to the closed forms of C36, C38, C68; attained by zeros followed by a one |
| C163 | CorClust through KitNet over ℝ with any linkage | closed form of the running sums; an identity of Welford type splits N times the covariance into the sum of products of running deviations and a remainder, bounded by Cauchy–Schwarz and the harmonic numbers; counterexample with three instances |
| C164 | `ReferenceWindowModel` on streams with some labels | three witnesses refute the expectation; simulation of any run whose fits did not raise by an unlabelled run of a detector that remembers its data |
| C165 | `SeasonalESD`, `SeasonalHybridESD` on a full window with several spikes | induction over the removals: as spikes are a minority, the mean (median) stays nearer to the rest than to the largest spike, so each removal takes a spike; the last one is significant by the argument of C160; counterexample of C160; two equal spikes with `max_anomalies = 1` are both missed |
| C166 | `SeasonalESD`, `SeasonalHybridESD` on a stream in another unit | residuals are multiplied by the factor; step by step the candidates of the old unit are those of the new one, so they form a prefix; counterexample: a spike of 100 in a unit in which the deviation is below the cut-off |
| C167 | the detectors and transformers of C142 with instances of one more feature | simulation between the two histories; for `HalfSpaceTrees` a coupling of the draws (redraw when the added feature was drawn) compares the expected scores, and a witness refutes equality |
| C168 | histories of transformer calls; the deque, phase counter and per-phase sums of SeasonalTrendDecomposer | invariant relating deque, sums and counts to the list of fitted instances; affine and order lemmas for means |
| C169 | all detectors, score calls only | one state fixed by score calls; fresh counts, masses and windows are empty; refuted per detector |
| C170 | ExactStorm, conformal calibrator, running average and median, HalfSpaceTrees on drawn streams | finite Hoeffding inequality; window contents from C50, C37, C35, C53 |
| C171 | the four metric classes through `update`/`get`, with scikit-learn's curves | AUROC: the ranking probability is monotone in every duel; AUPR: sorted anomalies compared position by position, refuted with ties by a witness; Precision, Recall: monotone counts |
| C172 | `scoreEnsembler` with average (also weighted), maximum, median over a table of scores; AUROC through `update`/`get` | refuted by witnesses; shortfall bound by a duel-by-duel union bound, using strict monotonicity of the combinations (shift equivariance; sums for weights); better members through C171 |
| C173 | updates as lists of statements (`Statements.*`), histories in which any call may stop after any number of statements | simulation: the first statement decides; refuted by witnesses checked against every reading of the history; Window by a suffix invariant; `statements_complete` ties the statements to the other models |
| C174 | `Hst.fitStages`: the states between any two assignments of `fit_partial` (together they are `Hst.fitPartial`: `hst_statements_complete`) | the interrupted detector agrees with an uninterrupted one up to both masses; a window boundary turns agreement up to both masses into agreement up to reference masses, and that into agreement; induction over the history and over the later fits; witness that it does not hold at once |
| C175 | `XStream.fitStages`: the states between any two assignments of `fit_partial` (together they are `XStream.fitPartial`: `xstream_statements_complete`) | four levels of agreement with an uninterrupted detector (draws and step; the window; the counts collected; the counts compared); every boundary of windows raises the level; induction over the history and the later fits; witnesses that it holds neither at once nor after two windows |
| C176 | `RsHash.fitStages`: the states between any two assignments of `fit_partial` (together they are `RsHash.fitPartial`: `rshash_statements_complete`) | invariant: every sketch represents the fitted instances and, for every cell, at most one more event per interruption; old events weigh little, `log (1 + ·)` is 1-Lipschitz; witness with two components that the score is never exact |
| C177 | the statements of C173 (`Statements.*`) and those of StandardAbsoluteDeviation (`Statements.sadMean`), each shown to be the whole call when run to the end | for each class an interruption and a family of continuations of unbounded length, for which the state is computed by induction; the claim is refuted although the number of later calls may depend on the history |
| C178 | instances are lists of any length in the models of HalfSpaceTrees, LODA, xStream, KNNCAD, the deviation detectors and Seasonal ESD; `exactStormArrays` and `RsHash.fitPartialArrays` add that for ExactStorm and RSHash (the latter shown to agree with `RsHash.fitPartial` for the right length); `KitNetLengths` for KitNet (agrees with `KitNet` for the right length) and Inqmad | invariant of LODA: all directions have the length of the first instance; induction over trees and components that what is accepted stays accepted when features are appended; padding with zeros does not change a hashed projection; refuted per detector; KitNet: invariant that the feature map is a partition, so some autoencoder needs the missing feature |
| C179 | mixed histories of fit_partial and transform_partial on all postprocessors and calibrators (a postprocessor seen as an object with two kinds of calls) | invariants of the meters along histories of calls; refuted before the first fit |
| C180 | histories with labels on all detectors; the wrapped batch detector of ReferenceWindowModel is any that ignores labels | fit_partial does not use y; for ReferenceWindowModel a simulation with the object without labels; refuted for mixed labels |
| C181 | `ReferenceWindowModel.fit_partial` store by store (`RefWindowInterrupt`) | invariant of all intermediate states, then two phases (before and after the first slide) of the complete fits; counterexample by an invariant of the broken object |
| C182 | `Model/RrcfInterrupt`: the states after each call into the tree library and the store of `index`, for `fit_partial` and `score_partial` | false of the code: every crash point is classified as harmless or fatal; fatal ones by an invariant of every later store (the first tree holds the next number, or some tree holds the test point), harmless ones by an invariant on what the trees hold |
| C183 | `Model/Projection`: the number of components scikit-learn uses for one row, including its formula for `'auto'` | false of the code: the logarithm of one row is 0, so the dimension is; at least 16 for two rows by bounds on log 2 and eps²/2 − eps³/3 |
| C184 | `Model/MetricInterrupt`: the stores of `update` for the scikit-learn metrics and for `WindowedMetric` over them | false of the code: an invariant of every store (more labels than predictions) shows that a torn update is never repaired; without torn updates the two lists stay equally long, and induction over the windows gives the rating of each |
| C185 | `Model/Threads`: threads with their own variables taking indivisible steps in the order of an arbitrary schedule; the steps of six `update` methods | a trace of all steps that keeps the order of each thread exists for every finished run; invariants of traces; false of five of the six, by schedules of two threads |
| C186 | `Model/Threads`: one thread updating, others calling `get` in steps | an invariant of every schedule: the object is after n steps of the updating thread, and the pending reads were loaded after fewer; false of `AverageMeter`, `MedianMeter` and the metrics by one schedule each |
| C187 | `KNNCAD` | Alarms are counted in the answers of any history; at most one in each block of ⌊P/5⌋+1 scores (from C92 by induction on the answers). Until 2P fits the own strangeness is in the reference scores, so the score is at most (P−20)/(P−19), below 0.9965 exactly for P ≤ 304; a spike after zeros attains it |
| C188 | HalfSpaceTrees, RSHash and ExactStorm fitted by one thread and scored by another; each load of a score sees one of the states between two stores | Induction over the fits: every node of a half-space tree has, at any moment, the mass before or after the fit that is under way; the list a scoring thread holds is frozen once the window has replaced it (pairwise relation over the moments). Counterexamples for the trees and for a window of size 1 |
| C189 | `examples/example_probability_calibration.py`: loop, calibrator, printed alerts (`Model/AlertExample.lean`) | induction over the data set with the calibrator window as invariant; xStream scores of identical instances computed from C77 and strictly falling, so false; the exact set of alerts proved |
| C190 | the meters, `RunningStatistic` and `StandardAbsoluteDeviation` as before | at least half of the values on each side of the median, hence (mean − median)² ≤ variance by Cantelli's argument for finite multisets; carried to the meters by their refinements |
| C191 | `fit_partial` of KNNCAD, RelativeEntropy, Inqmad and LODA store by store | KNNCAD: invariant bounding the items lost by the number of interruptions; a state that fails for ever, reached in P - 47 interruptions. RelativeEntropy: invariant on the first stored reference, counterexample. Inqmad: equality of states. LODA: shape of the projections at every store |
| C192 | the stores of `SeasonalTrendDecomposer` calls one by one, with the two arrays as separate attributes | refutation: `seasonal_sums` without `seasonal_counts` is preserved by every store; otherwise an invariant bounds what n calls leave behind, and a relation between the interrupted and a new decomposer (phases shifted) is kept by complete calls |
| C193 | `KitNet.fit_partial` store by store (`KitNetInterrupt`): the running sums of `corClust`, the feature map, each autoencoder as it is appended, each parameter of each autoencoder as it is trained, the counters | two kinds of states, usable and stuck (a feature map without output layer); every store of a fit in a usable state leads to one of the two, to the second only from the fit that finds the map; stuck states stay stuck; complete fits count up to trained autoencoders, whose scores are numbers. False of the code: `C193_dead`, `C193_refuted` |
| C194 | no new code: the meters, the z-score, the conformal calibrator and the two deviation detectors on the first n draws of a random stream (`Props/Consistency`) | the strong law of large numbers for the values, their squares and the indicators of half-lines; a median follows from the frequencies on both sides of it; for `MedianAbsoluteDeviation` the running medians converge, so all but finitely many of the stored deviations are as close as wanted to the deviations from the limit; Chebyshev for the bound |
| C195 | no new code: the four metrics of `Metrics`/`RankMetrics` on a stream whose normal instances are repeated (`Props/ClassRatio`) | the pair counts of C121 and the counts of C33 under repetition; each precision p becomes p/(p + k(1 - p)), a convex function, so Jensen bounds AUPR from below |
| C196 | no new code: the decisions of a threshold user fed to `PrecisionMetric`, `RecallMetric` | fewer scores reach a higher threshold; for separated scores either nothing normal is reported or all anomalies are. False of precision in general: `C196_precision_refuted` |
| C197 | no new code: the five detectors with windows on a periodic stream | windows of whole periods are permutations of each other, so the order-free score theorems (C50, C53, C77, C69) give equal answers; for KNNCAD at least 27 training segments equal the newest one and the quadratic form is nonnegative, so its strangeness is 0 and below none |
| C198 | no new code: `k` passes over the same data | mean, variance and median of a bag do not change when it is multiplied; windows that end with a pass hold the end of the data. False of `MedianAbsoluteDeviation`, `RSHash`, `Inqmad`: `C198_mad_refuted`, `C198_rshash_refuted`, `C198_inqmad_refuted` |
| C199 | the whole script `example_usage_inqmad.py`: scaler, `Inqmad`, smoothing, metric | the loop equals the batch pipeline (C129), after the first fit the state never changes, so every score compares with the first instance; the anomaly gets the lowest score; a two-dimensional witness refutes the claim |
| C200 | the whole loop of `example_pyod_integration.py` over any detector class | the loop is a run of alternating fits and scores, then C55 and C57; induction on the remaining rows for the absence of exceptions |
| C201 | the loop of `example_statistics.py` | the two meters are independent folds, then the refinements of C01 and C02 |
| C202 | no new code: streams with negated features | closed forms of the scores (C67, C68) with the median of mirrored values; simulations between the two runs for ExactStorm, KNNCAD, Inqmad, LODA, HalfSpaceTrees and the seasonal ESD detectors; counterexamples on a border |
| C203 | `fix_seed`; arbitrary classes whose constructors and methods draw from the two global generators, and deterministic programs that use them | the two runs agree on the generators and on the objects made since the seeding, by induction on the number of actions; counterexample with a LODA object trained before |
| C204 | no new code: `Data.get_iterator` beside a detector in one process | induction over the interleaving; counterexamples with RandomModel |
| C205 | no new code: the meters and `RunningStatistic` on converted values | simulations between the two runs for count, sums, mean and variance; the ideal traces of C07-C09 with converted bags for the others; C12 for the windows |
| C206 | rows of scores in which at most b entries are below (above) a threshold; ensemblers and shuffles as for C40 and C132 | buckets are a partition of the row, so counts of entries bound counts of buckets; sums against counts; refuted for all sizes |
| C207 | `SeasonalTrendDecomposer` as for C168; two histories that fitted the same instances but one | the deviation at time t changes by the value minus a w-th of it, then by minus a w-th for w - 1 times, so a phase changes by at most 1 - 1/w of it in all; the number of visits of a phase grows without bound |
| C208 | `SeasonalTrendDecomposer` on arrays of any length, with the broadcasting of numpy and the state that a raising call leaves | an invariant for the time after a rejected fit (the window still holds it, sums and counter stand still, then run late); embedding of the model of C168; refuted for all sizes |
| C209 | `SeasonalTrendDecomposer` on a stream with `x (n + s) = x n + s a` | closed form of the trend and of every recorded deviation (from C168), exact count of the recorded deviations |
| C210 | `RelativeEntropy` with `scipy.stats.entropy` over the reals | the closed form of the score (C69) and of the bins (C70); a bin filled now and empty before makes a term infinite. Refuted by values outside of the range and by the two topmost parts |
| C211 | `RelativeEntropy` with `scipy.stats.entropy` over the reals, last window inside one part of the range | all terms of the relative entropy but one are 0; the closed form of the score (C69) and of the bins (C70) |
| C212 | `RelativeEntropy` with `scipy.stats.entropy` over the reals, two windows inside the range | bounds of the relative entropy: from below by Pinsker's inequality, through a bound of the logarithm and the Cauchy-Schwarz inequality, from above by Pearson's statistic; the score by C69, filled parts that were empty by C210 |
| C213 | `RelativeEntropy` with `scipy.stats.entropy` over the reals, `chi2.isf` positive for positive degrees of freedom and `nan` for 0 | the score by C69; equal frequencies have relative entropy 0, `nan` is not below anything. Refuted by one bin and by a first window outside of the range |
| C214 | `RelativeEntropy` with `scipy.stats.entropy` over the reals; a window with some values exchanged (`Spec.Exchanged`) | C212; the counts of a window add up to its size, so what one part gains the others lose; squares of counts against the square of their sum |
| C215 | two windows drawn independently from finitely many equally likely values; `alarmRate` counts the draws that are reported | refuted for all window sizes: C210 on the draws that miss a rare value in the first window and hit it in the second, counted by Bernoulli inequalities; values in one part by C211 |
| C216 | `RelativeEntropy` with `scipy.stats.entropy` over the reals | the relative entropy of two windows of W values is at most ln W, since a part that is not empty holds at least 1/W of the values; for sharpness a stream of one value in the first part, W - 1 in the last one, then W in the first, by C211 |

No property is outside what a model can express.  What is left out of the
model is listed in section 5.

## 5. What is modelled and what is not

Modelled, function by function (`lean/Verif/Model`):

| module | files in `/repo/pysad` |
|--------|------------------------|
| `Window`, `Streamers`, `Utils` | `utils/window.py`, `utils/array_streamer.py`, `utils/pandas_streamer.py`, `utils/data.py`, `utils/__init__.py` |
| `Seed` | `fix_seed` of `utils/__init__.py` |
| `Interrupt` | `update`/`remove` of the statistics and windows statement by statement |
| `Statistics`, `StatHistory` | `statistics/*.py` |
| `Base`, `Pipeline`, `Examples` | `core/*.py`, and the loops of the examples `example_usage.py`, `example_usage_short.py`, `example_usage_inqmad.py`, `example_ensemble.py`, `example_pyod_integration.py` |
| `MoreExamples` | `example_usage_inqmad.py` with its objects, and the loop of `example_statistics.py`; an instance of length 0 raises at once in the former |
| `AlertExample` | `examples/example_probability_calibration.py` l.12-22; scores that are not numbers are left out |
| `Postprocessors`, `Calibration` | `transform/postprocessing/*.py`, `transform/probability_calibration/*.py` |
| `Scalers`, `SeasonalTrend`, `ModifiedStl` | `transform/preprocessing/*.py` |
| `ScalersF64` | `transform/preprocessing/instance_unit_norm_scaler.py` with rounding; the square root as IEEE 754 requires it |
| `Projection` | `transform/projection/*.py` |
| `Ensemblers`, `BucketEnsemblers` | `transform/ensemble/*.py` |
| `Metrics` | `evaluation/*.py` |
| `SimpleModels` | `models/{exact_storm,null_model,perfect_model,random_model,median_absolute_deviation,standard_absolute_deviation}.py` |
| `SimpleModelsF64` | `models/median_absolute_deviation.py`, `models/standard_absolute_deviation.py` with rounding |
| `Integrations` | `models/integrations/*.py`, `models/iforest_asd.py` |
| `HalfSpaceTrees`, `XStream`, `RsHash`, `RsHashInit`, `Loda`, `Rrcf`, `KnnCad`, `RelativeEntropy`, `SeasonalEsd`, `Inqmad` | the model of that name in `models/` |
| `HstInterrupt` | `fit_partial` of HalfSpaceTrees assignment by assignment |
| `DetectorInterrupt` | `fit_partial` of KNNCAD, RelativeEntropy, Inqmad, LODA as the list of states after each store; LODA's arrays appear together when `to_init` is cleared, KNNCAD's l.45-47 are one store |
| `DecomposerInterrupt` | the assignments of `SeasonalTrendDecomposer` calls, one by one |
| `DecomposerLengths` | `SeasonalTrendDecomposer` for instances of any length |
| `KitNetInterrupt` | the stores of `KitNet.fit_partial`, of `KitNET.process`/`train`/`__createAD__`, `corClust.update` and `dA.train`, one by one |
| `KitNetLengths` | `KitNet` and `Inqmad` for instances of any length: numpy's broadcasting in `corClust.update`, `x[self.v[a]]` out of bounds, `jnp.dot` with another number of features |
| `RefWindowInterrupt` | `ReferenceWindowModel.fit_partial`, every store of a call (crash points) |
| `RrcfInterrupt` | `robust_random_cut_forest.py` store by store; a call into the tree library counts as one store |
| `MetricInterrupt` | the stores of the updates of `metrics.py` and `windowed_metric.py` one by one |
| `Threads` | several threads calling `update` of one object of `statistics/`, `utils/window.py` or `evaluation/metrics.py`, step by step |
| `ThreadScores` | one thread fitting `HalfSpaceTrees`, `RSHash` or `ExactStorm` and another asking for scores, load by load |
| `XStreamInterrupt` | `fit_partial` of xStream assignment by assignment |
| `RsHashInterrupt` | `fit_partial` of RSHash assignment by assignment |
| `WrongLength` | `exact_storm.py`, `rs_hash.py` for instances of any length |
| `RelativeEntropyF64` | `models/relative_entropy.py` in doubles |
| `KitNet`, `Utils` | `models/kitnet.py`, `models/kitnet_model/*.py` |
| `Loop`, `DataFiles` | `models/loop.py`, `utils/data.py` (choice of the reader) |
| `TransformArray` | `core/base_transformer.py` again, with the shape of the output array |
| `RankMetrics` | the two ranking metrics behind `evaluation/metrics.py`, as scikit-learn computes them |
| `FixedInt` | numpy integers of fixed width, `statistics/*.py` on them |
| `RsHashInt32` | `models/rs_hash.py` again, with cells converted to 32-bit integers |
| `XStreamInt32` | `models/xstream.py` again, with bins converted to 32-bit integers |
| `HstArrays` | `models/half_space_trees.py` again, with midpoints stored in integer or double arrays and scores summed in doubles |
| `ByReference` | the five detectors of C114 again, keeping references to the caller's arrays |
| `F64`, `Num`, `Nan`, `Numpy` | IEEE-754 binary64 rounding, numbers with nan and infinities and their arithmetic, numpy helpers |
| `MissingValues` | `HalfSpaceTrees`, `StandardAbsoluteDeviation` and `RelativeEntropy` on instances with `nan` and infinities |
| `ScipyEntropy` | `scipy.stats.entropy` and `scipy.special.rel_entr` after their documentation (external; used by C210 to C213) |

Not modelled:

* Rounding, overflow and NaN, except where a property is about them (C15, C16,
  C83, C111-C113, C116, C119, C120, C124, z-scores).
* The internals of the third-party functions listed in section 1.
* File system access of `Data`, documentation,
  plotting, and the printing and the progress bars of the example scripts.

## 6. Defects found in the code while modelling

1. `BaseTransformer.fit` passes `(x, None)` tuples to `fit_partial` (C23).
2. `WindowedMetric` drops the metric's keyword arguments after the first window
   (C31) and counts a window before its metric is evaluated, so an exception
   leaves it out of step (C32).
3. `GaussianTailProbabilityCalibrator(running_statistics=False)` uses
   `window_size` for the variance (C39).
4. `Window.get` returns the live list (C03).
5. `Data.get_iterator` seeds eagerly and shuffles lazily (C29). Text files with
   one row or one column cannot be loaded (C28).
6. `SeasonalTrendDecomposer.fit_transform_partial` uses another season phase
   than `fit_partial; transform_partial` (C46).
7. Random projectors draw a new matrix for every instance (C49). With one
   component `StreamhashProjector` returns a bare number (C48).
8. ExactStorm, RSHash and RelativeEntropy give higher scores to normal data
   (C51), and so does Inqmad (C89).
9. `ReferenceWindowModel` fails for `window_size = 1` without an initial window
   (C57).
10. `KNNCAD` fails for probationary periods below 48 (C63); scoring changes its
    state (C24).
11. LODA only remembers the last instance (C66), and looks instances up one bin
    off (C86).
12. RobustRandomCutForest never forgets instance 0 (C71).
13. xStream scores with new bin widths against counts made with old ones (C79).
14. KitNet yields NaN between feature mapping and the first training (C83). Its
    autoencoders share one bias per layer (C98). Its rolling mean averages in
    zeros at the start (C97).
15. Inqmad forgets history (C88) and scores with the state of the first trace
    (C85).
16. RelativeEntropy's `ceil` quantiser shifts the bins (C70).
17. Window statistics drift in floating point (C15), and the variance of
    0.1, 0.1, 0.1 is negative (C16).
18. `HalfSpaceTrees(initial_window_X=array)` raises (C87).
19. The first output of a z-score postprocessor is nan (C36).
20. HalfSpaceTrees, LODA, KNNCAD and ReferenceWindowModel keep traces of
    instances they rejected (C91).
21. RSHash given bounds as lists does not exclude constant features (C94).
22. KNNCAD, KitNet, RobustRandomCutForest and Inqmad raise `AttributeError` when
    they score before any fit (C61, C81, C93).
23. `examples/example_probability_calibration.py` passes single scores to
    `fit_transform`, which iterates over its argument; this works only because xStream
    returns arrays of one element.
24. LODA zeroes new positions of its projections in every fit, until nothing is
    left of them (C99).
25. The two probability calibrators point in opposite directions (C100).
26. KNNCAD, RelativeEntropy, MedianAbsoluteDeviation, StandardAbsoluteDeviation with
    the median and RSHash store ever more as the stream goes on (C103).
27. The bounds given to RSHash do not scale the features (C105).
28. MedianAbsoluteDeviation depends on the order of the values (C106).
29. LocalOutlierProbability never learns from the stream (C108).
30. `Data.get_data` takes `a.mat.txt` for a MATLAB file (C109).
31. `score_partial` of RSHash, RelativeEntropy and KNNCAD ignores its argument
    (C110).
32. ExactStorm, MedianAbsoluteDeviation, StandardAbsoluteDeviation with the median,
    RelativeEntropy and ReferenceWindowModel keep references to the caller's arrays (C114).
33. A z-score computed by `fit_transform` never exceeds the square root of the
    number of earlier scores, nor does StandardAbsoluteDeviation's
    `fit_score_partial` (C115).
34. One nan or infinite value makes window averages and variances useless for the
    rest of the stream (C116).
35. RandomModel, LODA, RobustRandomCutForest and ReferenceWindowModel draw from numpy's
    global generator, so their results depend on everything else in the process (C118).
36. HalfSpaceTrees truncates its split points when the bounds are integer arrays (C119).
37. WindowedMetric with AUPR rates even PerfectModel below 1 if a window has no
    anomaly (C123).
38. The meters keep sums in the type of the input, so that small integer types
    overflow (C124).
39. RSHash converts cells to 32-bit integers, so that different cells may coincide
    (C125).
40. The quick start prints 1/2 whatever the data, because LODA gives every
    instance it was just fitted with the same score (C130).
41. The bucket ensemblers group the detectors anew for every instance, so scores
    of different instances are not comparable (C132).
42. A stream reads the caller's array at each `next()`: rows written to before their
    turn are delivered changed (C133).
43. `MedianAbsoluteDeviation` never recomputes a distance to the median, so outliers
    at the beginning of the stream inflate its scale for ever (C135).
44. A stream standardised with `fit_transform` begins with `nan`, so `AUROCMetric`
    raises for it; `ConformalProbabilityCalibrator` turns a perfect rating into at most
    1/2 (C136).
45. One fitted value can change a score of `StandardAbsoluteDeviation` without bound:
    after 0, 0 the score of x is 10^10 x, after 0, 2 about x - 1 (C137).
46. Constructors do not check their arguments (C138): RSHash without components or hash
    functions, xStream and HalfSpaceTrees with windows of 0, LODA without bins and
    IForestASD with windows of 0 or 1 raise at every fit; RobustRandomCutForest with
    trees of size 0 at every fit but the first; xStream with chains of depth 0 at every
    score; without chains all its scores are nan; ExactStorm with windows of 0 or 1 scores 0.
47. xStream converts bins to 32-bit integers, so that different bins may coincide (C141).
48. MedianAbsoluteDeviation compares with the median of distances to earlier medians; after a
    change of level nearly all fitted values are flagged (C146).
49. RelativeEntropy can lose the greatest value of its range to rounding: with 7 bins over
    0..17, `17 / (17 / 7)` is more than 7 in doubles, `math.ceil` gives 8, and
    `np.histogram` drops it; a window of 17s gives `0 / 0` (C147).
50. KitNet divides by the training range plus 1e-16: a feature that was constant in training
    brings the score to millions when it changes by a billionth (C148).
51. HalfSpaceTrees scores an instance beyond its bounds like one on the border, however far
    away it is (C149).
52. The scores of HalfSpaceTrees and ExactStorm jump: an arbitrarily small change of an instance
    at a split value or at the radius changes the score by a fixed amount (C150).
53. `StandardAbsoluteDeviation` answers `nan` to every instance for ever after a single fitted `nan` or
    infinity (C155): its sums are never reset.
54. SeasonalHybridESD reports no anomaly at all, however large, when more than half of the residuals in the window are equal (or nearly so): the median absolute deviation is then at most 1e-10 and the test stops (C160).
55. KitNet clusters features by a correlation of their deviations from the running mean, not from the mean: the sign may differ from that of the correlation, so the wrong features may share an autoencoder (C163).
56. `ReferenceWindowModel.fit_partial` on partly labelled streams: passes fewer labels than instances, keeps stale labels after an unlabelled slide, or raises `ValueError` (C164).
57. SeasonalESD and SeasonalHybridESD take a scale of at most 1e-10 for 0, in whatever unit the values are, so that nothing is reported for series of very small numbers (C166).
58. `HalfSpaceTrees` draws split features uniformly from all features, also those whose bounds or values never vary (`half_space_trees.py` l.59): such a feature uses up depth and makes all instances look more alike (`C167_hst_refuted`, `C167_hst_partial`). `RSHash` leaves such features out (`C167_rshash`).
59. Most detectors raise `AttributeError`, `IndexError` or `ZeroDivisionError` (RSHash returns `None`) when asked for a score before the first fit; `ExactStorm`, `HalfSpaceTrees`, `RelativeEntropy`, Seasonal ESD and `xStream` answer a constant (C169).
60. AUPR can fall when an anomaly is scored higher (C171): anomalies tied by a detector share the precision of the whole group, and raising one of them alone takes it out of that group.
61. An ensemble can be rated below every one of its detectors (C172): each detector is wrong about another normal instance, and average and maximum are wrong about all of those.
62. An interruption inside `Window.update` (C173) makes the window longer by one instance for ever; inside `AverageMeter.update` or `MedianMeter.update` it makes every later mean or median wrong.
63. HalfSpaceTrees: a `fit_partial` that is interrupted after its masses were increased and before the windows are switched leaves a current window with too many instances; for up to `2 * window_size` fits the scores are those of no uninterrupted detector (C174).
64. xStream: a `fit_partial` that is interrupted after the instance was counted and before the windows are switched leaves its instance in `cur_window` and its counts in the sketch; for up to `3 * window_size` fits the scores are those of no uninterrupted detector (C175).
65. RSHash: a `fit_partial` that is interrupted in the loop over the components leaves the instance counted in some components only, for good; its weight decays but the score never again is that of an uninterrupted detector (C176).
66. AverageMeter, VarianceMeter, MedianMeter, Window, RunningStatistic, ExactStorm and StandardAbsoluteDeviation: an update that is interrupted between its statements (for example by Ctrl-C) makes the counters disagree with the contents for good; no number of later updates repairs the answers (C177).
67. Instances with a wrong number of features are often accepted (C178): HalfSpaceTrees and RSHash ignore features beyond their bounds and accept shorter instances unless a missing feature is needed; KNNCAD uses the first feature of whatever it gets; xStream takes missing features for 0; ExactStorm fits anything and then raises `ValueError` for correct instances until the wrong one has left the window; the deviation detectors return several scores for several numbers.
68. Before the first fit, no postprocessor or calibrator returns a number: ZeroDivisionError (averages, z-scores, Gaussian tail), IndexError (medians), -inf (maxima), nan (conformal) (C179).
69. `ReferenceWindowModel`: if the first `window_size - 1` fits are interrupted between l.61 and l.69 (with `window_size=2`: one fit), `reference_window_X` stays `None`, `cur_window_X` is never emptied, every slide raises `ValueError` and `score_partial` `AttributeError` for ever (`C181_dead`).
70. `RobustRandomCutForest`: an interrupted `fit_partial` (after the first tree got the instance and before `index` is increased) makes every later `fit_partial` raise `KeyError`; an interrupted `score_partial` can leave `"test_point"` in a tree, after which new instances cannot be scored (C182).
71. `GaussianRandomProjector()`/`SparseRandomProjector()`: with the default `num_components='auto'` every `transform_partial` raises `ValueError` (scikit-learn is given one row at a time, for which the automatic dimension is 0) and every `transform` `TypeError` (C183, C49).
72. `metrics.py`, `windowed_metric.py`: an `update` interrupted between its two appends leaves more labels than predictions; `get` raises `ValueError` for ever, and `WindowedMetric` never completes another window (C184).
73. No object may be shared by threads without a lock: updates of `CountMeter`, `AverageMeter`, `MaxMeter` and `Window` get lost, and the metrics pair labels with predictions of other threads (C185). Not documented.
74. `MedianMeter.get` stores a sorted copy of the values: a value that another thread adds meanwhile is lost, after which the median is wrong or raises `IndexError`; `AverageMeter.get` may divide a sum by a later count (C186).
75. `KNNCAD` with a probationary period of 48 to 304 cannot raise an alarm (a score of 0.9965) before twice the period has passed, however strange the instance: its own score was already put among those it is compared with (C187).
76. `HalfSpaceTrees` scored while another thread fits it may add masses of different moments, and `ExactStorm` may compare with one instance more than its window has (C188).
77. `examples/example_probability_calibration.py` alerts about the instances with the LOWEST anomaly scores: the conformal value is the fraction of recent scores above the score, and the script tests `> 0.95` instead of `< 0.05`. With `xStream()`, the 21st of identical instances is reported as anomalous (C189).
78. `pysad/models/knn_cad.py` l.49-77: `record_count` is increased before the training item is stored. If a fit is interrupted in between, the item is missing for good; with too few items at the end of the probationary period (28 instead of 29) every later `fit_partial` raises `ValueError` and every later score `ZeroDivisionError` (`C191_knncad_refuted`).
79. `SeasonalTrendDecomposer._init_seasonal_state` assigns `seasonal_sums` before `seasonal_counts` and tests only the former: a call interrupted between the two leaves an object whose `transform_partial` raises a `TypeError` for ever (C192).
80. `KitNET.train` stores the feature map `v` (`KitNET.py` l.65) before the autoencoders and the output layer exist (l.97-105): interrupted in between, `v` is set and `outputLayer` is `None`, and because `n_trained` is not increased every later `fit_partial` and `score_partial` raises `AttributeError` (C193).
81. `examples/example_usage_inqmad.py` scores every instance only by its likeness
    to the very first instance of the stream (a consequence of 15), and gives that
    likeness, not its opposite, to the metric: a clear anomaly is rated 0 (C199).
82. `HalfSpaceTrees` and `RelativeEntropy` treat the two ends of a scale differently: a value on a split belongs to the lower half, and the two topmost bins are counted as one (C202).
83. `Data.get_iterator(seed=…)` seeds the generator of the whole process, not its own: detectors that draw repeat themselves when several seeded iterators are asked for (C204). `fix_seed` with a seed that numpy rejects has already seeded the other generator (C203).
84. KitNet does not check the number of features: after the feature map is learned, additional features are ignored; before, a vector with one entry is stretched to all features. A fit that is rejected has by then counted an instance in the feature map or trained some of the autoencoders (C178, C91).
85. `SeasonalTrendDecomposer.fit_partial` appends an instance to the window before it finds out that it has the wrong number of features: the next `trend_window - 1` fits of right instances raise a `ValueError`, and the season phase is `trend_window - 1` behind ever after; `transform_partial` accepts a single number for an instance of any number of features (C208).
86. `SeasonalTrendDecomposer.fit_transform_partial` returns 0 for every instance of the first season in which the trend window is full, however far it is from the pattern: its deviation is counted as the season before it is subtracted (C209).
87. `RelativeEntropy` does not count values above `max_val`, or below `min_val` by the width of a bin or more: up to `window_size - 1` of them in a window leave the score at 0 (C210).
88. `RelativeEntropy(n_bins=1)` compares with a threshold that is `nan` and reports every window; if all values of the first window are outside of the range, every later window is reported too (C213).
89. `RelativeEntropy` takes the first window for the true distribution (C215): a value that occurs about once per window is missed by the first window and hit by the second one with a probability of at least 3/16, and is then reported, although the threshold is chosen for one false alarm in a hundred.

