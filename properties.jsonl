{"id": "C01", "title": "Window keeps exactly the most recent items", "statement": "After any sequence of Window(w).update calls, get() is the list of the last min(w, n) items given, oldest first (so for w = 0 it is always empty).", "quantifier": "every item type, every window size w >= 0, every update history", "why_tests_cant": "A test feeds a few streams; the claim is about every finite history, including every length, repetition and ordering.", "anchors": ["pysad/utils/window.py:Window.update", "pysad/utils/window.py:Window.get"]}
{"id": "C02", "title": "UnlimitedWindow keeps everything", "statement": "After any sequence of UnlimitedWindow().update calls, get() is the complete history in order.", "quantifier": "every item type and history", "why_tests_cant": "A test feeds a few streams; the claim is about every finite history, including every length, repetition and ordering.", "anchors": ["pysad/utils/window.py:UnlimitedWindow"]}
{"id": "C03", "title": "A list obtained from Window.get() is a stable snapshot", "statement": "The list returned by get() does not change when the window is updated later.", "quantifier": "every reachable window and every later update", "why_tests_cant": "The failure needs a caller that keeps the returned list across updates; it is an aliasing property of all histories.", "anchors": ["pysad/utils/window.py:Window.get", "pysad/utils/window.py:Window.update"]}
{"id": "C04", "title": "Count, sum and sum-of-squares meters track the live multiset", "statement": "After any sequence of update(x) and remove(x) calls in which only values currently present are removed, CountMeter/SumMeter/SumSquaresMeter.get() is the count / sum / sum of squares of the values still present (exact arithmetic).", "quantifier": "every interleaving of updates and legal removes", "why_tests_cant": "A test feeds a few streams; the claim is about every finite history, including every length, repetition and ordering.", "anchors": ["pysad/statistics/count_meter.py:CountMeter", "pysad/statistics/sum_meter.py:SumMeter", "pysad/statistics/sum_squares_meter.py:SumSquaresMeter"]}
{"id": "C05", "title": "AverageMeter is the mean of the live values", "statement": "After any legal update/remove history AverageMeter.get() is the arithmetic mean of the values still present, and it fails with a division by zero exactly when none is present (exact arithmetic).", "quantifier": "every legal update/remove history", "why_tests_cant": "A test feeds a few streams; the claim is about every finite history, including every length, repetition and ordering.", "anchors": ["pysad/statistics/average_meter.py:AverageMeter"]}
{"id": "C06", "title": "VarianceMeter is the population variance", "statement": "After any legal update/remove history that leaves at least one value, VarianceMeter.get() equals the mean squared deviation of the live values from their mean; in particular it is never negative, and it is zero iff all live values are equal (exact arithmetic).", "quantifier": "every legal update/remove history", "why_tests_cant": "A test feeds a few streams; the claim is about every finite history, including every length, repetition and ordering.", "anchors": ["pysad/statistics/variance_meter.py:VarianceMeter"]}
{"id": "C07", "title": "MaxMeter is the greatest live value", "statement": "After any history of updates and removes, MaxMeter.get() is the greatest value still present, and -inf exactly when none is; removing an absent value raises ValueError and changes nothing.", "quantifier": "every linearly ordered value type (finite floats included), every history", "why_tests_cant": "A test feeds a few streams; the claim is about every finite history, including every length, repetition and ordering.", "anchors": ["pysad/statistics/max_meter.py:MaxMeter"]}
{"id": "C08", "title": "MinMeter is the least live value", "statement": "After any history of updates and removes, MinMeter.get() is the least value still present, and +inf exactly when none is; removing an absent value raises ValueError and changes nothing.", "quantifier": "every linearly ordered value type, every history", "why_tests_cant": "A test feeds a few streams; the claim is about every finite history, including every length, repetition and ordering.", "anchors": ["pysad/statistics/min_meter.py:MinMeter"]}
{"id": "C09", "title": "MedianMeter is the median of the live values", "statement": "After any history of updates, removes and reads, MedianMeter.get() is the middle element of the sorted live values (mean of the two middle ones when their number is even); it raises IndexError exactly when none is present; removing an absent value raises ValueError and changes nothing.", "quantifier": "every history of update/remove/get", "why_tests_cant": "A test feeds a few streams; the claim is about every finite history, including every length, repetition and ordering.", "anchors": ["pysad/statistics/median_meter.py:MedianMeter"]}
{"id": "C10", "title": "remove undoes update", "statement": "At every reachable state of every meter, update(x) followed by remove(x) leaves the value reported by get() unchanged (exact arithmetic).", "quantifier": "all eight meters, every reachable state, every x", "why_tests_cant": "A test feeds a few streams; the claim is about every finite history, including every length, repetition and ordering.", "anchors": ["pysad/statistics/abs_statistic.py:remove", "pysad/statistics/average_meter.py:remove", "pysad/statistics/count_meter.py:remove", "pysad/statistics/max_meter.py:remove", "pysad/statistics/median_meter.py:remove", "pysad/statistics/min_meter.py:remove", "pysad/statistics/running_statistic.py:remove", "pysad/statistics/sum_meter.py:remove", "pysad/statistics/sum_squares_meter.py:remove", "pysad/statistics/variance_meter.py:remove"]}
{"id": "C11", "title": "Meters ignore arrival order", "statement": "Two update histories that are permutations of one another give the same get() for every meter (exact arithmetic).", "quantifier": "every pair of histories that are permutations", "why_tests_cant": "There are n! orders of each history.", "anchors": ["pysad/statistics/abs_statistic.py", "pysad/statistics/average_meter.py", "pysad/statistics/count_meter.py", "pysad/statistics/max_meter.py", "pysad/statistics/median_meter.py", "pysad/statistics/min_meter.py", "pysad/statistics/running_statistic.py", "pysad/statistics/sum_meter.py", "pysad/statistics/sum_squares_meter.py", "pysad/statistics/variance_meter.py"]}
{"id": "C12", "title": "RunningStatistic equals the statistic of the last window_size values", "statement": "After any stream, RunningStatistic(M, w).get() is what a fresh M would report after being fed just the last w values of the stream, for each shipped meter M (exact arithmetic).", "quantifier": "every stream, every window size, every shipped meter", "why_tests_cant": "A test feeds a few streams; the claim is about every finite history, including every length, repetition and ordering.", "anchors": ["pysad/statistics/running_statistic.py:RunningStatistic"]}
{"id": "C13", "title": "AbsStatistic reports the absolute value", "statement": "After any history, AbsStatistic(M).get() is the absolute value of what M alone would report, and fails exactly when M fails.", "quantifier": "every wrapped statistic and every history", "why_tests_cant": "A test feeds a few streams; the claim is about every finite history, including every length, repetition and ordering.", "anchors": ["pysad/statistics/abs_statistic.py:AbsStatistic"]}
{"id": "C14", "title": "Reading a meter does not disturb it", "statement": "Inserting any number of get() calls anywhere in a history does not change any later result (MedianMeter re-sorts its storage on every read).", "quantifier": "every history and every placement of reads", "why_tests_cant": "A test feeds a few streams; the claim is about every finite history, including every length, repetition and ordering.", "anchors": ["pysad/statistics/median_meter.py:MedianMeter.get"]}
{"id": "C15", "title": "Windowed statistics do not drift in float64", "statement": "RunningStatistic(SumMeter/AverageMeter, w).get() depends only on the last w values also in IEEE double arithmetic.", "quantifier": "every stream of doubles", "why_tests_cant": "Tests use short streams of numbers of one magnitude; drift needs particular magnitudes.", "anchors": ["pysad/statistics/running_statistic.py:RunningStatistic.update", "pysad/statistics/sum_meter.py:SumMeter.remove"]}
{"id": "C16", "title": "VarianceMeter is never negative in float64", "statement": "VarianceMeter.get() is nonnegative in IEEE double arithmetic, so that its square root (StandardAbsoluteDeviation, ZScorePostprocessor) is a number.", "quantifier": "every stream of doubles", "why_tests_cant": "Cancellation shows only on particular values.", "anchors": ["pysad/statistics/variance_meter.py:VarianceMeter.get", "pysad/models/standard_absolute_deviation.py:score_partial"]}
{"id": "C17", "title": "fit is fit_partial in order", "statement": "model.fit(X, y) leaves the model in the state reached by fit_partial(x_i, y_i) for i = 0, 1, ... in order, and stops with the error of the first instance that raises, in the state reached there.", "quantifier": "every model (any state machine), every dataset, with and without labels", "why_tests_cant": "Quantifies over every possible model subclass and dataset.", "anchors": ["pysad/core/base_model.py:BaseModel.fit", "pysad/utils/__init__.py:_iterate"]}
{"id": "C18", "title": "fit_score pairs each instance with its own score", "statement": "model.fit_score(X, y) returns one score per instance; the i-th is the score_partial(x_i) obtained immediately after fit_partial(x_i, y_i), and the final state is the one after all those calls.", "quantifier": "every model, every dataset", "why_tests_cant": "Quantifies over every model subclass and dataset.", "anchors": ["pysad/core/base_model.py:BaseModel.fit_score", "pysad/core/base_model.py:BaseModel.fit_score_partial"]}
{"id": "C19", "title": "Batch calls may be split into chunks", "statement": "fit / fit_score / score on the concatenation of two batches equal the two consecutive calls (scores concatenated, same final state).", "quantifier": "every model, every split point", "why_tests_cant": "Every split of every dataset.", "anchors": ["pysad/core/base_model.py:BaseModel"]}
{"id": "C20", "title": "Streaming results are causal", "statement": "The first k scores of fit_score(X, y) depend only on the first k instances and labels.", "quantifier": "every model, every k, every pair of datasets agreeing on the first k", "why_tests_cant": "Compares all pairs of datasets.", "anchors": ["pysad/core/base_model.py:BaseModel.fit_score"]}
{"id": "C21", "title": "Mismatched labels are rejected before training", "statement": "If len(X) != len(y), fit and fit_score raise AssertionError and the model is left untouched.", "quantifier": "every model, every mismatched pair", "why_tests_cant": "All states and lengths.", "anchors": ["pysad/utils/array_streamer.py:ArrayStreamer.iter", "pysad/utils/__init__.py:_iterate"]}
{"id": "C22", "title": "Postprocessor batch methods are the partial ones in order", "statement": "BasePostprocessor.fit / transform / fit_transform are fit_partial / transform_partial / fit-then-transform applied to the scores in order, one output per score.", "quantifier": "every postprocessor, every score array", "why_tests_cant": "Every subclass and array.", "anchors": ["pysad/core/base_postprocessor.py:BasePostprocessor"]}
{"id": "C23", "title": "BaseTransformer.fit hands fit_partial the feature vector", "statement": "BaseTransformer.fit(X) calls fit_partial with each row of X in order, as its documentation says.", "quantifier": "every transformer, every dataset", "why_tests_cant": "The failure depends on the subclass: shipped ones ignore or unwrap the argument.", "anchors": ["pysad/core/base_transformer.py:BaseTransformer.fit"]}
{"id": "C24", "title": "Scoring is read-only", "statement": "Inserting extra score_partial calls anywhere in a run does not change any other score (nor, where scoring touches no attribute, the state left behind).", "quantifier": "MedianAbsoluteDeviation, StandardAbsoluteDeviation, ExactStorm, HalfSpaceTrees, xStream, RSHash, LODA, RelativeEntropy, SeasonalESD, KitNet, Inqmad, PerfectModel, ReferenceWindowModel, OneFitModel, NullModel, KNNCAD; every history and placement", "why_tests_cant": "A test feeds a few streams; the claim is about every finite history, including every length, repetition and ordering.", "anchors": ["pysad/models/exact_storm.py:score_partial", "pysad/models/half_space_trees.py:score_partial", "pysad/models/inqmad.py:score_partial", "pysad/models/kitnet.py:score_partial", "pysad/models/knn_cad.py:score_partial", "pysad/models/loda.py:score_partial", "pysad/models/loop.py:score_partial", "pysad/models/median_absolute_deviation.py:score_partial", "pysad/models/null_model.py:score_partial", "pysad/models/perfect_model.py:score_partial", "pysad/models/random_model.py:score_partial", "pysad/models/relative_entropy.py:score_partial", "pysad/models/robust_random_cut_forest.py:score_partial", "pysad/models/rs_hash.py:score_partial", "pysad/models/seasonal_esd.py:score_partial", "pysad/models/standard_absolute_deviation.py:score_partial", "pysad/models/xstream.py:score_partial", "pysad/models/knn_cad.py:KNNCAD.score_partial"]}
{"id": "C25", "title": "Unshuffled streaming preserves order and pairing", "statement": "ArrayStreamer(shuffle=False).iter(X[, y]) yields every (x_i, y_i) exactly once, in index order.", "quantifier": "every dataset", "why_tests_cant": "A test feeds a few streams; the claim is about every finite history, including every length, repetition and ordering.", "anchors": ["pysad/utils/array_streamer.py:ArrayStreamer.iter"]}
{"id": "C26", "title": "Shuffled streaming is a permutation that keeps pairs", "statement": "With shuffle=True the yielded pairs are a permutation of (x_i, y_i): nothing lost or duplicated and each label stays with its instance.", "quantifier": "every dataset and every outcome of the shuffle", "why_tests_cant": "All n! shuffles.", "anchors": ["pysad/utils/array_streamer.py:ArrayStreamer.iter"]}
{"id": "C27", "title": "PandasStreamer agrees with ArrayStreamer", "statement": "PandasStreamer(shuffle).iter over frames yields what ArrayStreamer(shuffle).iter yields over their values, including the rejection of mismatched lengths.", "quantifier": "every frame and every outcome of the shuffle", "why_tests_cant": "All datasets and shuffles.", "anchors": ["pysad/utils/pandas_streamer.py:PandasStreamer.iter"]}
{"id": "C28", "title": "Text data files lose no column", "statement": "Data.get_data on a text file returns the first d-1 columns as features and the last column as label of every row: appending the label to the features gives the file back.", "quantifier": "every table with at least one column", "why_tests_cant": "All tables.", "anchors": ["pysad/utils/data.py:Data.get_data"]}
{"id": "C29", "title": "get_iterator(seed) is reproducible", "statement": "Data.get_iterator(file, shuffle=True, seed=s) yields the same order whenever called with the same seed.", "quantifier": "every program that may use the global RNG between the call and the iteration", "why_tests_cant": "The failure needs RNG use between creating and consuming the lazy generator.", "anchors": ["pysad/utils/data.py:Data.get_iterator", "pysad/utils/array_streamer.py:ArrayStreamer.iter"]}
{"id": "C30", "title": "WindowedMetric averages the completed windows", "statement": "After n updates with window size w >= 1 (and a metric that does not raise), get() is: the metric of everything so far if n < w; otherwise the mean of the metric over the consecutive completed windows of w items, plus the nonempty partial window when ignore_nonempty_last=False.", "quantifier": "every metric class, every stream, every w >= 1, both flags", "why_tests_cant": "A test feeds a few streams; the claim is about every finite history, including every length, repetition and ordering.", "anchors": ["pysad/evaluation/windowed_metric.py:WindowedMetric"]}
{"id": "C31", "title": "WindowedMetric builds every window's metric alike", "statement": "The metric evaluated on every window is constructed with the keyword arguments given to WindowedMetric.", "quantifier": "every kwargs, every stream", "why_tests_cant": "Shows only with a metric that has options and after the first window.", "anchors": ["pysad/evaluation/windowed_metric.py:WindowedMetric.update", "pysad/evaluation/windowed_metric.py:WindowedMetric._init_metric"]}
{"id": "C32", "title": "A failing WindowedMetric update can be recovered from", "statement": "If WindowedMetric.update raises (for instance AUROC on a single-class window), get() afterwards still reports the average over the windows completed before.", "quantifier": "every history containing a raising window", "why_tests_cant": "Needs an exception at a window boundary followed by further use.", "anchors": ["pysad/evaluation/windowed_metric.py:WindowedMetric.update"]}
{"id": "C33", "title": "sklearn-backed metrics see the whole history", "statement": "Precision/Recall/AUROC/AUPR get() evaluates the wrapped function on all (y_true, y_pred) given so far in order; AUROC raises ValueError iff fewer than two distinct labels were given; precision and recall are TP/(TP+FP) and TP/(TP+FN), lie in [0,1] and do not depend on the order.", "quantifier": "every history", "why_tests_cant": "A test feeds a few streams; the claim is about every finite history, including every length, repetition and ordering.", "anchors": ["pysad/evaluation/metrics.py:BaseSKLearnMetric", "pysad/evaluation/metrics.py:AUROCMetric"]}
{"id": "C34", "title": "Cumulative postprocessors report prefix statistics", "statement": "fit_transform(scores)[i] of Average/Max/MedianPostprocessor is the mean / max / median of scores[0..i].", "quantifier": "every score array, every i", "why_tests_cant": "A test feeds a few streams; the claim is about every finite history, including every length, repetition and ordering.", "anchors": ["pysad/transform/postprocessing/postprocessors.py"]}
{"id": "C35", "title": "Running postprocessors report window statistics", "statement": "fit_transform(scores)[i] of RunningAverage/RunningMax/RunningMedianPostprocessor(w) is the mean / max / median of the last min(w, i+1) scores.", "quantifier": "every score array, every w >= 1, every i", "why_tests_cant": "A test feeds a few streams; the claim is about every finite history, including every length, repetition and ordering.", "anchors": ["pysad/transform/postprocessing/running_postprocessors.py"]}
{"id": "C36", "title": "Z-score postprocessors standardise", "statement": "ZScorePostprocessor (RunningZScorePostprocessor) output is (score - mean)/std with mean and population std of all (of the last w) scores, and is unchanged when every score is mapped by s -> a*s+b with a > 0.", "quantifier": "every score array, every w >= 1, every affine map", "why_tests_cant": "A test feeds a few streams; the claim is about every finite history, including every length, repetition and ordering.", "anchors": ["pysad/transform/postprocessing/postprocessors.py:ZScorePostprocessor", "pysad/transform/postprocessing/running_postprocessors.py:RunningZScorePostprocessor"]}
{"id": "C37", "title": "Conformal calibrator outputs an empirical tail probability", "statement": "ConformalProbabilityCalibrator.transform_partial(s) is the fraction of retained scores strictly greater than s; it lies in [0,1], is nonincreasing in s, and retained scores are the last window_size fitted ones (all of them if windowed=False).", "quantifier": "every fit history and score", "why_tests_cant": "A test feeds a few streams; the claim is about every finite history, including every length, repetition and ordering.", "anchors": ["pysad/transform/probability_calibration/conformal_prediction.py"]}
{"id": "C38", "title": "Gaussian-tail calibrator outputs a monotone probability", "statement": "GaussianTailProbabilityCalibrator.transform_partial(s) lies in [0,1], is nondecreasing in s and is 1/2 at the mean of the retained scores.", "quantifier": "every fit history and score, any erfc that is antitone with range [0,2] and erfc(0)=1", "why_tests_cant": "A test feeds a few streams; the claim is about every finite history, including every length, repetition and ordering.", "anchors": ["pysad/transform/probability_calibration/gaussian_tail.py"]}
{"id": "C39", "title": "Gaussian-tail window_size is ignored without running statistics", "statement": "With running_statistics=False, transform results do not depend on window_size (documented as ignored).", "quantifier": "every fit history and pair of window sizes", "why_tests_cant": "Needs more scores than the window.", "anchors": ["pysad/transform/probability_calibration/gaussian_tail.py:__init__"]}
{"id": "C40", "title": "Score ensemblers stay within the input range and ignore detector order", "statement": "Average, Maximum and Median ensembler results lie between the smallest and largest detector score, do not depend on detector order, and never decrease when a detector's score increases; for the static bucket methods, average <= AOM <= max and average <= MOA <= max for every shuffle. A weighted average is the sum of weight times score over the sum of the weights, and the number of weights must be the number of scores.", "quantifier": "every score vector, every shuffle of detectors into buckets", "why_tests_cant": "All vectors and all random shuffles.", "anchors": ["pysad/transform/ensemble/ensemblers.py"]}
{"id": "C41", "title": "InstanceUnitNormScaler yields unit vectors", "statement": "For every vector of nonzero norm the output has p-norm 1 (p = 1, 2, inf and general p >= 1), keeps the direction, is unchanged by positive rescaling of the input and is idempotent.", "quantifier": "every vector, every p", "why_tests_cant": "A test feeds a few streams; the claim is about every finite history, including every length, repetition and ordering.", "anchors": ["pysad/transform/preprocessing/instance_unit_norm_scaler.py"]}
{"id": "C42", "title": "InstanceStandardScaler yields zero mean and unit deviation", "statement": "For every vector with nonzero deviation the output has mean 0 and population std 1, and is invariant under x -> a*x+b with a > 0.", "quantifier": "every vector", "why_tests_cant": "A test feeds a few streams; the claim is about every finite history, including every length, repetition and ordering.", "anchors": ["pysad/transform/preprocessing/instance_standard_scaler.py"]}
{"id": "C43", "title": "IdentityScaler changes nothing", "statement": "transform / fit_transform of IdentityScaler return the input matrix, whatever was fitted before.", "quantifier": "every matrix and history", "why_tests_cant": "A test feeds a few streams; the claim is about every finite history, including every length, repetition and ordering.", "anchors": ["pysad/transform/preprocessing/identity_scaler.py", "pysad/core/base_transformer.py:transform"]}
{"id": "C44", "title": "SeasonalTrendDecomposer: fit_transform_partial trains like fit_partial", "statement": "fit_transform_partial(x) leaves the decomposer in exactly the state fit_partial(x) would, at every reachable state.", "quantifier": "every history and x", "why_tests_cant": "A test feeds a few streams; the claim is about every finite history, including every length, repetition and ordering.", "anchors": ["pysad/transform/preprocessing/seasonal_trend_decomposer.py"]}
{"id": "C45", "title": "SeasonalTrendDecomposer removes periodic signals", "statement": "On any stream that is periodic with season_length (default trend window), fit_transform residuals are exactly 0 from the first full season on, in every feature.", "quantifier": "every period, every pattern, every position", "why_tests_cant": "A test feeds a few streams; the claim is about every finite history, including every length, repetition and ordering.", "anchors": ["pysad/transform/preprocessing/seasonal_trend_decomposer.py:fit_transform_partial"]}
{"id": "C46", "title": "fit_transform_partial is fit_partial then transform_partial", "statement": "For SeasonalTrendDecomposer, fit_transform_partial(x) returns what fit_partial(x) followed by transform_partial(x) returns, as the base class documents.", "quantifier": "every history and x", "why_tests_cant": "Depends on the phase of the season.", "anchors": ["pysad/transform/preprocessing/seasonal_trend_decomposer.py", "pysad/core/base_transformer.py:fit_transform_partial"]}
{"id": "C47", "title": "ModifiedSTL previews what it would return", "statement": "transform_partial(x) returns what fit_transform_partial(x) would return from the same state, does not change the state, is 0.0 until 2*period values are available, and otherwise the last entry of value - seasonal - median over the last window_size values.", "quantifier": "every history, every period >= 2, every window_size >= 2*period, every STL", "why_tests_cant": "A test feeds a few streams; the claim is about every finite history, including every length, repetition and ordering.", "anchors": ["pysad/transform/preprocessing/modified_stl_residual.py"]}
{"id": "C48", "title": "Streamhash projection is linear and deterministic", "statement": "StreamhashProjector.transform_partial is a linear map determined by num_components, density and input dimension alone (no state, no randomness); every matrix entry is -c, 0 or c with c = sqrt(1/density)/sqrt(num_components); the output has num_components entries; appending zero features changes nothing.", "quantifier": "every hash function, vectors, scalars", "why_tests_cant": "A test feeds a few streams; the claim is about every finite history, including every length, repetition and ordering.", "anchors": ["pysad/transform/projection/streamhash_projector.py"]}
{"id": "C49", "title": "A random projector applies one projection", "statement": "GaussianRandomProjector/SparseRandomProjector.transform applies the same projection matrix to all rows, so equal rows are projected equally.", "quantifier": "every RNG and dataset", "why_tests_cant": "Needs equal rows and reasoning about RNG draws.", "anchors": ["pysad/transform/projection/random_projector.py:BaseSKLearnProjector.transform_partial"]}
{"id": "C50", "title": "ExactStorm scores the near fraction of the window", "statement": "score_partial(X) is the fraction of the previously fitted instances in the window, the newest excluded, at distance < max_radius from X (0 when there is none); it lies in [0,1], at most window_size instances are stored, and the order of the older instances is irrelevant.", "quantifier": "every history, metric and radius", "why_tests_cant": "A test feeds a few streams; the claim is about every finite history, including every length, repetition and ordering.", "anchors": ["pysad/models/exact_storm.py"]}
{"id": "C51", "title": "Higher scores mean more anomalous", "statement": "As BaseModel.score_partial documents, an instance that is farther from all retained data (ExactStorm), rarer (RSHash) or in disagreement with the baseline (RelativeEntropy) gets a score at least as high.", "quantifier": "ExactStorm, RSHash, RelativeEntropy; all histories", "why_tests_cant": "A direction claim over all pairs of histories.", "anchors": ["pysad/core/base_model.py:score_partial", "pysad/models/exact_storm.py", "pysad/models/rs_hash.py", "pysad/models/relative_entropy.py"]}
{"id": "C52", "title": "HalfSpaceTrees masses count window instances", "statement": "After n fits with window size w, each node's reference mass is the number of instances of the last completed window (of the current window while the first is not complete) that fall in the node's region, and its latest mass is the number of those of the current window.", "quantifier": "every tree, every stream, every w >= 1", "why_tests_cant": "A test feeds a few streams; the claim is about every finite history, including every length, repetition and ordering.", "anchors": ["pysad/models/half_space_trees.py:_update_mass", "pysad/models/half_space_trees.py:_update_model"]}
{"id": "C53", "title": "HalfSpaceTrees scores are bounded and order-free", "statement": "score_partial(X) = -sum over trees and nodes on X's path of mass*2^depth; it lies in [-num_trees*w*(2^(d+1)-1), 0]; permuting the instances inside a completed window does not change it.", "quantifier": "every tree, stream, permutation", "why_tests_cant": "A test feeds a few streams; the claim is about every finite history, including every length, repetition and ordering.", "anchors": ["pysad/models/half_space_trees.py:_score_tree", "pysad/models/half_space_trees.py:score_partial"]}
{"id": "C54", "title": "HalfSpaceTrees trees partition the space", "statement": "Every built tree is a complete binary tree of depth max_depth; each point follows exactly one root-to-leaf path; each node's split halves the node's box in the chosen dimension, so child boxes stay inside the parent's and inside the feature bounds.", "quantifier": "every random choice of split attributes, every depth and bounds", "why_tests_cant": "All random trees.", "anchors": ["pysad/models/half_space_trees.py:_build_single_hs_tree"]}
{"id": "C55", "title": "ReferenceWindowModel trains on the most recent instances", "statement": "With window_size >= 2 and sliding_size >= 1, after n fits the detector in use was trained exactly on: the first n instances while n < window_size (no initial window); the first window_size-1 until the first slide at or after window_size; otherwise the last window_size instances (initial window included) received up to the latest slide.", "quantifier": "every detector, stream, window_size, sliding_size, with or without initial window", "why_tests_cant": "A test feeds a few streams; the claim is about every finite history, including every length, repetition and ordering.", "anchors": ["pysad/models/integrations/reference_window_model.py"]}
{"id": "C56", "title": "ReferenceWindowModel keeps labels aligned", "statement": "If every instance is labelled (and the initial window too, when there is one), the labels used for training are those of exactly the training instances, in the same order.", "quantifier": "every labelled stream", "why_tests_cant": "A test feeds a few streams; the claim is about every finite history, including every length, repetition and ordering.", "anchors": ["pysad/models/integrations/reference_window_model.py:fit_partial"]}
{"id": "C57", "title": "ReferenceWindowModel never fails on well-formed streams", "statement": "fit_partial succeeds for every window_size >= 1 and sliding_size >= 1 and any stream of instances.", "quantifier": "every configuration and stream", "why_tests_cant": "Fails only for boundary configurations.", "anchors": ["pysad/models/integrations/reference_window_model.py:fit_partial"]}
{"id": "C58", "title": "OneFitModel never changes after construction", "statement": "Scores of OneFitModel are those of the detector fitted on the initial data, whatever is fitted later.", "quantifier": "every detector and history", "why_tests_cant": "A test feeds a few streams; the claim is about every finite history, including every length, repetition and ordering.", "anchors": ["pysad/models/integrations/one_fit_model.py"]}
{"id": "C59", "title": "PerfectModel returns labels first-in first-out", "statement": "fit_score(X, y) returns y; more generally the k-th score ever requested is the k-th label ever fitted, and requesting more scores than labels raises IndexError; y=None raises ValueError and changes nothing.", "quantifier": "every interleaving of fits and scores", "why_tests_cant": "A test feeds a few streams; the claim is about every finite history, including every length, repetition and ordering.", "anchors": ["pysad/models/perfect_model.py"]}
{"id": "C60", "title": "NullModel and RandomModel ignore their input", "statement": "NullModel scores 0.5 always; RandomModel scores are the RNG's next draws, in [0,1), whatever is fitted or scored.", "quantifier": "every history", "why_tests_cant": "A test feeds a few streams; the claim is about every finite history, including every length, repetition and ordering.", "anchors": ["pysad/models/null_model.py", "pysad/models/random_model.py"]}
{"id": "C61", "title": "KNNCAD is silent in the probationary period", "statement": "Once something was fitted and until probationary_period instances (and at least 19) have been fitted, every score is 0.0; afterwards every score lies in [0,1]. (Before any fit, score_partial raises AttributeError.)", "quantifier": "every stream and period", "why_tests_cant": "A test feeds a few streams; the claim is about every finite history, including every length, repetition and ordering.", "anchors": ["pysad/models/knn_cad.py"]}
{"id": "C62", "title": "KNNCAD trains on the right slice of the stream", "statement": "For period p >= 48, after n >= 2p fits the training set is exactly the p-19 length-19 subsequences ending at records n-2p+20 .. n-p, calibration is the p most recent ones, and as many calibration scores as training items are kept.", "quantifier": "every stream, every n", "why_tests_cant": "A test feeds a few streams; the claim is about every finite history, including every length, repetition and ordering.", "anchors": ["pysad/models/knn_cad.py:fit_partial"]}
{"id": "C63", "title": "KNNCAD works for every probationary period", "statement": "fit_partial succeeds on every univariate stream for every positive probationary_period.", "quantifier": "every period and stream", "why_tests_cant": "Fails only for short periods, after the period ends.", "anchors": ["pysad/models/knn_cad.py:_ncm"]}
{"id": "C64", "title": "KNNCAD cools down after an alarm", "statement": "After a score of at least 0.9965 is returned outside the cool-down, the next floor(p/5) scores are 0.5.", "quantifier": "every history", "why_tests_cant": "A test feeds a few streams; the claim is about every finite history, including every length, repetition and ordering.", "anchors": ["pysad/models/knn_cad.py:score_partial"]}
{"id": "C65", "title": "LODA scores are finite and nonnegative", "statement": "After at least one fit, score_partial never indexes out of range and returns a nonnegative finite number.", "quantifier": "every stream, number of bins >= 1 and cuts >= 1, all random draws", "why_tests_cant": "A test feeds a few streams; the claim is about every finite history, including every length, repetition and ordering.", "anchors": ["pysad/models/loda.py"]}
{"id": "C66", "title": "LODA accumulates evidence over the stream", "statement": "LODA's histograms reflect all the instances fitted so far.", "quantifier": "every history", "why_tests_cant": "Needs comparison of histories that share the last instance.", "anchors": ["pysad/models/loda.py:fit_partial"]}
{"id": "C67", "title": "MedianAbsoluteDeviation score", "statement": "score_partial(x) is (x - median)/(b*MAD + 1e-10) where median is that of all fitted values and MAD is the median over fitted values of their distance to the running median at the time they were fitted; nonnegative when absolute=True, and fit rejects instances that are not univariate.", "quantifier": "every stream", "why_tests_cant": "A test feeds a few streams; the claim is about every finite history, including every length, repetition and ordering.", "anchors": ["pysad/models/median_absolute_deviation.py"]}
{"id": "C68", "title": "StandardAbsoluteDeviation score", "statement": "score_partial(x) is (x - m)/(std + 1e-10) with m the mean (median) and std the population deviation of all fitted values; nonnegative when absolute=True; any other substracted_statistic is rejected.", "quantifier": "every stream", "why_tests_cant": "A test feeds a few streams; the claim is about every finite history, including every length, repetition and ordering.", "anchors": ["pysad/models/standard_absolute_deviation.py"]}
{"id": "C69", "title": "RelativeEntropy compares with the first full window", "statement": "The only null hypothesis ever stored is the histogram of the first window_size values; every score is 0 or -1, and is 0 until window_size values were fitted.", "quantifier": "every stream", "why_tests_cant": "A test feeds a few streams; the claim is about every finite history, including every length, repetition and ordering.", "anchors": ["pysad/models/relative_entropy.py"]}
{"id": "C70", "title": "RelativeEntropy bins in-range values evenly", "statement": "Every value of (min_val, max_val] is counted in the equal-width bin of the range that contains it.", "quantifier": "every value in range", "why_tests_cant": "Boundary behaviour of the quantiser for every value.", "anchors": ["pysad/models/relative_entropy.py:fit_partial"]}
{"id": "C71", "title": "RobustRandomCutForest keeps the last tree_size instances", "statement": "After n > tree_size fits each tree holds exactly the tree_size most recent instances.", "quantifier": "every stream length and tree_size", "why_tests_cant": "Off-by-one in eviction is invisible in scores of short tests.", "anchors": ["pysad/models/robust_random_cut_forest.py:fit_partial"]}
{"id": "C72", "title": "RSHash scores exponentially decayed cell counts", "statement": "After fitting x_n, the score is the mean over components of log(1 + sum over earlier instances j in the same cell of 2^(-decay*(n-j))); it is nonnegative.", "quantifier": "every stream, all random parameters", "why_tests_cant": "A test feeds a few streams; the claim is about every finite history, including every length, repetition and ordering.", "anchors": ["pysad/models/rs_hash.py:fit_partial"]}
{"id": "C73", "title": "RSHash: extra hash functions and sampling_points are inert", "statement": "All num_hash_fns sketches are always equal, so scores do not depend on num_hash_fns >= 1, nor on sampling_points.", "quantifier": "every stream", "why_tests_cant": "A test feeds a few streams; the claim is about every finite history, including every length, repetition and ordering.", "anchors": ["pysad/models/rs_hash.py"]}
{"id": "C74", "title": "Seasonal ESD reports a valid anomaly set", "statement": "The candidate anomalies of a window are at most max_anomalies, have distinct indices in range, and the set returned is the longest prefix whose last statistic exceeds its critical value.", "quantifier": "every window of residuals, every critical-value function", "why_tests_cant": "A test feeds a few streams; the claim is about every finite history, including every length, repetition and ordering.", "anchors": ["pysad/models/seasonal_esd.py:_esd"]}
{"id": "C75", "title": "Seasonal ESD previews scores faithfully", "statement": "score_partial(x) equals what fit_score_partial(x) would return from the same state and does not change the state; scores are 0 until the (candidate) window is full and never negative.", "quantifier": "every history, every STL, both the mean/std and median/MAD variants", "why_tests_cant": "A test feeds a few streams; the claim is about every finite history, including every length, repetition and ordering.", "anchors": ["pysad/models/seasonal_esd.py"]}
{"id": "C76", "title": "Seasonal ESD configuration guards are sufficient", "statement": "For every accepted configuration, ESD never takes statistics of fewer than two values and the Student-t degrees of freedom n-i-1 are at least 1 at every iteration.", "quantifier": "every accepted configuration", "why_tests_cant": "All configurations.", "anchors": ["pysad/models/seasonal_esd.py:__init__", "pysad/models/seasonal_esd.py:_critical_value"]}
{"id": "C77", "title": "xStream reference counts describe the last completed window", "statement": "In every chain and depth the reference sketch holds, for each bin, the number of instances of the last completed window (the current one during the first window) that fell into that bin when they were fitted; the duplicated sketch lists ([{}...]*depth) share no state across depths.", "quantifier": "every stream, chain, depth", "why_tests_cant": "A test feeds a few streams; the claim is about every finite history, including every length, repetition and ordering.", "anchors": ["pysad/models/xstream.py:_Chain"]}
{"id": "C78", "title": "xStream scores are bounded", "statement": "score_partial lies in [-(1+log2(1+window_size)), -1] for every stream, and no bin computation divides by zero.", "quantifier": "every stream, depth >= 1, chains >= 1", "why_tests_cant": "A test feeds a few streams; the claim is about every finite history, including every length, repetition and ordering.", "anchors": ["pysad/models/xstream.py:_Chain.score", "pysad/models/xstream.py:_compute_deltamax"]}
{"id": "C79", "title": "xStream looks instances up in the bins the reference window was counted in", "statement": "Scoring an instance of the reference window again finds a count of at least 1 at every depth.", "quantifier": "every stream and window boundary", "why_tests_cant": "Needs a change of feature ranges between windows.", "anchors": ["pysad/models/xstream.py:fit_partial", "pysad/models/xstream.py:_HSChains.set_deltamax"]}
{"id": "C80", "title": "KitNet's feature map is a partition with bounded parts", "statement": "The learned feature map assigns every feature to exactly one autoencoder and no autoencoder gets more than max(1, max_size_ae) features.", "quantifier": "every dendrogram over the features, every max size", "why_tests_cant": "A test feeds a few streams; the claim is about every finite history, including every length, repetition and ordering.", "anchors": ["pysad/models/kitnet_model/corClust.py:__breakClust__", "pysad/models/kitnet_model/corClust.py:cluster"]}
{"id": "C81", "title": "KitNet grace periods", "statement": "Scores are 0.0 until grace_feature_mapping+1 instances were fitted; autoencoders are trained on exactly the next grace_anomaly_detector instances and never again.", "quantifier": "every stream and grace periods", "why_tests_cant": "A test feeds a few streams; the claim is about every finite history, including every length, repetition and ordering.", "anchors": ["pysad/models/kitnet_model/KitNET.py", "pysad/models/kitnet.py"]}
{"id": "C82", "title": "KitNet autoencoder inputs and training errors are normalised", "statement": "Every value an autoencoder is trained on lies in [0,1] after normalisation and every training RMSE lies in [0,1].", "quantifier": "every stream of real vectors, weights arbitrary", "why_tests_cant": "A test feeds a few streams; the claim is about every finite history, including every length, repetition and ordering.", "anchors": ["pysad/models/kitnet_model/dA.py:train"]}
{"id": "C83", "title": "KitNet scores are numbers", "statement": "score_partial returns a real number at every point of every stream.", "quantifier": "every stream", "why_tests_cant": "Fails at exactly one position of a stream.", "anchors": ["pysad/models/kitnet_model/KitNET.py:execute", "pysad/models/kitnet_model/dA.py:execute"]}
{"id": "C84", "title": "KitNet correlation distances are proper", "statement": "The distances of features from which KitNet makes its feature map are symmetric with entries in [0,2], 0 on the diagonal of non-constant features. The feature map, once there, consists of the largest subtrees within the size limit of the tree that linkage makes of these distances over the first grace_feature_mapping + 1 fitted instances.", "quantifier": "every stream", "why_tests_cant": "A test feeds a few streams; the claim is about every finite history, including every length, repetition and ordering.", "anchors": ["pysad/models/kitnet_model/corClust.py:corrDist"]}
{"id": "C85", "title": "Inqmad scores reflect what was fitted", "statement": "After fit_partial, score_partial uses the density state that includes the new instance.", "quantifier": "every interleaving of fits and scores", "why_tests_cant": "The failure is a trace-time capture that needs a score, a fit and another score.", "anchors": ["pysad/models/inqmad.py:InqMeasurement.predict", "pysad/models/inqmad.py:Inqmad"]}
{"id": "C86", "title": "LODA looks an instance up in the bin that contains its projection", "statement": "The histogram bin used to score an instance is the one that contains its projection; in particular the instance that was fitted last gets the smallest possible score.", "quantifier": "every number of bins, every instance, all random draws", "why_tests_cant": "The lookup is off by one only for some bins.", "anchors": ["pysad/models/loda.py:score_partial"]}
{"id": "C87", "title": "HalfSpaceTrees accepts an initial window", "statement": "HalfSpaceTrees(initial_window_X=A) fits the rows of the array A.", "quantifier": "every array", "why_tests_cant": "An array's truth value raises for arrays with more than one element only.", "anchors": ["pysad/models/half_space_trees.py:__init__"]}
{"id": "C88", "title": "Inqmad's density covers every fitted instance", "statement": "Without earlier scores, score_partial(x) measures x against the average of the projectors of all fitted instances.", "quantifier": "every history of fits, all random features", "why_tests_cant": "A test feeds a few streams; the claim is about every finite history, including every length, repetition and ordering.", "anchors": ["pysad/models/inqmad.py:InqMeasurement.initial_train", "pysad/models/inqmad.py:InqMeasurement.compute_training_jit", "pysad/models/inqmad.py:Inqmad.fit_partial"]}
{"id": "C89", "title": "Inqmad: higher scores mean more anomalous", "statement": "As score_partial documents, after fitting one instance no other instance gets a lower score than the fitted instance itself.", "quantifier": "every pair of instances, all random features", "why_tests_cant": "A direction claim over all pairs of instances.", "anchors": ["pysad/models/inqmad.py:Inqmad.score_partial", "pysad/models/inqmad.py:InqMeasurement.collapse"]}
{"id": "C90", "title": "Batch calls through a pipeline equal the streaming loop", "statement": "postprocessor.fit_transform(model.fit_score(preprocessor.fit_transform(X), y)) returns the scores, and leaves the objects in the states, that the documented loop fit_transform_partial / fit_score_partial / fit_transform_partial over the instances gives, and raises exactly when the loop does; scoring each instance with several models in turn gives the columns of their own fit_score results.", "quantifier": "every preprocessor, model and postprocessor (not sharing state), every dataset and labels of matching length, every list of models", "why_tests_cant": "The loop interleaves the objects, the batch calls do not: the claim is about all states of all implementations.", "anchors": ["examples/example_usage.py", "examples/example_ensemble.py", "pysad/core/base_model.py:fit_score", "pysad/core/base_transformer.py:fit_transform", "pysad/core/base_postprocessor.py:fit_transform"]}
{"id": "C91", "title": "A call that raises leaves no trace", "statement": "If a caller catches the exceptions of rejected instances and goes on, all later answers are those of the same history without the rejected calls.", "quantifier": "every detector, every history with any number of rejected calls anywhere", "why_tests_cant": "Needs every reachable state at the time of the rejection, and all continuations.", "anchors": ["pysad/models/exact_storm.py:fit_partial", "pysad/models/half_space_trees.py:fit_partial", "pysad/models/inqmad.py:fit_partial", "pysad/models/kitnet.py:fit_partial", "pysad/models/knn_cad.py:fit_partial", "pysad/models/loda.py:fit_partial", "pysad/models/loop.py:fit_partial", "pysad/models/median_absolute_deviation.py:fit_partial", "pysad/models/null_model.py:fit_partial", "pysad/models/perfect_model.py:fit_partial", "pysad/models/random_model.py:fit_partial", "pysad/models/relative_entropy.py:fit_partial", "pysad/models/robust_random_cut_forest.py:fit_partial", "pysad/models/rs_hash.py:fit_partial", "pysad/models/seasonal_esd.py:fit_partial", "pysad/models/standard_absolute_deviation.py:fit_partial", "pysad/models/xstream.py:fit_partial", "pysad/models/exact_storm.py:score_partial", "pysad/models/half_space_trees.py:score_partial", "pysad/models/inqmad.py:score_partial", "pysad/models/kitnet.py:score_partial", "pysad/models/knn_cad.py:score_partial", "pysad/models/loda.py:score_partial", "pysad/models/loop.py:score_partial", "pysad/models/median_absolute_deviation.py:score_partial", "pysad/models/null_model.py:score_partial", "pysad/models/perfect_model.py:score_partial", "pysad/models/random_model.py:score_partial", "pysad/models/relative_entropy.py:score_partial", "pysad/models/robust_random_cut_forest.py:score_partial", "pysad/models/rs_hash.py:score_partial", "pysad/models/seasonal_esd.py:score_partial", "pysad/models/standard_absolute_deviation.py:score_partial", "pysad/models/xstream.py:score_partial"]}
{"id": "C92", "title": "KNNCAD scores are conformal anomaly scores", "statement": "For period p >= 48, once p records were fitted, score_partial returns 0.5 if one of the last floor(p/5) scores was at least 0.9965, and otherwise the fraction of the p-19 kept strangeness values that are below the strangeness of the last 19 records; strangeness is the sum of the 27 least squared distances to the training segments, measured by the inverse second-moment matrix refreshed every half period.", "quantifier": "every stream, history of scores, and matrix inversion (also one that fails)", "why_tests_cant": "A test feeds a few streams; the claim is about every finite history, including every length, repetition and ordering.", "anchors": ["pysad/models/knn_cad.py:_metric", "pysad/models/knn_cad.py:_ncm", "pysad/models/knn_cad.py:score_partial", "pysad/models/knn_cad.py:fit_partial"]}
{"id": "C93", "title": "RobustRandomCutForest scores are mean displacements", "statement": "Once something was fitted, score_partial never raises and returns the mean over the trees of the collusive displacement of the instance (of its duplicate if the tree holds one, otherwise of the instance itself, inserted temporarily); before any fit it raises AttributeError.", "quantifier": "every history, any number of trees, all random draws, any tree library", "why_tests_cant": "A test feeds a few streams; the claim is about every finite history, including every length, repetition and ordering.", "anchors": ["pysad/models/robust_random_cut_forest.py:score_partial"]}
{"id": "C94", "title": "RSHash samples valid random subspaces", "statement": "For every decay other than 0 and at least one feature, construction succeeds; each of the num_components components looks at between one and all features, no feature twice, at most log(S)/log(max(2,1/f)) of them, in cells of a width f with 1/sqrt(S) <= f < 1 and shifts in [0, f); with bounds given as arrays, constant features are used only if all features are constant.", "quantifier": "every decay, dimension, bounds and all random draws", "why_tests_cant": "Quantifies over all random draws: an empty range for randint would show up rarely.", "anchors": ["pysad/models/rs_hash.py:__init__", "pysad/models/rs_hash.py:_sample_dims", "pysad/models/rs_hash.py:_sample_shifts"]}
{"id": "C95", "title": "get_minmax_array and get_minmax_scalar return the boundaries", "statement": "get_minmax_array(X) returns, for each feature, the least and greatest value it takes in X, get_minmax_scalar(x) the least and greatest entry; arrays without entries raise ValueError; the boundaries of two arrays put together are the combined boundaries.", "quantifier": "every array of numbers", "why_tests_cant": "A claim about every entry of every array.", "anchors": ["pysad/utils/__init__.py:get_minmax_array", "pysad/utils/__init__.py:get_minmax_scalar"]}
{"id": "C96", "title": "KitNet's helper functions are what their names say", "statement": "sigmoid is the logistic function (strictly increasing, inside (0,1)); dsigmoid and dtanh give derivatives from function values; ReLU is max(x,0) and dReLU its derivative off 0; softmax gives a probability vector proportional to the exponentials, ordered like its input, and exponentiates no positive number; pdf is the normal density; invLogCDF the logarithm of the normal upper tail.", "quantifier": "every real number / vector / mean and positive deviation", "why_tests_cant": "Claims about derivatives, integrals and all reals.", "anchors": ["pysad/models/kitnet_model/utils.py"]}
{"id": "C97", "title": "KitNet's rolling mean averages the last k values", "statement": "rollmean(k).apply returns the mean of the last k values given (of all of them while there are fewer).", "quantifier": "every width k >= 1, every stream", "why_tests_cant": "Only the first k-1 results are wrong.", "anchors": ["pysad/models/kitnet_model/utils.py:rollmean"]}
{"id": "C98", "title": "KitNet's autoencoders learn by gradient descent", "statement": "Every training step moves every parameter of the autoencoder (weights, hidden and visible biases) by the learning rate against its partial derivative of the cross-entropy between the normalised instance and its reconstruction.", "quantifier": "every autoencoder, whatever it was trained on, every instance", "why_tests_cant": "An exact statement about derivatives at all reachable parameters.", "anchors": ["pysad/models/kitnet_model/dA.py:train"]}
{"id": "C99", "title": "LODA's random projections keep their features", "statement": "Each of LODA's random projections uses about sqrt(d) of the d features, throughout the stream.", "quantifier": "every model, every draw of permutations and normal numbers, every history of fits", "why_tests_cant": "The projections are good after the first fit and lose features slowly after that.", "anchors": ["pysad/models/loda.py:LODA.fit_partial"]}
{"id": "C100", "title": "Calibrated probabilities rank instances like their scores", "statement": "With either probability calibrator, an instance with a higher anomaly score never gets a lower probability than one with a lower score.", "quantifier": "every stream of fitted scores, every pair of scores", "why_tests_cant": "A comparison of all pairs of scores after all streams.", "anchors": ["pysad/transform/probability_calibration/conformal_prediction.py:ConformalProbabilityCalibrator.transform_partial", "pysad/transform/probability_calibration/gaussian_tail.py:GaussianTailProbabilityCalibrator.transform_partial"]}
{"id": "C101", "title": "Calibrated probabilities do not depend on the unit of the scores", "statement": "Multiplying all anomaly scores by a positive factor and adding a constant leaves the calibrated probabilities as they are (for the conformal calibrator: any strictly increasing transformation).", "quantifier": "every stream of scores, every factor and shift, every score", "why_tests_cant": "Relates two runs, for all transformations.", "anchors": ["pysad/transform/probability_calibration/conformal_prediction.py:ConformalProbabilityCalibrator", "pysad/transform/probability_calibration/gaussian_tail.py:GaussianTailProbabilityCalibrator"]}
{"id": "C102", "title": "Conformal probabilities are valid p-values", "statement": "For every level eps, at most a fraction eps of the scores the conformal calibrator remembers get a probability below eps.", "quantifier": "every stream, every window, every level", "why_tests_cant": "A counting claim about all streams and levels.", "anchors": ["pysad/transform/probability_calibration/conformal_prediction.py:ConformalProbabilityCalibrator.transform_partial"]}
{"id": "C103", "title": "Detectors need bounded memory however long the stream is", "statement": "However many instances have been fitted or scored, a detector never stores more than a fixed number of items, which depends only on its constructor arguments.", "quantifier": "every stream of every length, every interleaving of fits and scores, every constructor argument", "why_tests_cant": "Needs unboundedly long streams.", "anchors": ["pysad/models/exact_storm.py:ExactStorm", "pysad/models/half_space_trees.py:HalfSpaceTrees", "pysad/models/robust_random_cut_forest.py:RobustRandomCutForest", "pysad/models/xstream.py:xStream", "pysad/models/integrations/reference_window_model.py:ReferenceWindowModel", "pysad/models/knn_cad.py:KNNCAD", "pysad/models/relative_entropy.py:RelativeEntropy", "pysad/models/median_absolute_deviation.py:MedianAbsoluteDeviation", "pysad/models/rs_hash.py:RSHash"]}
{"id": "C104", "title": "The more isolated instance gets the higher score", "statement": "With HalfSpaceTrees, xStream, MedianAbsoluteDeviation and StandardAbsoluteDeviation, of two instances scored in the same state the more isolated one (fewer reference instances in its cells; farther from the centre) gets at least as high a score.", "quantifier": "every history, every pair of instances, every constructor argument", "why_tests_cant": "Compares all pairs of instances after all histories.", "anchors": ["pysad/models/half_space_trees.py:HalfSpaceTrees.score_partial", "pysad/models/xstream.py:xStream.score_partial", "pysad/models/median_absolute_deviation.py:MedianAbsoluteDeviation.score_partial", "pysad/models/standard_absolute_deviation.py:StandardAbsoluteDeviation.score_partial"]}
{"id": "C105", "title": "Scores do not depend on the units of the features", "statement": "If every feature is multiplied by a positive factor and shifted, and the bounds or radius given to the constructor likewise, a detector with the same random draws answers every call as before.", "quantifier": "every history, every factor and shift, every constructor argument and random draw", "why_tests_cant": "Relates two runs, for all transformations.", "anchors": ["pysad/models/half_space_trees.py:HalfSpaceTrees", "pysad/models/exact_storm.py:ExactStorm", "pysad/models/relative_entropy.py:RelativeEntropy", "pysad/models/median_absolute_deviation.py:MedianAbsoluteDeviation", "pysad/models/standard_absolute_deviation.py:StandardAbsoluteDeviation", "pysad/models/rs_hash.py:RSHash"]}
{"id": "C106", "title": "Deviation scores do not depend on the order of the fitted values", "statement": "Two streams with the same values in different orders leave MedianAbsoluteDeviation and StandardAbsoluteDeviation with the same scores for every instance.", "quantifier": "every stream, every permutation of it, every instance", "why_tests_cant": "All permutations of all streams.", "anchors": ["pysad/models/median_absolute_deviation.py:MedianAbsoluteDeviation", "pysad/models/standard_absolute_deviation.py:StandardAbsoluteDeviation"]}
{"id": "C107", "title": "Old instances are forgotten", "statement": "A windowed detector's scores only depend on a bounded number of most recent instances: two streams of equal length that agree on these give every instance the same score.", "quantifier": "every pair of histories, every instance, every window size", "why_tests_cant": "Relates two unboundedly long runs.", "anchors": ["pysad/models/exact_storm.py:ExactStorm", "pysad/models/half_space_trees.py:HalfSpaceTrees", "pysad/models/seasonal_esd.py:SeasonalESD", "pysad/models/xstream.py:xStream", "pysad/models/rs_hash.py:RSHash"]}
{"id": "C108", "title": "LocalOutlierProbability learns from the stream", "statement": "Fitting a LocalOutlierProbability object with instances of the stream changes how it scores later instances.", "quantifier": "every history of fits and scores, every implementation of the batch method", "why_tests_cant": "About every history; and a test of scores passes whether or not fits have an effect.", "anchors": ["pysad/models/loop.py:LocalOutlierProbability"]}
{"id": "C109", "title": "Data files are read according to their extension", "statement": "Data.get_data reads files whose name ends in .mat as MATLAB files (X and the flattened y), and all other files as text whose last column is the label.", "quantifier": "every file name, every file content", "why_tests_cant": "All names and contents.", "anchors": ["pysad/utils/data.py:Data.get_data", "pysad/utils/data.py:Data._get_data_files"]}
{"id": "C110", "title": "A score is about the instance it was asked for", "statement": "score_partial(x) depends on x: with RSHash, RelativeEntropy and KNNCAD there are histories after which two instances get different scores.", "quantifier": "every history, every instance, every constructor argument", "why_tests_cant": "Tests call fit_score_partial with the same instance; the claim compares scores of all instances after all histories.", "anchors": ["pysad/models/rs_hash.py:RSHash.score_partial", "pysad/models/relative_entropy.py:RelativeEntropy.score_partial", "pysad/models/knn_cad.py:KNNCAD.score_partial"]}
{"id": "C111", "title": "The mean in floating point stays within the range of the values", "statement": "With IEEE doubles, AverageMeter reads a mean between the least and the greatest value it was given.", "quantifier": "every stream of doubles of every length", "why_tests_cant": "Rounding errors depend on all the values and accumulate with the length.", "anchors": ["pysad/statistics/average_meter.py:AverageMeter"]}
{"id": "C112", "title": "Maximum, minimum and median are right in floating point", "statement": "With IEEE doubles, on every history of updates, removals and reads, MaxMeter and MinMeter read the exact extreme of the live values and MedianMeter the exact median rounded once; the median is within the range of the values.", "quantifier": "every history of updates, removals and reads of doubles", "why_tests_cant": "All histories and all doubles; rounding could be wrong in rare cases only.", "anchors": ["pysad/statistics/max_meter.py:MaxMeter", "pysad/statistics/min_meter.py:MinMeter", "pysad/statistics/median_meter.py:MedianMeter"]}
{"id": "C113", "title": "Probabilities obtained by counting survive rounding", "statement": "With IEEE doubles, ConformalProbabilityCalibrator and ExactStorm return the exact fraction rounded once, a number in [0, 1]; the calibrator's ranking of scores is not disturbed.", "quantifier": "every stream, every window size up to 2^53, every score; strictness of the ranking for less than 2^52 scores", "why_tests_cant": "All streams and all fractions k/n.", "anchors": ["pysad/transform/probability_calibration/conformal_prediction.py:ConformalProbabilityCalibrator.transform_partial", "pysad/models/exact_storm.py:ExactStorm.score_partial"]}
{"id": "C114", "title": "Writing to an array after passing it to a detector does not change later answers", "statement": "If a caller reuses an array it has passed to fit_partial (for instance one buffer refilled for every instance), the detector answers as if it had been given copies.", "quantifier": "every sequence of writes to arrays and calls of fit_partial and score_partial on them", "why_tests_cant": "Depends on when which array is overwritten relative to all later calls.", "anchors": ["pysad/models/exact_storm.py:ExactStorm.fit_partial", "pysad/models/median_absolute_deviation.py:MedianAbsoluteDeviation.fit_partial", "pysad/models/relative_entropy.py:RelativeEntropy.fit_partial", "pysad/models/integrations/reference_window_model.py:ReferenceWindowModel.fit_partial"]}
{"id": "C115", "title": "Standardised scores have no ceiling", "statement": "However high a bound, a sufficiently extreme value gets a score above it: from the z-score postprocessors' fit_transform, and from fit_score_partial of the deviation detectors.", "quantifier": "every history of scores or instances, every window size, every bound", "why_tests_cant": "The largest reachable score depends on the number of earlier values; a test with long histories never meets it.", "anchors": ["pysad/transform/postprocessing/postprocessors.py:ZScorePostprocessor.transform_partial", "pysad/transform/postprocessing/running_postprocessors.py:RunningZScorePostprocessor.transform_partial", "pysad/models/standard_absolute_deviation.py:StandardAbsoluteDeviation.score_partial", "pysad/models/median_absolute_deviation.py:MedianAbsoluteDeviation.score_partial"]}
{"id": "C116", "title": "A value that is not a number is forgotten when it leaves the window", "statement": "What a window statistic reports depends only on the last window_size values, also when older ones were nan or infinite.", "quantifier": "every stream of numbers, nan and infinities, every window size", "why_tests_cant": "The damage shows only after the window has moved on, for all continuations of the stream.", "anchors": ["pysad/statistics/running_statistic.py:RunningStatistic.update", "pysad/statistics/average_meter.py:AverageMeter.remove", "pysad/statistics/sum_meter.py:SumMeter.remove", "pysad/statistics/sum_squares_meter.py:SumSquaresMeter.remove", "pysad/statistics/variance_meter.py:VarianceMeter.remove", "pysad/models/exact_storm.py:ExactStorm.fit_partial"]}
{"id": "C117", "title": "Transforming an array is transforming its rows", "statement": "transform and fit_transform of an array return one row per instance, and row i holds exactly the numbers transform_partial (fit_transform_partial) returns for instance i in turn; the rows are as wide as the input for scalers and num_components wide for projectors. For any other transformer a result of a different width raises ValueError, except that a single number is repeated over the row.", "quantifier": "every transformer with array results, every state, every array of any number of rows and columns", "why_tests_cant": "Broadcasting on assignment depends on the shapes of all results; a test has one shape.", "anchors": ["pysad/core/base_transformer.py:BaseTransformer.transform", "pysad/core/base_transformer.py:BaseTransformer.fit_transform", "pysad/transform/projection/streamhash_projector.py:StreamhashProjector.transform_partial"]}
{"id": "C118", "title": "Detectors in one process do not influence each other", "statement": "What a detector answers to its own calls does not change when calls to another, unrelated detector are interleaved with them, even though both may use numpy's global random generator.", "quantifier": "every pair of detectors, every initial state, every interleaving of any calls on the two", "why_tests_cant": "There are exponentially many interleavings, and a test process usually holds one detector.", "anchors": ["pysad/models/random_model.py:RandomModel.score_partial", "pysad/models/loda.py:LODA.fit_partial", "pysad/models/robust_random_cut_forest.py:RobustRandomCutForest.fit_partial", "pysad/models/integrations/reference_window_model.py:ReferenceWindowModel.fit_partial"]}
{"id": "C119", "title": "Integer bounds build the same half-space trees as float bounds", "statement": "HalfSpaceTrees given feature_mins and feature_maxes as integer arrays builds the trees it builds for the same bounds as floats.", "quantifier": "every integer bounds, depth, number of trees, window and random generator", "why_tests_cant": "Truncation happens inside nested recursion and depends on the parity of every range.", "anchors": ["pysad/models/half_space_trees.py:HalfSpaceTrees._build_single_hs_tree", "pysad/models/half_space_trees.py:HalfSpaceTrees.__init__", "pysad/utils/__init__.py:get_minmax_array"]}
{"id": "C120", "title": "HalfSpaceTrees scores are exact in floating point", "statement": "On double precision numbers the score of HalfSpaceTrees has no rounding error at all: it is exactly minus the sum over the trees of mass times two to the depth, as long as num_trees * window_size * (2^(max_depth+1) - 1) is at most 2^53.", "quantifier": "every bounds in doubles, every parameters within the limit, every history of calls, every instance", "why_tests_cant": "Whether an intermediate sum leaves the exactly representable integers depends on the whole history.", "anchors": ["pysad/models/half_space_trees.py:HalfSpaceTrees.score_partial", "pysad/models/half_space_trees.py:HalfSpaceTrees.fit_partial"]}
{"id": "C121", "title": "AUROC and AUPR are the textbook ranking measures", "statement": "AUROCMetric reports the probability that an anomaly is scored above a normal instance (ties one half), AUPRMetric the mean over the anomalies of the precision at their score. Both lie in [0,1], depend only on how the scores compare and not on the order of the instances, are 1 exactly for scores that separate the classes, and are 1/2 and the fraction of anomalies for constant scores; reversing the scores turns AUROC into one minus itself.", "quantifier": "every list of labels and scores, with or without ties", "why_tests_cant": "The curve has as many points as there are distinct scores; ties, dropped points and empty classes combine in endlessly many ways.", "anchors": ["pysad/evaluation/metrics.py:AUROCMetric", "pysad/evaluation/metrics.py:AUPRMetric"]}
{"id": "C122", "title": "The baseline detectors mark the ends of the scale", "statement": "On every labelled stream with both classes, PerfectModel given the labels is rated 1 by AUROC, AUPR, precision and recall, and NullModel is rated 1/2 by AUROC and the fraction of anomalies by AUPR.", "quantifier": "every stream, every labelling with both classes", "why_tests_cant": "A test fixes one stream; the ratings must hold for all class balances and orders.", "anchors": ["pysad/models/perfect_model.py:PerfectModel", "pysad/models/null_model.py:NullModel", "pysad/evaluation/metrics.py:AUROCMetric", "pysad/evaluation/metrics.py:AUPRMetric"]}
{"id": "C123", "title": "A perfect detector gets the best windowed AUPR", "statement": "WindowedMetric with AUPRMetric rates PerfectModel 1 on every stream with an anomaly, and rates no detector higher.", "quantifier": "every window size, both settings of ignore_nonempty_last, every labelling with an anomaly, every scores", "why_tests_cant": "The rating depends on how the anomalies fall into the windows.", "anchors": ["pysad/evaluation/windowed_metric.py:WindowedMetric", "pysad/evaluation/metrics.py:AUPRMetric", "pysad/models/perfect_model.py:PerfectModel"]}
{"id": "C124", "title": "Statistics of integers are right whatever their numpy type", "statement": "Sum, sum of squares, mean, variance, maximum, minimum and median of numpy integers of a fixed width are the exact ones, also in windows.", "quantifier": "every signed or unsigned integer type, every history of updates and removes, every window size", "why_tests_cant": "Overflow depends on the whole history; tests use small floats.", "anchors": ["pysad/statistics/sum_meter.py:SumMeter", "pysad/statistics/sum_squares_meter.py:SumSquaresMeter", "pysad/statistics/average_meter.py:AverageMeter", "pysad/statistics/variance_meter.py:VarianceMeter", "pysad/statistics/running_statistic.py:RunningStatistic"]}
{"id": "C125", "title": "RSHash tells different cells apart however large the numbers are", "statement": "RSHash counts instances per grid cell; storing the cell coordinates as 32-bit integers does not change any answer.", "quantifier": "every components, decay, number of hash functions, every history of calls, every behaviour of the conversion outside 32 bits", "why_tests_cant": "The collision needs coordinates beyond 2^31 widths and depends on the platform's conversion.", "anchors": ["pysad/models/rs_hash.py:RSHash.fit_partial"]}
{"id": "C126", "title": "Hashed projections preserve distances", "statement": "StreamhashProjector keeps distances: if the hash function behaves like a random one, the squared distance between the images of two instances equals, on average over the hash functions, the squared distance between the instances (up to a relative error of (1 + d/2^32)/(2^32 density), the granularity of 32-bit hashing), and with the default density it is off by a fraction eps or more for at most 3/(n eps^2) of the hash functions, n being the number of components.", "quantifier": "every number of components and features, every density in (0, 1], every pair of instances, all tables of 32-bit hash values equally likely, every eps > 0", "why_tests_cant": "An average over 2^(32 n d) hash functions cannot be sampled; a wrong constant or a lopsided boundary changes it by a little.", "anchors": ["pysad/transform/projection/streamhash_projector.py:StreamhashProjector.__init__", "pysad/transform/projection/streamhash_projector.py:StreamhashProjector._hash_string", "pysad/transform/projection/streamhash_projector.py:StreamhashProjector.transform_partial"]}
{"id": "C127", "title": "RandomModel marks the chance level", "statement": "On a stream with both classes RandomModel is rated 1/2 by AUROCMetric on average, whatever distribution its numbers are drawn from, ties included, and at least the fraction of anomalies by AUPRMetric.", "quantifier": "every labelled stream of any length with both classes, every finite distribution of the drawn numbers, all sequences of independent draws", "why_tests_cant": "It is a statement about the average over all outcomes of the generator.", "anchors": ["pysad/models/random_model.py:RandomModel.score_partial", "pysad/evaluation/metrics.py:AUROCMetric", "pysad/evaluation/metrics.py:AUPRMetric"]}
{"id": "C128", "title": "Smoothing respects comparisons, units and small errors", "statement": "The average, maximum and median postprocessors, whole-stream and windowed: if one stream of scores is nowhere below another, the smoothed scores are nowhere below the other's; multiplying all scores by a positive number and adding a constant does the same to the smoothed scores; and if every score changes by at most delta, every smoothed score changes by at most delta.", "quantifier": "every pair of score streams of any length, every window size, every positive factor, constant and delta", "why_tests_cant": "A comparison of two runs for every pair of streams.", "anchors": ["pysad/transform/postprocessing/postprocessors.py:AveragePostprocessor", "pysad/transform/postprocessing/postprocessors.py:MaxPostprocessor", "pysad/transform/postprocessing/postprocessors.py:MedianPostprocessor", "pysad/transform/postprocessing/running_postprocessors.py:RunningAveragePostprocessor", "pysad/transform/postprocessing/running_postprocessors.py:RunningMaxPostprocessor", "pysad/transform/postprocessing/running_postprocessors.py:RunningMedianPostprocessor"]}
{"id": "C129", "title": "Rating a detector while streaming is rating it afterwards", "statement": "For every detector, pipeline or ensemble, every metric and every streamer: the script that scores each streamed instance, updates the metric with its label and the score and finally prints the metric prints v if and only if scoring the instances alone, in order, succeeds and a fresh metric given the labels and these scores reports v. A single detector's scores are those of fit_score without labels, a pipeline's those of its stream.", "quantifier": "all scoring steps, metrics, streams", "why_tests_cant": "A test compares both ways on one data set with one detector.", "anchors": ["examples/example_usage.py", "examples/example_usage_short.py", "examples/example_ensemble.py", "pysad/evaluation/metrics.py"]}
{"id": "C130", "title": "The quick start's rating depends on the data", "statement": "The area under the ROC curve that the quick start (LODA, fit_score_partial on every instance, AUROCMetric) prints is a statement about the data: there are two labelled data sets that are rated differently.", "quantifier": "all generators, numbers of bins and cuts, data sets with both classes, orders", "why_tests_cant": "The printed number looks like a plausible rating; that it is the same for all data needs an argument over all of them.", "anchors": ["examples/example_usage_short.py", "README.rst", "pysad/models/loda.py:LODA.fit_partial", "pysad/models/loda.py:LODA.score_partial"]}
{"id": "C131", "title": "RSHash and xStream estimate a kernel density", "statement": "With shifts drawn uniformly, the chance that two instances fall into the same cell (bin) is the product, over the features used, of the triangular kernel of their difference in units of the cell width. So in every component of RSHash and every chain and depth of xStream the count behind a score is on average the kernel density of the earlier instances (of the reference window) at the instance; RSHash's average score is at most, xStream's at least the one computed from the densities; and an instance further than the widths from all others gets RSHash's score 0 whatever the shifts.", "quantifier": "all widths, features, histories, instances; all shifts on average", "why_tests_cant": "The claim is about the distribution over random shifts; a test sees a few draws.", "anchors": ["pysad/models/rs_hash.py:RSHash.fit_partial", "pysad/models/rs_hash.py:RSHash._sample_shifts", "pysad/models/xstream.py:_Chain.fit", "pysad/models/xstream.py:_Chain.bincount", "pysad/models/xstream.py:xStream.score_partial"]}
{"id": "C132", "title": "An ensemble ranks instances like its detectors if they agree", "statement": "If every detector scores one instance of a batch at least as high as another, so does the ensembler: average, weighted average (no weight negative, not all 0), maximum, median, and the bucket methods AverageOfMaximum and MaximumOfAverage.", "quantifier": "all batches of score rows, numbers of buckets, random orders of the detectors", "why_tests_cant": "The bucket methods draw a new order in every call; a test sees a few of them.", "anchors": ["pysad/transform/ensemble/ensemblers.py", "pysad/core/base_postprocessor.py:BasePostprocessor.transform"]}
{"id": "C133", "title": "A stream delivers the data as they were when it was opened", "statement": "While a loop over a streamer runs, whatever the caller writes to the array, each item of the stream is the row that the array held when the stream was opened.", "quantifier": "all arrays, orders of the rows, interleavings of next() with writes to any row", "why_tests_cant": "Tests do not write to the array while they iterate over it.", "anchors": ["pysad/utils/array_streamer.py:ArrayStreamer.iter"]}
{"id": "C134", "title": "A minority of outliers does not carry a smoothed score away", "statement": "Whenever more than half of the scores in use (all so far, those in the window, or those of the detectors of an ensemble) lie between two bounds, the reported average or median lies between them too.", "quantifier": "all streams, windows, score vectors and bounds", "why_tests_cant": "A property of every subset of every stream; tests use a few outliers at fixed places.", "anchors": ["pysad/transform/postprocessing/postprocessors.py", "pysad/transform/postprocessing/running_postprocessors.py", "pysad/transform/ensemble/ensemblers.py"]}
{"id": "C135", "title": "A minority of outliers does not hide others from the deviation detectors", "statement": "If more than half of the fitted values lie between two bounds, a value farther from that range than the range is wide gets a higher score than every value within; and from MedianAbsoluteDeviation a value at distance d from the range gets at least d / (b * width + 1e-10).", "quantifier": "all histories of fits and scores, bounds and values", "why_tests_cant": "Masking depends on the places and sizes of the outliers in the history.", "anchors": ["pysad/models/median_absolute_deviation.py:MedianAbsoluteDeviation", "pysad/models/standard_absolute_deviation.py:StandardAbsoluteDeviation"]}
{"id": "C136", "title": "Postprocessing keeps the rating of a detector", "statement": "AUROC of the postprocessed scores is that of the raw scores: for smoothing, standardisation and calibration, with fit_transform along the stream or with transform after fitting on earlier scores.", "quantifier": "all streams of scores, labels with both classes, window sizes", "why_tests_cant": "The rating compares all pairs of instances of a stream; a test has one stream.", "anchors": ["pysad/transform/postprocessing/postprocessors.py", "pysad/transform/postprocessing/running_postprocessors.py", "pysad/transform/probability_calibration", "pysad/evaluation/metrics.py:AUROCMetric"]}
{"id": "C137", "title": "One instance has limited influence", "statement": "Replacing one fitted instance by any other changes what is reported about a later instance by a bounded amount, and the bound shrinks as more is seen: for ExactStorm at most 1/(window - 1), for the conformal calibrator at most 1/(number of scores kept), for a windowed average at most the change of the score over the number averaged, for RSHash at most log(1 + 2^(-decay*age)); StandardAbsoluteDeviation has some bound too.", "quantifier": "all pairs of call histories that differ in one fitted instance, window sizes, decays, instances", "why_tests_cant": "Two histories of any length and content are compared, with an arbitrary replacement.", "anchors": ["pysad/models/exact_storm.py:ExactStorm", "pysad/models/rs_hash.py:RSHash", "pysad/models/standard_absolute_deviation.py:StandardAbsoluteDeviation", "pysad/transform/probability_calibration/conformal_prediction.py:ConformalProbabilityCalibrator", "pysad/transform/postprocessing/running_postprocessors.py:RunningAveragePostprocessor"]}
{"id": "C138", "title": "Arguments that a constructor accepts work", "statement": "If a constructor accepts its arguments, the object can be used: fit_partial does not raise for instances of the right shape, whatever was called before, and score_partial answers. Constructors do not check their arguments, so this is claimed of every window size, number of chains, depth, number of components, hash functions, bins, trees and tree size.", "quantifier": "all constructor arguments, call histories, instances, random draws", "why_tests_cant": "The failure depends on the argument, and for some arguments shows only after the first instance or the first window.", "anchors": ["pysad/models/rs_hash.py:RSHash", "pysad/models/xstream.py:xStream", "pysad/models/half_space_trees.py:HalfSpaceTrees", "pysad/models/loda.py:LODA", "pysad/models/iforest_asd.py:IForestASD", "pysad/models/robust_random_cut_forest.py:RobustRandomCutForest", "pysad/models/exact_storm.py:ExactStorm"]}
{"id": "C139", "title": "xStream is what its arguments say", "statement": "xStream(num_components, n_chains, depth, window_size) with arguments of at least 1 can always be constructed and fitted, and scores by n_chains chains of depth features each over num_components projected dimensions (Streamhash of density 1/3): a score is the mean over the chains of minus the least log2(1 + count) + depth. With the default arguments every score lies between -(1 + log2 26) and -1, after any history. Without components the constructor raises.", "quantifier": "all constructor arguments, generator states, hash functions, call histories, instances", "why_tests_cant": "The numbers drawn at construction and the history are arbitrary.", "anchors": ["pysad/models/xstream.py:xStream", "pysad/models/xstream.py:_HSChains", "pysad/models/xstream.py:_Chain", "pysad/transform/projection/streamhash_projector.py:StreamhashProjector"]}
{"id": "C140", "title": "Default arguments mean what is documented", "statement": "An object constructed with its default arguments behaves as the documented defaults say, after any history: ExactStorm compares with 10000 instances within 0.1, KitNet needs 50001 instances before it scores anything but 0, LODA scores between 0 and 0.278, RobustRandomCutForest keeps 256 recent instances in each of 4 trees, IForestASD trains on blocks of 2048, RelativeEntropy compares 5-bin histograms of 52 values, HalfSpaceTrees and RSHash can always be constructed and scored with, the calibrators use the last 300 and the last 6400 scores, the deviations are absolute and the unit norm is Euclidean.", "quantifier": "all call histories, instances, random draws", "why_tests_cant": "The windows involved are longer than a test's stream, and histories are arbitrary.", "anchors": ["pysad/models/exact_storm.py:ExactStorm", "pysad/models/kitnet.py:KitNet", "pysad/models/loda.py:LODA", "pysad/models/rs_hash.py:RSHash", "pysad/models/half_space_trees.py:HalfSpaceTrees", "pysad/models/iforest_asd.py:IForestASD", "pysad/models/relative_entropy.py:RelativeEntropy", "pysad/models/robust_random_cut_forest.py:RobustRandomCutForest", "pysad/models/median_absolute_deviation.py:MedianAbsoluteDeviation", "pysad/models/standard_absolute_deviation.py:StandardAbsoluteDeviation", "pysad/transform/probability_calibration/conformal_prediction.py:ConformalProbabilityCalibrator", "pysad/transform/probability_calibration/gaussian_tail.py:GaussianTailProbabilityCalibrator", "pysad/transform/preprocessing/instance_unit_norm_scaler.py:InstanceUnitNormScaler"]}
{"id": "C141", "title": "xStream tells different bins apart however large the numbers are", "statement": "xStream counts instances per bin of its half-space chains; storing the bins as 32-bit integers does not change any answer.", "quantifier": "every number of components, window size, random choices, every history of calls, every behaviour of the conversion outside 32 bits", "why_tests_cant": "The collision needs bins beyond 2^31, which each further use of a feature in a chain doubles, and depends on the platform's conversion.", "anchors": ["pysad/models/xstream.py:_Chain.fit", "pysad/models/xstream.py:_Chain.bincount"]}
{"id": "C142", "title": "The order of the features does not matter", "statement": "Listing the features of all instances (and bounds) in another order changes nothing: ExactStorm answers the same, the instance scalers return the same vector reordered, and HalfSpaceTrees, LODA, RSHash and xStream answer the same when their random choices are renamed accordingly, so that any set of answers is as likely as before.", "quantifier": "every permutation of the features, every constructor argument, every history of calls, all sequences of drawn features and all hash tables equally likely", "why_tests_cant": "Tests fix one order of the columns; a seeded detector does answer differently after reordering, so that only the distribution over seeds is comparable.", "anchors": ["pysad/models/exact_storm.py:ExactStorm.score_partial", "pysad/models/half_space_trees.py:HalfSpaceTrees", "pysad/models/loda.py:LODA.fit_partial", "pysad/models/rs_hash.py:RSHash.fit_partial", "pysad/models/xstream.py:xStream", "pysad/transform/preprocessing/instance_unit_norm_scaler.py:InstanceUnitNormScaler.transform_partial", "pysad/transform/preprocessing/instance_standard_scaler.py:InstanceStandardScaler.transform_partial"]}
{"id": "C143", "title": "Inqmad measures similarity by a Gaussian kernel", "statement": "The inner product of the random feature vectors of two instances is on average the Gaussian kernel exp(-gamma |x-y|^2), and off by eps or more with probability at most 2 exp(-d eps^2/8) for d components. Hence the score of x, times the squared number of instances fitted, is close to exp(-2 gamma |x-z|^2), z being the instance scores are measured against, and converges to it as the number of components grows.", "quantifier": "every gamma, number of features and components, every pair of instances, every history of calls, all draws of the sampler weighted by their distribution", "why_tests_cant": "The features are random and the score only approximates the kernel; a test sees one seed and one dimension and cannot tell an unlucky draw from a wrong scale.", "anchors": ["pysad/models/inqmad.py:QFeatureMap_rff.compute", "pysad/models/inqmad.py:QFeatureMap_rff.build", "pysad/models/inqmad.py:InqMeasurement.collapse", "pysad/models/inqmad.py:Inqmad.score_partial"]}
{"id": "C144", "title": "KitNet's training steps reduce the loss", "statement": "For every autoencoder of KitNet and every instance, if the learning rate is small enough, training on the instance strictly reduces the cross-entropy between the normalised instance and its reconstruction, or leaves every weight and bias unchanged; the slope in the learning rate is minus the sum of the squared partial derivatives of the weights and of the squared mean partial derivatives of the biases.", "quantifier": "every autoencoder state, every instance, every small enough learning rate", "why_tests_cant": "A statement about all parameters and about a limit; a test sees one learning rate and one trajectory.", "anchors": ["pysad/models/kitnet_model/dA.py:train"]}
{"id": "C145", "title": "Fitting an instance makes it look more familiar", "statement": "After an instance has been fitted, its score is not higher than just before: with HalfSpaceTrees, xStream, MedianAbsoluteDeviation and StandardAbsoluteDeviation, whatever was fitted before (for the last two, at least one value).", "quantifier": "every history of calls, every instance, every window size, number of trees or chains, every random draw", "why_tests_cant": "Compares two scores around one fit for all histories; the exceptions occur only where a window ends or where the instance lies closer than the scale.", "anchors": ["pysad/models/half_space_trees.py:HalfSpaceTrees.fit_partial", "pysad/models/xstream.py:xStream.fit_partial", "pysad/models/median_absolute_deviation.py:MedianAbsoluteDeviation.fit_partial", "pysad/models/standard_absolute_deviation.py:StandardAbsoluteDeviation.fit_partial"]}
{"id": "C146", "title": "A threshold limits how many instances are flagged", "statement": "After any history, at most one in k^2 of the values fitted to StandardAbsoluteDeviation score k or more (one in 1 + k^2 for signed scores and for z-scores within the window), and at most half of those fitted to MedianAbsoluteDeviation score above 1/b.", "quantifier": "every history, every threshold, every window", "why_tests_cant": "How many values exceed a threshold is a statement about all values of an arbitrary stream at once; a test sees the counts of a few streams.", "anchors": ["pysad/models/standard_absolute_deviation.py:StandardAbsoluteDeviation.score_partial", "pysad/models/median_absolute_deviation.py:MedianAbsoluteDeviation.score_partial", "pysad/transform/postprocessing/running_postprocessors.py:RunningZScorePostprocessor"]}
{"id": "C147", "title": "RelativeEntropy counts every value that lies in its range", "statement": "Once window_size values are fitted, and whenever the last window_size values lie between min_val and max_val (both included), the detector's current frequencies are those of window_size counted values: num_bins counts that add up to window_size, each divided by window_size. With the rounding of doubles this holds for every range when num_bins is a power of two or a sum of two powers of two (the default 5 is), and for every num_bins when the values stay a few units in the last place below max_val; for other numbers of bins a value equal to max_val can fall out of the histogram (7 bins over 0..17).", "quantifier": "every range of doubles, every number of bins, every window size, every history of fit and score calls", "why_tests_cant": "The loss depends on the last bit of two quotients; it hits 7, 11, 13, 14, 15 or 19 bins for some ranges and never 2, 3, 4, 5, 6, 8, 9, 10 or 12, so tests with usual settings pass.", "anchors": ["pysad/models/relative_entropy.py::RelativeEntropy.__init__", "pysad/models/relative_entropy.py::RelativeEntropy.fit_partial"]}
{"id": "C148", "title": "KitNet notices an instance far outside of what it was trained on", "statement": "Once KitNet trains its autoencoders: if the training values of a feature lie in [lo, hi], an instance whose value is at least d outside of it gets a score of at least d / (2 n (hi - lo + 1e-16)) - 3, n being the number of features, whatever the other features are. Hence there is no ceiling for the score, no feature is ignored, and a feature that was constant in training raises the score to millions when it changes by a billionth.", "quantifier": "every history, every feature map, every training set, every instance, over the reals", "why_tests_cant": "The bound must hold for every weight that training may produce and every value of the other features, also values chosen to hide the deviation.", "anchors": ["pysad/models/kitnet.py::KitNet", "pysad/models/kitnet_model/dA.py::dA.execute", "pysad/models/kitnet_model/KitNET.py::KitNET.execute"]}
{"id": "C149", "title": "HalfSpaceTrees treats a value beyond its bounds like the bound", "statement": "With feature_mins < feature_maxes, moving every fitted and every scored value into its bounds changes no answer: data outside of the declared ranges neither fail nor confuse the trees, and an instance that is arbitrarily far outside gets the score of an instance on the border.", "quantifier": "every history of fit and score calls, every bounds, every number and depth of trees, every random choice of split features", "why_tests_cant": "The bounds and the stream are arbitrary; a test would have to know which splits the random trees chose.", "anchors": ["pysad/models/half_space_trees.py::HalfSpaceTrees.__init__", "pysad/models/half_space_trees.py::HalfSpaceTrees.fit_partial", "pysad/models/half_space_trees.py::HalfSpaceTrees.score_partial"]}
{"id": "C150", "title": "Nearby instances get nearby scores", "statement": "In every reachable state an arbitrarily small change of the instance changes its score arbitrarily little: for the deviation detectors the scores of two values differ by at most their distance over the scale in use; the scores of KitNet after its grace period and of Inqmad are continuous functions of the instance; for HalfSpaceTrees and ExactStorm, which count, it can only hold away from the split values and from the radius.", "quantifier": "All detectors named with all their parameters, all histories of fits and scores, all pairs of instances.", "why_tests_cant": "Jumps occur at isolated values (a split, a radius) that random test inputs do not hit, and continuity is a statement about all neighbourhoods of all instances.", "anchors": ["pysad/models/median_absolute_deviation.py::MedianAbsoluteDeviation.score_partial", "pysad/models/standard_absolute_deviation.py::StandardAbsoluteDeviation.score_partial", "pysad/models/kitnet.py::KitNet.score_partial", "pysad/models/inqmad.py::Inqmad.score_partial", "pysad/models/half_space_trees.py::HalfSpaceTrees.score_partial", "pysad/models/exact_storm.py::ExactStorm.score_partial"]}
{"id": "C151", "title": "HalfSpaceTrees tells apart only the cells of a grid fixed by max_depth", "statement": "Cut the range between the bounds of every feature into 2^max_depth equal parts. Two histories whose calls concern instances in the same cells get the same answers and lead to the same state, whatever trees were drawn, and whatever the number of trees: more trees never refine the resolution.", "quantifier": "All bounds, depths, numbers of trees, window sizes, outcomes of the random choices, histories of fits and scores.", "why_tests_cant": "It is about all trees that can be drawn and all pairs of histories.", "anchors": ["pysad/models/half_space_trees.py::HalfSpaceTrees.__init__", "pysad/models/half_space_trees.py::HalfSpaceTrees.fit_partial", "pysad/models/half_space_trees.py::HalfSpaceTrees.score_partial"]}
{"id": "C152", "title": "Unit-norm scaling in doubles", "statement": "With the rounding of double arithmetic, and in whatever order numpy adds up the terms of the norm, InstanceUnitNormScaler.transform_partial turns every non-zero vector into numbers of [-1, 1] with the signs and the order of the entries; the norm of the answer is exactly 1 for the order infinity, 1 up to n*2^-52 for the order 1, and for the order 2 the squares add up to 1 up to (n+4)*2^-52, for n features. The zero vector is answered by nan in every entry.", "quantifier": "all vectors of doubles (without over- and underflow), orders 1, 2 and infinity, all orders of summation", "why_tests_cant": "The rounding error depends on the values and on the order of summation, which differs between machines; tests compare a few vectors up to a tolerance.", "anchors": ["pysad/transform/preprocessing/instance_unit_norm_scaler.py::InstanceUnitNormScaler.transform_partial"]}
{"id": "C153", "title": "Deviation scores order values rightly in doubles", "statement": "With the rounding of double arithmetic, the scores of MedianAbsoluteDeviation (b >= 0) after any history with a fitted value are numbers that never decrease with the value, positive exactly above, zero exactly at and negative exactly below the rounded median of the fitted values (their absolute values with absolute=True). StandardAbsoluteDeviation scores likewise around the mean or median that its meter reads, in every state in which its variance does not read as negative, and answers nan for every value otherwise; the variance does not read as negative when it is at least about (n+2)*2^-51 times the square of the greatest magnitude.", "quantifier": "all histories of fits and scores with doubles (without over- and underflow), all arguments, both settings of absolute", "why_tests_cant": "Each score is rounded four times and the median and scale are rounded too; that no combination of values swaps two scores or flips a sign cannot be tested exhaustively.", "anchors": ["pysad/models/median_absolute_deviation.py::MedianAbsoluteDeviation.fit_partial", "pysad/models/median_absolute_deviation.py::MedianAbsoluteDeviation.score_partial", "pysad/models/standard_absolute_deviation.py::StandardAbsoluteDeviation.score_partial", "pysad/statistics/variance_meter.py::VarianceMeter.get"]}
{"id": "C154", "title": "HalfSpaceTrees is a randomised kernel density estimate", "statement": "Averaged over the random choice of the split features, the score of an instance is minus num_trees times the sum, over the instances of the reference window, of a similarity that depends only on the feature bounds and max_depth: the sum over k up to max_depth of 2^k times the chance that both instances lie in the same box after k random halvings. The similarity is symmetric, between 1 and 2^(max_depth+1)-1, greatest for equal instances, does not grow as an instance moves away in every feature, and is positive semidefinite. The chance that the score per tree is eps away from its average is at most B^2/(num_trees*eps^2), with B the range of the score of one tree: more trees, less randomness.", "quantifier": "all bounds, depths, numbers of trees, windows, histories, instances; all outcomes of the uniform draws", "why_tests_cant": "a test sees one draw of the trees; the average over (2^max_depth-1)*num_trees draws and the chance of a deviation are statements about all draws", "anchors": ["pysad/models/half_space_trees.py::HalfSpaceTrees.__init__", "pysad/models/half_space_trees.py::HalfSpaceTrees.score_partial", "pysad/models/half_space_trees.py::HalfSpaceTrees._build_single_hs_tree"]}
{"id": "C155", "title": "One missing or infinite value does not make a detector useless", "statement": "An instance that contains nan or an infinity may reach a stream detector. HalfSpaceTrees built with bounds lo < hi treats nan and minus infinity as the lower bound of the feature and infinity as the upper bound, in every history. RelativeEntropy raises in fit_partial exactly while one of the last window_size values is not a number; its score is always a number and compares the last window of numbers with the first. StandardAbsoluteDeviation ought to go on scoring ordinary instances by numbers after such a value.", "quantifier": "every history of calls, every position of the values that are not numbers, every parameter", "why_tests_cant": "a test puts a nan at one place of one stream; that the later answers are unaffected, or are all nan, concerns every continuation", "anchors": ["pysad/models/half_space_trees.py::HalfSpaceTrees.fit_partial", "pysad/models/half_space_trees.py::HalfSpaceTrees.score_partial", "pysad/models/standard_absolute_deviation.py::StandardAbsoluteDeviation.score_partial", "pysad/models/relative_entropy.py::RelativeEntropy.fit_partial", "pysad/models/relative_entropy.py::RelativeEntropy.score_partial"]}
{"id": "C156", "title": "More components, chains or trees make random scores reliable", "statement": "Over the uniform random shifts, the score that RSHash gives after any history is within eps of its average except with probability at most 2 exp(-2 m eps^2 / B^2), where m is the number of components and B the logarithm of one plus the total decayed weight. The same holds for xStream with the number of chains and B = log2(1 + window size). If xStream scores one instance higher than another by g on average, it orders them wrongly with probability at most exp(-n g^2 / (2 B^2)). Over uniform draws of the split features, the score per tree of HalfSpaceTrees is within eps of minus the summed similarity (C154) of the instance to the reference window except with probability at most 2 exp(-2 T eps^2 / B^2), where T is the number of trees and B the greatest score of one tree; an instance that is less similar by g gets the lower score with probability at most exp(-T g^2 / (2 B^2)).", "quantifier": "all histories, instances, widths, features, decays, window sizes, numbers of components, chains or trees and eps; probability over uniform shifts or splits", "why_tests_cant": "a test sees a few random draws; the bound is about the distribution of all of them and for every history", "anchors": ["pysad/models/rs_hash.py::RSHash.fit_partial", "pysad/models/xstream.py::xStream.score_partial", "pysad/models/half_space_trees.py::HalfSpaceTrees.score_partial"]}
{"id": "C157", "title": "The order of arrival inside a window does not matter", "statement": "Two streams that differ only in the order of the instances inside the window a detector compares with leave it with the same score for every instance: ExactStorm (older retained instances), RelativeEntropy (first and last window_size values), xStream (every block of window_size instances), the conformal calibrator and the running z-score (retained scores); likewise RSHash, LODA and Inqmad for the instances fitted so far.", "quantifier": "all pairs of call histories whose windows are permutations of one another, all parameters, all random draws, all instances scored", "why_tests_cant": "There are factorially many orders; a test compares two of them on one data set.", "anchors": ["pysad/models/exact_storm.py::ExactStorm.score_partial", "pysad/models/relative_entropy.py::RelativeEntropy.score_partial", "pysad/models/xstream.py::xStream.fit_partial", "pysad/models/rs_hash.py::RSHash.fit_partial", "pysad/models/loda.py::LODA.fit_partial", "pysad/models/inqmad.py::Inqmad.fit_partial", "pysad/transform/probability_calibration/conformal_prediction.py::ConformalProbabilityCalibrator.transform_partial"]}
{"id": "C158", "title": "Scores stay the same until a window is complete", "statement": "Once the first window is complete, fitting more instances without completing another block of window_size instances does not change the score of any instance (HalfSpaceTrees, xStream); ReferenceWindowModel and IForestASD keep using the very same trained detector until sliding_size more instances are there, with and without an initial window.", "quantifier": "all call histories, all continuations that complete no block, all instances scored, all parameters and random draws", "why_tests_cant": "A test sees a few continuations of a few histories.", "anchors": ["pysad/models/half_space_trees.py::HalfSpaceTrees.fit_partial", "pysad/models/xstream.py::xStream.fit_partial", "pysad/models/integrations/reference_window_model.py::ReferenceWindowModel.fit_partial", "pysad/models/iforest_asd.py::IForestASD"]}
{"id": "C159", "title": "Smoothed scores follow a lasting change", "statement": "Scores that have moved to a new level and stay there (all later scores lie between lo and hi) are followed by the smoothed scores: RunningAveragePostprocessor(w) and RunningMaxPostprocessor(w) report values between lo and hi from the w-th new score on, RunningMedianPostprocessor(w) already from the (w/2+1)-th on, MedianPostprocessor as soon as the new scores outnumber the old ones. AveragePostprocessor keeps the old level in proportion m/(m+k) after m old and k new scores; MaxPostprocessor never returns below an old score.", "quantifier": "Every stream of old scores, every continuation within an interval, every window size of at least one, every position", "why_tests_cant": "How long a smoother lags is a statement about every history before the change and every continuation after it; tests show one step response.", "anchors": ["pysad/transform/postprocessing/running_postprocessors.py::RunningAveragePostprocessor", "pysad/transform/postprocessing/running_postprocessors.py::RunningMedianPostprocessor", "pysad/transform/postprocessing/running_postprocessors.py::RunningMaxPostprocessor", "pysad/transform/postprocessing/postprocessors.py::AveragePostprocessor", "pysad/transform/postprocessing/postprocessors.py::MedianPostprocessor", "pysad/transform/postprocessing/postprocessors.py::MaxPostprocessor"]}
{"id": "C160", "title": "Seasonal ESD reports a large enough spike", "statement": "For SeasonalESD and SeasonalHybridESD with a full window: if all residuals but the newest lie within b of some level and the newest is far enough from it (how far depends only on b and the parameters), the score of the newest instance is not 0.", "quantifier": "Every accepted configuration, every history that fills the window, every STL decomposition, every quantile function, every b, level and residuals", "why_tests_cant": "The threshold must work for every arrangement of the other residuals and every history; tests use one spike in one series.", "anchors": ["pysad/models/seasonal_esd.py::SeasonalESD._esd", "pysad/models/seasonal_esd.py::SeasonalHybridESD._center_scale", "pysad/models/seasonal_esd.py::SeasonalESD.score_partial"]}
{"id": "C161", "title": "Seasonal ESD scores have a ceiling set by the window size", "statement": "No score of SeasonalESD or SeasonalHybridESD exceeds a bound that depends only on window_size.", "quantifier": "Every accepted configuration, every history, every instance, every STL decomposition and quantile function", "why_tests_cant": "A supremum over all streams cannot be observed by testing.", "anchors": ["pysad/models/seasonal_esd.py::SeasonalESD.score_partial", "pysad/models/seasonal_esd.py::SeasonalHybridESD._center_scale"]}
{"id": "C162", "title": "Standardised scores have a ceiling set by the sample size", "statement": "A score standardised against a sample that contains it cannot be large while the sample is small: the i-th result of ZScorePostprocessor (counting from 0) is at most sqrt(i) in absolute value, RunningZScorePostprocessor(w) at most sqrt(n-1) with n the number of scores in the window, a fitted instance scores at most sqrt(n-1) with StandardAbsoluteDeviation (mean; sqrt(n-1)+1 with the median), and GaussianTailProbabilityCalibrator reports at most the tail probability of sqrt(n-1) standard deviations. The bound is attained.", "quantifier": "Every stream of real scores or instances, every window size, every position", "why_tests_cant": "The bound is a supremum over all streams of every length; tests see a few values below it.", "anchors": ["pysad/transform/postprocessing/postprocessors.py::ZScorePostprocessor", "pysad/transform/postprocessing/running_postprocessors.py::RunningZScorePostprocessor", "pysad/models/standard_absolute_deviation.py::StandardAbsoluteDeviation", "pysad/transform/probability_calibration/gaussian_tail.py::GaussianTailProbabilityCalibrator"]}
{"id": "C163", "title": "KitNet groups features by their correlation", "statement": "The feature map is made of one minus Pearson's correlation of the features over the first grace_feature_mapping + 1 fitted instances. It does not depend on the units of the features.", "quantifier": "every stream, grace period, number of features, linkage", "why_tests_cant": "A test feeds a few streams; the claim is about every finite history, including every length, repetition and ordering.", "anchors": ["pysad/models/kitnet_model/corClust.py::corClust.update", "pysad/models/kitnet_model/corClust.py::corClust.corrDist", "pysad/models/kitnet_model/KitNET.py::KitNET.train"]}
{"id": "C164", "title": "Partly labelled streams in ReferenceWindowModel", "statement": "With window_size at least 2 and sliding_size at least 1, for streams in which only some instances are fitted with a label: no fit_partial raises, whenever the underlying detector is trained with labels there is one label for every training instance, and every training instance that came with a label is trained with that label. The instances it is trained on are those of the documented window whatever the labels.", "quantifier": "every base detector, window and sliding size and every history of fits (with or without a label each) and scores", "why_tests_cant": "Which label is attached to which instance depends on the pattern of labelled and unlabelled fits over the whole history and its position relative to the slides.", "anchors": ["pysad/models/integrations/reference_window_model.py::ReferenceWindowModel.fit_partial"]}
{"id": "C165", "title": "Spikes do not hide each other from Seasonal ESD", "statement": "For SeasonalESD and SeasonalHybridESD with a full window: if at most max_anomalies residuals do not lie within b of some level, the newest is one of them, and each of them is far enough from the level, on whichever side (how far depends only on b and the parameters), the score of the newest instance is not 0.", "quantifier": "Every accepted configuration, every history that fills the window, every STL decomposition, every quantile function, every b, level, number of spikes up to max_anomalies, sizes and signs of the spikes", "why_tests_cant": "Masking is the classical failure of sequential outlier tests: the test must take a spike in every round, for every number, order and size of the others; tests use one spike in one series.", "anchors": ["pysad/models/seasonal_esd.py::SeasonalESD._esd", "pysad/models/seasonal_esd.py::SeasonalHybridESD._center_scale", "pysad/models/seasonal_esd.py::SeasonalESD.score_partial"]}
{"id": "C166", "title": "Seasonal ESD scores do not depend on the unit or the zero of the values", "statement": "For SeasonalESD and SeasonalHybridESD: if every value x of the stream is replaced by a x + b (a > 0), and the STL decomposition finds the same seasons in the new unit, every score stays the same.", "quantifier": "Every accepted configuration, every history of calls (valid or not), every a > 0 and b, every decomposition, every quantile function", "why_tests_cant": "It relates two runs over whole histories, for all units; an absolute cut-off in the code only shows in units no test uses.", "anchors": ["pysad/models/seasonal_esd.py::SeasonalESD._esd", "pysad/models/seasonal_esd.py::SeasonalESD.score_partial", "pysad/transform/preprocessing/modified_stl_residual.py::ModifiedSTLResidualTransformer.transform_window"]}
{"id": "C167", "title": "A feature that never changes does not matter", "statement": "Adding a feature that is zero in every instance does not change any answer of xStream or Inqmad, the projection of StreamhashProjector, or the other entries that InstanceUnitNormScaler and InstanceStandardScaler return; for ExactStorm the added feature may have any one value. RSHash, told by its bounds that some (not all) features never change, never looks at them. The expected score of HalfSpaceTrees over its random splits is the same with one more feature that has the same value everywhere.", "quantifier": "all histories, instances, parameters and random draws; every norm order", "why_tests_cant": "a test adds a column to one data set; the claim is about every history and every draw", "anchors": ["pysad/models/exact_storm.py::ExactStorm.score_partial", "pysad/models/rs_hash.py::RSHash._sample_dims", "pysad/models/xstream.py::xStream.fit_partial", "pysad/models/inqmad.py::QFeatureMap_rff.compute", "pysad/models/half_space_trees.py::HalfSpaceTrees.score_partial", "pysad/transform/projection/streamhash_projector.py::StreamhashProjector.transform_partial", "pysad/transform/preprocessing/instance_unit_norm_scaler.py::InstanceUnitNormScaler.transform_partial", "pysad/transform/preprocessing/instance_standard_scaler.py::InstanceStandardScaler.transform_partial"]}
{"id": "C168", "title": "What the seasonal-trend decomposer returns, as a function of the history", "statement": "After any history of fit_partial, transform_partial and fit_transform_partial calls on SeasonalTrendDecomposer(s, w), transform_partial(x) returns, in each feature, x minus the trend minus the season: the trend is the mean of the last w fitted values, the season is the mean, over the earlier fitted values in the same phase of a season of s instances at which w values were available, of their deviation from the trend at that time (0 if there is none). transform_partial calls do not count. fit_transform_partial(x) returns the same with x already counted. Without a trend window w is s. Measuring feature i in another unit and from another zero multiplies the result by that unit, and if all values of a feature lie between lo and hi the result is at most 2 (hi - lo) in size.", "quantifier": "all season lengths and trend windows from 1, all histories of calls, all instances of d features, all units, in exact arithmetic", "why_tests_cant": "A test feeds a few streams; the claim is about every finite history, including every length, repetition and ordering.", "anchors": ["pysad/transform/preprocessing/seasonal_trend_decomposer.py::SeasonalTrendDecomposer.transform_partial", "pysad/transform/preprocessing/seasonal_trend_decomposer.py::SeasonalTrendDecomposer.fit_partial", "pysad/transform/preprocessing/seasonal_trend_decomposer.py::SeasonalTrendDecomposer.fit_transform_partial"]}
{"id": "C169", "title": "A new detector can be asked for a score", "statement": "Before the first fit, score_partial of any instance, asked any number of times, returns one and the same number.", "quantifier": "every detector, all constructor arguments, all sequences of instances scored before the first fit", "why_tests_cant": "A test checks the detectors and arguments it was written for, and tests of detectors usually fit before they score; the claim is about every detector, every argument and every sequence of calls.", "anchors": ["pysad/models/exact_storm.py::ExactStorm.score_partial", "pysad/models/half_space_trees.py::HalfSpaceTrees.score_partial", "pysad/models/xstream.py::xStream.score_partial", "pysad/models/relative_entropy.py::RelativeEntropy.score_partial", "pysad/models/seasonal_esd.py::SeasonalESD.score_partial", "pysad/models/rs_hash.py::RSHash.score_partial", "pysad/models/loda.py::LODA.score_partial", "pysad/models/kitnet.py::KitNet.score_partial", "pysad/models/knn_cad.py::KNNCAD.score_partial", "pysad/models/inqmad.py::Inqmad.score_partial", "pysad/models/robust_random_cut_forest.py::RobustRandomCutForest.score_partial", "pysad/models/median_absolute_deviation.py::MedianAbsoluteDeviation.score_partial", "pysad/models/standard_absolute_deviation.py::StandardAbsoluteDeviation.score_partial", "pysad/models/integrations/reference_window_model.py::ReferenceWindowModel.score_partial"]}
{"id": "C170", "title": "What is computed from a window estimates the population", "statement": "On independent draws from a population, whatever was seen before: the ExactStorm score of x with window w is within e of the fraction of the population that is closer to x than the radius, except with chance 2 exp(-2(w-1)e^2), and of two instances whose fractions differ by g the scores are in the wrong order with chance at most exp(-(w-1)g^2/2); the conformal probability of y is within e of the fraction of the population above y, except with chance 2 exp(-2we^2) (with all N draws kept: 2 exp(-2Ne^2)); the running average of scores between a and b is within e of their mean, except with chance 2 exp(-2we^2/(b-a)^2); the running median lies in every interval that holds a fraction 1/2+g of the population, except with chance exp(-2wg^2); and the HalfSpaceTrees score after a completed window, divided by -w, is within e of the mean similarity of x to the population in the drawn trees, except with chance 2 exp(-2we^2/(n(2^(D+1)-1))^2).", "quantifier": "all finite populations (with repetitions, so all rational distributions), all window sizes, radii, trees, earlier histories, instances and margins", "why_tests_cant": "A test sees single runs; how often a run may deviate, for every population and window size, is a statement about all sequences of draws.", "anchors": ["pysad/models/exact_storm.py::ExactStorm.score_partial", "pysad/models/half_space_trees.py::HalfSpaceTrees.score_partial", "pysad/transform/probability_calibration/conformal_prediction.py::ConformalProbabilityCalibrator.transform_partial", "pysad/transform/postprocessing/running_postprocessors.py::RunningAveragePostprocessor.transform_partial", "pysad/transform/postprocessing/running_postprocessors.py::RunningMedianPostprocessor.transform_partial"]}
{"id": "C171", "title": "A better detector is not rated lower", "statement": "If of two detectors the second scores every anomaly at least as high and every normal instance at most as high as the first, AUROC does not rate it lower; nor does AUPR; and if its decisions report every anomaly the first reports and no further normal instance, Precision and Recall do not rate it lower, over the whole stream or in windows.", "quantifier": "every stream of labels and every two lists of scores (or decisions)", "why_tests_cant": "Ties, empty classes and dropped points of the curves combine in endlessly many ways; a test compares a few pairs of detectors.", "anchors": ["pysad/evaluation/metrics.py:AUROCMetric", "pysad/evaluation/metrics.py:AUPRMetric", "pysad/evaluation/metrics.py:PrecisionMetric", "pysad/evaluation/metrics.py:RecallMetric"]}
{"id": "C172", "title": "An ensemble is not rated below all of its detectors", "statement": "Combining the scores of several detectors (average, weighted average, maximum or median) gives scores whose AUROC is at least that of the worst of the detectors; and if every detector gets better, the ensemble is not rated lower.", "quantifier": "every number of detectors, every labelled stream with both classes and every table of scores", "why_tests_cant": "The rating of the combination depends on every pair of instances and every detector at once; a test tries a few score tables.", "anchors": ["pysad/transform/ensemble/ensemblers.py:AverageScoreEnsembler", "pysad/transform/ensemble/ensemblers.py:MaximumScoreEnsembler", "pysad/transform/ensemble/ensemblers.py:MedianScoreEnsembler", "pysad/evaluation/metrics.py:AUROCMetric"]}
{"id": "C173", "title": "An interrupted update is either done or not done", "statement": "If an update of a statistic or a window is interrupted between two of its statements (KeyboardInterrupt, an exception in a signal handler), the object afterwards answers as if the interrupted call had either taken place or not; the same describes what another thread reads while an update is running.", "quantifier": "every history of calls, every set of interrupted calls and every point of interruption, everything that follows", "why_tests_cant": "An interruption can hit any statement of any call; tests run calls to their end.", "anchors": ["pysad/statistics/average_meter.py:AverageMeter", "pysad/statistics/sum_meter.py:SumMeter", "pysad/statistics/count_meter.py:CountMeter", "pysad/statistics/max_meter.py:MaxMeter", "pysad/statistics/median_meter.py:MedianMeter", "pysad/statistics/running_statistic.py:RunningStatistic", "pysad/utils/window.py:Window", "pysad/models/exact_storm.py:ExactStorm"]}
{"id": "C174", "title": "HalfSpaceTrees recovers from interrupted fits", "statement": "A HalfSpaceTrees detector some of whose fit_partial calls were interrupted between any two of their assignments (KeyboardInterrupt, a raising signal handler) is as good as new once 2 * window_size complete fits have followed the last interruption: from then on every instance gets the score it would get from a detector that was never interrupted and to which every interrupted fit either happened completely or did not happen at all. Before that the scores may be those of neither.", "quantifier": "all ranges of the features, window sizes >= 1, numbers of trees, depths, random generators, histories with any number of fits interrupted anywhere, later fits and scored instances", "why_tests_cant": "An interruption can fall between any two assignments of any call; tests do not interrupt calls.", "anchors": ["pysad/models/half_space_trees.py:HalfSpaceTrees"]}
{"id": "C175", "title": "xStream recovers from interrupted fits", "statement": "An xStream detector some of whose fit_partial calls were interrupted between any two of their assignments (KeyboardInterrupt, a raising signal handler) is as good as new once 3 * window_size complete fits have followed the last interruption: from then on every instance gets the score it would get from a detector that was never interrupted and to which every interrupted fit either happened completely or did not happen at all. Before that, even after 2 * window_size fits, the scores may be those of neither.", "quantifier": "all window sizes >= 1, projections, numbers and depths of chains, random draws, histories with any number of fits interrupted anywhere, later fits and scored instances", "why_tests_cant": "An interruption can fall between any two assignments of any call; tests do not interrupt calls.", "anchors": ["pysad/models/xstream.py:xStream"]}
{"id": "C176", "title": "RSHash forgets interrupted fits at the rate of its decay", "statement": "If some fit_partial calls of an RSHash detector were interrupted between any two of their assignments (KeyboardInterrupt, a raising signal handler) and n >= 1 complete fits follow, the score is not below the score of a detector that was never interrupted and to which every interrupted fit either happened completely or did not happen at all, and above it by at most 2^(-decay*(n-1)) for every interruption. It need never become exactly the score of such a detector.", "quantifier": "all components, decay rates >= 0, numbers of sketches >= 1, histories with any number of fits interrupted anywhere and later fits", "why_tests_cant": "An interruption can fall between any two assignments of any call; tests do not interrupt calls.", "anchors": ["pysad/models/rs_hash.py:RSHash"]}
{"id": "C177", "title": "An interrupted object recovers after enough complete calls", "statement": "If some updates of a statistic, a window or a simple detector were interrupted between two of their statements (KeyboardInterrupt, a raising signal handler), then after enough further complete updates the object again answers like one that was never interrupted and to which every interrupted call either happened completely or did not happen at all.", "quantifier": "all histories with any number of calls interrupted anywhere, and all continuations that are long enough", "why_tests_cant": "An interruption can fall between any two statements of any call, and what it leaves behind must be followed over unboundedly many later calls.", "anchors": ["pysad/statistics/average_meter.py:AverageMeter", "pysad/statistics/variance_meter.py:VarianceMeter", "pysad/statistics/median_meter.py:MedianMeter", "pysad/statistics/running_statistic.py:RunningStatistic", "pysad/utils/window.py:Window", "pysad/models/exact_storm.py:ExactStorm", "pysad/models/standard_absolute_deviation.py:StandardAbsoluteDeviation"]}
{"id": "C178", "title": "An instance with a wrong number of features is rejected", "statement": "Once a detector has been built for, or fitted with, instances of n features, fit_partial and score_partial raise an exception for an instance with another number of features; detectors of single numbers raise for anything but one number.", "quantifier": "all histories of calls, all numbers of features, all instances of another length", "why_tests_cant": "A test feeds a few streams; the claim is about every finite history, including every length, repetition and ordering.", "anchors": ["pysad/models/half_space_trees.py:HalfSpaceTrees", "pysad/models/loda.py:LODA", "pysad/models/exact_storm.py:ExactStorm", "pysad/models/rs_hash.py:RSHash", "pysad/models/xstream.py:xStream", "pysad/models/knn_cad.py:KNNCAD", "pysad/models/standard_absolute_deviation.py:StandardAbsoluteDeviation", "pysad/models/median_absolute_deviation.py:MedianAbsoluteDeviation", "pysad/models/seasonal_esd.py:SeasonalESD", "pysad/models/kitnet.py:KitNet", "pysad/models/inqmad.py:Inqmad"]}
{"id": "C179", "title": "Postprocessors and calibrators may be asked at any time", "statement": "However the calls of fit_partial and transform_partial on a postprocessor or a probability calibrator are mixed - asked before the first fit, several times in a row, or only after many fits - no fit fails and transform_partial answers with a number, determined by the scores fitted so far and the score it is asked about.", "quantifier": "every postprocessor and calibrator class, every window size, every sequence of fit_partial and transform_partial calls with any scores", "why_tests_cant": "A test feeds a few streams; the claim is about every finite history, including every length, repetition and ordering.", "anchors": ["pysad/transform/postprocessing/postprocessors.py:AveragePostprocessor", "pysad/transform/postprocessing/postprocessors.py:MaxPostprocessor", "pysad/transform/postprocessing/postprocessors.py:MedianPostprocessor", "pysad/transform/postprocessing/postprocessors.py:ZScorePostprocessor", "pysad/transform/postprocessing/running_postprocessors.py:RunningZScorePostprocessor", "pysad/transform/probability_calibration/conformal_prediction.py:ConformalProbabilityCalibrator", "pysad/transform/probability_calibration/gaussian_tail.py:GaussianTailProbabilityCalibrator"]}
{"id": "C180", "title": "Labels do not leak into the scores", "statement": "For every detector except PerfectModel (which returns the labels by design): two streams of calls that differ only in the labels given to fit_partial - other labels, some or all missing - get the same answers, call by call; ReferenceWindowModel if the detector it wraps is unsupervised.", "quantifier": "every detector, every sequence of fit_partial and score_partial calls, every assignment of labels or None to the fits", "why_tests_cant": "A test feeds a few streams; the claim is about every finite history, including every length, repetition and ordering.", "anchors": ["pysad/models/exact_storm.py:ExactStorm", "pysad/models/half_space_trees.py:HalfSpaceTrees", "pysad/models/xstream.py:xStream", "pysad/models/kitnet.py:KitNet", "pysad/models/integrations/reference_window_model.py:ReferenceWindowModel", "pysad/models/perfect_model.py:PerfectModel"]}
{"id": "C181", "title": "Reference-window detectors recover from interrupted fits", "statement": "If calls of fit_partial of a reference-window detector are interrupted (a KeyboardInterrupt, a raising signal handler), at whatever point, then after window_size + sliding_size further complete fits the detector in use is again trained on the window_size most recent instances, as of fewer than sliding_size fits ago, each with its own label, and scores.", "quantifier": "every batch detector, window and sliding size, every history of complete and interrupted fits with every crash point, labelled or not, with or without an initial window", "why_tests_cant": "An interruption can fall between any two of the stores of a call, and any number of calls may be interrupted; a test exercises none of them.", "anchors": ["pysad/models/integrations/reference_window_model.py:ReferenceWindowModel", "pysad/models/iforest_asd.py:IForestASD"]}
{"id": "C182", "title": "RobustRandomCutForest survives interrupted calls", "statement": "Whatever fit_partial and score_partial calls of RobustRandomCutForest were interrupted, and wherever: later complete calls of fit_partial do not raise, and score_partial does not raise once a fit was completed.", "quantifier": "Every number of trees and tree size >= 1, every tree library that inserts and forgets points as rrcf does, every history of complete calls and of calls interrupted after any number of stores, every instance.", "why_tests_cant": "An interruption can hit between any two calls into the tree library, at any moment of an unbounded history, and its effect may show much later; tests do not stop calls halfway.", "anchors": ["pysad/models/robust_random_cut_forest.py:RobustRandomCutForest"]}
{"id": "C183", "title": "A random projector works with its default arguments", "statement": "GaussianRandomProjector() and SparseRandomProjector() with the documented default num_components='auto' project every instance that has features.", "quantifier": "Every tolerance eps between 0 and 1, every random generator, every instance and data set.", "why_tests_cant": "The number of components scikit-learn derives for 'auto' depends on the number of rows it is given and on eps; a claim for all tolerances and instances needs an argument about the logarithm.", "anchors": ["pysad/transform/projection/random_projector.py:BaseSKLearnProjector.transform_partial", "pysad/core/base_transformer.py:BaseTransformer.transform"]}
{"id": "C184", "title": "Metrics survive interrupted updates", "statement": "Whatever update calls of a metric were interrupted, and wherever: get answers as if each interrupted update had either happened or not. For WindowedMetric: once the current window is over, every further window of complete updates contributes exactly the rating of its own labels and predictions to the average.", "quantifier": "Every metric function of scikit-learn that rejects label and prediction lists of different lengths, every window size >= 1, every history of complete updates and of updates interrupted after any number of stores.", "why_tests_cant": "An interruption can hit between any two stores, at any moment of an unbounded history, and its effect may only show windows later; tests do not stop calls halfway.", "anchors": ["pysad/evaluation/metrics.py:BaseSKLearnMetric", "pysad/evaluation/windowed_metric.py:WindowedMetric"]}
{"id": "C185", "title": "Updates by several threads are all counted", "statement": "If several threads call update on one object without a lock, then once all calls have returned the object reads as if the calls had been made one after the other in some order that keeps the order of each thread.", "quantifier": "CountMeter, AverageMeter, MaxMeter, Window, UnlimitedWindow and the metrics that wrap scikit-learn; every number of threads, every list of calls for each of them, every schedule that may switch threads between any two indivisible steps (load of an attribute, store, call of a method implemented in C).", "why_tests_cant": "The number of schedules is unbounded and the bad ones are rare; a test that runs threads sees only the schedules that happen to occur.", "anchors": ["pysad/statistics/count_meter.py:CountMeter", "pysad/statistics/average_meter.py:AverageMeter", "pysad/statistics/max_meter.py:MaxMeter", "pysad/utils/window.py:Window", "pysad/utils/window.py:UnlimitedWindow", "pysad/evaluation/metrics.py:BaseSKLearnMetric"]}
{"id": "C186", "title": "An object may be read while another thread updates it", "statement": "If one thread updates an object and other threads call get meanwhile, without a lock: each reader gets values that the object has after some beginning of the updates, in order, and the updates are not disturbed: once they are done the object is as if nobody had read it.", "quantifier": "CountMeter, SumMeter, AverageMeter, MaxMeter, MedianMeter and the metrics that wrap scikit-learn; every stream of updates, every number of readers and of reads, every schedule.", "why_tests_cant": "The number of schedules is unbounded and the bad ones are rare; a test that runs threads sees only the schedules that happen to occur.", "anchors": ["pysad/statistics/count_meter.py:CountMeter", "pysad/statistics/sum_meter.py:SumMeter", "pysad/statistics/average_meter.py:AverageMeter", "pysad/statistics/max_meter.py:MaxMeter", "pysad/statistics/median_meter.py:MedianMeter", "pysad/evaluation/metrics.py:BaseSKLearnMetric"]}
{"id": "C187", "title": "KNNCAD's alarms are rare, and possible after the probationary period", "statement": "An alarm of KNNCAD is a score of at least 0.9965. Among any consecutive scores of any history at most one in floor(P/5)+1 (rounded up) is an alarm. For every accepted probationary period P (at least 48) there is a stream that causes an alarm within the period that follows the probationary one (fewer than 2P instances fitted).", "quantifier": "All probationary periods of at least 48, all histories of fits and scores, all windows of consecutive scores, every matrix inverse function under which the zero matrix has none", "why_tests_cant": "A test feeds a few streams; the claim is about every finite history, including every length, repetition and ordering.", "anchors": ["pysad/models/knn_cad.py:KNNCAD"]}
{"id": "C188", "title": "A detector may be scored by one thread while another fits it", "statement": "While one thread calls fit_partial of a HalfSpaceTrees, RSHash or ExactStorm detector with one instance after the other, another thread may call score_partial. Every score it gets is that of the detector after some number of complete fits: no fewer than those that were complete when the call was begun, no more than those that were begun when it returned.", "quantifier": "every detector, every list of instances, every interleaving of the stores of the fitting thread with the loads of the scoring thread", "why_tests_cant": "A test sees the interleavings that the scheduler happened to choose; a torn score differs from the right one only in its value.", "anchors": ["pysad/models/half_space_trees.py:HalfSpaceTrees", "pysad/models/rs_hash.py:RSHash", "pysad/models/exact_storm.py:ExactStorm", "pysad/utils/window.py:Window"]}
{"id": "C189", "title": "The calibration example alerts about anomalous instances", "statement": "examples/example_probability_calibration.py prints 'Alert: i-th data point is anomalous' only about instances whose anomaly score is high: less than 5 percent of the last 300 scores (its own included) exceed it, as the comment on the test `calibrated_score > 0.95` says (If probability of being normal is less than 5%).", "quantifier": "every data set, every random seed and hash function of the xStream detector (and, for what is printed, every detector with numeric scores)", "why_tests_cant": "The script prints text and is never run by the tests; which instances are alerted depends on the order of all scores so far, and the failure shows only with data whose scores are compared with the alerts.", "anchors": ["examples/example_probability_calibration.py", "pysad/transform/probability_calibration/conformal_prediction.py:ConformalProbabilityCalibrator"]}
{"id": "C190", "title": "Mean and median agree up to one standard deviation", "statement": "Given the same values, AverageMeter and MedianMeter (alone or in a RunningStatistic) read numbers that are at most one standard deviation, as VarianceMeter reads it, apart. Therefore the two settings 'mean' and 'median' of StandardAbsoluteDeviation give every instance scores less than 1 apart.", "quantifier": "every nonempty list of values, every window size of at least one, both settings of absolute, every history of calls that fitted a value, every instance", "why_tests_cant": "The bound relates three statistics over all value lists; a test compares them on the lists it has.", "anchors": ["pysad/statistics/average_meter.py:AverageMeter", "pysad/statistics/median_meter.py:MedianMeter", "pysad/statistics/variance_meter.py:VarianceMeter", "pysad/statistics/running_statistic.py:RunningStatistic", "pysad/models/standard_absolute_deviation.py:StandardAbsoluteDeviation"]}
{"id": "C191", "title": "KNNCAD, RelativeEntropy, LODA and Inqmad survive interrupted fits", "statement": "Whatever fit_partial calls were interrupted between any two of their assignments (KeyboardInterrupt, a raising signal handler), and however many: the next complete fit does not raise, and after it score_partial answers. RelativeEntropy and Inqmad then answer as if every interrupted fit had either happened or not; LODA answers a finite number in its usual range.", "quantifier": "every history of complete fits and of fits interrupted anywhere, every probationary period, window size, number of bins and cuts, every random draw, every later instance", "why_tests_cant": "A test would have to interrupt every combination of calls at every assignment, with probationary periods of any length.", "anchors": ["pysad/models/knn_cad.py:KNNCAD", "pysad/models/relative_entropy.py:RelativeEntropy", "pysad/models/loda.py:LODA", "pysad/models/inqmad.py:Inqmad"]}
{"id": "C192", "title": "SeasonalTrendDecomposer recovers from interrupted calls", "statement": "If calls of a SeasonalTrendDecomposer are interrupted anywhere (KeyboardInterrupt, a signal handler that raises) and the caller carries on with it, then later calls do not raise, and the more complete fits follow the closer what transform_partial returns comes to what a new decomposer returns that has seen only the complete fits: the difference is at most 2(n+w)(hi-lo)/N after n earlier calls with values between lo and hi, where w is the trend window and N the number of later fits in the same phase.", "quantifier": "all season lengths and trend windows, all histories of fit_partial, transform_partial and fit_transform_partial calls each interrupted after any number of assignments or complete, all later complete calls, all values and numbers of features", "why_tests_cant": "the number of interruption points is unbounded and the effect of most of them shows only as a phase shift or a slightly wrong average many calls later", "anchors": ["pysad/transform/preprocessing/seasonal_trend_decomposer.py:SeasonalTrendDecomposer.fit_partial", "pysad/transform/preprocessing/seasonal_trend_decomposer.py:SeasonalTrendDecomposer._init_seasonal_state", "pysad/transform/preprocessing/seasonal_trend_decomposer.py:SeasonalTrendDecomposer.transform_partial"]}
{"id": "C193", "title": "KitNet survives interrupted fits", "statement": "When calls of KitNet.fit_partial are stopped part-way (a KeyboardInterrupt, a signal handler that raises) and the caller goes on, the detector recovers: none of the complete fits that follow raises, and after grace_feature_mapping + 2 of them score_partial returns numbers that are not negative.", "quantifier": "every configuration with a positive anomaly detector grace period, at least two features, every history of complete and interrupted fits, every point of interruption between two assignments, every continuation", "why_tests_cant": "Tests do not interrupt calls between two assignments, and the one bad moment lies within a single fit of the whole stream.", "anchors": ["pysad/models/kitnet.py:KitNet.fit_partial", "pysad/models/kitnet.py:KitNet.score_partial", "pysad/models/kitnet_model/KitNET.py:KitNET.train", "pysad/models/kitnet_model/KitNET.py:KitNET.__createAD__"]}
{"id": "C194", "title": "With enough data, what is computed from the whole stream converges to what it estimates", "statement": "When the values of a stream are independent draws from one distribution, then almost surely the readings converge as the stream goes on: AverageMeter to the expectation, VarianceMeter to the variance, MedianMeter to the median when there is only one; the z-score of any value to its standard score; ConformalProbabilityCalibrator(windowed=False) to the probability of a larger value; the scores of StandardAbsoluteDeviation and MedianAbsoluteDeviation to the distance from the mean or median of the distribution in units of its standard deviation or median absolute deviation (plus 1e-10), although MedianAbsoluteDeviation measures each past instance from the median of its day. The average of n values is off by e or more with a probability of at most variance / (n e^2).", "quantifier": "every distribution on the reals (with the moments or the unique median concerned), every value scored, every realisation but a set of probability zero", "why_tests_cant": "A test sees a finite part of one realisation; convergence and statements of probability concern infinite streams and all realisations.", "anchors": ["pysad/statistics/average_meter.py:AverageMeter", "pysad/statistics/variance_meter.py:VarianceMeter", "pysad/statistics/median_meter.py:MedianMeter", "pysad/transform/postprocessing/postprocessors.py:ZScorePostprocessor", "pysad/transform/probability_calibration/conformal_prediction.py:ConformalProbabilityCalibrator", "pysad/models/standard_absolute_deviation.py:StandardAbsoluteDeviation", "pysad/models/median_absolute_deviation.py:MedianAbsoluteDeviation", "examples/example_statistics.py"]}
{"id": "C195", "title": "Ratings and how rare the anomalies are", "statement": "If every normal instance of a labelled stream occurs k times instead of once, in whatever order, then AUROCMetric and RecallMetric report the same as before, PrecisionMetric reports a / (a + k (1 - a)) where it reported a, and AUPRMetric reports at most what it reported and at least a / (a + k (1 - a)). So AUROC and recall may be compared between data sets with different shares of anomalies, precision and AUPR may not.", "quantifier": "every stream of labels and scores or decisions with both classes (precision and recall: any), every k >= 1, every order of the instances, every linearly ordered field", "why_tests_cant": "A test compares ratings on one or two data sets; the claim relates the ratings of every stream to those of all its diluted versions.", "anchors": ["pysad/evaluation/metrics.py:AUROCMetric", "pysad/evaluation/metrics.py:AUPRMetric", "pysad/evaluation/metrics.py:PrecisionMetric", "pysad/evaluation/metrics.py:RecallMetric"]}
{"id": "C196", "title": "A stricter threshold", "statement": "For a user who reports the instances with a score of at least t, raising t never raises what RecallMetric reports nor the number of normal instances reported, and never lowers what PrecisionMetric reports as long as something is reported. With a threshold below all scores recall is 1 and precision the share of anomalies.", "quantifier": "every stream of labels and scores, every pair of thresholds", "why_tests_cant": "Tests try a few thresholds on a few streams.", "anchors": ["pysad/evaluation/metrics.py:PrecisionMetric", "pysad/evaluation/metrics.py:RecallMetric"]}
{"id": "C197", "title": "A stream that repeats itself", "statement": "On a stream that repeats itself every p instances: ExactStorm's score for a given instance depends, once its window is full, only on how many instances after a multiple of p the stream stands; if the window size is a multiple of p, HalfSpaceTrees (from the end of the first window on) and xStream (from the end of the second window on) never change the score of any instance again and RelativeEntropy always answers 0, whenever in the stream it is asked; KNNCAD with a probationary period of at least 27 p + 19 (and at least 48) answers 0 to everything once an instance was fitted. Instances scored in between make no difference.", "quantifier": "every periodic stream of any period, every number of instances fitted, every interleaving of scores, every configuration meeting the stated relation between window and period", "why_tests_cant": "Tests run a few periods of one stream; the claims are about every stream and all times.", "anchors": ["pysad/models/exact_storm.py:ExactStorm", "pysad/models/half_space_trees.py:HalfSpaceTrees", "pysad/models/xstream.py:xStream", "pysad/models/relative_entropy.py:RelativeEntropy", "pysad/models/knn_cad.py:KNNCAD"]}
{"id": "C198", "title": "Training on the same data several times", "statement": "Fitting the same data several times over (several epochs) gives the answers of fitting them once, whatever is scored in between: for the mean, variance, median, maximum and minimum, for StandardAbsoluteDeviation and ConformalProbabilityCalibrator without a window always; for ExactStorm, RelativeEntropy and the windowed calibrator if the data fill the window; for HalfSpaceTrees if they fill whole windows, for xStream if they fill at least two whole windows; ReferenceWindowModel is trained on the same instances and labels if the data fill the window and whole slides; MedianAbsoluteDeviation, RSHash and Inqmad keep their answers as well.", "quantifier": "every data set meeting the stated condition, every number of passes, every interleaving of scores", "why_tests_cant": "Tests fit one data set once or twice; the claim is about all data and any number of passes.", "anchors": ["pysad/statistics/median_meter.py:MedianMeter", "pysad/models/standard_absolute_deviation.py:StandardAbsoluteDeviation", "pysad/models/median_absolute_deviation.py:MedianAbsoluteDeviation", "pysad/models/exact_storm.py:ExactStorm", "pysad/models/half_space_trees.py:HalfSpaceTrees", "pysad/models/xstream.py:xStream", "pysad/models/relative_entropy.py:RelativeEntropy", "pysad/models/integrations/reference_window_model.py:ReferenceWindowModel", "pysad/transform/probability_calibration/conformal_prediction.py:ConformalProbabilityCalibrator", "pysad/models/rs_hash.py:RSHash", "pysad/models/inqmad.py:Inqmad"]}
{"id": "C199", "title": "The example for Inqmad rates a clear anomaly well", "statement": "For every draw of the random features: if the example script for Inqmad streams any number of equal normal instances followed by one anomaly that is less like them than they are like each other, then the area under the curve that it prints is at least 1/2.", "quantifier": "all random features, all numbers of normal instances, all normal instances and anomalies with nonzero features", "why_tests_cant": "The script's output is only looked at for one dataset and one seed; the claim is about the script as a whole (scaler, detector, smoothing and metric together) on all such streams.", "anchors": ["examples/example_usage_inqmad.py", "pysad/models/inqmad.py:Inqmad.score_partial", "pysad/models/inqmad.py:Inqmad.fit_partial"]}
{"id": "C200", "title": "The example for PyOD scores every instance by a model of recent data", "statement": "For every PyOD detector that can be trained on nonempty data and all data with more than 100 rows: the example script's model is constructed and scores all rows after the first 100, and the score of each row is the decision of a detector trained on the last at most 240 rows as they were at most 29 rows ago.", "quantifier": "all detector classes, all data with more than 100 rows, all random states", "why_tests_cant": "The windows depend on the number of rows so far, and the script checks nothing but its final rating.", "anchors": ["examples/example_pyod_integration.py", "pysad/models/integrations/reference_window_model.py:ReferenceWindowModel.fit_partial"]}
{"id": "C201", "title": "The statistics example prints the mean and the standard deviation", "statement": "For every nonempty list of numbers in place of its random ones, the example script for the statistics prints their mean and the square root of their mean squared deviation from it.", "quantifier": "all nonempty lists of numbers", "why_tests_cant": "The script draws random numbers and compares them with nothing.", "anchors": ["examples/example_statistics.py", "pysad/statistics/average_meter.py:AverageMeter.update", "pysad/statistics/variance_meter.py:VarianceMeter.update"]}
{"id": "C202", "title": "Which way a scale points does not matter", "statement": "If all features of a stream are negated (for instance, a distance is recorded as a height), a detector gives the same scores: MedianAbsoluteDeviation, StandardAbsoluteDeviation (with the opposite signs if absolute values are switched off), ExactStorm, KNNCAD, and Inqmad, LODA and HalfSpaceTrees when their random draws are negated or exchanged accordingly, RelativeEntropy when its range is reversed, and SeasonalESD and SeasonalHybridESD when the decomposition finds the mirrored season in the mirrored values.", "quantifier": "all sequences of calls, all values, all parameters, all random draws", "why_tests_cant": "It relates two runs on different streams; a wrong sign or an asymmetric border shows only for particular values.", "anchors": ["pysad/models/median_absolute_deviation.py:MedianAbsoluteDeviation.score_partial", "pysad/models/standard_absolute_deviation.py:StandardAbsoluteDeviation.score_partial", "pysad/models/exact_storm.py:ExactStorm.score_partial", "pysad/models/knn_cad.py:KNNCAD.score_partial", "pysad/models/loda.py:LODA.score_partial", "pysad/models/half_space_trees.py:HalfSpaceTrees.score_partial", "pysad/models/relative_entropy.py:RelativeEntropy.score_partial", "pysad/models/seasonal_esd.py:SeasonalESD.score_partial", "pysad/models/seasonal_esd.py:SeasonalHybridESD"]}
{"id": "C203", "title": "fix_seed makes an experiment reproducible", "statement": "Two processes with arbitrarily different histories that both call fix_seed with the same seed between 0 and 2^32 - 1 and then run the same program (constructing streams, detectors and transforms and calling them, deciding what to do next from the answers) see the same answers, errors included. Any other int is rejected with a ValueError.", "quantifier": "every seed, every state of Python's and numpy's generators before, every set of objects that already exist, every program and every number of actions, every class that draws from the two generators in its constructor or its methods", "why_tests_cant": "A test compares two runs of one script in a fresh interpreter; reproducibility is a statement about every history before the seeding and every program after it.", "anchors": ["pysad/utils/__init__.py:fix_seed"]}
{"id": "C204", "title": "Reading a data set does not change what a detector answers", "statement": "Asking Data.get_iterator for an iterator, with or without shuffling and with or without a seed, and taking items from it, changes no answer of a detector that lives in the same process.", "quantifier": "every data set, every interleaving of asking for iterators, advancing them and calling the detector, every seed and every state of the generator", "why_tests_cant": "The seed is documented as belonging to the iterator, but it is given to numpy's global generator; whether that is visible depends on when iterators are asked for and advanced relative to the calls of the detector.", "anchors": ["pysad/utils/data.py:Data.get_iterator", "pysad/utils/array_streamer.py:ArrayStreamer.iter", "pysad/models/random_model.py:RandomModel.score_partial"]}
{"id": "C205", "title": "Statistics of values in other units", "statement": "If all values given to a statistic are converted by x -> a x + b (kilometres to miles, Celsius to Fahrenheit, or with a sign change), the mean and the median are converted in the same way, the variance is multiplied by a^2, the count stays, and maximum and minimum are converted or, if a is negative, converted and exchanged; sum and sum of squares are multiplied by a and a^2 if b = 0. The same calls raise the same errors. The same holds for the windowed statistics.", "quantifier": "every history of update, remove and get, also those that remove values that are not present; every window size and every stream; every a (not 0 for the median and the extremes) and b", "why_tests_cant": "The conversion has to commute with every sequence of calls, including removals and errors.", "anchors": ["pysad/statistics/average_meter.py:AverageMeter", "pysad/statistics/variance_meter.py:VarianceMeter", "pysad/statistics/median_meter.py:MedianMeter", "pysad/statistics/max_meter.py:MaxMeter", "pysad/statistics/min_meter.py:MinMeter", "pysad/statistics/running_statistic.py:RunningStatistic"]}
{"id": "C206", "title": "Broken detectors in an ensemble", "statement": "If fewer than half of the detectors of an ensemble are broken and give arbitrary scores, the ensemble neither overlooks an instance to which all others give a score of at least t (its score is at least t) nor raises a false alarm about one to which all others give at most t.", "quantifier": "every ensembler, number of detectors and of broken ones, every score vector and threshold, every shuffle of the bucket methods", "why_tests_cant": "Which detectors are broken and what they say is arbitrary; a test picks some scores.", "anchors": ["pysad/transform/ensemble/ensemblers.py:AverageScoreEnsembler", "pysad/transform/ensemble/ensemblers.py:MaximumScoreEnsembler", "pysad/transform/ensemble/ensemblers.py:MedianScoreEnsembler", "pysad/transform/ensemble/ensemblers.py:AverageOfMaximumScoreEnsembler", "pysad/transform/ensemble/ensemblers.py:MaximumOfAverageScoreEnsembler"]}
{"id": "C207", "title": "An extraordinary instance fades from the seasonal decomposition", "statement": "Take two SeasonalTrendDecomposer objects with season length s and trend window w that fitted the same instances except for one, a in the one and a' in the other. Once w further instances were fitted, what transform_partial (and fit_transform_partial) returns differs in feature i by at most (1 - 1/w) |a_i - a'_i|, and by at most that over n after n whole seasons with a full trend window; so for every eps > 0 there is a number of further instances after which the difference is at most eps |a_i - a'_i|. Features in which a and a' agree are not affected, nor is anything if w = 1. With the default window w = s >= 2 the difference never vanishes entirely: a whole number of seasons later, the returned values are equal in feature i only if a_i = a'_i.", "quantifier": "all season lengths and windows, all histories of calls, all positions of the instance, all instances", "why_tests_cant": "the trend and the mean of the phase react in opposite directions over a window of calls; a test compares a few calls after one outlier", "anchors": ["pysad/transform/preprocessing/seasonal_trend_decomposer.py:SeasonalTrendDecomposer.fit_partial", "pysad/transform/preprocessing/seasonal_trend_decomposer.py:SeasonalTrendDecomposer.transform_partial", "pysad/transform/preprocessing/seasonal_trend_decomposer.py:SeasonalTrendDecomposer.fit_transform_partial"]}
{"id": "C208", "title": "SeasonalTrendDecomposer rejects instances of a wrong length without a trace", "statement": "Once a SeasonalTrendDecomposer has fitted an instance with d features, every call with another number of features raises an exception, and all later answers to calls with d features are those of the same history without the rejected call.", "quantifier": "all season lengths, trend windows and numbers of features, all histories of calls before and after the rejected one", "why_tests_cant": "a test tries one wrong instance and looks for the exception; what is damaged shows in the calls after it, and in the season phases long after", "anchors": ["pysad/transform/preprocessing/seasonal_trend_decomposer.py:SeasonalTrendDecomposer.fit_partial", "pysad/transform/preprocessing/seasonal_trend_decomposer.py:SeasonalTrendDecomposer.transform_partial", "pysad/transform/preprocessing/seasonal_trend_decomposer.py:SeasonalTrendDecomposer.fit_transform_partial"]}
{"id": "C209", "title": "A season with a linear drift leaves no residual", "statement": "If the instances follow a pattern that repeats after s instances, on top of a linear drift (feature i is s a_i higher one season later), and the trend window w is a multiple of the season length s, then, as soon as the window is full, SeasonalTrendDecomposer.fit_transform_partial returns 0 for an instance that follows the stream, and (1 - 1/w)(1 - 1/k) e for one that deviates from it by e, if it is the k-th instance in its phase since the window is full; one season later transform_partial returns the deviation of its argument from the next instance of the stream plus the drift a_i of one instance. So in the first season with a full window every instance whatsoever gets 0, and from then on (w at least 2) only the instances that follow the stream do.", "quantifier": "all season lengths, windows of whole seasons, numbers of features, patterns, slopes and deviations, all histories of calls that fitted the stream so far, with transform_partial calls anywhere", "why_tests_cant": "tests use one pattern and mostly no drift; that a deviation keeps all but a known factor of its size is a claim about all of them", "anchors": ["pysad/transform/preprocessing/seasonal_trend_decomposer.py: SeasonalTrendDecomposer.fit_transform_partial, transform_partial, fit_partial"]}
{"id": "C210", "title": "RelativeEntropy reports values where there were none before", "statement": "Divide (min_val, max_val] into n_bins >= 2 equal parts, and let the first window_size values lie in that range. Once window_size values have been fitted, score_partial returns -1 whenever one of the last window_size values lies outside the range, or in a part in which none of the first window_size values lies. If instead the last window has as many values in each part as the first one, and the threshold is positive, it returns 0.", "quantifier": "all ranges, numbers of bins, window sizes, thresholds, streams, and interleavings of fit and score calls", "why_tests_cant": "the claim concerns every stream and every bin, including the outermost; a test picks values well inside the range and never sees which bins are shared or not counted", "anchors": ["pysad/models/relative_entropy.py:RelativeEntropy.fit_partial", "pysad/models/relative_entropy.py:RelativeEntropy.score_partial", "pysad/models/relative_entropy.py:RelativeEntropy._get_agreement_hypothesis"]}
{"id": "C211", "title": "How RelativeEntropy answers a stream that stays in one place", "statement": "Divide (min_val, max_val] into n_bins >= 2 equal parts, the two topmost counting as one, and let the first window_size values lie in that range. If the last window_size values all lie in one part, and c of the first window_size values lie in that part, score_partial returns -1 if c = 0; otherwise it returns 0 if 2 * window_size * ln(window_size / c) is below the chi-squared threshold, and -1 if it is not. In particular a stream that stays in the part of its first window is not reported, with a positive threshold.", "quantifier": "all ranges, numbers of bins, window sizes, thresholds, streams, and interleavings of fit and score calls", "why_tests_cant": "it fixes the answer for every first window and every part of the range; a test compares two particular windows", "anchors": ["pysad/models/relative_entropy.py:RelativeEntropy.fit_partial", "pysad/models/relative_entropy.py:RelativeEntropy.score_partial", "pysad/models/relative_entropy.py:RelativeEntropy._get_agreement_hypothesis"]}
{"id": "C212", "title": "How large a change RelativeEntropy reports", "statement": "Divide (min_val, max_val] into n_bins >= 2 equal parts, the two topmost counting as one, let the first and the last window_size values lie in that range, and let T be the chi-squared threshold. If the counts of the two windows differ by d in total over the parts, and d^2 >= window_size * T, score_partial returns -1. If no part is filled now that was empty in the first window, and the sum over the parts of (now - before)^2 / before is below T / 2, it returns 0.", "quantifier": "all ranges, numbers of bins, window sizes, thresholds, streams, and interleavings of fit and score calls", "why_tests_cant": "it bounds the sensitivity of the test for every pair of windows; tests try single pairs", "anchors": ["pysad/models/relative_entropy.py:RelativeEntropy.fit_partial", "pysad/models/relative_entropy.py:RelativeEntropy.score_partial", "pysad/models/relative_entropy.py:RelativeEntropy._get_agreement_hypothesis"]}
{"id": "C213", "title": "RelativeEntropy does not report the values it started with", "statement": "When the last window_size values are those of the first window, in whatever order, score_partial returns 0: such a window agrees with the null hypothesis.", "quantifier": "all ranges, numbers of bins and window sizes that the constructor accepts, all streams, and all interleavings of fit and score calls", "why_tests_cant": "whether the answer is 0 depends on the number of bins and on where the values lie; tests use the values inside the range and several bins", "anchors": ["pysad/models/relative_entropy.py:RelativeEntropy.__init__", "pysad/models/relative_entropy.py:RelativeEntropy.score_partial", "pysad/models/relative_entropy.py:RelativeEntropy._get_agreement_hypothesis"]}
{"id": "C214", "title": "How many values may change before RelativeEntropy reports it", "statement": "Divide (min_val, max_val] into n_bins >= 2 equal parts, the two topmost counting as one, let the first and the last window_size values lie in that range, and let T be the chi-squared threshold. If the last window_size values are those of the first window with at most k exchanged for others, in any order, no part is filled that was empty in the first window, every other part held at least m values in it, and 4 * k^2 < m * T, score_partial returns 0. If some part now holds k values more, or k values fewer, than in the first window, and 4 * k^2 >= window_size * T, it returns -1.", "quantifier": "all ranges, numbers of bins, window sizes, thresholds, streams, and interleavings of fit and score calls", "why_tests_cant": "it says how many outliers the detector tolerates and how many it cannot overlook, for every pair of windows; tests try single streams", "anchors": ["pysad/models/relative_entropy.py:RelativeEntropy.fit_partial", "pysad/models/relative_entropy.py:RelativeEntropy.score_partial", "pysad/models/relative_entropy.py:RelativeEntropy._get_agreement_hypothesis"]}
{"id": "C215", "title": "How often RelativeEntropy reports a change where there is none", "statement": "The threshold is the 0.99 point of a chi-squared distribution: if all values of a stream are drawn independently from one distribution inside the range, the second window of window_size values is reported as a change (score -1) with probability at most 1/100, whatever the distribution.", "quantifier": "all ranges, all num_bins >= 2, all window sizes, all finite distributions with equally likely values (which may coincide) inside the range", "why_tests_cant": "it is about the probability over all streams, for every distribution; a test sees a few streams", "anchors": ["pysad/models/relative_entropy.py:RelativeEntropy.__init__", "pysad/models/relative_entropy.py:RelativeEntropy.fit_partial", "pysad/models/relative_entropy.py:RelativeEntropy.score_partial", "pysad/models/relative_entropy.py:RelativeEntropy._get_agreement_hypothesis"]}
{"id": "C216", "title": "What RelativeEntropy can report with a small window", "statement": "Divide (min_val, max_val] into n_bins >= 2 equal parts, the two topmost counting as one, let the first and the last window_size values lie in that range, and let T be the chi-squared threshold. If 2 * window_size * ln(window_size) < T, score_partial returns -1 if one of the last window_size values lies in a part that was empty in the first window, and 0 otherwise, however the frequencies of the other parts change. If 2 * window_size * ln(window_size) >= T, n_bins >= 3 and window_size >= 2, there is a stream inside the range that is reported although it fills no such part.", "quantifier": "all ranges, numbers of bins, window sizes, thresholds, streams, and interleavings of fit and score calls", "why_tests_cant": "that no change of the frequencies whatsoever is reported is a claim about all pairs of windows; a test tries some", "anchors": ["pysad/models/relative_entropy.py:RelativeEntropy.fit_partial", "pysad/models/relative_entropy.py:RelativeEntropy.score_partial", "pysad/models/relative_entropy.py:RelativeEntropy._get_agreement_hypothesis"]}
