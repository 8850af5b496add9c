{
 "claims": [
  {
   "property": "C01",
   "status": "proved",
   "theorems": [
    "Pysad.C01_window_last",
    "Pysad.C01_window_positions",
    "Pysad.C01_window_bounded"
   ],
   "note": "Every item type, size and history."
  },
  {
   "property": "C02",
   "status": "proved",
   "theorems": [
    "Pysad.C02_unlimited_all"
   ],
   "note": "Every item type and history."
  },
  {
   "property": "C03",
   "status": "partial",
   "theorems": [
    "Pysad.C03_snapshot_refuted",
    "Pysad.C03_snapshot_partial"
   ],
   "note": "The property is false of the code: the returned list is the live one (refuted with a witness). The partial theorem gives the exact contents of a snapshot after any later updates."
  },
  {
   "property": "C04",
   "status": "proved",
   "theorems": [
    "Pysad.C04_count",
    "Pysad.C04_sum",
    "Pysad.C04_sumSquares"
   ],
   "note": "Exact arithmetic, every linearly ordered field; every legal history."
  },
  {
   "property": "C05",
   "status": "proved",
   "theorems": [
    "Pysad.C05_average"
   ],
   "note": "Exact arithmetic; includes the ZeroDivisionError branch."
  },
  {
   "property": "C06",
   "status": "proved",
   "theorems": [
    "Pysad.C06_variance",
    "Pysad.C06_variance_nonneg"
   ],
   "note": "Exact arithmetic; value, nonnegativity and zero case."
  },
  {
   "property": "C07",
   "status": "proved",
   "theorems": [
    "Pysad.C07_max"
   ],
   "note": "Every linear order, every history including illegal removes."
  },
  {
   "property": "C08",
   "status": "proved",
   "theorems": [
    "Pysad.C08_min"
   ],
   "note": "Every linear order, every history including illegal removes."
  },
  {
   "property": "C09",
   "status": "proved",
   "theorems": [
    "Pysad.C09_median",
    "Pysad.C09_median_halves",
    "Pysad.C09_median_exists"
   ],
   "note": "Every history including reads and illegal removes; the median specification is itself characterised."
  },
  {
   "property": "C10",
   "status": "proved",
   "theorems": [
    "Pysad.C10_remove_undoes_update"
   ],
   "note": "All eight meters, exact arithmetic."
  },
  {
   "property": "C11",
   "status": "proved",
   "theorems": [
    "Pysad.C11_order_irrelevant"
   ],
   "note": "All eight meters, exact arithmetic."
  },
  {
   "property": "C12",
   "status": "proved",
   "theorems": [
    "Pysad.C12_running_is_windowed"
   ],
   "note": "All eight meters, exact arithmetic, every window size and stream."
  },
  {
   "property": "C13",
   "status": "proved",
   "theorems": [
    "Pysad.C13_abs"
   ],
   "note": "Every wrapped statistic and history."
  },
  {
   "property": "C14",
   "status": "proved",
   "theorems": [
    "Pysad.C14_reads_harmless"
   ],
   "note": "All eight meters, every history."
  },
  {
   "property": "C15",
   "status": "partial",
   "theorems": [
    "Pysad.C15_drift_refuted",
    "Pysad.C15_drift_witness",
    "Pysad.C15_no_drift_partial",
    "Pysad.C15_drift_bound_partial",
    "Pysad.C15_average_integers_partial",
    "Pysad.C15_average_drift_partial"
   ],
   "note": "False in doubles: refuted with 1e16, 1 and window 1, for the sum and the average. Partial: on bounded integer streams sums are exact and averages the nearest double to the mean; and for every stream of doubles bounded by M (no overflow), after T updates the sum is off by at most (w+1)*M*((1+2^-53)^(2T)-1) and the average of c values by at most (w+1)/c*M*((1+2^-53)^(2T+1)-1)."
  },
  {
   "property": "C16",
   "status": "partial",
   "theorems": [
    "Pysad.C16_variance_refuted",
    "Pysad.C16_variance_partial",
    "Pysad.C16_variance_integers_partial",
    "Pysad.C16_variance_error_partial"
   ],
   "note": "False in doubles: three times 0.1 gives a negative variance. Partial: holds in exact arithmetic, and in doubles for bounded integer streams. Also partial: the error is at most 2 M^2 ((1+2^-53)^(2n+4) - 1) for every stream of n <= 2^53 doubles of absolute value at most M."
  },
  {
   "property": "C17",
   "status": "proved",
   "theorems": [
    "Pysad.C17_fit_in_order"
   ],
   "note": "Every model given as a state machine with exceptions."
  },
  {
   "property": "C18",
   "status": "proved",
   "theorems": [
    "Pysad.C18_fit_score_in_order",
    "Pysad.C18_score_in_order",
    "Pysad.C18_fit_score_positions"
   ],
   "note": "Every model; also stated position by position."
  },
  {
   "property": "C19",
   "status": "proved",
   "theorems": [
    "Pysad.C19_chunks_labelled",
    "Pysad.C19_chunks_unlabelled"
   ],
   "note": "Every model, labelled and unlabelled; fit, fit_score, score."
  },
  {
   "property": "C20",
   "status": "proved",
   "theorems": [
    "Pysad.C20_causal",
    "Pysad.C20_causal_failure",
    "Pysad.C20_causal_unlabelled",
    "Pysad.C20_causal_failure_labelled"
   ],
   "note": "Every model, including the case of an exception."
  },
  {
   "property": "C21",
   "status": "proved",
   "theorems": [
    "Pysad.C21_mismatch_rejected"
   ],
   "note": "Every model and mismatch."
  },
  {
   "property": "C22",
   "status": "proved",
   "theorems": [
    "Pysad.C22_postprocessor_in_order",
    "Pysad.C22_postprocessor_length"
   ],
   "note": "Every postprocessor."
  },
  {
   "property": "C23",
   "status": "partial",
   "theorems": [
    "Pysad.C23_transformer_fit_refuted",
    "Pysad.C23_transformer_fit_partial"
   ],
   "note": "False in general: fit passes (x, None). Partial: holds for transformers that unwrap or ignore the tuple, and for transform/fit_transform always."
  },
  {
   "property": "C24",
   "status": "partial",
   "theorems": [
    "Pysad.C24_storm",
    "Pysad.C24_null",
    "Pysad.C24_hst",
    "Pysad.C24_xstream",
    "Pysad.C24_rshash",
    "Pysad.C24_loda",
    "Pysad.C24_relent",
    "Pysad.C24_sesd",
    "Pysad.C24_refwindow",
    "Pysad.C24_onefit",
    "Pysad.C24_knncad_refuted",
    "Pysad.C24_knncad_partial",
    "Pysad.C24_mad",
    "Pysad.C24_sad_mean",
    "Pysad.C24_sad_median",
    "Pysad.C24_kitnet",
    "Pysad.C24_perfect_refuted",
    "Pysad.C24_inqmad_refuted"
   ],
   "note": "Proved for ExactStorm, HalfSpaceTrees, xStream, RSHash, LODA, RelativeEntropy, SeasonalESD, ReferenceWindowModel/IForestASD, OneFitModel, NullModel (answers and state), and for MAD, SAD and KitNet (answers; their scoring re-sorts or counts internally), every history and placement. False of KNNCAD (score calls run its cool-down), PerfectModel (needs alternating calls) and Inqmad (the first score freezes the density): each refuted. Partial for KNNCAD: everything learnt is unaffected and answers differ only by the 1/2 of a cool-down."
  },
  {
   "property": "C25",
   "status": "proved",
   "theorems": [
    "Pysad.C25_unshuffled_order"
   ],
   "note": "Every dataset."
  },
  {
   "property": "C26",
   "status": "proved",
   "theorems": [
    "Pysad.C26_shuffled_perm",
    "Pysad.C26_mismatch"
   ],
   "note": "Every rearrangement produced by the RNG."
  },
  {
   "property": "C27",
   "status": "proved",
   "theorems": [
    "Pysad.C27_pandas_agrees"
   ],
   "note": "Every frame and order of visit."
  },
  {
   "property": "C28",
   "status": "partial",
   "theorems": [
    "Pysad.C28_txt_split_refuted",
    "Pysad.C28_txt_split_partial",
    "Pysad.C28_txt_small_rejected"
   ],
   "note": "False for tables with one row or one column, which raise IndexError (refuted, and rejection proved). Partial: lossless for all others."
  },
  {
   "property": "C29",
   "status": "partial",
   "theorems": [
    "Pysad.C29_seed_refuted",
    "Pysad.C29_seed_partial"
   ],
   "note": "False if the RNG is used between the call and the iteration. Partial: holds otherwise."
  },
  {
   "property": "C30",
   "status": "proved",
   "theorems": [
    "Pysad.C30_windowed_metric"
   ],
   "note": "Every metric class that reports a function of its history, every stream, window size and flag; exact arithmetic."
  },
  {
   "property": "C31",
   "status": "partial",
   "theorems": [
    "Pysad.C31_kwargs_refuted",
    "Pysad.C31_kwargs_partial"
   ],
   "note": "False: windows after the first are built without kwargs (refuted). Partial: exact description of which window uses which arguments."
  },
  {
   "property": "C32",
   "status": "partial",
   "theorems": [
    "Pysad.C32_recovery_refuted",
    "Pysad.C32_recovery_partial",
    "Pysad.C32_counted_partial",
    "Pysad.C32_boundary_partial"
   ],
   "note": "False: after a raising update the first window is counted twice when the last window is not ignored (AUROC witness). Partial: holds for ignore_nonempty_last=True, and for False at the end of a window; in the middle of a window the average over the completed windows is counted once per window that ended, rated or not, so the value is right exactly when no window failed or the current value equals that average."
  },
  {
   "property": "C33",
   "status": "proved",
   "theorems": [
    "Pysad.C33_history",
    "Pysad.C33_auroc_raises",
    "Pysad.C33_precision",
    "Pysad.C33_recall",
    "Pysad.C33_reported",
    "Pysad.C33_auroc_range",
    "Pysad.C33_auroc_invariant"
   ],
   "note": "History and exceptions for any wrapped function; values for precision, recall and AUROC, whose sklearn implementations are modelled by their definitions."
  },
  {
   "property": "C34",
   "status": "proved",
   "theorems": [
    "Pysad.C34_average",
    "Pysad.C34_max",
    "Pysad.C34_median"
   ],
   "note": "Exact arithmetic, every stream and position."
  },
  {
   "property": "C35",
   "status": "proved",
   "theorems": [
    "Pysad.C35_average",
    "Pysad.C35_max",
    "Pysad.C35_median"
   ],
   "note": "Exact arithmetic, every stream, window size and position."
  },
  {
   "property": "C36",
   "status": "proved",
   "theorems": [
    "Pysad.C36_zscore",
    "Pysad.C36_running_zscore",
    "Pysad.C36_transform",
    "Pysad.C36_transform_cases",
    "Pysad.C36_affine",
    "Pysad.C36_running_affine"
   ],
   "note": "Over the reals, including the nan case when the scores do not vary, and affine invariance."
  },
  {
   "property": "C37",
   "status": "proved",
   "theorems": [
    "Pysad.C37_conformal",
    "Pysad.C37_probability",
    "Pysad.C37_antitone",
    "Pysad.C37_empty"
   ],
   "note": "Value, range, monotonicity, and nan when nothing is retained."
  },
  {
   "property": "C38",
   "status": "proved",
   "theorems": [
    "Pysad.C38_running",
    "Pysad.C38_plain",
    "Pysad.C38_value"
   ],
   "note": "Both constructor modes, any erfc-like function, and the real erfc."
  },
  {
   "property": "C39",
   "status": "partial",
   "theorems": [
    "Pysad.C39_window_size_ignored_refuted",
    "Pysad.C39_value_partial",
    "Pysad.C39_agree_iff_partial",
    "Pysad.C39_window_size_ignored_partial"
   ],
   "note": "False: the variance still uses window_size (refuted). Partial: the exact value (C39_value_partial), two window sizes agree exactly if the deviations of the two windows agree (C39_agree_iff_partial), in particular while the history fits both windows."
  },
  {
   "property": "C40",
   "status": "proved",
   "theorems": [
    "Pysad.C40_average",
    "Pysad.C40_maximum",
    "Pysad.C40_median",
    "Pysad.C40_values",
    "Pysad.C40_aom",
    "Pysad.C40_moa",
    "Pysad.C40_stateless",
    "Pysad.C40_weighted_value",
    "Pysad.C40_weighted_average"
   ],
   "note": "PyOD combination functions modelled; static buckets for AOM/MOA with any shuffle."
  },
  {
   "property": "C41",
   "status": "proved",
   "theorems": [
    "Pysad.C41_unit_norm",
    "Pysad.C41_fit",
    "Pysad.C41_neg_inf",
    "Pysad.C41_zero_vector"
   ],
   "note": "Every vector, every 0 < p <= infinity, against Mathlib's l^p norm; over the reals. Also the zero vector, and order -infinity."
  },
  {
   "property": "C42",
   "status": "proved",
   "theorems": [
    "Pysad.C42_standard",
    "Pysad.C42_fit",
    "Pysad.C42_twice",
    "Pysad.C42_constant_vector"
   ],
   "note": "Every vector, over the reals; constant vectors give nan."
  },
  {
   "property": "C43",
   "status": "proved",
   "theorems": [
    "Pysad.C43_identity"
   ],
   "note": "Every matrix and history."
  },
  {
   "property": "C44",
   "status": "proved",
   "theorems": [
    "Pysad.C44_same_training",
    "Pysad.C44_same_training_batch"
   ],
   "note": "Every state, one instance or a whole dataset."
  },
  {
   "property": "C45",
   "status": "proved",
   "theorems": [
    "Pysad.C45_periodic_zero",
    "Pysad.C45_periodic_zero_default"
   ],
   "note": "Every period, pattern and length, trend windows that are multiples of the season; exact arithmetic of characteristic 0."
  },
  {
   "property": "C46",
   "status": "partial",
   "theorems": [
    "Pysad.C46_difference_partial",
    "Pysad.C46_fit_then_transform_refuted",
    "Pysad.C46_fit_then_transform_partial"
   ],
   "note": "False: transform_partial uses the next phase (refuted, season 2). Partial: the exact difference, stated from the history in C46_difference_partial, and agreement for season length 1."
  },
  {
   "property": "C47",
   "status": "proved",
   "theorems": [
    "Pysad.C47_constructor",
    "Pysad.C47_preview",
    "Pysad.C47_value",
    "Pysad.C47_rejects",
    "Pysad.C47_no_window"
   ],
   "note": "Every history, argument and STL function."
  },
  {
   "property": "C48",
   "status": "proved",
   "theorems": [
    "Pysad.C48_linear",
    "Pysad.C48_matrix_linear",
    "Pysad.C48_matrix_padding",
    "Pysad.C48_api"
   ],
   "note": "Every hash function, dimension and ordered field; the result for one component is a bare number."
  },
  {
   "property": "C49",
   "status": "partial",
   "theorems": [
    "Pysad.C49_one_projection_refuted",
    "Pysad.C49_one_projection_partial",
    "Pysad.C49_auto_raises",
    "Pysad.C49_fit_draws_nothing"
   ],
   "note": "False: a matrix is drawn for every row (refuted). Partial: row i is projected with the i-th draw; one projection if the draws coincide."
  },
  {
   "property": "C50",
   "status": "proved",
   "theorems": [
    "Pysad.C50_storm_score",
    "Pysad.C50_storm_range",
    "Pysad.C50_storm_memory",
    "Pysad.C50_storm_order"
   ],
   "note": "Any distance function; every history, window size and interleaving of scores."
  },
  {
   "property": "C51",
   "status": "partial",
   "theorems": [
    "Pysad.C51_storm_refuted",
    "Pysad.C51_storm_reversed_partial",
    "Pysad.C51_rshash_reversed_partial",
    "Pysad.C51_rshash_refuted",
    "Pysad.C51_relent_reversed_partial",
    "Pysad.C51_relent_refuted"
   ],
   "note": "False of all three (refuted, each with a concrete run): scores are similarity or log likelihood. Partial: the reversed order, for every history."
  },
  {
   "property": "C52",
   "status": "proved",
   "theorems": [
    "Pysad.C52_hst_masses",
    "Pysad.C52_hst_cells_fixed"
   ],
   "note": "Every tree, stream (scores interleaved), window size >= 1 and ordered field; the trees' shape never changes."
  },
  {
   "property": "C53",
   "status": "proved",
   "theorems": [
    "Pysad.C53_hst_score",
    "Pysad.C53_hst_range",
    "Pysad.C53_hst_order"
   ],
   "note": "Exact formula, bounds, and invariance under permutation of the windows."
  },
  {
   "property": "C54",
   "status": "proved",
   "theorems": [
    "Pysad.C54_hst_complete",
    "Pysad.C54_hst_path",
    "Pysad.C54_hst_halves",
    "Pysad.C54_hst_cells"
   ],
   "note": "Every sequence of random draws, depth and bounds; exact arithmetic."
  },
  {
   "property": "C55",
   "status": "proved",
   "theorems": [
    "Pysad.C55_refwindow_training",
    "Pysad.C55_refwindow_training_initial",
    "Pysad.C55_refwindow_size",
    "Pysad.C55_iforest_asd"
   ],
   "note": "Every batch detector that can be trained on nonempty data, every stream with scores interleaved, with and without initial window; also IForestASD. Streams are all labelled or all unlabelled."
  },
  {
   "property": "C56",
   "status": "proved",
   "theorems": [
    "Pysad.C56_refwindow_labels",
    "Pysad.C56_refwindow_labels_initial"
   ],
   "note": "Every labelled stream, with and without a labelled initial window."
  },
  {
   "property": "C57",
   "status": "partial",
   "theorems": [
    "Pysad.C57_refwindow_never_fails_refuted",
    "Pysad.C57_refwindow_never_fails_partial",
    "Pysad.C57_refwindow_never_fails_initial_partial"
   ],
   "note": "False: window_size = 1 without an initial window (refuted). Partial: window_size >= 2, or an initial window."
  },
  {
   "property": "C58",
   "status": "proved",
   "theorems": [
    "Pysad.C58_onefit",
    "Pysad.C58_onefit_error"
   ],
   "note": "Every detector and history."
  },
  {
   "property": "C59",
   "status": "proved",
   "theorems": [
    "Pysad.C59_perfect_fifo",
    "Pysad.C59_perfect_none",
    "Pysad.C59_perfect_fit_score"
   ],
   "note": "Every sequence of fits and scores."
  },
  {
   "property": "C60",
   "status": "proved",
   "theorems": [
    "Pysad.C60_null",
    "Pysad.C60_random",
    "Pysad.C60_random_range"
   ],
   "note": "Every history; the random detector is a function of its stream of draws."
  },
  {
   "property": "C61",
   "status": "proved",
   "theorems": [
    "Pysad.C61_knncad_silent",
    "Pysad.C61_knncad_unfitted",
    "Pysad.C61_knncad_range"
   ],
   "note": "Every period, stream and matrix-inversion function; before any fit AttributeError."
  },
  {
   "property": "C62",
   "status": "proved",
   "theorems": [
    "Pysad.C62_knncad_training",
    "Pysad.C62_knncad_training_first"
   ],
   "note": "Every stream with scores interleaved, P >= 48."
  },
  {
   "property": "C63",
   "status": "partial",
   "theorems": [
    "Pysad.C63_knncad_period_partial",
    "Pysad.C63_knncad_short_period_partial",
    "Pysad.C63_knncad_period_refuted"
   ],
   "note": "False: every period below 48 fails at record max(P,19) (refuted, and characterised). Partial: P >= 48 never raises."
  },
  {
   "property": "C64",
   "status": "proved",
   "theorems": [
    "Pysad.C64_knncad_cooldown"
   ],
   "note": "Every history before and after the alarm, P >= 48 (shorter periods fail before any alarm)."
  },
  {
   "property": "C65",
   "status": "proved",
   "theorems": [
    "Pysad.C65_loda_finite",
    "Pysad.C65_loda_unfitted"
   ],
   "note": "Every draw, bins >= 1, cuts >= 1; over the reals; before the first fit AttributeError."
  },
  {
   "property": "C66",
   "status": "partial",
   "theorems": [
    "Pysad.C66_loda_accumulates_refuted",
    "Pysad.C66_loda_forgets_partial"
   ],
   "note": "False: each fit discards the previous histogram (refuted). Partial: the state depends only on the last instance, the projections and the draws."
  },
  {
   "property": "C67",
   "status": "proved",
   "theorems": [
    "Pysad.C67_mad_score",
    "Pysad.C67_mad_nonneg",
    "Pysad.C67_mad_unfitted",
    "Pysad.C67_mad_rejects"
   ],
   "note": "Every history of fits (rejected ones too) and scores, b >= 0, exact arithmetic."
  },
  {
   "property": "C68",
   "status": "proved",
   "theorems": [
    "Pysad.C68_sad_mean",
    "Pysad.C68_sad_median",
    "Pysad.C68_sad_statistic",
    "Pysad.C68_sad_nonneg",
    "Pysad.C68_sad_mean_unfitted",
    "Pysad.C68_sad_median_unfitted",
    "Pysad.C68_sad_rejects"
   ],
   "note": "Every history of fits and scores, over the reals."
  },
  {
   "property": "C69",
   "status": "proved",
   "theorems": [
    "Pysad.C69_relent_hypothesis",
    "Pysad.C69_relent_score",
    "Pysad.C69_relent_values",
    "Pysad.C69_relent_empty_range"
   ],
   "note": "Every history, min_val != max_val, bins and window >= 1, every entropy and chi-square function; the score formula as well; equal bounds raise ZeroDivisionError."
  },
  {
   "property": "C70",
   "status": "partial",
   "theorems": [
    "Pysad.C70_relent_bins_refuted",
    "Pysad.C70_relent_bins_partial"
   ],
   "note": "False: values are put one bin too high and the last two parts are merged (refuted). Partial: exactly that description, for every window in range and >= 2 bins."
  },
  {
   "property": "C71",
   "status": "partial",
   "theorems": [
    "Pysad.C71_rrcf_recent_refuted",
    "Pysad.C71_rrcf_recent_partial",
    "Pysad.C71_rrcf_size_zero_partial"
   ],
   "note": "False: instance 0 is kept forever and trees hold tree_size+1 instances (refuted). Partial: exactly that description for every history and any tree library meeting the stated interface; tree_size=0 raises KeyError at the second fit."
  },
  {
   "property": "C72",
   "status": "proved",
   "theorems": [
    "Pysad.C72_rshash_score",
    "Pysad.C72_rshash_unfitted",
    "Pysad.C72_rshash_nonneg",
    "Pysad.C72_rshash_monotone"
   ],
   "note": "Every history, over the reals; int32 conversion taken as exact."
  },
  {
   "property": "C73",
   "status": "proved",
   "theorems": [
    "Pysad.C73_rshash_inert",
    "Pysad.C73_rshash_sketches"
   ],
   "note": "Every history; same random choices."
  },
  {
   "property": "C74",
   "status": "proved",
   "theorems": [
    "Pysad.C74_sesd_reported",
    "Pysad.C74_sesd_indices"
   ],
   "note": "Every series, method, square root, quantile function and max_anomalies up to the length; the candidates are characterised too."
  },
  {
   "property": "C75",
   "status": "proved",
   "theorems": [
    "Pysad.C75_sesd_preview",
    "Pysad.C75_sesd_value",
    "Pysad.C75_sesd_nonneg"
   ],
   "note": "Every history, argument, STL and method, any ordered field; also the value of the score."
  },
  {
   "property": "C76",
   "status": "proved",
   "theorems": [
    "Pysad.C76_sesd_guards",
    "Pysad.C76_sesd_samples",
    "Pysad.C76_sesd_domains"
   ],
   "note": "Every accepted configuration, stated on the constructor's arguments; the sample sizes in an actual run; and over whole histories the scores depend on the square root only at non-negative numbers and on Student's quantiles only for probabilities in (1/2, 1) and at least one degree of freedom."
  },
  {
   "property": "C77",
   "status": "proved",
   "theorems": [
    "Pysad.C77_xstream_counts",
    "Pysad.C77_xstream_projected",
    "Pysad.C77_xstream_score"
   ],
   "note": "Every history, hash function, window size >= 1, over any ordered field with floor; dicts modelled as heap objects with references; int32 conversion taken as exact. Also the score formula."
  },
  {
   "property": "C78",
   "status": "proved",
   "theorems": [
    "Pysad.C78_xstream_widths",
    "Pysad.C78_xstream_bounds"
   ],
   "note": "Over the reals, log2 = Real.logb 2; widths > 0.0001 and no fit raises."
  },
  {
   "property": "C79",
   "status": "partial",
   "theorems": [
    "Pysad.C79_xstream_same_bins_refuted",
    "Pysad.C79_xstream_same_bins_partial",
    "Pysad.C79_xstream_score_partial"
   ],
   "note": "False: the reference window was counted with other bin widths than those used for lookup (refuted for the constructor's own projector). Partial: holds whenever the widths have not changed, in particular in the first window."
  },
  {
   "property": "C80",
   "status": "proved",
   "theorems": [
    "Pysad.C80_kitnet_break",
    "Pysad.C80_kitnet_cluster",
    "Pysad.C80_kitnet_map"
   ],
   "note": "Every dendrogram, bound, data and history; any clustering library whose dendrogram has each feature at one leaf. With one feature there is no map (C83_kitnet_one_feature)."
  },
  {
   "property": "C81",
   "status": "proved",
   "theorems": [
    "Pysad.C81_kitnet_score",
    "Pysad.C81_kitnet_frozen",
    "Pysad.C81_kitnet_trained"
   ],
   "note": "Every history with at least two features, hidden_ratio >= 0; scores interleaved; also the complete score formula and that nothing changes afterwards."
  },
  {
   "property": "C82",
   "status": "proved",
   "theorems": [
    "Pysad.C82_kitnet_normalised",
    "Pysad.C82_kitnet_rmse",
    "Pysad.C82_kitnet_errors"
   ],
   "note": "Every autoencoder state, weights and input; over the reals, exact arithmetic."
  },
  {
   "property": "C83",
   "status": "partial",
   "theorems": [
    "Pysad.C83_kitnet_numbers_partial",
    "Pysad.C83_kitnet_one_feature",
    "Pysad.C83_kitnet_numbers_refuted"
   ],
   "note": "False: nan after exactly grace_feature_mapping+1 fits, and for ever if grace_anomaly_detector = 0 (refuted). Partial: the exact circumstances; otherwise a nonnegative number."
  },
  {
   "property": "C84",
   "status": "proved",
   "theorems": [
    "Pysad.C84_kitnet_corrDist",
    "Pysad.C84_kitnet_linkage",
    "Pysad.C84_kitnet_map"
   ],
   "note": "Every stream of real vectors; constant features have 1 on the diagonal. The linkage (a parameter) receives the distances where it expects them, and its tree is cut into the largest subtrees within the bound; in every history (C84_kitnet_map)."
  },
  {
   "property": "C85",
   "status": "partial",
   "theorems": [
    "Pysad.C85_inqmad_scores_partial",
    "Pysad.C85_inqmad_fresh_partial",
    "Pysad.C85_inqmad_refuted"
   ],
   "note": "False: the jitted predict keeps the density of the first score after a fit (refuted; assumes jax.jit caches by the static self, as its documentation says). Partial: the exact score in every history, and the property for histories without earlier scores."
  },
  {
   "property": "C86",
   "status": "partial",
   "theorems": [
    "Pysad.C86_loda_odd",
    "Pysad.C86_loda_even_partial",
    "Pysad.C86_loda_bin_refuted"
   ],
   "note": "False: searchsorted index is off by one (refuted). Partial: even number of bins; for odd numbers the fitted instance gets the greatest score."
  },
  {
   "property": "C87",
   "status": "partial",
   "theorems": [
    "Pysad.C87_hst_initial_partial",
    "Pysad.C87_hst_initial_small_partial",
    "Pysad.C87_hst_initial_refuted"
   ],
   "note": "False: `if initial_window_X` raises ValueError on arrays with more than one number (refuted). Partial: absent, empty and single-number arrays, exactly."
  },
  {
   "property": "C88",
   "status": "partial",
   "theorems": [
    "Pysad.C88_inqmad_refuted",
    "Pysad.C88_inqmad_last_partial"
   ],
   "note": "False: alpha = 1 discards the previous density, so only the last instance counts (refuted). Partial: exactly that, for every history."
  },
  {
   "property": "C89",
   "status": "partial",
   "theorems": [
    "Pysad.C89_inqmad_direction_partial",
    "Pysad.C89_inqmad_scores_partial",
    "Pysad.C89_inqmad_refuted"
   ],
   "note": "False: the fitted instance gets the greatest score (refuted). Partial, for every history: the score is the squared cosine between the random features of the instance and of the last fitted one, over N squared, hence greatest at that fitted instance; for feature vectors that do not vanish."
  },
  {
   "property": "C90",
   "status": "proved",
   "theorems": [
    "Pysad.C90_pipeline",
    "Pysad.C90_pipeline_raises",
    "Pysad.C90_ensemble"
   ],
   "note": "Every three components with separate states, every dataset and well-formed labels: same results and final states, and an exception in one iff in the other (which instance raises first may differ). Ensembles: rows against columns."
  },
  {
   "property": "C91",
   "status": "partial",
   "theorems": [
    "Pysad.C91_inqmad_lengths",
    "Pysad.C91_kitnet_lengths_refuted",
    "Pysad.C91_storm",
    "Pysad.C91_perfect",
    "Pysad.C91_onefit",
    "Pysad.C91_sesd",
    "Pysad.C91_inqmad",
    "Pysad.C91_xstream",
    "Pysad.C91_rshash",
    "Pysad.C91_rrcf",
    "Pysad.C91_relent",
    "Pysad.C91_mad",
    "Pysad.C91_sad_mean",
    "Pysad.C91_sad_median",
    "Pysad.C91_hst_refuted",
    "Pysad.C91_loda_refuted",
    "Pysad.C91_knncad_refuted",
    "Pysad.C91_refwindow_refuted",
    "Pysad.C91_null",
    "Pysad.C91_random",
    "Pysad.C91_kitnet",
    "Pysad.C91_hst_partial",
    "Pysad.C91_loda_partial",
    "Pysad.C91_knncad_partial",
    "Pysad.C91_refwindow_partial"
   ],
   "note": "Proved for ExactStorm, PerfectModel, OneFitModel, SeasonalESD, Inqmad, xStream, RSHash, RobustRandomCutForest, RelativeEntropy, MAD, SAD, KitNet (two features or more, all instances of that length), NullModel and RandomModel; Inqmad also with instances of any length (C91_inqmad_lengths). False of KitNet once instances of other lengths are offered: a too short one is rejected after some autoencoders were trained with it (C91_kitnet_lengths_refuted). False of HalfSpaceTrees, LODA, KNNCAD and ReferenceWindowModel (each refuted with a concrete run): a rejected instance given to fit_partial has already changed counters or windows; for these four it is proved that rejected scores leave no trace as long as every fit is accepted."
  },
  {
   "property": "C92",
   "status": "proved",
   "theorems": [
    "Pysad.C92_knncad_score"
   ],
   "note": "Every history, every (partial) matrix inversion, periods >= 48 (shorter ones raise, C63); exact arithmetic."
  },
  {
   "property": "C93",
   "status": "proved",
   "theorems": [
    "Pysad.C93_rrcf_score",
    "Pysad.C93_rrcf_unfitted"
   ],
   "note": "Every history, tree_size >= 1, any library that meets the interface RcTreeApi; the displacement itself is the library's."
  },
  {
   "property": "C94",
   "status": "proved",
   "theorems": [
    "Pysad.C94_rshash_init",
    "Pysad.C94_rshash_scores",
    "Pysad.C94_rshash_lists"
   ],
   "note": "Every decay other than 0 and all draws. Bounds given as lists instead of arrays are compared as a whole, and constant features are then used (C94_rshash_lists shows a run)."
  },
  {
   "property": "C95",
   "status": "proved",
   "theorems": [
    "Pysad.C95_minmax_scalar",
    "Pysad.C95_minmax_scalar_empty",
    "Pysad.C95_minmax_array",
    "Pysad.C95_minmax_array_empty",
    "Pysad.C95_minmax_append"
   ],
   "note": "Every array over every linear order (no nan)."
  },
  {
   "property": "C96",
   "status": "proved",
   "theorems": [
    "Pysad.C96_sigmoid",
    "Pysad.C96_sigmoid_shape",
    "Pysad.C96_dsigmoid",
    "Pysad.C96_dtanh",
    "Pysad.C96_relu",
    "Pysad.C96_drelu",
    "Pysad.C96_pdf",
    "Pysad.C96_invLogCDF",
    "Pysad.C96_softmax",
    "Pysad.C96_softmax_no_overflow",
    "Pysad.C96_softmax_rows",
    "Pysad.C96_softmax_distribution",
    "Pysad.C96_softmax_empty"
   ],
   "note": "Over the reals, against Mathlib's sigmoid, tanh, derivatives and normal distribution; scipy's norm.logcdf is assumed to be the logarithm of the normal distribution function."
  },
  {
   "property": "C97",
   "status": "partial",
   "theorems": [
    "Pysad.C97_rollmean_refuted",
    "Pysad.C97_rollmean_partial",
    "Pysad.C97_rollmean_start",
    "Pysad.C97_rollmean_zero"
   ],
   "note": "False: the window starts with k zeros that are averaged in (refuted, k = 2). Partial: exact from the k-th value on; before that the sum is divided by k."
  },
  {
   "property": "C98",
   "status": "partial",
   "theorems": [
    "Pysad.C98_kitnet_weights",
    "Pysad.C98_kitnet_biases",
    "Pysad.C98_kitnet_biases_equal",
    "Pysad.C98_kitnet_first_step",
    "Pysad.C98_kitnet_descent_refuted",
    "Pysad.C98_kitnet_descent_partial"
   ],
   "note": "False of the biases: the code moves each bias by the mean of the derivatives, so all hidden (visible) biases stay equal for ever; refuted, and shown to fail in the first step whenever the weights of two features have different sums. Partial: every weight, at every reachable state."
  },
  {
   "property": "C99",
   "status": "partial",
   "theorems": [
    "Pysad.C99_loda_projections_partial",
    "Pysad.C99_loda_first_fit",
    "Pysad.C99_loda_exhausted",
    "Pysad.C99_loda_projections_refuted"
   ],
   "note": "False: every fit zeroes fresh positions of the same projections, which are only drawn once, so features are lost until none is left (refuted with a run). Partial: a projection is the drawn row restricted to the features kept in every fit; right after the first fit; and once exhausted all instances get the same score."
  },
  {
   "property": "C100",
   "status": "partial",
   "theorems": [
    "Pysad.C100_conformal_refuted",
    "Pysad.C100_conformal_partial",
    "Pysad.C100_gaussian_partial",
    "Pysad.C100_gaussian_strict_partial"
   ],
   "note": "False of the conformal calibrator, which returns the fraction of greater scores (refuted); partial: it reverses the ranking, always. Proved of the Gaussian tail with both kinds of statistics, strictly for the actual erfc."
  },
  {
   "property": "C101",
   "status": "partial",
   "theorems": [
    "Pysad.C101_conformal",
    "Pysad.C101_gaussian_partial",
    "Pysad.C101_gaussian_refuted"
   ],
   "note": "Proved of the conformal calibrator for every strictly increasing transformation. False of the Gaussian tail when all scores in the window are equal (refuted: the deviation is then taken to be 1); partial: proved otherwise."
  },
  {
   "property": "C102",
   "status": "partial",
   "theorems": [
    "Pysad.C102_conformal_partial",
    "Pysad.C102_conformal_refuted"
   ],
   "note": "False: the greatest score always gets 0, and equal scores all get 0 (refuted). Partial: at most ceil(eps n) for pairwise different scores."
  },
  {
   "property": "C103",
   "status": "partial",
   "theorems": [
    "Pysad.C103_storm_memory",
    "Pysad.C103_hst_memory",
    "Pysad.C103_sesd_memory",
    "Pysad.C103_rrcf_memory",
    "Pysad.C103_refwindow_memory",
    "Pysad.C103_xstream_memory",
    "Pysad.C103_knncad_memory_partial",
    "Pysad.C103_knncad_refuted",
    "Pysad.C103_relent_memory_partial",
    "Pysad.C103_relent_refuted",
    "Pysad.C103_mad_memory_partial",
    "Pysad.C103_mad_refuted",
    "Pysad.C103_rshash_cells_partial",
    "Pysad.C103_rshash_refuted",
    "Pysad.C103_kitnet_memory",
    "Pysad.C103_loda_memory",
    "Pysad.C103_sad_memory_partial",
    "Pysad.C103_sad_refuted",
    "Pysad.C103_perfect_memory_partial",
    "Pysad.C103_perfect_refuted"
   ],
   "note": "Proved of ExactStorm, HalfSpaceTrees, SeasonalESD, RobustRandomCutForest, ReferenceWindowModel, xStream, KitNet and LODA. False of KNNCAD (buf), RelativeEntropy (util), MedianAbsoluteDeviation and StandardAbsoluteDeviation with the median (meters), RSHash (dictionaries) and PerfectModel (labels): each refuted with unbounded streams, with a partial theorem saying how much is stored. NullModel, RandomModel, StandardAbsoluteDeviation with the mean and Inqmad have states of fixed size by their type; LoOP and the one-fit models keep what an external library keeps."
  },
  {
   "property": "C104",
   "status": "proved",
   "theorems": [
    "Pysad.C104_hst_isolated",
    "Pysad.C104_xstream_isolated",
    "Pysad.C104_mad_isolated",
    "Pysad.C104_sad_mean_isolated",
    "Pysad.C104_sad_median_isolated"
   ],
   "note": "HalfSpaceTrees (also strictly), xStream, MedianAbsoluteDeviation and StandardAbsoluteDeviation with absolute=True (the default), the latter as equivalences. C51 covers the detectors where the direction is reversed."
  },
  {
   "property": "C105",
   "status": "partial",
   "theorems": [
    "Pysad.C105_storm_units",
    "Pysad.C105_hst_units",
    "Pysad.C105_relent_units",
    "Pysad.C105_mad_refuted",
    "Pysad.C105_mad_shift_partial",
    "Pysad.C105_sad_mean_shift_partial",
    "Pysad.C105_sad_median_shift_partial",
    "Pysad.C105_sad_refuted",
    "Pysad.C105_rshash_bounds_partial",
    "Pysad.C105_rshash_refuted",
    "Pysad.C105_mad_unit_partial",
    "Pysad.C105_sad_mean_unit_partial",
    "Pysad.C105_sad_median_unit_partial"
   ],
   "note": "Proved of HalfSpaceTrees (each feature its own unit), RelativeEntropy and ExactStorm (with the radius). False of MedianAbsoluteDeviation and StandardAbsoluteDeviation, which add 1e-10 whatever the unit (refuted; partial: shifts change nothing, and with a factor a all scores are multiplied by one factor between 1 and a, so the ranking stays), and of RSHash, whose bounds do not scale anything (refuted; partial: only which bounds are equal matters)."
  },
  {
   "property": "C106",
   "status": "partial",
   "theorems": [
    "Pysad.C106_sad_mean_order",
    "Pysad.C106_sad_median_order",
    "Pysad.C106_mad_refuted",
    "Pysad.C106_mad_order_partial"
   ],
   "note": "Proved of StandardAbsoluteDeviation, with the mean and with the median. False of MedianAbsoluteDeviation (refuted): deviations are taken from the median at the time; partial: the order changes all scores by one positive factor."
  },
  {
   "property": "C107",
   "status": "partial",
   "theorems": [
    "Pysad.C107_storm_forgets",
    "Pysad.C107_hst_forgets",
    "Pysad.C107_sesd_forgets",
    "Pysad.C107_xstream_forgets",
    "Pysad.C107_rshash_refuted",
    "Pysad.C107_rshash_fading_partial"
   ],
   "note": "Proved of ExactStorm (w instances), HalfSpaceTrees (2w-1), xStream (3W-1) and SeasonalESD (W). False of RSHash (refuted); partial: traces fade exponentially, with an explicit bound. RobustRandomCutForest keeps instance 0 for ever: C71."
  },
  {
   "property": "C108",
   "status": "partial",
   "theorems": [
    "Pysad.C108_loop_partial",
    "Pysad.C108_loop_constructed_partial",
    "Pysad.C108_loop_refuted"
   ],
   "note": "False: fit_partial does nothing (refuted for every implementation of the batch method). Partial: what the object does on every history. Also partial: what a freshly constructed detector answers in terms of the constructor's arguments."
  },
  {
   "property": "C109",
   "status": "partial",
   "theorems": [
    "Pysad.C109_data_refuted",
    "Pysad.C109_data_partial",
    "Pysad.C109_data_known_partial",
    "Pysad.C109_data_mat_pairs"
   ],
   "note": "False: the reader is chosen by '.mat' occurring anywhere in the name (refuted with a.mat.txt). Partial: all names where it only occurs at the end, in particular the files the class lists."
  },
  {
   "property": "C110",
   "status": "partial",
   "theorems": [
    "Pysad.C110_rshash_refuted",
    "Pysad.C110_relent_refuted",
    "Pysad.C110_knncad_refuted",
    "Pysad.C110_rshash_partial",
    "Pysad.C110_relent_partial",
    "Pysad.C110_knncad_partial"
   ],
   "note": "False of score_partial of RSHash, RelativeEntropy and KNNCAD, which ignore their argument (each refuted). Partial: fit_score_partial does depend on it, for all three (KNNCAD: every period of at least 48)."
  },
  {
   "property": "C111",
   "status": "partial",
   "theorems": [
    "Pysad.C111_mean_refuted",
    "Pysad.C111_mean_partial",
    "Pysad.C111_mean_integers_partial"
   ],
   "note": "False: three times 0.1 has the mean 0.10000000000000002 (refuted). Partial: the distance to the exact mean is bounded, hence how far outside; and integers n*B <= 2^53 are exact up to one rounding and in range. Updates only; C15 covers removals."
  },
  {
   "property": "C112",
   "status": "proved",
   "theorems": [
    "Pysad.C112_median_doubles",
    "Pysad.C112_max_doubles",
    "Pysad.C112_min_doubles",
    "Pysad.C112_median_range"
   ],
   "note": "All histories. Doubles without overflow and underflow (unbounded exponents)."
  },
  {
   "property": "C113",
   "status": "proved",
   "theorems": [
    "Pysad.C113_conformal_doubles",
    "Pysad.C113_conformal_order",
    "Pysad.C113_storm_doubles"
   ],
   "note": "Up to 2^53 retained scores (2^52 for strictness). Doubles without overflow and underflow. The score type is any linear order; distances are arbitrary doubles."
  },
  {
   "property": "C114",
   "status": "partial",
   "theorems": [
    "Pysad.C114_storm_refuted",
    "Pysad.C114_mad_refuted",
    "Pysad.C114_sad_refuted",
    "Pysad.C114_relent_refuted",
    "Pysad.C114_refwindow_refuted",
    "Pysad.C114_storm_partial",
    "Pysad.C114_relent_partial",
    "Pysad.C114_mad_partial",
    "Pysad.C114_sad_partial",
    "Pysad.C114_refwindow_partial"
   ],
   "note": "False of ExactStorm, MedianAbsoluteDeviation, StandardAbsoluteDeviation with the median, RelativeEntropy and ReferenceWindowModel, which keep references to the caller's arrays (each refuted). Partial: holds for every caller that does not write to an array after passing it to fit_partial (ReferenceWindowModel without an initial window). The other detectors store only numbers and arrays they compute."
  },
  {
   "property": "C115",
   "status": "partial",
   "theorems": [
    "Pysad.C115_zscore_refuted",
    "Pysad.C115_zscore_partial",
    "Pysad.C115_running_zscore_partial",
    "Pysad.C115_zscore_transform_partial",
    "Pysad.C115_sad_partial",
    "Pysad.C115_sad_refuted",
    "Pysad.C115_sad_score_partial",
    "Pysad.C115_mad_partial",
    "Pysad.C115_sad_median_partial",
    "Pysad.C115_sad_median_refuted"
   ],
   "note": "False of the z-score postprocessors and of StandardAbsoluteDeviation with the mean or the median (refuted). Partial: with n earlier values (n <= w - 1 in a window) exactly the z-scores below sqrt(n) are reached, growing with the value; StandardAbsoluteDeviation with the mean is bounded by sqrt(n), with the median by sqrt(n) + 1; values that are not fitted first have no ceiling; MedianAbsoluteDeviation has none after two values. Exact arithmetic."
  },
  {
   "property": "C116",
   "status": "partial",
   "theorems": [
    "Pysad.C116_statistics_refuted",
    "Pysad.C116_statistics_partial",
    "Pysad.C116_finite_partial",
    "Pysad.C116_storm_forgets"
   ],
   "note": "False of the windowed average, sum, sum of squares and variance (refuted with nan, then 1). Partial: after any nan or infinite value they are never finite again; on finite streams the claim holds; ExactStorm forgets, whatever the distances are. Maximum, minimum and median are not covered: sorting nan depends on the sorting algorithm."
  },
  {
   "property": "C117",
   "status": "proved",
   "theorems": [
    "Pysad.C117_scalers",
    "Pysad.C117_modified_stl",
    "Pysad.C117_streamhash",
    "Pysad.C117_random",
    "Pysad.C117_other",
    "Pysad.C117_inherited"
   ],
   "note": "All shipped transformers with array results (random projectors given a number of components), and custom transformers row by row. Results of rank above 2 are taken to raise."
  },
  {
   "property": "C118",
   "status": "partial",
   "theorems": [
    "Pysad.C118_no_draws_partial",
    "Pysad.C118_reference_window_partial",
    "Pysad.C118_detectors_partial",
    "Pysad.C118_random_refuted",
    "Pysad.C118_loda_refuted",
    "Pysad.C118_rrcf_refuted",
    "Pysad.C118_reference_window_refuted"
   ],
   "note": "False of RandomModel, LODA, RobustRandomCutForest and ReferenceWindowModel with a batch detector that draws: all draw from numpy's global generator (each refuted beside a RandomModel). Partial: every detector that does not draw after construction (16 named), and ReferenceWindowModel when the result of training does not depend on the generator."
  },
  {
   "property": "C119",
   "status": "partial",
   "theorems": [
    "Pysad.C119_integers_refuted",
    "Pysad.C119_integers_partial",
    "Pysad.C119_collapse_partial"
   ],
   "note": "False: midpoints are truncated when stored in an integer array (refuted with bounds 0 and 1, depth 2). Partial: holds if every range is a multiple of 2^max_depth; between neighbouring integers a tree of any depth tells only three cells apart."
  },
  {
   "property": "C120",
   "status": "proved",
   "theorems": [
    "Pysad.C120_hst_exact",
    "Pysad.C120_hst_splits"
   ],
   "note": "Doubles without overflow and underflow (unbounded exponents); coordinates are rationals, comparisons of doubles being exact. Also: splits are midpoints rounded once and stay within the bounds."
  },
  {
   "property": "C121",
   "status": "proved",
   "theorems": [
    "Pysad.C121_auroc",
    "Pysad.C121_aupr",
    "Pysad.C121_aupr_range",
    "Pysad.C121_aupr_invariant",
    "Pysad.C121_auroc_one",
    "Pysad.C121_aupr_one",
    "Pysad.C121_constant",
    "Pysad.C121_auroc_reversed"
   ],
   "note": "scikit-learn's computation is modelled from its curve: distinct decreasing thresholds, dropped intermediate points, trapezoid rule and step area. Exact arithmetic, binary labels."
  },
  {
   "property": "C122",
   "status": "proved",
   "theorems": [
    "Pysad.C122_perfect",
    "Pysad.C122_null"
   ],
   "note": "RandomModel's rating is a random number and not covered."
  },
  {
   "property": "C123",
   "status": "partial",
   "theorems": [
    "Pysad.C123_windowed_aupr_refuted",
    "Pysad.C123_windowed_aupr_partial"
   ],
   "note": "False: a window without anomalies counts 0 whatever the scores (refuted). Partial: PerfectModel's rating is the fraction of windows with an anomaly, and no scores of any detector are rated higher."
  },
  {
   "property": "C124",
   "status": "partial",
   "theorems": [
    "Pysad.C124_integers_refuted",
    "Pysad.C124_integers_partial",
    "Pysad.C124_window_partial",
    "Pysad.C124_order_partial",
    "Pysad.C124_order_of_numbers"
   ],
   "note": "False: 200 and 100 as uint8 have the sum 44 (refuted). Partial: every result is right up to a multiple of 2^bits and exactly right whenever the exact sums fit, whatever overflowed before; window statistics recover. Maximum and minimum are right on every history; the median is right exactly for an odd number of values or when twice the median fits."
  },
  {
   "property": "C125",
   "status": "partial",
   "theorems": [
    "Pysad.C125_int32_refuted",
    "Pysad.C125_int32_partial"
   ],
   "note": "False for every conversion into 32 bits: two different cells coincide (refuted by the pigeonhole principle). Partial: all answers are right as long as the cells' coordinates are 32-bit integers. Real arithmetic."
  },
  {
   "property": "C126",
   "status": "proved",
   "theorems": [
    "Pysad.C126_distances",
    "Pysad.C126_distortion_rare"
   ],
   "note": "The hash values are taken to be independent and uniform (an ideal hash function in place of mmh3); real arithmetic. C126_distances covers every density in (0,1], C126_distortion_rare the default density and at most 2^32 components (the seeds are 32-bit)."
  },
  {
   "property": "C127",
   "status": "proved",
   "theorems": [
    "Pysad.C127_random"
   ],
   "note": "The generator is taken to draw independently from a finite distribution (np.random.uniform draws multiples of 2^-53); scikit-learn's scores are the model of Model/RankMetrics."
  },
  {
   "property": "C128",
   "status": "proved",
   "theorems": [
    "Pysad.C128_average",
    "Pysad.C128_max",
    "Pysad.C128_median"
   ],
   "note": "Exact arithmetic (every linearly ordered field)."
  },
  {
   "property": "C129",
   "status": "proved",
   "theorems": [
    "Pysad.C129_evaluate",
    "Pysad.C129_scores",
    "Pysad.C129_pipeline"
   ],
   "note": "What is printed; the loops of five example scripts with the scoring step as a parameter."
  },
  {
   "property": "C130",
   "status": "partial",
   "theorems": [
    "Pysad.C130_quickstart_partial",
    "Pysad.C130_quickstart_refuted",
    "Pysad.C130_ensemble_partial"
   ],
   "note": "False: for every generator, number of bins and cuts and data set with both classes the quick start prints 1/2 (C130_quickstart_partial, refuted), because LODA gives the instance it was just fitted with always the same score; in the ensemble example LODA therefore changes nothing. Real arithmetic: with doubles, rounding of the projected value against the middle edge is all that could make scores differ."
  },
  {
   "property": "C131",
   "status": "proved",
   "theorems": [
    "Pysad.C131_rshash_cell",
    "Pysad.C131_rshash_score",
    "Pysad.C131_rshash_far",
    "Pysad.C131_rshash_draws",
    "Pysad.C131_xstream_bin",
    "Pysad.C131_xstream_score"
   ],
   "note": "The draws of np.random.uniform and np.random.rand are taken to be independent and uniform reals (they are multiples of 2^-53); widths and features are arbitrary but fixed. Real arithmetic."
  },
  {
   "property": "C132",
   "status": "partial",
   "theorems": [
    "Pysad.C132_combines",
    "Pysad.C132_aom_refuted",
    "Pysad.C132_moa_refuted",
    "Pysad.C132_same_shuffle_partial",
    "Pysad.C132_gap_partial",
    "Pysad.C132_average_partial",
    "Pysad.C132_weighted"
   ],
   "note": "Proved of average, maximum and median (C132_combines with C40) and of averages with weights that are not negative and not all 0 (C132_weighted). False of both bucket methods, which shuffle the detectors anew for every instance (refuted). Partial: with the same shuffle; whenever the mean score of one exceeds the greatest score of the other; and on average over all orders. PyOD is external: its static mode without bootstrap is modelled."
  },
  {
   "property": "C133",
   "status": "partial",
   "theorems": [
    "Pysad.C133_live_refuted",
    "Pysad.C133_live_partial",
    "Pysad.C133_behind_partial",
    "Pysad.C133_no_writes"
   ],
   "note": "False: iter is a generator that indexes the caller's array at each next() (refuted). Partial: the exact description of what is delivered for all interleavings; the claim for callers who write only to rows delivered already; and, without writes, the agreement with the stream of C25. Arrays of fixed length (NumPy); rows of X and y are one row of the model."
  },
  {
   "property": "C134",
   "status": "partial",
   "theorems": [
    "Pysad.C134_average_refuted",
    "Pysad.C134_median_partial",
    "Pysad.C134_running_median_partial",
    "Pysad.C134_ensemble_partial"
   ],
   "note": "False of averages (refuted with one score of three). Proved of medians of the stream, of a window, and of the median ensemble; more than half is sharp (example)."
  },
  {
   "property": "C135",
   "status": "partial",
   "theorems": [
    "Pysad.C135_mad_order_partial",
    "Pysad.C135_sad_order_partial",
    "Pysad.C135_order_refuted",
    "Pysad.C135_size_refuted",
    "Pysad.C135_size_partial"
   ],
   "note": "Order: proved of MedianAbsoluteDeviation and of StandardAbsoluteDeviation with the median, false with the mean (refuted). Size: false, because distances to the median are taken once, when a value is fitted (refuted); proved if more than half of the values were in the range at every time."
  },
  {
   "property": "C136",
   "status": "partial",
   "theorems": [
    "Pysad.C136_smoothing_refuted",
    "Pysad.C136_zscore_refuted",
    "Pysad.C136_zscore_partial",
    "Pysad.C136_gaussian_partial",
    "Pysad.C136_conformal_refuted",
    "Pysad.C136_transform_refuted"
   ],
   "note": "False of smoothing (refuted: rated 1 before and 1/2 after), of z-scores along the stream (refuted: the first is nan, AUROC raises for every stream), of the conformal calibrator (refuted: rated 1 before, at most 1/2 after) and of smoothing with transform (refuted: always 1/2). Proved, for AUROC and AUPR, of the z-score and the Gaussian tail postprocessors fitted before and used with transform."
  },
  {
   "property": "C137",
   "status": "partial",
   "theorems": [
    "Pysad.C137_storm",
    "Pysad.C137_conformal",
    "Pysad.C137_running_average",
    "Pysad.C137_rshash",
    "Pysad.C137_deviation_refuted"
   ],
   "note": "Proved of ExactStorm, RSHash (every decay), the conformal calibrators and the windowed average. False of StandardAbsoluteDeviation (refuted: no bound, because replacing one of two equal values changes the scale by a factor of 10^10)."
  },
  {
   "property": "C138",
   "status": "partial",
   "theorems": [
    "Pysad.C138_rshash_partial",
    "Pysad.C138_rshash_refuted",
    "Pysad.C138_xstream_partial",
    "Pysad.C138_xstream_refuted",
    "Pysad.C138_hst_partial",
    "Pysad.C138_hst_refuted",
    "Pysad.C138_loda_partial",
    "Pysad.C138_loda_refuted",
    "Pysad.C138_iforest_partial",
    "Pysad.C138_iforest_refuted",
    "Pysad.C138_rrcf_partial",
    "Pysad.C138_rrcf_refuted",
    "Pysad.C138_storm_partial"
   ],
   "note": "Refuted for RSHash, xStream, HalfSpaceTrees, LODA, IForestASD and RobustRandomCutForest, each with the exact condition on the arguments under which no fit raises and what happens otherwise (every fit raises after any history). ExactStorm accepts all sizes but scores 0 always for sizes below 2."
  },
  {
   "property": "C139",
   "status": "proved",
   "theorems": [
    "Pysad.C139_xstream_constructed",
    "Pysad.C139_xstream_no_components",
    "Pysad.C139_xstream_default"
   ],
   "note": "For every generator whose randint stays in range."
  },
  {
   "property": "C140",
   "status": "proved",
   "theorems": [
    "Pysad.C140_storm_default",
    "Pysad.C140_kitnet_default",
    "Pysad.C140_loda_default",
    "Pysad.C140_mad_default",
    "Pysad.C140_sad_default",
    "Pysad.C140_rrcf_default",
    "Pysad.C140_iforest_default",
    "Pysad.C140_relent_default",
    "Pysad.C140_hst_default",
    "Pysad.C140_conformal_default",
    "Pysad.C140_gaussian_default",
    "Pysad.C140_rshash_default",
    "Pysad.C140_unit_norm_default"
   ],
   "note": "One theorem per class. KitNet's score is nan at exactly 50001 instances (C83)."
  },
  {
   "property": "C141",
   "status": "partial",
   "theorems": [
    "Pysad.C141_int32_refuted",
    "Pysad.C141_int32_partial",
    "Pysad.C141_bins_fit"
   ],
   "note": "False for every conversion into 32 bits and every hash function that does not ignore all features (refuted). Partial: all answers are right as long as the bins of the instances are 32-bit integers at the time of each call; C141_bins_fit gives a bound on the images that ensures this. Real arithmetic."
  },
  {
   "property": "C142",
   "status": "proved",
   "theorems": [
    "Pysad.C142_storm_order",
    "Pysad.C142_unit_norm_order",
    "Pysad.C142_standard_order",
    "Pysad.C142_rshash_order",
    "Pysad.C142_xstream_order",
    "Pysad.C142_xstream_likely",
    "Pysad.C142_hst_order",
    "Pysad.C142_hst_likely",
    "Pysad.C142_loda_order"
   ],
   "note": "Exact arithmetic. The likelihood form is proved for HalfSpaceTrees (uniform draws of features) and xStream (ideal hash function); for LODA and RSHash the answers coincide after renaming the random choices."
  },
  {
   "property": "C143",
   "status": "proved",
   "theorems": [
    "Pysad.C143_kernel_average",
    "Pysad.C143_kernel_close",
    "Pysad.C143_score_close",
    "Pysad.C143_score_converges"
   ],
   "note": "The distribution of the weights and offsets is that documented for RBFSampler: normal with variance 2 gamma, uniform on [0, 2 pi], independent. Exact arithmetic. That the score is measured against one instance only is C85 and C88."
  },
  {
   "property": "C144",
   "status": "proved",
   "theorems": [
    "Pysad.C144_kitnet_slope",
    "Pysad.C144_kitnet_descends"
   ],
   "note": "Over the reals. The biases do not follow their own gradients (C98), yet the direction of the step has a non-positive inner product with the gradient, so the loss decreases for small learning rates; how small depends on the weights and the instance, nothing is said of a fixed rate such as the default 0.1."
  },
  {
   "property": "C145",
   "status": "partial",
   "theorems": [
    "Pysad.C145_hst_partial",
    "Pysad.C145_hst_refuted",
    "Pysad.C145_xstream_partial",
    "Pysad.C145_xstream_refuted",
    "Pysad.C145_mad_refuted",
    "Pysad.C145_mad_partial",
    "Pysad.C145_sad_mean",
    "Pysad.C145_sad_median_refuted",
    "Pysad.C145_sad_median_partial"
   ],
   "note": "Proved for StandardAbsoluteDeviation with the mean. Refuted for the others: the fit that completes a window may raise the score (HalfSpaceTrees after the first window, xStream), and an instance closer to the median than the scale shrinks the scale (MedianAbsoluteDeviation, StandardAbsoluteDeviation with the median). Proved for them outside these cases."
  },
  {
   "property": "C146",
   "status": "partial",
   "theorems": [
    "Pysad.C146_sad_mean",
    "Pysad.C146_sad_mean_signed",
    "Pysad.C146_sad_median_partial",
    "Pysad.C146_sad_median_refuted",
    "Pysad.C146_mad_refuted",
    "Pysad.C146_mad_partial",
    "Pysad.C146_zscore"
   ],
   "note": "With the mean, and for z-scores, proved (also one-sided). With the median the bound is 2/k^2, not 1/k^2 (refuted). MedianAbsoluteDeviation keeps distances to the medians of the time, so nearly all values can be flagged (refuted); partial: half, plus the values farther from the final median than from the median of their time."
  },
  {
   "property": "C147",
   "status": "partial",
   "theorems": [
    "Pysad.C147_relent_exact",
    "Pysad.C147_relent_refuted",
    "Pysad.C147_relent_partial",
    "Pysad.C147_relent_interior_partial"
   ],
   "note": "Proved for exact arithmetic (every ordered field). In doubles it is refuted for 7 bins over [0, 17], and proved for every range when the number of bins is a power of two or a sum of two (Kahan's theorem on D / (D / n)), and for every number of bins away from the upper end."
  },
  {
   "property": "C148",
   "status": "proved",
   "theorems": [
    "Pysad.C148_kitnet_far",
    "Pysad.C148_kitnet_unbounded",
    "Pysad.C148_kitnet_constant"
   ],
   "note": "Over the reals, with the true square root and logistic function."
  },
  {
   "property": "C149",
   "status": "proved",
   "theorems": [
    "Pysad.C149_hst_clamped",
    "Pysad.C149_hst_blind"
   ],
   "note": "In exact arithmetic; in doubles a split may coincide with a bound once the ranges have shrunk to neighbouring numbers."
  },
  {
   "property": "C150",
   "status": "partial",
   "theorems": [
    "Pysad.C150_mad",
    "Pysad.C150_sad",
    "Pysad.C150_kitnet",
    "Pysad.C150_inqmad",
    "Pysad.C150_hst_refuted",
    "Pysad.C150_hst_partial",
    "Pysad.C150_storm_refuted",
    "Pysad.C150_storm_partial"
   ],
   "note": "Proved for the deviation detectors, KitNet and Inqmad (over the reals, where the random features do not all vanish). Refuted for HalfSpaceTrees and ExactStorm, which jump at a split and at the radius; partial: HalfSpaceTrees is locally constant off the cuts of the grid, and ExactStorm changes by at most the share of older instances near the radius."
  },
  {
   "property": "C151",
   "status": "proved",
   "theorems": [
    "Pysad.C151_hst_cells",
    "Pysad.C151_hst_score",
    "Pysad.C151_hst_depth_zero"
   ],
   "note": "In exact arithmetic, in which the splits are exact fractions of the ranges."
  },
  {
   "property": "C152",
   "status": "proved",
   "theorems": [
    "Pysad.C152_unit_norm_range",
    "Pysad.C152_unit_norm_accuracy",
    "Pysad.C152_unit_norm_zero"
   ],
   "note": "Doubles without bounds on the exponent (no overflow, underflow or subnormal numbers); products are rounded before they are added (no fused multiply-add)."
  },
  {
   "property": "C153",
   "status": "proved",
   "theorems": [
    "Pysad.C153_mad_doubles",
    "Pysad.C153_sad_doubles",
    "Pysad.C153_sad_mean_doubles"
   ],
   "note": "Doubles without bounds on the exponent. That the variance may read as negative, so that StandardAbsoluteDeviation answers nan, is C16 (refuted there)."
  },
  {
   "property": "C154",
   "status": "proved",
   "theorems": [
    "Pysad.C154_hst_expected",
    "Pysad.C154_hst_similarity",
    "Pysad.C154_hst_kernel"
   ],
   "note": "Reals instead of doubles; the draws of np.random.randint are taken as independent and uniform."
  },
  {
   "property": "C155",
   "status": "partial",
   "theorems": [
    "Pysad.C155_hst_partial",
    "Pysad.C155_sad_partial",
    "Pysad.C155_sad_refuted",
    "Pysad.C155_relent_raises_partial",
    "Pysad.C155_relent_score_partial"
   ],
   "note": "Refuted for StandardAbsoluteDeviation (C155_sad_refuted): after one fitted nan or infinity every score is nan for ever (C155_sad_partial). Proved for HalfSpaceTrees (C155_hst_partial) and RelativeEntropy (C155_relent_raises_partial, C155_relent_score_partial). ExactStorm is C116_storm_forgets. MedianAbsoluteDeviation is left out: with nan in the list the result of sorted() depends on the algorithm."
  },
  {
   "property": "C156",
   "status": "proved",
   "theorems": [
    "Pysad.C156_hst",
    "Pysad.C156_hst_order",
    "Pysad.C156_rshash",
    "Pysad.C156_xstream",
    "Pysad.C156_xstream_order"
   ],
   "note": "Hoeffding's inequality over independent uniform shifts, for the scores the detector models return after every history; features and widths are arbitrary and fixed, the chance is over the shifts only. For HalfSpaceTrees the chance is over all drawn splits, by the same inequality for a finite set of equally likely draws."
  },
  {
   "property": "C157",
   "status": "partial",
   "theorems": [
    "Pysad.C157_storm",
    "Pysad.C157_relent",
    "Pysad.C157_xstream",
    "Pysad.C157_conformal",
    "Pysad.C157_running_zscore",
    "Pysad.C157_rshash_refuted",
    "Pysad.C157_loda_refuted",
    "Pysad.C157_loda_partial",
    "Pysad.C157_inqmad_refuted"
   ],
   "note": "Proved for ExactStorm, RelativeEntropy, xStream, conformal calibration and the running z-score. False of RSHash (counts fade with age), LODA (only the last instance is kept) and Inqmad (density of the last instance only): C157_rshash_refuted, C157_loda_refuted, C157_inqmad_refuted. C157_loda_partial: the order before the last instance does not matter."
  },
  {
   "property": "C158",
   "status": "proved",
   "theorems": [
    "Pysad.C158_hst",
    "Pysad.C158_xstream",
    "Pysad.C158_refwindow",
    "Pysad.C158_refwindow_initial",
    "Pysad.C158_refwindow_score"
   ],
   "note": "HalfSpaceTrees and xStream with `Steady`; ReferenceWindowModel for the model object itself (stronger than equal training data, because training may be random), without and with an initial window."
  },
  {
   "property": "C159",
   "status": "proved",
   "theorems": [
    "Pysad.C159_running_average",
    "Pysad.C159_running_max",
    "Pysad.C159_running_median",
    "Pysad.C159_median",
    "Pysad.C159_average",
    "Pysad.C159_max",
    "Pysad.C159_sharp"
   ],
   "note": "Proved for every linearly ordered field, with the delays w, w/2+1 and (number of old scores)+1; the remaining share of the old level in the whole-stream average is given exactly. C159_sharp: the delays of the running average and median cannot be shortened in general."
  },
  {
   "property": "C160",
   "status": "partial",
   "theorems": [
    "Pysad.C160_esd_partial",
    "Pysad.C160_esd_reports_partial",
    "Pysad.C160_hybrid_partial",
    "Pysad.C160_hybrid_blind",
    "Pysad.C160_hybrid_refuted"
   ],
   "note": "Proved for SeasonalESD with an explicit threshold (C160_esd_partial, C160_esd_reports_partial). False of SeasonalHybridESD: if more than half of the residuals are equal nothing is ever reported (C160_hybrid_blind, C160_hybrid_refuted); proved for it when the median absolute deviation is above the cut-off of 1e-10 (C160_hybrid_partial). Reals instead of doubles; STL and the quantile function are arbitrary."
  },
  {
   "property": "C161",
   "status": "partial",
   "theorems": [
    "Pysad.C161_esd_partial",
    "Pysad.C161_hybrid_refuted"
   ],
   "note": "Proved for SeasonalESD with the bound (window_size - 1)/sqrt(window_size) (C161_esd_partial); false of SeasonalHybridESD (C161_hybrid_refuted)."
  },
  {
   "property": "C162",
   "status": "proved",
   "theorems": [
    "Pysad.C162_zscore",
    "Pysad.C162_running_zscore",
    "Pysad.C162_sad",
    "Pysad.C162_sad_median",
    "Pysad.C162_gaussian",
    "Pysad.C162_zscore_attained"
   ],
   "note": "Samuelson's inequality for the samples of C36, C38 and C68; with the median also that median and mean differ by at most one standard deviation. Reals instead of doubles. An alarm threshold t cannot be exceeded before more than t^2 earlier scores were seen, and never with a window of at most t^2 + 1."
  },
  {
   "property": "C163",
   "status": "partial",
   "theorems": [
    "Pysad.C163_kitnet_distance_partial",
    "Pysad.C163_kitnet_limit_partial",
    "Pysad.C163_kitnet_units",
    "Pysad.C163_kitnet_wrong_pair",
    "Pysad.C163_kitnet_refuted"
   ],
   "note": "False: deviations are taken from the running mean (C163_kitnet_refuted; C163_kitnet_wrong_pair: two negatively correlated features get a common autoencoder although another pair is positively correlated). Proved: the distances differ from one minus Pearson's correlation by at most 3/2 (1 + ln N)/N (R_i^2/var_i + R_j^2/var_j) and agree for linearly dependent or constant features (C163_kitnet_distance_partial), so they converge (C163_kitnet_limit_partial); the units of features make no difference (C163_kitnet_units). Reals instead of doubles; linkage is a parameter."
  },
  {
   "property": "C164",
   "status": "partial",
   "theorems": [
    "Pysad.C164_partly_labelled_raises_refuted",
    "Pysad.C164_partly_labelled_number_refuted",
    "Pysad.C164_partly_labelled_shift_refuted",
    "Pysad.C164_partly_labelled_instances_partial",
    "Pysad.C164_partly_labelled_instances_initial_partial"
   ],
   "note": "False in three ways (refuted): a labelled slide after an unlabelled window raises ValueError; while the window fills fewer labels than instances are passed on; an unlabelled slide keeps the labels of the previous training set, so labels shift to other instances. Partial: for every pattern of labels, as long as no fit raised, the training instances are those of the documented window, with or without an initial window."
  },
  {
   "property": "C165",
   "status": "partial",
   "theorems": [
    "Pysad.C165_esd_partial",
    "Pysad.C165_esd_reports_partial",
    "Pysad.C165_hybrid_partial",
    "Pysad.C165_hybrid_refuted",
    "Pysad.C165_too_many"
   ],
   "note": "Proved for SeasonalESD with an explicit threshold (C165_esd_partial, C165_esd_reports_partial). False of SeasonalHybridESD already for one spike (C165_hybrid_refuted); proved for it when no more than (window_size - max_anomalies)/2 residuals lie within a small distance of each other (C165_hybrid_partial). C165_too_many: nothing of the kind can hold for more than max_anomalies spikes. Reals instead of doubles; STL and the quantile function are arbitrary."
  },
  {
   "property": "C166",
   "status": "partial",
   "theorems": [
    "Pysad.C166_shift_partial",
    "Pysad.C166_scale_partial",
    "Pysad.C166_refuted"
   ],
   "note": "False because of the absolute cut-off of 1e-10 for the scale (C166_refuted: a stream whose spike is reported in one unit and not in another). Proved: the zero of the values does not matter (C166_shift_partial), and a score that is not 0 does not change in a smaller unit (C166_scale_partial). Reals instead of doubles; STL and the quantile function are arbitrary."
  },
  {
   "property": "C167",
   "status": "partial",
   "theorems": [
    "Pysad.C167_storm",
    "Pysad.C167_streamhash",
    "Pysad.C167_xstream",
    "Pysad.C167_inqmad",
    "Pysad.C167_rshash",
    "Pysad.C167_unit_norm_partial",
    "Pysad.C167_unit_norm_refuted",
    "Pysad.C167_standard_refuted",
    "Pysad.C167_hst_partial",
    "Pysad.C167_hst_refuted"
   ],
   "note": "Proved for ExactStorm (any value), xStream, StreamhashProjector, Inqmad, RSHash and, for every order but minus infinity, InstanceUnitNormScaler. Refuted for InstanceStandardScaler (it standardises over the features of one instance), for InstanceUnitNormScaler of order minus infinity (the norm becomes zero) and for HalfSpaceTrees (splits are spent on the constant feature); for HalfSpaceTrees it is proved that the expected score never rises."
  },
  {
   "property": "C168",
   "status": "proved",
   "theorems": [
    "Pysad.C168_transform",
    "Pysad.C168_fit_transform",
    "Pysad.C168_default",
    "Pysad.C168_units",
    "Pysad.C168_bounded"
   ],
   "note": "All histories, in every field of characteristic 0; C168_bounded for ordered fields. Sums are exact; rounding is not covered."
  },
  {
   "property": "C169",
   "status": "partial",
   "theorems": [
    "Pysad.C169_storm",
    "Pysad.C169_null",
    "Pysad.C169_hst",
    "Pysad.C169_relent",
    "Pysad.C169_sesd",
    "Pysad.C169_xstream",
    "Pysad.C169_rshash_refuted",
    "Pysad.C169_mad_refuted",
    "Pysad.C169_sad_median_refuted",
    "Pysad.C169_sad_mean_refuted",
    "Pysad.C169_loda_refuted",
    "Pysad.C169_kitnet_refuted",
    "Pysad.C169_knncad_refuted",
    "Pysad.C169_inqmad_refuted",
    "Pysad.C169_rrcf_refuted",
    "Pysad.C169_perfect_refuted",
    "Pysad.C169_refwindow_refuted"
   ],
   "note": "Proved: ExactStorm, HalfSpaceTrees, RelativeEntropy, Seasonal ESD (0), NullModel (1/2), xStream (-1). Refuted for the others, each with the answer to every question: RSHash returns None; MedianAbsoluteDeviation, StandardAbsoluteDeviation, PerfectModel, LODA, KitNet, KNNCAD, Inqmad, RobustRandomCutForest and ReferenceWindowModel without initial window raise. RandomModel draws anew for each call (C127)."
  },
  {
   "property": "C170",
   "status": "proved",
   "theorems": [
    "Pysad.C170_storm",
    "Pysad.C170_storm_order",
    "Pysad.C170_conformal",
    "Pysad.C170_conformal_all",
    "Pysad.C170_running_average",
    "Pysad.C170_running_median",
    "Pysad.C170_hst"
   ],
   "note": "Hoeffding's inequality over all sequences of equally likely draws from a finite population, composed with C50, C37, C35 and C53. Real arithmetic. Not covered: draws that depend on each other, xStream, RSHash."
  },
  {
   "property": "C171",
   "status": "partial",
   "theorems": [
    "Pysad.C171_auroc",
    "Pysad.C171_aupr_refuted",
    "Pysad.C171_aupr_partial",
    "Pysad.C171_precision",
    "Pysad.C171_recall",
    "Pysad.C171_windowed",
    "Pysad.C171_windowed_aupr_partial"
   ],
   "note": "AUROC, Precision and Recall: proved for every stream; windowed Precision and Recall for every window size. AUPR is refuted when the first detector ties anomalies (raising one of three tied anomalies lowers the rating from 3/4 to 2/3) and proved whenever it does not, or when only normal instances are rescored."
  },
  {
   "property": "C172",
   "status": "partial",
   "theorems": [
    "Pysad.C172_shortfall_partial",
    "Pysad.C172_better",
    "Pysad.C172_average_refuted",
    "Pysad.C172_maximum_refuted",
    "Pysad.C172_median_refuted",
    "Pysad.C172_weighted_refuted"
   ],
   "note": "Refuted for average, weighted average, maximum and median (two detectors rated 2/3 make an average rated 1/3). Proved: what the ensemble falls short of a perfect AUROC is at most what its detectors fall short together (reached by the witness), and an ensemble of better detectors is not rated lower."
  },
  {
   "property": "C173",
   "status": "partial",
   "theorems": [
    "Pysad.C173_sums",
    "Pysad.C173_extremes",
    "Pysad.C173_unlimited",
    "Pysad.C173_average_refuted",
    "Pysad.C173_variance_refuted",
    "Pysad.C173_median_refuted",
    "Pysad.C173_maximum_refuted",
    "Pysad.C173_window_refuted",
    "Pysad.C173_running_refuted",
    "Pysad.C173_storm_refuted",
    "Pysad.C173_window_partial"
   ],
   "note": "Proved for CountMeter, SumMeter, SumSquaresMeter (update and remove), MaxMeter and MinMeter without remove, UnlimitedWindow. Refuted for AverageMeter, VarianceMeter, MedianMeter, MaxMeter with remove, Window, RunningStatistic, ExactStorm. Window: proved that it holds the most recent values, at most one too many for every interruption. heappush is taken to be one statement; the other detectors are not modelled statement by statement."
  },
  {
   "property": "C174",
   "status": "proved",
   "theorems": [
    "Pysad.C174_hst_recovers",
    "Pysad.C174_soon_refuted"
   ],
   "note": "C174_hst_recovers is the recovery after 2 * window_size fits; hst_statements_complete shows that the assignments the interruptions are placed between together are fit_partial; C174_soon_refuted shows that without those fits the scores can be those of no uninterrupted detector (window_size 1)."
  },
  {
   "property": "C175",
   "status": "proved",
   "theorems": [
    "Pysad.C175_xstream_recovers",
    "Pysad.C175_soon_refuted",
    "Pysad.C175_two_windows_refuted"
   ],
   "note": "C175_xstream_recovers is the recovery after 3 * window_size fits; xstream_statements_complete shows that the assignments the interruptions are placed between together are fit_partial; C175_soon_refuted and C175_two_windows_refuted show that without those fits, or with two windows of them, the scores can be those of no uninterrupted detector (window_size 1). Real (ordered field) arithmetic with floor; hash, draws and log2 are parameters."
  },
  {
   "property": "C176",
   "status": "proved",
   "theorems": [
    "Pysad.C176_rshash_forgets",
    "Pysad.C176_never_exact_refuted"
   ],
   "note": "C176_rshash_forgets is the bound; rshash_statements_complete shows that the assignments the interruptions are placed between together are fit_partial; C176_never_exact_refuted shows that no number of later fits makes the score exact in general. Real arithmetic; the draws of the constructor are arbitrary."
  },
  {
   "property": "C177",
   "status": "partial",
   "theorems": [
    "Pysad.C177_average_refuted",
    "Pysad.C177_average_partial",
    "Pysad.C177_window_refuted",
    "Pysad.C177_running_refuted",
    "Pysad.C177_storm_refuted",
    "Pysad.C177_variance_refuted",
    "Pysad.C177_median_refuted",
    "Pysad.C177_sad_refuted"
   ],
   "note": "False for AverageMeter, VarianceMeter, MedianMeter, Window (every window size), RunningStatistic, ExactStorm and StandardAbsoluteDeviation: for each there is an interruption after which arbitrarily many complete calls do not restore the answers (C177_*_refuted). C177_average_partial says what an average then is: the sum of the values of some reading divided by a count that is too small by at most the number of interruptions. CountMeter, SumMeter, MaxMeter/MinMeter and UnlimitedWindow need no recovery (C173); half-space trees and xStream do recover (C174, C175), RSHash approximately (C176)."
  },
  {
   "property": "C178",
   "status": "partial",
   "theorems": [
    "Pysad.C178_kitnet_partial",
    "Pysad.C178_inqmad",
    "Pysad.C178_kitnet_refuted",
    "Pysad.C178_loda",
    "Pysad.C178_sesd",
    "Pysad.C178_sad_fit_partial",
    "Pysad.C178_mad_fit_partial",
    "Pysad.C178_sad_refuted",
    "Pysad.C178_mad_refuted",
    "Pysad.C178_hst_partial",
    "Pysad.C178_hst_refuted",
    "Pysad.C178_hst_short_refuted",
    "Pysad.C178_knncad_partial",
    "Pysad.C178_knncad_refuted",
    "Pysad.C178_xstream_partial",
    "Pysad.C178_xstream_refuted",
    "Pysad.C178_rshash_partial",
    "Pysad.C178_rshash_refuted",
    "Pysad.C178_storm_refuted",
    "Pysad.C178_storm_partial",
    "Pysad.C178_storm_blocked"
   ],
   "note": "True of LODA (C178_loda) and Seasonal ESD (C178_sesd), and of fit_partial of the two deviation detectors (C178_sad_fit_partial, C178_mad_fit_partial). False otherwise, with what happens instead: the deviation detectors answer scores for several numbers; HalfSpaceTrees and RSHash ignore additional features and accept an instance that lacks some if they happen not to be needed (C178_hst_partial, C178_rshash_partial); KNNCAD uses the first feature only; xStream takes missing features for 0 (C178_xstream_partial); ExactStorm fits everything, and raises for all scores while the window holds an instance of another length (C178_storm_partial, C178_storm_blocked). True of Inqmad (C178_inqmad). KitNet (C178_kitnet_partial, C178_kitnet_refuted): while the feature map is learned wrong lengths cannot be fitted, but for a vector with one entry, which stands for n equal entries, and every score is 0; later, instances that are too short are rejected and those that are too long are cut to n features. The detectors of other libraries are parameters."
  },
  {
   "property": "C179",
   "status": "partial",
   "theorems": [
    "Pysad.C179_average_partial",
    "Pysad.C179_running_average_partial",
    "Pysad.C179_median_partial",
    "Pysad.C179_running_median_partial",
    "Pysad.C179_max_partial",
    "Pysad.C179_running_max_partial",
    "Pysad.C179_statistics_refuted",
    "Pysad.C179_zscore_partial",
    "Pysad.C179_running_zscore_partial",
    "Pysad.C179_zscore_refuted",
    "Pysad.C179_conformal_partial",
    "Pysad.C179_conformal_refuted",
    "Pysad.C179_gauss_partial",
    "Pysad.C179_gauss_plain_partial",
    "Pysad.C179_gauss_refuted"
   ],
   "note": "False before the first fit of every class: the averages, the z-scores and the Gaussian tail raise ZeroDivisionError, the medians IndexError, the maxima return -inf and the conformal calibrator returns nan; the z-scores are also not finite as long as the scores seen are all equal (refuted, *_refuted). Proved for every mixed history: no fit fails and the exact answer as a function of the fitted scores (*_partial), which is a number from the first fit on, and for the z-scores exactly from the moment two retained scores differ."
  },
  {
   "property": "C180",
   "status": "partial",
   "theorems": [
    "Pysad.C180_storm",
    "Pysad.C180_hst",
    "Pysad.C180_xstream",
    "Pysad.C180_rshash",
    "Pysad.C180_loda",
    "Pysad.C180_knncad",
    "Pysad.C180_kitnet",
    "Pysad.C180_inqmad",
    "Pysad.C180_rrcf",
    "Pysad.C180_relent",
    "Pysad.C180_sesd",
    "Pysad.C180_mad",
    "Pysad.C180_sad",
    "Pysad.C180_others",
    "Pysad.C180_perfect_depends",
    "Pysad.C180_refwindow_refuted",
    "Pysad.C180_refwindow_partial"
   ],
   "note": "Proved for all detectors that are not wrappers (their fit_partial does not use y). False of ReferenceWindowModel (and IForestASD and the PyOD integration through it) even around a detector that ignores labels: a labelled instance after unlabelled ones is rejected with ValueError (C180_refwindow_refuted). Proved for it when each of the two streams is labelled throughout or not at all (C180_refwindow_partial)."
  },
  {
   "property": "C181",
   "status": "partial",
   "theorems": [
    "Pysad.C181_dead",
    "Pysad.C181_refuted",
    "Pysad.C181_recovers_partial",
    "Pysad.C181_initial_partial",
    "Pysad.C181_twice",
    "Pysad.C181_unfitted"
   ],
   "note": "Refuted (C181_refuted): if the first window_size - 1 fits are interrupted right after the instance was appended (with window_size 2 a single one), the object never gets a detector; C181_dead: however many fits follow, score_partial raises AttributeError and every sliding_size-th fit ValueError, for every batch detector. Proved: after any history of complete and interrupted fits, whatever the crash points, that began with a complete one (C181_recovers_partial) or any history at all if an initial window was given (C181_initial_partial), window_size + sliding_size complete fits bring the detector up to date with matching labels. C181_twice, C181_unfitted: before that a training set may contain an instance twice, and the detector may refuse to score. Training of the external detector is one store."
  },
  {
   "property": "C182",
   "status": "partial",
   "theorems": [
    "Pysad.C182_fit_dead",
    "Pysad.C182_score_dead",
    "Pysad.C182_harmless_partial",
    "Pysad.C182_refuted"
   ],
   "note": "Refuted (C182_refuted). The crash points are characterised completely: C182_fit_dead: a fit interrupted anywhere between its first insertion into a tree and its end makes every later fit_partial raise KeyError, whatever is called in between; C182_score_dead: a score interrupted while a tree holds the test point leaves it there for good, and every later score of an instance without duplicate raises KeyError; C182_harmless_partial: after interruptions at the other points nothing raises and the trees hold what the completed fits alone would leave, but for one instance the first tree may have forgotten early. Each call into the tree library is one store."
  },
  {
   "property": "C183",
   "status": "partial",
   "theorems": [
    "Pysad.C183_auto_raises",
    "Pysad.C183_auto_refuted",
    "Pysad.C183_batch_dim",
    "Pysad.C183_explicit_partial",
    "Pysad.C183_zero"
   ],
   "note": "False (C183_auto_refuted); C183_auto_raises: with the default no instance can ever be projected, for every tolerance, generator and instance: transform_partial and fit_transform_partial raise ValueError because the Johnson-Lindenstrauss dimension for one row is 0, transform and fit_transform TypeError. C183_batch_dim: for two rows or more the dimension would be at least 16. Proved for an explicit number of components (C183_explicit_partial). What scikit-learn does for 'auto' is trusted (its documentation and source)."
  },
  {
   "property": "C184",
   "status": "partial",
   "theorems": [
    "Pysad.C184_metric_dead",
    "Pysad.C184_metric_refuted",
    "Pysad.C184_metric_partial",
    "Pysad.C184_windowed_dead",
    "Pysad.C184_windowed_partial"
   ],
   "note": "False of the code: an update interrupted between storing the label and storing the prediction makes get of PrecisionMetric, RecallMetric, AUROCMetric and AUPRMetric raise ValueError for ever (C184_metric_dead, C184_metric_refuted for every metric that checks lengths), and stops WindowedMetric from ever completing a window again (C184_windowed_dead). C184_metric_partial and C184_windowed_partial prove the property when no update is interrupted at that point; the windowed one assumes a metric that rates every nonempty window (AUROC rejects windows with one class, see C32)."
  },
  {
   "property": "C185",
   "status": "partial",
   "theorems": [
    "Pysad.C185_locked_partial",
    "Pysad.C185_complete",
    "Pysad.C185_unlimited",
    "Pysad.C185_count_refuted",
    "Pysad.C185_average_refuted",
    "Pysad.C185_average_items_refuted",
    "Pysad.C185_max_refuted",
    "Pysad.C185_window_refuted",
    "Pysad.C185_metric_refuted",
    "Pysad.C185_count_partial",
    "Pysad.C185_count_two",
    "Pysad.C185_metric_partial",
    "Pysad.C185_max_partial"
   ],
   "note": "True of UnlimitedWindow (C185_unlimited). False of CountMeter, AverageMeter, MaxMeter, Window and the scikit-learn metrics (C185_*_refuted, one schedule of two threads each); C185_count_two: any number of updates by two threads may count as two. What holds of them: C185_count_partial (between one and the number of calls), C185_max_partial (no value is lost from the stored list and the maximum is a given value), C185_metric_partial (labels and predictions each complete and in order per thread, but not paired), and C185_locked_partial: any object whose calls are not interleaved (a lock held by the caller) is as after the calls one by one. The steps are those of the language without a promise of atomicity; calls of methods implemented in C (list.append, heappush) are single steps, as under the interpreter lock."
  },
  {
   "property": "C186",
   "status": "partial",
   "theorems": [
    "Pysad.C186_writer",
    "Pysad.C186_count",
    "Pysad.C186_sum",
    "Pysad.C186_max",
    "Pysad.C186_average_refuted",
    "Pysad.C186_average_partial",
    "Pysad.C186_metric_refuted",
    "Pysad.C186_metric_partial",
    "Pysad.C186_median_refuted"
   ],
   "note": "Proved for CountMeter, SumMeter and MaxMeter (C186_count, C186_sum, C186_max), and the second half for every object whose get stores nothing (C186_writer). False of AverageMeter (C186_average_refuted: a mean of 1/2 from a stream of ones; C186_average_partial says what is read: the sum of p values over the number q >= p - 1), of the scikit-learn metrics (C186_metric_refuted; C186_metric_partial: a rating of a beginning of the stream, or ValueError), and of MedianMeter, whose get loses a value that arrives meanwhile (C186_median_refuted)."
  },
  {
   "property": "C187",
   "status": "partial",
   "theorems": [
    "Pysad.C187_knncad_spacing",
    "Pysad.C187_knncad_silent",
    "Pysad.C187_knncad_possible",
    "Pysad.C187_knncad_refuted",
    "Pysad.C187_knncad_partial"
   ],
   "note": "The spacing of alarms is proved in full (C187_knncad_spacing). The possibility of an alarm is false for P <= 304 (C187_knncad_silent, C187_knncad_refuted): while fewer than 2P instances are fitted a score is at most (P-20)/(P-19), because the instance's own score is among those it is compared with. C187_knncad_partial: it is possible exactly for P >= 305."
  },
  {
   "property": "C188",
   "status": "partial",
   "theorems": [
    "Pysad.C188_hst_partial",
    "Pysad.C188_hst_same",
    "Pysad.C188_hst_inside_partial",
    "Pysad.C188_hst_refuted",
    "Pysad.C188_rshash",
    "Pysad.C188_storm_partial",
    "Pysad.C188_storm_alone",
    "Pysad.C188_storm_filling_partial",
    "Pysad.C188_storm_refuted"
   ],
   "note": "True of RSHash (C188_rshash), whose score is one load. False of HalfSpaceTrees and ExactStorm (C188_hst_refuted, C188_storm_refuted). Of HalfSpaceTrees what is proved is that every mass that is loaded is the node's mass after some number of complete fits that is right for that load, though different loads of one score may see different numbers (C188_hst_partial), that the score is right if all loads see the same number (C188_hst_same), and hence whenever a window after the first does not end while it is computed (C188_hst_inside_partial). Of ExactStorm: the score is the near fraction of the last w or w + 1 instances of a right moment (C188_storm_partial), hence consistent until the window is full (C188_storm_filling_partial); C188_storm_alone ties the model to the sequential detector. What is missing is missing because it is false. Not modelled: a load of a list while CPython resizes it (atomic under the interpreter lock)."
  },
  {
   "property": "C189",
   "status": "partial",
   "theorems": [
    "Pysad.C189_alerts_partial",
    "Pysad.C189_never_high_partial",
    "Pysad.C189_greatest_partial",
    "Pysad.C189_first_partial",
    "Pysad.C189_identical",
    "Pysad.C189_refuted",
    "Pysad.C189_every_alert_refuted"
   ],
   "note": "False: the calibrated value is the fraction of recent scores ABOVE the instance's score, so the script alerts about the least anomalous instances (C189_refuted; every alert is wrong: C189_every_alert_refuted; 21 identical instances already raise an alert: C189_identical). Partial: exactly what is printed for every detector and data set (C189_alerts_partial), never the greatest score so far (C189_greatest_partial), never one of the first twenty (C189_first_partial)."
  },
  {
   "property": "C190",
   "status": "proved",
   "theorems": [
    "Pysad.C190_meters",
    "Pysad.C190_windowed",
    "Pysad.C190_sad"
   ],
   "note": "Exact arithmetic; meters over every linearly ordered field, StandardAbsoluteDeviation over the reals."
  },
  {
   "property": "C191",
   "status": "partial",
   "theorems": [
    "Pysad.C191_knncad_refuted",
    "Pysad.C191_knncad_partial",
    "Pysad.C191_relent_partial",
    "Pysad.C191_relent_refuted",
    "Pysad.C191_inqmad",
    "Pysad.C191_loda"
   ],
   "note": "True of LODA (C191_loda) and Inqmad (C191_inqmad). False of KNNCAD: for every probationary period P >= 48 there is a history with P - 47 interrupted fits, one for P = 48, after which every fit raises ValueError and no score is answered, whatever is fitted later (C191_knncad_refuted); up to P - 48 interruptions it is true (C191_knncad_partial), so the bound is exact. False of RelativeEntropy: the reference window may be a later one for ever (C191_relent_refuted); partial: exactly which window is the reference and what the score then is (C191_relent_partial)."
  },
  {
   "property": "C192",
   "status": "partial",
   "theorems": [
    "Pysad.C192_broken",
    "Pysad.C192_partial",
    "Pysad.C192_refuted",
    "Pysad.C192_broken_fit"
   ],
   "note": "Refuted for every season length and window (C192_refuted: a single call interrupted between the assignments of seasonal_sums and seasonal_counts; from then on transform_partial always raises a TypeError, C192_broken, and so does fit_partial once the window is full, C192_broken_fit). C192_partial proves the recovery, with the rate, for all histories that do not start with this half initialisation. Exact arithmetic."
  },
  {
   "property": "C193",
   "status": "partial",
   "theorems": [
    "Pysad.C193_partial",
    "Pysad.C193_dichotomy",
    "Pysad.C193_dead",
    "Pysad.C193_refuted"
   ],
   "note": "False as stated: C193_dead and C193_refuted show, for every configuration and all instances, that one fit interrupted after the feature map was stored makes both methods raise AttributeError whatever follows. C193_partial: the detector recovers from every history in which the fit that finds the feature map was not interrupted. C193_dichotomy: after every history whatsoever the detector either recovers fully or never works again, there is nothing in between."
  },
  {
   "property": "C194",
   "status": "proved",
   "theorems": [
    "Pysad.C194_average",
    "Pysad.C194_variance",
    "Pysad.C194_zscore",
    "Pysad.C194_conformal",
    "Pysad.C194_median",
    "Pysad.C194_deviation_mean",
    "Pysad.C194_deviation_median",
    "Pysad.C194_mad",
    "Pysad.C194_average_bound",
    "Pysad.C194_example"
   ],
   "note": "Real arithmetic; draws pairwise independent and identically distributed; the first or second moment is finite where a mean or variance is concerned, the median is the only one where a median is. GaussianTail is not claimed: its variance is windowed even with windowed=False (C39). C194_example is examples/example_statistics.py."
  },
  {
   "property": "C195",
   "status": "proved",
   "theorems": [
    "Pysad.C195_auroc",
    "Pysad.C195_recall",
    "Pysad.C195_precision",
    "Pysad.C195_aupr"
   ],
   "note": "For the metrics as scikit-learn computes them (RankMetrics); the lower bound for AUPR is by convexity and is attained when all anomalies have the same precision. Exact arithmetic."
  },
  {
   "property": "C196",
   "status": "partial",
   "theorems": [
    "Pysad.C196_recall",
    "Pysad.C196_lowest",
    "Pysad.C196_precision_refuted",
    "Pysad.C196_precision_partial"
   ],
   "note": "Recall, the number of false alarms and the lowest threshold are proved; precision is refuted (a normal instance on top of the ranking), C196_precision_partial proves it for separated scores. Exact arithmetic."
  },
  {
   "property": "C197",
   "status": "proved",
   "theorems": [
    "Pysad.C197_storm",
    "Pysad.C197_hst",
    "Pysad.C197_xstream",
    "Pysad.C197_relent",
    "Pysad.C197_knncad"
   ],
   "note": "Exact arithmetic. Assumed of the libraries: the relative entropy of a histogram and itself is 0 and chi2.isf is positive (C197_relent); what np.linalg.inv returns for a matrix of second moments is an inverse (InvertsMoments, C197_knncad), from which the distances are shown to be nonnegative. An example shows that RelativeEntropy answers -1 when the window is not a whole number of periods."
  },
  {
   "property": "C198",
   "status": "partial",
   "theorems": [
    "Pysad.C198_statistics",
    "Pysad.C198_conformal",
    "Pysad.C198_sad",
    "Pysad.C198_storm",
    "Pysad.C198_hst",
    "Pysad.C198_xstream",
    "Pysad.C198_relent",
    "Pysad.C198_refwindow",
    "Pysad.C198_mad_refuted",
    "Pysad.C198_storm_short_refuted",
    "Pysad.C198_rshash_refuted",
    "Pysad.C198_inqmad_refuted"
   ],
   "note": "Proved for the statistics, StandardAbsoluteDeviation, ConformalProbabilityCalibrator, ExactStorm, HalfSpaceTrees, xStream, RelativeEntropy and ReferenceWindowModel under the stated conditions, any number of passes. Refuted for MedianAbsoluteDeviation (0, 2, 1), RSHash (every configuration, every single instance), Inqmad, and for ExactStorm when the data do not fill the window. Exact arithmetic (the reals for StandardAbsoluteDeviation). KNNCAD, LODA, KitNet and RobustRandomCutForest are not claimed."
  },
  {
   "property": "C199",
   "status": "partial",
   "theorems": [
    "Pysad.C199_scores_partial",
    "Pysad.C199_clear_anomaly_partial",
    "Pysad.C199_refuted"
   ],
   "note": "False of the code: C199_refuted. C199_scores_partial gives exactly what the example passes to the metric (the mean likeness of the last five instances to the very first one), and C199_clear_anomaly_partial shows that such an anomaly is always rated 0."
  },
  {
   "property": "C200",
   "status": "proved",
   "theorems": [
    "Pysad.C200_scores",
    "Pysad.C200_runs"
   ],
   "note": "C200_scores gives the training set behind every score, C200_runs that the whole loop succeeds."
  },
  {
   "property": "C201",
   "status": "proved",
   "theorems": [
    "Pysad.C201_statistics"
   ],
   "note": "For every ordered field and every function in place of the square root."
  },
  {
   "property": "C202",
   "status": "partial",
   "theorems": [
    "Pysad.C202_mad",
    "Pysad.C202_sad_mean",
    "Pysad.C202_sad_median",
    "Pysad.C202_storm",
    "Pysad.C202_inqmad",
    "Pysad.C202_knncad",
    "Pysad.C202_loda",
    "Pysad.C202_hst_partial",
    "Pysad.C202_hst_one_feature_partial",
    "Pysad.C202_hst_refuted",
    "Pysad.C202_relent_refuted",
    "Pysad.C202_sesd"
   ],
   "note": "Proved for the deviation detectors, ExactStorm, KNNCAD, Inqmad, LODA and the two seasonal ESD detectors for all calls. HalfSpaceTrees: proved off the borders between half-spaces (C202_hst_partial, and for one feature from the constructor on), false on a border (C202_hst_refuted). RelativeEntropy: false (C202_relent_refuted), because its two topmost bins are counted as one."
  },
  {
   "property": "C203",
   "status": "partial",
   "theorems": [
    "Pysad.C203_reproducible_partial",
    "Pysad.C203_bad_seed",
    "Pysad.C203_refuted"
   ],
   "note": "False for programs that go on using an object made before the seeding: C203_refuted (a trained LODA keeps its projections). C203_reproducible_partial proves it for every program that uses its own objects, for arbitrary classes drawing from both generators and every history; C203_bad_seed: any other int raises ValueError after Python's generator has been seeded and before numpy's is."
  },
  {
   "property": "C204",
   "status": "partial",
   "theorems": [
    "Pysad.C204_plain_partial",
    "Pysad.C204_no_draws_partial",
    "Pysad.C204_reset",
    "Pysad.C204_seeded_refuted",
    "Pysad.C204_shuffled_refuted"
   ],
   "note": "False: C204_seeded_refuted (get_iterator seeds the global generator, RandomModel repeats itself), C204_shuffled_refuted (shuffling draws from it). Proved for unshuffled unseeded iterators and every detector, for every reading and detectors that draw nothing after their construction; C204_reset says what a seed does."
  },
  {
   "property": "C205",
   "status": "proved",
   "theorems": [
    "Pysad.C205_count",
    "Pysad.C205_sum",
    "Pysad.C205_average",
    "Pysad.C205_variance",
    "Pysad.C205_extremes",
    "Pysad.C205_extremes_reversed",
    "Pysad.C205_median",
    "Pysad.C205_running"
   ],
   "note": "Exact arithmetic (linearly ordered field), all histories."
  },
  {
   "property": "C206",
   "status": "partial",
   "theorems": [
    "Pysad.C206_maximum_silence",
    "Pysad.C206_median",
    "Pysad.C206_aom_silence_partial",
    "Pysad.C206_moa_silence_partial",
    "Pysad.C206_alarm_partial",
    "Pysad.C206_average_refuted",
    "Pysad.C206_maximum_alarm_refuted",
    "Pysad.C206_buckets_alarm_refuted",
    "Pysad.C206_refuted",
    "Pysad.C206_silence_sharp"
   ],
   "note": "Both halves proved of the median (C206_median). False of the average (C206_average_refuted: one broken detector of any number does both) and, the second half, of the maximum and the bucket methods (C206_maximum_alarm_refuted, C206_buckets_alarm_refuted, for every shuffle). First half: the maximum as long as one detector works (C206_maximum_silence); average of maximum as long as the broken ones do not fill a bucket, maximum of average as long as they are fewer than the buckets (C206_aom_silence_partial, C206_moa_silence_partial; C206_silence_sharp: these bounds are sharp). C206_alarm_partial: how far the score can be lifted if scores are bounded. PyOD's combination functions are modelled as documented."
  },
  {
   "property": "C207",
   "status": "proved",
   "theorems": [
    "Pysad.C207_transform",
    "Pysad.C207_fit_transform",
    "Pysad.C207_fades",
    "Pysad.C207_untouched",
    "Pysad.C207_never_forgotten"
   ],
   "note": "Over every linearly ordered field (C207_fades: every archimedean one). C207_transform and C207_fit_transform give the bounds, C207_untouched the unaffected features and windows of 1, C207_never_forgotten the converse for the default window."
  },
  {
   "property": "C208",
   "status": "partial",
   "theorems": [
    "Pysad.C208_damage_partial",
    "Pysad.C208_recovery_partial",
    "Pysad.C208_alone",
    "Pysad.C208_transform_partial",
    "Pysad.C208_single_refuted",
    "Pysad.C208_refuted",
    "Pysad.C208_window_one_partial",
    "Pysad.C208_window_one_refuted",
    "Pysad.C208_every_window_refuted"
   ],
   "note": "False for every season length, number of features and trend window (C208_every_window_refuted). With a window of at least 2 the rejected instance stays in the window, so the next w - 1 fits of right instances and all transforms until then raise ValueError as well (C208_damage_partial), and num_seen does not count them, so that from then on the seasons are counted w - 1 late; C208_recovery_partial gives exactly what is returned afterwards. Also false of transform_partial with an array of one number, which numpy broadcasts (C208_single_refuted). True of transform_partial when neither length is 1 (C208_transform_partial). C208_alone ties the model of arrays of any length to the one used for C168. Assumed of numpy 2.1.3 (requirements.txt): np.asarray raises ValueError for arrays of different lengths. With a window of 1 only transforms before the next fit are spoiled (C208_window_one_refuted), after it nothing shows (C208_window_one_partial, wrong arrays not of length 1)."
  },
  {
   "property": "C209",
   "status": "proved",
   "theorems": [
    "Pysad.C209_transform",
    "Pysad.C209_fit_transform",
    "Pysad.C209_blind"
   ],
   "note": "In every field of characteristic 0. C209_fit_transform and C209_transform give the values, C209_blind which instances get 0. Trend windows that are not whole seasons are not covered."
  },
  {
   "property": "C210",
   "status": "partial",
   "theorems": [
    "Pysad.C210_new_partial",
    "Pysad.C210_same_partial",
    "Pysad.C210_below_partial",
    "Pysad.C210_outside_refuted",
    "Pysad.C210_top_refuted"
   ],
   "note": "False as stated, in two ways: up to window_size - 1 values above max_val, or below min_val by the width of a bin or more, are not counted, so they are not reported, with every configuration whose threshold is positive (C210_outside_refuted); the two topmost parts of the range share a bin (C210_top_refuted, which refutes the full statement C210_statement). Proved, over the reals with scipy.stats.entropy modelled after its documentation: a value in a part where the first window had none gives -1, the two topmost parts taken together (C210_new_partial); so does a value at or below min_val by less than the width of a bin (C210_below_partial); equal counts give 0 (C210_same_partial)."
  },
  {
   "property": "C211",
   "status": "proved",
   "theorems": [
    "Pysad.C211_stuck",
    "Pysad.C211_steady"
   ],
   "note": "Over the reals, with scipy.stats.entropy modelled after its documentation and the threshold any value. C211_stuck is the closed form, C211_steady the case of a stream that never moves."
  },
  {
   "property": "C212",
   "status": "proved",
   "theorems": [
    "Pysad.C212_large",
    "Pysad.C212_small"
   ],
   "note": "Over the reals, with scipy.stats.entropy modelled after its documentation and the threshold any real number. C212_large bounds the relative entropy from below by half the squared total difference of the frequencies (Pinsker's inequality, proved here), C212_small from above by Pearson's statistic."
  },
  {
   "property": "C213",
   "status": "partial",
   "theorems": [
    "Pysad.C213_same_partial",
    "Pysad.C213_one_bin_refuted",
    "Pysad.C213_outside_refuted",
    "Pysad.C213_refuted"
   ],
   "note": "False as stated (C213_refuted): with one bin the threshold is that of a chi-squared distribution with 0 degrees of freedom, nan, and every window is reported (C213_one_bin_refuted); with a first window outside of the range the frequencies are nan and every window is reported from then on (C213_outside_refuted). C213_same_partial: it holds exactly if there are two bins or more and some value of the window is counted."
  },
  {
   "property": "C214",
   "status": "proved",
   "theorems": [
    "Pysad.C214_few",
    "Pysad.C214_many"
   ],
   "note": "Over the reals, with scipy.stats.entropy modelled after its documentation and the threshold any real number; from C212. C214_few: values that are exchanged are not reported; C214_many: a part that gains or loses many values is reported."
  },
  {
   "property": "C215",
   "status": "partial",
   "theorems": [
    "Pysad.C215_alarms_refuted",
    "Pysad.C215_one_part_partial",
    "Pysad.C215_refuted"
   ],
   "note": "False of the code: the hypothesis is itself a random window, and a part of the range that it misses by chance is reported when it is hit later. C215_alarms_refuted: for every window size of at least 2, every number of bins of at least 3 and every threshold there is a distribution with a probability of false alarms of at least 3/16. C215_refuted: with the default arguments. C215_one_part_partial: values in one part only are never reported."
  },
  {
   "property": "C216",
   "status": "proved",
   "theorems": [
    "Pysad.C216_small",
    "Pysad.C216_sharp"
   ],
   "note": "Over the reals, with scipy.stats.entropy modelled after its documentation and the threshold any real number. C216_small: with 2 W ln W below the threshold exactly the windows that fill a new part are reported; C216_sharp: from there on some stream is reported that fills none."
  }
 ]
}