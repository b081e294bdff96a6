{
 "claims": [
  {
   "property": "C01",
   "status": "proved",
   "theorems": [
    "HeraPspec.Antnums.C01_blpair_roundtrip",
    "HeraPspec.Antnums.C01_bl_roundtrip",
    "HeraPspec.Antnums.C01_blpair_injective",
    "HeraPspec.Antnums.C01_bl_injective",
    "HeraPspec.Antnums.C01_blpair_roundtrip_iff",
    "HeraPspec.Antnums.C01_blpair_digits",
    "HeraPspec.Antnums.C01_counterexample_bl",
    "HeraPspec.Antnums.C01_counterexample_blpair"
   ],
   "note": "Round trip for 0..899 (documented domain) plus an exact iff for all integers and collision witnesses outside the domain."
  },
  {
   "property": "C02",
   "status": "proved",
   "theorems": [
    "HeraPspec.Antnums.C02_blpair_decode_float",
    "HeraPspec.Antnums.C02_bl_decode_float",
    "HeraPspec.Antnums.C02_blpair_roundtrip_float",
    "HeraPspec.Antnums.C02_bl_roundtrip_float"
   ],
   "note": "Quantified over every rounding function with relative error <= 2^-53 that is exact on integers up to 2^53; not specific to one rounding mode."
  },
  {
   "property": "C03",
   "status": "proved",
   "theorems": [
    "HeraPspec.Antnums.C03_conj_swaps_baselines",
    "HeraPspec.Antnums.C03_conj_blpair_int_involutive",
    "HeraPspec.Antnums.C03_conj_bl_swaps",
    "HeraPspec.Antnums.C03_conj_bl_int_involutive",
    "HeraPspec.Antnums.C03_conj_blpair_spec",
    "HeraPspec.Antnums.C03_conj_blpair_involutive",
    "HeraPspec.Antnums.C03_first_second_both",
    "HeraPspec.Antnums.C03_blpair_to_bls"
   ],
   "note": "For all integers of at most 12 (6) digits."
  },
  {
   "property": "C04",
   "status": "proved",
   "theorems": [
    "HeraPspec.Polpair.C04_int2tuple_iff",
    "HeraPspec.Polpair.C04_roundtrip",
    "HeraPspec.Polpair.C04_reencode",
    "HeraPspec.Polpair.C04_injective"
   ],
   "note": "Complete iff over all integers, through the decimal string the code slices; conversion to polarization strings (pyuvdata) not modelled."
  },
  {
   "property": "C05",
   "status": "proved",
   "theorems": [
    "HeraPspec.RParams.C05_roundtrip_general",
    "HeraPspec.RParams.C05_roundtrip",
    "HeraPspec.RParams.C05_counterexample_reserved_field"
   ],
   "note": "JSON text encoding itself is trusted; a parameter field named 'baselines' is reserved by the format and is lost (counterexample theorem)."
  },
  {
   "property": "C06",
   "status": "proved",
   "theorems": [
    "HeraPspec.GroupBls.C06_errors",
    "HeraPspec.GroupBls.C06_no_remainder",
    "HeraPspec.GroupBls.C06_keep_remainder",
    "HeraPspec.GroupBls.C06_shuffle_no_loss"
   ],
   "note": "For every Ngroups >= 1, every list and every shuffle."
  },
  {
   "property": "C07",
   "status": "proved",
   "theorems": [
    "HeraPspec.Blpairs.C07_construct_spec",
    "HeraPspec.Blpairs.C07_each_pair_once",
    "HeraPspec.Blpairs.C07_errors",
    "HeraPspec.Blpairs.C07_exclusion_any_list"
   ],
   "note": "For duplicate-free lists; exclusion flags also for lists with repetitions."
  },
  {
   "property": "C08",
   "status": "proved",
   "theorems": [
    "HeraPspec.Blpairs.C08_grouping"
   ],
   "note": "Group sizes >= 1."
  },
  {
   "property": "C09",
   "status": "partial",
   "theorems": [
    "HeraPspec.RedGroups.C09_get_red_bls_partition_partial",
    "HeraPspec.RedGroups.C09_get_red_bls_exactly_one_partial",
    "HeraPspec.RedGroups.C09_get_red_bls_within_tolerance_partial",
    "HeraPspec.RedGroups.C09_counterexample_zero_tolerance",
    "HeraPspec.RedGroups.C09_blvec_reds_partition",
    "HeraPspec.RedGroups.C09_blvec_reds_within_tolerance"
   ],
   "note": "get_blvec_reds: full. get_red_bls: proved for positive tolerances; at tolerance 0 the strict comparison puts no baseline in any group (counterexample theorem)."
  },
  {
   "property": "C10",
   "status": "proved",
   "theorems": [
    "HeraPspec.RedGroups.C10_red_blpairs",
    "HeraPspec.RedGroups.C10_end_to_end",
    "HeraPspec.RedGroups.C10_missing_baseline_raises"
   ],
   "note": "Antenna numbers 0..899. A baseline in no group raises KeyError."
  },
  {
   "property": "C11",
   "status": "proved",
   "theorems": [
    "HeraPspec.RedGroups.C11_present_and_not_excluded",
    "HeraPspec.RedGroups.C11_complete",
    "HeraPspec.RedGroups.C11_flag_exclusion",
    "HeraPspec.RedGroups.C11_finding_neither_kind_returns_crosses"
   ],
   "note": "Redundancies found by hera_cal are an arbitrary parameter. Finding: include_autocorrs=False with include_crosscorrs=False returns cross-correlations."
  },
  {
   "property": "C12",
   "status": "proved",
   "theorems": [
    "HeraPspec.UVP.C12_select_exact",
    "HeraPspec.UVP.C12_select_rejects",
    "HeraPspec.UVP.C12_rows",
    "HeraPspec.UVP.C12_finding_labels_not_selected"
   ],
   "note": "Full refinement of _select (unfolded, or no window selection): result = exactly the matching rows, error iff request malformed or empty. Finding: label arrays are not sliced."
  },
  {
   "property": "C13",
   "status": "proved",
   "theorems": [
    "HeraPspec.UVP.C13_window_selection",
    "HeraPspec.UVP.C13_finding_folded_selection_shrinks_delays"
   ],
   "note": "Proved for unfolded objects; finding theorem: on folded objects the delay arrays shrink while data do not."
  },
  {
   "property": "C14",
   "status": "proved",
   "theorems": [
    "HeraPspec.UVP.C14_select_compose",
    "HeraPspec.UVP.C14_select_idempotent",
    "HeraPspec.UVP.C14_blpairs_then_blpairs",
    "HeraPspec.UVP.C14_blpairs_then_times",
    "HeraPspec.UVP.C14_polpairs_keep_order"
   ],
   "note": "Composition and idempotence for row/polpair selections, as equality of all arrays."
  },
  {
   "property": "C15",
   "status": "proved",
   "theorems": [
    "HeraPspec.UVP.C15_read_after_select"
   ],
   "note": "For every unfolded object and request."
  },
  {
   "property": "C16",
   "status": "partial",
   "theorems": [
    "HeraPspec.UVP.C16_select_common_partial",
    "HeraPspec.UVP.C16_empty_intersection_raises",
    "HeraPspec.UVP.C16_counterexample_polpairs_not_restricted"
   ],
   "note": "Rows and windows exact (times separated beyond the matching tolerance); polpairs are computed but never applied (counterexample theorem); duplicate window ranges keep the first only."
  },
  {
   "property": "C17",
   "status": "proved",
   "theorems": [
    "HeraPspec.UVP.C17_get_data_exact",
    "HeraPspec.UVP.C17_unknown_key_rejected",
    "HeraPspec.UVP.C17_all_keys_once",
    "HeraPspec.UVP.C17_all_keys_readable"
   ],
   "note": "get_data exactness, rejection, get_all_keys complete, duplicate-free and readable."
  },
  {
   "property": "C18",
   "status": "partial",
   "theorems": [
    "HeraPspec.UVP.C18_folded_positive_delays_partial",
    "HeraPspec.UVP.C18_counterexample_two_delays"
   ],
   "note": "Proved for windows with >= 3 centred delays; counterexample for 2 delays where the slice -0: returns everything."
  },
  {
   "property": "C19",
   "status": "partial",
   "theorems": [
    "HeraPspec.UVP.C19_time_to_indices_partial",
    "HeraPspec.UVP.C19_time_to_indices_blpairs_partial",
    "HeraPspec.UVP.C19_counterexample_neighbouring_integration"
   ],
   "note": "Proved when times differ by more than 1e-8+1e-10|t|; counterexample with integrations 10 s apart at a real Julian date."
  },
  {
   "property": "C20",
   "status": "proved",
   "theorems": [
    "HeraPspec.UVP.C20_spw_range",
    "HeraPspec.UVP.C20_all_windows"
   ],
   "note": "Uniformly spaced windows of >= 2 channels, unfolded."
  },
  {
   "property": "C21",
   "status": "proved",
   "theorems": [
    "HeraPspec.Combine.C21_overlap_iff",
    "HeraPspec.Combine.C21_overlap_raises",
    "HeraPspec.Combine.C21_overlap_sets",
    "HeraPspec.Combine.C21_partial_overlap_rejected"
   ],
   "note": "Full: overlap returns axis ax iff Combinable, raises iff no such axis."
  },
  {
   "property": "C22",
   "status": "partial",
   "theorems": [
    "HeraPspec.Combine.C22_combine_partial",
    "HeraPspec.Combine.C22_conflict_raises",
    "HeraPspec.Combine.C22_single",
    "HeraPspec.Combine.C22_counterexample_window_order",
    "HeraPspec.Combine.C22_counterexample_row_order"
   ],
   "note": "Proved for all axes under Aligned (first object's windows stored in increasing order unless windows are concatenated; along polpairs/windows all inputs store rows in the same order and rows differ in blpair or rounded first time). Counterexamples show the code violates the unrestricted claim."
  },
  {
   "property": "C23",
   "status": "partial",
   "theorems": [
    "HeraPspec.Combine.C23_order_independent_partial",
    "HeraPspec.Combine.C23_every_order_combinable",
    "HeraPspec.Combine.C23_counterexample_row_order"
   ],
   "note": "Same hypotheses as C22; counterexample for differently ordered rows."
  },
  {
   "property": "C24",
   "status": "partial",
   "theorems": [
    "HeraPspec.Combine.C24_lookup_partial",
    "HeraPspec.Combine.C24_lookup_general",
    "HeraPspec.Combine.C24_counterexample_second_time",
    "HeraPspec.Combine.C24_counterexample_missing"
   ],
   "note": "Needs source rows distinguished by (blpair, rounded time_1): time_2 is ignored by the code; counterexamples given; C24_lookup_general characterises the result for all tables."
  },
  {
   "property": "C25",
   "status": "proved",
   "theorems": [
    "HeraPspec.Recursive.C25_empty_raises",
    "HeraPspec.Recursive.C25_uses_every_input_once",
    "HeraPspec.Recursive.C25_equals_left_fold",
    "HeraPspec.Recursive.C25_recursive_combine_entries"
   ],
   "note": "Generic: plan uses each input exactly once in order; equals the left fold for associative merges; for the actual combine along blpairts the entries are the union."
  },
  {
   "property": "C26",
   "status": "proved",
   "theorems": [
    "HeraPspec.Recursive.C26_batches_cover",
    "HeraPspec.Recursive.C26_uses_every_file_once",
    "HeraPspec.Recursive.C26_batch_size_irrelevant",
    "HeraPspec.Recursive.C26_no_files_raises",
    "HeraPspec.Recursive.C26_fast_merge_entries"
   ],
   "note": "As C25 for every batch size; no files raises."
  },
  {
   "property": "C27",
   "status": "proved",
   "theorems": [
    "HeraPspec.Fold.C27_positive_delay_is_mean",
    "HeraPspec.Fold.C27_zero_and_negative",
    "HeraPspec.Fold.C27_fold_object",
    "HeraPspec.Fold.C27_refuses_twice",
    "HeraPspec.Fold.C27_finding_stats_nan"
   ],
   "note": "Element-wise: for odd and even N, every positive delay holds the mean, zero delay unchanged, negatives zeroed; nsample doubled; second fold raises. Finding: with a stats_array the negative delays of the data are NaN."
  },
  {
   "property": "C28",
   "status": "partial",
   "theorems": [
    "HeraPspec.Fold.C28_symmetric_lossless",
    "HeraPspec.Fold.C28_linear",
    "HeraPspec.Fold.C28_cov_symmetric",
    "HeraPspec.Fold.C28_cov_positive_partial",
    "HeraPspec.Fold.C28_finding_zero_delay_cov",
    "HeraPspec.Fold.C28_counterexample_zero_delay_cov",
    "HeraPspec.Fold.C28_stats_fold",
    "HeraPspec.Fold.C28_finding_error_understated"
   ],
   "note": "Losslessness, linearity, symmetry of the folded covariance and the quadrature fold of statistics are proved for every N. Partial: covariance between zero delay and a positive delay is not folded by the code (counterexample), the others are."
  },
  {
   "property": "C29",
   "status": "proved",
   "theorems": [
    "HeraPspec.Average.C29_mean_perm",
    "HeraPspec.Average.C29_mean_ignores_zero_weight",
    "HeraPspec.Average.C29_mean_const",
    "HeraPspec.Average.C29_mean_between",
    "HeraPspec.Average.C29_groups",
    "HeraPspec.Average.C29_weighted_mean",
    "HeraPspec.Average.C29_group_order",
    "HeraPspec.Average.C29_succeeds_iff"
   ],
   "note": "Proved for every successful call, grouping, option and for data in any real vector space: output rows are the weighted means of exactly the group members; bounds, constants, zero weights, order independence. NaN not modelled; regularity = division guards (1e-40) inactive."
  },
  {
   "property": "C30",
   "status": "partial",
   "theorems": [
    "HeraPspec.Average.C30_error_le_max",
    "HeraPspec.Average.C30_error_equal",
    "HeraPspec.Average.C30_quadrature_partial",
    "HeraPspec.Average.C30_inverse_variance_optimal"
   ],
   "note": "Quadrature formula, bound by the largest error, s/sqrt(n). Partial: averaged errors with square <= 1e-8 are replaced by infinity (np.isclose against 0), which the theorem states exactly."
  },
  {
   "property": "C31",
   "status": "partial",
   "theorems": [
    "HeraPspec.Average.C31_integer_weights_partial",
    "HeraPspec.Average.C31_equal_weights",
    "HeraPspec.Average.C31_finding_truncation",
    "HeraPspec.Average.C31_counterexample",
    "HeraPspec.Average.C31_finding_unnormalised"
   ],
   "note": "False in general: int() truncates the normalised weights ([3,1] -> [1,0]; counterexample on the whole group average); normalize_weights=False still multiplies by the group size (finding). Proved for weights that are integers after normalisation."
  },
  {
   "property": "C32",
   "status": "proved",
   "theorems": [
    "HeraPspec.Bootstrap.C32_weights_sum_to_draws",
    "HeraPspec.Bootstrap.C32_available",
    "HeraPspec.Bootstrap.C32_average_over_draws",
    "HeraPspec.Bootstrap.C32_call",
    "HeraPspec.Bootstrap.C32_result",
    "HeraPspec.Bootstrap.C32_unknown_pair_refused",
    "HeraPspec.Bootstrap.C32_finding_two_objects_raise",
    "HeraPspec.GroupBls.C32_sample_baselines"
   ],
   "note": "Sampling and averaging proved for every group, draw and object: weights sum to the number of draws and the averaged spectrum is the plain weighted mean over the drawn pairs. Finding: with more than one object the call always raises TypeError (unknown keyword pols), C32_finding_*."
  },
  {
   "property": "C33",
   "status": "proved",
   "theorems": [
    "HeraPspec.Spherical.C33_one_bin_per_mode",
    "HeraPspec.Spherical.C33_outside_modes_zero",
    "HeraPspec.Spherical.C33_bins_disjoint",
    "HeraPspec.Spherical.C33_accepts_disjoint",
    "HeraPspec.Spherical.C33_bin_edges"
   ],
   "note": "Proved for every bin set and every mode: rows of the design matrix hold at most one 1, in a bin (left,right] that contains the mode."
  },
  {
   "property": "C34",
   "status": "proved",
   "theorems": [
    "HeraPspec.Spherical.C34_unbiased",
    "HeraPspec.Spherical.C34_bin_is_weighted_mean",
    "HeraPspec.Spherical.C34_weights",
    "HeraPspec.Spherical.C34_bin_error",
    "HeraPspec.Spherical.C34_cov_symmetric",
    "HeraPspec.Spherical.C34_cov_matches_error"
   ],
   "note": "Proved with np.linalg.pinv specified by the Moore-Penrose equations: unbiased, weighted mean per bin, error 1/sqrt(sum 1/s^2), symmetric covariance, covariance diagonal equals squared error."
  },
  {
   "property": "C35",
   "status": "partial",
   "theorems": [
    "HeraPspec.DelayBins.C35_slices",
    "HeraPspec.DelayBins.C35_mirror_partial",
    "HeraPspec.DelayBins.C35_counterexample_even",
    "HeraPspec.DelayBins.C35_finding_even_asymmetric",
    "HeraPspec.DelayBins.C35_refuses",
    "HeraPspec.DelayBins.C35_zero_delay",
    "HeraPspec.DelayBins.C35_finding_empty_kernel"
   ],
   "note": "Slices proved disjoint, contiguous, in range, of the right sizes and maximal for every size. Mirror symmetry proved for odd numbers of delays; false for even numbers when the kernel length divides z - nzero/2 (C35_finding_even_asymmetric, C35_counterexample_even); empty kernel loops forever."
  },
  {
   "property": "C36",
   "status": "partial",
   "theorems": [
    "HeraPspec.DelayBins.C36_kernel_normalised",
    "HeraPspec.DelayBins.C36_data_linear",
    "HeraPspec.DelayBins.C36_data_local",
    "HeraPspec.DelayBins.C36_cov_is_bilinear",
    "HeraPspec.DelayBins.C36_cov_consistent",
    "HeraPspec.DelayBins.C36_cov_symmetric",
    "HeraPspec.DelayBins.C36_cov_diagonal",
    "HeraPspec.DelayBins.C36_cov_stat_partial",
    "HeraPspec.DelayBins.C36_rms_formula",
    "HeraPspec.DelayBins.C36_rms_constant",
    "HeraPspec.DelayBins.C36_finding_rms_not_cov",
    "HeraPspec.DelayBins.C36_window_normalised"
   ],
   "note": "Everything proved except that errors binned as rms equal the covariance diagonal: true for statistics in cov_weighted_stats, false otherwise (C36_finding_rms_not_cov)."
  },
  {
   "property": "C37",
   "status": "proved",
   "theorems": [
    "HeraPspec.Container.C37_get_is_map_lookup",
    "HeraPspec.Container.C37_last_write_wins",
    "HeraPspec.Container.C37_spectra",
    "HeraPspec.Container.C37_groups",
    "HeraPspec.Container.C37_finding_header_group"
   ],
   "note": "Proved for any container history; finding: a group called 'header' holds spectra but groups() does not list it."
  },
  {
   "property": "C38",
   "status": "proved",
   "theorems": [
    "HeraPspec.Container.C38_no_overwrite",
    "HeraPspec.Container.C38_read_only",
    "HeraPspec.Container.C38_swmr_no_new",
    "HeraPspec.Container.C38_swmr_overwrites"
   ],
   "note": "Proved."
  },
  {
   "property": "C39",
   "status": "partial",
   "theorems": [
    "HeraPspec.Container.C39_other_failures_harmless_partial",
    "HeraPspec.Container.C39_finding_overwrite_destroys",
    "HeraPspec.Container.C39_counterexample",
    "HeraPspec.Container.C39_finding_failed_write_occupies_name"
   ],
   "note": "Partial: an overwrite whose write fails loses the old spectrum, and a failed write leaves a half-written name behind; witnesses are the counterexample theorems."
  },
  {
   "property": "C40",
   "status": "partial",
   "theorems": [
    "HeraPspec.Transact.C40_closed_partial",
    "HeraPspec.Transact.C40_closed_after_history_partial",
    "HeraPspec.Transact.C40_kept_open",
    "HeraPspec.Transact.C40_nested_keeps_open",
    "HeraPspec.Transact.C40_methods_never_use_closed_handle",
    "HeraPspec.Transact.C40_unnested_inner_call_closes",
    "HeraPspec.Transact.C40_finding_left_open"
   ],
   "note": "Partial: holds for ordinary exceptions raised by the body; a BaseException, or a header-update failure inside _open, leaves the file open (witnesses)."
  },
  {
   "property": "C41",
   "status": "proved",
   "theorems": [
    "HeraPspec.Transact.C41_open_retries",
    "HeraPspec.Transact.C41_negative_maxiter"
   ],
   "note": "Proved."
  },
  {
   "property": "C42",
   "status": "partial",
   "theorems": [
    "HeraPspec.CombinePsc.C42_output_name",
    "HeraPspec.CombinePsc.C42_output_name_no_dset",
    "HeraPspec.CombinePsc.C42_merges_own_names_partial",
    "HeraPspec.CombinePsc.C42_counterexample",
    "HeraPspec.CombinePsc.C42_finding_keep_open_false"
   ],
   "note": "Partial: name matching by substring merges/deletes spectra of other pairs; keep_open=False always raises (witnesses)."
  },
  {
   "property": "C43",
   "status": "partial",
   "theorems": [
    "HeraPspec.JobMonitor.C43_reruns_failed_partial",
    "HeraPspec.JobMonitor.C43_counterexample"
   ],
   "note": "Partial: proved for iterators whose i-th element is i (range(n)), for every failure pattern; for other iterators the code re-runs with indices instead of the jobs (C43_counterexample)."
  },
  {
   "property": "C44",
   "status": "proved",
   "theorems": [
    "HeraPspec.SpwFreq.C44_freqs",
    "HeraPspec.SpwFreq.C44_redshifts",
    "HeraPspec.SpwFreq.C44_redshifts_accepts",
    "HeraPspec.SpwFreq.C44_finding_inclusive_end"
   ],
   "note": "Proved for ascending frequencies; finding: the returned upper index is inclusive while windows elsewhere exclude it."
  },
  {
   "property": "C45",
   "status": "partial",
   "theorems": [
    "HeraPspec.Cov.C45_rejects_negative",
    "HeraPspec.Cov.C45_divisors_positive",
    "HeraPspec.Cov.C45_cross_adjoint",
    "HeraPspec.Cov.C45_hermitian",
    "HeraPspec.Cov.C45_symmetric",
    "HeraPspec.Cov.C45_scaling",
    "HeraPspec.Cov.C45_scaling_auto",
    "HeraPspec.Cov.C45_sample_covariance",
    "HeraPspec.Cov.C45_diagonal_nonneg",
    "HeraPspec.Cov.C45_translation_partial",
    "HeraPspec.Cov.C45_translation_unflagged",
    "HeraPspec.Cov.C45_psd",
    "HeraPspec.Cov.C45_counterexample_weights",
    "HeraPspec.Cov.C45_counterexample_translation"
   ],
   "note": "Hermiticity, cross-adjointness and scaling for all weights; diagonal >= 0 for all 0/1 weights; translation invariance and PSD when channels share their good times. The full translation claim is false for channel-dependent flags (C45_counterexample_translation) and the diagonal claim for general weights (C45_counterexample_weights)."
  },
  {
   "property": "C46",
   "status": "proved",
   "theorems": [
    "HeraPspec.Oqe.C46_rejects",
    "HeraPspec.Oqe.C46_entries",
    "HeraPspec.Oqe.C46_rank_one",
    "HeraPspec.Oqe.C46_delay_transform"
   ],
   "note": "Proved for all modes, sizes, extensions and phase corrections, with and without the FFT shortcut."
  },
  {
   "property": "C47",
   "status": "proved",
   "theorems": [
    "HeraPspec.Oqe.C47_fft_equals_matrix",
    "HeraPspec.Oqe.C47_fft_ignored",
    "HeraPspec.Oqe.C47_exact_refuses_fft"
   ],
   "note": "Proved for all sizes."
  },
  {
   "property": "C48",
   "status": "partial",
   "theorems": [
    "HeraPspec.Oqe.C48_value",
    "HeraPspec.Oqe.C48_linear",
    "HeraPspec.Oqe.C48_conj_linear",
    "HeraPspec.Oqe.C48_key_lists",
    "HeraPspec.Oqe.C48_exchange",
    "HeraPspec.Oqe.C48_beam_symmetric",
    "HeraPspec.Oqe.C48_auto_nonneg",
    "HeraPspec.Oqe.C48_E_form",
    "HeraPspec.Oqe.C48_E_form_exact_partial",
    "HeraPspec.Oqe.C48_counterexample_exact_E"
   ],
   "note": "All claims proved for exact_norm=False. With exact_norm=True the E-matrix form holds for diagonal R2 only: get_unnormed_E multiplies the beam integral into Q R2 instead of Q (C48_counterexample_exact_E)."
  },
  {
   "property": "C49",
   "status": "proved",
   "theorems": [
    "HeraPspec.Oqe.C49_value",
    "HeraPspec.Oqe.C49_nonneg",
    "HeraPspec.Oqe.C49_exchange",
    "HeraPspec.Oqe.C49_symmetric",
    "HeraPspec.Oqe.C49_never_zero"
   ],
   "note": "Proved for exact_norm=False."
  },
  {
   "property": "C50",
   "status": "proved",
   "theorems": [
    "HeraPspec.Oqe.C50_identity",
    "HeraPspec.Oqe.C50_inverse",
    "HeraPspec.Oqe.C50_root",
    "HeraPspec.Oqe.C50_errors"
   ],
   "note": "eigh and pinv are external: theorems hold for whatever they return."
  },
  {
   "property": "C51",
   "status": "proved",
   "theorems": [
    "HeraPspec.Oqe.C51_hermitian"
   ],
   "note": "Proved for empirical and diagonal covariance models without known_cov."
  },
  {
   "property": "C52",
   "status": "proved",
   "theorems": [
    "HeraPspec.Labels.C52_labels_unique",
    "HeraPspec.Labels.C52_labels_stable",
    "HeraPspec.Labels.C52_labels_verbatim",
    "HeraPspec.Labels.C52_collision_suffix",
    "HeraPspec.Labels.C52_finding_limit",
    "HeraPspec.Labels.C52_add_lists",
    "HeraPspec.Labels.C52_add_dict"
   ],
   "note": "All histories of add (rejected calls included) with at most 99999 data sets in total; the limit is exact (C52_finding_limit)."
  },
  {
   "property": "C53",
   "status": "proved",
   "theorems": [
    "HeraPspec.Labels.C53_parse_iff",
    "HeraPspec.Labels.C53_spellings_agree",
    "HeraPspec.Labels.C53_malformed_raise",
    "HeraPspec.Labels.C53_finding_unchecked"
   ],
   "note": "Exact characterisation of accepted keys. Finding: integer indices are not range-checked and trailing entries are ignored."
  },
  {
   "property": "C54",
   "status": "partial",
   "theorems": [
    "HeraPspec.Settings.C54_window_after_set",
    "HeraPspec.Settings.C54_window_in_band_partial",
    "HeraPspec.Settings.C54_symmetric_taper_partial",
    "HeraPspec.Settings.C54_set_symmetric_taper",
    "HeraPspec.Settings.C54_counterexample_one_sided",
    "HeraPspec.Settings.C54_counterexample_set_spw",
    "HeraPspec.Settings.C54_counterexample_add",
    "HeraPspec.Settings.C54_counterexample_range",
    "HeraPspec.Settings.C54_finding_ndlys",
    "HeraPspec.Settings.C54_ndlys",
    "HeraPspec.Settings.C54_identity_size"
   ],
   "note": "Partial: set_spw/add do not re-clip a filter extension, set_spw does not check its range, and a one-sided extension leaves the symmetric taper on (counterexamples). Holds for the order of calls pspec uses."
  },
  {
   "property": "C55",
   "status": "partial",
   "theorems": [
    "HeraPspec.Settings.C55_no_stale_partial",
    "HeraPspec.Settings.C55_pspec_fresh",
    "HeraPspec.Settings.C55_clear_keeps_settings",
    "HeraPspec.Settings.C55_counterexample_set_spw",
    "HeraPspec.Settings.C55_counterexample_r_param",
    "HeraPspec.Settings.C55_finding_nonbinary"
   ],
   "note": "Partial: holds when clear_cache follows each change of window/extension/taper kind/filter parameters/data (as in pspec, C55_pspec_fresh); stale matrices otherwise (counterexamples)."
  },
  {
   "property": "C56",
   "status": "partial",
   "theorems": [
    "HeraPspec.PspecLoop.C56_R_from_Y",
    "HeraPspec.PspecLoop.C56_GH_partial",
    "HeraPspec.PspecLoop.C56_GH_no_exact_norm",
    "HeraPspec.PspecLoop.C56_counterexample_exact_norm"
   ],
   "note": "Partial: the identity-weighting G/H cache is keyed on flags only; with exact_norm and several polarizations the first beam is used for all (counterexample)."
  },
  {
   "property": "C57",
   "status": "partial",
   "theorems": [
    "HeraPspec.PspecLoop.C57_rows_match_partial",
    "HeraPspec.PspecLoop.C57_succeeds_iff",
    "HeraPspec.PspecLoop.C57_finding_first_skipped",
    "HeraPspec.PspecLoop.C57_counterexample_first_skipped",
    "HeraPspec.PspecLoop.C57_Nbltpairs",
    "HeraPspec.PspecLoop.C57_finding_repeated"
   ],
   "note": "Partial: if the first requested polarization is unavailable, the time and baseline-pair metadata stay empty (counterexample)."
  },
  {
   "property": "C58",
   "status": "proved",
   "theorems": [
    "HeraPspec.Flags.C58_one_window",
    "HeraPspec.Flags.C58_separable",
    "HeraPspec.Flags.C58_never_unflags",
    "HeraPspec.Flags.C58_unflag",
    "HeraPspec.Flags.C58_succeeds_iff",
    "HeraPspec.Flags.C58_outside",
    "HeraPspec.Flags.C58_finding_outside",
    "HeraPspec.Flags.C58_finding_overlap"
   ],
   "note": "Proved for any disjoint windows, thresholds, baselines and polarizations, with exact rational fractions. Findings proved as theorems: a channel over the threshold is flagged outside the windows too, and overlapping windows need not end up separable. A window without channels raises."
  },
  {
   "property": "C59",
   "status": "proved",
   "theorems": [
    "HeraPspec.JyMk.C59_call",
    "HeraPspec.JyMk.C59_history",
    "HeraPspec.JyMk.C59_idempotent",
    "HeraPspec.JyMk.C59_any_number",
    "HeraPspec.JyMk.C59_returns"
   ],
   "note": "Proved for any history of calls with any beams, including failed calls. Conversion factors of the beam are an argument."
  },
  {
   "property": "C60",
   "status": "partial",
   "theorems": [
    "HeraPspec.Rephase.C60_call_partial",
    "HeraPspec.Rephase.C60_finding_n_calls",
    "HeraPspec.Rephase.C60_finding_second_call_iff",
    "HeraPspec.Rephase.C60_aligned_partial",
    "HeraPspec.Rephase.C60_amplitude_partial",
    "HeraPspec.Rephase.C60_repeated_lsts_raise",
    "HeraPspec.Rephase.C60_single_lst",
    "HeraPspec.Rephase.C60_inplace_partial",
    "HeraPspec.Rephase.C60_counterexample_twice",
    "HeraPspec.Rephase.C60_finding_pol_order"
   ],
   "note": "The claim is false of the code: data sets that are not drift-phased are reported as skipped but rephased again. Proved: the effect of one call and of n calls (phasor to the n), exactly when the second call is harmless, counterexample; inplace=False leaves the object alone. Missing: idempotence, which does not hold. Also a finding on polarization order."
  },
  {
   "property": "C61",
   "status": "proved",
   "theorems": [
    "HeraPspec.Times.C61_kept_rows",
    "HeraPspec.Times.C61_exact",
    "HeraPspec.Times.C61_filter",
    "HeraPspec.Times.C61_atomic",
    "HeraPspec.Times.C61_returns_iff",
    "HeraPspec.Times.C61_second_call",
    "HeraPspec.Times.C61_finding_second_call_raises",
    "HeraPspec.Times.C61_finding_select_by_time",
    "HeraPspec.Times.C61_grid",
    "HeraPspec.Times.C61_median_step"
   ],
   "note": "Proved for every rounding function and any LST arrays. Findings: the second call may raise (no LST step left), and rows are selected by time."
  },
  {
   "property": "C62",
   "status": "proved",
   "theorems": [
    "HeraPspec.Times.C62_interleave",
    "HeraPspec.Times.C62_disjoint",
    "HeraPspec.Times.C62_alternate",
    "HeraPspec.Times.C62_coverage",
    "HeraPspec.Times.C62_succeeds_iff",
    "HeraPspec.Times.C62_finding_label"
   ],
   "note": "Proved for any rows and times. Finding: the label 'dset1' may be repeated."
  },
  {
   "property": "C63",
   "status": "partial",
   "theorems": [
    "HeraPspec.Scalar.C63_finding_override_ignored",
    "HeraPspec.Scalar.C63_partial",
    "HeraPspec.Scalar.C63_pol_partial",
    "HeraPspec.Scalar.C63_counterexample"
   ],
   "note": "The claim as stated is false of the code: the taper/exact_norm override passed to compute_scalar is ignored; finding and counterexample theorems show it. The partial theorem covers the case where the override equals the object's own setting."
  },
  {
   "property": "C64",
   "status": "proved",
   "theorems": [
    "HeraPspec.Scalar.C64_symmetric",
    "HeraPspec.Scalar.C64_harmonic",
    "HeraPspec.Scalar.C64_zero_iff",
    "HeraPspec.Scalar.C64_nsamp_mean",
    "HeraPspec.Scalar.C64_equal_sides"
   ],
   "note": "Proved; flags are modelled as 0/1 weights."
  },
  {
   "property": "C65",
   "status": "proved",
   "theorems": [
    "HeraPspec.Pstokes.C65_definition",
    "HeraPspec.Pstokes.C65_invertible",
    "HeraPspec.Pstokes.C65_injective",
    "HeraPspec.Pstokes.C65_order",
    "HeraPspec.Pstokes.C65_finding_same_pol"
   ],
   "note": "Proved; finding: the same polarization given twice is accepted."
  },
  {
   "property": "C66",
   "status": "proved",
   "theorems": [
    "HeraPspec.Pstokes.C66_flags",
    "HeraPspec.Pstokes.C66_flags_only",
    "HeraPspec.Pstokes.C66_nsamples",
    "HeraPspec.Pstokes.C66_variance",
    "HeraPspec.Pstokes.C66_bounds"
   ],
   "note": "Proved."
  },
  {
   "property": "C67",
   "status": "proved",
   "theorems": [
    "HeraPspec.Beam.C67_history",
    "HeraPspec.Beam.C67_rejected",
    "HeraPspec.Beam.C67_accepted_iff",
    "HeraPspec.Beam.C67_effect",
    "HeraPspec.Beam.C67_reads",
    "HeraPspec.Beam.C67_get_omegas",
    "HeraPspec.Beam.C67_cross_refused",
    "HeraPspec.Beam.C67_arrays",
    "HeraPspec.Beam.C67_finding_caller_dict",
    "HeraPspec.Beam.C67_finding_empty"
   ],
   "note": "Proved; findings: the caller's dictionary keys are renamed in place, AttributeError for an empty object."
  },
  {
   "property": "C68",
   "status": "proved",
   "theorems": [
    "HeraPspec.Cosmo.C68_freq_round_trip",
    "HeraPspec.Cosmo.C68_redshift_round_trip",
    "HeraPspec.Cosmo.C68_decreasing",
    "HeraPspec.Cosmo.C68_ranges"
   ],
   "note": "Proved over the reals."
  },
  {
   "property": "C69",
   "status": "proved",
   "theorems": [
    "HeraPspec.Cosmo.C69_distances",
    "HeraPspec.Cosmo.C69_curvature",
    "HeraPspec.Cosmo.C69_hubble_law",
    "HeraPspec.Cosmo.C69_volume",
    "HeraPspec.Cosmo.C69_wave_numbers",
    "HeraPspec.Cosmo.C69_dimensionless"
   ],
   "note": "Proved over the reals."
  },
  {
   "property": "C70",
   "status": "proved",
   "theorems": [
    "HeraPspec.Noise.C70_value",
    "HeraPspec.Noise.C70_scaling",
    "HeraPspec.Noise.C70_monotone",
    "HeraPspec.Noise.C70_components"
   ],
   "note": "Proved over the reals."
  },
  {
   "property": "C71",
   "status": "proved",
   "theorems": [
    "HeraPspec.Rescale.C71_values",
    "HeraPspec.Rescale.C71_snr_invariant",
    "HeraPspec.Rescale.C71_finding_half_corrected"
   ],
   "note": "Proved; finding: a missing window raises after earlier windows were changed in place."
  },
  {
   "property": "C72",
   "status": "proved",
   "theorems": [
    "HeraPspec.Rescale.C72_psn",
    "HeraPspec.Rescale.C72_no_noise",
    "HeraPspec.Rescale.C72_monotone",
    "HeraPspec.Rescale.C72_finding_zero"
   ],
   "note": "Proved for finite non-negative error bars; finding: P_SN=0 with P_N>0 gives nan."
  },
  {
   "property": "C73",
   "status": "partial",
   "theorems": [
    "HeraPspec.Window.C73_succeeds_iff",
    "HeraPspec.Window.C73_length",
    "HeraPspec.Window.C73_normalised",
    "HeraPspec.Window.C73_same_beam_one_or_zero",
    "HeraPspec.Window.C73_first_half",
    "HeraPspec.Window.C73_even_second_half",
    "HeraPspec.Window.C73_odd_rows_partial",
    "HeraPspec.Window.C73_odd_window_symmetric",
    "HeraPspec.Window.C73_finding_odd_row_off_by_one",
    "HeraPspec.Window.C73_counterexample_odd",
    "HeraPspec.Window.C73_counterexample_even"
   ],
   "note": "Claim false in general. Proved for every odd channel count: every row is the window of its own delay except row N-N//4, which holds the window of the neighbouring delay (finding, counterexample for N=5). For even counts the filled rows hold the window of the opposite delay (counterexample N=6). Normalisation proved: every window sums to 1 or 0; for equal beams non-negative and 1 or identically zero. N<4 raises IndexError."
  },
  {
   "property": "C74",
   "status": "proved",
   "theorems": [
    "HeraPspec.Window.C74_row_sum",
    "HeraPspec.Window.C74_nonneg_one_or_zero",
    "HeraPspec.Window.C74_each_mode_one_row",
    "HeraPspec.Window.C74_weights_relative",
    "HeraPspec.Window.C74_point_window"
   ],
   "note": "Proved (bl_weights non-negative for the identically-zero part)."
  },
  {
   "property": "C75",
   "status": "partial",
   "theorems": [
    "HeraPspec.Subtract.C75_combines_partial",
    "HeraPspec.Subtract.C75_errors_grow",
    "HeraPspec.Subtract.C75_exposure_shrinks",
    "HeraPspec.Subtract.C75_metadata",
    "HeraPspec.Subtract.C75_weights",
    "HeraPspec.Subtract.C75_succeeds",
    "HeraPspec.Subtract.C75_requires",
    "HeraPspec.Subtract.C75_finding_uncommon_polpair_raises",
    "HeraPspec.Subtract.C75_finding_folded_raises",
    "HeraPspec.Subtract.C75_self_zero",
    "HeraPspec.Subtract.C75_matched_lst",
    "HeraPspec.Subtract.C75_finding_rows_matched_by_position",
    "HeraPspec.Subtract.C75_finding_cov_needs_stats"
   ],
   "note": "Proved for every successful call, with exact conditions for success. Missing: success when polarization-pairs differ (finding: select_common does not restrict them); rows are matched by position rather than LST (finding); folded objects are refused (finding); covariances are combined only if statistics exist (finding)."
  },
  {
   "property": "C76",
   "status": "partial",
   "theorems": [
    "HeraPspec.Rescale.C76_values_partial",
    "HeraPspec.Rescale.C76_relative_errors",
    "HeraPspec.Rescale.C76_counterexample",
    "HeraPspec.Rescale.C76_finding_folded"
   ],
   "note": "Partial: first conversion of unfolded objects; a second conversion is neither refused nor harmless (C76_counterexample); folded objects raise."
  },
  {
   "property": "C77",
   "status": "proved",
   "theorems": [
    "HeraPspec.Circular.C77_range",
    "HeraPspec.Circular.C77_wrap",
    "HeraPspec.Circular.C77_equal",
    "HeraPspec.Circular.C77_rotation",
    "HeraPspec.Circular.C77_stays_on_arc",
    "HeraPspec.Circular.C77_finding_opposite"
   ],
   "note": "Proved over the reals; exactly cancelling angles give 0 (finding)."
  },
  {
   "property": "C78",
   "status": "partial",
   "theorems": [
    "HeraPspec.ArgParse.C78_int_tuples",
    "HeraPspec.ArgParse.C78_tuple_tuples",
    "HeraPspec.ArgParse.C78_str_tuples_partial",
    "HeraPspec.ArgParse.C78_nothing_dropped",
    "HeraPspec.ArgParse.C78_finding_blank_kept"
   ],
   "note": "Integer tuples and tuples of tuples are proved in full for both notations; string tuples in ~ notation only without blanks after commas (C78_finding_blank_kept shows the code keeps such a blank in the word, so the full claim is false there)."
  },
  {
   "property": "C79",
   "status": "proved",
   "theorems": [
    "HeraPspec.Average.C79_statistics_kept",
    "HeraPspec.Average.C79_rows_match_metadata"
   ],
   "note": "Blocks of metadata and data rows have equal lengths and the stated labels/times; hypothesis: equal numbers of integrations in a group, or time averaging (documented requirement)."
  },
  {
   "property": "C80",
   "status": "proved",
   "theorems": [
    "HeraPspec.Average.C80_nsample_conserved"
   ],
   "note": "Sum of nsample conserved for each window and polarization."
  },
  {
   "property": "C81",
   "status": "partial",
   "theorems": [
    "HeraPspec.Average.C81_covariance",
    "HeraPspec.Average.C81_window_partial",
    "HeraPspec.Average.C81_counterexample_exact_window"
   ],
   "note": "Covariance proved; window function proved for approximate windows; exact windows are summed but not divided by the total weight (counterexample)."
  },
  {
   "property": "C82",
   "status": "partial",
   "theorems": [
    "HeraPspec.Spherical.C82_single_pair_partial",
    "HeraPspec.Spherical.C82_finding_integration_multiplied",
    "HeraPspec.Spherical.C82_counterexample"
   ],
   "note": "The full claim is false (C82_finding_integration_multiplied, C82_counterexample): only the first pair's weight normalises, so n pairs give n*t. Proved for one baseline-pair."
  },
  {
   "property": "C83",
   "status": "partial",
   "theorems": [
    "HeraPspec.DelayBins.C83_symmetric_partial",
    "HeraPspec.DelayBins.C83_counterexample_kernel",
    "HeraPspec.DelayBins.C83_counterexample_even"
   ],
   "note": "Proved for an odd number of delays and symmetric kernels; false otherwise (C83_counterexample_kernel, C83_counterexample_even)."
  },
  {
   "property": "C84",
   "status": "proved",
   "theorems": [
    "HeraPspec.Cosmo.C84_closure",
    "HeraPspec.Cosmo.C84_given_parameters",
    "HeraPspec.Cosmo.C84_distance_monotone"
   ],
   "note": "Proved over the reals."
  },
  {
   "property": "C85",
   "status": "proved",
   "theorems": [
    "HeraPspec.Noise.C85_correlation_matrix"
   ],
   "note": "Proved over the reals."
  },
  {
   "property": "C86",
   "status": "partial",
   "theorems": [
    "HeraPspec.Oqe.C86_decorrelates_partial",
    "HeraPspec.Oqe.C86_counterexample_complex"
   ],
   "note": "False for complex covariances (C86_counterexample_complex: eigvects.T is used instead of the conjugate transpose); proved for real ones."
  },
  {
   "property": "C87",
   "status": "partial",
   "theorems": [
    "HeraPspec.Oqe.C87_propagates_partial",
    "HeraPspec.Oqe.C87_value",
    "HeraPspec.Oqe.C87_hermitian_psd",
    "HeraPspec.Oqe.C87_identity_mode",
    "HeraPspec.Oqe.C87_counterexample_complex"
   ],
   "note": "False for complex M (missing conjugation); proved for real M, which includes mode 'I' with equal weightings."
  },
  {
   "property": "C88",
   "status": "proved",
   "theorems": [
    "HeraPspec.Oqe.C88_bin_average",
    "HeraPspec.Oqe.C88_sampling",
    "HeraPspec.Oqe.C88_nonneg"
   ],
   "note": "Proved for exact_norm=False."
  },
  {
   "property": "C89",
   "status": "partial",
   "theorems": [
    "HeraPspec.Settings.C89_taper_used",
    "HeraPspec.Settings.C89_recorded_partial",
    "HeraPspec.Settings.C89_extension_reset",
    "HeraPspec.Settings.C89_counterexample_recorded"
   ],
   "note": "Partial: a window extended on both sides switches the symmetric taper off for itself and all later windows, while the output records the argument (counterexample); C89_taper_used is the exact behaviour."
  },
  {
   "property": "C90",
   "status": "proved",
   "theorems": [
    "HeraPspec.Scalar.C90_exact_norm",
    "HeraPspec.Scalar.C90_beam_scaling",
    "HeraPspec.Scalar.C90_volume_scaling",
    "HeraPspec.Scalar.C90_constant",
    "HeraPspec.Scalar.C90_taper",
    "HeraPspec.Scalar.C90_noise_scalar",
    "HeraPspec.Scalar.C90_positive"
   ],
   "note": "Proved; interpolation, cosmology and the window transform are arguments of the model."
  },
  {
   "property": "C91",
   "status": "proved",
   "theorems": [
    "HeraPspec.Pstokes.C91_filter_succeeds_iff",
    "HeraPspec.Pstokes.C91_filter_correct",
    "HeraPspec.Pstokes.C91_construct"
   ],
   "note": "Proved."
  },
  {
   "property": "C92",
   "status": "partial",
   "theorems": [
    "HeraPspec.Hdf5.C92_round_trip_partial",
    "HeraPspec.Hdf5.C92_no_exact_no_bins",
    "HeraPspec.Hdf5.C92_read_selection",
    "HeraPspec.Hdf5.C92_finding_symmetric_taper",
    "HeraPspec.Hdf5.C92_finding_time_2_stale",
    "HeraPspec.Hdf5.C92_finding_empty_stats",
    "HeraPspec.Hdf5.C92_write_file",
    "HeraPspec.Hdf5.C92_finding_overwrite_loses"
   ],
   "note": "Proved for all metadata, per-window arrays, window functions, covariances and statistics of an object that passes check(), into any reading object, and for reading with a selection. False in the code, and shown as findings: symmetric_taper is never stored (a stale value survives), time_2_array is not cleared by reading (constructor assigns _time_1_array twice), an empty stats_array is lost, exact-window bins are dropped when exact_windows is False, overwriting with an object that fails its check destroys the old file. HDF5 itself (h5py) is an abstract store of named datasets and attributes."
  },
  {
   "property": "C93",
   "status": "partial",
   "theorems": [
    "HeraPspec.UvpEq.C93_eq_true_iff_partial",
    "HeraPspec.UvpEq.C93_eq_refl",
    "HeraPspec.UvpEq.C93_finding_stats_ignored",
    "HeraPspec.UvpEq.C93_finding_unlisted_ignored",
    "HeraPspec.UvpEq.C93_round_trip_equal_partial",
    "HeraPspec.UvpEq.C93_finding_asymmetric",
    "HeraPspec.UvpEq.C93_finding_extra_windows",
    "HeraPspec.UvpEq.C93_finding_missing_raises"
   ],
   "note": "== is characterised exactly. Findings: statistics and attributes outside _all_params (time_2_array, symmetric_taper) are never compared, np.isclose makes it asymmetric, extra windows of the second object go unnoticed and missing ones raise KeyError, a one-sided optional attribute raises AttributeError."
  },
  {
   "property": "C94",
   "status": "proved",
   "theorems": [
    "HeraPspec.Access.C94_omit_flags",
    "HeraPspec.Access.C94_omit_flags_folded",
    "HeraPspec.Access.C94_kept_rows"
   ],
   "note": "Model covers get_data and get_integrations (get_nsamples and get_wgts index other arrays with the same rows)."
  },
  {
   "property": "C95",
   "status": "partial",
   "theorems": [
    "HeraPspec.Access.C95_set_then_get_partial",
    "HeraPspec.Access.C95_shape_refused",
    "HeraPspec.Access.C95_bad_key",
    "HeraPspec.Access.C95_slice_partial",
    "HeraPspec.Access.C95_finding_folded",
    "HeraPspec.Access.C95_finding_slice_folded"
   ],
   "note": "Proved for unfolded objects. Findings on folded ones: set_stats demands all delays while get_stats returns the positive ones; set_stats_slice raises IndexError. Element-type conversion (dtype) is not modelled."
  },
  {
   "property": "C96",
   "status": "proved",
   "theorems": [
    "HeraPspec.Access.C96_separations",
    "HeraPspec.Access.C96_missing_baseline",
    "HeraPspec.Access.C96_order_free",
    "HeraPspec.Access.C96_kperps",
    "HeraPspec.Access.C96_kparas"
   ],
   "note": "Lengths are rational numbers given with bl_array (norms of the ENU vectors are not computed); the redshift-dependent factors are arguments."
  },
  {
   "property": "C97",
   "status": "partial",
   "theorems": [
    "HeraPspec.SetCosmo.C97_rescaled",
    "HeraPspec.SetCosmo.C97_ratio_invariant",
    "HeraPspec.SetCosmo.C97_last_wins",
    "HeraPspec.SetCosmo.C97_invertible",
    "HeraPspec.SetCosmo.C97_no_op",
    "HeraPspec.SetCosmo.C97_units_partial",
    "HeraPspec.SetCosmo.C97_finding_stats_not_rescaled",
    "HeraPspec.SetCosmo.C97_finding_units_without_h",
    "HeraPspec.SetCosmo.C97_finding_hinv_taper"
   ],
   "note": "Powers, scalars and no-op conditions fully proved over any field. Findings: stats_array and covariances are not rescaled; units 'Mpc^3' are kept although the new scalar is in h^-3 Mpc^3; with norm='H^-1' and a taper the scalar stored by pspec is not the one set_cosmology computes for the same cosmology."
  },
  {
   "property": "C98",
   "status": "proved",
   "theorems": [
    "HeraPspec.DelayAdj.C98_enough_delays",
    "HeraPspec.DelayAdj.C98_enough_delays_same",
    "HeraPspec.DelayAdj.C98_identity",
    "HeraPspec.DelayAdj.C98_normalises_by_H"
   ],
   "note": "G and H as modelled in Oqe (exact arithmetic, sampling=False, exact_norm=False). binLoss is the weighted mean of sinc((i-j)/n) over pairs of channels that alias at Ndlys delays."
  },
  {
   "property": "C99",
   "status": "partial",
   "theorems": [
    "HeraPspec.TimeDiff.C99_differences_partial",
    "HeraPspec.TimeDiff.C99_constant_cancels",
    "HeraPspec.TimeDiff.C99_too_few",
    "HeraPspec.TimeDiff.C99_finding_two_differences",
    "HeraPspec.TimeDiff.C99_finding_missing_rows"
   ],
   "note": "Partial: proved that the rows are differences of the same baseline at adjacent times (both row orders), that constants cancel, and when it raises. Violated by the code: the two samples are always neighbours in time whatever time_diff; time_diff (seconds) is divided by days so normally only two differences survive; missing rows mix baselines. UVData.select is external."
  },
  {
   "property": "C100",
   "status": "partial",
   "theorems": [
    "HeraPspec.LensAngs.C100_range",
    "HeraPspec.LensAngs.C100_length",
    "HeraPspec.LensAngs.C100_direction",
    "HeraPspec.LensAngs.C100_reversal_partial",
    "HeraPspec.LensAngs.C100_finding_reversal",
    "HeraPspec.LensAngs.C100_finding_east_west",
    "HeraPspec.LensAngs.C100_aligned",
    "HeraPspec.LensAngs.C100_cuts",
    "HeraPspec.LensAngs.C100_cuts_order",
    "HeraPspec.LensAngs.C100_east_west",
    "HeraPspec.LensAngs.C100_default_angles",
    "HeraPspec.LensAngs.C100_finding_vertical"
   ],
   "note": "Partial: range, length, direction, alignment and the cuts are proved for all vectors; equality under reversal holds from the tolerance North or South on. Violated by the code: within the tolerance of East-West the angle depends on the written direction, and the East-West cut projects the vertical component. arctan2 = Complex.arg, signed zeros not modelled."
  },
  {
   "property": "C101",
   "status": "proved",
   "theorems": [
    "HeraPspec.NoiseErr.C101_psn",
    "HeraPspec.NoiseErr.C101_end_to_end",
    "HeraPspec.NoiseErr.C101_uncorrected",
    "HeraPspec.NoiseErr.C101_repeat",
    "HeraPspec.NoiseErr.C101_precomputed",
    "HeraPspec.NoiseErr.C101_finding_psn_alone",
    "HeraPspec.NoiseErr.C101_finding_needs_autos"
   ],
   "note": "Real values, exact arithmetic; stats as a map (C95). Findings: P_SN alone raises after writing the uncorrected value; the call fails without auto_Tsys even with precomp_P_N."
  },
  {
   "property": "C102",
   "status": "partial",
   "theorems": [
    "HeraPspec.NoiseErr.C102_rows",
    "HeraPspec.NoiseErr.C102_number",
    "HeraPspec.NoiseErr.C102_wrong_length",
    "HeraPspec.NoiseErr.C102_finding_dict_of_numbers",
    "HeraPspec.NoiseErr.C102_temperature_bounds_partial",
    "HeraPspec.NoiseErr.C102_own_time",
    "HeraPspec.NoiseErr.C102_time_match",
    "HeraPspec.NoiseErr.C102_time_indices",
    "HeraPspec.NoiseErr.C102_temperature",
    "HeraPspec.NoiseErr.C102_finding_zero_temperature"
   ],
   "note": "Partial: rows, numbers, arrays, bounds, own-time and time matching proved; violated by the code: with fewer than two unflagged times the temperature of the first time is used even if flagged (zero error bars), and a dictionary of numbers raises."
  },
  {
   "property": "C103",
   "status": "proved",
   "theorems": [
    "HeraPspec.FTBeam.C103_update_refuses",
    "HeraPspec.FTBeam.C103_update_channels",
    "HeraPspec.FTBeam.C103_history",
    "HeraPspec.FTBeam.C103_cuts_compose",
    "HeraPspec.FTBeam.C103_constructor",
    "HeraPspec.FTBeam.C103_constructor_accepts",
    "HeraPspec.FTBeam.C103_read_then_cut",
    "HeraPspec.FTBeam.C103_name",
    "HeraPspec.FTBeam.C103_finding_recorded_range_relative",
    "HeraPspec.FTBeam.C103_bandwidth"
   ],
   "note": "All clauses proved, including histories of cuts by induction. Finding: after two cuts the recorded spw_range is relative to the first cut, not to the file."
  },
  {
   "property": "C104",
   "status": "partial",
   "theorems": [
    "HeraPspec.FTBeam.C104_beams_partial",
    "HeraPspec.FTBeam.C104_frequencies",
    "HeraPspec.FTBeam.C104_succeeds",
    "HeraPspec.FTBeam.C104_finding_equal_letters",
    "HeraPspec.FTBeam.C104_finding_object_pol_ignored",
    "HeraPspec.FTBeam.C104_refuses",
    "HeraPspec.FTBeam.C104_counterexample_xx_yy",
    "HeraPspec.FTBeam.C104_counterexample_wrong_frequencies"
   ],
   "note": "Proved for pairs whose second polarization is written with two different letters or equal pairs; frequencies are those of the window when it is part of the beam's band. Findings: L446 compares two characters of one name, so ('xx','yy') uses the xx beam twice and never reads the yy file; an FTBeam object's polarization is not compared with the pair; a window below the beam's band or with another channel width silently gets other frequencies."
  },
  {
   "property": "C105",
   "status": "partial",
   "theorems": [
    "HeraPspec.Interp.C105_diagonal_partial",
    "HeraPspec.Interp.C105_nodes_and_outside",
    "HeraPspec.Interp.C105_bounds",
    "HeraPspec.Interp.C105_finding_rows_equal",
    "HeraPspec.Interp.C105_finding_linear_beam",
    "HeraPspec.Interp.C105_counterexample",
    "HeraPspec.Interp.C105_array",
    "HeraPspec.Interp.C105_succeeds"
   ],
   "note": "Proved on the diagonal, nodes, outside and bounds. Finding: L630 evaluates the interpolator at (k,k) pairs only and numpy repeats the vector along the first axis, so all rows of the interpolated beam are equal; theorem and counterexample given."
  },
  {
   "property": "C106",
   "status": "partial",
   "theorems": [
    "HeraPspec.Interp.C106_accepts",
    "HeraPspec.Interp.C106_grid_partial",
    "HeraPspec.Interp.C106_ascending",
    "HeraPspec.Interp.C106_finding_even_grid",
    "HeraPspec.Interp.C106_step",
    "HeraPspec.Interp.C106_regular_grid"
   ],
   "note": "All proved; finding: for an even number of pixels the zero of the transform is placed one step above the baseline's k_perp (the docstring says 'preferably odd')."
  },
  {
   "property": "C107",
   "status": "partial",
   "theorems": [
    "HeraPspec.RunWrite.C107_refuses",
    "HeraPspec.RunWrite.C107_other_files",
    "HeraPspec.RunWrite.C107_writes_partial",
    "HeraPspec.RunWrite.C107_succeeds",
    "HeraPspec.RunWrite.C107_finding_clobber_loses_file",
    "HeraPspec.RunWrite.C107_stored_windows_unweighted",
    "HeraPspec.RunWrite.C107_finding_weights_twice"
   ],
   "note": "Contents, refusal and other files proved. Findings: with clobber the old file is removed before the arguments are checked and before the computation, so any exception destroys it; the stored windows are already multiplied by the stored weights (averaging them with the weights applies them twice; averaging without weights is proved right)."
  },
  {
   "property": "C108",
   "status": "partial",
   "theorems": [
    "HeraPspec.ConfigBlps.C108_groupings_partial",
    "HeraPspec.ConfigBlps.C108_lengths",
    "HeraPspec.ConfigBlps.C108_nothing_left",
    "HeraPspec.ConfigBlps.C108_all_excluded",
    "HeraPspec.ConfigBlps.C108_finding_patterns",
    "HeraPspec.ConfigBlps.C108_counterexample_pattern_in_field",
    "HeraPspec.ConfigBlps.C108_counterexample_pattern_group",
    "HeraPspec.ConfigBlps.C108_counterexample_missing_file"
   ],
   "note": "Partial: keys and values proved for every file system; findings: patterns are compared with names whose fields have been replaced by {pol}/{group}, they never remove a combination, and the file read may not exist."
  },
  {
   "property": "C109",
   "status": "partial",
   "theorems": [
    "HeraPspec.Validate.C109_reported_partial",
    "HeraPspec.Validate.C109_distance",
    "HeraPspec.Validate.C109_same_antennas",
    "HeraPspec.Validate.C109_counterexample_unreported",
    "HeraPspec.Validate.C109_pol",
    "HeraPspec.Validate.C109_counterexample_orientation"
   ],
   "note": "Partial: reports characterised exactly; the first baseline is measured with the second object's antenna positions, so pairs up to 3 tolerances apart may go unreported (bound proved, counterexample given)."
  },
  {
   "property": "C110",
   "status": "partial",
   "theorems": [
    "HeraPspec.AnCov.C110_covariance_partial",
    "HeraPspec.AnCov.C110_times",
    "HeraPspec.AnCov.C110_foreground",
    "HeraPspec.AnCov.C110_foreground_variance",
    "HeraPspec.AnCov.C110_positive",
    "HeraPspec.AnCov.C110_finding_small",
    "HeraPspec.AnCov.C110_counterexample_units",
    "HeraPspec.AnCov.C110_counterexample_uniform"
   ],
   "note": "Partial: proved for Gaussian ensembles (Isserlis) in an abstract algebra of random variables; findings: absolute tolerance 1e-8 makes the result depend on the units, and only the first and last C11 decide whether one time stands for all."
  },
  {
   "property": "C111",
   "status": "partial",
   "theorems": [
    "HeraPspec.CovQ.C111_harmonic_partial",
    "HeraPspec.CovQ.C111_refused",
    "HeraPspec.CovQ.C111_finding_autos",
    "HeraPspec.CovQ.C111_finding_zero",
    "HeraPspec.CovQ.C111_counterexample_time"
   ],
   "note": "Partial: harmonic mean proved where no element is zero; findings: model 'autos' and zero elements divide by zero, time index Ntimes is accepted."
  },
  {
   "property": "C112",
   "status": "partial",
   "theorems": [
    "HeraPspec.GetCov.C112_get_cov_and_window",
    "HeraPspec.GetCov.C112_folded_partial",
    "HeraPspec.GetCov.C112_errors",
    "HeraPspec.GetCov.C112_counterexample_two_delays",
    "HeraPspec.GetCov.C112_counterexample_exact_folded"
   ],
   "note": "Not folded: complete. Folded: for three or more delays centred on zero and approximate windows; counterexamples for fewer delays and for exact windows (wrong axis indexed)."
  },
  {
   "property": "C113",
   "status": "proved",
   "theorems": [
    "HeraPspec.ApproxCov.C113_covariance",
    "HeraPspec.ApproxCov.C113_get_cov",
    "HeraPspec.ApproxCov.C113_missing_statistic",
    "HeraPspec.ApproxCov.C113_other_delays_refused",
    "HeraPspec.ApproxCov.C113_finding_one_delay"
   ],
   "note": "Modelled over the reals; taper is an arbitrary window. Finding: one delay is broadcast to n by n."
  },
  {
   "property": "C114",
   "status": "proved",
   "theorems": [
    "HeraPspec.BlGroups.C114_groups",
    "HeraPspec.BlGroups.C114_refused",
    "HeraPspec.BlGroups.C114_finding_silent"
   ],
   "note": "Findings: empty groups shift positions; malformed elements are silently ignored."
  },
  {
   "property": "C115",
   "status": "partial",
   "theorems": [
    "HeraPspec.KBins.C115_delays",
    "HeraPspec.KBins.C115_gaps",
    "HeraPspec.KBins.C115_one_channel",
    "HeraPspec.KBins.C115_kpara_bins_partial",
    "HeraPspec.KBins.C115_kperp_bins_partial",
    "HeraPspec.KBins.C115_finding_autos",
    "HeraPspec.KBins.C115_refused"
   ],
   "note": "Delays proved in full, including channels with gaps. Bins: the zero delay and k_perp below the first edge lie in no bin (documented otherwise), and zero-length baselines give negative bins."
  },
  {
   "property": "C116",
   "status": "proved",
   "theorems": [
    "HeraPspec.ExactWin.C116_exact_windows",
    "HeraPspec.ExactWin.C116_refused"
   ],
   "note": "The window functions, bins and redundant groups (C10) are parameters; the fill, normalization, inplace rules and errors are modelled."
  },
  {
   "property": "C117",
   "status": "proved",
   "theorems": [
    "HeraPspec.AutoVar.C117_variance",
    "HeraPspec.AutoVar.C117_reversed",
    "HeraPspec.AutoVar.C117_models",
    "HeraPspec.AutoVar.C117_known"
   ],
   "note": "Floats are reals; negative time indices and the cache are not modelled. The median integration time of the whole dataset (not of the baseline) enters, as in the code."
  },
  {
   "property": "C118",
   "status": "partial",
   "theorems": [
    "HeraPspec.LoadCfg.C118_entries_partial",
    "HeraPspec.LoadCfg.C118_unique",
    "HeraPspec.LoadCfg.C118_idempotent",
    "HeraPspec.LoadCfg.C118_finding_inside_lists"
   ],
   "note": "Parsing of YAML is not modelled. Partial: nothing inside lists is converted (C118_finding_inside_lists), contrary to the documentation."
  },
  {
   "property": "C119",
   "status": "partial",
   "theorems": [
    "HeraPspec.Tsys.C119_conversion_partial",
    "HeraPspec.Tsys.C119_finding_order",
    "HeraPspec.Tsys.C119_refused",
    "HeraPspec.Tsys.C119_beam",
    "HeraPspec.Tsys.C119_finding_stokes"
   ],
   "note": "Partial: proved for datasets whose polarization axis is in alphabetical order; otherwise the factors are applied to the wrong polarizations (C119_finding_order). With several pseudo-Stokes pairs in a UVPSpec the last one's beam is used for pI (C119_finding_stokes)."
  },
  {
   "property": "C120",
   "status": "proved",
   "theorems": [
    "HeraPspec.BootRun.C120_resamples",
    "HeraPspec.BootRun.C120_reproducible",
    "HeraPspec.BootRun.C120_statistics",
    "HeraPspec.BootRun.C120_std",
    "HeraPspec.BootRun.C120_percentile"
   ],
   "note": "biweight_midvariance is a parameter; groups are given (C97 for the default); percentages outside 0..100 are not modelled. Confidence levels equal to two decimals share a name: the last is kept (stated in C120_statistics)."
  },
  {
   "property": "C121",
   "status": "partial",
   "theorems": [
    "HeraPspec.BootRun.C121_frame",
    "HeraPspec.BootRun.C121_outputs_partial",
    "HeraPspec.BootRun.C121_refused",
    "HeraPspec.BootRun.C121_finding_rerun"
   ],
   "note": "The resampling of one object is a parameter. Partial: needs that no requested spectrum has the name of a result of another; a second run over a whole container also processes the stored averages (C121_finding_rerun)."
  },
  {
   "property": "C122",
   "status": "partial",
   "theorems": [
    "HeraPspec.PspecRun.C122_stored_partial",
    "HeraPspec.PspecRun.C122_frame",
    "HeraPspec.PspecRun.C122_refused",
    "HeraPspec.PspecRun.C122_finding_duplicate_labels"
   ],
   "note": "partial: with repeated dataset labels (accepted: PSpecData renames its own copies) all results get the same name; see the finding. Loading, calibration, and the preparation of datasets are parameters (C60-C63 cover LST trimming, rephasing etc.); pspec itself is a partial function parameter (C44 ff.)."
  },
  {
   "property": "C123",
   "status": "proved",
   "theorems": [
    "HeraPspec.GaussBeam.C123_gauss_solid_angles",
    "HeraPspec.GaussBeam.C123_gauss_ratio",
    "HeraPspec.GaussBeam.C123_jy_to_mk",
    "HeraPspec.GaussBeam.C123_jy_to_mk_gauss",
    "HeraPspec.GaussBeam.C123_jy_to_mk_refused",
    "HeraPspec.GaussBeam.C123_response_accepted",
    "HeraPspec.GaussBeam.C123_response",
    "HeraPspec.GaussBeam.C123_init_idempotent"
   ],
   "note": "Flat-sky integrals (the code uses the flat-sky formula). interp1d, pyuvdata's beam area and frequency interpolation, efield_to_power and peak_normalize are parameters with the stated properties. Printed warnings not modelled."
  },
  {
   "property": "C124",
   "status": "partial",
   "theorems": [
    "HeraPspec.Sensitivity.C124_set_beam",
    "HeraPspec.Sensitivity.C124_consistent_partial",
    "HeraPspec.Sensitivity.C124_calc_scalar_partial",
    "HeraPspec.Sensitivity.C124_calc_P_N",
    "HeraPspec.Sensitivity.C124_finding_cosmology_after_beam",
    "HeraPspec.Sensitivity.C124_finding_shared_beam",
    "HeraPspec.Sensitivity.C124_finding_stale_scalar",
    "HeraPspec.Sensitivity.C124_finding_params",
    "HeraPspec.Sensitivity.C124_finding_band"
   ],
   "note": "partial: a cosmology set after the beam, or a beam shared by two objects, separates the object's cosmology from the one used; the scalar is not discarded when beam or cosmology change; calc_scalar integrates only up to the highest channel (findings)."
  },
  {
   "property": "C125",
   "status": "partial",
   "theorems": [
    "HeraPspec.SphWf.C125_windows_partial",
    "HeraPspec.SphWf.C125_rows_normalised",
    "HeraPspec.SphWf.C125_one_polarization_partial",
    "HeraPspec.SphWf.C125_finding_polarizations",
    "HeraPspec.SphWf.C125_units_partial",
    "HeraPspec.SphWf.C125_finding_same_array",
    "HeraPspec.SphWf.C125_caller_array",
    "HeraPspec.SphWf.C125_finding_caller_array",
    "HeraPspec.SphWf.C125_checks",
    "HeraPspec.SphWf.C125_counterexample_times_and_groups",
    "HeraPspec.SphWf.C125_finding_uninitialised"
   ],
   "note": "partial: rows of the averaged object are group-major but read time-major (mixed when there are several times and groups); fails for more than one polarization; same/caller arrays are rescaled in place; uninitialised rows when theory bins are empty (findings and counterexample). The average itself is C29/C79/C81; kmags and ktot enter as parameters (C96)."
  },
  {
   "property": "C126",
   "status": "partial",
   "theorems": [
    "HeraPspec.GetSph.C126_accepted",
    "HeraPspec.GetSph.C126_spacing",
    "HeraPspec.GetSph.C126_edges",
    "HeraPspec.GetSph.C126_centre_in_own_bin",
    "HeraPspec.GetSph.C126_value_partial",
    "HeraPspec.GetSph.C126_weighted_k",
    "HeraPspec.GetSph.C126_order",
    "HeraPspec.GetSph.C126_no_weights",
    "HeraPspec.GetSph.C126_finding_units_ignored",
    "HeraPspec.GetSph.C126_succeeds",
    "HeraPspec.GetSph.C126_counterexample_units",
    "HeraPspec.GetSph.C126_counterexample_weighted_k",
    "HeraPspec.GetSph.C126_unit_required"
   ],
   "note": "Everything except the last clause is proved. check_kunits only tests equivalence of dimensions and the numbers are used unconverted, so bins given in 1/kpc to an object working in 1/Mpc are accepted and misread by a factor 1000 (C126_counterexample_units). The returned weighted_k is the unweighted mean (C126_counterexample_weighted_k)."
  },
  {
   "property": "C127",
   "status": "partial",
   "theorems": [
    "HeraPspec.PlotWedge.C127_delay_partial",
    "HeraPspec.PlotWedge.C127_cosmological_partial",
    "HeraPspec.PlotWedge.C127_needs_two",
    "HeraPspec.PlotWedge.C127_horizon",
    "HeraPspec.PlotWedge.C127_horizon_cosmological_partial",
    "HeraPspec.PlotWedge.C127_selection",
    "HeraPspec.PlotWedge.C127_finding_blpairs_ignored",
    "HeraPspec.PlotWedge.C127_finding_deltasq_label",
    "HeraPspec.PlotWedge.C127_counterexample_kperp_order",
    "HeraPspec.PlotWedge.C127_counterexample_negative"
   ],
   "note": "Proved for delay units. Violations: in cosmological units the rows are sorted by separation but the k_perp axis keeps the object's order (C127_counterexample_kperp_order); blpairs is ignored unless times is given (C127_finding_blpairs_ignored); the colour bar says Delta^2 in delay units although the conversion is skipped (C127_finding_deltasq_label); on a log scale, negative values are drawn above positive ones for data below 1e-10 (C127_counterexample_negative)."
  },
  {
   "property": "C128",
   "status": "partial",
   "theorems": [
    "HeraPspec.PlotFall.C128_normalize",
    "HeraPspec.PlotFall.C128_antpair_refused",
    "HeraPspec.PlotFall.C128_panels_partial",
    "HeraPspec.PlotFall.C128_negative_below",
    "HeraPspec.PlotFall.C128_counterexample_negative_flagged",
    "HeraPspec.PlotFall.C128_counterexample_abs_imag",
    "HeraPspec.PlotFall.C128_refused",
    "HeraPspec.PlotFall.C128_counterexample_axes",
    "HeraPspec.PlotFall.C128_lst_axis",
    "HeraPspec.PlotFall.C128_counterexample_lst"
   ],
   "note": "Partial because the code violates it: component 'abs-imag' shows the absolute real part; a single flagged time makes every negative value of that panel blank on a log scale (numpy min is nan); the LSTs of the first panel label all panels; keys beyond the number of supplied axes are silently dropped. Proved with the hypotheses excluding these; each exclusion has a counterexample theorem. matplotlib is not modelled beyond what is handed to it."
  },
  {
   "property": "C129",
   "status": "partial",
   "theorems": [
    "HeraPspec.PlotSpec.C129_curves",
    "HeraPspec.PlotSpec.C129_auto",
    "HeraPspec.PlotSpec.C129_labels_distinguish",
    "HeraPspec.PlotSpec.C129_manual",
    "HeraPspec.PlotSpec.C129_no_title",
    "HeraPspec.PlotSpec.C129_figure_labels",
    "HeraPspec.PlotSpec.C129_accepts",
    "HeraPspec.PlotSpec.C129_refused",
    "HeraPspec.PlotSpec.C129_size_partial",
    "HeraPspec.PlotSpec.C129_counterexample_size",
    "HeraPspec.PlotSpec.C129_counterexample_group_label",
    "HeraPspec.PlotSpec.C129_finding_deltasq_label",
    "HeraPspec.PlotSpec.C129_deltasq"
   ],
   "note": "Partial because the code violates it: the size check counts groups instead of spectra (C129_counterexample_size); members of one unaveraged group carry the label of the whole group (C129_counterexample_group_label); with delay=True and deltasq=True the data are not converted but the y axis says Delta^2 (C129_finding_deltasq_label). Strings are represented by their contents; printed ties and matplotlib are not modelled."
  },
  {
   "property": "C130",
   "status": "proved",
   "theorems": [
    "HeraPspec.PlotUvd.C130_extension",
    "HeraPspec.PlotUvd.C130_finding_double",
    "HeraPspec.PlotUvd.C130_finding_short",
    "HeraPspec.PlotUvd.C130_files",
    "HeraPspec.PlotUvd.C130_accepts",
    "HeraPspec.PlotUvd.C130_refused",
    "HeraPspec.PlotUvd.C130_finding_placeholder",
    "HeraPspec.PlotUvd.C130_ticks",
    "HeraPspec.PlotUvd.C130_round_sigfig"
   ],
   "note": "Templates must have both placeholders (as documented; C130_finding_placeholder shows silent overwriting otherwise) and polarization names of equal length. Findings: the test for an existing extension compares one character, so the extension is always appended, also to names that have it (C130_finding_double), and names shorter than the format raise IndexError (C130_finding_short); baseline ticks at zero raise OverflowError."
  },
  {
   "property": "C131",
   "status": "proved",
   "theorems": [
    "HeraPspec.Cosmo.C131_distance_redshift",
    "HeraPspec.Cosmo.C131_radial",
    "HeraPspec.Cosmo.C131_kpara",
    "HeraPspec.Cosmo.C131_kperp",
    "HeraPspec.Cosmo.C131_volume"
   ],
   "note": "Over the reals, with integrate.quad as the integral (fundamental theorem of calculus from Mathlib)."
  },
  {
   "property": "C132",
   "status": "partial",
   "theorems": [
    "HeraPspec.Oqe.C132_response",
    "HeraPspec.Oqe.C132_signal_and_noise",
    "HeraPspec.Oqe.C132_row_sums",
    "HeraPspec.Oqe.C132_window_partial",
    "HeraPspec.Oqe.C132_flat_spectrum",
    "HeraPspec.Oqe.C132_counterexample_few_delays",
    "HeraPspec.Oqe.C132_general",
    "HeraPspec.Oqe.C132_bias",
    "HeraPspec.Oqe.C132_counterexample_singular"
   ],
   "note": "Without exact_norm (C137). C132_bias gives the exact mean in every mode for all delay counts and singular or regular responses; C132_window_partial the cases without bias. Partial because the code violates the claim: mode 'I' without sampling when the extended band has more channels than there are delays (bias 0.82), and mode 'H^-1' with a singular response, where W is normalised but M is not (C132_counterexample_singular: factors 5/17 and 20/17)."
  },
  {
   "property": "C133",
   "status": "proved",
   "theorems": [
    "HeraPspec.FTGauss.C133_accepted",
    "HeraPspec.FTGauss.C133_transform",
    "HeraPspec.FTGauss.C133_shape",
    "HeraPspec.FTGauss.C133_finding_single_width"
   ],
   "note": "Over the reals; the integral is Mathlib's Bochner integral. Finding: a list with a single width is documented as accepted for all frequencies but is always refused (C133_finding_single_width)."
  },
  {
   "property": "C134",
   "status": "partial",
   "theorems": [
    "HeraPspec.NoiseSim.C134_radiometer",
    "HeraPspec.NoiseSim.C134_variance",
    "HeraPspec.NoiseSim.C134_input_kept",
    "HeraPspec.NoiseSim.C134_inplace_partial",
    "HeraPspec.NoiseSim.C134_finding_inplace_extended",
    "HeraPspec.NoiseSim.C134_extension",
    "HeraPspec.NoiseSim.C134_extension_lst",
    "HeraPspec.NoiseSim.C134_contiguous_partial",
    "HeraPspec.NoiseSim.C134_counterexample_gap",
    "HeraPspec.NoiseSim.C134_jansky_partial",
    "HeraPspec.NoiseSim.C134_jansky_values_partial",
    "HeraPspec.NoiseSim.C134_finding_stokes_twice",
    "HeraPspec.NoiseSim.C134_finding_decreasing_axis",
    "HeraPspec.NoiseSim.C134_beam_refused",
    "HeraPspec.NoiseSim.C134_refused"
   ],
   "note": "Violations found: inplace with Nextend>0 loses the noise (C134_finding_inplace_extended); Nextend>=2 leaves gaps because the copy is shifted cumulatively (C134_counterexample_gap); with a beam, pseudo-Stokes noise is divided by sqrt 2 twice (C134_finding_stokes_twice); decreasing frequency axes get mirrored factors (C134_finding_decreasing_axis)."
  },
  {
   "property": "C135",
   "status": "partial",
   "theorems": [
    "HeraPspec.SkyNoise.C135_accepted",
    "HeraPspec.SkyNoise.C135_values",
    "HeraPspec.SkyNoise.C135_receiver",
    "HeraPspec.SkyNoise.C135_every_cross",
    "HeraPspec.SkyNoise.C135_seed",
    "HeraPspec.SkyNoise.C135_foreground_partial",
    "HeraPspec.SkyNoise.C135_foreground_draws",
    "HeraPspec.SkyNoise.C135_variance",
    "HeraPspec.SkyNoise.C135_finding_seed_after_foreground"
   ],
   "note": "Violations: the foreground's covariance is twice the documented one because real and imaginary parts each get cov_amp (C135_foreground_partial states the factor); with the default constant_per_bl=True the foreground is drawn before seeding so bl_loop_seed does not fix it (C135_finding_seed_after_foreground)."
  },
  {
   "property": "C136",
   "status": "partial",
   "theorems": [
    "HeraPspec.Create.C136_lists",
    "HeraPspec.Create.C136_empty",
    "HeraPspec.Create.C136_dicts_partial",
    "HeraPspec.Create.C136_finding_dict_without_weights",
    "HeraPspec.Create.C136_time_difference_partial",
    "HeraPspec.Create.C136_time_difference_two",
    "HeraPspec.Create.C136_finding_weights_not_differenced"
   ],
   "note": "Violations: a dictionary of datasets without weights is always refused although weights default to the flags (C136_finding_dict_without_weights); the weights of a time-differenced object keep the times of the undifferenced data (C136_finding_weights_not_differenced)."
  },
  {
   "property": "C137",
   "status": "partial",
   "theorems": [
    "HeraPspec.Oqe.C137_beam_overlap",
    "HeraPspec.Oqe.C137_extension_refused",
    "HeraPspec.Oqe.C137_value",
    "HeraPspec.Oqe.C137_response",
    "HeraPspec.Oqe.C137_window_partial",
    "HeraPspec.Oqe.C137_finding_no_beam"
   ],
   "note": "q_hat, get_G, get_H with exact_norm, get_integral_beam. Partial only for fewer delays than channels without sampling (code violates, as in C132). Finding: a filter extension is refused by a broadcasting error; no/unsuitable beam gives overlap 1 with a warning only."
  },
  {
   "property": "C138",
   "status": "partial",
   "theorems": [
    "HeraPspec.Cli.C138_pspec_run_partial",
    "HeraPspec.Cli.C138_pspec_run_accepted",
    "HeraPspec.Cli.C138_bootstrap_run_partial",
    "HeraPspec.Cli.C138_finding_bool",
    "HeraPspec.Cli.C138_finding_bootstrap_unfiltered",
    "HeraPspec.Cli.C138_finding_defaults",
    "HeraPspec.Cli.C138_finding_bootstrap_defaults",
    "HeraPspec.Cli.C138_finding_merge",
    "HeraPspec.Cli.C138_finding_merge_option",
    "HeraPspec.Cli.C138_merge_corrected",
    "HeraPspec.Cli.C138_finding_red"
   ],
   "note": "Proved from option occurrences on (argparse's tokenising is not modelled). Partial because options of type=bool cannot be switched off, bootstrap_run.py passes library options on, psc_merge_spectra.py and pspec_red.py always fail: proved as C138_finding_*."
  },
  {
   "property": "C139",
   "status": "partial",
   "theorems": [
    "HeraPspec.AutoNoise.C139_progress_partial",
    "HeraPspec.AutoNoise.C139_all_done_partial",
    "HeraPspec.AutoNoise.C139_succeeds",
    "HeraPspec.AutoNoise.C139_finding_spectra"
   ],
   "note": "Partial because with --spectra the script always raises UnboundLocalError (C139_finding_spectra). The noise calculation is a parameter here (see C94 and others)."
  },
  {
   "property": "C140",
   "status": "partial",
   "theorems": [
    "HeraPspec.StokesRun.C140_unchanged",
    "HeraPspec.StokesRun.C140_output_partial",
    "HeraPspec.StokesRun.C140_textbook",
    "HeraPspec.StokesRun.C140_refused",
    "HeraPspec.StokesRun.C140_succeeds",
    "HeraPspec.StokesRun.C140_finding_default"
   ],
   "note": "Partial because without --pstokes the script always fails (C140_finding_default): the default is a string. File reads and writes are atomic in the model; pyuvdata's += is modelled as refusing common polarizations."
  },
  {
   "property": "C141",
   "status": "partial",
   "theorems": [
    "HeraPspec.PspecValue.C141_mean_partial",
    "HeraPspec.PspecValue.C141_identity",
    "HeraPspec.PspecValue.C141_same_weighting",
    "HeraPspec.PspecValue.C141_covariance_partial",
    "HeraPspec.PspecValue.C141_scalar",
    "HeraPspec.PspecValue.C141_succeeds",
    "HeraPspec.PspecValue.C141_beam_scales",
    "HeraPspec.PspecValue.C141_exact_partial",
    "HeraPspec.PspecValue.C141_counterexample_phase"
   ],
   "note": "End-to-end value of one baseline pair of pspec. Exact normalisation is covered by C141_exact_partial; C141_counterexample_phase exhibits the phase violation that keeps the mean statement partial."
  },
  {
   "property": "C142",
   "status": "partial",
   "theorems": [
    "HeraPspec.FoldAvg.C142_exact",
    "HeraPspec.FoldAvg.C142_exact_normalised",
    "HeraPspec.FoldAvg.C142_approx_half_partial",
    "HeraPspec.FoldAvg.C142_counterexample"
   ],
   "note": "Exact windows: the folded row predicts the mean of the two mirrored rows for any power and stays normalised (C142_exact, C142_exact_normalised). Approximate windows: false of the code - fold_spectra multiplies the sum of the four blocks by 0.25 where 0.5 is needed, so the folded window predicts half of the folded bandpower (C142_approx_half_partial for every window; C142_counterexample with the identity)."
  },
  {
   "property": "C143",
   "status": "proved",
   "theorems": [
    "HeraPspec.FoldAvg.C143_fold_anywhere",
    "HeraPspec.FoldAvg.C143_fold_reads",
    "HeraPspec.FoldAvg.C143_fold_stats",
    "HeraPspec.FoldAvg.C143_fold_stored",
    "HeraPspec.FoldAvg.C143_finding_error_weights"
   ],
   "note": "C143_fold_anywhere: any number of averages before and after the fold, same exception or same reads; C143_fold_reads: what is read after folding. Hypotheses: default weights (C143_finding_error_weights: with error_weights the order matters), three or more delays, approximate windows, and integration times and sample counts that are zero or not absurdly small (the code clips summed weights at 1e-40)."
  },
  {
   "property": "C144",
   "status": "partial",
   "theorems": [
    "HeraPspec.CombineOpt.C144_optional_partial",
    "HeraPspec.CombineOpt.C144_shape_refused",
    "HeraPspec.CombineOpt.C144_finding_folded",
    "HeraPspec.CombineOpt.C144_finding_bins_lost",
    "HeraPspec.CombineOpt.C144_finding_not_again",
    "HeraPspec.CombineOpt.C144_finding_recursive_exact",
    "HeraPspec.CombineOpt.C144_exact_differ"
   ],
   "note": "Proved: combining succeeds, keeps every entry and the stated optional arrays, under the shape conditions. Code bugs proved: folded un-averaged objects are always refused because the result is allocated with the number of positive delays; combined exact-window objects lose kperp/kpara bins (dicts created empty at uvpspec.py L3042-3043 and never filled), so they cannot be combined again and recursive_combine of four or more always fails."
  },
  {
   "property": "C145",
   "status": "proved",
   "theorems": [
    "HeraPspec.PspecCall.C145_single_window",
    "HeraPspec.PspecCall.C145_defaults",
    "HeraPspec.PspecCall.C145_polarizations",
    "HeraPspec.PspecCall.C145_singleton_groups",
    "HeraPspec.PspecCall.C145_negative_dset",
    "HeraPspec.PspecCall.C145_accepted_iff",
    "HeraPspec.PspecCall.C145_ill_formed",
    "HeraPspec.PspecCall.C145_meaning_unique",
    "HeraPspec.PspecCall.C145_labels",
    "HeraPspec.PspecCall.C145_options",
    "HeraPspec.PspecCall.C145_finding_groups",
    "HeraPspec.PspecCall.C145_finding_history",
    "HeraPspec.PspecCall.C145_finding_dset_labels"
   ],
   "note": "Model/PspecCall.lean: the argument frame of pspec. Findings proved: documented groups of two or more baselines always raise (NotImplementedError), the documented history argument has no effect, labels as dsets are refused. Acceptance is characterised for requests whose first polarization pair the data have (C57 finding covers the rest)."
  },
  {
   "property": "C146",
   "status": "proved",
   "theorems": [
    "HeraPspec.PspecCall.C146_read_back",
    "HeraPspec.PspecCall.C146_times",
    "HeraPspec.PspecCall.C146_integrations_delays",
    "HeraPspec.PspecCall.C146_finding_repeated_pol",
    "HeraPspec.PspecCall.C146_mean_of_what_is_read"
   ],
   "note": "Composes the argument frame, the loops (C57), the transposition of the accumulated lists, the UVPSpec read path (C17, C94) and the estimator mean (C141). Finding: a polarization pair requested twice is accepted but can no longer be read. The value of one baseline-pair is a parameter (instantiated with the C141 model in C146_mean_of_what_is_read); the final check() and exact windows are not in this model."
  },
  {
   "property": "C147",
   "status": "partial",
   "theorems": [
    "HeraPspec.LabelArr.C147_labels_partial",
    "HeraPspec.LabelArr.C147_combine",
    "HeraPspec.LabelArr.C147_finding_shape",
    "HeraPspec.LabelArr.C147_counterexample_select"
   ],
   "note": "Proved for every history in which selections and averages act on objects with one origin, and for all combinations (C147_combine is unconditional). Missing: selections/averages of objects with several origins: _select and average_spectra leave label arrays untouched (C147_counterexample_select, C147_finding_shape)."
  },
  {
   "property": "C148",
   "status": "partial",
   "theorems": [
    "HeraPspec.Check.C148_sound_partial",
    "HeraPspec.Check.C148_frame",
    "HeraPspec.Check.C148_complete",
    "HeraPspec.Check.C148_idempotent",
    "HeraPspec.Check.C148_missing",
    "HeraPspec.Check.C148_finding_errors",
    "HeraPspec.Check.C148_finding_shape",
    "HeraPspec.Check.C148_finding_names",
    "HeraPspec.Check.C148_table"
   ],
   "note": "Soundness for the table of parameters, frame, completeness, idempotence and detection of missing parameters are proved for every table and every behaviour of numpy conversions obeying Laws. Missing: time_2_array and symmetric_taper are required but not looked at (C148_finding_names); shapes never checked (C148_finding_shape); AttributeError/ValueError instead of AssertionError (C148_finding_errors)."
  },
  {
   "property": "C149",
   "status": "partial",
   "theorems": [
    "HeraPspec.Sizes.C149_sizes_partial",
    "HeraPspec.Sizes.C149_tpairs_freqs_partial",
    "HeraPspec.Sizes.C149_combine",
    "HeraPspec.Sizes.C149_average_succeeds",
    "HeraPspec.Sizes.C149_selected",
    "HeraPspec.Sizes.C149_finding_nfreqs",
    "HeraPspec.Sizes.C149_finding_ntimes",
    "HeraPspec.Sizes.C149_ntimes",
    "HeraPspec.Sizes.C149_counterexample_nfreqs",
    "HeraPspec.Sizes.C149_counterexample_tpairs",
    "HeraPspec.Sizes.C149_counterexample_duplicates"
   ],
   "note": "Proved for all histories for every count but Nfreqs, Ntpairs, Ntimes, and for the baseline table; Ntpairs and Nfreqs under the conditions of C149_tpairs_freqs_partial and always after combine (C149_combine). Code violates: Nfreqs is not updated by select(spws), Ntpairs counts averages after select, Ntimes of pspec counts times not pairs, Nbltpairs with repeated pairs (findings/counterexamples)."
  },
  {
   "property": "C150",
   "status": "partial",
   "theorems": [
    "HeraPspec.SelAvg.C150_average_partial",
    "HeraPspec.SelAvg.C150_reads_partial",
    "HeraPspec.SelAvg.C150_fold_pols",
    "HeraPspec.SelAvg.C150_select_then_fold",
    "HeraPspec.SelAvg.C150_finding_fold_select",
    "HeraPspec.SelAvg.C150_groups"
   ],
   "note": "Proved for unfolded objects, and for polarization selections of folded ones (C150_average_partial, C150_reads_partial, C150_fold_pols, C150_select_then_fold, C150_groups). Code bug: selecting windows of a folded object removes its non-positive delays from the delay list while the data arrays keep their length, so get_data drops delays a second time (C150_finding_fold_select)."
  },
  {
   "property": "C151",
   "status": "proved",
   "theorems": [
    "HeraPspec.FlagR.C151_covariances",
    "HeraPspec.FlagR.C151_weighting",
    "HeraPspec.FlagR.C151_spectra",
    "HeraPspec.FlagR.C151_flagged_times",
    "HeraPspec.FlagR.C151_average",
    "HeraPspec.FlagR.C151_broadcast",
    "HeraPspec.FlagR.C151_counterexample_leak",
    "HeraPspec.FlagR.C151_finding_flagged_row"
   ],
   "note": "Non-interference of flagged samples proved for identity, iC and dayenu weighting (Moore-Penrose pseudo-inverse), with the concrete matrix R; separability of the flags after broadcasting comes from C58 (C151_broadcast). Without broadcasting, Y takes the largest weight over time and a flagged sample leaks with full weight (C151_counterexample_leak); the spectrum stored for an entirely flagged time is computed from flagged data (C151_finding_flagged_row), only its integration time is zero."
  },
  {
   "property": "C152",
   "status": "proved",
   "theorems": [
    "HeraPspec.DelayAxis.C152_transform",
    "HeraPspec.DelayAxis.C152_conjugation",
    "HeraPspec.DelayAxis.C152_shift",
    "HeraPspec.DelayAxis.C152_total",
    "HeraPspec.DelayAxis.C152_tone",
    "HeraPspec.DelayAxis.C152_axis",
    "HeraPspec.DelayAxis.C152_finding_gap"
   ],
   "note": "Proved for evenly spaced channels. C152_finding_gap: delays() takes the median spacing, so for channels with a gap it lists delays although the bandpowers are not the transform at them."
  },
  {
   "property": "C153",
   "status": "partial",
   "theorems": [
    "HeraPspec.Combine.C153_select_values",
    "HeraPspec.Combine.C153_select_partial",
    "HeraPspec.Combine.C153_split_merge_partial",
    "HeraPspec.Combine.C153_merge_select",
    "HeraPspec.Combine.C153_counterexample_labels",
    "HeraPspec.Combine.C153_counterexample_rparams"
   ],
   "note": "Split then merge is the identity for objects in canonical order with one pair of data sets and r_params for all baselines (the parts in any order, any axis, any number of parts); values (not labels) of selections and of merge-then-select for all objects. Counterexamples: label arrays are not sliced by select, so with several data sets the labels come back wrong; r_params for only some baselines make the parts unmergeable. bl_array/bl_vecs/history and single-channel windows not in this model."
  },
  {
   "property": "C154",
   "status": "partial",
   "theorems": [
    "HeraPspec.PspecHist.C154_history_partial",
    "HeraPspec.PspecHist.C154_fresh_partial",
    "HeraPspec.PspecHist.C154_request_partial",
    "HeraPspec.PspecHist.C154_together_partial",
    "HeraPspec.PspecHist.C154_second_call_raises",
    "HeraPspec.PspecHist.C154_finding_pspec_run",
    "HeraPspec.PspecHist.C154_pspec_run_partial",
    "HeraPspec.PspecHist.C154_counterexample_windows",
    "HeraPspec.PspecHist.C154_finding_recorded_taper"
   ],
   "note": "Proved for all histories and requests when the symmetric taper is not asked for, or no extension is left over / used earlier in the call. False otherwise: after a call whose last window has a filter extension any call with the default symmetric_taper=True raises ValueError (so pspec_run with extensions fails at the second pair of data sets), a window with two-sided extensions switches the symmetric taper off for later windows, and the recorded symmetric_taper is the requested one. The G/H cache and exact_norm are the subject of C56."
  },
  {
   "property": "C155",
   "status": "proved",
   "theorems": [
    "HeraPspec.PspecValue.C155_exchange",
    "HeraPspec.PspecValue.C155_conjugate",
    "HeraPspec.PspecValue.C155_gain",
    "HeraPspec.PspecValue.C155_times",
    "HeraPspec.PspecValue.C155_times_weighting"
   ],
   "note": "End to end on `FlagR.rMat` and `PspecValue.blpair`. `np.linalg.inv`/`pinv` are arguments assumed to commute with conjugation, reordering and multiples (shown for the matrix inverse). The gain theorem with 'iC' asks that the data respond to some tone (otherwise get_G replaces an all-zero matrix by the identity)."
  },
  {
   "property": "C156",
   "status": "partial",
   "theorems": [
    "HeraPspec.Average.C156_two_steps_partial",
    "HeraPspec.Average.C156_two_steps_covariance_partial",
    "HeraPspec.Average.C156_finding_exact_windows",
    "HeraPspec.Average.C156_steps_succeed",
    "HeraPspec.Average.C156_counterexample_times",
    "HeraPspec.Average.C156_counterexample_precise"
   ],
   "note": "C156_two_steps_partial: equality of data, every error bar, samples, ints, wgts, approximate windows and (time_avg off in step two) metadata between two calls and one, at every delay where the total weight of every pair survives being stored; C156_two_steps_covariance_partial: of every element of the covariance; C156_steps_succeed: both steps succeed whenever the single call does. Missing: the code violates the claim for unequal integration times (C156_counterexample_times), for averaged errors below 1e-4 (C156_counterexample_precise: stored as 1e20, the most precise pair stops counting) and for exact windows (C156_finding_exact_windows: never divided by the weights, so every step multiplies by them once more)."
  },
  {
   "property": "C157",
   "status": "partial",
   "theorems": [
    "HeraPspec.Average.C157_redundant_average_partial",
    "HeraPspec.Average.C157_counterexample_empty_group"
   ],
   "note": "get_red_blpairs followed by a time average succeeds exactly if every redundant group of baselines contains both baselines of some pair; otherwise ValueError (counterexample: an object with a mixed pair only). Output row i is the weighted mean of redundant group i."
  },
  {
   "property": "C158",
   "status": "partial",
   "theorems": [
    "HeraPspec.ContainerIO.C158_stored_object_partial",
    "HeraPspec.ContainerIO.C158_not_stored",
    "HeraPspec.ContainerIO.C158_later_calls",
    "HeraPspec.ContainerIO.C158_whole_group",
    "HeraPspec.ContainerIO.C158_finding_symmetric_taper"
   ],
   "note": "C37 and C92 composed over the contents of the groups. Not returned: symmetric_taper (finding), r_params as stored (the reader normalises it), an empty stats_array. Single writer, no crash (C39, C99 treat those)."
  },
  {
   "property": "C159",
   "status": "partial",
   "theorems": [
    "HeraPspec.UVP.C159_copy_untouched",
    "HeraPspec.UVP.C159_inplace_success",
    "HeraPspec.UVP.C159_data_untouched_on_error",
    "HeraPspec.UVP.C159_failed_select_unchanged_partial",
    "HeraPspec.UVP.C159_finding_wrong_window",
    "HeraPspec.UVP.C159_finding_wrong_rows",
    "HeraPspec.UVP.C159_counterexample_window",
    "HeraPspec.UVP.C159_counterexample_row"
   ],
   "note": "Proved: inplace=False never touches the object; in place, a raising call never changes data/integration arrays and leaves the object unchanged when the first requested axis fails. Findings (general theorems and concrete counterexamples): an existing window with a row request matching nothing leaves the new window labels/frequencies on the old windows' spectra; a satisfiable row request with absent polarization pairs leaves the selected rows' labels on other rows' spectra. Not modelled: bl_array, scalar_array, r_params, beam arrays, check()."
  },
  {
   "property": "C160",
   "status": "partial",
   "theorems": [
    "HeraPspec.Labels.C160_every_object",
    "HeraPspec.Labels.C160_failure",
    "HeraPspec.Labels.C160_other_failures",
    "HeraPspec.Labels.C160_once_partial",
    "HeraPspec.Labels.C160_pspec_run_files",
    "HeraPspec.Labels.C160_pspec_run_objects",
    "HeraPspec.Labels.C160_finding_twice",
    "HeraPspec.Labels.C160_finding_rerun",
    "HeraPspec.Labels.C160_counterexample_retry"
   ],
   "note": "Proved in full for every memory and sharing (C160_every_object, C160_failure, C160_other_failures) and for pspec_run on files; the 'exactly once' form needs that no object is passed at two places (findings: passed twice, rerun on the caller's objects, retry after a failure). uvcalibrate itself is an uninterpreted partial function of calibration and content."
  },
  {
   "property": "C161",
   "status": "proved",
   "theorems": [
    "HeraPspec.AvgArgs.C161_forms_agree",
    "HeraPspec.AvgArgs.C161_no_groups",
    "HeraPspec.AvgArgs.C161_not_nested",
    "HeraPspec.AvgArgs.C161_flat_tuples",
    "HeraPspec.AvgArgs.C161_weights_match",
    "HeraPspec.AvgArgs.C161_float_pair",
    "HeraPspec.AvgArgs.C161_finding_mixed_group",
    "HeraPspec.AvgArgs.C161_finding_long_weights"
   ],
   "note": "Proved for all Python values and objects: any nesting of lists, tuples and arrays of integers or of nested tuples gives the same result or exception as the canonical integers; not-nested values, flat lists of pairs, mismatched weights refused. Findings: mixed groups double-count a pair; surplus weight lists are applied to ungrouped pairs."
  },
  {
   "property": "C162",
   "status": "partial",
   "theorems": [
    "HeraPspec.Shared.C162_units_partial",
    "HeraPspec.Shared.C162_units_returns_partial",
    "HeraPspec.Shared.C162_flags_partial",
    "HeraPspec.Shared.C162_flags_once_partial",
    "HeraPspec.Shared.C162_finding_flags_twice",
    "HeraPspec.Shared.C162_rephase_partial",
    "HeraPspec.Shared.C162_rephase_once_partial",
    "HeraPspec.Shared.C162_rephase_copy_partial",
    "HeraPspec.Shared.C162_finding_rephased_twice",
    "HeraPspec.Shared.C162_trim_partial",
    "HeraPspec.Shared.C162_trim_refuses_partial",
    "HeraPspec.Shared.C162_trim_distinct_partial",
    "HeraPspec.Shared.C162_finding_trim_raises"
   ],
   "note": "Jy_to_mK converts a shared object once (proved for every sharing). Flags: equal to one occurrence for the default whole-band window and for unflagging (idempotence of broadcasting, every threshold); on part of the band a second occurrence may flag more (finding). Rephasing: exact power of the phasor = number of positions other than the anchor's; twice is a finding. Trimming: returns iff no object that loses a row is repeated, otherwise IndexError after the first trim (finding). Partial because the claim is false for those three."
  },
  {
   "property": "C163",
   "status": "proved",
   "theorems": [
    "HeraPspec.KeyForms.C163_polpairs",
    "HeraPspec.KeyForms.C163_polpairs_refused",
    "HeraPspec.KeyForms.C163_blpairs",
    "HeraPspec.KeyForms.C163_keys",
    "HeraPspec.KeyForms.C163_keys_refused",
    "HeraPspec.KeyForms.C163_get_data",
    "HeraPspec.KeyForms.C163_all_keys",
    "HeraPspec.KeyForms.C163_error_order",
    "HeraPspec.KeyForms.C163_finding_other_pair",
    "HeraPspec.KeyForms.C163_finding_orientation",
    "HeraPspec.KeyForms.C163_orientation"
   ],
   "note": "Parameters: polstr2num and polnum2str of pyuvdata. Findings: a nested tuple with an antenna number of 900 or more reads another pair's data; polpair_tuple2int of a list drops x_orientation."
  },
  {
   "property": "C164",
   "status": "proved",
   "theorems": [
    "HeraPspec.Tree.C164_tree",
    "HeraPspec.Tree.C164_string_faithful",
    "HeraPspec.Tree.C164_string",
    "HeraPspec.Tree.C164_finding_line_break"
   ],
   "note": "Names without '/' and no concurrent writers, as in the container model. Finding: a name with a line break can imitate another tree; objects under 'header' are stored but not listed (C37)."
  },
  {
   "property": "C165",
   "status": "proved",
   "theorems": [
    "HeraPspec.FromData.C165_accepted_iff",
    "HeraPspec.FromData.C165_pairs",
    "HeraPspec.FromData.C165_ill_formed",
    "HeraPspec.FromData.C165_no_pairs",
    "HeraPspec.FromData.C165_never",
    "HeraPspec.FromData.C165_labels_covariance",
    "HeraPspec.FromData.C165_one_group",
    "HeraPspec.FromData.C165_finding_first_pol",
    "HeraPspec.FromData.C165_cosmology"
   ],
   "note": "Model/FromData.lean on top of the models of construct_blpairs and pspec. Reading of files and the numerical value of a spectrum are parameters. Findings: only the first polarization is used; a cosmology given without a beam is ignored."
  },
  {
   "property": "C166",
   "status": "proved",
   "theorems": [
    "HeraPspec.Combine.C166_one_function",
    "HeraPspec.Combine.C166_acts",
    "HeraPspec.Combine.C166_set_cosmology",
    "HeraPspec.Combine.C166_cosmology_combine",
    "HeraPspec.Combine.C166_finding_close_scalars"
   ],
   "note": "On the combination model of C21-C23, set_cosmology (L2162-2181) on top of it; the value of the new scalar is a parameter of window and polarization pair. The position-dependent theorems assume what C22 needs (aligned inputs). Finding: along rows the stored scalars need only be close, and the two orders then give different spectra."
  },
  {
   "property": "C167",
   "status": "proved",
   "theorems": [
    "HeraPspec.Combine.C167_select_combine",
    "HeraPspec.Combine.C167_combine_exists"
   ],
   "note": "On the combination model of C21-C23 and the selection model of C153; how positions follow from the arguments of select is C11-C17. Inputs must be aligned as in C22. Data set names need one pair of data sets because select does not slice the label arrays (C153_counterexample_labels)."
  },
  {
   "property": "C168",
   "status": "proved",
   "theorems": [
    "HeraPspec.AvgJoin.C168_reading",
    "HeraPspec.AvgJoin.C168_same_view",
    "HeraPspec.AvgJoin.C168_average_join",
    "HeraPspec.AvgJoin.C168_average_succeeds"
   ],
   "note": "Joins the combination model (C21-C23) with the averaging model (C29-C34, C81, C150): view is the same object as average_spectra reads it. Row numbers, times and averages are exact reals. Rows must be in the order combine_uvpspec stores; other orders and the baseline-pair axis are not covered."
  },
  {
   "property": "C169",
   "status": "partial",
   "theorems": [
    "HeraPspec.AvgScale.C169_rescaled_average",
    "HeraPspec.AvgScale.C169_rows",
    "HeraPspec.AvgScale.C169_deltasq",
    "HeraPspec.AvgScale.C169_bias",
    "HeraPspec.AvgScale.C169_errors_partial",
    "HeraPspec.AvgScale.C169_counterexample_units"
   ],
   "note": "Proved for the default weights: C169_rescaled_average (group by group, no condition on the object), C169_rows/C169_deltasq/C169_bias (row by row). Error bars: C169_errors_partial, with or without averaging in time, while no averaged error (of the group, or of a baseline-pair over time) falls below 1e-4; the code violates the claim there (C169_counterexample_units: np.isclose has an absolute tolerance, so error bars depend on the units). Missing: error weights (the clipping at 1e-40 and 1e40 is not scale invariant); folded objects (convert_to_deltasq raises for them, C76; converting first and folding then is C170)."
  },
  {
   "property": "C170",
   "status": "proved",
   "theorems": [
    "HeraPspec.FoldScale.C170_fold_scaled",
    "HeraPspec.FoldScale.C170_deltasq",
    "HeraPspec.FoldScale.C170_bias",
    "HeraPspec.FoldScale.C170_counterexample_uneven",
    "HeraPspec.FoldScale.C170_counterexample_negative"
   ],
   "note": "Proved for factors of window, baseline-pair and delay that agree at opposite delays, on the object that fold_spectra and the get_* methods read: all readings after converting and folding are those after folding times the factors of the positive delays, with exact or approximate windows, with or without statistics. Not modelled: the units, real and imaginary covariance separately. Wavenumbers that are opposite at opposite delays are a hypothesis (for an even number of delays the unpaired first delay is not read)."
  },
  {
   "property": "C171",
   "status": "proved",
   "theorems": [
    "HeraPspec.FoldScale.C171_convert_average_fold",
    "HeraPspec.FoldScale.C171_deltasq"
   ],
   "note": "Proved with the default weights of integrations, integration times and samples zero or well above zero, one array entry per row, and groups whose baseline-pairs have as many integrations or an average in time. Converting after folding is not an order the code allows (C76). Error bars are treated separately (C169_errors_partial, C170); exact windows are excluded, as in C143. Units are left out."
  },
  {
   "property": "C172",
   "status": "proved",
   "theorems": [
    "HeraPspec.FoldBoot.C172_bootstrap_fold"
   ],
   "note": "Proved for one object (with more the call always fails, C32_finding_two_objects_raise) whose integration times and samples are zero or well above zero. The draws are a parameter; the errors computed over resamples (C120) are not part of the claim, exact windows are excluded as in C143."
  }
 ]
}