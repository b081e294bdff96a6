{"id": "C01", "title": "Baseline-pair integers decode to the baseline pair that produced them", "statement": "antnums_to_blpair followed by blpair_to_antnums returns the original ((a1,a2),(a3,a4)); antnums_to_bl followed by bl_to_antnums likewise. Consequently distinct baseline-pairs never share an integer and rows are never attributed to the wrong baseline-pair. The documented domain is antenna numbers with at most three digits after +100, i.e. 0..899; outside it the claim must be examined.", "quantifier": "all antenna numbers (all quadruples)", "why_tests_cant": "10^11 quadruples even inside the documented range, unbounded outside it; decoding uses float division and floor.", "anchors": ["src/hera_pspec/uvpspec_utils.py:_antnums_to_blpair", "src/hera_pspec/uvpspec_utils.py:_blpair_to_antnums", "src/hera_pspec/uvpspec_utils.py:_antnums_to_bl", "src/hera_pspec/uvpspec_utils.py:_bl_to_antnums"]}
{"id": "C02", "title": "Baseline-pair integer decoding survives floating point", "statement": "The decoders divide integers of up to 12 digits as IEEE doubles and floor. The decoded antennas are the same as with exact arithmetic, for any correctly rounded division (any rounding with relative error at most 2^-53).", "quantifier": "all valid baseline-pair integers and every rounding function of that accuracy", "why_tests_cant": "No test can range over all 12-digit integers and all rounding modes.", "anchors": ["src/hera_pspec/uvpspec_utils.py:_blpair_to_antnums", "src/hera_pspec/uvpspec_utils.py:_bl_to_antnums", "src/hera_pspec/uvpspec_utils.py:_blpair_to_bls"]}
{"id": "C03", "title": "Conjugation of baselines and baseline-pairs is an involution on integers", "statement": "_conj_blpair_int swaps the two baselines, _conj_bl_int swaps the two antennas, _conj_blpair(which) swaps antennas in the chosen baseline(s); applying any of them twice is the identity; conjugating one baseline and then the other equals conjugating both; blpair_to_bls splits a blpair integer into the two baseline integers that the antenna tuples encode to.", "quantifier": "all valid integers, all which values", "why_tests_cant": "Domain of 900^4 integers.", "anchors": ["src/hera_pspec/uvpspec_utils.py:_conj_blpair_int", "src/hera_pspec/uvpspec_utils.py:_conj_bl_int", "src/hera_pspec/uvpspec_utils.py:_conj_blpair", "src/hera_pspec/uvpspec_utils.py:_blpair_to_bls"]}
{"id": "C04", "title": "Polarization-pair integers are a faithful code", "statement": "polpair_int2tuple(polpair_tuple2int((p,q))) = (p,q) for all AIPS polarization integers p,q in [-8,4] and an integer that polpair_int2tuple accepts re-encodes to itself; integers outside the code are rejected with ValueError rather than mis-decoded.", "quantifier": "all integers and all polarization pairs", "why_tests_cant": "int2tuple slices the decimal string of an arbitrary integer; unit tests try a handful.", "anchors": ["src/hera_pspec/uvpspec_utils.py:polpair_int2tuple", "src/hera_pspec/uvpspec_utils.py:polpair_tuple2int"]}
{"id": "C05", "title": "r_params survive compression", "statement": "decompress_r_params(compress_r_params(d)) gives every baseline key of d the same parameter dictionary it had in d and no other keys, whatever keys share the same parameters.", "quantifier": "all r_params dictionaries (any number of keys, any sharing pattern)", "why_tests_cant": "Sharing patterns are unbounded.", "anchors": ["src/hera_pspec/uvpspec_utils.py:compress_r_params", "src/hera_pspec/uvpspec_utils.py:decompress_r_params"]}
{"id": "C06", "title": "group_baselines partitions the baselines", "statement": "group_baselines without randomisation returns exactly Ngroups groups of N//Ngroups baselines taken in order; with keep_remainder=True the concatenation of the groups is the input list; with keep_remainder=False it is the input minus at most Ngroups-1 trailing items; if there are fewer baselines than groups a ValueError is raised. With randomisation the result is the same applied to a permutation, so no baseline is lost or duplicated.", "quantifier": "all lists, all Ngroups >= 1, all shuffles", "why_tests_cant": "List lengths, group counts and permutations are unbounded.", "anchors": ["src/hera_pspec/grouping.py:group_baselines"]}
{"id": "C07", "title": "construct_blpairs forms exactly the requested pairs", "statement": "With exclude_permutations=True the output contains each unordered pair of distinct baselines once; with False each ordered pair of distinct baselines once; with exclude_auto_bls=False additionally each baseline paired with itself once, with exclude_cross_bls=True only those; excluding both raises. bls1[i], bls2[i] are the two halves of blpairs[i].", "quantifier": "all duplicate-free baseline lists and all flag combinations", "why_tests_cant": "Quadratic output for unbounded lists; off-by-one in pairing is invisible on small lists.", "anchors": ["src/hera_pspec/utils.py:construct_blpairs"]}
{"id": "C08", "title": "construct_blpairs grouping neither loses nor repeats baseline-pairs", "statement": "When Nblps_per_group is given, concatenating the groups gives back the ungrouped output in order, every group is non-empty with at most Nblps_per_group members.", "quantifier": "all baseline lists and group sizes >= 1", "why_tests_cant": "Unbounded sizes and remainders.", "anchors": ["src/hera_pspec/utils.py:construct_blpairs"]}
{"id": "C09", "title": "Redundant-group construction partitions the baselines", "statement": "get_red_bls (UVPSpec) and get_blvec_reds assign every baseline to exactly one redundant group, and each member of a group is within tolerance of the group's first member.", "quantifier": "all baseline sets, lengths, angles, vectors and tolerances", "why_tests_cant": "Greedy matching depends on order and on non-transitive tolerances.", "anchors": ["src/hera_pspec/uvpspec_utils.py:_get_red_bls", "src/hera_pspec/utils.py:get_blvec_reds"]}
{"id": "C10", "title": "get_red_blpairs only pairs redundant baselines and preserves metadata alignment", "statement": "Every baseline-pair returned by get_red_blpairs comes from the object, has both baselines in the same redundant group as all others in its group, and each baseline-pair with both baselines redundant is returned exactly once.", "quantifier": "all objects and redundancy structures", "why_tests_cant": "Unbounded numbers of groups and pairs.", "anchors": ["src/hera_pspec/uvpspec_utils.py:_get_red_blpairs"]}
{"id": "C11", "title": "calc_blpair_reds never returns an excluded or missing antenna", "statement": "With filter_blpairs, every returned baseline-pair has its baselines present (in either orientation) in the data it will be drawn from and contains no excluded antenna.", "quantifier": "all data sets, redundancy groups, excluded-antenna sets and flags", "why_tests_cant": "Unbounded arrays and flag patterns.", "anchors": ["src/hera_pspec/utils.py:calc_blpair_reds", "src/hera_pspec/utils.py:get_reds"]}
{"id": "C12", "title": "Selection keeps exactly the requested baseline-pair-times", "statement": "After select(blpairs/bls/times), the object's rows are exactly the original rows whose baseline-pair satisfies the baseline or baseline-pair selection (union) and whose time satisfies the time selection, in the original order, with blpair, time, lst, data, weights, integration and nsample rows still describing the same measurement.", "quantifier": "all objects and all selections", "why_tests_cant": "Row alignment across many arrays for arbitrary selections.", "anchors": ["src/hera_pspec/uvpspec_utils.py:_select", "src/hera_pspec/uvpspec_utils.py:_get_blpairs_from_bls"]}
{"id": "C13", "title": "Selecting spectral windows relabels them consecutively without mixing data", "statement": "After select(spws=...), the spectral windows are labelled 0..n-1 in increasing order of the original label, delay/frequency channels keep their relative order, and the data under new label j is the data of the j-th kept original window.", "quantifier": "all objects and all window subsets in any order", "why_tests_cant": "The in-place relabelling loop is order sensitive; unbounded window counts.", "anchors": ["src/hera_pspec/uvpspec_utils.py:_select"]}
{"id": "C14", "title": "Selection is idempotent and composes", "statement": "Selecting the same baseline-pairs/times twice equals selecting once; selecting with A and then with B equals selecting with the conjunction; polarization-pair selection keeps the original order.", "quantifier": "all objects and selections", "why_tests_cant": "Universally quantified algebraic law.", "anchors": ["src/hera_pspec/uvpspec_utils.py:_select", "src/hera_pspec/uvpspec.py:UVPSpec.select"]}
{"id": "C15", "title": "Selected data can still be read back", "statement": "For an object without folding, get_data(key) after select equals get_data(corresponding key) before select restricted to the kept times, for every key whose window, baseline-pair and polarization were kept.", "quantifier": "all objects, selections and keys", "why_tests_cant": "All keys after all selections.", "anchors": ["src/hera_pspec/uvpspec_utils.py:_select", "src/hera_pspec/uvpspec.py:UVPSpec.get_data", "src/hera_pspec/uvpspec.py:UVPSpec.key_to_indices"]}
{"id": "C16", "title": "select_common leaves only content common to all objects", "statement": "After select_common(spws, blpairs, times, polpairs, lsts), each requested axis of every returned object contains exactly the values present in all inputs; an empty intersection raises.", "quantifier": "all lists of objects and all axis flags", "why_tests_cant": "Arbitrary numbers of objects and overlaps.", "anchors": ["src/hera_pspec/uvpspec_utils.py:select_common"]}
{"id": "C17", "title": "Keys address exactly the matching rows", "statement": "get_data((spw, blpair, polpair)) returns exactly the rows whose baseline-pair equals the key's (in order), the delays of that window and that polarization; unknown blpairs, windows, polpairs are rejected; get_all_keys enumerates each existing (spw, blpair, polpair) exactly once and each is readable.", "quantifier": "all objects and keys", "why_tests_cant": "All keys of all objects.", "anchors": ["src/hera_pspec/uvpspec.py:UVPSpec.key_to_indices", "src/hera_pspec/uvpspec.py:UVPSpec.get_all_keys", "src/hera_pspec/uvpspec.py:UVPSpec.blpair_to_indices"]}
{"id": "C18", "title": "Reading a folded object returns the positive delays", "statement": "For a folded object get_data returns exactly the strictly positive-delay half of the stored spectrum, the same delays get_dlys reports, for every number of delays.", "quantifier": "all delay counts", "why_tests_cant": "Negative-slice arithmetic differs for small and for odd/even counts.", "anchors": ["src/hera_pspec/uvpspec.py:UVPSpec.get_data", "src/hera_pspec/uvpspec.py:UVPSpec.spw_to_dly_indices"]}
{"id": "C19", "title": "time_to_indices returns only the requested times", "statement": "time_to_indices(t) returns exactly the rows whose average time is t; distinct integrations of the same data set are not returned.", "quantifier": "all time arrays with distinct integrations", "why_tests_cant": "Relative tolerances act on Julian dates of ~2.4 million days.", "anchors": ["src/hera_pspec/uvpspec.py:UVPSpec.time_to_indices"]}
{"id": "C20", "title": "get_spw_ranges round-trips the frequency layout", "statement": "For every window, get_spw_ranges reports (first frequency, first frequency + Nfreqs * channel spacing, Nfreqs, Ndlys) of that window's channels, for uniformly spaced channels in ascending order.", "quantifier": "all objects and windows", "why_tests_cant": "Unbounded windows and sizes.", "anchors": ["src/hera_pspec/uvpspec.py:UVPSpec.get_spw_ranges"]}
{"id": "C21", "title": "Combining is only allowed along exactly one axis", "statement": "get_uvp_overlap accepts a list of objects iff every pair agrees on all but one of the axes (spw, blpair-time, polpair), is disjoint on that one, and the axis is the same for all pairs; partial overlap is rejected.", "quantifier": "all lists of two or more objects", "why_tests_cant": "All pairs of overlap patterns.", "anchors": ["src/hera_pspec/uvpspec.py:get_uvp_overlap"]}
{"id": "C22", "title": "combine_uvpspec preserves every input spectrum", "statement": "Combining objects along the baseline-pair-time axis or the polarization axis yields an object in which each (window, baseline-pair, times, polarization) entry of any input has its input value, the output contains nothing else and is sorted.", "quantifier": "all lists of combinable objects in any order", "why_tests_cant": "Lookup-based reindexing over arbitrary orders.", "anchors": ["src/hera_pspec/uvpspec.py:combine_uvpspec", "src/hera_pspec/uvpspec_utils.py:_fast_lookup_blpairts"]}
{"id": "C23", "title": "combine_uvpspec does not depend on argument order", "statement": "Combining the same objects in a different order gives the same sorted rows and the same value per entry.", "quantifier": "all permutations of all lists", "why_tests_cant": "n! orders.", "anchors": ["src/hera_pspec/uvpspec.py:combine_uvpspec"]}
{"id": "C24", "title": "_fast_lookup_blpairts finds the row of each query", "statement": "If every query row (blpair, time1, time2) occurs in the source, the i-th returned index points at a source row equal to the i-th query.", "quantifier": "all source and query tables", "why_tests_cant": "Depends on duplicates and on the second time, which is ignored.", "anchors": ["src/hera_pspec/uvpspec_utils.py:_fast_lookup_blpairts"]}
{"id": "C25", "title": "recursive_combine_uvpspec uses every input once and terminates", "statement": "For every non-empty list, recursive combination terminates, feeds each input to the merge exactly once and in order, so for an associative merge it equals the left fold; the empty list raises.", "quantifier": "all lists and all associative merges", "why_tests_cant": "All lengths of halving recursion.", "anchors": ["src/hera_pspec/uvpspec.py:recursive_combine_uvpspec", "src/hera_pspec/cli.py:fast_merge_baselines"]}
{"id": "C26", "title": "fast_merge_baselines result does not depend on batch_size", "statement": "The batches cover the file list exactly once in order for every batch size >= 1, so for an associative merge the merged output is the same for every batch size.", "quantifier": "all file lists and batch sizes", "why_tests_cant": "All sizes and remainders.", "anchors": ["src/hera_pspec/cli.py:fast_merge_baselines"]}
{"id": "C27", "title": "Folding averages positive and negative delays", "statement": "fold_spectra sets, for every positive delay tau, the folded value to the mean of the values at +tau and -tau, for odd and even delay counts; it refuses to fold twice; nsample doubles.", "quantifier": "all spectra and delay counts", "why_tests_cant": "Slice arithmetic for odd/even N.", "anchors": ["src/hera_pspec/grouping.py:fold_spectra"]}
{"id": "C28", "title": "Folding a delay-symmetric spectrum is lossless and folding is linear", "statement": "If the spectrum is symmetric in delay the folded value equals the original at positive delay; folding commutes with sums and scaling of spectra; a folded covariance of a symmetric matrix is symmetric.", "quantifier": "all spectra", "why_tests_cant": "Universally quantified.", "anchors": ["src/hera_pspec/grouping.py:fold_spectra"]}
{"id": "C29", "title": "Incoherent average is a weighted mean", "statement": "Within a group, average_spectra returns sum(w*x)/sum(w) with the weights from integration time and nsample (or inverse error variance): the result lies between the smallest and largest input, equals x if all inputs equal x, ignores zero-weight rows, and is unchanged by permuting rows.", "quantifier": "all groups, data and non-negative weights with positive sum", "why_tests_cant": "Real-valued inputs of unbounded length.", "anchors": ["src/hera_pspec/grouping.py:average_spectra"]}
{"id": "C30", "title": "Error bars propagate through averages in quadrature", "statement": "The averaged error is sqrt(sum(w^2 s^2))/sum(w): it never exceeds the largest input error, and averaging n rows with equal error s and weight gives s/sqrt(n).", "quantifier": "all groups", "why_tests_cant": "Real-valued inputs of unbounded length.", "anchors": ["src/hera_pspec/grouping.py:average_spectra"]}
{"id": "C31", "title": "Baseline-pair weights act proportionally", "statement": "User-supplied blpair_weights give each baseline-pair a share in the group average proportional to its weight.", "quantifier": "all weight vectors", "why_tests_cant": "Weights are normalised then truncated to integers in the code.", "anchors": ["src/hera_pspec/grouping.py:average_spectra"]}
{"id": "C32", "title": "Bootstrap samples conserve the number of draws", "statement": "For every seed and group, bootstrap_average_blpairs gives integer weights per baseline-pair that sum to the number of available pairs, so the average is over as many draws as baseline-pairs; sample_baselines returns as many baselines as given, all from the input.", "quantifier": "all groups and all random streams", "why_tests_cant": "All random streams.", "anchors": ["src/hera_pspec/grouping.py:bootstrap_average_blpairs", "src/hera_pspec/grouping.py:sample_baselines"]}
{"id": "C33", "title": "Spherical k bins assign each mode to at most one bin", "statement": "For non-overlapping bins every |k| falls in at most one (left,right] bin; each row of the binning matrix has at most one 1; modes outside all bins do not contribute.", "quantifier": "all k modes and all accepted bins", "why_tests_cant": "Continuum of k values.", "anchors": ["src/hera_pspec/grouping.py:spherical_average"]}
{"id": "C34", "title": "Spherical averaging is unbiased for a constant spectrum", "statement": "If every bin holds at least one positively weighted mode, the estimator matrix applied to the binning matrix is the identity, so a spectrum constant in each bin is returned exactly; each bin's value is the inverse-variance weighted mean of its modes (diagonal weights).", "quantifier": "all bin assignments and positive weights", "why_tests_cant": "Linear-algebra identity over all sizes.", "anchors": ["src/hera_pspec/grouping.py:spherical_average"]}
{"id": "C35", "title": "Delay-bin slices are disjoint, ordered and centred", "statement": "_get_delay_slices returns non-overlapping, in-range, increasing slices, the central one of nzero delays centred on zero delay, all others of exactly nk delays, mirror-symmetric about zero delay.", "quantifier": "all delay counts, bin widths and odd nzero", "why_tests_cant": "All sizes/remainders of loops with boundary conditions.", "anchors": ["src/hera_pspec/grouping.py:_get_delay_slices"]}
{"id": "C36", "title": "Delay binning of data, errors and covariances is mutually consistent", "statement": "Binning with a normalised kernel preserves constants; the binned variance is the quadratic form of the kernel with the covariance, so errors binned as rms equal the diagonal of the binned covariance for diagonal covariance.", "quantifier": "all slices, kernels and arrays", "why_tests_cant": "Universally quantified linear algebra.", "anchors": ["src/hera_pspec/grouping.py:_bin_data_like_array", "src/hera_pspec/grouping.py:_bin_rms_like_array", "src/hera_pspec/grouping.py:_bin_cov_like_array"]}
{"id": "C37", "title": "A container behaves as a map from (group, name) to spectra", "statement": "After any sequence of set_pspec/get_pspec/spectra/groups operations on a container opened 'rw', get_pspec(g,n) returns the object of the last successful set_pspec(g,n,.), other entries are unaffected, spectra(g) lists exactly the stored names and groups() exactly the stored groups.", "quantifier": "all operation histories", "why_tests_cant": "Unbounded histories.", "anchors": ["src/hera_pspec/container.py:PSpecContainer.set_pspec", "src/hera_pspec/container.py:PSpecContainer.get_pspec", "src/hera_pspec/container.py:PSpecContainer.spectra", "src/hera_pspec/container.py:PSpecContainer.groups"]}
{"id": "C38", "title": "Existing spectra are never replaced without overwrite", "statement": "set_pspec with overwrite=False on an existing (group, name) raises and leaves the stored spectrum unchanged; in mode 'r' no operation changes the file.", "quantifier": "all states and arguments", "why_tests_cant": "All states.", "anchors": ["src/hera_pspec/container.py:PSpecContainer.set_pspec"]}
{"id": "C39", "title": "A failed overwrite does not destroy the stored spectrum", "statement": "If set_pspec(overwrite=True) raises, the previously stored spectrum is still there.", "quantifier": "all states and all failure points", "why_tests_cant": "Needs every failure point.", "anchors": ["src/hera_pspec/container.py:PSpecContainer.set_pspec", "src/hera_pspec/uvpspec.py:UVPSpec.write_to_group"]}
{"id": "C40", "title": "Transactional methods leave the file closed", "statement": "With keep_open=False, after any sequence of container calls, whether they returned or raised, nested or not, the file handle is closed; with keep_open=True it is open; nested calls do not close it under their caller unless they raise.", "quantifier": "all call trees and exception points", "why_tests_cant": "All nesting and exception interleavings.", "anchors": ["src/hera_pspec/container.py:transactional"]}
{"id": "C41", "title": "Opening retries are bounded", "statement": "_open makes at most maxiter+1 attempts, succeeds iff one of those attempts succeeds, and otherwise re-raises; it never returns without an open handle.", "quantifier": "all failure patterns and maxiter", "why_tests_cant": "All failure patterns.", "anchors": ["src/hera_pspec/container.py:PSpecContainer._open"]}
{"id": "C42", "title": "combine_psc_spectra merges only spectra of the same dataset pair", "statement": "Each output spectrum named A_x_B merges exactly the stored spectra named A_x_B + extension; spectra of other pairs are neither merged nor deleted.", "quantifier": "all sets of names", "why_tests_cant": "Name matching is by substring.", "anchors": ["src/hera_pspec/container.py:combine_psc_spectra"]}
{"id": "C43", "title": "job_monitor re-runs exactly the failed jobs", "statement": "job_monitor runs every job once, re-runs only jobs that failed, at most maxiter times, and returns the jobs still failing.", "quantifier": "all iterators and failure patterns", "why_tests_cant": "All failure patterns.", "anchors": ["src/hera_pspec/utils.py:job_monitor"]}
{"id": "C44", "title": "Frequency and redshift ranges map to the channels they contain", "statement": "spw_range_from_freqs returns channel indices delimiting exactly the channels with fmin <= f < fmax; out-of-range requests raise when bounds_error, otherwise are clipped.", "quantifier": "all ascending frequency arrays and ranges", "why_tests_cant": "Boundary conditions over reals.", "anchors": ["src/hera_pspec/utils.py:spw_range_from_freqs", "src/hera_pspec/utils.py:spw_range_from_redshifts"]}
{"id": "C45", "title": "Weighted covariance is Hermitian and translation invariant", "statement": "utils.cov(d,w) is Hermitian with non-negative real diagonal for unflagged data, invariant under adding a time-constant offset, and scales as |a|^2.", "quantifier": "all data and weights", "why_tests_cant": "Universally quantified linear algebra over complex data.", "anchors": ["src/hera_pspec/utils.py:cov"]}
{"id": "C46", "title": "Q_alt matrices are Hermitian rank-one and give the delay transform", "statement": "get_Q_alt(mode) is m m^dagger: Hermitian, rank one, x^dagger Q y is the product of the mode's Fourier amplitudes; modes outside range are rejected.", "quantifier": "all delay counts, channel counts and modes", "why_tests_cant": "All sizes.", "anchors": ["src/hera_pspec/utils.py:get_Q_alt", "src/hera_pspec/pspecdata.py:PSpecData.get_Q_alt"]}
{"id": "C47", "title": "The FFT and matrix forms of q_hat agree", "statement": "For Ndlys = Nfreqs, q_hat(allow_fft=True) equals q_hat(allow_fft=False) for all data.", "quantifier": "all data and all channel counts", "why_tests_cant": "All sizes (odd/even shift conventions).", "anchors": ["src/hera_pspec/pspecdata.py:PSpecData.q_hat", "src/hera_pspec/utils.py:get_Q_alt"]}
{"id": "C48", "title": "q_hat is sesquilinear, real for autos and equals the E-matrix form", "statement": "q_hat(x1,x2) is conjugate-linear in x1 and linear in x2, conj-symmetric under exchange, real and non-negative when both inputs are the same, and equals x1^dagger E x2 with the E of get_unnormed_E.", "quantifier": "all data and weighting matrices", "why_tests_cant": "Universally quantified linear algebra.", "anchors": ["src/hera_pspec/pspecdata.py:PSpecData.q_hat", "src/hera_pspec/pspecdata.py:PSpecData.get_unnormed_E"]}
{"id": "C49", "title": "The normalisation matrix G is real and non-negative", "statement": "For equal weightings on both sides every entry of get_G is a real non-negative number |m_a^dagger R m_b|^2/2, G is symmetric for Hermitian R, and an all-zero G is replaced by a multiple of the identity (half of it).", "quantifier": "all R and sizes", "why_tests_cant": "Universally quantified linear algebra.", "anchors": ["src/hera_pspec/pspecdata.py:PSpecData.get_G"]}
{"id": "C50", "title": "Window functions are normalised", "statement": "For every norm mode of get_MW ('I','H^-1','V^-1/2') each row of W sums to one whenever the normalising sum is nonzero; in V^-1/2 mode W = M H exactly.", "quantifier": "all G,H,V", "why_tests_cant": "Universally quantified linear algebra.", "anchors": ["src/hera_pspec/pspecdata.py:PSpecData.get_MW"]}
{"id": "C51", "title": "The bandpower covariance is Hermitian", "statement": "get_unnormed_V returns a Hermitian matrix for every data set.", "quantifier": "all data, weights, R", "why_tests_cant": "Universally quantified linear algebra.", "anchors": ["src/hera_pspec/pspecdata.py:PSpecData.get_unnormed_V", "src/hera_pspec/pspecdata.py:PSpecData.cross_covar_model", "src/hera_pspec/utils.py:cov"]}
{"id": "C52", "title": "Dataset labels are unique after any sequence of add", "statement": "After any number of add() calls with any labels, all labels are distinct, there are as many labels as datasets, and earlier labels never change.", "quantifier": "all histories of add", "why_tests_cant": "Unbounded histories and label collisions such as 'a.1'.", "anchors": ["src/hera_pspec/pspecdata.py:PSpecData.add"]}
{"id": "C53", "title": "Dataset-baseline keys parse independently of their spelling", "statement": "parse_blkey maps (dset, (a,b), pol), (dset, a, b, pol) and label forms to the same dataset index and baseline key; keys with an unknown label, without a baseline, with a baseline that is not a tuple or two entries, or with a polarization that is neither string nor integer raise.", "quantifier": "all keys", "why_tests_cant": "All key shapes.", "anchors": ["src/hera_pspec/pspecdata.py:PSpecData.parse_blkey", "src/hera_pspec/pspecdata.py:PSpecData.dset_idx"]}
{"id": "C54", "title": "The extended spectral window stays inside the band", "statement": "After any sequence of set_spw / set_filter_extension / set_symmetric_taper calls the extended window lies within [0,Nfreqs] and a symmetric taper is never combined with a non-zero filter extension.", "quantifier": "all call sequences", "why_tests_cant": "All histories.", "anchors": ["src/hera_pspec/pspecdata.py:PSpecData.set_filter_extension", "src/hera_pspec/pspecdata.py:PSpecData.set_symmetric_taper", "src/hera_pspec/pspecdata.py:PSpecData.set_spw", "src/hera_pspec/pspecdata.py:PSpecData.get_spw"]}
{"id": "C55", "title": "Cached matrices are never stale", "statement": "After any sequence of set_spw, set_taper, set_weighting, set_filter_extension, set_symmetric_taper, clear_cache and matrix queries, R(key) equals what would be computed from scratch from the current settings.", "quantifier": "all histories", "why_tests_cant": "All interleavings of setters and queries.", "anchors": ["src/hera_pspec/pspecdata.py:PSpecData.R", "src/hera_pspec/pspecdata.py:PSpecData.Y", "src/hera_pspec/pspecdata.py:PSpecData.I", "src/hera_pspec/pspecdata.py:PSpecData.clear_cache"]}
{"id": "C56", "title": "pspec reuses normalisation matrices only when they are equal", "statement": "In identity weighting, the cached G and H that pspec uses for a (window, polarization, baseline-pair) equal the ones recomputed for it.", "quantifier": "all sequences of baseline-pairs and polarizations", "why_tests_cant": "All flag patterns and orders.", "anchors": ["src/hera_pspec/pspecdata.py:PSpecData.pspec"]}
{"id": "C57", "title": "pspec output rows match its metadata", "statement": "In the object pspec returns, each data row corresponds to the (baseline-pair, time) of the metadata row with the same index for every polarization and window, whatever requested polarizations were skipped as unavailable.", "quantifier": "all lists of baseline-pairs, polarizations, windows and availability patterns", "why_tests_cant": "All availability patterns.", "anchors": ["src/hera_pspec/pspecdata.py:PSpecData.pspec"]}
{"id": "C58", "title": "Flag broadcasting yields separable flags and never unflags", "statement": "After broadcast_dset_flags on disjoint windows, within each window a pixel is flagged iff its channel is flagged for all times or its integration for all channels of the window; existing flags are never removed (unless unflag=True, which clears exactly the windows).", "quantifier": "all waterfalls, windows and thresholds", "why_tests_cant": "Exponentially many flag patterns.", "anchors": ["src/hera_pspec/pspecdata.py:PSpecData.broadcast_dset_flags"]}
{"id": "C59", "title": "Jy to mK conversion is applied once", "statement": "Calling Jy_to_mK any number of times gives the same data as calling it once, and only data in Jy are changed.", "quantifier": "all dataset collections and call counts", "why_tests_cant": "Histories.", "anchors": ["src/hera_pspec/pspecdata.py:PSpecData.Jy_to_mK"]}
{"id": "C60", "title": "Rephasing is applied once", "statement": "Calling rephase_to_dset a second time leaves data unchanged: data sets that are no longer drift-phased are skipped.", "quantifier": "all dataset collections and call counts", "why_tests_cant": "Histories.", "anchors": ["src/hera_pspec/pspecdata.py:PSpecData.rephase_to_dset"]}
{"id": "C61", "title": "trim_dset_lsts keeps exactly the common LSTs", "statement": "After trim_dset_lsts every dataset holds exactly its integrations whose rounded LST occurs in all datasets; a second call changes nothing.", "quantifier": "all LST arrays", "why_tests_cant": "All overlaps.", "anchors": ["src/hera_pspec/pspecdata.py:PSpecData.trim_dset_lsts"]}
{"id": "C62", "title": "Interleaving splits times into disjoint alternating halves", "statement": "With interleave_times, the two datasets have equally many, disjoint, alternating times and at most one trailing time is dropped.", "quantifier": "all time lists", "why_tests_cant": "All lengths.", "anchors": ["src/hera_pspec/pspecdata.py:pspec_run"]}
{"id": "C63", "title": "Scalar honours taper_override", "statement": "PSpecData.scalar(taper_override=t) computes the scalar with taper t (as pspec requests for norm='H^-1').", "quantifier": "all tapers and overrides", "why_tests_cant": "All combinations; value-level tests compare against the same code.", "anchors": ["src/hera_pspec/pspecdata.py:PSpecData.scalar"]}
{"id": "C64", "title": "Total integration time is a harmonic mean", "statement": "The integration time stored per row is 2/(1/t1+1/t2): between min(t1,t2) and 2 min(t1,t2) and max, symmetric, and zero if either side has no samples.", "quantifier": "all non-negative integration times", "why_tests_cant": "Reals.", "anchors": ["src/hera_pspec/pspecdata.py:PSpecData.pspec"]}
{"id": "C65", "title": "Pseudo-Stokes visibilities are an invertible combination", "statement": "Forming pI and pQ from XX and YY (pU and pV from XY and YX) allows the inputs to be recovered exactly, under both conventions; the result does not depend on the order in which the two inputs are given.", "quantifier": "all visibilities", "why_tests_cant": "Complex-valued data.", "anchors": ["src/hera_pspec/pstokes.py:_combine_pol_arrays", "src/hera_pspec/pstokes.py:pol_weights"]}
{"id": "C66", "title": "Pseudo-Stokes flags and samples are conservative", "statement": "A combined sample is flagged whenever either input is flagged or has no samples; combined nsamples is 4/(1/n1+1/n2) where both are positive and zero otherwise.", "quantifier": "all flag and nsample arrays", "why_tests_cant": "All patterns.", "anchors": ["src/hera_pspec/pstokes.py:_combine_pol_arrays"]}
{"id": "C67", "title": "Beam arrays stay consistent under any sequence of add_pol", "statement": "A PSpecBeamFromArray always has OmegaP and OmegaPP for the same set of allowed polarizations, each with one value per beam frequency; a rejected add_pol changes nothing.", "quantifier": "all construction arguments and add_pol histories", "why_tests_cant": "Histories with failures.", "anchors": ["src/hera_pspec/pspecbeam.py:PSpecBeamFromArray"]}
{"id": "C68", "title": "Frequency and redshift conversions are inverse", "statement": "z2f(f2z(f)) = f and f2z(z2f(z)) = z for positive f and z > -1; f2z is strictly decreasing.", "quantifier": "all reals", "why_tests_cant": "Reals.", "anchors": ["src/hera_pspec/conversions.py:Cosmo_Conversions.f2z", "src/hera_pspec/conversions.py:Cosmo_Conversions.z2f"]}
{"id": "C69", "title": "little_h only rescales lengths", "statement": "Switching little_h multiplies distances by h, wave numbers by 1/h and X2Y by h^3, so k*distance and Delta^2 (k^3 P) are independent of it.", "quantifier": "all cosmologies and redshifts", "why_tests_cant": "Reals; functions.", "anchors": ["src/hera_pspec/conversions.py:Cosmo_Conversions"]}
{"id": "C70", "title": "Noise power scales as the radiometer equation", "statement": "calc_P_N scales with Tsys^2, 1/t_int, 1/Ncoherent and 1/sqrt(Nincoherent); is monotone in each; real/imag component is smaller by sqrt 2; DelSq multiplies by k^3/2pi^2.", "quantifier": "all positive parameters", "why_tests_cant": "Reals.", "anchors": ["src/hera_pspec/noise.py:calc_P_N"]}
{"id": "C71", "title": "Bias correction scales data, errors and covariance consistently", "statement": "apply_bias_correction multiplies data by the correction, errors by its same factor and covariance by its square, so signal-to-noise from total bias is invariant, window by window.", "quantifier": "all corrections and objects", "why_tests_cant": "Reals.", "anchors": ["src/hera_pspec/loss.py:apply_bias_correction"]}
{"id": "C72", "title": "P_SN correction never increases an error estimate", "statement": "apply_P_SN_correction multiplies P_SN by a factor in (0,1], or makes it infinite; the result is never negative.", "quantifier": "all error bars", "why_tests_cant": "Reals.", "anchors": ["src/hera_pspec/utils.py:apply_P_SN_correction"]}
{"id": "C73", "title": "Window functions from UVWindow are mirror symmetric and normalised", "statement": "get_cylindrical_wf fills negative/positive delays so that the window at delay -tau equals the window computed for -tau for all channel counts; each delay's window sums to one or is identically zero.", "quantifier": "all channel counts", "why_tests_cant": "Index arithmetic for odd and even counts.", "anchors": ["src/hera_pspec/uvwindow.py:UVWindow.get_cylindrical_wf"]}
{"id": "C74", "title": "Spherical window-function rows are normalised", "statement": "Each row of cylindrical_to_spherical output sums to one or is identically zero and is non-negative for non-negative inputs.", "quantifier": "all inputs", "why_tests_cant": "Reals, all bins.", "anchors": ["src/hera_pspec/uvwindow.py:UVWindow.cylindrical_to_spherical"]}
{"id": "C75", "title": "Subtraction combines errors in quadrature", "statement": "subtract_uvp gives data1-data2 for each common key and errors sqrt(e1^2+e2^2) at least as large as either; subtracting an object from itself gives zero data.", "quantifier": "all objects", "why_tests_cant": "Reals.", "anchors": ["src/hera_pspec/uvpspec_utils.py:subtract_uvp"]}
{"id": "C76", "title": "Delta-squared conversion is k^3/2pi^2 for data and its outer product for covariance", "statement": "convert_to_deltasq multiplies P(k) by k^3/(2 pi^2), and the covariance entry (i,j) by the product of both factors so relative errors are invariant; a second conversion is refused or harmless.", "quantifier": "all objects, k", "why_tests_cant": "Reals.", "anchors": ["src/hera_pspec/uvpspec.py:UVPSpec.convert_to_deltasq"]}
{"id": "C77", "title": "Circular averaging of LSTs is wrap-safe", "statement": "circular_average of angles is unchanged by adding 2 pi to any input, returns a value in [0, 2 pi), and the average of equal angles is that angle mod 2 pi.", "quantifier": "all angles", "why_tests_cant": "Reals; wrap-around.", "anchors": ["src/hera_pspec/utils.py:circular_average"]}
{"id": "C78", "title": "Command-line tuple lists parse to the pairs they denote", "statement": "The pspec_run argument parser turns '~'/',' separated integers into exactly the list of tuples written, and both documented notations agree.", "quantifier": "all lists of tuples", "why_tests_cant": "All lengths.", "anchors": ["src/hera_pspec/pspecdata.py:get_pspec_run_argparser"]}
{"id": "C79", "title": "Averaged rows correspond to their metadata", "statement": "After average_spectra, the metadata rows and the data rows of every window and polarization correspond one to one: one block per group, one row per integration (one if time averaging), labelled by the group's zeroth baseline-pair with its times or mean times.", "quantifier": "all objects, groups and options for which the call succeeds", "why_tests_cant": "Row alignment must hold for every grouping and number of integrations.", "anchors": ["src/hera_pspec/grouping.py:average_spectra"]}
{"id": "C80", "title": "Averaging conserves the number of samples", "statement": "If every baseline-pair is in exactly one group with unit weights, the total nsample of each window and polarization is the same before and after average_spectra.", "quantifier": "all objects and partitions into groups", "why_tests_cant": "A global sum over all rows.", "anchors": ["src/hera_pspec/grouping.py:average_spectra"]}
{"id": "C81", "title": "Averaged covariances and window functions are those of the weighted mean", "statement": "average_spectra stores as covariance sum(w_d w_e C_de)/(sum w_d sum w_e) and as window function the weighted mean of the window functions.", "quantifier": "all groups and weights", "why_tests_cant": "Reals; all sizes.", "anchors": ["src/hera_pspec/grouping.py:average_spectra"]}
{"id": "C82", "title": "Spherical averages report a weighted mean integration time", "statement": "The integration time spherical_average reports is the weighted mean of the integration times of the baseline-pairs that were averaged, so it lies between the smallest and the largest.", "quantifier": "all objects and weightings", "why_tests_cant": "Reals; all numbers of baseline-pairs.", "anchors": ["src/hera_pspec/grouping.py:spherical_average"]}
{"id": "C83", "title": "Delay-binned spectra keep symmetric delays", "statement": "The delays of the object returned by average_in_delay_bins are symmetric like the input's: each negative delay has a corresponding positive delay, for every kernel and every number of delays.", "quantifier": "all numbers of delays and kernels", "why_tests_cant": "All sizes/parities and kernels.", "anchors": ["src/hera_pspec/grouping.py:average_in_delay_bins", "src/hera_pspec/grouping.py:_get_delay_slices"]}
{"id": "C84", "title": "The cosmology is normalised and distances grow with redshift", "statement": "A Cosmo_Conversions object with default curvature has densities summing to one and E(0)=1; parameters that are given are kept; comoving distance is zero at z=0 and strictly increasing.", "quantifier": "all parameter values with positive matter density", "why_tests_cant": "Reals; an integral over redshift.", "anchors": ["src/hera_pspec/conversions.py:Cosmo_Conversions"]}
{"id": "C85", "title": "The approximate delay-delay matrix is a correlation matrix", "statement": "get_approximate_delay_delay_corr_matrix returns, for every taper that is not identically zero and every number of delays, a symmetric positive-semidefinite matrix with unit diagonal and entries in [0,1].", "quantifier": "all tapers and sizes", "why_tests_cant": "Positive semidefiniteness for all sizes.", "anchors": ["src/hera_pspec/noise.py:get_approximate_delay_delay_corr_matrix"]}
{"id": "C86", "title": "V^-1/2 normalisation decorrelates the bandpowers", "statement": "With norm mode 'V^-1/2', for a positive-definite band covariance V, the covariance M V M^dagger of the normalised bandpowers is diagonal.", "quantifier": "all positive-definite Hermitian V and response matrices", "why_tests_cant": "Universally quantified linear algebra over complex matrices.", "anchors": ["src/hera_pspec/pspecdata.py:PSpecData.get_MW"]}
{"id": "C87", "title": "The covariance of normalised bandpowers is the propagated one", "statement": "cov_p_hat(M, C) is M C M^dagger: Hermitian for Hermitian C and positive semi-definite for positive semi-definite C.", "quantifier": "all M and C", "why_tests_cant": "Universally quantified linear algebra over complex matrices.", "anchors": ["src/hera_pspec/pspecdata.py:PSpecData.cov_p_hat"]}
{"id": "C88", "title": "The response matrix H is the bin-average of G", "statement": "get_H(sampling=False)_ab is the average over the delay bin centred on delay b of the response that G samples at the bin centre; get_H(sampling=True) equals G; with equal weightings all entries are real and non-negative.", "quantifier": "all weightings, sizes and extensions", "why_tests_cant": "An integral identity for all sizes.", "anchors": ["src/hera_pspec/pspecdata.py:PSpecData.get_H"]}
{"id": "C89", "title": "pspec records the kind of taper it used", "statement": "The symmetric_taper attribute of the object returned by pspec tells, for every spectral window, whether the taper was applied symmetrically; after the call no filter extension is left set.", "quantifier": "all lists of windows and filter extensions", "why_tests_cant": "All sequences of windows; hidden state carried between them.", "anchors": ["src/hera_pspec/pspecdata.py:PSpecData.pspec", "src/hera_pspec/pspecdata.py:PSpecData.set_filter_extension"]}
{"id": "C90", "title": "The beam scalar behaves like an inverse band average", "statement": "compute_pspec_scalar is positive, inversely proportional to the beam ratio and proportional to X^2Y; with exact_norm it lies between the smallest and largest X^2Y of the band and ignores beam and taper; the noise scalar ignores the taper and is the untapered scalar divided by the bandwidth; for constant integrands it does not depend on num_steps.", "quantifier": "all beams, cosmologies, bands, tapers and step counts", "why_tests_cant": "Reals; all step counts.", "anchors": ["src/hera_pspec/pspecbeam.py:_compute_pspec_scalar", "src/hera_pspec/pspecbeam.py:PSpecBeamBase.compute_pspec_scalar"]}
{"id": "C91", "title": "Data sets chosen for a pseudo-Stokes parameter are the right ones", "statement": "filter_dset_on_stokes_pol succeeds iff both linear polarizations of the parameter occur, and returns data sets holding them in the order construct_pstokes needs; constructing from them gives the textbook combination.", "quantifier": "all lists of data sets and parameters", "why_tests_cant": "All lists and orders.", "anchors": ["src/hera_pspec/pstokes.py:filter_dset_on_stokes_pol", "src/hera_pspec/pstokes.py:construct_pstokes"]}
{"id": "C92", "title": "An object survives being written to and read from a file", "statement": "write_hdf5 followed by read_hdf5 gives back all metadata, all arrays of every spectral window, window functions, covariances and statistics, whatever the reading object held before; reading with a selection equals reading everything and selecting; without overwrite an existing file is untouched, with it the file is replaced only by a complete one.", "quantifier": "all objects that pass their check, all previous contents of the reading object and of the path, all selections", "why_tests_cant": "Ranges over all objects and all sequences of write and read; the file also depends on what was there before.", "anchors": ["src/hera_pspec/uvpspec.py:UVPSpec.write_to_group", "src/hera_pspec/uvpspec.py:UVPSpec.read_from_group", "src/hera_pspec/uvpspec.py:UVPSpec.write_hdf5", "src/hera_pspec/uvpspec.py:UVPSpec.read_hdf5"]}
{"id": "C93", "title": "Equality of objects means equality of their contents", "statement": "u == v is True exactly if all parameters and arrays agree (to within rounding), it is reflexive on valid objects and holds between an object and its copy read from a file.", "quantifier": "all pairs of objects", "why_tests_cant": "All pairs of objects.", "anchors": ["src/hera_pspec/uvpspec.py:UVPSpec.__eq__"]}
{"id": "C94", "title": "omit_flags removes exactly the completely flagged spectra", "statement": "With omit_flags=True the accessors return, in order, exactly the rows of the key whose integration time is not zero, the same rows from every array; with omit_flags=False all rows.", "quantifier": "all objects and keys", "why_tests_cant": "All objects and keys.", "anchors": ["src/hera_pspec/uvpspec.py:UVPSpec.key_to_indices", "src/hera_pspec/uvpspec.py:UVPSpec.get_data", "src/hera_pspec/uvpspec.py:UVPSpec.get_integrations"]}
{"id": "C95", "title": "A statistic reads back what was set", "statement": "set_stats then get_stats on the same key returns the array; other keys of the statistic and other statistics are unaffected; wrong shapes and unknown keys are refused. set_stats_slice replaces exactly the delays strictly beyond bl_len*m+b nanoseconds in every row, with the row's own baseline length, and nothing else.", "quantifier": "all objects, statistics, keys and arrays", "why_tests_cant": "All objects and histories of settings.", "anchors": ["src/hera_pspec/uvpspec.py:UVPSpec.set_stats", "src/hera_pspec/uvpspec.py:UVPSpec.get_stats", "src/hera_pspec/uvpspec.py:UVPSpec.set_stats_slice"]}
{"id": "C96", "title": "Baseline separations and wavenumbers belong to their rows", "statement": "get_blpair_seps gives every row the mean length of its two baselines, independent of their order; a baseline that is not listed raises; get_kperps and get_kparas are these separations, and the delays of the window, times one factor per window.", "quantifier": "all objects, orders of rows and baselines", "why_tests_cant": "All row orders and baseline lists.", "anchors": ["src/hera_pspec/uvpspec.py:UVPSpec.get_blpair_seps", "src/hera_pspec/uvpspec.py:UVPSpec.get_kperps", "src/hera_pspec/uvpspec.py:UVPSpec.get_kparas"]}
{"id": "C97", "title": "Changing the cosmology only changes the normalisation", "statement": "set_cosmology multiplies every power by new scalar / old scalar and stores the new scalars, so power / scalar is invariant, the last of several changes determines the result and returning to the first cosmology restores the powers; it does nothing if a cosmology is set and overwrite is False or no beam is known; units and error bars stay consistent with the powers.", "quantifier": "all objects, cosmologies, beams and sequences of changes", "why_tests_cant": "All sequences of changes.", "anchors": ["src/hera_pspec/uvpspec.py:UVPSpec.set_cosmology", "src/hera_pspec/uvpspec.py:UVPSpec.compute_scalar"]}
{"id": "C98", "title": "The delay adjustment of the scalar is one number for identity weighting", "statement": "scalar_delay_adjustment never raises 'band-dependent' for identity weighting, whatever the flags, taper and number of delays: it returns Ndlys/(Nfreqs*loss)*mean(taper^2) with a loss in (0,1] fixed by the aliasing of channels; with at least as many delays as channels it is Ndlys/Nfreqs*mean(taper^2) for every weighting; for other weightings it turns the normalisation by row sums of G into one by row sums of H, delay by delay.", "quantifier": "all numbers of channels and delays, all flags and weights, all tapers, all weighting matrices", "why_tests_cant": "Ranges over all numbers of delays and channels and all weights; the equality of all row sums is a theorem on geometric sums.", "anchors": ["src/hera_pspec/pspecdata.py:PSpecData.scalar_delay_adjustment"]}
{"id": "C99", "title": "Time-differenced visibilities are differences of the same baseline", "statement": "uvd_time_difference returns, per baseline, (V(t) - V(t'))/sqrt(2) for times t, t' of the file that are time_diff seconds apart, so that everything constant in time cancels and the noise level is kept; it raises for fewer than three times.", "quantifier": "all files, baselines, times and time differences", "why_tests_cant": "Ranges over all files, orders of rows and time grids.", "anchors": ["src/hera_pspec/utils.py:uvd_time_difference", "src/hera_pspec/utils.py:pspecdata_time_difference"]}
{"id": "C100", "title": "Baseline lengths and angles do not depend on how a baseline is written", "statement": "get_bl_lens_angs returns the Euclidean length and an angle in [0,180] that is the East-North direction up to reversal, equal for a baseline and its reverse; the cuts of get_reds keep exactly the groups whose length, angle and East-West length are in range.", "quantifier": "all baseline vectors, tolerances and cuts", "why_tests_cant": "All real vectors.", "anchors": ["src/hera_pspec/utils.py:get_bl_lens_angs", "src/hera_pspec/utils.py:get_reds"]}
{"id": "C101", "title": "Thermal-noise error bars bracket the noise", "statement": "uvp_noise_error stores P_N and P_SN = sqrt(sqrt(2) max(Re P,0) P_N + P_N^2) minus the double-counting correction; P_SN is at least (1-kappa) P_N, equals it where the power is not positive, grows with signal and noise; fully flagged data get infinite error bars; running it again changes nothing; a stored P_N gives the same result as a computed one.", "quantifier": "all objects, statistics already stored, requests and values", "why_tests_cant": "Ranges over all previous contents of the statistics and all values.", "anchors": ["src/hera_pspec/utils.py:uvp_noise_error", "src/hera_pspec/utils.py:apply_P_SN_correction"]}
{"id": "C102", "title": "The noise of a row comes from its own antennas, time, integration and samples", "statement": "generate_noise_spectra gives every row the radiometer equation with its own integration time and number of samples, for a number, an array or a dictionary of either as Tsys; the Tsys of a row lies between the smallest and largest unflagged autocorrelation of the antennas involved, and is that of its own time when this is unflagged.", "quantifier": "all objects, autocorrelations, flags and tapers", "why_tests_cant": "All flag patterns and time grids.", "anchors": ["src/hera_pspec/uvpspec.py:UVPSpec.generate_noise_spectra", "src/hera_pspec/utils.py:uvp_noise_error"]}
{"id": "C103", "title": "A beam is always cut to one contiguous band, frequencies and planes together", "statement": "FTBeam.update_spw and from_file accept exactly the ranges 0 <= a < b <= number of channels, refuse others without changing the object, keep channels a..b-1 of frequencies and beam planes alike; after any history of cuts the object is one contiguous band of the original; reading with a range equals reading and cutting; the polarization is the one in the file name.", "quantifier": "all beams, files, paths, ranges and sequences of cuts", "why_tests_cant": "Ranges over all histories of cuts and all files.", "anchors": ["src/hera_pspec/uvwindow.py:FTBeam.update_spw", "src/hera_pspec/uvwindow.py:FTBeam.from_file", "src/hera_pspec/uvwindow.py:FTBeam.__init__", "src/hera_pspec/uvwindow.py:check_spw_range"]}
{"id": "C104", "title": "A window object made from a UVPSpec object uses the beam of each polarization at the frequencies of the spectral window", "statement": "UVWindow.from_uvpspec uses, for each polarization of the pair, the beam of that polarization, cut to the channels of the chosen spectral window; windows that are not part of the beam's band are refused.", "quantifier": "all UVPSpec objects, polarization pairs, spectral windows and beam files", "why_tests_cant": "All pairs, windows and file contents.", "anchors": ["src/hera_pspec/uvwindow.py:UVWindow.from_uvpspec", "src/hera_pspec/uvwindow.py:UVWindow.__init__"]}
{"id": "C105", "title": "The beam transform is interpolated at both coordinates of the k_perp grid", "statement": "The interpolated beam at grid point (kx, ky) is the bilinear interpolation of the beam transform at (kx, ky), zero outside the beam's grid, exact at its nodes, between the bounds of the beam; one plane per frequency on the grid of that frequency.", "quantifier": "all beams, grids, baselines and cosmologies", "why_tests_cant": "Ranges over all beams and grid points.", "anchors": ["src/hera_pspec/uvwindow.py:UVWindow._interpolate_ft_beam"]}
{"id": "C106", "title": "The k_perp grid of the beam is centred on the baseline", "statement": "The grid assigned to the beam transform at a frequency ascends in equal steps and has the zero of the transform at the k_perp of the baseline at that frequency; the regular grid starts and ends within a step of centre -/+ width and its step is that of the highest frequency; frequencies outside the band and too small widths are refused.", "quantifier": "all frequencies, baselines, grid sizes and cosmologies", "why_tests_cant": "All grid sizes, even and odd.", "anchors": ["src/hera_pspec/uvwindow.py:UVWindow._kperp4bl_freq", "src/hera_pspec/uvwindow.py:UVWindow._get_kgrid"]}
{"id": "C107", "title": "Writing window functions to a file is all or nothing", "statement": "run_and_write either raises, leaving every existing file as it was, or writes exactly the windows of the baselines asked for with the bins and weights used, such that averaging them with the stored weights gives the spherical windows of the same baselines and weights; without clobber an existing file is never touched.", "quantifier": "all file systems, arguments and failures", "why_tests_cant": "Ranges over every point of failure and every state of the file system.", "anchors": ["src/hera_pspec/uvwindow.py:UVWindow.run_and_write", "src/hera_pspec/uvwindow.py:UVWindow.cylindrical_to_spherical"]}
{"id": "C108", "title": "Configured baseline-pairs cover exactly the requested combinations that have files", "statement": "config_pspec_blpairs returns a dictionary whose keys are exactly the requested (group pair, polarization pair) combinations both halves of which have files, each with the same list of baseline-pairs, without those containing excluded antennas; files matching an exclusion pattern are not used.", "quantifier": "all templates, file systems, pairs, excluded antennas and patterns", "why_tests_cant": "All file systems and templates.", "anchors": ["src/hera_pspec/utils.py:config_pspec_blpairs"]}
{"id": "C109", "title": "Baseline-pairs and polarizations are checked against the data", "statement": "validate_blpairs refuses exactly when the two objects place a shared antenna further apart than the tolerance and reports exactly the pairs whose baselines differ by the tolerance or more; validate_pol is true exactly when each polarization is in its own dataset.", "quantifier": "all antenna positions, tolerances, pairs and groups of pairs, datasets and polarizations", "why_tests_cant": "All positions and lists.", "anchors": ["src/hera_pspec/pspecdata.py:validate_blpairs", "src/hera_pspec/pspecdata.py:PSpecData.validate_pol"]}
{"id": "C110", "title": "The analytic covariance is the covariance of the band powers of Gaussian data", "statement": "get_analytic_covariance returns, for every time, the covariances of the real and the imaginary parts of q = x1^dagger E x2 and of p = M q for Gaussian data with the covariances given; no variance is negative for the noise models, for any normalization; the signal-noise term is the documented one where positive and never lowers a variance.", "quantifier": "all covariances, E and normalization matrices, times and Gaussian ensembles", "why_tests_cant": "Ranges over all probability distributions and matrices.", "anchors": ["src/hera_pspec/pspecdata.py:PSpecData.get_analytic_covariance"]}
{"id": "C111", "title": "The covariance of q over several baselines is their harmonic mean, time by time", "statement": "cov_q_hat returns one matrix per time asked for; each element is the harmonic mean over the pairs of keys of the elements of their covariances at that time; times outside the data and mismatched keys are refused.", "quantifier": "all keys, times, models and covariances", "why_tests_cant": "All lists of keys and times.", "anchors": ["src/hera_pspec/pspecdata.py:PSpecData.cov_q_hat"]}
{"id": "C112", "title": "Covariances and window functions come back row by row with the data", "statement": "get_cov and get_window_function return, for a key, one matrix per spectrum of get_data in the same order: the stored matrix of that row, window and polarization pair; on a folded object the block at positive delays on both axes; unknown components are refused.", "quantifier": "all objects, keys, components, folded or not, with or without omitted flags", "why_tests_cant": "All objects and keys.", "anchors": ["src/hera_pspec/uvpspec.py:UVPSpec.get_cov", "src/hera_pspec/uvpspec.py:UVPSpec.get_window_function"]}
{"id": "C113", "title": "The approximate covariance has the statistic as its standard deviation", "statement": "add_approximate_covariance gives every row, window and pair the covariance matrix with the statistic as standard deviations and the correlation of the taper, and a zero imaginary covariance; get_cov then returns it with the spectra of get_stats; a missing statistic is refused and the object changes only with inplace.", "quantifier": "all objects, statistics, tapers and windows", "why_tests_cant": "All objects and statistics.", "anchors": ["src/hera_pspec/uvpspec.py:UVPSpec.add_approximate_covariance", "src/hera_pspec/noise.py:analytic_delay_correlation"]}
{"id": "C114", "title": "Groups of baselines select the baseline-pairs made of them", "statement": "get_blpair_groups_from_bl_groups returns, per group of baselines in order, the sorted baseline-pairs with one (or both) baselines in the group, without empty groups; empty or malformed groups are refused.", "quantifier": "all objects and groups of baselines", "why_tests_cant": "All objects and groups.", "anchors": ["src/hera_pspec/uvpspec.py:UVPSpec.get_blpair_groups_from_bl_groups", "src/hera_pspec/uvpspec.py:_normalize_nested_sequence"]}
{"id": "C115", "title": "Automatic k bins contain the k values of the data", "statement": "get_delays returns the evenly spaced delays with zero at index n//2; the k_parallel and k_perp bins chosen by default are evenly spaced and contain the k_parallel of every delay and the k_perp of every baseline.", "quantifier": "all frequency arrays, numbers of delays, baselines and cosmologies", "why_tests_cant": "All array sizes and baseline sets.", "anchors": ["src/hera_pspec/utils.py:get_delays", "src/hera_pspec/uvwindow.py:UVWindow.get_kperp_bins", "src/hera_pspec/uvwindow.py:UVWindow.get_kpara_bins"]}
{"id": "C116", "title": "Exact window functions are filled in for every row and polarization", "statement": "get_exact_window_functions gives every row of every requested window and polarization pair the window functions of the baseline length of its redundant group, none left empty; the object is changed only if all windows are requested in place; otherwise they are returned; invalid windows are refused and change nothing.", "quantifier": "all objects, groups of redundant baseline-pairs and requests", "why_tests_cant": "All objects and requests.", "anchors": ["src/hera_pspec/uvpspec.py:UVPSpec.get_exact_window_functions", "src/hera_pspec/uvpspec.py:_normalize_spw_array_input"]}
{"id": "C117", "title": "Autocorrelation variances follow the radiometer equation", "statement": "variance_from_auto_correlations returns per channel of the window |V11||V22|/(n dt dnu) with the median integration time and the samples of the baseline (zero samples replaced by the median of the positive ones; infinite if there is none); it does not depend on the order of the antennas; C_model 'autos' is the diagonal matrix of these, 'dsets' of |w dx|^2, a known covariance is cut to the window, other models and a missing time are refused.", "quantifier": "all datasets, baselines, windows, times and weights", "why_tests_cant": "All arrays of visibilities and samples.", "anchors": ["src/hera_pspec/utils.py:variance_from_auto_correlations", "src/hera_pspec/pspecdata.py:PSpecData.C_model", "src/hera_pspec/pspecdata.py:PSpecData.w", "src/hera_pspec/pspecdata.py:PSpecData.dx"]}
{"id": "C118", "title": "Configuration files mean what they say", "statement": "load_config turns every entry 'None' into None and every list of lists into a list of tuples, at every depth of nested dictionaries, leaves everything else and all keys unchanged, and applying it again changes nothing.", "quantifier": "all configuration files", "why_tests_cant": "All nested YAML documents of any depth.", "anchors": ["src/hera_pspec/utils.py:load_config"]}
{"id": "C119", "title": "System temperatures are autocorrelations times the factor of their polarization", "statement": "uvd_to_Tsys keeps exactly the autocorrelations and the auto-polarizations or pI, in order, and multiplies each of them once by the Jy to K factor of its own polarization; without autocorrelations it is refused; a UVPSpec gives the beam of each polarization.", "quantifier": "all datasets, polarization axes and beams", "why_tests_cant": "All datasets and polarization orders.", "anchors": ["src/hera_pspec/utils.py:uvd_to_Tsys"]}
{"id": "C120", "title": "Bootstrap errors are the spread of resampled averages", "statement": "bootstrap_resampled_error returns the uniform average over the groups and the requested number of resamples, each the average over pairs drawn with replacement by successive calls of the generator; with a seed the result does not depend on earlier draws; all have the same rows; bs_std, bs_robust_std and bs_cinterval hold for each row, window, polarization and delay the statistic of the real and imaginary parts over the resamples.", "quantifier": "all objects, groups, seeds, numbers of samples and states of the generator", "why_tests_cant": "All objects, groups and random streams.", "anchors": ["src/hera_pspec/grouping.py:bootstrap_resampled_error"]}
{"id": "C121", "title": "Bootstrap runs store their results and touch nothing else", "statement": "bootstrap_run stores for every requested spectrum that exists its average under name_avg and, if kept, its resamples under name_bs0, name_bs1, ... in the same group, computed from the spectrum before the run; nothing else changes, also when it fails, and without overwrite no existing entry changes; SWMR containers, empty ones and requests without any existing spectrum are refused.", "quantifier": "all containers, requests, options, failing objects", "why_tests_cant": "All containers, names and failures in the middle of a run.", "anchors": ["src/hera_pspec/grouping.py:bootstrap_run"]}
{"id": "C122", "title": "A power spectrum run stores one result per pair of datasets and nothing else", "statement": "pspec_run computes, for every used pair of datasets (those given; all i<j; a dataset with itself if alone; the two halves if interleaved) that has baselines, the spectra of these baselines and the chosen polarizations and stores them in the chosen group under the names of the datasets; without any such pair nothing is stored and a warning is issued; nothing else in the container changes, also when it fails; invalid labels, windows, polarizations, dataset indices are refused before the container is touched.", "quantifier": "all numbers of datasets, arguments, containers and failing computations", "why_tests_cant": "All arguments, containers and failures in the middle of a run.", "anchors": ["src/hera_pspec/pspecdata.py:pspec_run"]}
{"id": "C123", "title": "Beam solid angles are integrals of the response, and Jy to mK uses them", "statement": "A Gaussian beam's power_beam_int and power_beam_sq_int are the integrals of the response (one at the centre, one half at half the fwhm) and of its square, at each frequency; Jy_to_mK converts the flux of a sky of temperature T over the beam's solid angle to T in mK at every requested frequency; for healpix beams the solid angle is the sphere times the mean response of the requested polarization; wrong beams, missing polarizations and non-float frequencies are refused.", "quantifier": "all widths, frequencies, temperatures, pixel maps and polarizations", "why_tests_cant": "Real-valued parameters and all maps.", "anchors": ["src/hera_pspec/pspecbeam.py:PSpecBeamGauss", "src/hera_pspec/pspecbeam.py:PSpecBeamBase.Jy_to_mK", "src/hera_pspec/pspecbeam.py:PSpecBeamUV"]}
{"id": "C124", "title": "Sensitivities are computed with the object's own cosmology", "statement": "After any history of set_cosmology and set_beam calls the beam of a Sensitivity has the cosmology of the object; calc_scalar gives the inverse mean of Omega'/(X^2 Y) over the band of the frequencies; calc_P_N is the radiometer equation with the scalar of the current beam and cosmology and is refused before there is one.", "quantifier": "all histories of calls on any number of objects and shared beams", "why_tests_cant": "All call histories.", "anchors": ["src/hera_pspec/noise.py:Sensitivity"]}
{"id": "C125", "title": "Spherical window functions are normalised means of the windows of each bin's own modes", "statement": "spherical_wf_from_uvp gives, for every time, polarization and spherical bin, the mean over the cells of each theory bin of the mean cylindrical window of the modes in the bin, each with the window of its own group and time, normalised to one; bins are taken in the units in which they are given and the caller's arrays are not changed; overlapping bins, wrong lengths, unknown windows, objects without exact windows are refused.", "quantifier": "all objects, groups, times, polarizations, bins and units", "why_tests_cant": "All array sizes and bins.", "anchors": ["src/hera_pspec/grouping.py:spherical_wf_from_uvp", "src/hera_pspec/grouping.py:_as_1d_float_array"]}
{"id": "C126", "title": "Spherical window functions bin every mode where it lies, in the units of the bins", "statement": "`UVWindow.get_spherical_wf` returns a result only for at least one baseline, as many weights as baselines, at least two ascending |k| bins equally spaced (to the tolerance of np.allclose) and bins carrying a unit consistent with the object's; edges lie half a bin width around the centres, each centre in its own bin; row m1 is the bl_weights-weighted mean of the cylindrical windows of the (baseline, delay) pairs whose |k| is in bin m1, averaged over the cells of each |k| bin and normalised; the returned |k| of a bin lies in it; the order of the baselines is irrelevant; and the same physical bins give the same windows whatever accepted unit they are expressed in.", "quantifier": "all objects, bins, units, baseline lengths, weights, cylindrical bins and windows", "why_tests_cant": "quantifies over all bins, units, numbers of baselines, delays and cells", "anchors": ["src/hera_pspec/uvwindow.py: UVWindow.get_spherical_wf, UVWindow.cylindrical_to_spherical, UVWindow.check_kunits"]}
{"id": "C127", "title": "A wedge plot draws every baseline-pair and delay at its own place", "statement": "`plot.delay_wedge` draws, for each baseline-pair of the requested selection (after redundant and time average) and each delay, a cell that encloses its separation and delay (or k_perp and k_parallel), coloured by the requested component of that baseline-pair's spectrum at that delay, rotated or not; negative values on a logarithmic scale are drawn below all others; horizon lines are drawn at the light travel time over the cells of their own baseline-pair; fewer than two baseline-pairs are refused; and the colour bar names the quantity drawn.", "quantifier": "all averaged objects, delays, components, selections and flags", "why_tests_cant": "quantifies over all orders of baseline-pairs and all data", "anchors": ["src/hera_pspec/plot.py: delay_wedge"]}
{"id": "C128", "title": "A waterfall plot shows each requested baseline-pair's own spectra, times and component", "statement": "`plot.delay_waterfall` draws one panel per distinct requested baseline-pair (only the first of each group if averaged), in the order requested; every cell of a panel is the requested component of that baseline-pair's spectrum at that time and delay, flagged times are blank, negative values on a logarithmic scale are drawn below all others, and the LST axis is that baseline-pair's, without 2 pi jumps; more than 20 panels are refused unless forced; the baseline-pairs may be integers, tuples or groups of either, anything else is refused.", "quantifier": "all objects, groupings, components, flags, LSTs and axes", "why_tests_cant": "quantifies over all groupings, data, flags and LSTs", "anchors": ["src/hera_pspec/plot.py: delay_waterfall, _normalize_plot_blpairs"]}
{"id": "C129", "title": "A delay spectrum plot draws every requested integration at its own values and labels them apart", "statement": "`plot.delay_spectrum` draws exactly one curve per integration of every requested baseline-pair (of the first of each group if averaged), in the order requested, at its own delays (ns) or k_parallel; each curve, marker and error bar shows the requested component of that integration, blank if flagged, without sign on a logarithmic scale; markers show every point once, filled if not negative, empty if negative; the automatic title has exactly the metadata all spectra share and the label of a spectrum exactly those that vary, so spectra of different baseline-pairs or LSTs have different labels; more than 100 spectra are refused unless forced; the y axis names the quantity; unknown components, statistics, baseline-pairs and label types are refused.", "quantifier": "all processed objects, groupings, components, flags, errors, label types and LSTs", "why_tests_cant": "quantifies over all groupings, data, flags and metadata", "anchors": ["src/hera_pspec/plot.py: delay_spectrum, _get_delay_spectrum_title_and_labels, _format_delay_spectrum_manual_label"]}
{"id": "C130", "title": "Waterfalls of a data object are saved one per baseline and polarization, none overwritten", "statement": "`plot.plot_uvdata_waterfalls` writes, for every baseline and polarization of the object, a file named after both, with the extension of the format, containing the requested array (data, flags or nsamples) of exactly that baseline and polarization, and overwrites none of them; unknown arrays and vmin without vmax are refused before anything is written. Baseline ticks of wedge plots are the axis values to three significant figures, and _round_sigfig rounds up or down to the leading digit; zero is refused.", "quantifier": "all sets of baselines and polarizations, templates with both placeholders, formats and axis values", "why_tests_cant": "quantifies over all antenna numbers, templates and formats", "anchors": ["src/hera_pspec/plot.py: plot_uvdata_waterfalls, _get_sigfig, _round_sigfig"]}
{"id": "C131", "title": "Conversion factors are the geometry they stand for", "statement": "`Cosmo_Conversions.dRpara_df` is minus the derivative of the line-of-sight comoving distance `DC(f2z(f))` with respect to the observed frequency (in Hz or GHz, in Mpc or h^-1 Mpc); `DC` grows with redshift at c/(H0 E(z)); `tau_to_kpara` turns the delay 1/B into the wave number whose wavelength is the line-of-sight extent of the bandwidth B; `bl_to_kperp` turns a baseline into the wave number whose wavelength is the transverse extent of its fringe; `X2Y` is the comoving volume per steradian and Hz.", "quantifier": "all cosmologies with a positive expansion rate, all redshifts above -1, frequencies, bandwidths and baselines", "why_tests_cant": "derivatives and integrals over a continuum of redshifts", "anchors": ["src/hera_pspec/conversions.py: Cosmo_Conversions.dRpara_df, DC, tau_to_kpara, bl_to_kperp, X2Y"]}
{"id": "C132", "title": "Normalised bandpowers are the true bandpowers seen through the returned window functions", "statement": "For every ensemble of data whose cross-correlation between the two data sets is that of a signal with bandpowers p (one sky of uncorrelated delay tones plus noise independent between the data sets), the unnormalised bandpowers of `PSpecData.q_hat` average to H p with H from `get_H` (as its documentation states), and `p_hat(M, q)` with M, W from `get_MW` averages to W p, in every supported normalisation; in mode 'I' a signal with equal power at all delays is recovered without bias. Holds for every weighting and taper of either data set.", "quantifier": "all weightings, tapers, extensions, delay counts, sampling flags, modes, and ensembles of data", "why_tests_cant": "expectation over ensembles and all weighting matrices", "anchors": ["src/hera_pspec/pspecdata.py: PSpecData.q_hat, get_G, get_H, get_MW, p_hat"]}
{"id": "C133", "title": "A Gaussian Fourier beam is the Fourier transform of a Gaussian beam of the given width", "statement": "`FTBeam.gaussian` creates a beam exactly for at least three frequencies, a width that is a number or one per frequency, and an accepted polarization; it carries the given frequencies and map size, and its channel f at pixel (i, j) is the two-dimensional Fourier transform of exp(-(x^2+y^2)/width_f^2) at the spatial frequencies of the map's grid (multiples of 1/(2 mapsize), zero at the middle pixel), divided by the width of the map; it is positive, symmetric and strictly largest at the middle pixel.", "quantifier": "all widths, frequencies, map sizes, numbers of pixels", "why_tests_cant": "integral transforms over real-valued widths and grids of any size", "anchors": ["src/hera_pspec/uvwindow.py: FTBeam.gaussian"]}
{"id": "C134", "title": "Simulated noise obeys the radiometer equation", "statement": "`testing.noise_sim` returns data in which every sampled visibility is a random draw of unit variance times Tsys/sqrt(integration time x samples x channel width) (a factor sqrt 2 less for pseudo-Stokes; converted to Jansky with the factor of its own frequency and polarization if a beam is given), unsampled ones are missing and flagged and other flags kept, or cleared by whiten; the caller's object is not changed unless inplace, in which case it becomes what would have been returned; the time axis is extended Nextend times by its own length without gaps; extending phased data is refused.", "quantifier": "all data objects, samples, frequency axes, polarizations, extensions and flags", "why_tests_cant": "quantifies over all draws, sample arrays and extensions", "anchors": ["src/hera_pspec/testing.py: noise_sim"]}
{"id": "C135", "title": "Simulated sky has the noise of its own antennas and the documented foreground", "statement": "`testing.sky_noise_sim` keeps the autocorrelations, samples and axes of the input and sets every cross-correlation to noise plus foreground: the noise is a new draw per baseline and polarization times the radiometer noise sqrt(A_i A_j)/sqrt(t dnu) of the autocorrelations (pI for pQ, pU, pV) of its own two antennas, divided by sqrt(samples) if asked for, whatever the beam; the foreground has covariance cov_amp exp(-((f1-f2)/length)^2) between channels, is common to all baselines and times or drawn anew as asked; with bl_loop_seed the simulated baselines do not depend on earlier draws; cross-hand polarizations, missing autocorrelations and beams are refused, nothing else.", "quantifier": "all data objects, autocorrelations, polarizations, beams, options and random generators", "why_tests_cant": "quantifies over all data and random streams", "anchors": ["src/hera_pspec/testing.py: sky_noise_sim, sky_noise_jy_autos, gauss_cov_fg"]}
{"id": "C136", "title": "Creating a PSpecData keeps every dataset with its own weights, errors and label", "statement": "`PSpecData(dsets, wgts, dsets_std, labels, beam)` with lists (or dictionaries with the same keys, or default weights and errors) holds the datasets in order, each with the weight, error and label given for it (errors only if none is missing), the beam, and the whole band as window. `utils.pspecdata_time_difference` of an object with two datasets holds the time differences of the two in order and the beam, with weights that belong to the differenced data; other numbers of datasets are refused.", "quantifier": "all lists and dictionaries of datasets, weights, errors, labels", "why_tests_cant": "all lengths and label collisions", "anchors": ["src/hera_pspec/pspecdata.py: PSpecData.__init__", "src/hera_pspec/utils.py: pspecdata_time_difference"]}
{"id": "C137", "title": "With exact normalisation the bandpowers measure the sky power through the beam overlap integral", "statement": "With exact_norm=True: `PSpecData.get_integral_beam` is the sky integral of the product of the beams of two channels, each over its own solid angle (one if the beam has no response); for every ensemble of data whose cross-correlation is that of a sky of power p per delay bin seen through that beam, `q_hat` averages to H p with H from `get_H`, and `p_hat(M, q)` with M, W from `get_MW` averages to W p with windows that sum to one, for every weighting; the FFT, normalisations other than 'I' and a filter extension are refused.", "quantifier": "all beams, solid angles, resolutions, weightings, delay counts, sampling flags and ensembles of data", "why_tests_cant": "expectation over ensembles, all beams and weighting matrices", "anchors": ["src/hera_pspec/pspecdata.py: PSpecData.get_integral_beam, q_hat, get_G, get_H, get_MW"]}
{"id": "C138", "title": "The pipeline scripts call the pipeline with what is on the command line", "statement": "Running pspec_run.py or bootstrap_run.py calls `pspec_run` or `bootstrap_run` with each parameter equal to what the last occurrence of its option says (text, number, list or list of tuples), or to the option's default; every option of the parser is accepted by the function; positional arguments are the input files and then the output file; the command line is recorded as history.", "quantifier": "all command lines and all sets of options added by the logging library", "why_tests_cant": "all combinations of options and arguments", "anchors": ["src/hera_pspec/pspecdata.py: get_pspec_run_argparser", "src/hera_pspec/grouping.py: get_bootstrap_run_argparser", "scripts/pspec_run.py", "scripts/bootstrap_run.py"]}
{"id": "C139", "title": "auto_noise_run.py adds error bars to every requested spectrum and to nothing else", "statement": "Running auto_noise_run.py on a container replaces every spectrum of the requested groups (all groups by default) by the same spectrum with error bars; all else in the file is unchanged. If it stops early, the spectra before that point are complete, those after it are as they were.", "quantifier": "all containers, group lists, failures of the noise calculation and of writing", "why_tests_cant": "all containers and crash points", "anchors": ["scripts/auto_noise_run.py", "src/hera_pspec/container.py: PSpecContainer", "src/hera_pspec/utils.py: uvp_noise_error_parser"]}
{"id": "C140", "title": "generate_pstokes_run.py writes the requested pseudo-Stokes visibilities and overwrites only when told to", "statement": "If generate_pstokes_run.py succeeds, the output file (the input file if none is named) has exactly the requested pseudo-Stokes parameters, each once and each the textbook combination of the input's linear polarizations, and with --keep_vispols also the input's own polarizations unchanged; every other file is unchanged; an existing output file is replaced only with --clobber; if the script stops with an exception no file has changed; without --pstokes it makes pI.", "quantifier": "all command lines, file systems and input files", "why_tests_cant": "all combinations of options, inputs and existing files", "anchors": ["scripts/generate_pstokes_run.py", "src/hera_pspec/pstokes.py: generate_pstokes_argparser, construct_pstokes"]}
{"id": "C141", "title": "Stored spectra, covariances, error bars and windows of a baseline-pair belong together", "statement": "For one baseline-pair, polarization pair and window, the spectra that pspec stores are, averaged over realisations of sky and noise, the bandpowers of the sky seen through the window functions stored with them, times the stored scalar (and, for the normalisation 'I', times Ndlys/Nfreqs and the mean square of the taper); the stored covariances and error bars are those of the real and imaginary parts of the stored spectra, also with return_q; a primary beam only multiplies the spectra by the scalar and the covariances by its square, and with a beam two different polarizations are refused; in the default mode no data or flags make a baseline-pair fail.", "quantifier": "all weightings, tapers, filter extensions, numbers of channels, delays and times, normalisation modes, flags, data and ensembles of data", "why_tests_cant": "An average over realisations can only be estimated by sampling, and the product of half a dozen factors can be wrong in units of each in a way that a single test scene hides.", "anchors": ["src/hera_pspec/pspecdata.py:PSpecData.pspec", "src/hera_pspec/pspecdata.py:PSpecData.scalar_delay_adjustment", "src/hera_pspec/pspecdata.py:PSpecData.get_analytic_covariance"]}
{"id": "C142", "title": "Window functions of folded spectra describe the folded bandpowers", "statement": "After fold_spectra the window function stored for a positive delay predicts, for any true power that is the same at opposite delays, the mean of the bandpowers predicted before folding for the two opposite delays; normalised windows stay normalised.", "quantifier": "every number of delays (odd or even), every window function (exact: any number of columns), every power, every positive delay", "why_tests_cant": "needs linear algebra over all matrices; a shape or spot check passes with the wrong factor", "anchors": ["src/hera_pspec/grouping.py:fold_spectra", "src/hera_pspec/uvpspec.py:UVPSpec.get_window_function"]}
{"id": "C143", "title": "Folding and averaging commute", "statement": "For an unfolded object (three or more delays per window, approximate windows) and any sequence of average_spectra calls with the default weights, it makes no difference whether fold_spectra is called before, between or after the averages: the same exception, or the same rows and the same get_data, get_cov, get_window_function, get_integrations and get_nsamples for every key; and what is read after folding is the mean over opposite delays of what was read before, with the same integration time and twice the samples.", "quantifier": "every object, every number of averages with any groups, weights and time averaging, every position of the fold, every key", "why_tests_cant": "ranges over all objects and all call sequences of any length", "anchors": ["src/hera_pspec/grouping.py:fold_spectra", "src/hera_pspec/grouping.py:average_spectra", "src/hera_pspec/uvpspec.py:UVPSpec.get_data", "src/hera_pspec/uvpspec.py:UVPSpec.get_cov"]}
{"id": "C144", "title": "Combining objects keeps every array all of them have", "statement": "`combine_uvpspec` of two or more compatible objects has covariances iff all inputs have them with the same model, window functions (with their bins, if exact) iff all have them, exactly the statistics all have, every baseline once with its vector, and the histories (joined or the first); every stored entry of the inputs, with all its arrays and labels, is in the result and nothing else; objects that disagree on exact windows are refused. The result can be used as the inputs can; in particular it can be combined again, also by recursive_combine_uvpspec.", "quantifier": "all numbers of objects, windows, delays, rows, polarization pairs, statistics, baselines, folded or not, exact windows or not", "why_tests_cant": "all combinations of optional arrays and sequences of combinations", "anchors": ["src/hera_pspec/uvpspec.py: combine_uvpspec, recursive_combine_uvpspec, get_uvp_overlap, UVPSpec.get_spw_ranges"]}
{"id": "C145", "title": "The arguments of pspec mean what the documentation says", "statement": "A call of `PSpecData.pspec` is carried out exactly if it is well formed (two dataset numbers in range, as many elements in bls1 as in bls2, known polarizations, one extension and number of delays per window) and every spectrum can be computed; a window, extension, number of delays or polarization given alone means the list of it, a string means the pair of it with itself, a missing window the whole band; the labels, label arrays, units, normalization and optional arrays of the result are those asked for; groups of baselines and the history are used as documented.", "quantifier": "all calls (all argument forms and lengths) and all datasets", "why_tests_cant": "ranges over all combinations of argument forms", "anchors": ["src/hera_pspec/pspecdata.py:PSpecData.pspec", "src/hera_pspec/pspecdata.py:PSpecData.units"]}
{"id": "C146", "title": "What pspec computed is what get_data returns", "statement": "For every accepted call of `pspec` with distinct baseline-pairs and polarization pairs, `get_data((window, baseline-pair, polpair))` of the returned object is exactly the list of spectra computed for that window, baseline-pair and polarization pair, one per integration in order, with the times, LSTs, integration times and delays that belong to them; so the ensemble mean of what is read back is the scalar times the window function applied to the bandpowers.", "quantifier": "all accepted calls, all windows, baseline-pairs, polarization pairs, numbers of integrations and delays, all realisations", "why_tests_cant": "needs all sizes and orders of the nested loops and the array transpositions", "anchors": ["src/hera_pspec/pspecdata.py:PSpecData.pspec", "src/hera_pspec/uvpspec.py:UVPSpec.get_data", "src/hera_pspec/uvpspec.py:UVPSpec.get_integrations", "src/hera_pspec/uvpspec.py:UVPSpec.get_dlys"]}
{"id": "C147", "title": "Labels follow the spectra", "statement": "The label reported for a spectrum (labels[label_1_array[spw, blpairt, pol]]) is the name of the data set that spectrum was computed from, for the object pspec returns and after any sequence of select, average_spectra, fold_spectra and combine_uvpspec.", "quantifier": "All objects that any sequence of these operations can build, all spectra in them", "why_tests_cant": "A history property over unbounded sequences of operations; a test fixes one sequence", "anchors": ["src/hera_pspec/uvpspec.py:label_1_array", "src/hera_pspec/uvpspec_utils.py:_select", "src/hera_pspec/grouping.py:average_spectra", "src/hera_pspec/uvpspec.py:combine_uvpspec", "src/hera_pspec/pspecdata.py:PSpecData.pspec"]}
{"id": "C148", "title": "check accepts exactly consistent objects and settles them", "statement": "If UVPSpec.check returns, then every required attribute exists, every attribute present has its documented container and dtype, spw_array is 0..Nspws-1 as a set and an object with exact windows has their arrays; attributes are neither created nor removed, values of the right type are unchanged; a consistent object passes unchanged; checking twice is the same as checking once; failures raise AssertionError.", "quantifier": "All objects (any subset of attributes with any values), all parameter tables, just_meta True or False", "why_tests_cant": "All combinations of present/missing attributes and of types, and any behaviour of the conversions", "anchors": ["src/hera_pspec/uvpspec.py:UVPSpec.check"]}
{"id": "C149", "title": "Sizes and the baseline table agree with the arrays after any history", "statement": "In every object pspec returns and after any sequence of select, fold_spectra, average_spectra and combine_uvpspec, Nbltpairs, Nblpairs, Nspws, Nspwdlys, Nspwfreqs, Ndlys, Npols, Nbls, Ntpairs, Ntimes and Nfreqs are the documented counts of the arrays, and bl_array/bl_vecs list every baseline of the rows exactly once with its own vector; averaging never fails to find a baseline.", "quantifier": "All sequences of operations of any length on any objects, all selections, groups and combinations", "why_tests_cant": "A history invariant; a test follows one history", "anchors": ["src/hera_pspec/uvpspec_utils.py:_select", "src/hera_pspec/grouping.py:average_spectra", "src/hera_pspec/uvpspec.py:combine_uvpspec", "src/hera_pspec/pspecdata.py:PSpecData.pspec"]}
{"id": "C150", "title": "Selecting, averaging and folding commute", "statement": "Averaging a selection of windows and polarizations gives exactly the selection of the average; reading a selection gives what the original gives at the chosen windows and polarizations; folding and selecting commute; the averages of given baseline-pair groups do not depend on the baseline-pairs outside the groups, so selecting the grouped pairs first changes nothing.", "quantifier": "All objects, selections of windows, polarizations and baseline-pairs, all groups, weights and averaging options", "why_tests_cant": "A relation between compositions of operations for all inputs; a test compares the two orders on one object", "anchors": ["src/hera_pspec/uvpspec_utils.py:_select", "src/hera_pspec/grouping.py:average_spectra", "src/hera_pspec/grouping.py:fold_spectra", "src/hera_pspec/uvpspec.py:UVPSpec.spw_to_dly_indices"]}
{"id": "C151", "title": "Flagged samples have no influence", "statement": "After broadcast_dset_flags with windows that do not overlap (more generally, if the flags are separable over the channels used), the value of a flagged visibility sample has no influence on the weighting matrices, covariances, bandpowers and power spectra of any time that is not flagged entirely, for every data weighting, taper, filter extension and normalisation; times flagged entirely get integration time zero, so that averages over time ignore them.", "quantifier": "All data, flag patterns, windows, weightings, tapers and normalisations", "why_tests_cant": "Non-interference: a relation between two runs on all pairs of inputs that differ in flagged samples", "anchors": ["src/hera_pspec/pspecdata.py:PSpecData.R", "src/hera_pspec/pspecdata.py:PSpecData.Y", "src/hera_pspec/pspecdata.py:PSpecData.broadcast_dset_flags", "src/hera_pspec/pspecdata.py:PSpecData.pspec", "src/hera_pspec/utils.py:cov"]}
{"id": "C152", "title": "Every delay bin carries the power at its own delay", "statement": "For a spectral window of evenly spaced channels, the a-th bandpower returned by q_hat is half the product of the Fourier transforms, over the true channel frequencies, of the two weighted spectra at the a-th delay listed by delays(), the first conjugated - for any number of delays, window, weighting and either algorithm. So a tone at a listed delay comes out at that bin and nowhere else with its own power, conjugated data reverse the delay axis, a delay added to the data moves the power by that delay, and with at least as many delays as channels the total power is preserved.", "quantifier": "All windows, channel spacings, numbers of delays, weightings, data and both algorithms", "why_tests_cant": "A relation between two independently computed arrays (delays and bandpowers) for all sizes and data; an off-by-one or a sign would be hidden by symmetric test data", "anchors": ["src/hera_pspec/pspecdata.py:PSpecData.delays", "src/hera_pspec/utils.py:get_delays", "src/hera_pspec/pspecdata.py:PSpecData.q_hat", "src/hera_pspec/pspecdata.py:PSpecData.get_G", "src/hera_pspec/pspecdata.py:PSpecData.p_hat", "src/hera_pspec/utils.py:get_Q_alt"]}
{"id": "C153", "title": "Splitting an object and merging the parts gives it back", "statement": "select keeps exactly the values of the chosen windows, baseline-pair-times and polarization pairs; selecting the parts of a partition of one axis and passing them to combine_uvpspec, in any order of the parts, gives an object equal to the original in every array and all metadata, with the same r_params entries; selecting the part of one input from a combination gives that input's values.", "quantifier": "All objects, all axes, all partitions into any number of parts in any order, all combinations", "why_tests_cant": "A round trip through two long functions for arbitrary objects and partitions; tests check single splits of one file", "anchors": ["src/hera_pspec/uvpspec_utils.py:_select", "src/hera_pspec/uvpspec.py:UVPSpec.select", "src/hera_pspec/uvpspec.py:combine_uvpspec", "src/hera_pspec/uvpspec.py:get_uvp_overlap"]}
{"id": "C154", "title": "A call of pspec does not depend on earlier calls or on the other requests", "statement": "What pspec returns for a spectral window and a baseline-pair (channels, extension, taper, number of delays and weighting matrices) is a function of the data and of that request: it is the same after any history of earlier calls on the object, whether the window and pair are asked for alone or with others, and pspec_run gives for each pair of data sets what a new object gives.", "quantifier": "all data, numerical kernels, histories of setters, queries, adds and pspec calls, lists of windows, pairs, dayenu parameters, and lists of data-set pairs of pspec_run", "why_tests_cant": "ranges over all histories of a stateful object with five caches, and over all combinations of requests", "anchors": ["src/hera_pspec/pspecdata.py: PSpecData.pspec", "src/hera_pspec/pspecdata.py: PSpecData.set_symmetric_taper", "src/hera_pspec/pspecdata.py: PSpecData.set_filter_extension", "src/hera_pspec/pspecdata.py: pspec_run"]}
{"id": "C155", "title": "Symmetries of a stored spectrum", "statement": "For what pspec stores for a baseline-pair without exact_norm in the normalisations 'I' and 'H^-1': exchanging the two data sets (visibilities, weightings, polarizations) conjugates the spectrum and leaves window functions and scalar unchanged; conjugating the visibilities of both data sets (as reversing both baselines does) conjugates it and mirrors the delay axis; multiplying the visibilities of the data sets by non-zero complex gains a and b multiplies it by a* b and leaves window functions and scalar unchanged, also when the weightings are inverse covariances computed from the data; each time is estimated on its own, and reordering the times only reorders the spectra.", "quantifier": "all data, flags, tapers, weightings (identity, iC, dayenu), extensions, numbers of delays (even and odd), gains, orders of the times", "why_tests_cant": "tests compare a few arrays; the symmetries must hold for all data through weighting, q, G, H, normalisation, scalar and its adjustment", "anchors": ["src/hera_pspec/pspecdata.py:PSpecData.pspec", "src/hera_pspec/pspecdata.py:PSpecData.q_hat", "src/hera_pspec/pspecdata.py:PSpecData.get_G", "src/hera_pspec/pspecdata.py:PSpecData.get_H", "src/hera_pspec/pspecdata.py:PSpecData.get_MW", "src/hera_pspec/pspecdata.py:PSpecData.R", "src/hera_pspec/utils.py:cov"]}
{"id": "C156", "title": "Averaging in steps gives the average in one step", "statement": "Calling average_spectra first to average every baseline-pair in time and then, on the result, to average groups of baseline-pairs gives the spectra, error bars, numbers of samples, integration times, weights, approximate window functions and metadata of a single call with time_avg=True, for the same weighting (integration times or errors) and group weights, and both steps succeed whenever the single call does.", "quantifier": "all objects, windows, polarizations, numbers of integrations, baseline-pair groups and group weights, both kinds of weights", "why_tests_cant": "a relation between three calls for all data and weights; depends on what the intermediate object stores about its own weight", "anchors": ["src/hera_pspec/grouping.py:average_spectra", "src/hera_pspec/uvpspec.py:UVPSpec.average_spectra"]}
{"id": "C157", "title": "Averaging over redundant baseline-pairs", "statement": "For every object, averaging in time over the groups returned by get_red_blpairs gives one spectrum per redundant group of baselines, the weighted mean of all integrations of the baseline-pairs both of whose baselines are in that group, keeps the pairs that mix two redundant groups as they are, and conserves the number of samples.", "quantifier": "all arrays and tolerances, all objects, sets of baseline-pairs, windows, polarizations and data", "why_tests_cant": "composition of grouping by geometry, integer encoding of baselines and averaging for all sets of baseline-pairs; the failing case needs a redundant group that no pair stays in", "anchors": ["src/hera_pspec/uvpspec_utils.py:_get_red_blpairs", "src/hera_pspec/uvpspec_utils.py:_get_red_bls", "src/hera_pspec/uvpspec.py:UVPSpec.get_red_blpairs", "src/hera_pspec/grouping.py:average_spectra"]}
{"id": "C158", "title": "What is stored in a container comes back", "statement": "After any history of set_pspec calls (single or lists, with or without overwrite, failing or not), get_pspec(group, name) returns the object last stored under that name with all its metadata, arrays, window functions, covariances and statistics; reading a part is the same as reading all and selecting; later calls on other names, or without overwrite, change nothing; names never stored raise KeyError.", "quantifier": "all histories of calls, objects, names and selections", "why_tests_cant": "combines the naming of entries, failed writes and the file format for every history and object", "anchors": ["src/hera_pspec/container.py:PSpecContainer.set_pspec", "src/hera_pspec/container.py:PSpecContainer.get_pspec", "src/hera_pspec/uvpspec.py:UVPSpec.write_to_group", "src/hera_pspec/uvpspec.py:UVPSpec.read_from_group"]}
{"id": "C159", "title": "A selection that fails leaves the object as it was", "statement": "UVPSpec.select raises when a window, row or polarization request cannot be met. With inplace=False the object is never touched, whatever the request. In place, a call that raises never changes the spectra and leaves the whole object as it was when the first requested axis (windows, then rows, then polarization pairs) is the one that fails. When a later axis fails the object is left half selected: it lists the requested windows (or rows) but returns the spectra stored at those positions before, i.e. spectra of other windows or rows.", "quantifier": "every valid object with unfolded delays (any numbers of windows, rows, polarization pairs), every combination of window, baseline, baseline-pair, time, LST and polarization requests, inplace or not", "why_tests_cant": "Tests only check that a bad request raises; the state left behind depends on which of the combinable requests fails, for all objects.", "anchors": ["src/hera_pspec/uvpspec.py:UVPSpec.select", "src/hera_pspec/uvpspec_utils.py:_select"]}
{"id": "C160", "title": "Calibration is applied exactly once to every data set", "statement": "PSpecData.add with calibrations, and pspec_run with its cals argument, calibrate every data set and every error set that has a calibration exactly once with the calibration of its position, and no other object: precisely, after a successful add every object holds its old content calibrated once per position at which it was passed with a calibration. With file names pspec_run always calibrates each file's data once (a single calibration being used for all). An object passed at two places, an object of the caller used in two runs, and a retry after a call that failed half way are calibrated twice.", "quantifier": "all lists of data sets, weights, error sets, calibrations and labels, with any sharing of objects between and within them, all memories, calibrations that fail or not, file names or objects, one or many calibrations", "why_tests_cant": "Depends on which of the passed objects are the same object and on where a call fails; tests use one object once.", "anchors": ["src/hera_pspec/pspecdata.py:PSpecData.add", "src/hera_pspec/pspecdata.py:pspec_run", "src/hera_pspec/pspecdata.py:_load_dsets", "src/hera_pspec/pspecdata.py:_load_cals"]}
{"id": "C161", "title": "Every way of writing baseline-pair groups means the same", "statement": "average_spectra accepts baseline-pair groups and weights as lists, tuples or arrays in any combination, with pairs as integers or as nested antenna tuples, and gives for every way of writing the same groups the same result or the same exception; without groups every pair is averaged on its own. A value that is not a sequence of non-empty sequences, and a flat list of pairs, are refused with TypeError or ValueError; an empty list of groups is refused; weights must have one list per group of the same length. Whether pairs are converted is decided by the first item only: a group mixing integers and tuples is accepted and the tuple's pair is counted in the group and again on its own. Surplus weight lists are accepted and applied to the pairs that are in no group.", "quantifier": "all Python values for the groups and the weights (numbers, strings, None, lists, tuples, arrays, nested in any way), all groups and weights, all objects", "why_tests_cant": "Unboundedly many ways to write an argument; tests use one.", "anchors": ["src/hera_pspec/grouping.py:average_spectra", "src/hera_pspec/grouping.py:_normalize_grouped_input", "src/hera_pspec/uvpspec_utils.py:_antnums_to_blpair"]}
{"id": "C162", "title": "Objects at several positions are prepared once", "statement": "When the same UVData object is given at several positions of a PSpecData, the steps that edit the data sets in place (broadcast_dset_flags, rephase_to_dset, Jy_to_mK, trim_dset_lsts) return and leave the object as if it were given once: its flags are broadcast once, its data are rephased once and converted once, and it keeps exactly its common LSTs; objects outside the collection are not touched, and rephase_to_dset with inplace=False touches none.", "quantifier": "all collections of objects with any repetitions, all data, flags, LSTs, windows, thresholds, anchors and beams", "why_tests_cant": "which positions share an object is a property of the caller's references; the number of ways to share grows without bound and the effect depends on the data", "anchors": ["src/hera_pspec/pspecdata.py: PSpecData.broadcast_dset_flags, rephase_to_dset, Jy_to_mK, trim_dset_lsts"]}
{"id": "C163", "title": "Keys and polarization pairs mean the same in every spelling", "statement": "A polarization pair may be written as an integer, a string (that polarization with itself) or a pair of strings/integers, a baseline-pair as an integer or nested tuple, and a key as a 3-tuple or a dictionary with spw, blpair, polpair. Every spelling that stands for the same integers finds the same indices in polpair_to_indices, blpair_to_indices, key_to_indices, makes select choose the same, and returns the same array from get_data; a spelling that stands for nothing is refused. The keys get_all_keys returns (with tuples and strings) stand one by one for the existing integer keys and all read back.", "quantifier": "All objects, all lists of polarization pairs and baseline-pairs in any mixture of spellings, all keys, all naming tables of polarizations.", "why_tests_cant": "Tests try a handful of spellings of one key on one object; the claim is about all mixtures, the order of the two conversion passes and all objects.", "anchors": ["src/hera_pspec/uvpspec.py:polpair_to_indices", "src/hera_pspec/uvpspec.py:blpair_to_indices", "src/hera_pspec/uvpspec.py:key_to_indices", "src/hera_pspec/uvpspec.py:get_all_keys", "src/hera_pspec/uvpspec_utils.py:polpair_tuple2int", "src/hera_pspec/uvpspec_utils.py:_select"]}
{"id": "C164", "title": "The tree listing shows what can be read", "statement": "After any history of set_pspec calls, failed ones included, PSpecContainer.tree() succeeds. As a dictionary it has one entry per listed group, in which every name appears once, and the names are exactly those get_pspec returns an object for; every stored object outside the group 'header' is in it. The string form has one line per group followed by one per spectrum, and two containers whose names have no line breaks have the same string only if they list the same groups and names in the same order.", "quantifier": "All histories of writes, all failures of write_to_group, all group and spectrum names.", "why_tests_cant": "Tests print the tree of one small file; the claim ranges over all histories and the string's faithfulness over all names.", "anchors": ["src/hera_pspec/container.py:PSpecContainer.tree", "src/hera_pspec/container.py:PSpecContainer.groups", "src/hera_pspec/container.py:PSpecContainer.spectra"]}
{"id": "C165", "title": "uvpspec_from_data forms exactly the within-group pairs", "statement": "uvpspec_from_data(data, bl_grps) returns an object whose baseline-pairs are exactly the pairs of two different baselines of one group, the earlier of the group first, with one row per integration, dataset labels d1 and d2, only the first polarization of the data, and whose data read back as the spectra computed for each pair; a flat list of baselines means one group; covariances are kept exactly when standard deviations are given; no pair crosses groups or pairs a baseline with itself; arguments without two different baselines in a group, empty lists and mixtures are refused.", "quantifier": "All data sets and polarizations, all lists of groups (also with repeated or shared baselines for the negative claims), all windows and other keyword arguments.", "why_tests_cant": "Tests form spectra of one or two groups of one file; the claim ranges over all groupings, windows and data.", "anchors": ["src/hera_pspec/testing.py:uvpspec_from_data", "src/hera_pspec/utils.py:construct_blpairs", "src/hera_pspec/pspecdata.py:PSpecData.pspec"]}
{"id": "C166", "title": "Combining objects commutes with changing every spectrum by itself", "statement": "Whatever changes each spectrum by itself, by a function of the spectrum that may depend on its window, baseline-pair-times and polarization pair, can be done before or after combine_uvpspec: the combination of the changed objects holds exactly the changed spectra of the combination. With one function for all spectra the two orders agree array for array and in the errors they raise. set_cosmology multiplies every spectrum by the quotient of the new and the stored scalar of its window and polarization pair and stores the new scalar, and so commutes with combining when the inputs store the same scalars.", "quantifier": "All lists of objects (any number, windows, rows, polarization pairs), all functions of spectra, all new scalars and combination axes.", "why_tests_cant": "Tests combine a few objects and set the cosmology of one; the claim is about both orders for all lists of objects and all functions.", "anchors": ["src/hera_pspec/uvpspec.py:combine_uvpspec", "src/hera_pspec/uvpspec.py:UVPSpec.set_cosmology"]}
{"id": "C167", "title": "Selecting and combining commute", "statement": "Keeping the windows, baseline-pair-times and polarization pairs that satisfy given conditions can be done with select before or after combine_uvpspec: both ways hold the same windows and rows in the same order, the same polarization pairs and the same values, the same fixed metadata, the same data set names if there is one pair of data sets, and no weighting parameter that selecting afterwards would not keep; and the selected objects can be combined whenever each keeps a window, a polarization pair and (if rows are joined) a row, with compatible r_params and scalars.", "quantifier": "All lists of combinable objects (any number and sizes, any axis), all conditions on windows, rows and polarization pairs.", "why_tests_cant": "Tests select from one object or combine a few; the claim compares both orders for all lists and all conditions.", "anchors": ["src/hera_pspec/uvpspec.py:combine_uvpspec", "src/hera_pspec/uvpspec.py:UVPSpec.select", "src/hera_pspec/uvpspec_utils.py:_select"]}
{"id": "C168", "title": "Averaging commutes with combining along windows or polarization pairs", "statement": "For objects with the same rows in increasing order, combined along windows or polarization pairs: average_spectra (with any groups, weights, error weights, with or without time averaging) succeeds on the combination whenever it succeeds on every input, and the averaged combination has the rows of the averaged input and, at every window and polarization pair of that input, exactly its averaged spectra, weights, errors, covariances and window functions.", "quantifier": "All lists of unfolded combinable objects with common rows (any numbers of windows, polarization pairs and rows), all arguments of average_spectra.", "why_tests_cant": "Tests average single objects; the claim relates two orders of operations for all lists of objects and all arguments.", "anchors": ["src/hera_pspec/uvpspec.py:combine_uvpspec", "src/hera_pspec/grouping.py:average_spectra"]}
{"id": "C169", "title": "Averaging commutes with converting the spectra", "statement": "average_spectra followed by convert_to_deltasq gives what convert_to_deltasq followed by average_spectra gives: the same rows, data, covariances, weights, integration times, samples and window functions, if the baseline-pairs averaged together have the same transverse wavenumber; the same holds for apply_bias_correction with a factor per window, for any groups. The error bars convert in the same way.", "quantifier": "all objects, groups, weights of baseline-pairs and factors of window, baseline-pair and delay, with the default weights of the integrations, with or without averaging in time", "why_tests_cant": "Tests convert and average fixed files separately; that the two operations commute is a statement about all pairs of factors and groups, and the failing error bars only appear where the numbers are small.", "anchors": ["src/hera_pspec/grouping.py:average_spectra", "src/hera_pspec/uvpspec.py:UVPSpec.convert_to_deltasq", "src/hera_pspec/loss.py:apply_bias_correction"]}
{"id": "C170", "title": "Folding commutes with converting the spectra beforehand", "statement": "convert_to_deltasq followed by fold_spectra gives what fold_spectra gives, multiplied at every positive delay by k^3/(2 pi^2): the data once, the covariance with the factors of both delays, the error bars once; window functions, integration times, samples, times and delay axes are those of folding alone, and it folds whenever the original does. The same holds for any factors that agree at opposite delays (for error bars if they are not negative), and fails for factors that do not. apply_bias_correction can be applied before or after folding with the same result.", "quantifier": "all unfolded objects with at least three delays per window, with or without statistics and exact windows, all windows, baseline-pairs, polarization pairs and all even factors", "why_tests_cant": "Tests fold or convert fixed files; the claim relates two orders of operations for all objects and factors.", "anchors": ["src/hera_pspec/grouping.py:fold_spectra", "src/hera_pspec/uvpspec.py:UVPSpec.convert_to_deltasq", "src/hera_pspec/uvpspec.py:UVPSpec.get_data", "src/hera_pspec/loss.py:apply_bias_correction"]}
{"id": "C171", "title": "Converting, averaging and folding in any order", "statement": "Converting an object to Delta^2 (or multiplying by any factors that agree at opposite delays and between the baseline-pairs averaged together) and then averaging and folding, or folding and averaging: both succeed if averaging the unconverted object does, read the same, and what is read is that of averaging and folding without conversion, the data times k^3/(2 pi^2) of the positive delays of the row's baseline-pair, the covariance times the factors of both delays, window functions, integration times, samples and rows unchanged.", "quantifier": "all unfolded objects with approximate window functions and at least three delays per window, all groups and weights of baseline-pairs, with or without averaging in time, default weights of integrations, all even factors", "why_tests_cant": "Tests run one order on fixed files; the claim compares all orders for all objects, groups and factors.", "anchors": ["src/hera_pspec/grouping.py:fold_spectra", "src/hera_pspec/grouping.py:average_spectra", "src/hera_pspec/uvpspec.py:UVPSpec.convert_to_deltasq", "src/hera_pspec/uvpspec.py:UVPSpec.get_data"]}
{"id": "C172", "title": "Bootstrap resampling commutes with folding", "statement": "With the same draws, bootstrap_average_blpairs of a folded object and folding the result of bootstrap_average_blpairs of the unfolded one give objects that read the same (data, covariances, window functions, integration times, samples and rows), or raise the same exception.", "quantifier": "all unfolded objects with approximate window functions and at least three delays per window, all groups, draws, with or without averaging in time", "why_tests_cant": "Tests resample fixed files once; the claim compares both orders for all objects and all draws.", "anchors": ["src/hera_pspec/grouping.py:bootstrap_average_blpairs", "src/hera_pspec/grouping.py:fold_spectra"]}
