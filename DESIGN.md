# Formal model of hera_pspec (Lean 4)

## 1. Method
* The code in `/repo/src/hera_pspec` was read as text (never run) and modelled function by function as
  small, total, shallow Lean functions. Exceptions are values (`Except Err α`); loops are folds or
  structural recursion; mutation becomes returning a new state.
* Layout: `lean/Verif/Model/*.lean` (the model, each definition cites the file and lines it models and any
  simplification), `lean/Verif/Lemmas/*.lean` (helper lemmas), `lean/Verif/Props/*.lean` (small independent
  specifications, the property theorems, non-vacuity examples, and counter-example theorems).
* Python values: `int` → `Int`/`Nat`; `str` → `String` or an opaque type with decidable equality; numpy
  arrays → `List`, or functions `Fin n → α` where linear algebra is needed; floats → an arbitrary linear
  ordered field or `ℝ`/`ℂ` (no rounding), except where rounding itself is the issue (C02), where the theorem
  quantifies over every rounding function of IEEE-double accuracy.
* A property that the code violates is kept at full strength in `properties.jsonl`; a theorem proves its
  negation for a concrete witness and a theorem with suffix `_partial` proves what does hold.

## 2. Trusted base
* Lean 4.33.0 kernel; Mathlib's definitions (of `ℝ`, `ℂ`, `Matrix`, `Finset.sum`, `Real.sqrt`, ...).
* Axioms: every property theorem depends at most on `propext`, `Classical.choice`, `Quot.sound`
  (checked with `#print axioms`); no axioms are declared, no `native_decide`/`bv_decide`.
* The reading of the Python source by the author: the code was not executed, so fidelity rests on the
  citations on each definition.
* Library behaviour assumed: Python list/dict/str semantics, numpy slicing/`where`/`unique`/`einsum`/`dot`
  semantics, h5py group semantics (a tree of named groups), the mathematical definition of the DFT for
  `np.fft`.

## 3. Plan per property
(Models in `Verif/Model/<name>`; theorem names are listed in `MANIFEST.json`.)

* C01–C03 `Antnums`: integer encode/decode with `/` and floor as in the code; round-trip by `omega`;
  collision witness above 899; C02 the same decoder with an arbitrary rounding function.
* C04 `Polpair`: encode and the decimal-string slicing decoder (as arithmetic on sign and digits).
* C05 `RParams`: association-list dictionaries; induction over keys.
* C06 `GroupBls`: list slicing; induction.  C07, C08 `Blpairs`: combinations/permutations/autos and chunking.
* C09–C11 `RedGroups`: greedy loops with fuel; partition invariant; filters.
* C12–C17 `UVP`/`Select`: an object = list of rows + spectral windows + polarizations; select as in `_select`.
* C18, C27, C28 `Fold`: slices of delay axes for odd and even N.
* C19 `Times`: tolerance comparison over ℚ; counterexample with neighbouring integrations.
* C20 `SpwRanges`.  C21–C24 `Combine`: overlap decision and lookup-based merge.  C25, C26 `Recursive`.
* C29–C31 `Average`; C32 `Bootstrap`; C33, C34 `Spherical`; C35, C36 `DelayBins`.
* C37–C42 `Container`: transactional state machine over a tree of groups with explicit failure points.
* C43 `JobMonitor`; C44 `SpwFreq`; C45–C51 `Oqe` (complex matrices).
* C52–C57 `PSData` state machines (labels, keys, window/extension, caches, pspec loop).
* C58 `Flags`; C59–C62 `Dsets`; C63, C64 `Scalar`; C65, C66 `Pstokes`; C67 `Beam`.
* C68, C69 `Cosmo`; C70 `Noise`; C71, C72 `Loss`; C73, C74 `UVWindow`; C75 `Subtract`; C76 `DeltaSq`;
  C77 `Circular`; C78 `ArgParse`.
* C79–C97 and later: see the generated table in section 4 (property, modules, theorems, what is missing).

Not expressible in the model (and so not claimed): physical correctness of the cosmology constants, scipy
quadrature/interpolation accuracy, BLAS/FFT rounding error, HDF5 on-disk atomicity below the h5py call level,
plotting.

## 4. Properties as built (generated)

Proof technique: direct proofs by induction over lists, loop invariants, case analysis and linear algebra over Mathlib structures;
each entry gives the module under `Verif/Props` and the status with what is missing or found.

* **C01** Baseline-pair integers decode to the baseline pair that produced them — `Antnums`, proved, 8 theorems. Round trip for 0..899 (documented domain) plus an exact iff for all integers and collision witnesses outside the domain.
* **C02** Baseline-pair integer decoding survives floating point — `Antnums`, proved, 4 theorems. Quantified over every rounding function with relative error <= 2^-53 that is exact on integers up to 2^53; not specific to one rounding mode.
* **C03** Conjugation of baselines and baseline-pairs is an involution on integers — `Antnums`, proved, 8 theorems. For all integers of at most 12 (6) digits.
* **C04** Polarization-pair integers are a faithful code — `Polpair`, proved, 4 theorems. Complete iff over all integers, through the decimal string the code slices; conversion to polarization strings (pyuvdata) not modelled.
* **C05** r_params survive compression — `RParams`, proved, 3 theorems. JSON text encoding itself is trusted; a parameter field named 'baselines' is reserved by the format and is lost (counterexample theorem).
* **C06** group_baselines partitions the baselines — `GroupBls`, proved, 4 theorems. For every Ngroups >= 1, every list and every shuffle.
* **C07** construct_blpairs forms exactly the requested pairs — `Blpairs`, proved, 4 theorems. For duplicate-free lists; exclusion flags also for lists with repetitions.
* **C08** construct_blpairs grouping neither loses nor repeats baseline-pairs — `Blpairs`, proved, 1 theorems. Group sizes >= 1.
* **C09** Redundant-group construction partitions the baselines — `RedGroups`, partial, 6 theorems. get_blvec_reds: full. get_red_bls: proved for positive tolerances; at tolerance 0 the strict comparison puts no baseline in any group (counterexample theorem).
* **C10** get_red_blpairs only pairs redundant baselines and preserves metadata alignment — `RedGroups`, proved, 3 theorems. Antenna numbers 0..899. A baseline in no group raises KeyError.
* **C11** calc_blpair_reds never returns an excluded or missing antenna — `RedGroups`, proved, 4 theorems. Redundancies found by hera_cal are an arbitrary parameter. Finding: include_autocorrs=False with include_crosscorrs=False returns cross-correlations.
* **C12** Selection keeps exactly the requested baseline-pair-times — `UVP`, proved, 4 theorems. Full refinement of _select (unfolded, or no window selection): result = exactly the matching rows, error iff request malformed or empty. Finding: label arrays are not sliced.
* **C13** Selecting spectral windows relabels them consecutively without mixing data — `UVP`, proved, 2 theorems. Proved for unfolded objects; finding theorem: on folded objects the delay arrays shrink while data do not.
* **C14** Selection is idempotent and composes — `UVP`, proved, 5 theorems. Composition and idempotence for row/polpair selections, as equality of all arrays.
* **C15** Selected data can still be read back — `UVP`, proved, 1 theorems. For every unfolded object and request.
* **C16** select_common leaves only content common to all objects — `SelectCommon`, partial, 3 theorems. Rows and windows exact (times separated beyond the matching tolerance); polpairs are computed but never applied (counterexample theorem); duplicate window ranges keep the first only.
* **C17** Keys address exactly the matching rows — `UVP`, proved, 4 theorems. get_data exactness, rejection, get_all_keys complete, duplicate-free and readable.
* **C18** Reading a folded object returns the positive delays — `UVPRead`, partial, 2 theorems. Proved for windows with >= 3 centred delays; counterexample for 2 delays where the slice -0: returns everything.
* **C19** time_to_indices returns only the requested times — `UVPRead`, partial, 3 theorems. Proved when times differ by more than 1e-8+1e-10|t|; counterexample with integrations 10 s apart at a real Julian date.
* **C20** get_spw_ranges round-trips the frequency layout — `UVPRead`, proved, 2 theorems. Uniformly spaced windows of >= 2 channels, unfolded.
* **C21** Combining is only allowed along exactly one axis — `Combine`, proved, 4 theorems. Full: overlap returns axis ax iff Combinable, raises iff no such axis.
* **C22** combine_uvpspec preserves every input spectrum — `Combine`, partial, 5 theorems. Proved for all axes under Aligned (first object's windows stored in increasing order unless windows are concatenated; along polpairs/windows all inputs store rows in the same order and rows differ in blpair or rounded first time). Counterexamples show the code violates the unrestricted claim.
* **C23** combine_uvpspec does not depend on argument order — `Combine`, partial, 3 theorems. Same hypotheses as C22; counterexample for differently ordered rows.
* **C24** _fast_lookup_blpairts finds the row of each query — `Combine`, partial, 4 theorems. Needs source rows distinguished by (blpair, rounded time_1): time_2 is ignored by the code; counterexamples given; C24_lookup_general characterises the result for all tables.
* **C25** recursive_combine_uvpspec uses every input once and terminates — `Recursive`, proved, 4 theorems. Generic: plan uses each input exactly once in order; equals the left fold for associative merges; for the actual combine along blpairts the entries are the union.
* **C26** fast_merge_baselines result does not depend on batch_size — `Recursive`, proved, 5 theorems. As C25 for every batch size; no files raises.
* **C27** Folding averages positive and negative delays — `Fold`, proved, 5 theorems. Element-wise: for odd and even N, every positive delay holds the mean, zero delay unchanged, negatives zeroed; nsample doubled; second fold raises. Finding: with a stats_array the negative delays of the data are NaN.
* **C28** Folding a delay-symmetric spectrum is lossless and folding is linear — `Fold`, partial, 8 theorems. Losslessness, linearity, symmetry of the folded covariance and the quadrature fold of statistics are proved for every N. Partial: covariance between zero delay and a positive delay is not folded by the code (counterexample), the others are.
* **C29** Incoherent average is a weighted mean — `Average, RedAvg`, proved, 8 theorems. Proved for every successful call, grouping, option and for data in any real vector space: output rows are the weighted means of exactly the group members; bounds, constants, zero weights, order independence. NaN not modelled; regularity = division guards (1e-40) inactive.
* **C30** Error bars propagate through averages in quadrature — `Average, Stages`, partial, 4 theorems. Quadrature formula, bound by the largest error, s/sqrt(n). Partial: averaged errors with square <= 1e-8 are replaced by infinity (np.isclose against 0), which the theorem states exactly.
* **C31** Baseline-pair weights act proportionally — `Average`, partial, 5 theorems. False in general: int() truncates the normalised weights ([3,1] -> [1,0]; counterexample on the whole group average); normalize_weights=False still multiplies by the group size (finding). Proved for weights that are integers after normalisation.
* **C32** Bootstrap samples conserve the number of draws — `Bootstrap, GroupBls`, proved, 8 theorems. Sampling and averaging proved for every group, draw and object: weights sum to the number of draws and the averaged spectrum is the plain weighted mean over the drawn pairs. Finding: with more than one object the call always raises TypeError (unknown keyword pols), C32_finding_*.
* **C33** Spherical k bins assign each mode to at most one bin — `Spherical`, proved, 5 theorems. Proved for every bin set and every mode: rows of the design matrix hold at most one 1, in a bin (left,right] that contains the mode.
* **C34** Spherical averaging is unbiased for a constant spectrum — `Spherical`, proved, 6 theorems. Proved with np.linalg.pinv specified by the Moore-Penrose equations: unbiased, weighted mean per bin, error 1/sqrt(sum 1/s^2), symmetric covariance, covariance diagonal equals squared error.
* **C35** Delay-bin slices are disjoint, ordered and centred — `DelayBins`, partial, 7 theorems. Slices proved disjoint, contiguous, in range, of the right sizes and maximal for every size. Mirror symmetry proved for odd numbers of delays; false for even numbers when the kernel length divides z - nzero/2 (C35_finding_even_asymmetric, C35_counterexample_even); empty kernel loops forever.
* **C36** Delay binning of data, errors and covariances is mutually consistent — `DelayBins`, partial, 12 theorems. Everything proved except that errors binned as rms equal the covariance diagonal: true for statistics in cov_weighted_stats, false otherwise (C36_finding_rms_not_cov).
* **C37** A container behaves as a map from (group, name) to spectra — `Container`, proved, 5 theorems. Proved for any container history; finding: a group called 'header' holds spectra but groups() does not list it.
* **C38** Existing spectra are never replaced without overwrite — `Container`, proved, 4 theorems. Proved.
* **C39** A failed overwrite does not destroy the stored spectrum — `Container`, partial, 4 theorems. Partial: an overwrite whose write fails loses the old spectrum, and a failed write leaves a half-written name behind; witnesses are the counterexample theorems.
* **C40** Transactional methods leave the file closed — `Transact`, partial, 7 theorems. Partial: holds for ordinary exceptions raised by the body; a BaseException, or a header-update failure inside _open, leaves the file open (witnesses).
* **C41** Opening retries are bounded — `Transact`, proved, 2 theorems. Proved.
* **C42** combine_psc_spectra merges only spectra of the same dataset pair — `CombinePsc`, partial, 5 theorems. Partial: name matching by substring merges/deletes spectra of other pairs; keep_open=False always raises (witnesses).
* **C43** job_monitor re-runs exactly the failed jobs — `JobMonitor`, partial, 2 theorems. Partial: proved for iterators whose i-th element is i (range(n)), for every failure pattern; for other iterators the code re-runs with indices instead of the jobs (C43_counterexample).
* **C44** Frequency and redshift ranges map to the channels they contain — `SpwFreq`, proved, 4 theorems. Proved for ascending frequencies; finding: the returned upper index is inclusive while windows elsewhere exclude it.
* **C45** Weighted covariance is Hermitian and translation invariant — `Cov`, partial, 14 theorems. Hermiticity, cross-adjointness and scaling for all weights; diagonal >= 0 for all 0/1 weights; translation invariance and PSD when channels share their good times. The full translation claim is false for channel-dependent flags (C45_counterexample_translation) and the diagonal claim for general weights (C45_counterexample_weights).
* **C46** Q_alt matrices are Hermitian rank-one and give the delay transform — `Oqe`, proved, 4 theorems. Proved for all modes, sizes, extensions and phase corrections, with and without the FFT shortcut.
* **C47** The FFT and matrix forms of q_hat agree — `Oqe`, proved, 3 theorems. Proved for all sizes.
* **C48** q_hat is sesquilinear, real for autos and equals the E-matrix form — `Oqe, Oqe2`, partial, 10 theorems. All claims proved for exact_norm=False. With exact_norm=True the E-matrix form holds for diagonal R2 only: get_unnormed_E multiplies the beam integral into Q R2 instead of Q (C48_counterexample_exact_E).
* **C49** The normalisation matrix G is real and non-negative — `Oqe3`, proved, 5 theorems. Proved for exact_norm=False.
* **C50** Window functions are normalised — `Oqe4`, proved, 4 theorems. eigh and pinv are external: theorems hold for whatever they return.
* **C51** The bandpower covariance is Hermitian — `Oqe3`, proved, 1 theorems. Proved for empirical and diagonal covariance models without known_cov.
* **C52** Dataset labels are unique after any sequence of add — `Labels`, proved, 7 theorems. All histories of add (rejected calls included) with at most 99999 data sets in total; the limit is exact (C52_finding_limit).
* **C53** Dataset-baseline keys parse independently of their spelling — `Labels`, proved, 4 theorems. Exact characterisation of accepted keys. Finding: integer indices are not range-checked and trailing entries are ignored.
* **C54** The extended spectral window stays inside the band — `Settings`, partial, 11 theorems. Partial: set_spw/add do not re-clip a filter extension, set_spw does not check its range, and a one-sided extension leaves the symmetric taper on (counterexamples). Holds for the order of calls pspec uses.
* **C55** Cached matrices are never stale — `Cache`, partial, 6 theorems. Partial: holds when clear_cache follows each change of window/extension/taper kind/filter parameters/data (as in pspec, C55_pspec_fresh); stale matrices otherwise (counterexamples).
* **C56** pspec reuses normalisation matrices only when they are equal — `PspecLoop`, partial, 4 theorems. Partial: the identity-weighting G/H cache is keyed on flags only; with exact_norm and several polarizations the first beam is used for all (counterexample).
* **C57** pspec output rows match its metadata — `PspecLoop`, partial, 6 theorems. Partial: if the first requested polarization is unavailable, the time and baseline-pair metadata stay empty (counterexample).
* **C58** Flag broadcasting yields separable flags and never unflags — `Flags`, proved, 8 theorems. Proved for any disjoint windows, thresholds, baselines and polarizations, with exact rational fractions. Findings proved as theorems: a channel over the threshold is flagged outside the windows too, and overlapping windows need not end up separable. A window without channels raises.
* **C59** Jy to mK conversion is applied once — `JyMk`, proved, 5 theorems. Proved for any history of calls with any beams, including failed calls. Conversion factors of the beam are an argument.
* **C60** Rephasing is applied once — `Rephase`, partial, 10 theorems. The claim is false of the code: data sets that are not drift-phased are reported as skipped but rephased again. Proved: the effect of one call and of n calls (phasor to the n), exactly when the second call is harmless, counterexample; inplace=False leaves the object alone. Missing: idempotence, which does not hold. Also a finding on polarization order.
* **C61** trim_dset_lsts keeps exactly the common LSTs — `Times`, proved, 10 theorems. Proved for every rounding function and any LST arrays. Findings: the second call may raise (no LST step left), and rows are selected by time.
* **C62** Interleaving splits times into disjoint alternating halves — `Times`, proved, 6 theorems. Proved for any rows and times. Finding: the label 'dset1' may be repeated.
* **C63** Scalar honours taper_override — `Scalar`, partial, 4 theorems. The claim as stated is false of the code: the taper/exact_norm override passed to compute_scalar is ignored; finding and counterexample theorems show it. The partial theorem covers the case where the override equals the object's own setting.
* **C64** Total integration time is a harmonic mean — `Scalar`, proved, 5 theorems. Proved; flags are modelled as 0/1 weights.
* **C65** Pseudo-Stokes visibilities are an invertible combination — `Pstokes`, proved, 5 theorems. Proved; finding: the same polarization given twice is accepted.
* **C66** Pseudo-Stokes flags and samples are conservative — `Pstokes`, proved, 5 theorems. Proved.
* **C67** Beam arrays stay consistent under any sequence of add_pol — `Beam`, proved, 10 theorems. Proved; findings: the caller's dictionary keys are renamed in place, AttributeError for an empty object.
* **C68** Frequency and redshift conversions are inverse — `Cosmo`, proved, 4 theorems. Proved over the reals.
* **C69** little_h only rescales lengths — `Cosmo`, proved, 6 theorems. Proved over the reals.
* **C70** Noise power scales as the radiometer equation — `Noise`, proved, 4 theorems. Proved over the reals.
* **C71** Bias correction scales data, errors and covariance consistently — `Rescale`, proved, 3 theorems. Proved; finding: a missing window raises after earlier windows were changed in place.
* **C72** P_SN correction never increases an error estimate — `Rescale`, proved, 4 theorems. Proved for finite non-negative error bars; finding: P_SN=0 with P_N>0 gives nan.
* **C73** Window functions from UVWindow are mirror symmetric and normalised — `Window`, partial, 11 theorems. Claim false in general. Proved for every odd channel count: every row is the window of its own delay except row N-N//4, which holds the window of the neighbouring delay (finding, counterexample for N=5). For even counts the filled rows hold the window of the opposite delay (counterexample N=6). Normalisation proved: every window sums to 1 or 0; for equal beams non-negative and 1 or identically zero. N<4 raises IndexError.
* **C74** Spherical window-function rows are normalised — `Window`, proved, 5 theorems. Proved (bl_weights non-negative for the identically-zero part).
* **C75** Subtraction combines errors in quadrature — `Subtract`, partial, 13 theorems. Proved for every successful call, with exact conditions for success. Missing: success when polarization-pairs differ (finding: select_common does not restrict them); rows are matched by position rather than LST (finding); folded objects are refused (finding); covariances are combined only if statistics exist (finding).
* **C76** Delta-squared conversion is k^3/2pi^2 for data and its outer product for covariance — `Rescale`, partial, 4 theorems. Partial: first conversion of unfolded objects; a second conversion is neither refused nor harmless (C76_counterexample); folded objects raise.
* **C77** Circular averaging of LSTs is wrap-safe — `Circular`, proved, 6 theorems. Proved over the reals; exactly cancelling angles give 0 (finding).
* **C78** Command-line tuple lists parse to the pairs they denote — `ArgParse`, partial, 5 theorems. Integer tuples and tuples of tuples are proved in full for both notations; string tuples in ~ notation only without blanks after commas (C78_finding_blank_kept shows the code keeps such a blank in the word, so the full claim is false there).
* **C79** Averaged rows correspond to their metadata — `Average2`, proved, 2 theorems. Blocks of metadata and data rows have equal lengths and the stated labels/times; hypothesis: equal numbers of integrations in a group, or time averaging (documented requirement).
* **C80** Averaging conserves the number of samples — `Average2`, proved, 1 theorems. Sum of nsample conserved for each window and polarization.
* **C81** Averaged covariances and window functions are those of the weighted mean — `Average2`, partial, 3 theorems. Covariance proved; window function proved for approximate windows; exact windows are summed but not divided by the total weight (counterexample).
* **C82** Spherical averages report a weighted mean integration time — `Spherical`, partial, 3 theorems. The full claim is false (C82_finding_integration_multiplied, C82_counterexample): only the first pair's weight normalises, so n pairs give n*t. Proved for one baseline-pair.
* **C83** Delay-binned spectra keep symmetric delays — `DelayBins`, partial, 3 theorems. Proved for an odd number of delays and symmetric kernels; false otherwise (C83_counterexample_kernel, C83_counterexample_even).
* **C84** The cosmology is normalised and distances grow with redshift — `Cosmo`, proved, 3 theorems. Proved over the reals.
* **C85** The approximate delay-delay matrix is a correlation matrix — `Noise`, proved, 1 theorems. Proved over the reals.
* **C86** V^-1/2 normalisation decorrelates the bandpowers — `Oqe4`, partial, 2 theorems. False for complex covariances (C86_counterexample_complex: eigvects.T is used instead of the conjugate transpose); proved for real ones.
* **C87** The covariance of normalised bandpowers is the propagated one — `Oqe4`, partial, 5 theorems. False for complex M (missing conjugation); proved for real M, which includes mode 'I' with equal weightings.
* **C88** The response matrix H is the bin-average of G — `Oqe3`, proved, 3 theorems. Proved for exact_norm=False.
* **C89** pspec records the kind of taper it used — `SymmTaper`, partial, 4 theorems. Partial: a window extended on both sides switches the symmetric taper off for itself and all later windows, while the output records the argument (counterexample); C89_taper_used is the exact behaviour.
* **C90** The beam scalar behaves like an inverse band average — `Scalar`, proved, 7 theorems. Proved; interpolation, cosmology and the window transform are arguments of the model.
* **C91** Data sets chosen for a pseudo-Stokes parameter are the right ones — `Pstokes`, proved, 3 theorems. Proved.
* **C92** An object survives being written to and read from a file — `Hdf5`, partial, 8 theorems. Proved for all metadata, per-window arrays, window functions, covariances and statistics of an object that passes check(), into any reading object, and for reading with a selection. False in the code, and shown as findings: symmetric_taper is never stored (a stale value survives), time_2_array is not cleared by reading (constructor assigns _time_1_array twice), an empty stats_array is lost, exact-window bins are dropped when exact_windows is False, overwriting with an object that fails its check destroys the old file. HDF5 itself (h5py) is an abstract store of named datasets and attributes.
* **C93** Equality of objects means equality of their contents — `UvpEq`, partial, 8 theorems. == is characterised exactly. Findings: statistics and attributes outside _all_params (time_2_array, symmetric_taper) are never compared, np.isclose makes it asymmetric, extra windows of the second object go unnoticed and missing ones raise KeyError, a one-sided optional attribute raises AttributeError.
* **C94** omit_flags removes exactly the completely flagged spectra — `Access`, proved, 3 theorems. Model covers get_data and get_integrations (get_nsamples and get_wgts index other arrays with the same rows).
* **C95** A statistic reads back what was set — `Access, Seps`, partial, 6 theorems. Proved for unfolded objects. Findings on folded ones: set_stats demands all delays while get_stats returns the positive ones; set_stats_slice raises IndexError. Element-type conversion (dtype) is not modelled.
* **C96** Baseline separations and wavenumbers belong to their rows — `Seps`, proved, 5 theorems. Lengths are rational numbers given with bl_array (norms of the ENU vectors are not computed); the redshift-dependent factors are arguments.
* **C97** Changing the cosmology only changes the normalisation — `SetCosmo`, partial, 9 theorems. Powers, scalars and no-op conditions fully proved over any field. Findings: stats_array and covariances are not rescaled; units 'Mpc^3' are kept although the new scalar is in h^-3 Mpc^3; with norm='H^-1' and a taper the scalar stored by pspec is not the one set_cosmology computes for the same cosmology.
* **C98** The delay adjustment of the scalar is one number for identity weighting — `DelayAdj`, proved, 4 theorems. G and H as modelled in Oqe (exact arithmetic, sampling=False, exact_norm=False). binLoss is the weighted mean of sinc((i-j)/n) over pairs of channels that alias at Ndlys delays.
* **C99** Time-differenced visibilities are differences of the same baseline — `TimeDiff`, partial, 5 theorems. Partial: proved that the rows are differences of the same baseline at adjacent times (both row orders), that constants cancel, and when it raises. Violated by the code: the two samples are always neighbours in time whatever time_diff; time_diff (seconds) is divided by days so normally only two differences survive; missing rows mix baselines. UVData.select is external.
* **C100** Baseline lengths and angles do not depend on how a baseline is written — `LensAngs`, partial, 12 theorems. Partial: range, length, direction, alignment and the cuts are proved for all vectors; equality under reversal holds from the tolerance North or South on. Violated by the code: within the tolerance of East-West the angle depends on the written direction, and the East-West cut projects the vertical component. arctan2 = Complex.arg, signed zeros not modelled.
* **C101** Thermal-noise error bars bracket the noise — `NoiseErr`, proved, 7 theorems. Real values, exact arithmetic; stats as a map (C95). Findings: P_SN alone raises after writing the uncorrected value; the call fails without auto_Tsys even with precomp_P_N.
* **C102** The noise of a row comes from its own antennas, time, integration and samples — `NoiseErr`, partial, 10 theorems. Partial: rows, numbers, arrays, bounds, own-time and time matching proved; violated by the code: with fewer than two unflagged times the temperature of the first time is used even if flagged (zero error bars), and a dictionary of numbers raises.
* **C103** A beam is always cut to one contiguous band, frequencies and planes together — `FTBeam`, proved, 10 theorems. All clauses proved, including histories of cuts by induction. Finding: after two cuts the recorded spw_range is relative to the first cut, not to the file.
* **C104** A window object made from a UVPSpec object uses the beam of each polarization at the frequencies of the spectral window — `FTBeam`, partial, 8 theorems. Proved for pairs whose second polarization is written with two different letters or equal pairs; frequencies are those of the window when it is part of the beam's band. Findings: L446 compares two characters of one name, so ('xx','yy') uses the xx beam twice and never reads the yy file; an FTBeam object's polarization is not compared with the pair; a window below the beam's band or with another channel width silently gets other frequencies.
* **C105** The beam transform is interpolated at both coordinates of the k_perp grid — `Interp`, partial, 8 theorems. Proved on the diagonal, nodes, outside and bounds. Finding: L630 evaluates the interpolator at (k,k) pairs only and numpy repeats the vector along the first axis, so all rows of the interpolated beam are equal; theorem and counterexample given.
* **C106** The k_perp grid of the beam is centred on the baseline — `Interp`, partial, 6 theorems. All proved; finding: for an even number of pixels the zero of the transform is placed one step above the baseline's k_perp (the docstring says 'preferably odd').
* **C107** Writing window functions to a file is all or nothing — `RunWrite`, partial, 7 theorems. Contents, refusal and other files proved. Findings: with clobber the old file is removed before the arguments are checked and before the computation, so any exception destroys it; the stored windows are already multiplied by the stored weights (averaging them with the weights applies them twice; averaging without weights is proved right).
* **C108** Configured baseline-pairs cover exactly the requested combinations that have files — `ConfigBlps`, partial, 8 theorems. Partial: keys and values proved for every file system; findings: patterns are compared with names whose fields have been replaced by {pol}/{group}, they never remove a combination, and the file read may not exist.
* **C109** Baseline-pairs and polarizations are checked against the data — `Validate`, partial, 6 theorems. Partial: reports characterised exactly; the first baseline is measured with the second object's antenna positions, so pairs up to 3 tolerances apart may go unreported (bound proved, counterexample given).
* **C110** The analytic covariance is the covariance of the band powers of Gaussian data — `AnCov`, partial, 8 theorems. Partial: proved for Gaussian ensembles (Isserlis) in an abstract algebra of random variables; findings: absolute tolerance 1e-8 makes the result depend on the units, and only the first and last C11 decide whether one time stands for all.
* **C111** The covariance of q over several baselines is their harmonic mean, time by time — `CovQ`, partial, 5 theorems. Partial: harmonic mean proved where no element is zero; findings: model 'autos' and zero elements divide by zero, time index Ntimes is accepted.
* **C112** Covariances and window functions come back row by row with the data — `GetCov`, partial, 5 theorems. Not folded: complete. Folded: for three or more delays centred on zero and approximate windows; counterexamples for fewer delays and for exact windows (wrong axis indexed).
* **C113** The approximate covariance has the statistic as its standard deviation — `ApproxCov`, proved, 5 theorems. Modelled over the reals; taper is an arbitrary window. Finding: one delay is broadcast to n by n.
* **C114** Groups of baselines select the baseline-pairs made of them — `BlGroups`, proved, 3 theorems. Findings: empty groups shift positions; malformed elements are silently ignored.
* **C115** Automatic k bins contain the k values of the data — `KBins`, partial, 7 theorems. Delays proved in full, including channels with gaps. Bins: the zero delay and k_perp below the first edge lie in no bin (documented otherwise), and zero-length baselines give negative bins.
* **C116** Exact window functions are filled in for every row and polarization — `ExactWin`, proved, 2 theorems. The window functions, bins and redundant groups (C10) are parameters; the fill, normalization, inplace rules and errors are modelled.
* **C117** Autocorrelation variances follow the radiometer equation — `AutoVar`, proved, 4 theorems. Floats are reals; negative time indices and the cache are not modelled. The median integration time of the whole dataset (not of the baseline) enters, as in the code.
* **C118** Configuration files mean what they say — `LoadCfg`, partial, 4 theorems. Parsing of YAML is not modelled. Partial: nothing inside lists is converted (C118_finding_inside_lists), contrary to the documentation.
* **C119** System temperatures are autocorrelations times the factor of their polarization — `Tsys`, partial, 5 theorems. Partial: proved for datasets whose polarization axis is in alphabetical order; otherwise the factors are applied to the wrong polarizations (C119_finding_order). With several pseudo-Stokes pairs in a UVPSpec the last one's beam is used for pI (C119_finding_stokes).
* **C120** Bootstrap errors are the spread of resampled averages — `BootRun`, proved, 5 theorems. biweight_midvariance is a parameter; groups are given (C97 for the default); percentages outside 0..100 are not modelled. Confidence levels equal to two decimals share a name: the last is kept (stated in C120_statistics).
* **C121** Bootstrap runs store their results and touch nothing else — `BootRun`, partial, 4 theorems. The resampling of one object is a parameter. Partial: needs that no requested spectrum has the name of a result of another; a second run over a whole container also processes the stored averages (C121_finding_rerun).
* **C122** A power spectrum run stores one result per pair of datasets and nothing else — `PspecRun`, partial, 4 theorems. partial: with repeated dataset labels (accepted: PSpecData renames its own copies) all results get the same name; see the finding. Loading, calibration, and the preparation of datasets are parameters (C60-C63 cover LST trimming, rephasing etc.); pspec itself is a partial function parameter (C44 ff.).
* **C123** Beam solid angles are integrals of the response, and Jy to mK uses them — `GaussBeam`, proved, 8 theorems. Flat-sky integrals (the code uses the flat-sky formula). interp1d, pyuvdata's beam area and frequency interpolation, efield_to_power and peak_normalize are parameters with the stated properties. Printed warnings not modelled.
* **C124** Sensitivities are computed with the object's own cosmology — `Sensitivity`, partial, 9 theorems. partial: a cosmology set after the beam, or a beam shared by two objects, separates the object's cosmology from the one used; the scalar is not discarded when beam or cosmology change; calc_scalar integrates only up to the highest channel (findings).
* **C125** Spherical window functions are normalised means of the windows of each bin's own modes — `SphWf`, partial, 11 theorems. partial: rows of the averaged object are group-major but read time-major (mixed when there are several times and groups); fails for more than one polarization; same/caller arrays are rescaled in place; uninitialised rows when theory bins are empty (findings and counterexample). The average itself is C29/C79/C81; kmags and ktot enter as parameters (C96).
* **C126** Spherical window functions bin every mode where it lies, in the units of the bins — `GetSph`, partial, 13 theorems. Everything except the last clause is proved. check_kunits only tests equivalence of dimensions and the numbers are used unconverted, so bins given in 1/kpc to an object working in 1/Mpc are accepted and misread by a factor 1000 (C126_counterexample_units). The returned weighted_k is the unweighted mean (C126_counterexample_weighted_k).
* **C127** A wedge plot draws every baseline-pair and delay at its own place — `PlotWedge`, partial, 10 theorems. Proved for delay units. Violations: in cosmological units the rows are sorted by separation but the k_perp axis keeps the object's order (C127_counterexample_kperp_order); blpairs is ignored unless times is given (C127_finding_blpairs_ignored); the colour bar says Delta^2 in delay units although the conversion is skipped (C127_finding_deltasq_label); on a log scale, negative values are drawn above positive ones for data below 1e-10 (C127_counterexample_negative).
* **C128** A waterfall plot shows each requested baseline-pair's own spectra, times and component — `PlotFall`, partial, 10 theorems. Partial because the code violates it: component 'abs-imag' shows the absolute real part; a single flagged time makes every negative value of that panel blank on a log scale (numpy min is nan); the LSTs of the first panel label all panels; keys beyond the number of supplied axes are silently dropped. Proved with the hypotheses excluding these; each exclusion has a counterexample theorem. matplotlib is not modelled beyond what is handed to it.
* **C129** A delay spectrum plot draws every requested integration at its own values and labels them apart — `PlotSpec`, partial, 13 theorems. Partial because the code violates it: the size check counts groups instead of spectra (C129_counterexample_size); members of one unaveraged group carry the label of the whole group (C129_counterexample_group_label); with delay=True and deltasq=True the data are not converted but the y axis says Delta^2 (C129_finding_deltasq_label). Strings are represented by their contents; printed ties and matplotlib are not modelled.
* **C130** Waterfalls of a data object are saved one per baseline and polarization, none overwritten — `PlotUvd`, proved, 9 theorems. Templates must have both placeholders (as documented; C130_finding_placeholder shows silent overwriting otherwise) and polarization names of equal length. Findings: the test for an existing extension compares one character, so the extension is always appended, also to names that have it (C130_finding_double), and names shorter than the format raise IndexError (C130_finding_short); baseline ticks at zero raise OverflowError.
* **C131** Conversion factors are the geometry they stand for — `Cosmo2`, proved, 5 theorems. Over the reals, with integrate.quad as the integral (fundamental theorem of calculus from Mathlib).
* **C132** Normalised bandpowers are the true bandpowers seen through the returned window functions — `Oqe5, Oqe6`, partial, 9 theorems. Without exact_norm (C137). C132_bias gives the exact mean in every mode for all delay counts and singular or regular responses; C132_window_partial the cases without bias. Partial because the code violates the claim: mode 'I' without sampling when the extended band has more channels than there are delays (bias 0.82), and mode 'H^-1' with a singular response, where W is normalised but M is not (C132_counterexample_singular: factors 5/17 and 20/17).
* **C133** A Gaussian Fourier beam is the Fourier transform of a Gaussian beam of the given width — `FTGauss`, proved, 4 theorems. Over the reals; the integral is Mathlib's Bochner integral. Finding: a list with a single width is documented as accepted for all frequencies but is always refused (C133_finding_single_width).
* **C134** Simulated noise obeys the radiometer equation — `NoiseSim`, partial, 15 theorems. Violations found: inplace with Nextend>0 loses the noise (C134_finding_inplace_extended); Nextend>=2 leaves gaps because the copy is shifted cumulatively (C134_counterexample_gap); with a beam, pseudo-Stokes noise is divided by sqrt 2 twice (C134_finding_stokes_twice); decreasing frequency axes get mirrored factors (C134_finding_decreasing_axis).
* **C135** Simulated sky has the noise of its own antennas and the documented foreground — `SkyNoise`, partial, 9 theorems. Violations: the foreground's covariance is twice the documented one because real and imaginary parts each get cov_amp (C135_foreground_partial states the factor); with the default constant_per_bl=True the foreground is drawn before seeding so bl_loop_seed does not fix it (C135_finding_seed_after_foreground).
* **C136** Creating a PSpecData keeps every dataset with its own weights, errors and label — `Create`, partial, 7 theorems. Violations: a dictionary of datasets without weights is always refused although weights default to the flags (C136_finding_dict_without_weights); the weights of a time-differenced object keep the times of the undifferenced data (C136_finding_weights_not_differenced).
* **C137** With exact normalisation the bandpowers measure the sky power through the beam overlap integral — `ExactNorm`, partial, 6 theorems. q_hat, get_G, get_H with exact_norm, get_integral_beam. Partial only for fewer delays than channels without sampling (code violates, as in C132). Finding: a filter extension is refused by a broadcasting error; no/unsuitable beam gives overlap 1 with a warning only.
* **C138** The pipeline scripts call the pipeline with what is on the command line — `Cli`, partial, 11 theorems. Proved from option occurrences on (argparse's tokenising is not modelled). Partial because options of type=bool cannot be switched off, bootstrap_run.py passes library options on, psc_merge_spectra.py and pspec_red.py always fail: proved as C138_finding_*.
* **C139** auto_noise_run.py adds error bars to every requested spectrum and to nothing else — `AutoNoise`, partial, 4 theorems. Partial because with --spectra the script always raises UnboundLocalError (C139_finding_spectra). The noise calculation is a parameter here (see C94 and others).
* **C140** generate_pstokes_run.py writes the requested pseudo-Stokes visibilities and overwrites only when told to — `StokesRun`, partial, 6 theorems. Partial because without --pstokes the script always fails (C140_finding_default): the default is a string. File reads and writes are atomic in the model; pyuvdata's += is modelled as refusing common polarizations.
* **C141** Stored spectra, covariances, error bars and windows of a baseline-pair belong together — `PspecValue`, partial, 9 theorems. End-to-end value of one baseline pair of pspec. Exact normalisation is covered by C141_exact_partial; C141_counterexample_phase exhibits the phase violation that keeps the mean statement partial.
* **C142** Window functions of folded spectra describe the folded bandpowers — `FoldAvg`, partial, 4 theorems. Exact windows: the folded row predicts the mean of the two mirrored rows for any power and stays normalised (C142_exact, C142_exact_normalised). Approximate windows: false of the code - fold_spectra multiplies the sum of the four blocks by 0.25 where 0.5 is needed, so the folded window predicts half of the folded bandpower (C142_approx_half_partial for every window; C142_counterexample with the identity).
* **C143** Folding and averaging commute — `FoldAvg`, proved, 5 theorems. C143_fold_anywhere: any number of averages before and after the fold, same exception or same reads; C143_fold_reads: what is read after folding. Hypotheses: default weights (C143_finding_error_weights: with error_weights the order matters), three or more delays, approximate windows, and integration times and sample counts that are zero or not absurdly small (the code clips summed weights at 1e-40).
* **C144** Combining objects keeps every array all of them have — `CombineOpt`, partial, 7 theorems. Proved: combining succeeds, keeps every entry and the stated optional arrays, under the shape conditions. Code bugs proved: folded un-averaged objects are always refused because the result is allocated with the number of positive delays; combined exact-window objects lose kperp/kpara bins (dicts created empty at uvpspec.py L3042-3043 and never filled), so they cannot be combined again and recursive_combine of four or more always fails.
* **C145** The arguments of pspec mean what the documentation says — `PspecCall`, proved, 13 theorems. Model/PspecCall.lean: the argument frame of pspec. Findings proved: documented groups of two or more baselines always raise (NotImplementedError), the documented history argument has no effect, labels as dsets are refused. Acceptance is characterised for requests whose first polarization pair the data have (C57 finding covers the rest).
* **C146** What pspec computed is what get_data returns — `PspecCall`, proved, 5 theorems. Composes the argument frame, the loops (C57), the transposition of the accumulated lists, the UVPSpec read path (C17, C94) and the estimator mean (C141). Finding: a polarization pair requested twice is accepted but can no longer be read. The value of one baseline-pair is a parameter (instantiated with the C141 model in C146_mean_of_what_is_read); the final check() and exact windows are not in this model.
* **C147** Labels follow the spectra — `LabelArr`, partial, 4 theorems. Proved for every history in which selections and averages act on objects with one origin, and for all combinations (C147_combine is unconditional). Missing: selections/averages of objects with several origins: _select and average_spectra leave label arrays untouched (C147_counterexample_select, C147_finding_shape).
* **C148** check accepts exactly consistent objects and settles them — `Check`, partial, 9 theorems. Soundness for the table of parameters, frame, completeness, idempotence and detection of missing parameters are proved for every table and every behaviour of numpy conversions obeying Laws. Missing: time_2_array and symmetric_taper are required but not looked at (C148_finding_names); shapes never checked (C148_finding_shape); AttributeError/ValueError instead of AssertionError (C148_finding_errors).
* **C149** Sizes and the baseline table agree with the arrays after any history — `Sizes`, partial, 11 theorems. Proved for all histories for every count but Nfreqs, Ntpairs, Ntimes, and for the baseline table; Ntpairs and Nfreqs under the conditions of C149_tpairs_freqs_partial and always after combine (C149_combine). Code violates: Nfreqs is not updated by select(spws), Ntpairs counts averages after select, Ntimes of pspec counts times not pairs, Nbltpairs with repeated pairs (findings/counterexamples).
* **C150** Selecting, averaging and folding commute — `SelAvg`, partial, 6 theorems. Proved for unfolded objects, and for polarization selections of folded ones (C150_average_partial, C150_reads_partial, C150_fold_pols, C150_select_then_fold, C150_groups). Code bug: selecting windows of a folded object removes its non-positive delays from the delay list while the data arrays keep their length, so get_data drops delays a second time (C150_finding_fold_select).
* **C151** Flagged samples have no influence — `FlagR`, proved, 8 theorems. Non-interference of flagged samples proved for identity, iC and dayenu weighting (Moore-Penrose pseudo-inverse), with the concrete matrix R; separability of the flags after broadcasting comes from C58 (C151_broadcast). Without broadcasting, Y takes the largest weight over time and a flagged sample leaks with full weight (C151_counterexample_leak); the spectrum stored for an entirely flagged time is computed from flagged data (C151_finding_flagged_row), only its integration time is zero.
* **C152** Every delay bin carries the power at its own delay — `DelayAxis`, proved, 7 theorems. Proved for evenly spaced channels. C152_finding_gap: delays() takes the median spacing, so for channels with a gap it lists delays although the bandpowers are not the transform at them.
* **C153** Splitting an object and merging the parts gives it back — `SplitMerge`, partial, 6 theorems. Split then merge is the identity for objects in canonical order with one pair of data sets and r_params for all baselines (the parts in any order, any axis, any number of parts); values (not labels) of selections and of merge-then-select for all objects. Counterexamples: label arrays are not sliced by select, so with several data sets the labels come back wrong; r_params for only some baselines make the parts unmergeable. bl_array/bl_vecs/history and single-channel windows not in this model.
* **C154** A call of pspec does not depend on earlier calls or on the other requests — `PspecHist`, partial, 9 theorems. Proved for all histories and requests when the symmetric taper is not asked for, or no extension is left over / used earlier in the call. False otherwise: after a call whose last window has a filter extension any call with the default symmetric_taper=True raises ValueError (so pspec_run with extensions fails at the second pair of data sets), a window with two-sided extensions switches the symmetric taper off for later windows, and the recorded symmetric_taper is the requested one. The G/H cache and exact_norm are the subject of C56.
* **C155** Symmetries of a stored spectrum — `Symmetry`, proved, 5 theorems. End to end on `FlagR.rMat` and `PspecValue.blpair`. `np.linalg.inv`/`pinv` are arguments assumed to commute with conjugation, reordering and multiples (shown for the matrix inverse). The gain theorem with 'iC' asks that the data respond to some tone (otherwise get_G replaces an all-zero matrix by the identity).
* **C156** Averaging in steps gives the average in one step — `Stages`, partial, 6 theorems. C156_two_steps_partial: equality of data, every error bar, samples, ints, wgts, approximate windows and (time_avg off in step two) metadata between two calls and one, at every delay where the total weight of every pair survives being stored; C156_two_steps_covariance_partial: of every element of the covariance; C156_steps_succeed: both steps succeed whenever the single call does. Missing: the code violates the claim for unequal integration times (C156_counterexample_times), for averaged errors below 1e-4 (C156_counterexample_precise: stored as 1e20, the most precise pair stops counting) and for exact windows (C156_finding_exact_windows: never divided by the weights, so every step multiplies by them once more).
* **C157** Averaging over redundant baseline-pairs — `RedAvg`, partial, 2 theorems. get_red_blpairs followed by a time average succeeds exactly if every redundant group of baselines contains both baselines of some pair; otherwise ValueError (counterexample: an object with a mixed pair only). Output row i is the weighted mean of redundant group i.
* **C158** What is stored in a container comes back — `ContainerIO`, partial, 5 theorems. C37 and C92 composed over the contents of the groups. Not returned: symmetric_taper (finding), r_params as stored (the reader normalises it), an empty stats_array. Single writer, no crash (C39, C99 treat those).
* **C159** A selection that fails leaves the object as it was — `SelState`, partial, 8 theorems. Proved: inplace=False never touches the object; in place, a raising call never changes data/integration arrays and leaves the object unchanged when the first requested axis fails. Findings (general theorems and concrete counterexamples): an existing window with a row request matching nothing leaves the new window labels/frequencies on the old windows' spectra; a satisfiable row request with absent polarization pairs leaves the selected rows' labels on other rows' spectra. Not modelled: bl_array, scalar_array, r_params, beam arrays, check().
* **C160** Calibration is applied exactly once to every data set — `CalAdd`, partial, 9 theorems. Proved in full for every memory and sharing (C160_every_object, C160_failure, C160_other_failures) and for pspec_run on files; the 'exactly once' form needs that no object is passed at two places (findings: passed twice, rerun on the caller's objects, retry after a failure). uvcalibrate itself is an uninterpreted partial function of calibration and content.
* **C161** Every way of writing baseline-pair groups means the same — `AvgArgs`, proved, 8 theorems. Proved for all Python values and objects: any nesting of lists, tuples and arrays of integers or of nested tuples gives the same result or exception as the canonical integers; not-nested values, flat lists of pairs, mismatched weights refused. Findings: mixed groups double-count a pair; surplus weight lists are applied to ungrouped pairs.
* **C162** Objects at several positions are prepared once — `SharedPrep`, partial, 13 theorems. Jy_to_mK converts a shared object once (proved for every sharing). Flags: equal to one occurrence for the default whole-band window and for unflagging (idempotence of broadcasting, every threshold); on part of the band a second occurrence may flag more (finding). Rephasing: exact power of the phasor = number of positions other than the anchor's; twice is a finding. Trimming: returns iff no object that loses a row is repeated, otherwise IndexError after the first trim (finding). Partial because the claim is false for those three.
* **C163** Keys and polarization pairs mean the same in every spelling — `KeyForms`, proved, 11 theorems. Parameters: polstr2num and polnum2str of pyuvdata. Findings: a nested tuple with an antenna number of 900 or more reads another pair's data; polpair_tuple2int of a list drops x_orientation.
* **C164** The tree listing shows what can be read — `Tree`, proved, 4 theorems. Names without '/' and no concurrent writers, as in the container model. Finding: a name with a line break can imitate another tree; objects under 'header' are stored but not listed (C37).
* **C165** uvpspec_from_data forms exactly the within-group pairs — `FromData`, proved, 9 theorems. Model/FromData.lean on top of the models of construct_blpairs and pspec. Reading of files and the numerical value of a spectrum are parameters. Findings: only the first polarization is used; a cosmology given without a beam is ignored.
* **C166** Combining objects commutes with changing every spectrum by itself — `CombineMap`, proved, 5 theorems. On the combination model of C21-C23, set_cosmology (L2162-2181) on top of it; the value of the new scalar is a parameter of window and polarization pair. The position-dependent theorems assume what C22 needs (aligned inputs). Finding: along rows the stored scalars need only be close, and the two orders then give different spectra.
* **C167** Selecting and combining commute — `SelectCombine`, proved, 2 theorems. On the combination model of C21-C23 and the selection model of C153; how positions follow from the arguments of select is C11-C17. Inputs must be aligned as in C22. Data set names need one pair of data sets because select does not slice the label arrays (C153_counterexample_labels).
* **C168** Averaging commutes with combining along windows or polarization pairs — `AvgJoin`, proved, 4 theorems. Joins the combination model (C21-C23) with the averaging model (C29-C34, C81, C150): view is the same object as average_spectra reads it. Row numbers, times and averages are exact reals. Rows must be in the order combine_uvpspec stores; other orders and the baseline-pair axis are not covered.
* **C169** Averaging commutes with converting the spectra — `AvgScale`, partial, 6 theorems. Proved for the default weights: C169_rescaled_average (group by group, no condition on the object), C169_rows/C169_deltasq/C169_bias (row by row). Error bars: C169_errors_partial, with or without averaging in time, while no averaged error (of the group, or of a baseline-pair over time) falls below 1e-4; the code violates the claim there (C169_counterexample_units: np.isclose has an absolute tolerance, so error bars depend on the units). Missing: error weights (the clipping at 1e-40 and 1e40 is not scale invariant); folded objects (convert_to_deltasq raises for them, C76; converting first and folding then is C170).
* **C170** Folding commutes with converting the spectra beforehand — `FoldScale`, proved, 5 theorems. Proved for factors of window, baseline-pair and delay that agree at opposite delays, on the object that fold_spectra and the get_* methods read: all readings after converting and folding are those after folding times the factors of the positive delays, with exact or approximate windows, with or without statistics. Not modelled: the units, real and imaginary covariance separately. Wavenumbers that are opposite at opposite delays are a hypothesis (for an even number of delays the unpaired first delay is not read).
* **C171** Converting, averaging and folding in any order — `FoldAvgScale`, proved, 2 theorems. Proved with the default weights of integrations, integration times and samples zero or well above zero, one array entry per row, and groups whose baseline-pairs have as many integrations or an average in time. Converting after folding is not an order the code allows (C76). Error bars are treated separately (C169_errors_partial, C170); exact windows are excluded, as in C143. Units are left out.
* **C172** Bootstrap resampling commutes with folding — `FoldBoot`, proved, 1 theorems. Proved for one object (with more the call always fails, C32_finding_two_objects_raise) whose integration times and samples are zero or well above zero. The draws are a parameter; the errors computed over resamples (C120) are not part of the claim, exact windows are excluded as in C143.

## 5. Modelled code (generated)

Every definition cites its lines; this list gives per model file the repository ranges cited there. Functions not cited anywhere are not modelled.

* `Access` (24 definitions): uvpspec.py L683-834, L852-990, L1066-1181, L1604-1635.
* `AnCov` (21 definitions): pspecdata.py L1978-2481.
* `Antnums` (17 definitions): uvpspec_utils.py L965-978, L999-1008, L1026-1034, L1055-1062, L1074-1082, L1100-1102, L1120-1122, L1143-1153.
* `ApproxCov` (12 definitions): uvpspec.py L2905-2974; noise.py L292-297.
* `ArgParse` (13 definitions): pspecdata.py L5193-5227.
* `AutoNoise` (5 definitions): auto_noise_run.py L19-33.
* `AutoVar` (13 definitions): utils.py L133-188; pspecdata.py L610-644, L741-806.
* `Average` (26 definitions): grouping.py L156-707; uvpspec.py L1324-1340, L1615; utils.py L1212-1213.
* `AvgArgs` (22 definitions): grouping.py L25-40, L265-347; uvpspec_utils.py L999-1008; uvpspec.py L1590-1605.
* `AvgJoin` (4 definitions): uvpspec.py L671-720, L1060-1062, L3206-3238, L3250-3261; grouping.py L414-439.
* `AvgScale` (6 definitions): uvpspec.py L916-946, L1183-1242; loss.py L41-53.
* `Beam` (19 definitions): pspecbeam.py L599-835.
* `BlGroups` (11 definitions): uvpspec.py L18-30, L2802-2834; uvpspec_utils.py L507-516, L1055-1062.
* `Blpairs` (7 definitions): utils.py L189-296.
* `BootRun` (31 definitions): grouping.py L1744-1758, L1790-1803, L1854-1927, L2017-2077; uvpspec.py L1009-1030, L1123-1143.
* `Bootstrap` (7 definitions): grouping.py L1622-1787; uvpspec_utils.py L219.
* `CalAdd` (10 definitions): pspecdata.py L118-300, L4901-4951, L4969-4981, L5005-5013, L5595-5613.
* `Check` (17 definitions): uvpspec.py L72-398, L401-526, L2346-2429.
* `Circular` (3 definitions): utils.py L22-62.
* `Cli` (33 definitions): pspecdata.py L3270-3299, L4500-4555, L5190-5489; grouping.py L1930-1946, L2080-2180; utils.py L1741-1780; pstokes.py L529-563; pspec_run.py L8-27; bootstrap_run.py L11-20; container.py L512-520, L644-662; psc_merge_spectra.py L12-22; pspec_red.py L128-140.
* `Combine` (34 definitions): uvpspec.py L2978-3399, L3440-3635; uvpspec_utils.py L1156-1219.
* `CombineMap` (5 definitions): uvpspec.py L1371-1437, L2091-2181.
* `CombineOpt` (10 definitions): uvpspec.py L2999-3399, L3402-3437.
* `CombinePsc` (11 definitions): container.py L487-630.
* `ConfigBlps` (22 definitions): utils.py L788-980.
* `Container` (18 definitions): container.py L54-475.
* `ContainerIO` (10 definitions): container.py L203-241, L271-340, L365-415; uvpspec.py L563-565.
* `Cosmo` (18 definitions): conversions.py L36-37, L42, L57-400.
* `Cov` (7 definitions): utils.py L66-128.
* `CovQ` (14 definitions): pspecdata.py L1376-1481.
* `Create` (8 definitions): pspecdata.py L72-117; utils.py L1378-1386.
* `DelayAdj` (4 definitions): pspecdata.py L3111-3201.
* `DelayAxis` (2 definitions): pspecdata.py L2982-3005.
* `DelayBins` (11 definitions): grouping.py L2228-2241, L2262-2323, L2422-2423.
* `ExactNorm` (5 definitions): pspecdata.py L1612-1797.
* `ExactWin` (15 definitions): uvpspec.py L33-49, L2183-2344.
* `FTBeam` (27 definitions): uvwindow.py L63-88, L117-165, L270-290, L356-388, L449-468, L477-480.
* `FTGauss` (7 definitions): uvwindow.py L167-237.
* `FlagR` (8 definitions): pspecdata.py L966-974, L1024-1028, L1066-1200.
* `Flags` (14 definitions): pspecdata.py L2851-2942.
* `Fold` (11 definitions): grouping.py L1421-1619.
* `FoldAvg` (20 definitions): grouping.py L156-707, L1421-1619; uvpspec.py L596-720, L752-850, L1096-1104.
* `FoldBoot` (1 definitions): grouping.py L1676-1787.
* `FoldScale` (3 definitions): uvpspec.py L1183-1242; loss.py L41-53.
* `FromData` (11 definitions): testing.py L211-338; pspecdata.py L3588-3589.
* `GaussBeam` (15 definitions): pspecbeam.py L262-291, L351-435, L463-480, L514-545; conversions.py L51-52.
* `GetCov` (16 definitions): uvpspec.py L123, L571-677, L2282-2289, L2327.
* `GetSph` (22 definitions): uvwindow.py L1111-1287.
* `GroupBls` (6 definitions): grouping.py L64-153.
* `Hdf5` (44 definitions): uvpspec.py L58-560, L1637-1902, L1972-2089, L2346-2437; uvpspec_utils.py L583-942.
* `Interp` (20 definitions): uvwindow.py L490-542, L627-630.
* `JobMonitor` (6 definitions): utils.py L1090-1184.
* `JyMk` (13 definitions): pspecdata.py L4406-4455.
* `KBins` (13 definitions): utils.py L544-571; uvwindow.py L745-832.
* `KeyForms` (32 definitions): uvpspec.py L708-717, L1016-1028, L1321, L1325-1338, L1463-1468, L1475-1500, L1580-1635; uvpspec_utils.py L460-476, L705-738.
* `LabelArr` (8 definitions): pspecdata.py L4205-4214; uvpspec_utils.py L533-947; grouping.py L156-708, L1421-1620; uvpspec.py L348-362, L3139-3144, L3213-3217, L3291-3295, L3350-3354, L3389.
* `Labels` (34 definitions): pspecdata.py L73-80, L118-300, L493-562.
* `LensAngs` (9 definitions): utils.py L1189-1224, L1320-1336.
* `LoadCfg` (8 definitions): utils.py L746-778.
* `Noise` (8 definitions): noise.py L20-91, L272-297.
* `NoiseErr` (27 definitions): utils.py L1502-1728, L1783-1812; uvpspec.py L2506-2671.
* `NoiseSim` (14 definitions): testing.py L341-477.
* `Oqe` (33 definitions): utils.py L1832-1910; pspecdata.py L688-908, L1483-1985, L2483-2860.
* `Params` (70 definitions): uvpspec.py L58-560.
* `PlotFall` (26 definitions): plot.py L659-895.
* `PlotSpec` (33 definitions): plot.py L159-548.
* `PlotUvd` (17 definitions): plot.py L1333-1425.
* `PlotWedge` (27 definitions): plot.py L1056-1330.
* `Polpair` (10 definitions): uvpspec_utils.py L377-465.
* `PspecCall` (32 definitions): pspecdata.py L2960-2980, L3270-3300, L3540-4289.
* `PspecHist` (10 definitions): pspecdata.py L3275-3300, L3540-3543, L3704-3890, L5140-5182.
* `PspecLoop` (12 definitions): pspecdata.py L3692-4190.
* `PspecRun` (19 definitions): pspecdata.py L4500-4560, L4846-5187.
* `PspecValue` (10 definitions): pspecdata.py L3755-4022.
* `Pstokes` (17 definitions): pstokes.py L106-113, L227-306.
* `PyDict` (7 definitions): uvpspec.py L1098-1146; container.py L313-318; uvpspec_utils.py L144-225.
* `RParams` (6 definitions): uvpspec_utils.py L144-225.
* `Recursive` (5 definitions): uvpspec.py L3402-3437; cli.py L34-160.
* `RedGroups` (16 definitions): uvpspec_utils.py L1221-1367; utils.py L299-541, L983-1088, L1227-1360.
* `Rephase` (13 definitions): pspecdata.py L349-396, L4291-4404.
* `Rescale` (16 definitions): loss.py L8-58; utils.py L1783-1812; uvpspec.py L1183-1242.
* `RunWrite` (14 definitions): uvwindow.py L1290-1404.
* `Scalar` (16 definitions): pspecbeam.py L14-126, L216, L3064-3073, L4027-4066; pspecdata.py L3007-3109.
* `SelAvg` (5 definitions): uvpspec_utils.py L533-947; uvpspec.py L1410-1411.
* `SelState` (2 definitions): uvpspec.py L1637-1722; uvpspec_utils.py L533-960.
* `Sensitivity` (14 definitions): noise.py L93-269.
* `SetCosmo` (11 definitions): uvpspec.py L2091-2181; pspecdata.py L3755-3789.
* `Settings` (28 definitions): pspecdata.py L73-108, L294-300, L453-491, L663-1376.
* `SharedPrep` (13 definitions): pspecdata.py L2851-2942, L4322-4401, L4417-4455, L4471-4497.
* `Sizes` (17 definitions): pspecdata.py L4133-4183; uvpspec_utils.py L587-742; grouping.py L620-668, L1421-1620; uvpspec.py L72-110, L196-300, L1410-1411, L3012-3019, L3105-3123, L3235-3242, L3370-3384, L3557-3567.
* `SkyNoise` (26 definitions): testing.py L480-720.
* `Sort` (2 definitions): cli.py L97; pspecdata.py L4165; grouping.py L650.
* `SphWf` (19 definitions): grouping.py L53-61, L577-586, L1258-1418.
* `Spherical` (17 definitions): grouping.py L710-1180.
* `SplitMerge` (5 definitions): uvpspec.py L1637-1724; uvpspec_utils.py L533-947.
* `SpwFreq` (9 definitions): utils.py L576-705; conversions.py L160-179.
* `StokesRun` (10 definitions): generate_pstokes_run.py L13-30; pstokes.py L116-125, L142-147, L520-563.
* `Subtract` (18 definitions): uvpspec_utils.py L11-137; uvpspec.py L1332-1338.
* `TimeDiff` (7 definitions): utils.py L1389-1419.
* `Times` (15 definitions): pspecdata.py L4457-4497, L5019-5034.
* `Transact` (15 definitions): container.py L12-51, L146-175, L426-455.
* `Tree` (7 definitions): container.py L463-492.
* `Tsys` (15 definitions): utils.py L1421-1422, L1426-1499.
* `UVP` (40 definitions): uvpspec.py L58-330, L679-719, L836-850, L991-1064, L1312-1635, L3638-3645; uvpspec_utils.py L228-237, L288-385, L479-905.
* `UvpEq` (8 definitions): uvpspec.py L2461-2491.
* `Validate` (14 definitions): pspecdata.py L3203-3268, L5492-5556.
* `Window` (27 definitions): uvwindow.py L631-671, L722, L733-738, L952-995, L1080-1101.

Not modelled: `plot.py`, `container.py` printing, command line front ends beyond argument parsing (`C78`), `testing.py`, logging,
UVData/UVBeam I/O, healpix interpolation, FFT and linear-algebra libraries (used through their mathematical definitions), floating-point rounding
(except C02), random number generators (bootstrap draws are arbitrary inputs), deprecated options.
