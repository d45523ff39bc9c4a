{
 "claims": [
  {
   "property": "C01",
   "status": "proved",
   "theorems": [
    "C01_reconstruction"
   ],
   "note": "Exact arithmetic (any linearly ordered field with floors)."
  },
  {
   "property": "C02",
   "status": "proved",
   "theorems": [
    "C02_row_lengths"
   ],
   "note": "Law-free: holds for any scalar operations, in particular IEEE floats."
  },
  {
   "property": "C03",
   "status": "proved",
   "theorems": [
    "C03_rows_vs_stored"
   ],
   "note": "Law-free: holds for any scalar operations, in particular IEEE floats."
  },
  {
   "property": "C04",
   "status": "partial",
   "theorems": [
    "C04_imfs_and_trend_partial",
    "C04_trend_error_iff",
    "C04_counterexample"
   ],
   "note": "The claim fails for signals that vanish (C04_counterexample: IndexError); proved for all other cases, and the failing case is characterised by C04_trend_error_iff."
  },
  {
   "property": "C05",
   "status": "proved",
   "theorems": [
    "C05_accessors_before_success",
    "C05_accessors_after_success"
   ],
   "note": "Law-free: holds for any scalar operations, in particular IEEE floats."
  },
  {
   "property": "C06",
   "status": "proved",
   "theorems": [
    "C06_history_independent"
   ],
   "note": "Law-free: holds for any scalar operations, in particular IEEE floats."
  },
  {
   "property": "C07",
   "status": "proved",
   "theorems": [
    "C07_max_imf_bound",
    "C07_max_imf_terminates"
   ],
   "note": "Law-free: holds for any scalar operations, in particular IEEE floats."
  },
  {
   "property": "C08",
   "status": "proved",
   "theorems": [
    "C08_sift_bound",
    "C08_sift_terminates"
   ],
   "note": "Law-free: holds for any scalar operations, in particular IEEE floats."
  },
  {
   "property": "C09",
   "status": "proved",
   "theorems": [
    "C09_fixe_exact"
   ],
   "note": "Law-free: holds for any scalar operations, in particular IEEE floats."
  },
  {
   "property": "C10",
   "status": "proved",
   "theorems": [
    "C10_exit_condition"
   ],
   "note": "Law-free: holds for any scalar operations, in particular IEEE floats."
  },
  {
   "property": "C100",
   "status": "proved",
   "theorems": [
    "C100_lines"
   ],
   "note": "C100_lines."
  },
  {
   "property": "C101",
   "status": "partial",
   "theorems": [
    "C101_fails",
    "C101_four_partial",
    "C101_three_partial"
   ],
   "note": "C101_fails: for four or more knots with y = x^2 the default is not the natural spline, so the documentation is wrong. C101_three_partial: three knots; C101_four_partial: four knots exactly for collinear data."
  },
  {
   "property": "C102",
   "status": "proved",
   "theorems": [
    "C102_returns"
   ],
   "note": "C102_returns; the condition on the noises is Spec.Usable, the one on np.std Spec.StdLike."
  },
  {
   "property": "C103",
   "status": "proved",
   "theorems": [
    "C103_silent",
    "C103_parallel"
   ],
   "note": "C103_silent for the sequential mode, C103_parallel for the parallel one."
  },
  {
   "property": "C104",
   "status": "partial",
   "theorems": [
    "C104_why",
    "C104_residue_partial",
    "C104_counterexample"
   ],
   "note": "C104_residue_partial: the residue is below a threshold or sifts to a signal with at most two extrema; C104_counterexample: it may have three extrema itself; C104_why is the law-free form."
  },
  {
   "property": "C105",
   "status": "proved",
   "theorems": [
    "C105_defaults"
   ],
   "note": "C105_defaults, with the interpolators of scipy."
  },
  {
   "property": "C106",
   "status": "proved",
   "theorems": [
    "C106_no_exception",
    "C106_returns"
   ],
   "note": "C106_no_exception: only lack of fuel of the model is left, not a Python exception; C106_returns: with max_imf = k >= 2. Examples show that distinct time stamps, a known spline kind and nbsym >= 1 are needed."
  },
  {
   "property": "C107",
   "status": "proved",
   "theorems": [
    "C107_negation",
    "C107_offset",
    "C107_scaling",
    "C107_eemd_returns",
    "C107_matlab_returns"
   ],
   "note": "C107_negation, C107_offset, C107_scaling, C107_eemd_returns, C107_matlab_returns: C14, C74, C75, C91 and C106 for the modelled scipy."
  },
  {
   "property": "C108",
   "status": "proved",
   "theorems": [
    "C108_wave",
    "C108_default",
    "C108_zigzag"
   ],
   "note": "C108_wave: for all interpolators that keep constants; C108_default: scipy and EMD(); C108_zigzag: all zigzags of at least 5 samples."
  },
  {
   "property": "C109",
   "status": "partial",
   "theorems": [
    "C109_polynomial",
    "C109_misses",
    "C109_touch_partial",
    "C109_component",
    "C109_counterexample"
   ],
   "note": "C109_polynomial: the envelopes are bicubic polynomials; C109_misses: five tops of alternating height in a row are never all touched (C109_counterexample: a concrete image over the reals); C109_touch_partial: the claim when the extrema lie on a bicubic surface; C109_component: with one sifting the first component is the image minus a bicubic polynomial. Assumes what SmoothBivariateSpline and FITPACK document (LeastSquares)."
  },
  {
   "property": "C11",
   "status": "proved",
   "theorems": [
    "C11_few_extrema"
   ],
   "note": "Law-free up to x - 0 = x."
  },
  {
   "property": "C110",
   "status": "partial",
   "theorems": [
    "C110_returns_partial",
    "C110_first_partial",
    "C110_counterexample"
   ],
   "note": "C110_returns_partial: interpolators that accept all points; C110_first_partial: one sifting per component and interpolators that need sixteen points; C110_counterexample: from the second sifting on the extrema are counted before the old mean is subtracted again, so too few points may be left."
  },
  {
   "property": "C111",
   "status": "partial",
   "theorems": [
    "C111_float64",
    "C111_kept_partial",
    "C111_counterexample",
    "C111_eemd_spoiled"
   ],
   "note": "C111_kept_partial: when EMD returns, a missing sample is missing in every row and in the residue (only law: NaN - x = NaN); C111_counterexample: three maxima and no minimum next to gaps end in an IndexError; C111_eemd_spoiled: one missing sample leaves no sample at all in what EEMD returns."
  },
  {
   "property": "C112",
   "status": "partial",
   "theorems": [
    "C112_working_type",
    "C112_same_result_partial",
    "C112_refused",
    "C112_counterexample",
    "C112_other"
   ],
   "note": "C112_working_type: one floating type for signal and time, float64 for integer samples; C112_same_result_partial: the components are those of the numbers as long as the type can number the samples (n <= 2^p + 1); C112_refused: beyond that floating samples end in an AssertionError, exactly; C112_counterexample: 2050 samples in half precision; C112_other: bool and the like are refused. Arithmetic of the loop is exact."
  },
  {
   "property": "C113",
   "status": "partial",
   "theorems": [
    "C113_half_integers",
    "C113_adds_up_partial",
    "C113_counterexample",
    "C113_unsigned"
   ],
   "note": "C113_adds_up_partial: components of integers add up; C113_half_integers: but the envelopes are cut to integers, so that every value of every component is a multiple of one half; C113_counterexample: other components than for floats; C113_unsigned: mirrored uint8 stamps wrap around and the consistency check raises."
  },
  {
   "property": "C114",
   "status": "proved",
   "theorems": [
    "C114_arguments_untouched",
    "C114_values",
    "C114_result_is_own"
   ],
   "note": "C114_arguments_untouched, C114_values and C114_result_is_own, on a memory of arrays with addresses; simulation of the loop on values by the loop on arrays."
  },
  {
   "property": "C115",
   "status": "partial",
   "theorems": [
    "C115_copies_partial",
    "C115_counterexample"
   ],
   "note": "C115_copies_partial: get_imfs_and_trend hands out new arrays if the residue vanishes; C115_counterexample: otherwise, and for get_imfs_and_residue always, the stored arrays are handed out, and zeroing the residue obtained makes get_imfs_and_trend raise IndexError."
  },
  {
   "property": "C116",
   "status": "proved",
   "theorems": [
    "C116_values"
   ],
   "note": "C116_values; sequential mode only."
  },
  {
   "property": "C117",
   "status": "partial",
   "theorems": [
    "C117_arguments_free_partial",
    "C117_counterexample"
   ],
   "note": "C117_arguments_free_partial: arrays that existed before the call are free; C117_counterexample: the returned array is the stored one."
  },
  {
   "property": "C118",
   "status": "proved",
   "theorems": [
    "C118_values"
   ],
   "note": "C118_values; sequential mode only."
  },
  {
   "property": "C119",
   "status": "partial",
   "theorems": [
    "C119_arguments_free_partial",
    "C119_counterexample"
   ],
   "note": "C119_arguments_free_partial: arrays that existed before the call are free; C119_counterexample: the returned array is the stored one."
  },
  {
   "property": "C12",
   "status": "proved",
   "theorems": [
    "C12_simple_ignores_time",
    "C12_wrong_length"
   ],
   "note": "Law-free: holds for any scalar operations, in particular IEEE floats."
  },
  {
   "property": "C120",
   "status": "proved",
   "theorems": [
    "C120_repeatable",
    "C120_repeatable_eemd"
   ],
   "note": "C120_repeatable (CEEMDAN) and C120_repeatable_eemd; sequential mode."
  },
  {
   "property": "C121",
   "status": "proved",
   "theorems": [
    "C121_options",
    "C121_ignored"
   ],
   "note": "C121_options (success and result), C121_ignored (also exceptions). The attribute DTYPE is not modelled: emd assigns it before reading it."
  },
  {
   "property": "C122",
   "status": "partial",
   "theorems": [
    "C122_eemd",
    "C122_ceemdan_partial",
    "C122_counterexample"
   ],
   "note": "C122_eemd in full; C122_ceemdan_partial without the names range_thr, total_power_thr; C122_counterexample: CEEMDAN gives these two to the inner EMD as well."
  },
  {
   "property": "C123",
   "status": "partial",
   "theorems": [
    "C123_ceemdan",
    "C123_eemd_ignored",
    "C123_eemd_counterexample"
   ],
   "note": "C123_ceemdan in full; C123_eemd_ignored, C123_eemd_counterexample: EEMD ignores the seed."
  },
  {
   "property": "C124",
   "status": "partial",
   "theorems": [
    "C124_ceemdan_partial",
    "C124_ceemdan_counterexample",
    "C124_eemd_counterexample"
   ],
   "note": "C124_ceemdan_partial: two more than the limit; C124_ceemdan_counterexample; C124_eemd_counterexample: EEMD ignores the limit."
  },
  {
   "property": "C125",
   "status": "partial",
   "theorems": [
    "C125_partial",
    "C125_own",
    "C125_default",
    "C125_recipe",
    "C125_counterexample"
   ],
   "note": "C125_partial: objects whose own dictionary is not assigned to are unaffected; C125_own: an object made with a dictionary has its settings; C125_recipe: a copy of the defaults with one entry changed; C125_default; C125_counterexample: the documented recipe changes the default of all objects."
  },
  {
   "property": "C126",
   "status": "partial",
   "theorems": [
    "C126_extrema_partial",
    "C126_zero_crossings_partial",
    "C126_steps",
    "C126_whole_numbers",
    "C126_counterexample",
    "C126_emd_raises"
   ],
   "note": "C126_extrema_partial, C126_zero_crossings_partial: when products of consecutive steps (samples) do not underflow; C126_steps, C126_whole_numbers: sufficient for that; C126_counterexample, C126_emd_raises: an underflow loses all minima and emd raises IndexError."
  },
  {
   "property": "C127",
   "status": "proved",
   "theorems": [
    "C127_timeline",
    "C127_knots",
    "C127_too_long"
   ],
   "note": "C127_timeline, C127_knots for every binary format; C127_too_long: with 2**(f+1)+2 samples or more (2050 in half precision) emd raises AssertionError."
  },
  {
   "property": "C128",
   "status": "partial",
   "theorems": [
    "C128_kind_partial",
    "C128_lost",
    "C128_lost_float32",
    "C128_turned",
    "C128_wrong"
   ],
   "note": "C128_kind_partial: while 3(k+1)**3 <= 2**(f+1) a reported vertex is of the right kind; C128_lost, C128_lost_float32, C128_turned, C128_wrong: beyond that the determinant is 0 (no vertex ever), or has the wrong sign (a maximum is reported as minimum), and values are wrong before."
  },
  {
   "property": "C129",
   "status": "partial",
   "theorems": [
    "C129_default",
    "C129_separate_trends",
    "C129_eemd_partial",
    "C129_counterexample",
    "C129_ceemdan"
   ],
   "note": "C129_default: the general model with an EMD object is the model of EEMD; C129_eemd_partial: JitEMD in EEMD without separate_trends, simple detection, no or equidistant time; C129_separate_trends, C129_counterexample: with separate_trends eemd raises ValueError; C129_ceemdan: CEEMDAN always raises TypeError."
  },
  {
   "property": "C13",
   "status": "proved",
   "theorems": [
    "C13_affine_time"
   ],
   "note": "Exact arithmetic (any linearly ordered field with floors)."
  },
  {
   "property": "C130",
   "status": "partial",
   "theorems": [
    "C130_unit",
    "C130_equidistant_partial",
    "C130_no_time",
    "C130_counterexample"
   ],
   "note": "C130_unit: unit and origin of time do not matter; C130_equidistant_partial: same rows as EMD on equidistant time; C130_counterexample: other time arrays give other rows; C130_no_time: T=None is refused."
  },
  {
   "property": "C131",
   "status": "partial",
   "theorems": [
    "C131_partial",
    "C131_complete_partial",
    "C131_counterexample",
    "C131_default_counterexample"
   ],
   "note": "C131_partial: with a fixed number of siftings EMD_matlab's rows start with the IMFs of EMD, unless a proto-IMF is flat at both ends; C131_complete_partial: the same rows if EMD went on until a trend was left; C131_counterexample: flat ends; C131_default_counterexample: the default stopping rules differ."
  },
  {
   "property": "C132",
   "status": "partial",
   "theorems": [
    "C132_trend_partial",
    "C132_spread_partial",
    "C132_counterexample"
   ],
   "note": "C132_trend_partial: with separate_trends the offset goes into the last row only and units carry over (simple detection, stopping rules that count siftings, affine interpolators, no trial residue within the np.allclose tolerance); C132_spread_partial: without separate_trends row k receives the offset weighted by the share of trials that end at row k; C132_counterexample: so the claim is false for the default separate_trends=False."
  },
  {
   "property": "C133",
   "status": "partial",
   "theorems": [
    "C133_emd",
    "C133_ceemdan",
    "C133_eemd_partial",
    "C133_counterexample"
   ],
   "note": "C133_emd (up to 1e-8), C133_ceemdan (exactly); C133_eemd_partial: for EEMD with uniform noise up to half the noise width, if all ensemble counts equal the number of trials; C133_counterexample: with noise of 1e-6 on a signal between 100 and 101 the last row is off by more than 50, because the trials have different numbers of rows."
  },
  {
   "property": "C134",
   "status": "partial",
   "theorems": [
    "C134_fixe_partial",
    "C134_fixe_h",
    "C134_bemd_partial",
    "C134_emd2d_partial",
    "C134_counterexample",
    "C134_matlab"
   ],
   "note": "C134_bemd_partial and C134_emd2d_partial: every component is what is left, sifted until the documented rule is met for the first time; C134_fixe_h: with FIXE_H = k at least k + 1 iterations, the last k of which pass the test; C134_matlab: at least k siftings, the last k with IMF-like results. C134_fixe_partial: with FIXE = k there are k + 1 iterations in BEMD and EMD2D; C134_counterexample: k is wrong for EMD2D (C62_counterexample for BEMD). FIXE of EMD_matlab is C68."
  },
  {
   "property": "C135",
   "status": "partial",
   "theorems": [
    "C135_scale",
    "C135_partial",
    "C135_refused",
    "C135_counterexample"
   ],
   "note": "C135_partial: the results agree for unsigned types and for signed samples of w bits that span less than 2^(w-1); C135_scale: beyond, the noise is scaled by noise_width * (2^w - range); C135_refused: samples that span exactly 2^(w-1) always raise ValueError with normal noise; C135_counterexample: int8 samples and the same floats give different components."
  },
  {
   "property": "C136",
   "status": "partial",
   "theorems": [
    "C136_partial",
    "C136_adds_up",
    "C136_brightest"
   ],
   "note": "C136_partial: the results agree for unsigned types and for signed pixels of w bits that span less than 2^(w-1). C136_adds_up: what the components add up to in general; C136_brightest: for every wider image they miss 2^w at the brightest pixels."
  },
  {
   "property": "C137",
   "status": "proved",
   "theorems": [
    "C137_jit",
    "C137_matlab",
    "C137_bemd",
    "C137_emd2d",
    "C137_unit"
   ],
   "note": "C137_jit, C137_matlab, C137_bemd, C137_emd2d: explicit bounds in terms of the unit roundoff, assuming only that the residue (for EMD2D also the result) is finite. C137_unit discharges the assumption of C137_matlab on 1.0 for binary64, binary32 and binary16."
  },
  {
   "property": "C138",
   "status": "proved",
   "theorems": [
    "C138_jit_untouched",
    "C138_jit_values",
    "C138_jit_accessor",
    "C138_matlab_untouched",
    "C138_matlab_values",
    "C138_matlab_own"
   ],
   "note": "C138_jit_untouched, C138_jit_values: simulation of the program with memory by the model on values; C138_jit_accessor: the same for get_imfs_and_trend; C138_matlab_untouched, C138_matlab_values, C138_matlab_own likewise for EMD_matlab."
  },
  {
   "property": "C139",
   "status": "partial",
   "theorems": [
    "C139_arguments_partial",
    "C139_shared",
    "C139_copies_partial",
    "C139_counterexample"
   ],
   "note": "C139_arguments_partial: the arguments are the caller's; C139_copies_partial: so is what get_imfs_and_trend hands out if the residue vanishes. C139_shared: the array emd returns never is, for every run; C139_counterexample: neither is what get_imfs_and_trend hands out otherwise."
  },
  {
   "property": "C14",
   "status": "proved",
   "theorems": [
    "C14_floating_point",
    "C14_negation"
   ],
   "note": "C14_negation in exact arithmetic, C14_floating_point bit for bit in every IEEE 754 format (one zero, one NaN). Given interpolators that commute with negation of the ordinates (hypothesis OddAll)."
  },
  {
   "property": "C140",
   "status": "partial",
   "theorems": [
    "C140_unit",
    "C140_offset_partial",
    "C140_offset_counterexample",
    "C140_limit_partial",
    "C140_limit_counterexample",
    "C140_time",
    "C140_equidistant"
   ],
   "note": "Exact arithmetic (any linearly ordered field with floors), floating samples (no conversion to integers). C140_unit: without a limit, every stopping rule; C140_limit_partial: with a limit, up to the remainder, which is reported if it exceeds 1e-10 (C140_limit_counterexample); C140_offset_partial: FIXE and FIXE_H modes, false for the default rule (C140_offset_counterexample); C140_time and C140_equidistant: time."
  },
  {
   "property": "C141",
   "status": "proved",
   "theorems": [
    "C141_recursion"
   ],
   "note": "Exact arithmetic (any linearly ordered field with floors), floating samples. At least one sifted component has to remain, and the limit is reduced by j."
  },
  {
   "property": "C142",
   "status": "partial",
   "theorems": [
    "C142_truncates_partial",
    "C142_counterexample",
    "C142_trend_counterexample"
   ],
   "note": "Law-free (so also for floating point), both calls return. C142_truncates_partial: the first k rows, less one if the number of siftings is not fixed by FIXE, less one if trends are separated; both exceptions are necessary (C142_counterexample with default settings, C142_trend_counterexample)."
  },
  {
   "property": "C143",
   "status": "proved",
   "theorems": [
    "C143_negation",
    "C143_returns",
    "C143_no_exception",
    "C143_recursion"
   ],
   "note": "Exact arithmetic (any linearly ordered field with floors). From C14, C22 and C88 by C130. C143_recursion needs two remaining rows and MAX_ITERATION of 2 or more."
  },
  {
   "property": "C144",
   "status": "partial",
   "theorems": [
    "C144_negation_partial",
    "C144_counterexample"
   ],
   "note": "Exact arithmetic. C144_negation_partial: if no sequence searched for extrema during the run is flat at both ends. Otherwise the detector reports a flat start as a minimum but never as a maximum (C144_counterexample)."
  },
  {
   "property": "C145",
   "status": "proved",
   "theorems": [
    "C145_peaks",
    "C145_count",
    "C145_half",
    "C145_unit",
    "C145_reversed",
    "C145_period",
    "C145_rescaling"
   ],
   "note": "Exact arithmetic. find_peaks is modelled after SciPy's source, which is not part of /repo."
  },
  {
   "property": "C146",
   "status": "partial",
   "theorems": [
    "C146_apriori",
    "C146_aposteriori",
    "C146_reversed",
    "C146_counterexample"
   ],
   "note": "C146_apriori and C146_aposteriori use no law of arithmetic; C146_reversed: exact arithmetic. Missing: the sign. Tops are counted and bottoms are not, so -IMFs can get other flags (C146_counterexample)."
  },
  {
   "property": "C147",
   "status": "partial",
   "theorems": [
    "C147_reconstruction",
    "C147_reported",
    "C147_maxima_partial",
    "C147_minima_partial",
    "C147_low_contrast",
    "C147_counterexample"
   ],
   "note": "Exact arithmetic; reconstruction is modelled by its definition (not part of /repo). C147_reported gives the exact criterion for any image: no path over pixels at least as high leads up by one unit or more. Missing: images with finer gradations than one unit, where pixels are reported that are no extrema; below a contrast of one unit all pixels are maxima and minima (C147_low_contrast, C147_counterexample)."
  },
  {
   "property": "C148",
   "status": "proved",
   "theorems": [
    "C148_negation"
   ],
   "note": "Exact arithmetic; any reconstruction, any interpolator that is odd in the values. Failures may be different exceptions (the envelopes are computed in the other order)."
  },
  {
   "property": "C149",
   "status": "partial",
   "theorems": [
    "C149_envelopes",
    "C149_forever",
    "C149_zeros",
    "C149_returns_partial"
   ],
   "note": "Exact arithmetic. C149_returns_partial: images with fewer than two maxima or minima. Missing: all others, and the claim is false for them: a symmetric image of contrast below one unit (a constant one, for instance) that is not zero has components that are all zero, for ever (C149_forever; with max_imf see C149_zeros)."
  },
  {
   "property": "C15",
   "status": "partial",
   "theorems": [
    "C15_characterised",
    "C15_exact_partial",
    "C15_counterexample"
   ],
   "note": "Exact arithmetic (any linearly ordered field with floors). The claim fails for plateaus that start at index 1 and for flat starts (C15_counterexample); C15_characterised gives the exact set of reported indices, C15_exact_partial the claim under the stated side condition."
  },
  {
   "property": "C150",
   "status": "proved",
   "theorems": [
    "C150_negation",
    "C150_floating_point",
    "C150_same_noise"
   ],
   "note": "Exact and IEEE 754 arithmetic; the interpolators are odd in the values and the detection is 'simple'. C150_same_noise: with the same noise the claim is false."
  },
  {
   "property": "C151",
   "status": "proved",
   "theorems": [
    "C151_negation",
    "C151_floating_point"
   ],
   "note": "Exact arithmetic for any std that does not see the sign; IEEE 754 arithmetic for np.std with sums from left to right and any square root."
  },
  {
   "property": "C152",
   "status": "proved",
   "theorems": [
    "C152_eemd_simple",
    "C152_eemd_affine",
    "C152_ceemdan_simple",
    "C152_ceemdan_affine",
    "C152_uneven"
   ],
   "note": "Simple detection: any arithmetic; for EEMD signals that are not empty (the exceptions differ), for CEEMDAN generators that draw as many numbers as asked. Affine time: exact arithmetic."
  },
  {
   "property": "C153",
   "status": "partial",
   "theorems": [
    "C153_exact_partial",
    "C153_two_trials",
    "C153_bound",
    "C153_three_trials"
   ],
   "note": "C153_exact_partial: if the sums of up to trials copies of each sample need no rounding; C153_two_trials: one or two trials, always (short of overflow); C153_bound: any number of trials up to a relative error of (1+u)^(trials+1)-1. Missing: exact equality for three and more trials, for which the claim is false: the mean of three equal float64 numbers may be another number (C153_three_trials)."
  },
  {
   "property": "C154",
   "status": "partial",
   "theorems": [
    "C154_transpose_partial",
    "C154_half_turn_partial",
    "C154_mirror_counterexample"
   ],
   "note": "Transposition and half a turn proved for square images (others fail, C64). Missing: mirrored images, for which it is false: positions are columns and rows but the values are taken at rows and columns, see C154_mirror_counterexample. The interpolator is assumed to prefer no direction."
  },
  {
   "property": "C155",
   "status": "partial",
   "theorems": [
    "C155_passes",
    "C155_isotropic",
    "C155_odd",
    "C155_few",
    "C155_touches",
    "C155_touches_partial",
    "C155_directions",
    "C155_negation"
   ],
   "note": "C155_passes, C155_isotropic, C155_odd: the interpolator; C155_few: two or three points never give a singular system; C155_directions, C155_negation: C154 and C148 without assumptions on the interpolator; C155_touches_partial: envelopes of symmetric images. Missing: other images, for which touching is false (C155_touches: the envelope takes the value at the mirrored position, C63_counterexample), and mirrored ones (C154); for more than three points LinAlgError is not excluded."
  },
  {
   "property": "C156",
   "status": "proved",
   "theorems": [
    "C156_rows",
    "C156_max_imf",
    "C156_terminates"
   ],
   "note": "Law-free: holds for any scalar operations, in particular IEEE floats. C156_rows: number of rows; C156_max_imf: bound and lengths; C156_terminates."
  },
  {
   "property": "C157",
   "status": "proved",
   "theorems": [
    "C157_emd2d",
    "C157_bemd",
    "C157_repeated"
   ],
   "note": "Law-free: holds for any scalar operations, in particular IEEE floats. C157_emd2d, C157_bemd: simulation of the program with memory by the model on values (Clean); C157_repeated: a second call after the caller wrote into the first result."
  },
  {
   "property": "C158",
   "status": "proved",
   "theorems": [
    "C158_no_exception",
    "C158_returns",
    "C158_half_precision"
   ],
   "note": "IEEE formats. Hypotheses on the run: every sequence searched (Searched, a separate inductive definition) is finite and StepsResolved. C158_no_exception; C158_returns with a limit on the number of components; C158_half_precision: why cubic splines need room (Roomy). The 3x3 system is solved by Cramer's rule in the model, LU in numpy."
  },
  {
   "property": "C159",
   "status": "partial",
   "theorems": [
    "C159_wave",
    "C159_reversal_partial",
    "C159_scaling_partial",
    "C159_offset_partial",
    "C159_reversal_counterexample"
   ],
   "note": "Through C130 (JitEMD returns what EMD does on equally spaced times). C159_wave in full; C159_reversal_partial assumes that no sequence searched has equal neighbours (counterexample without: C159_reversal_counterexample); C159_scaling_partial and C159_offset_partial need a fixed number of siftings (FIXE or FIXE_H); with the default stopping rule they fail as for EMD (C75_counterexample, C74_counterexample)."
  },
  {
   "property": "C16",
   "status": "proved",
   "theorems": [
    "C16_alternate"
   ],
   "note": "Exact arithmetic (any linearly ordered field with floors)."
  },
  {
   "property": "C160",
   "status": "proved",
   "theorems": [
    "C160_double",
    "C160_components",
    "C160_end",
    "C160_adds_up",
    "C160_conversion",
    "C160_exact",
    "C160_not_narrow"
   ],
   "note": "Model/Mixed.lean: EMD.emd with a type for the sifting and a type for the container; envelopes are any function (scipy computes them in double precision). C160_double: with one type this is EMD.emd. C160_components: structure of the result, law-free. C160_end: the end is tested on the wide rest. C160_adds_up: error bound with the rounding unit of the wide type. Ieee.C160_conversion, Ieee.C160_exact: conversions lose nothing and sums are exact under the stated condition. C160_not_narrow: the residue of a half precision signal is not a half precision array."
  },
  {
   "property": "C161",
   "status": "partial",
   "theorems": [
    "C161_reversal_partial",
    "C161_same_noise",
    "C161_counterexample"
   ],
   "note": "C161_reversal_partial assumes that no sequence searched in a trial has equal neighbours; without it the claim is false (C161_counterexample). C161_same_noise: with the same noise the rows are not the reversed ones."
  },
  {
   "property": "C162",
   "status": "partial",
   "theorems": [
    "C162_negation_partial",
    "C162_counterexample"
   ],
   "note": "C162_negation_partial assumes a fixed number of iterations or that the values met while sifting stay within 400 times the range of the image, and gives the negatives if the numbers of rows agree. C162_counterexample: the numbers of rows can differ."
  },
  {
   "property": "C163",
   "status": "proved",
   "theorems": [
    "C163_attributes",
    "C163_used",
    "C163_late_limit",
    "C163_late_fixe"
   ],
   "note": "The exact decomposition stands for the code; the values given are None, Booleans, integers, floats, texts or other objects. C163_late_fixe is about the first sifting."
  },
  {
   "property": "C164",
   "status": "partial",
   "theorems": [
    "C164_reversal_partial",
    "C164_same_noise",
    "C164_counterexample"
   ],
   "note": "Extrema are found by comparison and no proto-mode may have a plateau (C164_counterexample shows that this is needed). Exact arithmetic; the interpolators must themselves have no preferred direction."
  },
  {
   "property": "C165",
   "status": "partial",
   "theorems": [
    "C165_reversal_partial",
    "C165_counterexample"
   ],
   "note": "Samples of a floating type (convert is the identity), time stamps 0, 1, 2, ...; no sequence searched for extrema may have a plateau (C165_counterexample)."
  },
  {
   "property": "C166",
   "status": "proved",
   "theorems": [
    "C166_wave",
    "C166_every_wave",
    "C166_zigzag",
    "C166_small_level"
   ],
   "note": "Exact arithmetic, samples of a floating type (convert is the identity), time stamps 0, 1, 2, ..., reduceScale = 1. C166_small_level shows that the default rule can leave the level in the wave; EMD removes it (C108)."
  },
  {
   "property": "C167",
   "status": "partial",
   "theorems": [
    "C167_pattern_partial",
    "C167_limit",
    "C167_forever",
    "C167_chessboard"
   ],
   "note": "Exact arithmetic. Proved for max_imf=1 (C167_pattern_partial). Missing: larger limits and no limit, where the claim is false: max_imf=k inserts k - 1 black images (C167_limit), and without max_imf the call never returns (C167_forever; C167_chessboard for every chessboard of grey values), unless the image happens to lie between -1/2 and 1/2."
  },
  {
   "property": "C168",
   "status": "proved",
   "theorems": [
    "C168_image",
    "C168_ramp",
    "C168_signal",
    "C168_trend_again"
   ],
   "note": "Exact arithmetic: EMD2D scales the image and back, which floats round. The time stamps of EMD_matlab may be any list of the right length."
  },
  {
   "property": "C169",
   "status": "proved",
   "theorems": [
    "C169_emd",
    "C169_jit"
   ],
   "note": "Exact arithmetic (any linearly ordered field with floors). Strengthens C20 from monotone signals to signals with one turn."
  },
  {
   "property": "C17",
   "status": "proved",
   "theorems": [
    "C17_zero_crossings"
   ],
   "note": "Exact arithmetic (any linearly ordered field with floors)."
  },
  {
   "property": "C18",
   "status": "proved",
   "theorems": [
    "C18_affine",
    "C18_neg"
   ],
   "note": "Exact arithmetic (any linearly ordered field with floors)."
  },
  {
   "property": "C19",
   "status": "partial",
   "theorems": [
    "C19_characterised",
    "C19_exact_partial",
    "C19_counterexample"
   ],
   "note": "Exact arithmetic (any linearly ordered field with floors). Proved for signals without equal consecutive samples (C19_exact_partial); C19_characterised says what is reported for all others; the claim fails for shoulders (C19_counterexample). Triples on a line whose replacement coefficient 1e-14 puts a vertex into the window are excluded (Regular)."
  },
  {
   "property": "C20",
   "status": "partial",
   "theorems": [
    "C20_monotone_simple",
    "C20_monotone_emd",
    "C20_counterexample",
    "C20_strict_parabolic_partial",
    "C20_rising_emd_partial"
   ],
   "note": "Exact arithmetic (any linearly ordered field with floors). Proved for the simple detector, and for the parabolic detector on strictly monotone signals; fails for the parabolic detector on staircases (C20_counterexample)."
  },
  {
   "property": "C21",
   "status": "proved",
   "theorems": [
    "C21_knots"
   ],
   "note": "Exact arithmetic (any linearly ordered field with floors)."
  },
  {
   "property": "C22",
   "status": "proved",
   "theorems": [
    "C22_no_exception",
    "C22_returns",
    "C22_nbsym_zero"
   ],
   "note": "Exact arithmetic (any linearly ordered field with floors). Given interpolators that accept three or more strictly increasing knots (hypothesis AcceptsAll)."
  },
  {
   "property": "C23",
   "status": "proved",
   "theorems": [
    "C23_knots",
    "C23_detected",
    "C23_envelopes",
    "C23_staircase"
   ],
   "note": "Exact arithmetic (any linearly ordered field with floors). C23_knots for all alternating extrema, C23_detected and C23_envelopes for what the detector reports on signals without equal consecutive samples."
  },
  {
   "property": "C24",
   "status": "proved",
   "theorems": [
    "C24_natural_spline",
    "C24_reproduces_lines",
    "C24_linear"
   ],
   "note": "Exact arithmetic (any linearly ordered field with floors)."
  },
  {
   "property": "C25",
   "status": "proved",
   "theorems": [
    "C25_normalize_time",
    "C25_assertion_iff"
   ],
   "note": "Exact arithmetic (any linearly ordered field with floors)."
  },
  {
   "property": "C26",
   "status": "partial",
   "theorems": [
    "C26_integer_partial",
    "C26_default",
    "C26_float_partial",
    "C26_float_iff",
    "C26_counterexample",
    "C26_empty"
   ],
   "note": "Proved for all integer dtypes (C26_integer_partial, C26_default). The claim fails for floats: C26_counterexample (float16, 2051 samples); C26_float_iff gives the exact set of lengths for which float timelines are right."
  },
  {
   "property": "C27",
   "status": "proved",
   "theorems": [
    "C27_integer",
    "C27_float",
    "C27_other"
   ],
   "note": "Values are rationals; dtypes except longdouble."
  },
  {
   "property": "C28",
   "status": "proved",
   "theorems": [
    "C28_same_type",
    "C28_symmetric",
    "C28_values_kept",
    "C28_common_type_holds",
    "C28_lossy"
   ],
   "note": "NumPy's promotion table is part of the model; astype is a parameter that keeps representable values (CastKeeps)."
  },
  {
   "property": "C29",
   "status": "proved",
   "theorems": [
    "C29_end_condition",
    "C29_monotone",
    "C29_stops_exactly"
   ],
   "note": "Exact arithmetic (any linearly ordered field with floors)."
  },
  {
   "property": "C30",
   "status": "proved",
   "theorems": [
    "C30_check_imf",
    "C30_monotone"
   ],
   "note": "Exact arithmetic (any linearly ordered field with floors)."
  },
  {
   "property": "C31",
   "status": "proved",
   "theorems": [
    "C31_averages"
   ],
   "note": "Exact arithmetic (any linearly ordered field with floors). Given a generator that returns as many samples as asked for (Sized)."
  },
  {
   "property": "C32",
   "status": "proved",
   "theorems": [
    "C32_ensemble_count"
   ],
   "note": "Law-free: holds for any scalar operations, in particular IEEE floats."
  },
  {
   "property": "C33",
   "status": "proved",
   "theorems": [
    "C33_separate_trends"
   ],
   "note": "Exact arithmetic (any linearly ordered field with floors). For at least one trial."
  },
  {
   "property": "C34",
   "status": "proved",
   "theorems": [
    "C34_residue"
   ],
   "note": "Law-free: holds for any scalar operations, in particular IEEE floats. The residue is S - sum(E) sample by sample."
  },
  {
   "property": "C35",
   "status": "partial",
   "theorems": [
    "C35_fresh_noise_partial",
    "C35_parallel_repeats",
    "C35_counterexample"
   ],
   "note": "Law-free. Proved in sequential mode (C35_fresh_noise_partial). False in parallel mode: C35_parallel_repeats shows that every chunk repeats the noise of the first one and that the generator is not advanced; C35_counterexample is a concrete case."
  },
  {
   "property": "C36",
   "status": "proved",
   "theorems": [
    "C36_schedule_independent"
   ],
   "note": "Law-free: holds for any scalar operations, in particular IEEE floats. When chunks fail, both schedules raise, possibly the exceptions of different chunks."
  },
  {
   "property": "C37",
   "status": "proved",
   "theorems": [
    "C37_reproducible"
   ],
   "note": "Law-free: holds for any scalar operations, in particular IEEE floats."
  },
  {
   "property": "C38",
   "status": "proved",
   "theorems": [
    "C38_no_noise",
    "C38_separate_trends"
   ],
   "note": "Exact arithmetic (any linearly ordered field with floors). Exceptions included; sequential and parallel. C38_separate_trends: with separate_trends, where signals without any row raise IndexError."
  },
  {
   "property": "C39",
   "status": "proved",
   "theorems": [
    "C39_complete"
   ],
   "note": "Exact arithmetic (any linearly ordered field with floors). Given a generator that returns as many samples as asked for (Sized); np.std is an arbitrary function."
  },
  {
   "property": "C40",
   "status": "proved",
   "theorems": [
    "C40_max_imf"
   ],
   "note": "Law-free: holds for any scalar operations, in particular IEEE floats."
  },
  {
   "property": "C41",
   "status": "proved",
   "theorems": [
    "C41_parallel_eq_sequential"
   ],
   "note": "Exact arithmetic (any linearly ordered field with floors). When trials raise, both modes raise, possibly different exceptions."
  },
  {
   "property": "C42",
   "status": "proved",
   "theorems": [
    "C42_stages"
   ],
   "note": "Exact arithmetic (any linearly ordered field with floors). np.std is an arbitrary function."
  },
  {
   "property": "C43",
   "status": "proved",
   "theorems": [
    "C43_after_call",
    "C43_accessor",
    "C43_history_independent"
   ],
   "note": "Law-free: holds for any scalar operations, in particular IEEE floats."
  },
  {
   "property": "C44",
   "status": "proved",
   "theorems": [
    "C44_tdma",
    "C44_tdma_singular",
    "C44_short"
   ],
   "note": "Exact arithmetic (any linearly ordered field with floors). A vanishing divisor is reported as the pseudo-exception nonFinite."
  },
  {
   "property": "C45",
   "status": "proved",
   "theorems": [
    "C45_total",
    "C45_cubic",
    "C45_linear",
    "C45_short"
   ],
   "note": "Exact arithmetic (any linearly ordered field with floors). Holds for every length the function accepts (five samples or more)."
  },
  {
   "property": "C46",
   "status": "partial",
   "theorems": [
    "C46_derivative_partial",
    "C46_counterexample"
   ],
   "note": "Exact arithmetic (any linearly ordered field with floors). Proved for seven samples or more; for six samples, which the function accepts, the last pivot is always zero (C46_counterexample)."
  },
  {
   "property": "C47",
   "status": "proved",
   "theorems": [
    "C47_mirrored",
    "C47_central"
   ],
   "note": "Law-free: holds for any scalar operations, in particular IEEE floats."
  },
  {
   "property": "C48",
   "status": "proved",
   "theorems": [
    "C48_adds_up",
    "C48_adds_up"
   ],
   "note": "Exact arithmetic (any linearly ordered field with floors). SmoothBivariateSpline, Rbf and reconstruction are arbitrary functions."
  },
  {
   "property": "C49",
   "status": "proved",
   "theorems": [
    "C49_max_imf",
    "C49_max_imf"
   ],
   "note": "Law-free: holds for any scalar operations, in particular IEEE floats. SmoothBivariateSpline, Rbf and reconstruction are arbitrary functions that return."
  },
  {
   "property": "C50",
   "status": "proved",
   "theorems": [
    "C50_find_extrema"
   ],
   "note": "Exact arithmetic (any linearly ordered field with floors)."
  },
  {
   "property": "C51",
   "status": "partial",
   "theorems": [
    "C51_invalid",
    "C51_none",
    "C51_flags",
    "C51_total_partial",
    "C51_counterexample"
   ],
   "note": "Real numbers; the quantile function and the peak counter are arbitrary. Violated: a component that vanishes identically raises ValueError (C51_counterexample); otherwise as claimed. C51_invalid, C51_none and C51_flags are law-free."
  },
  {
   "property": "C52",
   "status": "proved",
   "theorems": [
    "C52_apriori_rule",
    "C52_monotone",
    "C52_above"
   ],
   "note": "Real numbers; assumes that the normal quantile is increasing with median 0; the peak counter is arbitrary."
  },
  {
   "property": "C53",
   "status": "partial",
   "theorems": [
    "C53_rescaling_partial",
    "C53_counterexample"
   ],
   "note": "Real numbers. Violated: the rescaling component is flagged exactly when it has more than four samples per peak (C53_counterexample, C53_rescaling_partial)."
  },
  {
   "property": "C54",
   "status": "proved",
   "theorems": [
    "C54_sum"
   ],
   "note": "Exact arithmetic (any linearly ordered field with floors)."
  },
  {
   "property": "C55",
   "status": "partial",
   "theorems": [
    "C55_partial",
    "C55_counterexample"
   ],
   "note": "Law-free: holds for any scalar operations, in particular IEEE floats. Proved for maxImf >= 2; maxImf = 1 is unlimited (C55_counterexample)."
  },
  {
   "property": "C56",
   "status": "proved",
   "theorems": [
    "C56_floating_point",
    "C56_same_extrema",
    "C56_same_samples"
   ],
   "note": "C56_same_extrema is law-free up to asymmetry of the order, C56_floating_point is its case of IEEE 754 numbers; C56_same_samples is in exact arithmetic."
  },
  {
   "property": "C57",
   "status": "partial",
   "theorems": [
    "C57_partial",
    "C57_counterexample"
   ],
   "note": "Exact arithmetic (any linearly ordered field with floors). The claim fails for signals that vanish up to 2e-8 (C57_counterexample: IndexError); proved for all others."
  },
  {
   "property": "C58",
   "status": "partial",
   "theorems": [
    "C58_length_partial",
    "C58_linear_partial",
    "C58_counterexample"
   ],
   "note": "Exact arithmetic (any linearly ordered field with floors). Assumed: the filter parameter, if used, lies in (-0.5, 0.5); rows have at least two samples, five with the filter, seven with the high-order derivative; C58_counterexample shows that shorter rows raise. Hilbert transform, angle and pi are arbitrary."
  },
  {
   "property": "C59",
   "status": "proved",
   "theorems": [
    "C59_check_imfs",
    "C59_new"
   ],
   "note": "Law-free: holds for any scalar operations, in particular IEEE floats."
  },
  {
   "property": "C60",
   "status": "proved",
   "theorems": [
    "C60_default_mode",
    "C60_accepted_by_check"
   ],
   "note": "C60_accepted_by_check is law-free, C60_default_mode spells the acceptance out in exact arithmetic."
  },
  {
   "property": "C61",
   "status": "partial",
   "theorems": [
    "C61_counterexample",
    "C61_iterations_partial"
   ],
   "note": "Exact arithmetic (any linearly ordered field with floors). Violated: from the second iteration on the mean of the iteration before is subtracted again (C61_counterexample); the first iteration is as claimed."
  },
  {
   "property": "C62",
   "status": "partial",
   "theorems": [
    "C62_iterations_partial",
    "C62_counterexample"
   ],
   "note": "Law-free: holds for any scalar operations, in particular IEEE floats. Violated: k + 1 iterations are made (C62_counterexample); the exact number is proved."
  },
  {
   "property": "C63",
   "status": "partial",
   "theorems": [
    "C63_values_partial",
    "C63_counterexample"
   ],
   "note": "Law-free: holds for any scalar operations, in particular IEEE floats. Violated: values are taken at transposed positions (C63_counterexample); symmetric images are handled as claimed."
  },
  {
   "property": "C64",
   "status": "partial",
   "theorems": [
    "C64_square_partial",
    "C64_rectangular",
    "C64_counterexample"
   ],
   "note": "Law-free: holds for any scalar operations, in particular IEEE floats. Violated: images that are not square raise (C64_rectangular, C64_counterexample); square images do not."
  },
  {
   "property": "C65",
   "status": "partial",
   "theorems": [
    "C65_rescaling_partial",
    "C65_counterexample"
   ],
   "note": "Real numbers. Violated for every component other than the rescaling one (C65_counterexample)."
  },
  {
   "property": "C66",
   "status": "proved",
   "theorems": [
    "C66_simple",
    "C66_parabol"
   ],
   "note": "Exact arithmetic (any linearly ordered field with floors). Given that both programs use the same interpolators (hypothesis SameScipy)."
  },
  {
   "property": "C67",
   "status": "partial",
   "theorems": [
    "C67_partial",
    "C67_counterexample"
   ],
   "note": "Exact arithmetic (any linearly ordered field with floors). Proved unless the signal both starts and ends flat; fails there (C67_counterexample)."
  },
  {
   "property": "C68",
   "status": "proved",
   "theorems": [
    "C68_fixe"
   ],
   "note": "Exact arithmetic (any linearly ordered field with floors)."
  },
  {
   "property": "C69",
   "status": "partial",
   "theorems": [
    "C69_with_residue",
    "C69_without_residue_partial",
    "C69_counterexample"
   ],
   "note": "Law-free: holds for any scalar operations, in particular IEEE floats. Violated: a single component without residue raises TypeError (C69_counterexample)."
  },
  {
   "property": "C70",
   "status": "proved",
   "theorems": [
    "C70_default_stop"
   ],
   "note": "Exact arithmetic (any linearly ordered field with floors). Rilling's criterion is stated for envelopes of equal length."
  },
  {
   "property": "C71",
   "status": "proved",
   "theorems": [
    "C71_trend"
   ],
   "note": "Exact arithmetic (any linearly ordered field with floors)."
  },
  {
   "property": "C72",
   "status": "partial",
   "theorems": [
    "C72_partial",
    "C72_counterexample"
   ],
   "note": "Exact arithmetic (any linearly ordered field with floors). Proved for components that met the stopping rule and for trends; fails for an appended residue (C72_counterexample)."
  },
  {
   "property": "C73",
   "status": "proved",
   "theorems": [
    "C73_constructor",
    "C73_unused_spline",
    "C73_spline",
    "C73_detection",
    "C73_noise_kind",
    "C73_noise_kind"
   ],
   "note": "Law-free for the constructor, the unused spline and the noise kinds; exact ordered-field arithmetic for C73_spline and C73_detection."
  },
  {
   "property": "C74",
   "status": "partial",
   "theorems": [
    "C74_offset_partial",
    "C74_counterexample"
   ],
   "note": "Exact arithmetic (any linearly ordered field with floors). Proved for simple detection, FIXE/FIXE_H modes and total_power_thr <= range_thr; fails for the default stopping rule (C74_counterexample)."
  },
  {
   "property": "C75",
   "status": "partial",
   "theorems": [
    "C75_scaling_partial",
    "C75_counterexample"
   ],
   "note": "Exact arithmetic (any linearly ordered field with floors). Proved for simple detection, FIXE/FIXE_H modes and thresholds in the same unit; fails for fixed thresholds (C75_counterexample)."
  },
  {
   "property": "C76",
   "status": "proved",
   "theorems": [
    "C76_units"
   ],
   "note": "Exact arithmetic (any linearly ordered field with floors). np.std enters through its homogeneity on the signal only."
  },
  {
   "property": "C77",
   "status": "proved",
   "theorems": [
    "C77_weighted_sum",
    "C77_plain_sum"
   ],
   "note": "Exact arithmetic (any linearly ordered field with floors)."
  },
  {
   "property": "C78",
   "status": "partial",
   "theorems": [
    "C78_accessor",
    "C78_statistics_partial",
    "C78_counterexample"
   ],
   "note": "Law-free: holds for any scalar operations, in particular IEEE floats. get_imfs_and_residue: every history. Statistics: fails in sequential mode after a failed call (C78_counterexample)."
  },
  {
   "property": "C79",
   "status": "proved",
   "theorems": [
    "C79_stop"
   ],
   "note": "Exact arithmetic (any linearly ordered field with floors)."
  },
  {
   "property": "C80",
   "status": "partial",
   "theorems": [
    "C80_units_partial",
    "C80_counterexample"
   ],
   "note": "Exact arithmetic (any linearly ordered field with floors). Components present in both runs and max_imf = 1 are proved; the number of components depends on the unit (C80_counterexample)."
  },
  {
   "property": "C81",
   "status": "proved",
   "theorems": [
    "C81_mirror_rule"
   ],
   "note": "Exact arithmetic (any linearly ordered field with floors)."
  },
  {
   "property": "C82",
   "status": "partial",
   "theorems": [
    "C82_reversal_partial",
    "C82_counterexample"
   ],
   "note": "Exact arithmetic (any linearly ordered field with floors). Proved when no proto-IMF has two equal neighbouring samples; C82_counterexample shows that the claim is false with plateaus. The interpolators are assumed not to prefer a direction of time."
  },
  {
   "property": "C83",
   "status": "partial",
   "theorems": [
    "C83_truncates_partial",
    "C83_fixe",
    "C83_counterexample"
   ],
   "note": "Law-free: holds for any scalar operations, in particular IEEE floats. Proved in full when FIXE is not 0; otherwise for MAX_ITERATION >= 2 up to the last IMF, which is left out when it has at most two extrema. C83_counterexample shows that with the default options max_imf=1 can return no IMF although the unlimited call returns one."
  },
  {
   "property": "C84",
   "status": "proved",
   "theorems": [
    "C84_ceemdan",
    "C84_bemd",
    "C84_emd2d",
    "C84_matlab"
   ],
   "note": "Law-free: holds for any scalar operations, in particular IEEE floats. For EMD2D the last image of the limited call carries the offset of the picture, so it is not compared."
  },
  {
   "property": "C85",
   "status": "proved",
   "theorems": [
    "C85_plot",
    "C85_refuses"
   ],
   "note": "Exact arithmetic (any linearly ordered field with floors). Under the conditions of C58 on the number of samples."
  },
  {
   "property": "C86",
   "status": "proved",
   "theorems": [
    "C86_filter_reverse",
    "C86_filter_alternating"
   ],
   "note": "Exact arithmetic (any linearly ordered field with floors)."
  },
  {
   "property": "C87",
   "status": "proved",
   "theorems": [
    "C87_linear",
    "C87_reverse",
    "C87_units"
   ],
   "note": "Exact arithmetic (any linearly ordered field with floors)."
  },
  {
   "property": "C88",
   "status": "proved",
   "theorems": [
    "C88_recursion"
   ],
   "note": "Exact arithmetic (any linearly ordered field with floors)."
  },
  {
   "property": "C89",
   "status": "proved",
   "theorems": [
    "C89_touch"
   ],
   "note": "Exact arithmetic (any linearly ordered field with floors). Assumes of SmoothBivariateSpline that it meets distinct given points within eps."
  },
  {
   "property": "C90",
   "status": "proved",
   "theorems": [
    "C90_left_right",
    "C90_up_down",
    "C90_transpose"
   ],
   "note": "Exact arithmetic (any linearly ordered field with floors). Assumes a surface interpolation that prefers no axis and no direction."
  },
  {
   "property": "C91",
   "status": "proved",
   "theorems": [
    "C91_noise_kind",
    "C91_no_exception",
    "C91_returns",
    "C91_zero_signal"
   ],
   "note": "Exact arithmetic (any linearly ordered field with floors). Interpolation as in C22; the exception with separate_trends does occur (C91_zero_signal)."
  },
  {
   "property": "C92",
   "status": "proved",
   "theorems": [
    "C92_std",
    "C92_std_trend"
   ],
   "note": "Exact arithmetic (any linearly ordered field with floors). Assumes of the square root that it is the nonnegative root of nonnegative numbers."
  },
  {
   "property": "C93",
   "status": "proved",
   "theorems": [
    "C93_uniform",
    "C93_uniform_plain"
   ],
   "note": "Exact arithmetic (any linearly ordered field with floors). Assumes of the generator that uniform(low, high) stays in the interval."
  },
  {
   "property": "C94",
   "status": "partial",
   "theorems": [
    "C94_stop",
    "C94_stop_partial",
    "C94_counterexample"
   ],
   "note": "Exact arithmetic (any linearly ordered field with floors). Proved for BEMD, and for EMD2D on images with values from 0 to 1; for other images EMD2D compares the scaled components with the unscaled image (C94_counterexample)."
  },
  {
   "property": "C95",
   "status": "proved",
   "theorems": [
    "C95_emd",
    "C95_eemd",
    "C95_ceemdan",
    "C95_float64",
    "C95_float32_float16"
   ],
   "note": "any arithmetic with the rounding guarantees of IEEE 754 (Spec/Float.lean); the residue is assumed finite"
  },
  {
   "property": "C96",
   "status": "proved",
   "theorems": [
    "C96_through",
    "C96_envelopes",
    "C96_touches"
   ],
   "note": "C96_through: every interpolator passes through its knots; C96_envelopes: for any interpolators with this property the envelopes have the value of the signal at the detected extrema; C96_touches: at strict local extrema, without reference to the detection."
  },
  {
   "property": "C97",
   "status": "proved",
   "theorems": [
    "C97_no_overshoot",
    "C97_counterexample",
    "C97_envelopes",
    "C97_step"
   ],
   "note": "C97_no_overshoot for the interpolators, C97_envelopes for the envelopes, C97_step for one sifting step; C97_counterexample shows that the other kinds overshoot."
  },
  {
   "property": "C98",
   "status": "proved",
   "theorems": [
    "C98_accepts",
    "C98_odd",
    "C98_affine",
    "C98_reversible",
    "C98_time",
    "C98_emd_returns"
   ],
   "note": "The contracts AcceptsAll, OddAll, AffineAll, ReversibleAll and TimeFree for the formulas of scipy; C98_emd_returns is C22 without an assumption on scipy."
  },
  {
   "property": "C99",
   "status": "proved",
   "theorems": [
    "C99_not_a_knot",
    "C99_polynomials",
    "C99_quadratic"
   ],
   "note": "C99_not_a_knot and C99_quadratic: existence, uniqueness and evaluation; C99_polynomials: cubic polynomials are reproduced."
  }
 ]
}