#!/usr/bin/env python3
"""Regenerate MANIFEST.json: theorem names are collected from lean/Verif/Props, status and notes are below."""
import glob, json, os, re

ROOT = os.path.dirname(os.path.dirname(os.path.abspath(__file__)))
LAWFREE = "Law-free: holds for any scalar operations, in particular IEEE floats."
EXACT = "Exact arithmetic (any linearly ordered field with floors)."
INFO = {
    "C01": ("proved", EXACT),
    "C02": ("proved", LAWFREE),
    "C03": ("proved", LAWFREE),
    "C04": ("partial", "The claim fails for signals that vanish (C04_counterexample: IndexError); proved for all other cases, and the failing case is characterised by C04_trend_error_iff."),
    "C05": ("proved", LAWFREE),
    "C06": ("proved", LAWFREE),
    "C07": ("proved", LAWFREE),
    "C08": ("proved", LAWFREE),
    "C09": ("proved", LAWFREE),
    "C10": ("proved", LAWFREE),
    "C11": ("proved", "Law-free up to x - 0 = x."),
    "C12": ("proved", LAWFREE),
    "C13": ("proved", EXACT),
    "C14": ("proved", "C14_negation in exact arithmetic, C14_floating_point bit for bit in every IEEE 754 format (one zero, one NaN). Given interpolators that commute with negation of the ordinates (hypothesis OddAll)."),
    "C15": ("partial", EXACT + " The claim fails for plateaus that start at index 1 and for flat starts (C15_counterexample); C15_characterised gives the exact set of reported indices, C15_exact_partial the claim under the stated side condition."),
    "C16": ("proved", EXACT),
    "C17": ("proved", EXACT),
    "C18": ("proved", EXACT),
    "C19": ("partial", EXACT + " Proved for signals without equal consecutive samples (C19_exact_partial); C19_characterised says what is "
            "reported for all others; the claim fails for shoulders (C19_counterexample). Triples on a line whose replacement "
            "coefficient 1e-14 puts a vertex into the window are excluded (Regular)."),
    "C20": ("partial", EXACT + " Proved for the simple detector, and for the parabolic detector on strictly monotone signals; fails for "
            "the parabolic detector on staircases (C20_counterexample)."),
    "C23": ("proved", EXACT + " C23_knots for all alternating extrema, C23_detected and C23_envelopes for what the detector reports on "
            "signals without equal consecutive samples."),
    "C21": ("proved", EXACT),
    "C22": ("proved", EXACT + " Given interpolators that accept three or more strictly increasing knots (hypothesis AcceptsAll)."),
    "C24": ("proved", EXACT),
    "C25": ("proved", EXACT),
    "C26": ("partial", "Proved for all integer dtypes (C26_integer_partial, C26_default). The claim fails for floats: C26_counterexample (float16, 2051 samples); C26_float_iff gives the exact set of lengths for which float timelines are right."),
    "C27": ("proved", "Values are rationals; dtypes except longdouble."),
    "C28": ("proved", "NumPy's promotion table is part of the model; astype is a parameter that keeps representable values (CastKeeps)."),
    "C29": ("proved", EXACT),
    "C30": ("proved", EXACT),
    "C31": ("proved", EXACT + " Given a generator that returns as many samples as asked for (Sized)."),
    "C32": ("proved", LAWFREE),
    "C33": ("proved", EXACT + " For at least one trial."),
    "C34": ("proved", LAWFREE + " The residue is S - sum(E) sample by sample."),
    "C35": ("partial", "Law-free. Proved in sequential mode (C35_fresh_noise_partial). False in parallel mode: C35_parallel_repeats shows that every chunk repeats the noise of the first one and that the generator is not advanced; C35_counterexample is a concrete case."),
    "C36": ("proved", LAWFREE + " When chunks fail, both schedules raise, possibly the exceptions of different chunks."),
    "C37": ("proved", LAWFREE),
    "C38": ("proved", EXACT + " Exceptions included; sequential and parallel. C38_separate_trends: with separate_trends, where signals without any row raise IndexError."),
    "C39": ("proved", EXACT + " Given a generator that returns as many samples as asked for (Sized); np.std is an arbitrary function."),
    "C40": ("proved", LAWFREE),
    "C41": ("proved", EXACT + " When trials raise, both modes raise, possibly different exceptions."),
    "C42": ("proved", EXACT + " np.std is an arbitrary function."),
    "C43": ("proved", LAWFREE),
    "C44": ("proved", EXACT + " A vanishing divisor is reported as the pseudo-exception nonFinite."),
    "C45": ("proved", EXACT + " Holds for every length the function accepts (five samples or more)."),
    "C46": ("partial", EXACT + " Proved for seven samples or more; for six samples, which the function accepts, the last pivot is "
            "always zero (C46_counterexample)."),
    "C47": ("proved", LAWFREE),
    "C48": ("proved", EXACT + " SmoothBivariateSpline, Rbf and reconstruction are arbitrary functions."),
    "C49": ("proved", LAWFREE + " SmoothBivariateSpline, Rbf and reconstruction are arbitrary functions that return."),
    "C50": ("proved", EXACT),
    "C61": ("partial", EXACT + " Violated: from the second iteration on the mean of the iteration before is subtracted again "
            "(C61_counterexample); the first iteration is as claimed."),
    "C62": ("partial", LAWFREE + " Violated: k + 1 iterations are made (C62_counterexample); the exact number is proved."),
    "C63": ("partial", LAWFREE + " Violated: values are taken at transposed positions (C63_counterexample); symmetric images are "
            "handled as claimed."),
    "C64": ("partial", LAWFREE + " Violated: images that are not square raise (C64_rectangular, C64_counterexample); square images "
            "do not."),
    "C51": ("partial", "Real numbers; the quantile function and the peak counter are arbitrary. Violated: a component that vanishes "
            "identically raises ValueError (C51_counterexample); otherwise as claimed. C51_invalid, C51_none and C51_flags are law-free."),
    "C52": ("proved", "Real numbers; assumes that the normal quantile is increasing with median 0; the peak counter is arbitrary."),
    "C53": ("partial", "Real numbers. Violated: the rescaling component is flagged exactly when it has more than four samples per "
            "peak (C53_counterexample, C53_rescaling_partial)."),
    "C65": ("partial", "Real numbers. Violated for every component other than the rescaling one (C65_counterexample)."),
    "C56": ("proved", "C56_same_extrema is law-free up to asymmetry of the order, C56_floating_point is its case of IEEE 754 numbers; C56_same_samples is in exact arithmetic."),
    "C57": ("partial", EXACT + " The claim fails for signals that vanish up to 2e-8 (C57_counterexample: IndexError); proved for all others."),
    "C66": ("proved", EXACT + " Given that both programs use the same interpolators (hypothesis SameScipy)."),
    "C58": ("partial", EXACT + " Assumed: the filter parameter, if used, lies in (-0.5, 0.5); rows have at least two samples, five "
            "with the filter, seven with the high-order derivative; C58_counterexample shows that shorter rows raise. Hilbert transform, angle and pi are arbitrary."),
    "C59": ("proved", LAWFREE),
    "C69": ("partial", LAWFREE + " Violated: a single component without residue raises TypeError (C69_counterexample)."),
    "C54": ("proved", EXACT),
    "C55": ("partial", LAWFREE + " Proved for maxImf >= 2; maxImf = 1 is unlimited (C55_counterexample)."),
    "C67": ("partial", EXACT + " Proved unless the signal both starts and ends flat; fails there (C67_counterexample)."),
    "C68": ("proved", EXACT),
    "C70": ("proved", EXACT + " Rilling's criterion is stated for envelopes of equal length."),
    "C71": ("proved", EXACT),
    "C72": ("partial", EXACT + " Proved for components that met the stopping rule and for trends; fails for an appended residue (C72_counterexample)."),
    "C73": ("proved", "Law-free for the constructor, the unused spline and the noise kinds; exact ordered-field arithmetic for C73_spline and C73_detection."),
    "C74": ("partial", EXACT + " Proved for simple detection, FIXE/FIXE_H modes and total_power_thr <= range_thr; fails for the default stopping rule (C74_counterexample)."),
    "C75": ("partial", EXACT + " Proved for simple detection, FIXE/FIXE_H modes and thresholds in the same unit; fails for fixed thresholds (C75_counterexample)."),
    "C76": ("proved", EXACT + " np.std enters through its homogeneity on the signal only."),
    "C77": ("proved", EXACT),
    "C78": ("partial", LAWFREE + " get_imfs_and_residue: every history. Statistics: fails in sequential mode after a failed call (C78_counterexample)."),
    "C79": ("proved", EXACT),
    "C80": ("partial", EXACT + " Components present in both runs and max_imf = 1 are proved; the number of components depends on the unit (C80_counterexample)."),
    "C81": ("proved", EXACT),
    "C82": ("partial", EXACT + " Proved when no proto-IMF has two equal neighbouring samples; C82_counterexample shows that the claim is false with plateaus. The interpolators are assumed not to prefer a direction of time."),
    "C83": ("partial", LAWFREE + " Proved in full when FIXE is not 0; otherwise for MAX_ITERATION >= 2 up to the last IMF, which is left out when it has at most two extrema. C83_counterexample shows that with the default options max_imf=1 can return no IMF although the unlimited call returns one."),
    "C84": ("proved", LAWFREE + " For EMD2D the last image of the limited call carries the offset of the picture, so it is not compared."),
    "C85": ("proved", EXACT + " Under the conditions of C58 on the number of samples."),
    "C86": ("proved", EXACT),
    "C87": ("proved", EXACT),
    "C88": ("proved", EXACT),
    "C89": ("proved", EXACT + " Assumes of SmoothBivariateSpline that it meets distinct given points within eps."),
    "C90": ("proved", EXACT + " Assumes a surface interpolation that prefers no axis and no direction."),
    "C91": ("proved", EXACT + " Interpolation as in C22; the exception with separate_trends does occur (C91_zero_signal)."),
    "C92": ("proved", EXACT + " Assumes of the square root that it is the nonnegative root of nonnegative numbers."),
    "C93": ("proved", EXACT + " Assumes of the generator that uniform(low, high) stays in the interval."),
    "C94": ("partial", EXACT + " Proved for BEMD, and for EMD2D on images with values from 0 to 1; for other images EMD2D compares the scaled components with the unscaled image (C94_counterexample)."),
    "C95": ("proved", "any arithmetic with the rounding guarantees of IEEE 754 (Spec/Float.lean); the residue is assumed finite"),
    "C96": ("proved", "C96_through: every interpolator passes through its knots; C96_envelopes: for any interpolators with this property the envelopes have the value of the signal at the detected extrema; C96_touches: at strict local extrema, without reference to the detection."),
    "C97": ("proved", "C97_no_overshoot for the interpolators, C97_envelopes for the envelopes, C97_step for one sifting step; C97_counterexample shows that the other kinds overshoot."),
    "C98": ("proved", "The contracts AcceptsAll, OddAll, AffineAll, ReversibleAll and TimeFree for the formulas of scipy; C98_emd_returns is C22 without an assumption on scipy."),
    "C99": ("proved", "C99_not_a_knot and C99_quadratic: existence, uniqueness and evaluation; C99_polynomials: cubic polynomials are reproduced."),
    "C100": ("proved", "C100_lines."),
    "C101": ("partial", "C101_fails: for four or more knots with y = x^2 the default is not the natural spline, so the documentation is wrong. C101_three_partial: three knots; C101_four_partial: four knots exactly for collinear data."),
    "C102": ("proved", "C102_returns; the condition on the noises is Spec.Usable, the one on np.std Spec.StdLike."),
    "C103": ("proved", "C103_silent for the sequential mode, C103_parallel for the parallel one."),
    "C104": ("partial", "C104_residue_partial: the residue is below a threshold or sifts to a signal with at most two extrema; C104_counterexample: it may have three extrema itself; C104_why is the law-free form."),
    "C105": ("proved", "C105_defaults, with the interpolators of scipy."),
    "C106": ("proved", "C106_no_exception: only lack of fuel of the model is left, not a Python exception; C106_returns: with max_imf = k >= 2. Examples show that distinct time stamps, a known spline kind and nbsym >= 1 are needed."),
    "C107": ("proved", "C107_negation, C107_offset, C107_scaling, C107_eemd_returns, C107_matlab_returns: C14, C74, C75, C91 and C106 for the modelled scipy."),
    "C108": ("proved", "C108_wave: for all interpolators that keep constants; C108_default: scipy and EMD(); C108_zigzag: all zigzags of at least 5 samples."),
    "C109": ("partial", "C109_polynomial: the envelopes are bicubic polynomials; C109_misses: five tops of alternating height in a row are never all touched (C109_counterexample: a concrete image over the reals); C109_touch_partial: the claim when the extrema lie on a bicubic surface; C109_component: with one sifting the first component is the image minus a bicubic polynomial. Assumes what SmoothBivariateSpline and FITPACK document (LeastSquares)."),
    "C110": ("partial", "C110_returns_partial: interpolators that accept all points; C110_first_partial: one sifting per component and interpolators that need sixteen points; C110_counterexample: from the second sifting on the extrema are counted before the old mean is subtracted again, so too few points may be left."),
    "C111": ("partial", "C111_kept_partial: when EMD returns, a missing sample is missing in every row and in the residue (only law: NaN - x = NaN); C111_counterexample: three maxima and no minimum next to gaps end in an IndexError; C111_eemd_spoiled: one missing sample leaves no sample at all in what EEMD returns."),
    "C112": ("partial", "C112_working_type: one floating type for signal and time, float64 for integer samples; C112_same_result_partial: the components are those of the numbers as long as the type can number the samples (n <= 2^p + 1); C112_refused: beyond that floating samples end in an AssertionError, exactly; C112_counterexample: 2050 samples in half precision; C112_other: bool and the like are refused. Arithmetic of the loop is exact."),
    "C113": ("partial", "C113_adds_up_partial: components of integers add up; C113_half_integers: but the envelopes are cut to integers, so that every value of every component is a multiple of one half; C113_counterexample: other components than for floats; C113_unsigned: mirrored uint8 stamps wrap around and the consistency check raises."),
    "C114": ("proved", "C114_arguments_untouched, C114_values and C114_result_is_own, on a memory of arrays with addresses; simulation of the loop on values by the loop on arrays."),
    "C115": ("partial", "C115_copies_partial: get_imfs_and_trend hands out new arrays if the residue vanishes; C115_counterexample: otherwise, and for get_imfs_and_residue always, the stored arrays are handed out, and zeroing the residue obtained makes get_imfs_and_trend raise IndexError."),
    "C116": ("proved", "C116_values; sequential mode only."),
    "C117": ("partial", "C117_arguments_free_partial: arrays that existed before the call are free; C117_counterexample: the returned array is the stored one."),
    "C118": ("proved", "C118_values; sequential mode only."),
    "C119": ("partial", "C119_arguments_free_partial: arrays that existed before the call are free; C119_counterexample: the returned array is the stored one."),
    "C120": ("proved", "C120_repeatable (CEEMDAN) and C120_repeatable_eemd; sequential mode."),
    "C121": ("proved", "C121_options (success and result), C121_ignored (also exceptions). The attribute DTYPE is not modelled: emd assigns it before reading it."),
    "C122": ("partial", "C122_eemd in full; C122_ceemdan_partial without the names range_thr, total_power_thr; C122_counterexample: CEEMDAN gives these two to the inner EMD as well."),
    "C123": ("partial", "C123_ceemdan in full; C123_eemd_ignored, C123_eemd_counterexample: EEMD ignores the seed."),
    "C124": ("partial", "C124_ceemdan_partial: two more than the limit; C124_ceemdan_counterexample; C124_eemd_counterexample: EEMD ignores the limit."),
    "C125": ("partial", "C125_partial: objects whose own dictionary is not assigned to are unaffected; C125_own: an object made with a dictionary has its settings; C125_recipe: a copy of the defaults with one entry changed; C125_default; C125_counterexample: the documented recipe changes the default of all objects."),
    "C126": ("partial", "C126_extrema_partial, C126_zero_crossings_partial: when products of consecutive steps (samples) do not underflow; C126_steps, C126_whole_numbers: sufficient for that; C126_counterexample, C126_emd_raises: an underflow loses all minima and emd raises IndexError."),
    "C127": ("proved", "C127_timeline, C127_knots for every binary format; C127_too_long: with 2**(f+1)+2 samples or more (2050 in half precision) emd raises AssertionError."),
    "C128": ("partial", "C128_kind_partial: while 3(k+1)**3 <= 2**(f+1) a reported vertex is of the right kind; C128_lost, C128_lost_float32, C128_turned, C128_wrong: beyond that the determinant is 0 (no vertex ever), or has the wrong sign (a maximum is reported as minimum), and values are wrong before."),
    "C129": ("partial", "C129_default: the general model with an EMD object is the model of EEMD; C129_eemd_partial: JitEMD in EEMD without separate_trends, simple detection, no or equidistant time; C129_separate_trends, C129_counterexample: with separate_trends eemd raises ValueError; C129_ceemdan: CEEMDAN always raises TypeError."),
    "C130": ("partial", "C130_unit: unit and origin of time do not matter; C130_equidistant_partial: same rows as EMD on equidistant time; C130_counterexample: other time arrays give other rows; C130_no_time: T=None is refused."),
    "C131": ("partial", "C131_partial: with a fixed number of siftings EMD_matlab's rows start with the IMFs of EMD, unless a proto-IMF is flat at both ends; C131_complete_partial: the same rows if EMD went on until a trend was left; C131_counterexample: flat ends; C131_default_counterexample: the default stopping rules differ."),
    "C132": ("partial", "C132_trend_partial: with separate_trends the offset goes into the last row only and units carry over (simple detection, stopping rules that count siftings, affine interpolators, no trial residue within the np.allclose tolerance); C132_spread_partial: without separate_trends row k receives the offset weighted by the share of trials that end at row k; C132_counterexample: so the claim is false for the default separate_trends=False."),
    "C133": ("partial", "C133_emd (up to 1e-8), C133_ceemdan (exactly); C133_eemd_partial: for EEMD with uniform noise up to half the noise width, if all ensemble counts equal the number of trials; C133_counterexample: with noise of 1e-6 on a signal between 100 and 101 the last row is off by more than 50, because the trials have different numbers of rows."),
    "C134": ("partial", "C134_bemd_partial and C134_emd2d_partial: every component is what is left, sifted until the documented rule is met for the first time; C134_fixe_h: with FIXE_H = k at least k + 1 iterations, the last k of which pass the test; C134_matlab: at least k siftings, the last k with IMF-like results. C134_fixe_partial: with FIXE = k there are k + 1 iterations in BEMD and EMD2D; C134_counterexample: k is wrong for EMD2D (C62_counterexample for BEMD). FIXE of EMD_matlab is C68."),
    "C135": ("partial", "C135_partial: the results agree for unsigned types and for signed samples of w bits that span less than 2^(w-1); C135_scale: beyond, the noise is scaled by noise_width * (2^w - range); C135_refused: samples that span exactly 2^(w-1) always raise ValueError with normal noise; C135_counterexample: int8 samples and the same floats give different components."),
    "C136": ("partial", "C136_partial: the results agree for unsigned types and for signed pixels of w bits that span less than 2^(w-1). C136_adds_up: what the components add up to in general; C136_brightest: for every wider image they miss 2^w at the brightest pixels."),
    "C137": ("proved", "C137_jit, C137_matlab, C137_bemd, C137_emd2d: explicit bounds in terms of the unit roundoff, assuming only that the residue (for EMD2D also the result) is finite. C137_unit discharges the assumption of C137_matlab on 1.0 for binary64, binary32 and binary16."),
    "C138": ("proved", "C138_jit_untouched, C138_jit_values: simulation of the program with memory by the model on values; C138_jit_accessor: the same for get_imfs_and_trend; C138_matlab_untouched, C138_matlab_values, C138_matlab_own likewise for EMD_matlab."),
    "C139": ("partial", "C139_arguments_partial: the arguments are the caller's; C139_copies_partial: so is what get_imfs_and_trend hands out if the residue vanishes. C139_shared: the array emd returns never is, for every run; C139_counterexample: neither is what get_imfs_and_trend hands out otherwise."),
    "C140": ("partial", "Exact arithmetic (any linearly ordered field with floors), floating samples (no conversion to integers). C140_unit: without a limit, every stopping rule; C140_limit_partial: with a limit, up to the remainder, which is reported if it exceeds 1e-10 (C140_limit_counterexample); C140_offset_partial: FIXE and FIXE_H modes, false for the default rule (C140_offset_counterexample); C140_time and C140_equidistant: time."),
    "C141": ("proved", "Exact arithmetic (any linearly ordered field with floors), floating samples. At least one sifted component has to remain, and the limit is reduced by j."),
    "C142": ("partial", "Law-free (so also for floating point), both calls return. C142_truncates_partial: the first k rows, less one if the number of siftings is not fixed by FIXE, less one if trends are separated; both exceptions are necessary (C142_counterexample with default settings, C142_trend_counterexample)."),
    "C143": ("proved", "Exact arithmetic (any linearly ordered field with floors). From C14, C22 and C88 by C130. C143_recursion needs two remaining rows and MAX_ITERATION of 2 or more."),
    "C144": ("partial", "Exact arithmetic. C144_negation_partial: if no sequence searched for extrema during the run is flat at both ends. Otherwise the detector reports a flat start as a minimum but never as a maximum (C144_counterexample)."),
    "C145": ("proved", "Exact arithmetic. find_peaks is modelled after SciPy's source, which is not part of /repo."),
    "C146": ("partial", "C146_apriori and C146_aposteriori use no law of arithmetic; C146_reversed: exact arithmetic. Missing: the sign. Tops are counted and bottoms are not, so -IMFs can get other flags (C146_counterexample)."),
    "C147": ("partial", "Exact arithmetic; reconstruction is modelled by its definition (not part of /repo). C147_reported gives the exact criterion for any image: no path over pixels at least as high leads up by one unit or more. Missing: images with finer gradations than one unit, where pixels are reported that are no extrema; below a contrast of one unit all pixels are maxima and minima (C147_low_contrast, C147_counterexample)."),
    "C148": ("proved", "Exact arithmetic; any reconstruction, any interpolator that is odd in the values. Failures may be different exceptions (the envelopes are computed in the other order)."),
    "C149": ("partial", "Exact arithmetic. C149_returns_partial: images with fewer than two maxima or minima. Missing: all others, and the claim is false for them: a symmetric image of contrast below one unit (a constant one, for instance) that is not zero has components that are all zero, for ever (C149_forever; with max_imf see C149_zeros)."),
    "C150": ("proved", "Exact and IEEE 754 arithmetic; the interpolators are odd in the values and the detection is 'simple'. C150_same_noise: with the same noise the claim is false."),
    "C151": ("proved", "Exact arithmetic for any std that does not see the sign; IEEE 754 arithmetic for np.std with sums from left to right and any square root."),
    "C152": ("proved", "Simple detection: any arithmetic; for EEMD signals that are not empty (the exceptions differ), for CEEMDAN generators that draw as many numbers as asked. Affine time: exact arithmetic."),
    "C153": ("partial", "C153_exact_partial: if the sums of up to trials copies of each sample need no rounding; C153_two_trials: one or two trials, always (short of overflow); C153_bound: any number of trials up to a relative error of (1+u)^(trials+1)-1. Missing: exact equality for three and more trials, for which the claim is false: the mean of three equal float64 numbers may be another number (C153_three_trials)."),
    "C154": ("partial", "Transposition and half a turn proved for square images (others fail, C64). Missing: mirrored images, for which it is false: positions are columns and rows but the values are taken at rows and columns, see C154_mirror_counterexample. The interpolator is assumed to prefer no direction."),
    "C155": ("partial", "C155_passes, C155_isotropic, C155_odd: the interpolator; C155_few: two or three points never give a singular system; C155_directions, C155_negation: C154 and C148 without assumptions on the interpolator; C155_touches_partial: envelopes of symmetric images. Missing: other images, for which touching is false (C155_touches: the envelope takes the value at the mirrored position, C63_counterexample), and mirrored ones (C154); for more than three points LinAlgError is not excluded."),
    "C156": ("proved", LAWFREE + " C156_rows: number of rows; C156_max_imf: bound and lengths; C156_terminates."),
    "C157": ("proved", LAWFREE + " C157_emd2d, C157_bemd: simulation of the program with memory by the model on values (Clean); C157_repeated: a second call after the caller wrote into the first result."),
    "C158": ("proved", "IEEE formats. Hypotheses on the run: every sequence searched (Searched, a separate inductive definition) is finite and StepsResolved. C158_no_exception; C158_returns with a limit on the number of components; C158_half_precision: why cubic splines need room (Roomy). The 3x3 system is solved by Cramer's rule in the model, LU in numpy."),
    "C159": ("partial", "Through C130 (JitEMD returns what EMD does on equally spaced times). C159_wave in full; C159_reversal_partial assumes that no sequence searched has equal neighbours (counterexample without: C159_reversal_counterexample); C159_scaling_partial and C159_offset_partial need a fixed number of siftings (FIXE or FIXE_H); with the default stopping rule they fail as for EMD (C75_counterexample, C74_counterexample)."),
    "C160": ("proved", "Model/Mixed.lean: EMD.emd with a type for the sifting and a type for the container; envelopes are any function (scipy computes them in double precision). C160_double: with one type this is EMD.emd. C160_components: structure of the result, law-free. C160_end: the end is tested on the wide rest. C160_adds_up: error bound with the rounding unit of the wide type. Ieee.C160_conversion, Ieee.C160_exact: conversions lose nothing and sums are exact under the stated condition. C160_not_narrow: the residue of a half precision signal is not a half precision array."),
    "C161": ("partial", "C161_reversal_partial assumes that no sequence searched in a trial has equal neighbours; without it the claim is false (C161_counterexample). C161_same_noise: with the same noise the rows are not the reversed ones."),
    "C162": ("partial", "C162_negation_partial assumes a fixed number of iterations or that the values met while sifting stay within 400 times the range of the image, and gives the negatives if the numbers of rows agree. C162_counterexample: the numbers of rows can differ."),
    "C163": ("proved", "The exact decomposition stands for the code; the values given are None, Booleans, integers, floats, texts or other objects. C163_late_fixe is about the first sifting."),
    "C164": ("partial", "Extrema are found by comparison and no proto-mode may have a plateau (C164_counterexample shows that this is needed). Exact arithmetic; the interpolators must themselves have no preferred direction."),
    "C165": ("partial", "Samples of a floating type (convert is the identity), time stamps 0, 1, 2, ...; no sequence searched for extrema may have a plateau (C165_counterexample)."),
    "C166": ("proved", "Exact arithmetic, samples of a floating type (convert is the identity), time stamps 0, 1, 2, ..., reduceScale = 1. C166_small_level shows that the default rule can leave the level in the wave; EMD removes it (C108)."),
    "C167": ("partial", "Exact arithmetic. Proved for max_imf=1 (C167_pattern_partial). Missing: larger limits and no limit, where the claim is false: max_imf=k inserts k - 1 black images (C167_limit), and without max_imf the call never returns (C167_forever; C167_chessboard for every chessboard of grey values), unless the image happens to lie between -1/2 and 1/2."),
    "C168": ("proved", "Exact arithmetic: EMD2D scales the image and back, which floats round. The time stamps of EMD_matlab may be any list of the right length."),
    "C169": ("proved", "Exact arithmetic (any linearly ordered field with floors). Strengthens C20 from monotone signals to signals with one turn."),
    "C60": ("proved", "C60_accepted_by_check is law-free, C60_default_mode spells the acceptance out in exact arithmetic."),
}

thms = {}
for f in sorted(glob.glob(os.path.join(ROOT, "lean/Verif/Props/*.lean"))):
    for m in re.finditer(r"^theorem (?:\w+\.)*(C\d\d+)(_\w+)", open(f).read(), re.M):
        thms.setdefault(m.group(1), []).append(m.group(1) + m.group(2))
claims = []
for p in sorted(INFO):
    status, note = INFO[p]
    claims.append({"property": p, "status": status, "theorems": thms.get(p, []), "note": note})
for p in thms:
    if p not in INFO:
        print("no INFO for", p)
for c in claims:
    if c["status"] != "not_applicable" and not c["theorems"]:
        print("no theorems for", c["property"])
json.dump({"claims": claims}, open(os.path.join(ROOT, "MANIFEST.json"), "w"), indent=1)
print(len(claims), "claims")
