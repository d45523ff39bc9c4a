{"id": "C01", "title": "EMD output adds up to the input", "statement": "Whenever EMD.emd(S, T, max_imf) returns, adding the returned rows sample by sample gives back S: exactly, when a residue row was appended, and within 1e-8 per sample otherwise.", "quantifier": "every signal, time array, max_imf, configuration and spline implementation (exact arithmetic)", "why_tests_cant": "Tests reconstruct a few sines; the identity has to survive every number of rows, every early stop and the dropping of the last row.", "anchors": ["PyEMD/EMD.py:EMD.emd", "PyEMD/EMD.py:EMD.get_imfs_and_residue"]}
{"id": "C02", "title": "Every returned row has the length of the input", "statement": "Every row returned by EMD.emd, every row of get_imfs_and_residue()[0] and the residue have exactly len(S) samples.", "quantifier": "every signal, configuration, spline implementation and arithmetic (including rounding and NaN)", "why_tests_cant": "Depends on envelope shapes for arbitrary extrema layouts and on the broadcast rules of intermediate arrays.", "anchors": ["PyEMD/EMD.py:EMD.emd", "PyEMD/EMD.py:EMD.spline_points"]}
{"id": "C03", "title": "Returned rows and stored components agree", "statement": "After EMD.emd returns R, get_imfs_and_residue() gives (imfs, res) with res = S - sum(imfs), and R is imfs followed by res when some |res[i]| > 1e-8, or imfs alone when all |res[i]| <= 1e-8.", "quantifier": "every signal, configuration, spline implementation and arithmetic", "why_tests_cant": "Relates two independently stored results on every path through the decomposition.", "anchors": ["PyEMD/EMD.py:EMD.emd", "PyEMD/EMD.py:EMD.get_imfs_and_residue"]}
{"id": "C04", "title": "Imfs-and-trend splits the returned rows", "statement": "After EMD.emd returns R, get_imfs_and_trend() returns (R without its last row, last row of R).", "quantifier": "every signal and configuration", "why_tests_cant": "There is a corner case (a signal which decomposes to nothing) no test in the suite reaches.", "anchors": ["PyEMD/EMD.py:EMD.get_imfs_and_trend"]}
{"id": "C05", "title": "Accessors always describe the latest successful decomposition", "statement": "For any history of emd calls (successful or raising), configuration changes and accessor calls on one EMD object, get_imfs_and_residue()/get_imfs_and_trend() raise ValueError iff no emd call has succeeded yet, and otherwise report the components of the latest successful call.", "quantifier": "every finite history of operations on one object", "why_tests_cant": "Unit tests exercise one or two call sequences; the claim is about all histories.", "anchors": ["PyEMD/EMD.py:EMD.emd", "PyEMD/EMD.py:EMD.get_imfs_and_residue", "PyEMD/EMD.py:EMD.get_imfs_and_trend"]}
{"id": "C06", "title": "A decomposition does not depend on earlier ones", "statement": "The rows returned by emd(S, T, max_imf) depend only on the arguments and on the current configuration attributes, not on which decompositions ran earlier on the object.", "quantifier": "every finite history of operations before the call", "why_tests_cant": "Requires reasoning over all histories.", "anchors": ["PyEMD/EMD.py:EMD.emd"]}
{"id": "C07", "title": "max_imf bounds the output and guarantees termination", "statement": "For max_imf = k >= 1, emd performs at most k rounds of sifting (so it always terminates), stores at most k imfs and returns at most k+1 rows.", "quantifier": "every signal, configuration, spline implementation, arithmetic, k >= 1", "why_tests_cant": "A bound over all inputs, including those where the decomposition would otherwise go on forever.", "anchors": ["PyEMD/EMD.py:EMD.emd"]}
{"id": "C08", "title": "A single sifting always ends within MAX_ITERATION", "statement": "Extracting one IMF performs at most MAX_ITERATION - 1 envelope subtractions, whatever the signal and the stopping mode.", "quantifier": "every signal, stopping mode, spline implementation, arithmetic", "why_tests_cant": "Non-termination cannot be excluded by running examples.", "anchors": ["PyEMD/EMD.py:EMD.emd"]}
{"id": "C09", "title": "FIXE fixes the number of siftings", "statement": "With FIXE = k > 0 and k < MAX_ITERATION, every extracted component except one that ran out of extrema is obtained by exactly k envelope-mean subtractions.", "quantifier": "every signal, k, spline implementation and arithmetic", "why_tests_cant": "The count is internal and no test observes it for all signals.", "anchors": ["PyEMD/EMD.py:EMD.emd"]}
{"id": "C10", "title": "Default and FIXE_H modes only stop on IMF-like components", "statement": "With FIXE = 0, an extracted component for which sifting stopped neither because of MAX_ITERATION nor because the extrema ran out has numbers of extrema and zero crossings differing by at most one; with FIXE_H = k > 0 this held for k consecutive siftings.", "quantifier": "every signal, threshold, spline implementation and arithmetic", "why_tests_cant": "Claims something about every iteration of every run.", "anchors": ["PyEMD/EMD.py:EMD.emd", "PyEMD/EMD.py:EMD.check_imf"]}
{"id": "C11", "title": "Signals with at most two extrema are returned untouched", "statement": "If the input has at most two extrema (and MAX_ITERATION >= 2), emd reports no imf, the residue is S itself, and the output is the single row S (or no row when all |S[i]| <= 1e-8).", "quantifier": "every such signal, every configuration", "why_tests_cant": "Tests use a linear ramp; the claim is about all trends.", "anchors": ["PyEMD/EMD.py:EMD.emd"]}
{"id": "C12", "title": "Simple detection ignores the time array", "statement": "With extrema_detection='simple', emd(S, T, m) and emd(S, None, m) give the same outcome for every T with len(T) = len(S).", "quantifier": "every signal, every time array of the right length (also unsorted or with repeats)", "why_tests_cant": "Universal over all time arrays.", "anchors": ["PyEMD/EMD.py:EMD.emd"]}
{"id": "C13", "title": "Parabolic decomposition is independent of time unit and origin", "statement": "emd(S, c*T + d, m) = emd(S, T, m) for all c > 0 and all d.", "quantifier": "every signal, time array, c > 0, d (exact arithmetic)", "why_tests_cant": "Metamorphic relation over all scalings and all inputs.", "anchors": ["PyEMD/EMD.py:EMD._normalize_time", "PyEMD/EMD.py:EMD.emd"]}
{"id": "C14", "title": "Decomposition commutes with negation of the signal", "statement": "With simple detection, if the spline routine commutes with negating its ordinates, then emd(-S) = -emd(S), row by row, and emd(-S) raises exactly when emd(S) does.", "quantifier": "every signal, configuration, odd spline implementation (exact arithmetic and every IEEE 754 binary format)", "why_tests_cant": "Metamorphic relation through every branch of extremum detection, mirroring, sifting and stopping.", "anchors": ["PyEMD/EMD.py:EMD.emd", "PyEMD/EMD.py:EMD.prepare_points_simple", "PyEMD/EMD.py:EMD._find_extrema_simple"]}
{"id": "C15", "title": "Simple detection reports exactly the local extrema", "statement": "find_extrema (simple) reports a maximum at the (rounded) middle of every maximal flat run of samples which is strictly higher than both neighbours of the run, nothing else, in increasing order, with the signal values there; likewise for minima. The neighbours must exist: end samples are no extrema.", "quantifier": "every signal of every length (exact arithmetic)", "why_tests_cant": "Tests enumerate a handful of plateau layouts; the leading plateau layouts they miss are wrong.", "anchors": ["PyEMD/EMD.py:EMD._find_extrema_simple"]}
{"id": "C16", "title": "Maxima and minima alternate", "statement": "With simple detection there is a reported minimum strictly between any two reported maxima and vice versa; hence their numbers differ by at most one, and three extrema contain at least one of each kind.", "quantifier": "every signal (exact arithmetic)", "why_tests_cant": "Universal over signals; it is what keeps the mirroring code from indexing empty arrays.", "anchors": ["PyEMD/EMD.py:EMD._find_extrema_simple", "PyEMD/EMD.py:EMD.prepare_points_simple"]}
{"id": "C17", "title": "Zero crossings are counted once", "statement": "The zero-crossing list reported by find_extrema has one entry per sign change between adjacent non-zero samples and one entry per maximal run of zero samples, in non-decreasing order.", "quantifier": "every signal (exact arithmetic)", "why_tests_cant": "Universal over run layouts.", "anchors": ["PyEMD/EMD.py:EMD._find_extrema_simple", "PyEMD/EMD.py:EMD._find_extrema_parabol"]}
{"id": "C18", "title": "Detection commutes with increasing affine maps and with negation", "statement": "Adding a constant or multiplying by a positive constant does not change the reported extremum positions; negation swaps maxima and minima.", "quantifier": "every signal, every constant (exact arithmetic)", "why_tests_cant": "Metamorphic, universal.", "anchors": ["PyEMD/EMD.py:EMD._find_extrema_simple"]}
{"id": "C19", "title": "Parabolic detection finds an extremum at a sample iff it is one", "statement": "With parabolic detection, increasing time stamps and non-collinear neighbours, an extremum is reported for a (retained) sample iff that sample is strictly higher (lower) than both its neighbours, or is the right end of a flat top (bottom); its position lies between the midpoints to the neighbouring samples.", "quantifier": "every signal and every strictly increasing, unevenly spaced time array (exact arithmetic)", "why_tests_cant": "Universal over real geometry; the shoulder case is mis-detected and is not tested.", "anchors": ["PyEMD/EMD.py:EMD._find_extrema_parabol"]}
{"id": "C20", "title": "Monotone signals have no extrema", "statement": "find_extrema reports no maximum and no minimum for a monotone signal, in either mode, so that emd returns it as a trend and never fails on it.", "quantifier": "every monotone signal (exact arithmetic)", "why_tests_cant": "Universal; the parabolic mode breaks it for staircases, which no test tries.", "anchors": ["PyEMD/EMD.py:EMD._find_extrema_simple", "PyEMD/EMD.py:EMD._find_extrema_parabol", "PyEMD/EMD.py:EMD.prepare_points_parabol"]}
{"id": "C21", "title": "Envelope knots are strictly increasing and cover the whole time range (simple)", "statement": "For nbsym >= 1 and extrema as reported by simple detection (at least three), prepare_points returns for maxima and for minima at least three knots with strictly increasing positions, the first at or before the first time stamp and the last at or after the last one; every reported extremum is a knot and every knot value is a sample of the signal; it never raises ('Left/Right edge BUG' included).", "quantifier": "every signal, every nbsym >= 1 (exact arithmetic)", "why_tests_cant": "The mirroring code has dozens of branch combinations.", "anchors": ["PyEMD/EMD.py:EMD.prepare_points_simple"]}
{"id": "C22", "title": "EMD with simple detection never raises", "statement": "With simple detection, nbsym >= 1 and a supported spline kind, emd(S) raises no exception for any signal with at least two samples, given an interpolator that accepts three or more strictly increasing knots.", "quantifier": "every signal of length >= 2, every configuration (exact arithmetic)", "why_tests_cant": "Absence of exceptions over all inputs.", "anchors": ["PyEMD/EMD.py:EMD.emd", "PyEMD/EMD.py:EMD.prepare_points_simple", "PyEMD/EMD.py:EMD.spline_points", "PyEMD/splines.py:cubic_spline_3pts"]}
{"id": "C23", "title": "Envelope knots are increasing and cover the time range (parabolic)", "statement": "For nbsym >= 1 and alternating extrema (at least three), prepare_points (parabolic) returns increasing knots covering the whole time range.", "quantifier": "every signal, time array and every alternating extrema list (exact arithmetic)", "why_tests_cant": "Branch combinations times arbitrary geometry.", "anchors": ["PyEMD/EMD.py:EMD.prepare_points_parabol"]}
{"id": "C24", "title": "The three-point cubic spline is the natural spline through its points", "statement": "cubic_spline_3pts on knots x0<x1<x2 evaluates a function that passes through the three points, has continuous first and second derivatives at x1 and zero second derivative at both ends; on sorted T it returns one value per time stamp inside [x0, x2], in order; it reproduces straight lines and is linear in the ordinates.", "quantifier": "every x0<x1<x2, every y, every sorted T (exact arithmetic)", "why_tests_cant": "Universally quantified algebraic identity.", "anchors": ["PyEMD/splines.py:cubic_spline_3pts"]}
{"id": "C25", "title": "Time normalisation", "statement": "_normalize_time returns an array that starts with 0, keeps the order of strictly increasing input, and whose smallest increase is exactly 1; it raises AssertionError iff two neighbouring stamps coincide.", "quantifier": "every strictly increasing time array of length >= 2 (exact arithmetic)", "why_tests_cant": "Universal over arrays; the documented claim is false for decreasing arrays.", "anchors": ["PyEMD/EMD.py:EMD._normalize_time"]}
{"id": "C26", "title": "get_timeline enumerates the samples", "statement": "get_timeline(n, dtype) is exactly 0, 1, ..., n-1 for every dtype.", "quantifier": "every n with 1 <= n < 2**64 - 1 and every integer and floating dtype", "why_tests_cant": "Tests probe a few sizes; wrap-around and float rounding appear at sizes and dtypes not probed.", "anchors": ["PyEMD/utils.py:get_timeline", "PyEMD/utils.py:smallest_inclusive_dtype"]}
{"id": "C27", "title": "smallest_inclusive_dtype is big enough and smallest", "statement": "smallest_inclusive_dtype(d, v) for integer d and 0 <= v < 2**64 - 1 returns the narrowest unsigned type of 16, 32 or 64 bits whose range strictly contains v; for floats the narrowest float type; ValueError beyond.", "quantifier": "every dtype, every v", "why_tests_cant": "Universal over v.", "anchors": ["PyEMD/utils.py:smallest_inclusive_dtype"]}
{"id": "C28", "title": "unify_types yields one common type", "statement": "unify_types(x, y) returns arrays with one and the same dtype, independent of the argument order, keeping all values when the common type can hold them.", "quantifier": "every pair of dtypes", "why_tests_cant": "Pairs of all dtypes.", "anchors": ["PyEMD/utils.py:unify_types", "PyEMD/utils.py:deduce_common_type"]}
{"id": "C29", "title": "Decomposition stops exactly when documented", "statement": "end_condition(S, IMF) is true iff the amplitude range of S - sum(IMF) is below range_thr or its L1 norm is below total_power_thr; larger thresholds never turn a stop into a continuation.", "quantifier": "every signal, component set, thresholds (exact arithmetic)", "why_tests_cant": "Universal decision logic.", "anchors": ["PyEMD/EMD.py:EMD.end_condition"]}
{"id": "C30", "title": "check_imf never accepts a component with extrema on the wrong side", "statement": "check_imf returns True only if all envelope maxima are >= 0, all envelope minima are <= 0, the energy is at least 1e-10 and one of the three convergence tests is met; it is monotone in the three thresholds.", "quantifier": "every pair of consecutive components, thresholds (exact arithmetic)", "why_tests_cant": "Universal decision logic with zero denominators.", "anchors": ["PyEMD/EMD.py:EMD.check_imf"]}
{"id": "C31", "title": "EEMD averages each order over the trials that have it", "statement": "eemd(S) returns one row per order 0..K-1, K being the largest number of components over trials; row k is the arithmetic mean of the k-th component over exactly those trials that produced more than k components.", "quantifier": "every number of trials, every decomposition outcome of every trial (exact arithmetic)", "why_tests_cant": "Universal over ragged ensembles.", "anchors": ["PyEMD/EEMD.py:EEMD.eemd", "PyEMD/EEMD.py:EEMD.ensemble_mean"]}
{"id": "C32", "title": "EEMD ensemble counts", "statement": "ensemble_count()[k] is the number of trials with more than k components; it is non-increasing in k, starts with the number of trials that have any, and all_imfs has keys exactly 0..K-1 in this order.", "quantifier": "every ragged ensemble", "why_tests_cant": "Universal over ragged ensembles.", "anchors": ["PyEMD/EEMD.py:EEMD.ensemble_count", "PyEMD/EEMD.py:EEMD.eemd"]}
{"id": "C33", "title": "EEMD separates trends into the last row", "statement": "With separate_trends, the last row is the mean over all trials of the trend, stored under the key K that follows the imf keys 0..K-1, and the other rows average imfs only.", "quantifier": "every ragged ensemble", "why_tests_cant": "Universal over ragged ensembles; relies on dictionary ordering and evaluation order.", "anchors": ["PyEMD/EEMD.py:EEMD.eemd", "PyEMD/EEMD.py:EEMD._trial_update"]}
{"id": "C34", "title": "EEMD rows plus residue give the signal", "statement": "After eemd(S) returns E, get_imfs_and_residue() is (E, S - sum(E)).", "quantifier": "every ensemble (exact arithmetic)", "why_tests_cant": "Universal.", "anchors": ["PyEMD/EEMD.py:EEMD.eemd", "PyEMD/EEMD.py:EEMD.get_imfs_and_residue"]}
{"id": "C35", "title": "EEMD trials use independent noise", "statement": "Each of the trials of one eemd call, and successive eemd calls, draw fresh noise: no two trials are computed from the same part of the random stream.", "quantifier": "every number of trials and processes, every random stream, sequential and parallel mode", "why_tests_cant": "Needs reasoning over process images; the bug is invisible in the averaged output.", "anchors": ["PyEMD/EEMD.py:EEMD.eemd", "PyEMD/EEMD.py:EEMD._trial_update", "PyEMD/EEMD.py:EEMD.generate_noise"]}
{"id": "C36", "title": "EEMD is independent of worker scheduling", "statement": "The result of a parallel eemd does not depend on which worker runs which chunk or in which order they finish.", "quantifier": "every schedule of chunks over workers", "why_tests_cant": "Schedules cannot be enumerated by tests.", "anchors": ["PyEMD/EEMD.py:EEMD.eemd"]}
{"id": "C37", "title": "EEMD is reproducible", "statement": "Two EEMD objects with the same configuration and the same noise_seed return the same rows for the same sequence of eemd calls (sequential mode).", "quantifier": "every seed, every sequence of calls", "why_tests_cant": "Universal over seeds and histories.", "anchors": ["PyEMD/EEMD.py:EEMD.noise_seed", "PyEMD/EEMD.py:EEMD.eemd"]}
{"id": "C38", "title": "EEMD without noise is EMD", "statement": "If the noise is identically zero (noise_width = 0 or a constant signal), eemd(S, T, m) returns exactly emd(S, T, m) for every trials >= 1; with separate_trends=True too, except that IndexError is raised when emd returns no row at all.", "quantifier": "every signal and number of trials (exact arithmetic)", "why_tests_cant": "Universal metamorphic relation.", "anchors": ["PyEMD/EEMD.py:EEMD.eemd"]}
{"id": "C39", "title": "CEEMDAN is complete", "statement": "The rows returned by ceemdan(S) add up exactly to S and the residue from get_imfs_and_residue() is identically zero.", "quantifier": "every signal with non-zero standard deviation, every noise, configuration and inner decomposition (exact arithmetic)", "why_tests_cant": "Universal; tests only check shapes.", "anchors": ["PyEMD/CEEMDAN.py:CEEMDAN.ceemdan", "PyEMD/CEEMDAN.py:CEEMDAN.get_imfs_and_residue"]}
{"id": "C40", "title": "CEEMDAN respects max_imf", "statement": "ceemdan(S, max_imf=k) with k >= 1 returns at most k+1 rows (and at least 2); without a limit at most 102 rows; the stage loop always terminates.", "quantifier": "every signal, noise, configuration", "why_tests_cant": "Universal bound.", "anchors": ["PyEMD/CEEMDAN.py:CEEMDAN.ceemdan"]}
{"id": "C41", "title": "CEEMDAN is independent of worker scheduling and of parallelism", "statement": "The parallel ceemdan result equals the sequential one, for every completion order of the unordered parallel map.", "quantifier": "every completion order, number of processes (exact arithmetic)", "why_tests_cant": "Schedules cannot be enumerated by tests.", "anchors": ["PyEMD/CEEMDAN.py:CEEMDAN._eemd", "PyEMD/CEEMDAN.py:CEEMDAN._decompose_noise"]}
{"id": "C42", "title": "CEEMDAN stages are differences of local means", "statement": "Row 0 is the average first component, each later row is the difference of consecutive averaged local means, and the last row is the last local mean.", "quantifier": "every signal, noise and number of stages (exact arithmetic)", "why_tests_cant": "Universal over stages.", "anchors": ["PyEMD/CEEMDAN.py:CEEMDAN.ceemdan"]}
{"id": "C43", "title": "CEEMDAN releases its noise and reports the latest run", "statement": "After ceemdan returns, the stored noise decompositions are empty, and the accessor returns the rows of this call; before any call it raises ValueError; a call's result does not depend on earlier calls except through the random stream.", "quantifier": "every history of calls", "why_tests_cant": "Universal over histories.", "anchors": ["PyEMD/CEEMDAN.py:CEEMDAN.ceemdan", "PyEMD/CEEMDAN.py:CEEMDAN.get_imfs_and_residue"]}
{"id": "C44", "title": "TDMAsolver solves the tridiagonal system", "statement": "When no pivot vanishes, the vector returned by TDMAsolver satisfies every equation of the tridiagonal system and is the only vector doing so.", "quantifier": "every size and all coefficients (exact arithmetic)", "why_tests_cant": "Universal over sizes and coefficients.", "anchors": ["PyEMD/compact.py:TDMAsolver"]}
{"id": "C45", "title": "filt6 preserves smooth signals", "statement": "For |alpha| < 1/2 and n >= 7 (in fact whenever it does not raise), filt6 divides by no zero pivot and maps samples of any polynomial of degree <= 3 to themselves; it is linear in the signal.", "quantifier": "every n, alpha, polynomial (exact arithmetic)", "why_tests_cant": "Universal over sizes and polynomials.", "anchors": ["PyEMD/compact.py:filt6"]}
{"id": "C46", "title": "pade6 differentiates polynomials exactly", "statement": "pade6(f, h) returns the exact derivative for samples of polynomials of degree <= 5 for every length it accepts, and divides by no zero pivot.", "quantifier": "every accepted n, h != 0, polynomial (exact arithmetic)", "why_tests_cant": "The one accepted length where it breaks (n = 6) is not tested.", "anchors": ["PyEMD/compact.py:pade6"]}
{"id": "C47", "title": "EMD2D mirrors images without seams", "statement": "prepare_image returns the 3x3 tiling in which every pixel equals the pixel of the original at the reflected coordinates; the original is the central tile.", "quantifier": "every image shape and contents", "why_tests_cant": "Universal over shapes.", "anchors": ["PyEMD/EMD2d.py:EMD2D.prepare_image"]}
{"id": "C48", "title": "EMD2D and BEMD outputs add up to the image", "statement": "The returned 2D components add up to the input image exactly when a residue was appended and within tolerance otherwise.", "quantifier": "every image with non-zero range, every envelope routine (exact arithmetic)", "why_tests_cant": "Universal.", "anchors": ["PyEMD/EMD2d.py:EMD2D.emd", "PyEMD/BEMD.py:BEMD.bemd"]}
{"id": "C49", "title": "EMD2D and BEMD respect max_imf", "statement": "With max_imf = k >= 1 at most k components and a residue are returned, and the decomposition terminates.", "quantifier": "every image, envelope routine, k >= 1", "why_tests_cant": "Universal bound.", "anchors": ["PyEMD/EMD2d.py:EMD2D.emd", "PyEMD/BEMD.py:BEMD.bemd"]}
{"id": "C50", "title": "EMD2D extrema are local extrema in the interior", "statement": "EMD2D.find_extrema reports only interior pixels that are >= (<=) all their eight neighbours, and reports every interior pixel that is strictly greater (smaller) than all its neighbours.", "quantifier": "every image (exact arithmetic)", "why_tests_cant": "Universal.", "anchors": ["PyEMD/EMD2d.py:EMD2D.find_extrema"]}
{"id": "C51", "title": "White-noise check reports one flag per component", "statement": "whitenoise_check returns a dictionary with keys exactly 1..len(IMFs) and values 0 or 1, or None when the input is empty or contains NaN; it raises AssertionError for invalid arguments.", "quantifier": "every set of components and arguments", "why_tests_cant": "Universal decision logic; a component that vanishes identically raises ValueError (logarithm of zero).", "anchors": ["PyEMD/checks.py:whitenoise_check"]}
{"id": "C52", "title": "White-noise significance is monotone in the confidence level", "statement": "A component that is significant a priori at level alpha is significant a priori at every smaller alpha (narrower band), and likewise a posteriori for the same scaled energy; a value significant a posteriori lies above the a-priori band.", "quantifier": "all components, alpha (exact arithmetic, monotone quantile)", "why_tests_cant": "Universal.", "anchors": ["PyEMD/checks.py:significance_apriori", "PyEMD/checks.py:significance_aposteriori"]}
{"id": "C53", "title": "The rescaling component of the a-posteriori test lies on the band", "statement": "In the a-posteriori test the component used for rescaling is, by construction, on the upper confidence limit and hence not reported as significant.", "quantifier": "every set of components, every rescaling index", "why_tests_cant": "Universal; the formula used for rescaling differs from the one used for the test.", "anchors": ["PyEMD/checks.py:whitenoise_check"]}
{"id": "C54", "title": "EMD_matlab output adds up to the input", "statement": "The components returned by EMD_matlab's emd are numbered 0..imfNo-1 and add up to S exactly when a residue was appended and within 1e-10 (L1) otherwise.", "quantifier": "every signal, configuration, spline implementation (exact arithmetic)", "why_tests_cant": "Universal.", "anchors": ["PyEMD/EMD_matlab.py:EMD.emd"]}
{"id": "C55", "title": "EMD_matlab respects maxImf", "statement": "emd(S, T, maxImf=k) with k >= 1 returns at most k components, residue included.", "quantifier": "every signal, k >= 1", "why_tests_cant": "Universal bound; the boundary value k = 1 is not tested and is unlimited.", "anchors": ["PyEMD/EMD_matlab.py:EMD.emd"]}
{"id": "C56", "title": "JIT extremum detection agrees with the reference", "statement": "JitEMD's simple extremum detection returns, for every signal, the same extremum samples and zero crossings as EMD's.", "quantifier": "every signal (any arithmetic)", "why_tests_cant": "Refinement over all inputs.", "anchors": ["PyEMD/experimental/jitemd.py:_find_extrema_simple", "PyEMD/EMD.py:EMD._find_extrema_simple"]}
{"id": "C57", "title": "JitEMD separates components and trend", "statement": "After JitEMD.emd(S, T) returned R, get_imfs_and_trend() returns components and one trend row, taken from R in order; together they add up to S within 2e-8 per sample.", "quantifier": "every signal, time array, configuration, spline implementation (exact arithmetic)", "why_tests_cant": "Universal; false for signals that vanish, where R is empty and the accessor raises IndexError.", "anchors": ["PyEMD/experimental/jitemd.py:JitEMD.emd", "PyEMD/experimental/jitemd.py:JitEMD.get_imfs_and_trend"]}
{"id": "C58", "title": "Instantaneous frequency", "statement": "_calc_inst_freq returns one value per sample, and for a component whose phase is linear in t it is the constant slope / 2 pi.", "quantifier": "every number of components and samples (exact arithmetic)", "why_tests_cant": "Universal.", "anchors": ["PyEMD/visualisation.py:Visualisation._calc_inst_freq"]}
{"id": "C59", "title": "Visualisation takes components from its arguments first", "statement": "plot functions use imfs/residue passed as arguments and otherwise those of the object given at construction, and raise AttributeError when neither exists (residue only when requested).", "quantifier": "every combination of arguments", "why_tests_cant": "Decision logic.", "anchors": ["PyEMD/visualisation.py:Visualisation._check_imfs"]}
{"id": "C60", "title": "Default mode only keeps components that pass check_imf", "statement": "With FIXE = FIXE_H = 0, a component whose sifting did not hit MAX_ITERATION was accepted by check_imf on the upper and lower envelope knots of the previous proto-component: no upper knot is negative, no lower knot is positive, the energy is at least 1e-10 and one of the three convergence tests holds.", "quantifier": "every signal, threshold, spline implementation", "why_tests_cant": "Claims something about the last sifting of every component of every run.", "anchors": ["PyEMD/EMD.py:EMD.emd", "PyEMD/EMD.py:EMD.check_imf"]}
{"id": "C61", "title": "A sifting iteration of EMD2D subtracts the current envelope mean once", "statement": "Each sifting iteration of EMD2D.emd replaces the proto-IMF h by h minus the mean of the envelopes of h.", "quantifier": "every image, configuration and surface interpolator", "why_tests_cant": "Universal; the tests only check shapes and sums. From the second iteration on the previous mean is subtracted a second time.", "anchors": ["PyEMD/EMD2d.py:EMD2D.emd"]}
{"id": "C62", "title": "FIXE = k gives k sifting iterations in BEMD", "statement": "With FIXE = k every component of BEMD is the result of exactly k sifting iterations (unless it runs out of extrema before); the default FIXE = 1 means a single iteration.", "quantifier": "every image, k >= 1, surface interpolator and reconstruction", "why_tests_cant": "Universal; the number of iterations is not observable from sums and shapes. The code performs k + 1.", "anchors": ["PyEMD/BEMD.py:BEMD.bemd", "PyEMD/BEMD.py:BEMD.__init__"]}
{"id": "C63", "title": "BEMD interpolates the extrema of the image", "statement": "The interpolator is given, for every extremum found, its position together with the value of the image at that position.", "quantifier": "every image and reconstruction", "why_tests_cant": "Universal; positions are stored as (column, row) but used as (row, column) to look up the values.", "anchors": ["PyEMD/BEMD.py:BEMD.extract_max_min_spline", "PyEMD/BEMD.py:BEMD.extract_maxima_positions"]}
{"id": "C64", "title": "BEMD decomposes images of every shape", "statement": "bemd(image, max_imf=k) with k >= 1 raises no exception as long as the interpolator raises none.", "quantifier": "every image, configuration, reconstruction", "why_tests_cant": "Universal over shapes; only square images work.", "anchors": ["PyEMD/BEMD.py:BEMD.extract_max_min_spline", "PyEMD/BEMD.py:BEMD.bemd"]}
{"id": "C65", "title": "The a-posteriori test does not depend on the amplitude of the signal", "statement": "Multiplying all components by the same positive number does not change the result of the a-posteriori white-noise test (the energies are rescaled by the chosen component).", "quantifier": "every set of components, every positive factor", "why_tests_cant": "Universal; the energy of the rescaling component is computed but not used.", "anchors": ["PyEMD/checks.py:whitenoise_check"]}
{"id": "C69", "title": "plot_imfs draws one curve per component plus the residue", "statement": "plot_imfs(imfs, residue, include_residue) produces len(imfs) axes, plus one for the residue if requested; the i-th axis is labelled 'IMF i+1' and shows exactly the i-th component, the last shows the residue.", "quantifier": "every number >= 1 of components of common length, with and without residue", "why_tests_cant": "Universal over the number of components; the boundary case of one component without residue is untested and raises TypeError.", "anchors": ["PyEMD/visualisation.py:Visualisation.plot_imfs"]}
{"id": "C66", "title": "JitEMD is a drop-in replacement for EMD", "statement": "On a timeline that EMD leaves unchanged (0, 1, ... for simple detection; start 0 and smallest step 1 for parabolic detection) JitEMD.emd returns exactly the rows that EMD.emd returns, or raises the same exception, for every spline kind that both know.", "quantifier": "every signal with two or more samples, every configuration with nbsym >= 1, every max_imf, every spline implementation shared by both (exact arithmetic)", "why_tests_cant": "Refinement between two programs over all inputs and configurations.", "anchors": ["PyEMD/experimental/jitemd.py:emd", "PyEMD/EMD.py:EMD.emd"]}
{"id": "C67", "title": "EMD_matlab detects the same extrema as EMD", "statement": "EMD_matlab's find_extrema returns the same maxima, minima and zero crossings as EMD.find_extrema with simple detection.", "quantifier": "every time array and signal (exact arithmetic)", "why_tests_cant": "Refinement between two detectors over all inputs; they differ on signals that start and end flat, which no test has.", "anchors": ["PyEMD/EMD_matlab.py:EMD.findExtrema", "PyEMD/EMD.py:EMD._find_extrema_simple"]}
{"id": "C68", "title": "EMD_matlab performs FIXE siftings per component", "statement": "With FIXE = k every component found by the outer loop is the remaining signal sifted exactly k times, or fewer times if at most two extrema were left.", "quantifier": "every signal, spline implementation, k >= 1 below both iteration limits (exact arithmetic)", "why_tests_cant": "Universal over k and over the number of components.", "anchors": ["PyEMD/EMD_matlab.py:EMD.emd"]}
{"id": "C70", "title": "EMD_matlab components meet the default stopping rule", "statement": "With FIXE = FIXE_H = 0 a component takes at most MAX_ITERATION iterations; unless an iteration limit was used up it has at most two extrema, or its numbers of extrema and zero crossings differ by at most one and its envelopes satisfy Rilling's criterion with the configured thresholds.", "quantifier": "every signal, thresholds >= 0, spline implementation (exact arithmetic)", "why_tests_cant": "Universal invariant of every component found.", "anchors": ["PyEMD/EMD_matlab.py:EMD.emd", "PyEMD/EMD_matlab.py:EMD.stop_sifting"]}
{"id": "C71", "title": "EMD_matlab decomposes down to a trend", "statement": "Without a limit on the number of components the last one is a trend: it has at most two extrema, equals the signal minus all other components, and no further residue is appended.", "quantifier": "every signal and configuration (exact arithmetic)", "why_tests_cant": "Universal postcondition of an unbounded loop.", "anchors": ["PyEMD/EMD_matlab.py:EMD.emd"]}
{"id": "C72", "title": "EMD_matlab's EXT counts the extrema of each component", "statement": "EXT[i] is the number of extrema of component i.", "quantifier": "every signal and configuration, every component", "why_tests_cant": "Universal; the entry of an appended residue is a copy of the entry before it, which no test examines.", "anchors": ["PyEMD/EMD_matlab.py:EMD.emd"]}
{"id": "C73", "title": "Unsupported option values are refused", "statement": "An EMD object for an unsupported extrema_detection cannot be constructed, and one whose attribute was changed afterwards raises ValueError on emd; with an unsupported spline_kind every signal with more than two extrema is refused with ValueError, and a decomposition that does succeed is the one obtained with every other spline kind; EEMD and CEEMDAN with an unsupported noise_kind raise ValueError. In all cases earlier results stay as they were.", "quantifier": "every signal, configuration, spline implementation, random generator and completion order of workers", "why_tests_cant": "A silent fallback could hide behind any signal or execution mode; only finitely many are tried.", "anchors": ["PyEMD/EMD.py:EMD.__init__", "PyEMD/EMD.py:EMD.spline_points", "PyEMD/EMD.py:EMD.find_extrema", "PyEMD/EEMD.py:EEMD.generate_noise", "PyEMD/CEEMDAN.py:CEEMDAN.generate_noise"]}
{"id": "C74", "title": "A constant offset goes into the residue", "statement": "Adding a constant to the signal leaves the stored IMFs as they are, adds that constant to the stored residue, and does not change which exception is raised.", "quantifier": "every signal, offset, limit on the number of IMFs, interpolator that commutes with affine maps (exact arithmetic)", "why_tests_cant": "A relation between two runs on arbitrary data; the default stopping rule breaks it only for signals near its thresholds.", "anchors": ["PyEMD/EMD.py:EMD.emd", "PyEMD/EMD.py:EMD.end_condition", "PyEMD/EMD.py:EMD.check_imf"]}
{"id": "C75", "title": "The decomposition does not depend on the unit of the signal", "statement": "Multiplying the signal by a positive constant multiplies the stored IMFs and residue by it, and does not change which exception is raised.", "quantifier": "every signal, positive factor, limit on the number of IMFs, interpolator that commutes with scaling (exact arithmetic)", "why_tests_cant": "A relation between two runs on arbitrary data; absolute thresholds break it for small amplitudes only.", "anchors": ["PyEMD/EMD.py:EMD.emd", "PyEMD/EMD.py:EMD.end_condition", "PyEMD/EMD.py:EMD.check_imf"]}
{"id": "C76", "title": "CEEMDAN does not depend on the unit of the signal", "statement": "Multiplying the signal by a positive constant multiplies the components and the residue of CEEMDAN by it; the random generator, the noises and the exception (if any) are the same.", "quantifier": "every signal, positive factor, random generator, object state, completion order of workers (exact arithmetic; np.std homogeneous on the signal)", "why_tests_cant": "A relation between two runs on arbitrary data, in either execution mode.", "anchors": ["PyEMD/CEEMDAN.py:CEEMDAN.ceemdan"]}
{"id": "C77", "title": "EEMD rows weighted by their counts reconstruct the noisy signal", "statement": "The rows returned by eemd, each multiplied by its ensemble_count, add up to trials times the signal plus the sum of all noises, within trials times the tolerance of np.allclose. If every order was found in every trial the plain sum of the rows is the signal plus the mean noise.", "quantifier": "every signal, random generator, number of trials, worker schedule, with and without separated trends (exact arithmetic)", "why_tests_cant": "The trials disagree about the number of components in data dependent ways; a lost or doubled component is visible only for such ensembles.", "anchors": ["PyEMD/EEMD.py:EEMD.eemd", "PyEMD/EEMD.py:EEMD.ensemble_count", "PyEMD/EEMD.py:EEMD.ensemble_mean"]}
{"id": "C78", "title": "EEMD accessors describe the latest successful run", "statement": "After any history of noise_seed and eemd calls, get_imfs_and_residue raises ValueError if no call has succeeded and otherwise returns the rows and residue of the latest success; ensemble_mean gives the same rows.", "quantifier": "every history of calls, failed ones included, every configuration", "why_tests_cant": "Histories are unbounded; the stale statistics after a failed call need a failure in the middle of a sequence.", "anchors": ["PyEMD/EEMD.py:EEMD.get_imfs_and_residue", "PyEMD/EEMD.py:EEMD.eemd", "PyEMD/EEMD.py:EEMD.ensemble_mean"]}
{"id": "C79", "title": "CEEMDAN stops exactly when documented", "statement": "A completed ceemdan run made no stage whose predecessor already met a documented stopping reason (max_imf components, EMD finds a single component, range below range_thr, total power below total_power_thr, all measured on what is left of the normalised signal), and the last stage met one unless the built-in limit of stages was reached.", "quantifier": "every signal, noise, ensemble, worker schedule, thresholds (exact arithmetic)", "why_tests_cant": "The stopping reasons depend on data in interplay; a reversed or displaced comparison is invisible for signals that stop by another reason.", "anchors": ["PyEMD/CEEMDAN.py:CEEMDAN.end_condition", "PyEMD/CEEMDAN.py:CEEMDAN.ceemdan"]}
{"id": "C80", "title": "EMD2D does not depend on unit and offset of the image", "statement": "If every pixel is multiplied by c > 0 and increased by b, all components but the last are multiplied by c and the last one is multiplied by c and increased by b.", "quantifier": "every image, unit c > 0, offset b, surface interpolator (exact arithmetic)", "why_tests_cant": "Tests use images with one range of values; the stopping rule compares scaled components with the unscaled image, which shows only for other units.", "anchors": ["PyEMD/EMD2d.py:EMD2D.emd", "PyEMD/EMD2d.py:EMD2D.end_condition"]}
{"id": "C81", "title": "The envelope is continued beyond the edges by the documented mirror rule", "statement": "With simple detection the knots of both envelopes are exactly the reported extrema plus, beyond each edge, up to nbsym mirror images: over the extremum nearest to the edge when the edge sample lies beyond the next extremum of the other kind and the images get past the edge, otherwise over the edge sample, which then counts as an extremum unless the values forbid it. The right edge is the left edge of the signal run backwards.", "quantifier": "every signal with at least three reported extrema, every nbsym >= 1 (exact arithmetic)", "why_tests_cant": "Two edges times three cases times two orders of extrema times the number of available extrema; a wrong symmetry point or a slice off by one still gives plausible envelopes.", "anchors": ["PyEMD/EMD.py:EMD.prepare_points_simple", "PyEMD/EMD.py:EMD.prepare_points"]}
{"id": "C82", "title": "A signal run backwards has the decomposition run backwards", "statement": "Decomposing the reversed signal gives the reversed rows, the reversed stored IMFs and the reversed residue, or the same exception.", "quantifier": "every signal, every stopping rule, limit, spline kind and nbsym >= 1, every interpolator without a preferred direction of time (exact arithmetic)", "why_tests_cant": "Left and right edges are handled by separate code; an asymmetry shows only for signals that take different branches at their two edges.", "anchors": ["PyEMD/EMD.py:EMD.emd", "PyEMD/EMD.py:EMD.prepare_points_simple", "PyEMD/EMD.py:EMD._find_extrema_simple"]}
{"id": "C83", "title": "A limit on the number of IMFs only cuts the list of IMFs off", "statement": "EMD.emd with max_imf=k succeeds whenever the unlimited call (or a call with a larger limit) does, and its IMFs are the first k IMFs of that call.", "quantifier": "every signal, positions, configuration and interpolator, every scalar arithmetic; every k >= 1", "why_tests_cant": "Tests compare the number of rows for a few limits; that no later round or the final clean-up changes an earlier row has to hold at every cut.", "anchors": ["PyEMD/EMD.py:EMD.emd", "PyEMD/EMD.py:EMD.end_condition"]}
{"id": "C84", "title": "In CEEMDAN, EMD2D, BEMD and EMD_matlab a limit only cuts the list of components off", "statement": "A call with the limit k succeeds whenever the unlimited call (or one with a larger limit) does; its components before the residue are those of the unlimited call in the same places, and if the unlimited call has no more components than the limit allows the results are the same.", "quantifier": "every input, configuration, random generator state and external function, every scalar arithmetic; every k >= 1 (k >= 2 for EMD_matlab, which counts the residue)", "why_tests_cant": "The limit is tested in the middle of loops whose later rounds could feed back into earlier components; tests see a few limits on a few inputs.", "anchors": ["PyEMD/CEEMDAN.py:CEEMDAN.ceemdan", "PyEMD/CEEMDAN.py:CEEMDAN.end_condition", "PyEMD/EMD2d.py:EMD2D.emd", "PyEMD/BEMD.py:BEMD.bemd", "PyEMD/EMD_matlab.py:EMD.emd"]}
{"id": "C85", "title": "The instantaneous-frequency plot has one labelled axis per component", "statement": "Visualisation.plot_instant_freq(t, imfs) draws exactly one axis per component, in order, axis k labelled 'IMF k [Hz]' and carrying the instantaneous frequency of component k over t; a filter parameter outside (-0.5, 0.5) is refused with AssertionError and a call without components with AttributeError.", "quantifier": "every set of components, time array, order and filter parameter, every Hilbert transform and phase function (exact arithmetic)", "why_tests_cant": "Tests only check that something is drawn; which curve lands on which axis for every number of components is not looked at.", "anchors": ["PyEMD/visualisation.py:Visualisation.plot_instant_freq", "PyEMD/visualisation.py:Visualisation._calc_inst_freq"]}
{"id": "C86", "title": "The compact filter has no preferred direction and removes the fastest oscillation", "statement": "filt6 of the reversed samples is the reversed filt6, and filt6 maps the alternating samples c, -c, c, ... to zeros, also at both ends.", "quantifier": "every |alpha| < 1/2, every length >= 5, all samples (exact arithmetic)", "why_tests_cant": "The six boundary rows have hand-typed coefficients; a wrong one at one end shows only for particular samples.", "anchors": ["PyEMD/compact.py:filt6"]}
{"id": "C87", "title": "The compact derivative is linear, odd under reversal and respects units", "statement": "pade6 is linear in the samples; reversing the samples reverses the derivative and changes its sign; multiplying the step by c divides the derivative by c.", "quantifier": "every length >= 7, every step != 0 and all samples (exact arithmetic)", "why_tests_cant": "The boundary rows have hand-typed coefficients for each end; symmetry between the ends has to hold for all samples.", "anchors": ["PyEMD/compact.py:pade6"]}
{"id": "C88", "title": "The later components are the decomposition of what the earlier ones leave", "statement": "If EMD.emd(S) has more than j IMFs, then EMD.emd of S minus its first j IMFs (with the limit reduced by j) returns exactly the remaining rows, the remaining IMFs and the same residue.", "quantifier": "every signal, positions, configuration with MAX_ITERATION >= 2, interpolator, limit and j (exact arithmetic)", "why_tests_cant": "Two different decompositions have to agree row by row, including the stopping tests, which look at the sum of all earlier IMFs.", "anchors": ["PyEMD/EMD.py:EMD.emd", "PyEMD/EMD.py:EMD.end_condition"]}
{"id": "C89", "title": "Image envelopes touch the image at its local tops and bottoms", "statement": "Wherever no neighbour inside the image exceeds a pixel, also on the border, the upper envelope of EMD2D misses that pixel by at most the error eps of the surface interpolation at its given points; likewise the lower envelope at pixels that exceed no neighbour.", "quantifier": "every rectangular image, every eps and every surface interpolation that meets its points within eps (exact arithmetic)", "why_tests_cant": "The envelope is built on a 3x3 mirrored copy of the image and read back at an offset; that it lines up with the image has to hold for all sizes and all images.", "anchors": ["PyEMD/EMD2d.py:EMD2D.extract_max_min_spline", "PyEMD/EMD2d.py:EMD2D.prepare_image", "PyEMD/EMD2d.py:EMD2D.spline_points"]}
{"id": "C90", "title": "EMD2D has no preferred direction", "statement": "The decomposition of an image mirrored left-right, mirrored up-down or transposed is the decomposition of the image, each component mirrored or transposed in the same way; if one call raises, so does the other with the same exception.", "quantifier": "every image, configuration, limit and every surface interpolation that treats the two axes and both directions alike (exact arithmetic)", "why_tests_cant": "Relates two complete iterative runs; the mirrored tiles and the peak detection at the border have to be symmetric for every image.", "anchors": ["PyEMD/EMD2d.py:EMD2D.emd", "PyEMD/EMD2d.py:EMD2D.prepare_image", "PyEMD/EMD2d.py:EMD2D.find_extrema"]}
{"id": "C91", "title": "EEMD raises no unexpected exception", "statement": "With a supported noise kind eemd raises nothing, sequentially or in parallel, except IndexError when separate_trends is set and some noisy copy of the signal vanishes within tolerance; with a limit on the number of components and without separate_trends it returns. An unsupported noise kind is refused with ValueError as soon as there is a trial.", "quantifier": "every signal of at least two samples, number of trials, seed, noise width, schedule of the processes, spline kind, nbsym >= 1, simple detection and every interpolation that accepts increasing knots (exact arithmetic)", "why_tests_cant": "Each of the trials decomposes a different noisy signal; no test reaches all of the exceptions hidden in EMD for all random draws.", "anchors": ["PyEMD/EEMD.py:EEMD.eemd", "PyEMD/EEMD.py:EEMD._trial_update", "PyEMD/EEMD.py:EEMD.generate_noise"]}
{"id": "C92", "title": "ensemble_std is the spread of the trials", "statement": "After eemd returned, row k of ensemble_std is the pointwise standard deviation of the k-th component over exactly those trials that have one; it is zero exactly where these trials agree and no trial is further from the returned mean than the spread times the root of ensemble_count()[k]. With separate_trends the last row is the spread of the trends over all trials.", "quantifier": "every signal, configuration, random generator, schedule (exact arithmetic, any exact square root)", "why_tests_cant": "The ensemble is grouped by component order and trials have different numbers of components; which trials enter which row depends on the random draws.", "anchors": ["PyEMD/EEMD.py:EEMD.ensemble_std", "PyEMD/EEMD.py:EEMD.eemd"]}
{"id": "C93", "title": "Uniform noise moves the EEMD result at most by half the noise scale", "statement": "With uniform noise the components returned by eemd, each weighted by the share of trials that have it, add up at every sample to the signal within noise_width * (max - min) / 2 plus the tolerance of the single decompositions.", "quantifier": "every signal, configuration with uniform noise, random generator that keeps to the interval it is asked for, schedule (exact arithmetic)", "why_tests_cant": "A bound for all draws; a test sees one seed.", "anchors": ["PyEMD/EEMD.py:EEMD.eemd", "PyEMD/EEMD.py:EEMD.generate_noise", "PyEMD/EEMD.py:EEMD._trial_update"]}
{"id": "C94", "title": "When the decompositions of images stop", "statement": "BEMD and EMD2D look for a further component only while the components found do not add up to the image (within the tolerances of allclose) and the limit is not reached, and stop only in one of these cases; EMD2D also stops when the last component has at most four minima or at most four maxima. What is returned are the components found and at most one more image, the rest.", "quantifier": "every image, configuration, limit, surface interpolation and reconstruction (exact arithmetic)", "why_tests_cant": "Universal over images; the stopping test of EMD2D compares the components of the normalised image with the image itself, which only images with values from 0 to 1 do not reveal.", "anchors": ["PyEMD/EMD2d.py:EMD2D.end_condition", "PyEMD/EMD2d.py:EMD2D.emd", "PyEMD/BEMD.py:BEMD.end_condition", "PyEMD/BEMD.py:BEMD.bemd"]}
{"id": "C95", "title": "Rounding errors cannot lose part of the signal", "statement": "In floating point arithmetic, components and residue reported by get_imfs_and_residue add up to the signal at every sample up to an explicit bound: one rounding of the sample plus ((1+u)^(n+1)-1) times the sum of the magnitudes of the n components. For EMD the returned rows do so as well, with the tolerance 1e-8 on top when the residue was dropped; for CEEMDAN the division by and multiplication with the standard deviation add (1+u)((2u+u^2)|s| + eta(...)).", "quantifier": "every floating point arithmetic with relative error u and underflow eta (standard model of IEEE 754), every signal, configuration, interpolation, random generator and schedule for which the residue is finite", "why_tests_cant": "Rounding errors depend on every intermediate value; tests compare with a tolerance on a few signals and cannot show that the error never grows with the number of siftings, the spline or the length of the signal.", "anchors": ["PyEMD/EMD.py:EMD.get_imfs_and_residue", "PyEMD/EMD.py:EMD.emd", "PyEMD/EEMD.py:EEMD.get_imfs_and_residue", "PyEMD/CEEMDAN.py:CEEMDAN.ceemdan"]}
{"id": "C96", "title": "Envelopes touch the signal at its extrema", "statement": "With the default extrema detection and the default time axis, the upper envelope takes the value of the signal at every detected maximum (in particular at every sample larger than both neighbours), the lower one at every detected minimum, for every spline kind; every interpolator used passes through its knots.", "quantifier": "all signals, all spline kinds, all numbers of mirrored extrema >= 1", "why_tests_cant": "The knots come out of detection, mirroring and de-duplication; a test sees one signal and one spline kind, while a lost or shifted knot shows up for some signals only.", "anchors": ["/repo/PyEMD/EMD.py:122-163", "/repo/PyEMD/EMD.py:457-498", "/repo/PyEMD/splines.py:46-64"]}
{"id": "C97", "title": "pchip and linear envelopes never overshoot", "statement": "With spline_kind pchip, linear or slinear no envelope leaves the range of the signal, so one sifting step cannot produce values larger than the range of what was sifted. The cubic, quadratic, akima and cubic_hermite kinds do overshoot (counterexample).", "quantifier": "all signals, all knots, all evaluation points", "why_tests_cant": "Shape preservation is an inequality over all knots and all points; samples cannot rule out one bad configuration of slopes.", "anchors": ["/repo/PyEMD/splines.py:62-64", "/repo/PyEMD/EMD.py:457-498"]}
{"id": "C98", "title": "The interpolators have no preferred unit, sign, origin or direction", "statement": "akima, cubic, pchip, cubic_hermite, quadratic, linear and slinear interpolation, as scipy defines them, accept every set of at least three increasing knots and commute with scaling, shift and sign of the values, with scaling and shift of time, and with reversal of time. Hence the theorems which assume this of scipy (C14, C22, C74, C75, C82, C91) hold for scipy's formulas.", "quantifier": "all knots, values, evaluation points and affine maps", "why_tests_cant": "A test compares one interpolation with one transformed copy; thresholds such as the one in akima or the sign tests in pchip may break symmetry for special data only.", "anchors": ["/repo/PyEMD/splines.py:46-64", "/repo/PyEMD/EMD.py:493-495"]}
{"id": "C99", "title": "The cubic and the quadratic spline are the ones they are named after", "statement": "For at least four increasing knots there is exactly one not-a-knot cubic spline and `cubic` evaluates it (so cubic polynomials are reproduced exactly); for at least three knots there is exactly one quadratic spline with breaks half way between the inner knots and `quadratic` evaluates it.", "quantifier": "all knots, values and evaluation points", "why_tests_cant": "Uniqueness and smoothness are statements about all splines and all points.", "anchors": ["/repo/PyEMD/splines.py:57-59", "/repo/PyEMD/EMD.py:493-495"]}
{"id": "C100", "title": "Straight lines are interpolated by straight lines", "statement": "If the knots lie on a straight line, every interpolator returns the values of the line.", "quantifier": "all knots, all lines, all evaluation points", "why_tests_cant": "Tests with one line cannot exclude a wrong slope for unequal knot distances.", "anchors": ["/repo/PyEMD/splines.py:46-64", "/repo/PyEMD/EMD.py:493-495"]}
{"id": "C101", "title": "The default envelope is the natural cubic spline", "statement": "README and documentation say that the default spline is the natural cubic one: zero second derivative at both ends. False for four and more knots: scipy's CubicSpline is not-a-knot by default. True for three knots (the project's own solver); for four knots true exactly when the knots lie on a line.", "quantifier": "all knots and values", "why_tests_cant": "Tests compare with recorded values of the same implementation; which spline it is cannot be seen from them.", "anchors": ["/repo/README.md:39", "/repo/doc/speedup.rst:63", "/repo/PyEMD/splines.py:57-59", "/repo/PyEMD/splines.py:12-43"]}
{"id": "C102", "title": "CEEMDAN returns", "statement": "With simple extremum detection, nbsym >= 1, known spline and noise kinds, at least one trial, range_thr above 4e-8 and noises whose decomposition is usable (first component not constant, scaled components ranging over at most 1/2), ceemdan returns for every signal of at least two samples whose standard deviation is not zero, sequentially and in parallel, whatever the other options.", "quantifier": "all signals, all time arrays, all limits, all schedules, all noises meeting the condition", "why_tests_cant": "The run passes through hundreds of inner decompositions with data-dependent numbers of components; a missing row or a vanishing residue shows up for special data only.", "anchors": ["/repo/PyEMD/CEEMDAN.py:199-276", "/repo/PyEMD/CEEMDAN.py:328-378"]}
{"id": "C103", "title": "CEEMDAN without noise raises IndexError", "statement": "With noise_scale = 0 (for EEMD this gives EMD, C38) ceemdan raises IndexError for every signal, because the decomposition of a zero noise has no first component; the parallel mode does not return either.", "quantifier": "all signals, all configurations with simple detection and noise_scale = 0", "why_tests_cant": "A test sees one signal; that no signal and no option helps is a statement about all of them.", "anchors": ["/repo/PyEMD/CEEMDAN.py:328-341", "/repo/PyEMD/CEEMDAN.py:374-378", "/repo/PyEMD/EMD.py:908-920"]}
{"id": "C104", "title": "The residue of a complete decomposition is a trend", "statement": "Without max_imf the residue ranges over less than range_thr, or its total is below total_power_thr, or it has at most two extrema. The last part is false: the residue may have more extrema, only sifting it leads to at most two (counterexample with all defaults); the weaker statement is proved.", "quantifier": "all signals, all configurations with MAX_ITERATION >= 2, all interpolators", "why_tests_cant": "The last sifting may start from a residue with many extrema and end with few; tests on sums of sines do not meet this case.", "anchors": ["/repo/PyEMD/EMD.py:823-920"]}
{"id": "C105", "title": "EMD() works with its documented defaults", "statement": "For EMD() without options: components and residue add up; each component comes from at most 999 subtractions of the mean of the cubic envelopes and, unless it took exactly 999, meets the documented thresholds (0.001, 0.2, 0.2) and the IMF condition; the decomposition ends when the rest ranges over less than 0.001, has a total below 0.005 or sifts to at most two extrema.", "quantifier": "all signals of at least two samples", "why_tests_cant": "A changed default changes results slightly; only a statement about every signal pins down the numbers.", "anchors": ["/repo/PyEMD/EMD.py:61-117", "/repo/PyEMD/EMD.py:689-906"]}
{"id": "C106", "title": "EMD_matlab raises no exception", "statement": "With nbsym >= 1, one of the five spline kinds EMD_matlab knows and strictly increasing time stamps (or none), no exception leaves emd, whatever the signal, thresholds and iteration limits; with max_imf = k >= 2 it returns after at most k - 1 components.", "quantifier": "all signals (also empty ones), all strictly increasing time arrays, all thresholds and limits, all accepting interpolators", "why_tests_cant": "Exceptions arise from unlucky arrangements of extrema at the borders (missing mirrored points, time stamps not found, envelopes shorter than the signal); tests meet only a few arrangements.", "anchors": ["/repo/PyEMD/EMD_matlab.py:65-92", "/repo/PyEMD/EMD_matlab.py:94-224", "/repo/PyEMD/EMD_matlab.py:226-262", "/repo/PyEMD/EMD_matlab.py:306-395", "/repo/PyEMD/EMD_matlab.py:397-598"]}
{"id": "C107", "title": "With scipy's interpolators the contracts are met", "statement": "With the formulas of scipy's interpolators: negating the signal negates all components; with FIXE or FIXE_H an offset moves only the residue and a change of unit scales all components; EEMD without separated trends and EMD_matlab return.", "quantifier": "all signals, all configurations with simple detection meeting the stated thresholds", "why_tests_cant": "Symmetries hold for every signal and every spline kind; tests compare one or two.", "anchors": ["/repo/PyEMD/EMD.py:689-906", "/repo/PyEMD/EEMD.py:155-243", "/repo/PyEMD/splines.py:46-64"]}
{"id": "C108", "title": "A wave with equal peaks is separated from its level", "statement": "If a signal stays between lo and hi, all its interior maxima reach hi, all its interior minima reach lo, its first two steps are not flat and it turns at least three times, EMD returns exactly one component, the signal minus the mid level (hi + lo) / 2, and the constant mid level as residue; the residue is reported as a row exactly when the level is not negligible.", "quantifier": "all such signals of any length, shape and amplitude, every spline kind, every stopping mode, every max_imf; with scipy's interpolators at the default configuration", "why_tests_cant": "A test decomposes one sine; the claim covers every wave form, length, amplitude and offset, and that the answer is exact rather than approximate.", "anchors": ["/repo/PyEMD/EMD.py:122-163", "/repo/PyEMD/EMD.py:457-498", "/repo/PyEMD/EMD.py:773-906", "/repo/PyEMD/splines.py:46-64"]}
{"id": "C109", "title": "EMD2D's envelopes pass through the local maxima and minima", "statement": "spline_points interpolates the points it is given, so the upper envelope equals the image at its local maxima and the lower envelope at its local minima. (SmoothBivariateSpline is called without a smoothing factor, so it may miss the points by as much as their number in the sum of squares, and returns the least-squares bicubic polynomial when that is good enough - which it always is for images scaled to 0..1.)", "quantifier": "all images with values between -1 and 1; the first component for all images", "why_tests_cant": "A test on one image compares sums of components with the image, which hold whatever the envelopes are; that the envelopes are polynomials whatever the image is a statement about all images.", "anchors": ["/repo/PyEMD/EMD2d.py:66-95", "/repo/PyEMD/EMD2d.py:154-163", "/repo/PyEMD/EMD2d.py:278-380"]}
{"id": "C110", "title": "EMD2D raises no exception", "statement": "With max_imf = k >= 1 EMD2D returns after at most k rounds for every image that is not constant; the interpolation, which needs sixteen points, always gets enough of them.", "quantifier": "all images, all configurations, all interpolators that accept sixteen points", "why_tests_cant": "Whether the interpolation gets too few points depends on the shape of intermediate images; tests use a few images.", "anchors": ["/repo/PyEMD/EMD2d.py:154-163", "/repo/PyEMD/EMD2d.py:278-380"]}
{"id": "C111", "title": "A missing sample (NaN) stays local", "statement": "A signal with missing samples (NaN) can be decomposed: the components lack the same samples, nothing is filled in, and the ensemble methods keep the samples that are present.", "quantifier": "all arithmetics with a value that behaves like NaN, all signals with missing samples, all configurations", "why_tests_cant": "Tests use complete signals. Where a gap makes the set of extrema lopsided depends on the shape of the signal.", "anchors": ["/repo/PyEMD/EMD.py:351-391", "/repo/PyEMD/EMD.py:826-935", "/repo/PyEMD/EEMD.py:182-190", "/repo/PyEMD/EEMD.py:232-251"]}
{"id": "C112", "title": "The type of the samples does not matter to EMD", "statement": "EMD decomposes samples of any integer or floating dtype like the numbers themselves: it works in a floating type that is not narrower than that of the samples, keeps all sample values that fit, and numbers the samples 0, 1, ..., n-1.", "quantifier": "all dtypes, all signals, all lengths", "why_tests_cant": "The dtype logic has a dozen cases per argument and fails only beyond the exact integers of a type, i.e. for lengths tests do not use.", "anchors": ["/repo/PyEMD/EMD.py:763-806", "/repo/PyEMD/utils.py:12-79"]}
{"id": "C113", "title": "The type of the samples does not matter to EMD_matlab", "statement": "EMD_matlab decomposes integer samples like the same numbers given as floats.", "quantifier": "all integer signals, interpolators and configurations", "why_tests_cant": "Tests use float signals; the result for integers looks plausible and adds up.", "anchors": ["/repo/PyEMD/EMD_matlab.py:175-218", "/repo/PyEMD/EMD_matlab.py:248-260", "/repo/PyEMD/EMD_matlab.py:303", "/repo/PyEMD/EMD_matlab.py:464-476"]}
{"id": "C114", "title": "EMD does not touch the caller's arrays", "statement": "EMD.emd works in place on arrays (residue, mean, imf, imf_old) but changes none that existed before the call, not even when it raises; its result depends on the contents of the arguments only, also if signal and time are one array; and once it has returned, writing into the arguments or into the returned array does not change what the object stores.", "quantifier": "all memories, arguments, interpolators and configurations, all later sequences of assignments", "why_tests_cant": "A missing copy shows only for particular stopping rules and if the caller reuses an array; tests compare values, not identities of arrays.", "anchors": ["/repo/PyEMD/EMD.py:773-920"]}
{"id": "C115", "title": "What the accessors of EMD hand out is the caller's", "statement": "Writing into the arrays obtained from get_imfs_and_residue or get_imfs_and_trend does not change what the object answers later.", "quantifier": "all objects and memories, all assignments", "why_tests_cant": "Depends on which array a reference points to; tests never write into the arrays they got.", "anchors": ["/repo/PyEMD/EMD.py:922-963"]}
{"id": "C116", "title": "EEMD does not touch the caller's arrays", "statement": "EEMD.eemd (sequential) changes no array that existed before the call, not even when it raises, and what it returns, raises and stores is what the computation on values gives: the rows it keeps by reference from one trial to the last still hold the trial's results when they are averaged.", "quantifier": "all memories, arguments, generators, interpolators and configurations with parallel=False", "why_tests_cant": "The references of all trials are alive at the same time; an array reused by a later trial would blend trials silently.", "anchors": ["/repo/PyEMD/EEMD.py:155-251", "/repo/PyEMD/EMD.py:773-963"]}
{"id": "C117", "title": "The array EEMD returns is the caller's", "statement": "Post-processing the array eemd returned in place, or reusing the signal array, does not change what get_imfs_and_residue answers later.", "quantifier": "all memories, arguments and configurations, all later assignments", "why_tests_cant": "Tests do not write into results.", "anchors": ["/repo/PyEMD/EEMD.py:224-230", "/repo/PyEMD/EEMD.py:253-265"]}
{"id": "C118", "title": "CEEMDAN does not touch the caller's arrays", "statement": "CEEMDAN.ceemdan (sequential) writes into its own arrays (res, local_mean, E_IMF) but into none that existed before the call, not even when it raises; what it returns, raises and stores is what the computation on values gives: the decompositions of the noises it keeps from the start are unchanged when a later stage reads them.", "quantifier": "all memories, arguments, generators, interpolators and configurations with parallel=False", "why_tests_cant": "Hundreds of inner decompositions run while the stored noise components are in use; an array that one of them reused would change later stages without any error.", "anchors": ["/repo/PyEMD/CEEMDAN.py:199-276", "/repo/PyEMD/CEEMDAN.py:328-386"]}
{"id": "C119", "title": "The array CEEMDAN returns is the caller's", "statement": "Post-processing the array ceemdan returned in place, or reusing the signal array, does not change what get_imfs_and_residue answers later.", "quantifier": "all memories, arguments and configurations, all later assignments", "why_tests_cant": "Tests do not write into results.", "anchors": ["/repo/PyEMD/CEEMDAN.py:273-276", "/repo/PyEMD/CEEMDAN.py:388-395"]}
{"id": "C120", "title": "A seeded decomposition can be repeated", "statement": "Seed an EEMD or CEEMDAN object, decompose, work on with the object in any way (other signals, other seeds, calls that raise, writing into other arrays), seed with the same number and decompose the same arrays again: the second call succeeds, its result is a new array equal to the first one, and the first one still has its contents.", "quantifier": "all sessions of any length, all memories, arguments, generators, interpolators and configurations with parallel=False", "why_tests_cant": "The sessions between the two calls are unbounded, and a failure needs state that survives a particular kind of call.", "anchors": ["/repo/PyEMD/EEMD.py:151-251", "/repo/PyEMD/CEEMDAN.py:195-276"]}
{"id": "C121", "title": "Options given to EMD are the options used", "statement": "EMD(**options) succeeds exactly when assigning the options one after another to the attributes of a default object, converted to their documented types, succeeds, and it is the object this gives. A name that is no documented option changes nothing and is not reported.", "quantifier": "all keyword lists with distinct names, all values (numbers, strings, booleans, None, other objects)", "why_tests_cant": "There are twelve options with values of several types each in any combination and order.", "anchors": ["/repo/PyEMD/EMD.py:61-117"]}
{"id": "C122", "title": "An ensemble gives EMD's options to its EMD and keeps its own", "statement": "EEMD(**options) and CEEMDAN(**options) behave as if EMD's options had been given to an EMD object passed as ext_EMD and the remaining ones to the ensemble itself.", "quantifier": "all keyword lists, all other arguments", "why_tests_cant": "Needs all combinations of options of both classes; two names belong to both.", "anchors": ["/repo/PyEMD/EEMD.py:83-108", "/repo/PyEMD/CEEMDAN.py:116-146", "/repo/PyEMD/CEEMDAN.py:65-68"]}
{"id": "C123", "title": "A seed given to the constructor makes the runs repeatable", "statement": "EEMD(seed=s) and CEEMDAN(seed=s) are the object without it followed by noise_seed(s), whatever state the operating system gives the generator.", "quantifier": "all seeds, states of the operating system, options and arguments", "why_tests_cant": "The state from the operating system is not under the control of a test.", "anchors": ["/repo/PyEMD/CEEMDAN.py:125", "/repo/PyEMD/EEMD.py:89", "/repo/PyEMD/CEEMDAN.py:195-197"]}
{"id": "C124", "title": "The number of components can be limited at construction", "statement": "An EEMD or CEEMDAN object constructed with a limit on the number of components never returns more (doc/speedup.rst: EEMD(max_imfs=2)).", "quantifier": "all limits, signals, configurations, generators, interpolators", "why_tests_cant": "Only signals with more components than the limit show a violation.", "anchors": ["/repo/doc/speedup.rst:82-91", "/repo/PyEMD/EEMD.py:83-108", "/repo/PyEMD/CEEMDAN.py:128"]}
{"id": "C125", "title": "Configuring one JitEMD object leaves the others alone", "statement": "Following the documented way of configuring a JitEMD object does not change what other JitEMD objects return.", "quantifier": "all histories of copying and changing configuration dictionaries and of making objects", "why_tests_cant": "The effect needs two objects in one process, and the order of the two decides.", "anchors": ["/repo/PyEMD/experimental/jitemd.py:38-60", "/repo/doc/experimental.rst:64-82"]}
{"id": "C126", "title": "Simple detection is exact in floating point", "statement": "In IEEE 754 arithmetic (rounding to nearest, subnormal numbers, overflow) simple detection reports exactly the extrema and zero crossings of the numbers the samples stand for.", "quantifier": "all signals of finite samples of any length and all binary formats (float16, float32, float64)", "why_tests_cant": "Rounding, overflow and underflow depend on the values; there are 2**64 values per sample.", "anchors": ["/repo/PyEMD/EMD.py:613-687", "/repo/PyEMD/EMD.py:552-570"]}
{"id": "C127", "title": "Time stamps and envelope knots are exact in floating point", "statement": "In IEEE 754 arithmetic with f fraction bits, for signals of 2 to 2**f finite samples (2**52 in double precision) whose steps have products that do not underflow and with at least three extrema, the normalised time stamps are exactly 0, 1, ..., n-1, and the knots for the envelopes are the ones exact arithmetic gives: strictly increasing, enclosing the time span, containing all extrema.", "quantifier": "all such signals, all nbsym >= 1, all binary formats", "why_tests_cant": "Mirrored positions are computed in floating point for every signal; duplicate or unordered knots make scipy raise.", "anchors": ["/repo/PyEMD/EMD.py:327-455", "/repo/PyEMD/EMD.py:763-771", "/repo/PyEMD/utils.py:12-27"]}
{"id": "C128", "title": "Parabolic detection works in floating point", "statement": "In IEEE 754 arithmetic a sample above both its neighbours gives a maximum and a sample below them a minimum, at the position and with the value of the vertex of the parabola through the three points, up to a small relative error.", "quantifier": "all triples of samples at consecutive stamps, all stamps", "why_tests_cant": "The determinant cancels only for stamps far from zero, i.e. for long signals.", "anchors": ["/repo/PyEMD/EMD.py:572-610"]}
{"id": "C129", "title": "JitEMD can be used inside EEMD and CEEMDAN", "statement": "An ensemble whose inner object is a JitEMD object returns what the ensemble with the EMD object of the same configuration returns: the same components, the same exceptions, the same state of the generator and the same attributes. (doc/experimental.rst: 'compatible with other PyEMD classes, for example with EEMD', 'accept the same inputs and provide the same outputs'.)", "quantifier": "all signals of two or more samples, all noise streams, all numbers of trials, sequential and parallel in every order of completion, with and without separate_trends, EEMD and CEEMDAN", "why_tests_cant": "Needs agreement of two implementations on every perturbed signal of the ensemble.", "anchors": ["/repo/doc/experimental.rst:63-68", "/repo/PyEMD/experimental/jitemd.py:62-78", "/repo/PyEMD/EEMD.py:155-251", "/repo/PyEMD/CEEMDAN.py:328-334"]}
{"id": "C130", "title": "JitEMD accepts the time arrays that EMD accepts", "statement": "For every signal and time array JitEMD returns the rows that EMD returns; the unit and the origin of time do not matter.", "quantifier": "all signals, all time arrays, all units and origins", "why_tests_cant": "EMD normalises the time array and JitEMD does not; tests use one sampling.", "anchors": ["/repo/PyEMD/experimental/jitemd.py:67-78", "/repo/PyEMD/experimental/jitemd.py:777-788", "/repo/PyEMD/EMD.py:796-803"]}
{"id": "C131", "title": "EMD_matlab and EMD find the same components", "statement": "With corresponding settings (spline, nbsym, number of siftings) the components of EMD_matlab are those of EMD.", "quantifier": "all signals, all splines both classes support, all numbers of siftings, all numbers of components", "why_tests_cant": "Two implementations with differently arranged loops; agreement on sample signals says nothing about other signals.", "anchors": ["/repo/PyEMD/EMD_matlab.py:26-30", "/repo/PyEMD/EMD_matlab.py:503-623", "/repo/PyEMD/EMD.py:823-920"]}
{"id": "C132", "title": "An offset of the signal goes into the last row of EEMD, and units carry over", "statement": "Adding a constant to the signal adds it to the last row returned by EEMD and leaves the other rows as they are; measuring signal and thresholds in other units multiplies every row by the same factor.", "quantifier": "all signals, all constants, all factors, all noise generators whose noise is proportional to its width, any number of trials, sequential and parallel", "why_tests_cant": "The rows are averages over random trials with different numbers of components; a test sees one seed and one signal.", "anchors": ["/repo/PyEMD/EEMD.py:155-243", "/repo/PyEMD/EEMD.py:119-149"]}
{"id": "C133", "title": "The last component is what the other components leave of the signal", "statement": "For EMD, EEMD and CEEMDAN the split `imfs, res = components[:-1], components[-1]` of the README gives components and their residue: the last row is the signal minus the sum of the other rows, exactly or up to the noise.", "quantifier": "all signals, all options, any number of trials", "why_tests_cant": "Holds for signals on which all trials have the same number of components, which are the ones one thinks of.", "anchors": ["/repo/README.md:193-195", "/repo/PyEMD/EEMD.py:203-230", "/repo/PyEMD/EEMD.py:276-278", "/repo/PyEMD/EMD.py:910-925", "/repo/PyEMD/CEEMDAN.py:258-275"]}
{"id": "C134", "title": "FIXE and FIXE_H mean the same for all methods", "statement": "With FIXE = k every component of BEMD, EMD2D and EMD_matlab is the result of exactly k sifting iterations; with FIXE = 0 and FIXE_H = k of at least k, the last k of which fulfil the conditions for a component, unless the extrema or the iteration limit run out before.", "quantifier": "all images and signals, all k, all settings, any interpolator", "why_tests_cant": "The rule is a statement about the whole history of every sifting, at any number of iterations.", "anchors": ["/repo/doc/usage.rst:34-55", "/repo/PyEMD/BEMD.py:222-262", "/repo/PyEMD/EMD2d.py:320-364", "/repo/PyEMD/EMD_matlab.py:555-590"]}
{"id": "C135", "title": "EEMD treats integer samples like the same numbers as floats", "statement": "A signal given as integers (int16 audio, say) is decomposed by EEMD like the same numbers given as floats; in particular the noise is scaled by noise_width times the range of the samples.", "quantifier": "all integer signals of all signed and unsigned types, all settings, any random numbers, any interpolator, sequential and parallel", "why_tests_cant": "The tests use float signals; the effect depends on the range of the samples compared with the width of their type.", "anchors": ["/repo/PyEMD/EEMD.py:155-230", "/repo/PyEMD/EEMD.py:140"]}
{"id": "C136", "title": "EMD2D treats integer images like the same numbers as floats", "statement": "An image given as integers is decomposed by EMD2D like the same numbers given as floats; in particular the components add up to the image.", "quantifier": "all integer images of all signed and unsigned types, all settings, any surface interpolation", "why_tests_cant": "The tests use float images; the effect depends on the range of the pixels compared with the width of their type.", "anchors": ["/repo/PyEMD/EMD2d.py:278-380"]}
{"id": "C137", "title": "Rounding errors cannot lose part of the signal or image", "statement": "In floating point arithmetic the components and residue returned by JitEMD, EMD_matlab, BEMD and EMD2D add up to the signal or image, up to the rounding errors of the operations that join them; no error made while sifting matters.", "quantifier": "all signals and images, all settings, any interpolator, any floating point format, at every sample or pixel", "why_tests_cant": "Tests compare a few sums with a tolerance chosen by hand; they cannot bound the error for every signal and format.", "anchors": ["/repo/PyEMD/experimental/jitemd.py:790-924", "/repo/PyEMD/EMD_matlab.py:503-623", "/repo/PyEMD/BEMD.py:184-275", "/repo/PyEMD/EMD2d.py:278-380"]}
{"id": "C138", "title": "JitEMD and EMD_matlab do not touch the caller's arrays", "statement": "JitEMD.emd and EMD_matlab.emd leave the arrays they are given, and every other array of the caller, as they were, although they assign in place; the in-place assignments do not interfere with each other; every component EMD_matlab returns is an array of its own.", "quantifier": "all signals, time arrays (also the signal itself), settings and interpolators, every memory, also when an exception is raised", "why_tests_cant": "Whether arrays share memory shows only after a later assignment; a test would have to try every pair of arrays and every path through the loops.", "anchors": ["/repo/PyEMD/experimental/jitemd.py:67-78", "/repo/PyEMD/experimental/jitemd.py:790-924", "/repo/PyEMD/EMD_matlab.py:431-623"]}
{"id": "C139", "title": "What JitEMD returns and hands out is the caller's", "statement": "The caller may overwrite the array returned by JitEMD.emd and the arrays handed out by get_imfs_and_trend without changing what the object answers later.", "quantifier": "all signals, settings and interpolators, every memory, any sequence of assignments", "why_tests_cant": "Whether arrays share memory shows only after a later assignment, and depends on whether the residue vanishes.", "anchors": ["/repo/PyEMD/experimental/jitemd.py:62-78"]}
{"id": "C140", "title": "EMD_matlab does not depend on units and origins", "statement": "Multiplying the signal by c > 0 multiplies every component EMD_matlab.emd returns by c; adding a constant adds it to the last component and leaves the others alone; the numbers of iterations and of extrema stay the same; the unit and the origin of time have no influence.", "quantifier": "all signals, time arrays, limits, settings and real factors and offsets, every interpolator with these symmetries (scipy's have them)", "why_tests_cant": "A test compares a few signals and factors; whether a decision inside the nested loops flips for another factor can only be excluded for all of them at once.", "anchors": ["/repo/PyEMD/EMD_matlab.py:397-429", "/repo/PyEMD/EMD_matlab.py:431-623"]}
{"id": "C141", "title": "EMD_matlab decomposes what is left of the signal", "statement": "After EMD_matlab.emd has found j components, the rest of its result is exactly its result for the signal minus these components: the same components, numbers of iterations and extrema and the same remainder, only renumbered. So nothing found earlier has an influence except through the residue.", "quantifier": "all signals, time arrays, limits, settings with MAX_ITERATION at least 1, interpolators, and all j smaller than the number of sifted components", "why_tests_cant": "Counters, dictionaries and lists are carried through the loop over components; a test can compare single runs but cannot exclude that a counter left over from an earlier component changes a later decision.", "anchors": ["/repo/PyEMD/EMD_matlab.py:431-623"]}
{"id": "C142", "title": "A limit on the number of components only cuts EEMD's list off", "statement": "EEMD.eemd with max_imf=k returns the first k rows that eemd without a limit returns for the same seed, and the stored trials of these rows are the same.", "quantifier": "all signals, seeds, noise widths, numbers of trials, limits, settings, interpolators, sequential and parallel mode", "why_tests_cant": "A test fixes a signal, a seed and a limit; the claim relates two runs for every one of them.", "anchors": ["/repo/PyEMD/EEMD.py:155-230", "/repo/PyEMD/EEMD.py:232-251"]}
{"id": "C143", "title": "JitEMD: no exceptions, mirrored signals and residues", "statement": "With simple detection on an equidistant time array JitEMD.emd raises no exception for signals of two or more samples, decomposes -S into the negated rows of S, and decomposes what is left after its first j rows into the other rows.", "quantifier": "all signals of two or more samples, equidistant time arrays, settings with nbsym at least 1, limits, and interpolators with scipy's documented behaviour", "why_tests_cant": "The inner loops of the jitted reimplementation cannot be exercised on all signals; a test compares single runs.", "anchors": ["/repo/PyEMD/experimental/jitemd.py:790-924", "/repo/PyEMD/experimental/jitemd.py:62-78"]}
{"id": "C144", "title": "EMD_matlab treats maxima and minima alike", "statement": "EMD_matlab.emd decomposes -S into the components of S with the sign changed, with the same numbers of extrema and iterations, and raises for -S exactly if it raises for S.", "quantifier": "all signals, time arrays with distinct instants, limits, settings and odd interpolators (scipy's are odd), every stopping rule", "why_tests_cant": "The code handles maxima and minima in separate branches; tests of a few signals leave asymmetric cases of the detector unseen.", "anchors": ["/repo/PyEMD/EMD_matlab.py:305-395", "/repo/PyEMD/EMD_matlab.py:431-623"]}
{"id": "C145", "title": "The white-noise test counts the peaks of a component correctly", "statement": "The peaks counted by mean_period are exactly the non-negative plateaus (single samples included) that are strictly higher than both neighbours, each once; there are fewer than half as many as samples, so the mean period exceeds two samples and is at most the length; the count depends neither on the unit nor on the direction of time; the rescaling component of the a-posteriori test is flagged exactly if it has more than four samples per peak.", "quantifier": "all components", "why_tests_cant": "Universal over all data with plateaus, edge samples and negative tops; a test compares single arrays.", "anchors": ["/repo/PyEMD/checks.py:12-15"]}
{"id": "C146", "title": "The verdict on a component depends on that component only", "statement": "In the a-priori test the flag of a component depends only on that component (its place and the other components do not matter), in the a-posteriori test also on the rescaling component; neither reversing time nor changing the sign of all components changes the result.", "quantifier": "all sets of components, confidence levels, rescaling components", "why_tests_cant": "Two runs on arbitrary related inputs are compared; state carried between iterations of the loop would only show for particular inputs.", "anchors": ["/repo/PyEMD/checks.py:104-137"]}
{"id": "C147", "title": "BEMD finds the regional maxima and minima of the image", "statement": "The positions given by find_extrema_positions are exactly the pixels of the regional maxima and minima: a plateau (connected over the eight neighbours) from which no step leads up, respectively down.", "quantifier": "all images of any size and shape", "why_tests_cant": "Connectedness over plateaus of any shape and length; a test covers single images, the claim needs the fixed point of the dilation and paths of any length.", "anchors": ["/repo/PyEMD/BEMD.py:90-121"]}
{"id": "C148", "title": "BEMD of the negative image gives the negatives of the components", "statement": "If all pixels change sign, bemd gives the same components with the opposite sign, or fails in both cases: dark and bright are treated alike.", "quantifier": "all images, reconstructions, odd interpolators, options and limits", "why_tests_cant": "Two runs on arbitrary inputs are compared through all iterations; an asymmetry in one branch shows only for particular images.", "anchors": ["/repo/PyEMD/BEMD.py:59-121", "/repo/PyEMD/BEMD.py:143-276"]}
{"id": "C149", "title": "BEMD ends", "statement": "bemd(image) without max_imf returns for every image.", "quantifier": "all images, interpolators and options", "why_tests_cant": "A test cannot observe that a loop never ends, nor that it ends for all inputs.", "anchors": ["/repo/PyEMD/BEMD.py:210-269", "/repo/PyEMD/BEMD.py:117-121"]}
{"id": "C150", "title": "EEMD treats both signs alike", "statement": "EEMD of the negated signal with the negated noise gives the negated components, remembers the negated components of all trials and residue, has the same ensemble_std, and raises exactly when the original run raises. (With the same noise that is false, and even the number of components may differ.)", "quantifier": "all signals, generators, schedules, numbers of trials, inner configurations with simple detection, odd interpolators; exact and IEEE 754 arithmetic", "why_tests_cant": "Two whole ensembles have to be compared, with generators that a test cannot supply; an asymmetry in one branch shows only for particular signals.", "anchors": ["/repo/PyEMD/EEMD.py:119-149", "/repo/PyEMD/EEMD.py:155-251", "/repo/PyEMD/EEMD.py:276-282"]}
{"id": "C151", "title": "CEEMDAN treats both signs alike", "statement": "CEEMDAN of the negated signal with the negated noise gives the negated components and residue, uses up the generator alike, and raises exactly when the original run raises.", "quantifier": "all signals, generators, orders of the workers, configurations with simple detection, odd interpolators; exact and IEEE 754 arithmetic", "why_tests_cant": "Two whole runs with all stages and trials have to be compared; an asymmetry in a stopping rule or a stage shows only for particular signals.", "anchors": ["/repo/PyEMD/CEEMDAN.py:199-276", "/repo/PyEMD/CEEMDAN.py:278-386"]}
{"id": "C152", "title": "EEMD and CEEMDAN do not depend on unit and origin of time", "statement": "With simple detection the time array given to EEMD or CEEMDAN does not matter at all; with any detection, replacing T by c*T+d (c>0) changes neither the components nor the stored results nor the exceptions.", "quantifier": "all signals, time arrays, generators, schedules, trials, configurations", "why_tests_cant": "Two whole ensembles are compared for arbitrary time axes.", "anchors": ["/repo/PyEMD/EEMD.py:155-251", "/repo/PyEMD/CEEMDAN.py:199-276", "/repo/PyEMD/CEEMDAN.py:342-386"]}
{"id": "C153", "title": "EEMD without noise is EMD in floating point", "statement": "With noise_width = 0, EEMD returns in IEEE 754 arithmetic exactly what EMD returns.", "quantifier": "all signals of all IEEE 754 formats, all numbers of trials, schedules and configurations without separate trends", "why_tests_cant": "Tests compare with a tolerance, for a few signals and numbers of trials; whether the mean of equal numbers is that number depends on the last bits.", "anchors": ["/repo/PyEMD/EEMD.py:155-251", "/repo/PyEMD/EEMD.py:276-278"]}
{"id": "C154", "title": "BEMD has no preferred direction", "statement": "BEMD decomposes the transposed image, the image turned by half a turn and the mirrored image into the transposed, turned and mirrored components.", "quantifier": "all square images, isotropic interpolators, configurations and limits", "why_tests_cant": "Two whole decompositions are compared for arbitrary images; with the images of the test suite, which are symmetric, a wrong axis order does not show.", "anchors": ["/repo/PyEMD/BEMD.py:59-121", "/repo/PyEMD/BEMD.py:184-276"]}
{"id": "C155", "title": "With scipy's Rbf BEMD's envelopes touch the image at its extrema, and neither sign nor direction matters", "statement": "The surface of Rbf(X, Y, Z, function='cubic') passes through its points, prefers no direction and is odd in the values; so the upper envelope touches the image at its maxima and the lower one at its minima, the negative image has the negative components, and moved images have the moved ones.", "quantifier": "all square images, all configurations and limits, exact arithmetic, any norm", "why_tests_cant": "Concerns all sets of points; tests only look at the shape of the result.", "anchors": ["/repo/PyEMD/BEMD.py:59-88", "/repo/PyEMD/BEMD.py:184-276"]}
{"id": "C156", "title": "EEMD respects max_imf", "statement": "eemd(S, T, max_imf=k) with k >= 1 ends and returns at most k+1 rows of len(S) samples; in general it returns exactly as many rows as the largest decomposition among its trials, with separate_trends too.", "quantifier": "all signals, noise, configurations and schedules, every k, any arithmetic", "why_tests_cant": "The number of rows depends on the noise drawn in every trial.", "anchors": ["/repo/PyEMD/EEMD.py:155-243"]}
{"id": "C157", "title": "EMD2D and BEMD do not touch the caller's arrays", "statement": "EMD2D.emd and BEMD.bemd leave the image and every other array of the caller as they were, also when they raise; the array returned is the caller's: assignments to it and to the image do not affect each other nor later calls.", "quantifier": "all images, settings and interpolators, every memory, any assignments", "why_tests_cant": "Whether arrays share memory shows only after a later assignment.", "anchors": ["/repo/PyEMD/EMD2d.py:278-380", "/repo/PyEMD/BEMD.py:184-276"]}
{"id": "C158", "title": "EMD raises no exception in floating point short of overflow and underflow", "statement": "In IEEE 754 arithmetic, with simple detection, nbsym >= 1, a known spline kind and between 2 and 2^f samples (f the number of fraction bits), emd raises no exception as long as every sequence searched for extrema is finite and no product of consecutive steps underflows; with max_imf = k >= 1 it returns. For cubic splines the format must have room for the determinant of the three-point spline, as double and single precision do.", "quantifier": "all IEEE 754 binary formats, signals, configurations with simple detection, time arrays of the right length, interpolators that accept finite increasing knots", "why_tests_cant": "Rounding happens in every step of every sifting; a singular 3x3 system or knots out of order could arise for some rare signal.", "anchors": ["/repo/PyEMD/EMD.py:122-163", "/repo/PyEMD/EMD.py:457-498", "/repo/PyEMD/EMD.py:773-920", "/repo/PyEMD/splines.py:5-43"]}
{"id": "C159", "title": "JitEMD: waves, direction of time, units and offset", "statement": "On equally spaced times and in exact arithmetic JitEMD inherits from EMD: a zigzag of constant amplitude is returned as the only component up to its mean; reversing the signal in time reverses every row unless a plateau or a tie occurs in the run; with a fixed number of siftings, scaling the signal and the absolute thresholds scales the components and the rest, and an offset of the signal ends up in the rest only.", "quantifier": "all signals of at least two samples, equally spaced time arrays, configurations with simple detection, interpolators with the property in question", "why_tests_cant": "jitemd.py is a second implementation of the whole algorithm; agreement of its symmetries with those of EMD on samples says nothing about other signals.", "anchors": ["/repo/PyEMD/experimental/jitemd.py:488-615", "/repo/PyEMD/experimental/jitemd.py:790-924"]}
{"id": "C160", "title": "Single and half precision signals: components and residue add up in double precision", "statement": "EMD of a float32 or float16 signal sifts in the type of the signal but collects the components in an array of doubles. The rows returned are doubles; every component holds numbers of the narrow type and is the result of sifting the narrowed difference between the signal and the components before it; the residue is that difference in double precision, and it is appended unless it vanishes; another component is looked for only while the rest, in double precision, is large. Components and residue add up to the signal with the rounding error of doubles, and exactly at samples where the magnitudes of sample and components add up to at most 2^30 (single) or 2^43 (half precision) times a power of two that no nonzero one of them falls below. For a signal in double precision nothing changes.", "quantifier": "all pairs of an IEEE format and a wider one, all signals, times, settings, envelopes", "why_tests_cant": "The loss of precision depends on the magnitudes of components; a test compares with a tolerance on a few signals and does not see in which type a sum was formed.", "anchors": ["/repo/PyEMD/EMD.py:799-826", "/repo/PyEMD/EMD.py:846-850", "/repo/PyEMD/EMD.py:901-920"]}
{"id": "C161", "title": "EEMD: direction of time", "statement": "In exact arithmetic EEMD of the signal run backwards, with the noise run backwards, gives the rows, the remembered components of all trials, the residue and the spread run backwards, leaves the generator in the same state, and raises exactly the same exceptions, unless a plateau occurs in the run of some trial. With the noise not run backwards this fails.", "quantifier": "all signals, time arrays, numbers of trials, noise widths and kinds, sequential or parallel with any schedule, with or without separated trends, generators that return as many samples as asked for, interpolators that do not prefer a direction of time", "why_tests_cant": "Noise is random; a symmetry of the whole ensemble would need pairs of runs with mirrored generators for all signals.", "anchors": ["/repo/PyEMD/EEMD.py:155-230", "/repo/PyEMD/EEMD.py:232-260", "/repo/PyEMD/EEMD.py:268-287"]}
{"id": "C162", "title": "EMD2D: negative images", "statement": "In exact arithmetic EMD2D of the negative of an image gives the negatives of the components of the image whenever both decompositions have the same number of rows; both fail or both succeed, the numbers of rows differ by at most one, and all rows before the last correspond. The numbers of rows can differ, because the residue of the negative image is one minus the residue of the image.", "quantifier": "all images, all limits of components, all interpolators that turn upside down with the values, a fixed number of iterations, or values met while sifting within 400 times the range of the image and a threshold not below the default", "why_tests_cant": "The image is brought to the range 0 to 1 before sifting, which hides the symmetry: minima and maxima exchange only up to constants that change from one iteration to the next.", "anchors": ["/repo/PyEMD/EMD2d.py:278-380", "/repo/PyEMD/EMD2d.py:166-214", "/repo/PyEMD/EMD2d.py:236-276", "/repo/PyEMD/EMD2d.py:68-95"]}
{"id": "C163", "title": "EMD2D: options", "statement": "EMD2D(**config) has exactly five options; each keeps the value given for it, unchanged, or its default, and other names leave no trace. The decomposition is the one with these numbers: Booleans count as zero and one, fractional counts are rounded up. Nothing is checked by the constructor: a limit of iterations that is no number makes every decomposition of a non-constant image raise TypeError, and a text for FIXE does so as soon as an image has enough extrema to be sifted.", "quantifier": "all dictionaries of options with distinct names, in any order and with any unknown names, all images and limits of components, all interpolators", "why_tests_cant": "Values of any type can be given in any combination; a wrong type is noticed only on images with enough extrema, so a test on a simple image passes.", "anchors": ["PyEMD/EMD2d.py:EMD2D.__init__", "PyEMD/EMD2d.py:EMD2D.emd", "PyEMD/EMD2d.py:EMD2D.check_proto_imf"]}
{"id": "C164", "title": "CEEMDAN: no preferred direction of time", "statement": "CEEMDAN of the signal run backwards, with each row of noise run backwards, gives the same components and residue run backwards, leaves the generator in the same state and raises exactly the same exceptions. This holds sequentially and in parallel, for any schedule, number of trials and kind of noise. With the noise not run backwards the components need not agree.", "quantifier": "all signals, times, limits of components, configurations, schedules and generators whose rows for the second run are those of the first run backwards; no proto-mode may have two equal neighbouring samples", "why_tests_cant": "Needs a generator that produces reversed rows and an agreement through noise decomposition, trials, accumulated means and stages, for every signal.", "anchors": ["PyEMD/CEEMDAN.py:CEEMDAN.ceemdan", "PyEMD/CEEMDAN.py:CEEMDAN._decompose_noise", "PyEMD/CEEMDAN.py:CEEMDAN._eemd", "PyEMD/CEEMDAN.py:CEEMDAN.end_condition"]}
{"id": "C165", "title": "EMD_matlab: no preferred direction of time", "statement": "EMD_matlab.emd of the signal run backwards gives the components run backwards, with the same numbers of extrema and iterations, the same ends of the rounds and exactly the same exceptions. This holds for all stopping rules, kinds of splines and limits.", "quantifier": "all signals, configurations and limits for which no sequence searched for extrema has two equal neighbouring samples; all interpolators without preferred direction", "why_tests_cant": "The agreement must hold through every pass of every round, including the handling of both ends, for every signal and every spline.", "anchors": ["PyEMD/EMD_matlab.py:EMD.emd", "PyEMD/EMD_matlab.py:EMD.preparePoints", "PyEMD/EMD_matlab.py:EMD.stop_sifting"]}
{"id": "C166", "title": "EMD_matlab: a wave with equal peaks is separated from its level", "statement": "A signal whose tops all have the same height and whose bottoms all have the same depth is returned by EMD_matlab.emd as two rows: the signal minus a constant, and that constant. The constant is the level half way between tops and bottoms; it is zero instead only under the default stopping rule and only if the level is at most stop1 and at most stop2 times the amplitude. No exception is raised.", "quantifier": "all waves with equal peaks (any number of samples, any shape between the peaks), all known kinds of splines with interpolators that keep constants, all numbers of mirrored extrema from 1 on, all stopping rules, all limits except 2", "why_tests_cant": "The rows must be exact for every wave, every spline and every number of passes; tests compare single sinusoids up to a tolerance.", "anchors": ["PyEMD/EMD_matlab.py:EMD.emd", "PyEMD/EMD_matlab.py:EMD.extractMaxMinSpline", "PyEMD/EMD_matlab.py:EMD.stop_sifting"]}
{"id": "C167", "title": "EMD2D: a pattern with equal peaks is separated from its brightness", "statement": "An image whose local tops are all equally bright and whose local bottoms are all equally dark (a chessboard, for instance) is returned by EMD2D.emd as two images: the pattern around zero, and the brightness half way between tops and bottoms.", "quantifier": "all images with equal peaks of every size, at least five tops and five bottoms inside; all settings and limits; all interpolators that go level through points of equal height", "why_tests_cant": "The property concerns all sizes, patterns, settings and numbers of iterations; and a test cannot observe that a call never returns.", "anchors": ["PyEMD/EMD2d.py:EMD2D.emd", "PyEMD/EMD2d.py:EMD2D.find_extrema", "PyEMD/EMD2d.py:EMD2D.end_condition"]}
{"id": "C168", "title": "EMD2D and EMD_matlab: too few extrema, nothing to separate", "statement": "EMD2D.emd returns an image unchanged, as its only component, if at most four pixels inside it are tops among their eight neighbours or at most four are bottoms; in particular a ramp. EMD_matlab.emd returns a signal unchanged, as its only row, if the signal turns at most once, plateaus included: whatever the settings, the spline routine, the positions and max_imf. The last row of an unlimited EMD_matlab decomposition, decomposed again with any settings, comes back alone.", "quantifier": "all images that are not constant and have few interior extrema; all signals that rise and then fall or fall and then rise; all surfaces, splines, settings with MAX_ITERATION >= 1 and limits", "why_tests_cant": "The scaling, the search for extrema with its plateau and wrap-around cases, the loop and the final residue must agree for every such image and signal; samples cannot cover them.", "anchors": ["PyEMD/EMD2d.py:EMD2D.emd", "PyEMD/EMD2d.py:EMD2D.find_extrema", "PyEMD/EMD_matlab.py:EMD.emd", "PyEMD/EMD_matlab.py:EMD.findExtrema"]}
{"id": "C169", "title": "EMD and JitEMD: a signal that turns once is a trend", "statement": "With simple detection EMD.emd and JitEMD.emd return a signal that rises and then falls, or falls and then rises (plateaus included), as their only row; it is the residue (EMD.get_imfs_and_residue) and the trend (JitEMD.get_imfs_and_trend), and there is no IMF: whatever the spline, the other settings, the time stamps and max_imf.", "quantifier": "all signals that turn at most once, all splines, all settings with MAX_ITERATION >= 2, all time arrays of the right length, all limits; for JitEMD signals that do not vanish within the tolerance (otherwise see C57)", "why_tests_cant": "The extremum search has special cases for plateaus and reads past the start of the array at flat starts; that it never finds more than one top and one bottom in any such signal cannot be sampled.", "anchors": ["PyEMD/EMD.py:EMD.emd", "PyEMD/EMD.py:EMD._find_extrema_simple", "PyEMD/experimental/jitemd.py:emd", "PyEMD/experimental/jitemd.py:JitEMD.get_imfs_and_trend"]}
