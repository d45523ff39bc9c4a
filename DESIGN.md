# Formal model of PyEMD in Lean 4

Read together with `properties.jsonl` (the claims) and `MANIFEST.json` (which theorem settles which claim).

## 1. Approach

* The Python code is transcribed, function by function, to total computable Lean functions in
  `lean/Verif/Model/*.lean`. Every definition cites the file and lines it transcribes.
* Python exceptions are values: a function that can raise has type `PyM β = Except PyErr β`.
  Python/numpy indexing is `pyGet` (negative indices wrap, out of range is `IndexError`), slices are `pySlice`.
* `while` loops that Python does not bound take a fuel argument; running out of fuel is the pseudo-error
  `PyErr.outOfFuel`. Theorems of the form "when it returns ..." quantify over all fuels; termination theorems say which
  fuel always suffices.
* **Arithmetic.** The model is generic in the scalar type `α`. It only uses the operation classes `Add`, `Sub`, `Mul`,
  `Div`, `Neg`, `LT`, `LE`, `BEq` and the class `NpScalar` (literals, truncation to `int`, `np.sum`, `np.max`, `np.min`).
  No law is assumed by the definitions. *Law-free* theorems therefore hold for IEEE floats (rounding, overflow and NaN
  included). Theorems marked "exact arithmetic" assume `[Field α] [LinearOrder α] [IsStrictOrderedRing α] [FloorRing α]`
  and the exact instance of `NpScalar`; they hold for ℚ and ℝ and say nothing about rounding errors.
* Specifications live in `lean/Verif/Spec/*.lean`; they do not use model helpers. Property theorems live in
  `lean/Verif/Props/*.lean`, one section per claim, each followed by `example`s which exhibit a non-trivial
  instance of the hypotheses. Helper lemmas live in `lean/Verif/Lemmas/*.lean`.
* When the code does not satisfy a claim the file proves the negation at a concrete witness
  (`..._counterexample`) and keeps the strongest true variant as `..._partial`.

## 2. Trusted base

* Lean's kernel and the three standard axioms `propext`, `Classical.choice`, `Quot.sound`. No other axiom, no
  `sorry`, no `native_decide`, no `bv_decide`. `AXIOMS.md` lists the axioms of every property theorem.
* The transcription itself (Python → Lean), checked by reading only; the Python code was not run. `COVERAGE.md` lists
  every function of the package with the definitions that transcribe it.
* What numpy does, as written in `Model/Py.lean`: indexing, slices, `diff`, `nonzero`, `sum`, `allclose`, rounding half to even,
  `np.linalg.solve` of a 3x3 system (exact solution, error if singular), type promotion, wrap-around of integers, rounding of floats
  in `arange`.
* External code is a parameter of the model. Where a theorem needs more than "it is a function" the contract is an explicit
  hypothesis:

  | code | parameter | contracts used |
  |---|---|---|
  | scipy interpolators | `SciPy` | `Accepts`/`AcceptsAll` (returns one value per point for three or more increasing knots), `Odd`, `AffineInterp`, `Reversible`, `TimeFree`, `SameScipy` |
  | `RandomState` | `Rng` (state machine) | `Sized` (as many draws as asked for), `ZeroScale`, `UniformBounded`, `ScalesBy` (noise proportional to its width; C132); `normal` raises `ValueError` for a negative scale (in `Obj.eemdInt` only; C135) |
  | `float`, `int`, `lower` of strings | `PyStr` | `lower("cubic") = "cubic"` |
  | `np.std`, `np.sqrt` | functions | `IsSqrt`, `StdLike` (not negative, at most the range) |
  | `SmoothBivariateSpline` | `Surface` | `PassesWithin`, `MovesAlong`, `Isotropic`, `LeastSquares` (what it and FITPACK document), `AcceptsMany` (16 points), `KeepsLevel` (C167) |
  | `reconstruction`, `Rbf` | `BEMD.Ext` | none; for C147 and C149 `reconstruction` by its definition (`Model/Reconstruction.lean`), for C149 `PassesWithin 0` of `Rbf` (it interpolates with `smooth = 0`), for C148 odd in the values, for C154 `Isotropic`; C155 proves the three of `Rbf` by its formulas (`Model/Rbf.lean`, exact arithmetic) |
  | `find_peaks`, `log`, `exp`, `sqrt`, normal quantile | `Checks.MathFns` | stated at the theorem; `find_peaks` also as a model of SciPy's procedure (`Model/FindPeaks.lean`, C145) |
  | `hilbert`, `angle`, `unwrap`, matplotlib | `Vis.Ext` | none |
  | floating point numbers | the scalar type | `FloatArith` (standard model of IEEE 754), C95 only; `NotANumber` (laws of NaN), C111 only; both are proved of `Ieee` (below) |

  scipy's interpolators are also modelled as such (`Model/Scipy.lean`): their formulas, from scipy's documentation and sources. C98
  proves the contracts above for them. Simplifications: elimination without pivoting for `CubicSpline`; `Akima1DInterpolator`
  needs three knots; points outside of the knots use the end pieces; `np.gradient` always uses the formula for unequal steps; `interp1d`
  refuses knots which are not increasing; `interp1d(kind="quadratic")` solves for slopes at the breaks instead of B-spline coefficients.
  For each contract there is an instance in `Spec/*Samples.lean` or next to the theorem, so no hypothesis is vacuous.
* IEEE 754 numbers (`Model/Ieee.lean`), for C126 to C128 and as an instance of the contracts of C95 and C111: finite numbers are integer multiples of the
  smallest subnormal number, results are rounded to nearest, ties to even, with overflow to infinity. Simplifications: one zero (no negative zero), one NaN;
  sums run from left to right. `Lemmas/IeeeSound.lean` proves that results are nearest (ties even) among all numbers of the format and that comparisons and
  operations with infinities are those of the extended reals. `tools/ieee_test.py` writes a test that compares it with Python's doubles (600 pairs, seven operations; passes).
* `multiprocessing.Pool`: `map` pickles the bound method once per chunk, each chunk runs on its own copy of the object,
  results are stored by index; `imap_unordered` yields results in an arbitrary order (`Schedule`).
* numba: compiles the Python text faithfully, except that a scalar division by zero raises `ZeroDivisionError`. Reads past the end
  of an array, which compiled code does not check, raise `IndexError` in the model.

Deliberate simplifications, each repeated in the comment of the definition:

* A numpy division by zero gives inf or NaN and a warning. In exact arithmetic there is no such value; where the result is used
  afterwards the model stops with the pseudo-error `PyErr.nonFinite` and the theorems say so.
* Counters and sizes (`FIXE`, `MAX_ITERATION`, `trials`, ...) are natural numbers or integers. A pool of workers has at least one worker.
* Images without pixels are outside the model of `BEMD` (skimage's `reconstruction` raises `ValueError` for them).
* Arrays are lists of one scalar type; dtype logic of `utils.py` is modelled separately (`Model/Utils.lean`), its use by `EMD.emd` in
  `Model/Types.lean`, the conversions of `EMD_matlab` by `Cfg.convert` (`Model/MatlabInt.lean`). These models
  work on values, as if arrays were immutable. `Model/Memory.lean`, `Model/MemoryEemd.lean` and `Model/MemoryCeemdan.lean` repeat `EMD.emd`, sequential
  `EEMD.eemd` and `CEEMDAN.ceemdan` and their accessors on a memory of arrays with addresses and in-place assignment; C114, C116 and C118 prove
  that both agree. `Model/MemoryMore.lean` does the same for `JitEMD.emd` and `EMD_matlab.emd` (C138, C139). A slice `IMF[:k]` is an
  address with a number of rows. `Model/MemoryImage.lean` does it for `EMD2D.emd` and `BEMD.bemd` (C157). Helpers that only read their arguments (extrema,
  envelopes, tests) are called on values there. For the remaining modules (`compact`, `checks`, `visualisation`) the absence of interference between arrays is checked by reading.
* One scalar type for all arrays of a decomposition. For doubles that is what the code does. For float32 and float16 signals `EMD.emd` mixes two types: the sifting works in
  the type of the signal, but `IMF = np.empty((imfNo, N))` is an array of doubles, so sums, the test for the end, the residue and the returned rows are doubles.
  `Model/Mixed.lean` is `EMD.emd` with both types (C160; equal types give `Model/Emd.lean`). The single and half precision instances of C95, C126 to C128, C137, C153 and C158 do all
  arithmetic in the narrow type: they are about the procedure with one type. numba's `emd` accepts doubles only (jitemd.py:778-788).
* `interp1d(kind="cubic")` (EMD_matlab, JitEMD) and `CubicSpline` (EMD) are the same field `cubic` of `SciPy`.
* `JitEMD` as `ext_EMD` (`Model/External.lean`): arrays of doubles; the object can be pickled; arrays of different shapes are refused by `np.array`.

Not modelled: floating point rounding in the "exact arithmetic" theorems, logging, progress bars, drawing (which curves are drawn on
which axes is modelled), memory, the `__main__` demos, timing. Keyword arguments of the constructors are modelled for `EMD`, `EEMD`, `CEEMDAN`,
`JitEMD` (`Model/Init.lean`) and `EMD2D` (`Model/InitImage.lean`); the other constructors take none.

### How the theorems are tested

`tools/mutate.py` applies a list of hand-written edits to a copy of the model, `tools/automutate.py` generates edits (swapped operators,
shifted constants, exchanged branches, dropped updates); both rebuild and record in `seeded/LOG.jsonl` which declarations fail. An edit
that falsifies a claim while its theorem still proves is a defect of the theorem; the entry names what was tightened.
What an entry means: `caught` says that a proof of the property, or of a lemma it uses, no longer goes through. That is weaker than a
proof that the statement became false: a proof can also break because it unfolds a definition whose text changed (one control entry in
the log, an exchange of arguments without effect, breaks two proofs). Entries whose failures include a `decide`-checked example or
counterexample do show a changed result. A theorem that survives an edit which falsifies its claim is what the test is looking for.
Failing declarations are matched to property theorems by name and file. Entries written before the file was taken into account were
recomputed: lemmas of the same name in another class had put theorems into 16 lists that do not use the edited definition. No verdict
changed.
`tools/manifest.py`, `tools/coverage.py`, `tools/axioms.py` regenerate `MANIFEST.json`, `COVERAGE.md`, `AXIOMS.md`.

### What the proofs revealed about the code

Every item is a theorem with a concrete witness.

* EMD: `get_imfs_and_trend` raises `IndexError` for signals that vanish (C04). A top of two or more samples that starts at index 1 is
  not reported, a flat start followed by a fall is reported when the last step rises (C15). The parabolic detector reports
  shoulders as extrema (C19); a rising staircase has no maxima and three minima, and `emd` raises `IndexError` (C20). Thresholds are
  absolute, so the decomposition depends on unit and offset by default (C74, C75). Two-sample plateaus make the result depend on the
  direction of time (C82). `max_imf=k` may return k-1 components of the unlimited run (C83); `max_imf=0` is unlimited. The attribute
  `scale_factor` is never used. The default spline is not the natural one the documentation announces (C101). The residue may have more
  than two extrema, even with all defaults (C104). Missing samples (NaN) can make the extrema lopsided, and `emd` raises `IndexError` (C111).
  In double precision the product of two tiny steps is zero: minima of a signal of amplitude 1e-170 are missed while flat maxima are found, and `emd` raises
  `IndexError` (C126). Parabolic detection computes a determinant that cancels: from 144264 samples on (about 200 in single precision) it is wrong, from 165144 on no vertex is
  ever found at some of the stamps, from 229007 on maxima are reported as minima, and values of vertices are off by 4 percent at stamp 100000 (C128).
  The accessors hand out the stored arrays: writing into them changes later answers and can make `get_imfs_and_trend` raise (C115).
* EMD of a float32 or float16 signal returns doubles: each component holds narrow numbers, the residue need not (C160), so the result takes twice or four times
  the memory of the input type, and converting it back loses the exact reconstruction that the doubles give.
* `get_timeline`: wrong for float dtypes beyond the exact integers (C26), so `emd` refuses half precision signals of 2050 samples with an
  `AssertionError` about the time array the caller never gave (C112).
* EEMD: in parallel mode trials reuse the same noise (C35). A failed sequential call replaces the ensemble by a partial one (C78). With
  `separate_trends` a vanishing signal raises `IndexError` (C91). One missing sample leaves nothing of the signal (C111). The returned
  array is the stored one, so post-processing it in place changes `get_imfs_and_residue` (C117), unlike `EMD` (C114). Misspelt options go
  unnoticed (C121), among them the `EEMD(max_imfs=2)` of the documentation (C124), and `seed` (C123).
* CEEMDAN: the returned array is the stored one, as in EEMD (C119). `noise_scale=0` raises `IndexError` for every signal (C103), while EEMD without noise is EMD (C38);
  with `separate_trends=True` a signal that vanishes raises `IndexError` (C38).
  The options `range_thr` and `total_power_thr` also replace the thresholds of the inner EMD (C122). `CEEMDAN(max_imf=k)` returns up to k + 2
  components (C124).
* EMD2D: an iteration subtracts the previous mean again (C61); `end_condition` compares the unscaled image with scaled components, so
  the result depends on the unit and components are looked for after the image is exhausted (C80, C94). The envelopes do not pass
  through the extrema: `SmoothBivariateSpline` is called without a smoothing factor, which for images scaled to 0..1 makes it return
  the least-squares bicubic polynomial (C109). The interpolation may be left with too few points (C110).
* BEMD: FIXE = k performs k + 1 iterations (C62); the values given to the interpolator are those of the transposed positions (C63); images
  that are not square raise (C64).
* checks: the a-posteriori verdict of the rescaling component is `mean period > 4` (C53) and other
  verdicts depend on the amplitude (C65); a component that vanishes raises `ValueError` (C51).
* EMD_matlab: `maxImf=1` is unlimited (C55); spurious minimum for a flat start and flat end (C67); the appended residue
  copies the EXT entry of the component before it (C72). Integer samples: knots and envelopes are cut to integers, so all components are
  multiples of one half; unsigned samples raise `Exception("bug")` or give knots in the wrong order (C113). For signals flat at both ends its
  components differ from those of `EMD` even with a fixed number of siftings (C131).
* **The rows of `EEMD` need not add up to the signal, however weak the noise.** If trials have different numbers of rows, row `k` is a mean over the trials that have
  it, and the sum of the rows counts some trials too often: with noise of relative width 1e-6 a signal between 100 and 101 gets rows that add up to 151. The split
  `components[:-1], components[-1]` recommended in the README does not give the residue then (C133; C77 has the sum that does reconstruct).
* **`FIXE = k` gives `k + 1` iterations in `BEMD` and `EMD2D`**, `k` in the other classes; `FIXE_H = k` gives at least `k + 1` there. The documentation
  (doc/usage.rst:34) says that all methods share the two conditions (C62, C68, C134).
* **Integer overflow in `EEMD` and `EMD2D`.** `np.max(S) - np.min(S)` and `image - offset` of signed integers wrap around. int16 samples from -30000 to 30000 get
  noise for a range of 5536 instead of 60000, samples that span exactly 32768 raise `ValueError: scale < 0` (C135); the components of such an image
  miss `2^w` at its brightest pixels (C136). Unsigned samples, and samples that span less than half of their type, are handled like floats.
* **`EEMD` spreads an offset of the signal over its rows.** Trials with different numbers of components put their residues into different rows. Without
  `separate_trends` (the default) row `k` contains the offset with the weight (trials with exactly `k+1` rows) / (trials with more than `k` rows); only with
  `separate_trends=True` the last row takes all of it (C132).
* **`max_imf` is not a mere cut.** With the default stopping rule `EEMD` with `max_imf=k` may return another row `k` than without a limit: a last component with at
  most two extrema is moved into the residue (C142, as C83 for `EMD`). With `separate_trends` trials that vanish give another trend.
* EMD_matlab: a signal flat at both ends gets a spurious minimum at its start, its negative gets no maximum, so the components of `-S` are others (C144).
* BEMD: the seed `image - 1` has a fixed height, so the extrema depend on the unit of the pixels: in an image whose contrast is below 1 (all images scaled to [0, 1)) every pixel is a maximum and a minimum (C147). Symmetric images of that kind, constant ones among them, have components that are zero, and `bemd` without `max_imf` never ends (C149). Since values are looked up with rows and columns exchanged, a mirrored image has other components than the mirrored ones (C154).
* EEMD: without noise the result is EMD's only up to rounding from three trials on, since the mean of equal floats need not be that float (C153). With the same noise, EEMD of -S is not the negated EEMD of S (C150).
* checks: `mean_period` counts tops and ignores bottoms, so `whitenoise_check(-IMFs)` can give other flags than `whitenoise_check(IMFs)` (C146).
* EMD_matlab: the default stopping rule depends on the offset of the signal, and the remainder is reported above an absolute 1e-10 (C140).
* JitEMD: the object stores views of the array that `emd` returns. Post-processing the result in place changes what `get_imfs_and_trend`
  reports, and setting the trend handed out to zero makes the next call take the last component for the trend (C139).
* JitEMD: `get_imfs_and_trend` raises `IndexError` for signals that vanish up to 2e-8 (C57). The documented way of configuring an object
  changes the module's default dictionary, hence every object made without a configuration, before or after (C125). Inside
  `EEMD(separate_trends=True)` it makes `eemd` raise `ValueError`, because its trend has two axes; inside `CEEMDAN` every call raises
  `TypeError`, because the noise is decomposed without a time array (C129). With simple detection it uses the time array, which `EMD` ignores (C130).
* compact: `pade6` is singular for n = 6 (C46).
* Visualisation: `plot_imfs` of a single component without residue raises `TypeError` (C69); instantaneous frequency needs at least
  2, 5 or 7 samples (C58).
* EMD2D is not quite symmetric between bright and dark: the minimum of the image is taken off first and is added to the last row, and whether a residue row is
  appended depends on it. An image and its negative can have different numbers of rows (C162).
* `EMD2D` neither converts nor checks its options and ignores names it does not know: `EMD2D(FIXE="3")` decomposes images without enough extrema and raises
  `TypeError` on the others (C163), whereas `EMD(FIXE="3")` converts the text (C121).
* EMD_matlab: under the default stopping rule a wave keeps a level of up to a twentieth of its amplitude, so the first component need not have mean zero (C166);
  `EMD` takes the level off (C108).
* EMD2D: without `max_imf` it never returns for a chessboard, or any image with grey values whose tops are equally bright and whose bottoms are equally dark:
  every pixel of the level rest counts as a maximum and as a minimum, so that components that are zero are taken off for ever. With `max_imf=k` there are `k - 1`
  zero images among the components (C167).

## 3. Plan per property

* **C01 EMD output adds up to the input.** Model `EMD.emd` with abstract spline. Induction over outer loop is not even needed for the final identity (residue is recomputed); prove from the returned value. Exact arithmetic.
* **C02 Every returned row has the length of the input.** Law-free invariant over the outer loop: every row of IMF has length N (each imf is obtained by elementwise subtraction from the residue).
* **C03 Returned rows and stored components agree.** Law-free, from the model of `emd` + object state.
* **C04 Imfs-and-trend splits the returned rows.** Case split on the residue test. Violated for signals that decompose to nothing: counterexample + `_partial`.
* **C05 Accessors always describe the latest successful decomposition.** Operations as an inductive type, object as state, history = list of operations; invariant by induction; specification is a fold that only remembers the last successful call.
* **C06 A decomposition does not depend on earlier ones.** Follows from the shape of the transition function; proved over histories.
* **C07 max_imf bounds the output and guarantees termination.** Induction over the outer loop with the variant max_imf - imfNo. Law-free.
* **C08 A single sifting always ends within MAX_ITERATION.** Fuel sufficiency of the inner loop and a counter of subtractions. Law-free.
* **C09 FIXE fixes the number of siftings.** Invariant of the inner loop: imf = iterate of the sifting map. Law-free.
* **C10 Default and FIXE_H modes only stop on IMF-like components.** Exit-condition lemma of the inner loop; FIXE_H via an invariant on the counter n_h. Law-free.
* **C11 Signals with at most two extrema are returned untouched.** Unfold one round.
* **C12 Simple detection ignores the time array.** Unfold; law-free.
* **C13 Parabolic decomposition is independent of time unit and origin.** `_normalize_time` is invariant under increasing affine maps; then congruence.
* **C14 Decomposition commutes with negation of the signal.** Simulation proof through all functions (extrema, mirroring, spline, sifting, loop).
  The proof uses only the laws of the class `Symmetric` (`Spec/Symmetric.lean`), which exact arithmetic has and which the numbers of IEEE 754 have
  (`Lemmas/IeeeSymmetric.lean`); so it holds bit for bit in floating point. `np.linalg.solve` for three knots is Cramer's rule in the model; LAPACK rounds
  differently, but is odd in the right-hand side as well.
* **C15 Simple detection reports exactly the local extrema.** Index characterisation of the numpy pipeline (`diff`, `nonzero`, `concatenate`) against a plateau specification. Violated for plateaus starting at index 0 or 1: counterexamples + `_partial` with exact characterisation.
* **C16 Maxima and minima alternate.** From the characterisation of C15 (holds even with the quirks).
* **C17 Zero crossings are counted once.** Run-length specification by structural recursion over the signal.
* **C18 Detection commutes with increasing affine maps and with negation.** The pipeline depends on signs of differences only.
* **C19 Parabolic detection finds an extremum at a sample iff it is one.** Geometry of the parabola vertex: slopes at the two midpoints. Shoulder case is a counterexample to the user-level claim.
* **C20 Monotone signals have no extrema.** Simple: from C15's characterisation. Parabolic: counterexample (staircase), including the resulting crash.
* **C21 Envelope knots are strictly increasing and cover the whole time range (simple).** Case analysis of the mirroring code with sorted index lists.
* **C22 EMD with simple detection never raises.** Combines C16, C21, C24 and the loop structure.
* **C23 Envelope knots are increasing and cover the time range (parabolic).** Case analysis; alternation as hypothesis.
* **C24 The three-point cubic spline is the natural spline through its points.** Cramer's rule for the 3x3 system (np.linalg.solve is modelled by the exact solution), then field algebra.
* **C25 Time normalisation.** Lists; minimum of differences.
* **C26 get_timeline enumerates the samples.** dtypes as an inductive type, integers wrap modulo 2^w, floats round to nearest even at p bits. Floats violate the claim: counterexample + `_partial`.
* **C27 smallest_inclusive_dtype is big enough and smallest.** Decision logic.
* **C28 unify_types yields one common type.** Promotion table of numpy for int/uint/float dtypes.
* **C29 Decomposition stops exactly when documented.** Decision logic, exact arithmetic.
* **C30 check_imf never accepts a component with extrema on the wrong side.** Decision logic, exact arithmetic, zero denominators explicit.
* **C31 EEMD averages each order over the trials that have it.** Dictionary = association list in insertion order; invariant over trials.
* **C32 EEMD ensemble counts.** Same invariant.
* **C33 EEMD separates trends into the last row.** Same invariant with key -1 and the final rename.
* **C34 EEMD rows plus residue give the signal.** Unfold; exact arithmetic.
* **C35 EEMD trials use independent noise.** RNG as abstract state machine. Sequential: proved. Parallel: trial t reuses draw t mod chunksize: negation + `_partial`.
* **C36 EEMD is independent of worker scheduling.** Chunk results stored by index; permutation invariance.
* **C37 EEMD is reproducible.** Object state machine; induction over calls.
* **C38 EEMD without noise is EMD.** Mean of equal rows.
* **C39 CEEMDAN is complete.** Telescoping; exact arithmetic.
* **C40 CEEMDAN respects max_imf.** Bound on loop iterations.
* **C41 CEEMDAN is independent of worker scheduling and of parallelism.** Sum over a permutation with row padding.
* **C42 CEEMDAN stages are differences of local means.** Loop invariant prev_res = S - sum(all_cimfs).
* **C43 CEEMDAN releases its noise and reports the latest run.** State machine.
* **C44 TDMAsolver solves the tridiagonal system.** Induction over the system size, forward elimination and back substitution.
* **C45 filt6 preserves smooth signals.** Pivot bound by induction, polynomial identity at each row, uniqueness from C44.
* **C46 pade6 differentiates polynomials exactly.** Pivots computed through an invariant interval; n = 6 is singular: counterexample + `_partial`.
* **C47 EMD2D mirrors images without seams.** Functions on indices; reflection specification.
* **C48 EMD2D and BEMD outputs add up to the image.** As C01 over arrays of arbitrary shape.
* **C49 EMD2D and BEMD respect max_imf.** As C07.
* **C50 EMD2D extrema are local extrema in the interior.** Model of the 3x3 maximum filter.
* **C51 White-noise check reports one flag per component.** Decision logic with abstract peak counting.
* **C52 White-noise significance is monotone in the confidence level.** Real analysis over ℝ with abstract quantile.
* **C53 The rescaling component of the a-posteriori test lies on the band.** Real analysis; violated: verdict is (mean period > 4). Counterexample + `_partial`.
* **C54 EMD_matlab output adds up to the input.** As C01.
* **C55 EMD_matlab respects maxImf.** As C07; maxImf = 1 violates it: counterexample + `_partial`.
* **C56 JIT extremum detection agrees with the reference.** Functional equality of the two models.
* **C57 JitEMD separates imfs and residue.** Counterexample + `_partial`.
* **C58 Instantaneous frequency.** Lists.
* **C59 Visualisation takes components from its arguments first.** Decision logic.
* **C60 Default mode only keeps components that pass check_imf.** Exit condition of the inner loop, spelled out with the thresholds.
* **C61, C62 Iterations of EMD2D and BEMD.** Iterate of an independent sifting map; both violated: counterexamples + `_partial`.
* **C63, C64 BEMD positions and shapes.** Violated: counterexamples + `_partial` for symmetric and square images.
* **C65 A-posteriori test and amplitude.** Real analysis; counterexample + `_partial`.
* **C66 JitEMD is a drop-in replacement for EMD.** Simulation of the two loops, error by error.
* **C67, C68, C70-C72 EMD_matlab.** Same techniques as for EMD: detection compared with C15's specification, iterate of the sifting map,
  exit conditions, invariant on the dictionaries.
* **C69, C85 Plots.** Axes as an association list; C69 violated for a single component.
* **C73 Unsupported options are refused.** Case analysis.
* **C74, C75, C80 Offset and unit.** Simulation along `x ↦ a x + b` through all functions (`Lemmas/Affine.lean`); thresholds of zero are needed.
* **C76 CEEMDAN and units.** Simulation; noise is scaled by the standard deviation.
* **C77, C92, C93 EEMD statistics.** Sums over the ensemble, exchanged with sums over orders.
* **C78 EEMD accessors.** Object state machine; violated after a failed call.
* **C79, C94 Stopping rules.** Loop invariants: every earlier prefix fails the rule, the last one satisfies it.
* **C81 Mirror rule.** Case analysis of `prepare_points_simple` against a rule stated with reflections.
* **C82, C86, C87, C90 Symmetries.** Simulation under reversal, reflection, transposition; uniqueness of the tridiagonal solution (C44).
* **C83, C84, C88 Limits and recursion.** Lock-step simulation of two runs with different limits, or of a run and its continuation.
* **C89 Image envelopes.** Peaks of the mirrored image are the given points; read back at the offset of the middle tile.
* **C91 EEMD raises nothing unexpected.** C22 for each trial, propagated through both execution modes.
* **C95 Rounding errors.** The law-free residue identity (C03, C34) plus the error of a left-to-right sum; four-bit numbers as instance.
* **C96, C97 Envelopes.** Detected extrema survive mirroring and de-duplication as knots (C17, C18); per interpolator: value at a knot, and
  monotone pieces (Fritsch-Carlson) for pchip.
* **C98, C99, C100 Interpolators.** One lemma per slope rule; reversal and uniqueness through diagonal dominance of the tridiagonal systems.
* **C101 Natural spline.** A cubic piece is determined by its values; `y = x^2` has second derivative 2 at the end.
* **C102, C103 CEEMDAN returns or raises.** C22 for every inner decomposition; a residue above `range_thr` cannot vanish under usable noise. A zero
  signal has no rows (C20), so the first component is missing.
* **C104, C105 End of a decomposition, defaults.** Invariants of both loops; the last `extNo` is that of the last round.
* **C106 EMD_matlab raises nothing.** Extrema are blocks between slopes of opposite sign, so maxima and minima alternate; mirroring about the
  time of a sample or of the border gives strictly increasing knots for every strictly increasing time array (`Verif/Lemmas/PointsTime.lean`).
* **C107 Contracts discharged.** The theorems with contracts applied to the interpolators of `Verif/Model/Scipy.lean`.  `interp1d(kind="cubic")`,
  which `EMD_matlab` uses, is the not-a-knot cubic spline like `CubicSpline`.
* **C108 Waves.** All knots of each envelope lie at one value (C15, C81), interpolators keep constants, so the mean envelope is the level from the
  first sweep on and the second sweep changes nothing; the residue is constant and has no extrema.
* **C109 Polynomial envelopes.** `p = 0` meets the bound on the misses for values between -1 and 1; the copies of an extremum inside the image span
  the middle tile; a cubic polynomial cannot alternate four times (fourth divided difference). Best fits exist over the reals by projection.
* **C110 EMD2D returns.** Four copies of each of five extrema are twenty points. Counterexample with a surface that leaves a plane.
* **C111 Missing samples.** NaN minus anything is NaN, through every sifting step and the residue. For EEMD: `np.max` of a signal with NaN is NaN, so
  the noise, every trial and the mean are NaN; a signal of NaN has no extrema (C11).
* **C112 Types in EMD.** `Model/Types.lean` repeats the statements in front of the loop with dtypes; equal to the untyped model where `get_timeline` is right
  (C26) and the common type holds the samples (C28). Where it is not right two neighbouring stamps round to the same number.
* **C113 Types in EMD_matlab.** Half-integers are closed under the sifting step because both envelopes are integers. Bytes as a scalar type of their own.
* **C114, C115 Arrays in memory, EMD.** `Model/Memory.lean` is a state monad over a memory of arrays; `Sim` relates a computation on it to one on values:
  equal results, cells below a bound kept. Every assignment of the loop goes to a cell allocated after the bound.
* **C116, C117 Arrays in memory, EEMD.** `_all_imfs` keeps references; cells they point to are never written again, so reading them at the end gives
  what they held at the end of their trial.
* **C118, C119 Arrays in memory, CEEMDAN.** The same simulation; `local_mean` and `E_IMF` are allocated after the bound, so the stored decompositions of the
  noises lie below it during every later stage.
* **C120 Sessions.** `Session` lists what a user can do between two calls. Configuration and the protected arrays survive every step (C116, C118), and the
  result on values depends on configuration, seed and arguments (C37, C43).
* **C121 Options of EMD.** The constructor reads names from the keywords; the specification is a fold of assignments. Both are related field by field
  (`Fields`); one assignment at the head of the list changes one field, for distinct names.
* **C122, C123, C124 Ensemble constructors.** The constructors depend on the keywords through look-ups of their own names (`emd_congr`). C124 adds C40.
* **C125 Dictionaries of JitEMD.** Histories of dictionary operations; the dictionary of an object changes only by an assignment to it.
* **C126 Simple detection in floating point.** Detection sees only the signs of steps, of products of steps, and of samples. Rounding keeps signs, an overflow
  keeps them too; only a product that underflows can lose one. So the indices equal those of the exact values (`extremaIdx_val`), and C15, C17 apply.
* **C127 Knots in floating point.** Whole numbers up to `2ᶠ⁺¹` are exact (`IsInt`). The run of `prepare_points` in floats follows the one in real numbers step
  by step (`Tracks`), and C21 applies. The first gap (`2ᶠ⁺¹ + 1`) gives two equal stamps.
* **C128 Parabolic detection in floating point.** Exact determinant while it fits (`det_exact`), sign of the leading coefficient by monotone rounding
  (`IeeeMono`). Counterexamples by evaluation.
* **C129 JitEMD inside ensembles.** `EEMD` with any object in place of `EMD` (`Model/External.lean`). An object that simulates `EMD` leads to the same result
  (`eemd_sim`); `JitEMD` does, by C130. With `separate_trends` the dictionary of components holds arrays with one and with two axes (`Mixed`), and stays so.
* **C130 Time arrays of JitEMD.** Every step of `JitEMD` with simple detection commutes with `t ↦ c t + b` (`JitTime`); an equidistant array is such an image of
  `0, 1, …`, where C66 applies.
* **C131 EMD_matlab and EMD.** C09 and C68 describe the components of the two classes as `k`-fold siftings of what is left of the signal. Detection agrees by
  C67, the knots because the time stamps `0, 1, …` identify their indices, the three-point spline because the knots cover the time stamps (C21). Induction over
  siftings and components; residues are unique.
* **C132 Offset and units in EEMD.** `noise_width * |max - min|` follows the units and ignores the offset, so that with a generator whose noise is proportional
  to its width the trials are transformed signals plus transformed noise. C74/C75 (`emdPure_aff`) for each trial, then linearity of the means.
* **C133 The last component.** From C01, C39 and C93; `LastIsRest` states it for any list of components.
* **C134 FIXE and FIXE_H for images and EMD_matlab.** The list of iterations made so far goes through the induction over the inner loop; `Stops` states the
  documented rule on such a list, `EndsWith` that it is met for the first time. For EMD_matlab the invariant of C68/C70 gets the count of IMF-like results.
* **C135, C136 Integer samples.** `Model/IntSamples.lean` repeats the statements of `eemd` and `emd` that are integer arithmetic for integer arrays; what follows
  works on floats. `wrap` is congruence modulo `2 ^ w`; a difference of two values of a type is exact or off by `2 ^ w`. Not modelled: the conversion of
  64-bit integers to floats rounds (exact numbers here); numpy's warning about overflow of scalars.
* **C137 Rounding errors elsewhere.** The residue of `JitEMD`, `EMD_matlab`, `BEMD` is `S - sum(imfs)` as in EMD, so `residue_err` of C95 applies; for EMD2D the
  errors of normalising and of scaling back are bounded by induction over the components at a pixel (`rescaled_err`, `normalise_err`). Division by and
  multiplication with 1.0 are exact in IEEE 754 (`C137_unit`), so `scale = 1.0` of EMD_matlab does nothing.
* **C138 Arrays of JitEMD and EMD_matlab.** Programs on a memory of arrays (`Model/MemoryMore.lean`) simulate the value models (`Sim`). The inner
  loops write into no array, so they are computed on contents. `EMD_matlab` multiplies components in place, which needs distinct addresses (`scaleAll_eq`).
* **C139 Stored results of JitEMD.** Views into the returned array; counterexample + `_partial`. Images are not done: `EMD2D` and `BEMD` write only into
  the fresh array `IMF * scale`.
* **C140 Units in EMD_matlab.** Two runs related step by step (`RelX`, offsets of `imf` and of `mean` tracked separately: the first pass subtracts
  nothing, the second one the offset). Without a limit the run ends at a trend, whose remainder is zero, so the equality is one of whole results.
* **C141 Recursion in EMD_matlab.** Two runs in lock step, the second one `j` rounds behind; an invariant relates counters, dictionaries and residues (as C88).
* **C142 Limits in EEMD.** The noise does not depend on the limit, the trials agree on their first rows (C83), rows are averages over trials. Counterexamples for
  the last rows.
* **C143 JitEMD on equidistant arrays.** Corollaries of C14, C22, C88 through C130.
* **C144 Negation in EMD_matlab.** As C14 (`RelE`), with the sequences searched for extrema as an inductive predicate (`Sees`); counterexample for flat ends.
* **C145 Peaks.** Membership in the list of `_local_maxima_1d` by induction on the loop (tops starting at or after the index), then counting by injections.
* **C146 Locality of the verdicts.** Unfold the two loops; the reversal by C145 and commutativity of the sum; counterexample for the sign by C145.
* **C147 Extrema found by BEMD.** `reconstruction` by its definition: after k dilations the value at p is at least v iff a walk of length at most k over mask values ≥ v leads from a seed value ≥ v to p; a path needs no more steps than there are pixels (`SimpleGraph`).
* **C148 Negation in BEMD.** As C14 (`RelE`), with the envelopes exchanged.
* **C149 Does BEMD end.** All pixels of an image of low contrast are extrema (C147), so both envelopes are the image mirrored at the diagonal; if that is the image itself, every component is zero.
* **C150, C151 Negation in EEMD and CEEMDAN.** From `emdPure_vneg` (C14) for the inner object, trial by trial; the generator of the second run draws the negated noise (`Mirrored`), whence the same states; the pool by `poolMap_rel`. For IEEE 754 numbers the same proof, since it uses only `Symmetric`.
* **C152 Time axis of the ensembles.** `emdPure` sees the time array only through `prepareTime`; induction over trials and stages, with the lengths of the residues for `T=None`.
* **C153 EEMD without noise in floating point.** The law-free part of C38 (every sample becomes the computed mean of equal numbers), then exactness of sums and quotient; counterexample by evaluation. `C153_bound` bounds the difference for any number of trials up to 2^(f+1): relative error (1+u)^(trials+1)-1 plus half the smallest subnormal.
* **C154 Directions in BEMD.** With the characterisation of the positions (C147) these move with the image for every one-to-one map that keeps neighbours; the values move along only if the map commutes with the exchange of rows and columns. Square images; counterexample by evaluation for the mirror.
* **C155 `Rbf`.** Kernel matrix and inverse from Mathlib; a permutation of the points is a reindexing of the matrix, an isometry leaves it unchanged. Two and three points by the determinant.
* **C156 EEMD respects max_imf.** Rows of the ensemble are the orders present in some trial (`height`); C07 for each trial.
* **C157 EMD2D and BEMD and the caller's arrays.** Simulation as in C114; the memory only grows, the one in-place assignment goes to an array just created.
* **C158 No exception in floating point.** The argument of C22 without laws of arithmetic, for runs whose sequences cause no trouble; the knots are whole numbers of at most 2^(f+1) (C127), so the determinant 6ab(a+b) of the three-point spline stays away from zero by the standard model of rounding.
* **C159 Symmetries of JitEMD.** Carried over from C74, C75, C82 and C108 along C130, which equates JitEMD with EMD on equally spaced times.
* **C160 Signals in single and half precision.** `EMD.emd` with two scalar types; C95's error bound with the wide type's rounding unit; exact sums by divisibility of the numerators.
* **C161 Direction of time in EEMD.** C82 in each trial, carried through the trials, chunks, dictionary and averages as in C150; the reversal of sums needs that all rows have as many samples as the signal.
* **C162 Negative images in EMD2D.** Invariant of sifting: the image upside down up to a constant, which is the difference of the constants of the proto-mode and of the previous mean envelope; the constant stays within one, so that `np.allclose` of successive proto-modes can only fire after the test of a flat envelope.
* **C163 Options of EMD2D.** A fold of assignments over the five attributes; attributes that compare like whole numbers give the model's sifting step by step; the first comparison with a value of a wrong type raises.
* **C164 Direction of time in CEEMDAN.** C82 for each row of noise, each stage's trials and the tests of the end; the relation "all rows run backwards" is carried through the noise's decomposition, the accumulated means and the stages as in C161.
* **C165 Direction of time in EMD_matlab.** Without plateaus its extrema, knots and curves are those of EMD (C67, C131), whose reversal is known (C82); then the loops as in C144, with `RelX`, which compares exceptions too.
* **C166 Waves in EMD_matlab.** Both envelopes of a wave are constant (as in C108), so the first pass sees the wave, every later one the wave without its level; the only way to stop after the first pass is the default rule. The second round meets a constant and ends.
* **C167 Patterns in EMD2D.** Tops and bottoms of the mirrored image are those of the image, so both envelopes are level; any number of iterations gives the pattern around zero (the mean subtracted twice is added back by the next envelope). The rest is level, all of its pixels are tops and bottoms, and every further component is zero.
* **C168 Few extrema in EMD2D and EMD_matlab.** Scaling keeps tops and bottoms, so the first sift stops at once and hands back the scaled image; scaling back undoes it. In a signal that turns once no bottom follows a top (or no top a bottom), and between two extrema of a kind lies one of the other, so each kind is found at most once, also with the wrap-around at flat ends (C67).
* **C169 One turn in EMD and JitEMD.** The extrema EMD finds are among those of EMD_matlab, of which there are at most one of each kind (C168); then C11, and for JitEMD (which finds the extrema of EMD, C56) the single round of its loop.
