# Formal model of py-edge-eval — design

Source: `/repo` (read as text, never run). Model: Lean 4.33.0 with Mathlib, in `/verif/lean/Verif`.
Properties: `properties.jsonl`. Theorems per property: `MANIFEST.json`. Axioms per theorem: `AXIOMS.md`.
Wrong programs the theorems were tested against: `seeded/LOG.jsonl`.

## Layout

* `Verif/Model/*.lean`  – the model, function by function; every definition cites file and lines, and says where it simplifies.
* `Verif/Spec/*.lean`   – small specifications used in theorem statements, independent of the model's helpers
  (topology of pixel sets, boundaries by Euclidean distance, one-to-one matchings, harmonic means, texts by lines, …).
  Some short specification predicates sit at the top of the `Props` file that uses them, under "Specification".
* `Verif/Lemmas/*.lean` – helper lemmas.
* `Verif/Props/*.lean`  – the property theorems `Cxx_…` (namespace `EdgeEval.Props`), with `example` witnesses showing that
  concrete, non-trivial cases meet the hypotheses.

## Conventions

* Numbers: thresholds, scores, counts, responses are exact rationals `ℚ`; distances, matching costs and the NMS pipeline are
  reals `ℝ`; the assignment solver works on integers. Floating-point rounding is modelled for the scores (C55), the assignment solver (C56) and the pixel matcher (C57), and nowhere else (see the trusted base).
* A 2-D array is `Img α` = rows, columns and a total pixel function of which only in-range pixels are observable.
* Exceptions are values (`Except PyErr α`); a loop without a bound in the code gets fuel and a proof that enough fuel exists
  (`Run α = Except PyErr (Option α)`, `none` = out of fuel).
* Worker pools are arbitrary event sequences (which worker takes what, in which order results arrive).
* The random sampler's stream is a universally quantified argument.
* Files are functions from paths to contents; paths are POSIX strings.
* External libraries (scipy/cv2 distance transforms, PIL, OpenCV, `json2labelImg`) are parameters or exact mathematical
  definitions; the assumption is recorded at the definition and below.

## What is modelled and how each property is proved

| id | modelled code | proof |
|----|----------|-----------|
| C01 | common/metrics.py over ℚ | field arithmetic, case split on zero denominators |
| C02 | f1 | ordered-field algebra |
| C03 | check_thresholds with a Python-value sum type | closed form of linspace |
| C04 | interpolated maximum: the double loop | fold invariant |
| C05 | calculate_metrics: the sample loop | fold = sum; permutation invariance |
| C06 | pool as event sequence with reorder buffer | induction over schedules; termination for every fair one |
| C07 | np.argmax as first-maximum scan | induction over the list |
| C08 | AP loop over 101 recall points | bounds and monotonicity of interpolation |
| C09 | np.unique, np.interp, AUC sum | sortedness and convexity |
| C10 | evaluate_boundaries (binary, multiple-gt, multi-label) down to the matcher and thinning | cardinalities, induction over thresholds |
| C11, C12 | match.cc, correspond_pixels.pyx, csa.hh | graph numbering injective, decoding inverts it, solver result optimal |
| C13 | match.cc graph construction, kofn sampling of outliers | explicit perfect matching, every C assertion discharged |
| C14 | kofn.cc, both algorithms, random stream as argument; uniformity by counting the streams of M equally likely draws | loop invariants; the sampler as a tree of uniform draws, hypergeometric split, counting |
| C15 | cost in match.cc | sum over decoded edges |
| C16 | csa.hh: solver loop (double push, refine, ε scaling) as in the source, with fuel | ε-complementary slackness invariant, duality, termination measure |
| C17–C20 | thin.py, bwmorph_thin.py with their 512/256-entry tables | measure decreases; tables checked entry by entry by the kernel and lifted to all images; digital topology |
| C21 | benms.cc, nms.pyx | interval arithmetic of bilinear interpolation |
| C22, C23 | edge_encoding.py, edge_decoding.py | bit-level reasoning |
| C24, C25 | convert_formats.py and the label tables | pointwise |
| C26 | instance ids as digit strings | decimal arithmetic |
| C27 | numpy slices of add_ignore_pixel | intervals |
| C28–C30 | mask2edge_loop/mp.py, transforms.py, distance_transforms.py | geometry of distances, a gap theorem for sums of two square roots against rounding; fold over labels |
| C31 | kill_internal_prediction | geometry, integer dtype semantics |
| C32, C33 | evaluators/*.py parameter state machine and category loop | induction over call histories |
| C34–C36 | progressbar.py, timer.py, logger.py state machines | induction over histories |
| C37 | io.py, `"{:<10.6f}"` formatting and np.loadtxt | rounding, print/parse round trip |
| C38 | pr_curve.py, visualize.py loader | field arithmetic |
| C39 | scripts/other/pascal_voc_colormap.py | bits |
| C40 | correspond_pixels.pyx guards | cases |
| C41 | thresholding | pointwise |
| C42 | helpers/evaluate_*.py command lines | strings, plans |
| C43 | the matcher as a whole on few pixels | augmenting paths against optimality of the solver |
| C44–C46 | preprocess/nms/toolbox.py, fast_nms.py over ℝ | convolution with a triangle, gradient algebra, arctan |
| C47, C48 | evaluators: sample names, split files, sample records | state histories, path arithmetic |
| C49 | datasets/*.py for one sample, scaling, on-the-fly ground truth | nearest-neighbour cells; C28/C30 |
| C50 | evaluators + calculate_metrics + pool + save, end to end | composition of the above |
| C51 | utils/path.py scandir, mkdir_or_exist, symlink, check_file_exist | induction over directory trees |
| C52 | helpers/convert_cityscapes.py, one label file | C28/C30/C17/C19, codec, C29 for the agreement with the evaluator |
| C53 | helpers/convert_cityscapes.py, whole dataset; its file names against the evaluators' | string replacement lemmas, path arithmetic |
| C54 | helpers/convert_sbd.py, scripts/convert_datasets/sbd.py | as C52, C53; `C54_one_content` (no file is written with two different pictures) by tracing every written file back to a job and the distinctness of the names |
| C55 | common/metrics.py, utils.py, calculate_metrics.py with a rounding after every float operation (`Model/MetricsFloat.lean`) | error analysis for an arbitrary rounding to nearest; closed form of the run (sums of whole numbers are exact); `C55_exact` ties it to the exact model |
| C56 | csa.hh with a rounding after every `double` operation (`Model/CsaFloat.lean`) | validity for an arbitrary rounding from the structure invariant of C16; optimality by a rounding-error version of ε-optimality; termination and price bounds by alternating walks, with the error of each step bounded by the size of the prices; `C56_no_rounding` ties it to the model of C16 |
| C57 | correspond_pixels.pyx and match.cc with a rounding after every `double` operation and a correctly rounded square root (`Model/MatchFloat.lean`) | the rounded run is the exact matcher with a perturbed tolerance and outlier cost (`matchWith`), the integer weights are shown equal to the exact ones, the solver is C56's; relative-error calculus for the cost sum |
| C58 | the list of all `int`/`unsigned` values of one matcher call (`Model/MatchInts.lean`) | bounds of nodes, edges, weights from C57's lemmas; lower bound of the total cost of any perfect matching of the graph for the overflow |
| C59 | `Random.cc/.hh` as a 48-bit linear congruential generator (`erand48` as specified by POSIX) and kofn.cc with a rounding after every operation; the outcome of its logarithm test is a parameter (`Model/Random.lean`) | period by a 2-adic induction on geometric sums; range by relative error; every row choice of the rounded sampler is replayed by a stream of the exact sampler (`kRows3_onto`), which is how C57 and C58 cover the rounded sampler |
| C60 | fast_nms.py:87-160, pictures as a partial map from paths; loaders and thinning arbitrary (`Model/NmsBatch.lean`) | loop invariants over every prefix of the run, injectivity of the output names |
| C61 | `plot_pr_curve` (both versions) and `_calc_r50` on file contents; argsort and float32 storage are parameters (`Model/Plot.lean`) | permutation and sortedness of the index list, interpolation lemmas of C09 |
| C62 | `csa.hh` with its arrays: blocks with sizes and uninitialised cells, checked reads and writes, null pointers; `parse` with the counting sort, `best_build`, `double_push`, the stack, `refine`, the scaling loop, `store_results` (`Model/CsaMem.lean`) | simulation: the blocks hold the state of the abstract solver of C56 after every step (`Static`, `Dyn`), so every access is in range and initialised |
| C63 | `match.cc` and `kofn.cc` with their arrays, vectors, loops and assertions, statement by statement, calling the solver of C62 (`Model/MatchMem.lean`) | loop invariants (`Arr.Is`: the cells hold a given function); every loop is refined to the list-based model of `Model/Match.lean`, so every access is in range, initialised, and every assertion holds |
| C64 | the class `Matrix` (constructors, destructor, `operator=`, copy, element access) on a heap with `malloc`/`free`; `benms.cc`, `_nms`, `nms`, `_correspond_pixels`, `correspond_pixels` and the parts of `match.cc` that touch matrices as programs over `Matrix` objects and Fortran arrays, including Cython's temporaries and view casts (`Model/MatrixMem.lean`, `Model/MatrixProg.lean`) | refinement of the heap machine by a value semantics (`Spec/MatrixMem.lean`) for every program, by induction on the program; then symbolic execution of the two wrappers on values |
| C65 | `benms.cc`, `nms`, `conv_tri` (with `scipy.signal.convolve2d`) and `fast_nms` with an arbitrary rounding to nearest after every operation, in double and single precision, arbitrary summation order in the convolution, arbitrary `cos`/`sin` (`Model/NmsFloat.lean`) | error bounds operation by operation (`Lemmas/NmsFloat*.lean`); the tent interpolation is Lipschitz, so a small error of the position gives a small error of the sample |
| C66 | all of `Sort.hh` (`Model/Sort.lean`): checked array, comparison as an arbitrary function of two elements, loops with a budget, asserts as faults | Hoare-style postconditions by induction on the budget (`Lemmas/Sort.lean`, `SortSel.lean`): the three-way partition invariant, permutation composed from swaps; a larger budget gives the same result (`SortFuel.lean`) |
| C67 | shape operations of `Matrix.cc` (`Model/MatrixOps.lean`): checked blocks in column order, garbage in fresh memory quantified | spec `Is m r c f` (`Spec/MatrixOps.lean`: an object represents a matrix function); loop invariants over (row, column) (`Lemmas/MatrixShape*.lean`) |
| C68 | access, `find`, `gather`, `scatter`, `ind2sub`, `sub2ind`, submatrices, diagonals (same model; `(int)` conversions on rationals) | loop invariants; failing loops by a lemma about the first failing step (`Lemmas/MatrixIndex.lean`) |
| C69 | `sum`, `prod`, `any`, `all`, `min`, `max` and the row/column versions | folds by induction, `First` invariant for extremes (`Lemmas/MatrixReduce*.lean`) |
| C70 | elementwise operations (element function as a parameter), `isequal`, `mtimes` (the `NOBLAS` branch that setup.py compiles), `linspace` (exact) | three nested loop invariants for the product |
| C71 | the scalar functions of `Matrix.cc:56-80` (`Model/MatrixFun.lean`), exact real arithmetic | inequalities |
| C72 | the index and size expressions of `Array.hh` in arithmetic modulo 2³² (`Model/ArrayHH.lean`) | spec `rank`/`unrank` (`Spec/ArrayHH.lean`), induction over the dimensions |
| C73 | programs over `Array1D`–`Array4D` on a heap: constructors, `resize`, `init`, element access with and without assertions, `data()`, destructor, the compiler's copy operations (same model) | simulation of the heap by index functions (`Lemmas/ArrayMem.lean`) |
| C74 | `Timer.cc`: members that may be unset, clock readings as arguments of the calls, `formatTime` with its buffers (`Model/CTimer.lean`) | induction over the calls; digits of the clock text, rounding to nearest even |
| C75 | `String.cc`/`String.hh` on a heap of character blocks with unset cells: constructors, `_grow`, `_append`, formats as lists of pieces with arguments, `nextLine`, comparison (`Model/CString.lean`) | value semantics of programs (`Spec/CString.lean`), simulation with the invariant "every block belongs to one string" (`Lemmas/CStringProg.lean`) |
| C76 | `Exception.cc` on the same heap; the formats of all `throw Exception (String (...))` of `Matrix.cc` (`Model/MatrixMsg.lean`) | length bound per format, induction over the copies |
| C77 | construction and destruction of `CSA` objects as programs over a heap of tagged blocks, with a schedule of failing requests (`Model/CsaLife.lean`; contents from `Model/CsaMem.lean`) | invariant of the heap over the commands; case analysis over the ten requests |
| C78 | the pool of C06 with a state per worker process (`Model/Workers.lean`), and `evaluate_category` on top of it (`Model/WorkersEval.lean`) | simulation of the stateful pool by the pool of C06 for the function that knows each task's start state (table of start states by recursion over the schedule) |
| C79 | `test_edges`, `test_against_matlab` (`Model/MatlabTest.lean`): path rewriting, numpy comparison with broadcasting, tally, pool | replacement lemmas of C53 for `gtProc`, C06 for the pool, counting lemma for index tuples, C52/C53 for what the converter wrote |
| C80 | `loadmat`, `sparse2numpy`, the SBD, sample-list and BSDS loaders (`Model/MatFile.lean`) on MATLAB values as `scipy.io.loadmat` and `pymatreader` (library behaviour, `scipyOf`, `pymatOf`) present them | loop invariant for scattering a sparse matrix, case analysis on the sizes that squeezing changes |
| C81 | the script of C54 with the loaders of C80 underneath (`Model/SbdFiles.lean`): from MATLAB files, lists and directory answers to the written pictures | what a loader returns agrees with the stored annotation on the picture (C80), every documented picture depends on the annotation on the picture only, then C54 |
| C82 | the BSDS `evaluate` of C50 with the old loader of C80 underneath (`Model/BsdsFiles.lean`) | what the loader returns agrees with the stored annotations on the pictures, the counts depend on these only; then C50, and for unreadable files the first failing sample of C06 |
| C83 | `parse_args` of all commands and what their `main` does with it (`Model/Argparse.lean`: `argparse` as library behaviour, the seven parsers, the hand-over to `Cli`, `Convert`, `ConvertSbd`, `MatlabTest`) | grammar of command lines as an inductive relation (`Spec/Argparse.lean`); induction over the words in both directions; each command's values read off the grammar |
| C84 | the evaluation commands from the words to the results (`Model/Commands.lean`: `normpath`, output directory, log file, sample names with the second attempt, `multi`, `cityRaw`, `cityThin`, `sbd`, `bsds`, `script`) | composition: C83 gives the options, C47 the samples, C42/C04 the protocol, C50/C82 the scores; `_evaluator` theorems name the evaluator object each command runs; every early stop separately; `_missing` theorems (`Props/CommandsMissing.lean`): what is missing stops the command; `_place` (`Props/Paths.lean`): where a path leads (`Spec/Paths.lean`, no symbolic links) and that `normpath` does not change it, for every path |
| C85 | the conversion commands from the words to the files (`Model/ConvertCommands.lean`: the output directory, the phases, any order of the jobs of a phase with several processes; after a job that raises, what other workers still write is left out) | composition: C83 gives the options, C53/C81 the files in the listed order, `C53_order_irrelevant` and a permutation argument the other orders; every early stop separately; `Props/ConvertThenEvaluate.lean` then chains the conversion command with the evaluation command (C84): what the first leaves on disk is what the second asks for, so a default conversion followed by an evaluation over the user's predictions ends normally with sound scores. Finding: with any other `--out-dir` the evaluation ends in an `AssertionError` (`C84_*_missing`), it only knows `gtEval`; likewise with a different opinion on `--nonIS`, or `--half` after `--only-full-scale` (`C85_mismatch_raw`): edge maps of the other kind are never scored in their place |

No property on the list is inexpressible; where a claim turned out false, the theorem states what is true instead (findings).

## Trusted base

* Lean's kernel (4.33.0) and Mathlib's definitions (no own axioms; no compiled-code tactics).
* Axioms: only `propext`, `Classical.choice`, `Quot.sound` (each theorem: `AXIOMS.md`).
* That the model says what the code does. It was written by reading; it was never run against the code.

### Idealisations inside the modelled code

* Floating point: all float arithmetic is exact, except in C28 and C30 (rounded distance transforms), C55, which redoes the score computation, and C56 and C57, which redo the
  assignment solver and the pixel matcher, with an arbitrary rounding to nearest binary64 after every operation (no overflow, NaN or signed zeros: the quantities
  stay far below 2^1024; x87 excess precision or fused operations are other roundings, covered only by `C56_valid`). Otherwise C04, C07–C09 (ties between equal scores), C11 (distance
  exactly equal to the tolerance; see C57), C44–C46 are about exact arithmetic.
  C65 redoes `nms` and `fast_nms` with rounding in double and single precision (no fused multiply-add, no overflow or NaN; the
  orientation map, whose gradients and arctangent are not traced, is an arbitrary map there).
* `match.cc` computes in `int` with multiplier 100; the model's integers are unbounded. C58 traces every `int` and `unsigned` of
  the wrapper, of `match.cc` and of the graph handed to the solver and gives the sizes below which none overflows. So are those
  of `kofn.cc` (`C58_kofn`). The loop counters inside `csa.hh` are not traced; the solver's running total is, and overflows.
  C `assert`s are modelled as failures and proved never to fire (C13), so compiling with `NDEBUG` makes no difference there.
* Memory (C62, C63): an array is a block with a size and cells that are uninitialised until written; pointers are indices into
  their block, struct fields are separate blocks of equal length, `std::vector` is a list with checked reads. Allocation
  succeeds (`malloc`, `new`, `push_back`); freeing is modelled for `Matrix` and the arrays of the wrappers (C64), for `Array.hh` (C73), strings and exceptions (C75, C76) and
  the solver object, there with failing requests (C77); the arrays of `match.cc` are those of C73. `int` is unbounded
  there (widths are C58). `Matrix` is read as a two-dimensional array with its own index formula. The reads of `benms.cc` are
  bounds-checked in `Model/Nms.lean` (C45). The floating tests of the sampler are exact in C63 (rounded in C59).
* The distance transforms of OpenCV and SciPy, and the addition of their results, are functions with the hypothesis
  `SoundDT` (Spec/Boundary.lean): 0 outside, the *rounded* least Euclidean distance inside, at least radius + 1 if there is
  nothing to be near to, sums rounded. The rounding is any that is fine enough for the radius: `C28_binary32` (round to
  nearest in binary32, radius up to 31) and `C28_binary64` (radius up to 4800) derive it. That cv2's `DIST_MASK_PRECISE`
  returns correctly rounded distances is assumed. SciPy's transform of an all-ones array is undefined; `C28_no_full_image`,
  `C30_no_full_image` do without that clause, `C28_full_image` says what happens otherwise.
* PIL's and OpenCV's nearest-neighbour index computations are exact (in C they are doubles).
* numpy: dtypes are followed where they matter (uint8 wrap-around, truncation to int, boolean versus integer masks); arrays of
  other ranks, broadcasting, negative shapes beyond those cited, and in-place aliasing are modelled only where cited.
  `np.bool` in bwmorph_thin.py (removed from numpy 1.24 on) is read as `bool`; integer promotion is that of numpy 1.x.
* Text is ASCII for case and number parsing; `inf`, `nan` and exotic float literals in files are not modelled; `np.loadtxt`
  comment lines are not modelled. `argparse` (a library) is written down in
  `Model/Argparse.lean` as CPython 3.8-3.11 behaves for the features used (ASCII digits, no `nan`/`inf`, a second `--` refused).
* `fast_nms` enters the evaluation loops (C10, C49, C50) as an arbitrary total shape-preserving function; its own behaviour is C44–C46.
* Picture files are assumed to have the colour mode the reader expects; a missing file is modelled, a file of another type is not.
* Directory trees have no symbolic-link cycles; creating directories in the converters is assumed to succeed.
* `json2labelImg` (package cityscapesscripts) is external: its output is an opaque content.
* `decode_png`/`default_multilabel_encoding` on a little-endian machine.

### Not modelled

The accuracy of the libm functions `Matrix.cc` applies elementwise, its text input and output, `randn`, `nextpow2`, the NaN constants; exceptions thrown in the middle of an in-place operation leave the object partly modified, the model only says that they are thrown; formats other than text, `%d` and `%s`, `String`'s stream output; `setup.py`, docs, plotting calls of
matplotlib, printing, `warnings.warn`.

## Findings (stated as theorems)

Behaviour of the code that contradicts its documentation or a natural expectation:

* C24: `mask2onehot` compares the number of labels with the *height*; C49/C52: label maps of fewer than 34 rows are refused.
* C24 `edge_trainId_rejected`; C26 instance ids collide beyond 1000 instances, small categories are misread by the mp version;
  C29 mp and loop differ for labels below 10; with label 0 among the instance labels the mp version raises (`C29_mp_label_zero`).
* C27 `C27_negative_border`: a negative border width is not refused; it addresses rows and columns from the far end.
* C58 the solver's running total overflows `int` on dense edge maps (`C58_result_cost_overflows`; undefined behaviour, result unused),
  squared image sizes overflow from 46341 pixels (`C58_tall_image_overflows`).
* C59 the clock seed uses 16 bits of `usec/8`, so it repeats after 0.52 s (`C59_clock_collision`); `i32(a, b)` can return `b + 1` for
  large `a` (`C59_int_can_exceed`; no caller in the repository).
* C60 `nms_results` keeps one picture per first character of the file names (`C60_results_lost`); `nms_all_results` gives every model the
  same pictures (`C60_models_identical`); `nms_process_one_image` with default arguments raises after computing.
* C61 the plot rejects every result file of this project (`C61_plot_never_own_results`) and algorithms with different curve lengths.
* C62 a graph whose costs are all zero makes `store_results` use a null pointer (`C62_zero_costs_null_pointer`); match.cc never builds one.
* C64 a `Matrix` wrapped around foreign data cannot be copied or assigned (`C64_wrapped`: its `_n` is never set — this is why "constructing a
  Matrix from a double* … don't work well at all" in correspond_pixels.pyx); both wrappers need a `malloc(0)` that is not null (`C64_malloc_zero`).
* C65 the multiplier of `nms` is a C `float` (`C65_float_multiplier`); with `m = 1` rounding erases pixels of a constant image (`C65_constant_erased`).
* C67–C70 `repmat` with no copies to the right writes past an empty block; `sub2ind` ignores columns; `diag(v,k)` uses diagonal `-k`; `insert` and `a += b` with too few rows read out of bounds;
  `cmin`/`cmax` with indices write out of bounds or return row minima; an empty row range throws (`C67_repmat_none`, `C68_sub2ind_ignores_columns`, `C68_diag`, `C68_insert_too_small`,
  `C70_assign_rows_unchecked`, `C69_cmin_indices_wrong`, `C68_extract_empty`).
* C71 `sec`, `csc`, `cot`, `sech`, `csch`, `coth` compute `f(1/x)` instead of `1/f(x)` (`C71_reciprocal_wrong`).
* C72/C73 arrays of 2³² elements or more alias silently (`C72_overflow`); copies of arrays share memory and are freed twice (`C73_copies_share`);
  `size()` is negative from 2³¹ on (`C73_size`).
* C74 without assertions `stop` twice counts an interval twice, `stop` first uses unset members (`C74_unchecked_misuse`); `-0:00:00.00` (`C74_minus_zero`).
* C75 a format with arguments printing ≥ 127 characters, and so every assignment of such a string, uses the `va_list` twice (`C75_long_format`,
  `C75_long_assignment`); `C75_own_text`, `C75_self_append`, `C75_nul_line`. C76 assignment of exceptions (`C76_assign_double_free`).
* C77 `parse` does not check the block of right nodes (`C77_failed_request`); a failed `new` in the constructor leaks (`C77_bad_alloc_leaks`); copies are freed twice
  (`C77_copy_double_free`).
* C78 all workers start with a copy of the same random stream, so what depends on the stream depends on schedule and `nproc` (`C78_schedule_matters`).
* C79 `test_against_matlab` is refused in the default mode, fails with `ValueError` on TIFF results (`C79_tif_fails`) and rewrites `gtProc` anywhere in the path (`C79_root_rewritten`).
* C80 the new loader fails on one class (`C80_one_class`), on pictures of one row or column (`C80_thin_picture`) and on one annotation (`C80_bsds_one`); a `test.mat` with one name fails with both loaders (`C80_names`); a row cell makes the old loader drop all classes but the first (`C80_row_cell`).
* C81 an unreadable class or instance file stops the whole conversion in its first pass, before any thin picture is written (`C81_unreadable`); `--reanno` without the new reader, or with a `test.mat` of one name, fails only after both splits have been converted (`C81_no_reader`, `C81_reanno_fails`).
* C44 `conv_tri` of an integer image returns zeros for r ≥ 1 (`C44_integer_images`); C53 a dataset root that itself contains the directory name being replaced is rewritten too (`C53_root_rewritten`).
* C66 a NaN makes `sort` return an unsorted array without tripping its check (`C66_nan_unsorted`); the documented example comparison overflows (`C66_example_overflow`).
* C49 `datasets/generic_binary.py` always raises (`C49_generic_binary_fails`).
* C23 classes ≥ 32 are lost silently by the 32-bit encoding.
* C28 `internal_only` marks ignored pixels too. C31 a uint8 mask makes kill_internal a no-op.
* C07 a per-image optimum can be worse than a fixed threshold; C08 a perfect detector gets AP 100/101; C09 and AUC 0.
* C40/C21: images without pixels are refused with `ValueError`, not by the code's own checks but by Cython's cast of a pointer to a view; C15/C16: degenerate matching inputs (nothing matchable, all costs zero).
* C20 the two thinning implementations disagree; binary_thin is not idempotent. C41 thinning breaks threshold monotonicity.
* C21/C65 an image of one column (or one row) with a response makes the NMS ask for a matrix element outside; the C++ exception is not declared to Cython, so it ends the Python process instead of raising. C46 an image varying only down the rows is not thinned.
* C32 a failed preset leaves half of the parameters changed; C36 loggers with a common name prefix stay silent.
* C38 the PR plot rejects the files the evaluators save. C39 colours repeat beyond 2^24 indices.
* C42 the SBD command ignores options; the re-annotated SBD command fails.
* C43 from seven pixels on, an image matched against itself can lose pixels. How many depends on the random numbers only (`C43_perfect_iff`, `C43_depends_on_stream`): for every image of at least seven edge pixels some stream matches all of them and another at most six, so the scores of one prediction can differ between runs and between workers.
* C44 radius 0 with subsampling; difference from the MATLAB toolbox.
* C47 the sample-name setter aliases its argument. C48 predictions are never checked for existence; an absolute sample name bypasses both roots, so every category then reads the same prediction file (`C48_absolute_names`).
* C49 the SBD mask for internal predictions is off by one class; half scale keeps odd pixels only.
* C51 hidden directories are entered. C52 `.bin` output never works; half-scale ground truth keeps even pixels while the
  evaluator keeps odd ones.
* C53 a missing test split or a thinning radius other than 1 is only noticed after (nearly) everything has been written.
* C54 the instance-sensitive SBD ground truth has pixels in the border where predictions are erased; a missing `val.txt` or
  re-annotated directory is only noticed late; the re-annotated evaluator looks for its samples in `val.txt` by default, and
  fails on re-annotated samples outside the original lists.
* C55 the AP grid `np.arange(0, 1, 0.01)` overshoots some hundredths in binary64: a recall of exactly 7/20 misses grid point 35,
  and AP is lower by 1/101 than in exact arithmetic.
* C83: `--n` is refused by every evaluation command (it could be `--nonIS` or `--nproc`); `--pre` means `--pre-seal` for Cityscapes but is refused by SBD (it could be `--pred-suffix`); `--half` and `--scale` are refused by the thin protocol; `--pred-suffix` has no effect on the SBD evaluation; no command line makes `evaluate_reanno_sbd` evaluate anything; `-h=` ends the process with an uncaught exception.
* C84: `bsds500.py` on a split without annotation files ends with a `TypeError` (iterating over `None`), the other commands with an `AssertionError`; `--pre-seal` without `--nonIS` and a `--scale` outside (0, 1] are refused only after the output directory and the log have been made; `--output-path=` (empty) computes everything and saves nothing (the log then goes to the current directory); the default output directory lies in the prediction directory, so that a missing prediction directory is created rather than noticed; a leading `~` of the output path is expanded by `mkdir_or_exist` but not for the log and result files.
