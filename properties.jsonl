{"id": "C01", "title": "Recall, precision and F1 are always defined and lie in [0,1]", "statement": "For non-negative counts with count <= sum, compute_rec_prec_f1 never divides by zero, returns recall, precision and F1 in [0,1], returns recall = count_r/sum_r (precision = count_p/sum_p) when the denominator is non-zero and 0 when it is zero.", "quantifier": "every quadruple of non-negative counts with count_r <= sum_r and count_p <= sum_p", "why_tests_cant": "The zero-denominator guard must work for every combination of zero and non-zero counts; a unit test samples a few.", "anchors": ["pyEdgeEval/common/metrics.py:recall,precision,f1,compute_rec_prec_f1"]}
{"id": "C02", "title": "F1 is the harmonic mean of recall and precision", "statement": "f1(r,p) is symmetric, equals 2/(1/r+1/p) when both are positive, is 0 exactly when one of the two is 0, lies between min and max of the two, and is monotone in each argument.", "quantifier": "every pair of non-negative scores", "why_tests_cant": "Universally quantified algebraic facts over a continuum.", "anchors": ["pyEdgeEval/common/metrics.py:f1"]}
{"id": "C03", "title": "Threshold grid is evenly spaced strictly inside (0,1), other threshold arguments are accepted or rejected as documented", "statement": "check_thresholds(n) for an integer n >= 0 returns exactly n thresholds k/(n+1) for k=1..n: strictly increasing, equally spaced, strictly inside (0,1) and symmetric about 1/2; a float becomes a singleton; a flat list is kept as is; nested lists, other types (including numpy arrays) and negative integers raise.", "quantifier": "every integer n and every list/float argument", "why_tests_cant": "Holds for every n; off-by-one in the end points shows only for particular n.", "anchors": ["pyEdgeEval/common/utils.py:check_thresholds"]}
{"id": "C04", "title": "ODS is at least as good as every evaluated threshold and is self-consistent", "statement": "interpolated_max_scores returns an F-measure that is >= the F-measure of every evaluated threshold and of every sampled interpolation point, equals f1 of the recall and precision returned with it, and the returned (threshold, recall, precision) is a sampled convex combination of two consecutive evaluated points; an empty threshold list raises.", "quantifier": "every non-empty list of thresholds and recall/precision lists of the same length", "why_tests_cant": "Maximum over a double loop for every curve shape; tests only see a few curves.", "anchors": ["pyEdgeEval/common/metrics.py:interpolated_max_scores"]}
{"id": "C05", "title": "Dataset scores pool the counts and do not depend on the order of the samples", "statement": "The ODS/OIS/AUC/AP block and the per-threshold table computed by calculate_metrics depend on the samples only through the sums of their counts (and the sums of the counts at each sample's best threshold): permuting the samples leaves them unchanged and permutes the per-sample table accordingly; an image with all-zero counts changes nothing.", "quantifier": "every list of samples with per-threshold counts and every permutation of it", "why_tests_cant": "There are factorially many orders and unboundedly many dataset sizes.", "anchors": ["pyEdgeEval/common/binary_label/calculate_metrics.py:calculate_metrics", "pyEdgeEval/common/multi_label/calculate_metrics.py:calculate_metrics"]}
{"id": "C06", "title": "Parallel evaluation gives the sequential results for every worker schedule", "statement": "track_parallel_progress with keep_order=True returns func mapped over the tasks in order for every completion order of the worker pool, hence calculate_metrics(nproc>1) = calculate_metrics(nproc=1); without keep_order the result is a permutation of it.", "quantifier": "every task list and every interleaving of chunk completions", "why_tests_cant": "Interleavings cannot be enumerated by tests.", "anchors": ["pyEdgeEval/utils/progressbar.py:track_parallel_progress,track_progress"]}
{"id": "C07", "title": "Per-sample (OIS) results report the first best threshold of that sample", "statement": "For each sample, the reported F1 is the maximum of the F1s of that sample over all thresholds, attained at the reported threshold, which is the earliest threshold attaining it; recall/precision reported are those at that threshold; the OIS score is computed from the pooled counts at those thresholds.", "quantifier": "every sample and every list of thresholds", "why_tests_cant": "argmax tie-breaking must hold for every tie pattern.", "anchors": ["pyEdgeEval/common/binary_label/calculate_metrics.py:calculate_metrics"]}
{"id": "C08", "title": "AP lies in [0,1), never decreases when a curve point improves, and is capped at 100/101", "statement": "The reported average precision is between 0 and 100/101 when precisions are in [0,1], is monotone in each recall and precision value, and equals exactly 100/101 (not 1) for a perfect detector.", "quantifier": "every precision/recall curve with values in [0,1]", "why_tests_cant": "The discretisation (100 sample points divided by 101) matters for every curve; only a proof shows the cap is never exceeded.", "anchors": ["pyEdgeEval/common/binary_label/calculate_metrics.py:calculate_metrics"]}
{"id": "C09", "title": "AUC lies in [0,1] and degenerates to 0 when all recalls coincide", "statement": "The area under the curve is between 0 and 1 whenever precisions are in [0,1] and is 0 whenever all recalls are equal, whatever the precisions (so a perfect detector reports AUC 0).", "quantifier": "every precision/recall curve with values in [0,1]", "why_tests_cant": "Universally quantified over curves; involves sorting, deduplication and interpolation.", "anchors": ["pyEdgeEval/common/binary_label/calculate_metrics.py:calculate_metrics"]}
{"id": "C10", "title": "Counts per threshold never exceed their totals", "statement": "For every prediction, ground truth, threshold list and option setting, evaluate_boundaries_threshold(_multiple_gts) returns for each threshold 0 <= count_r <= sum_r and 0 <= count_p <= sum_p, with sum_p the number of predicted edge pixels actually matched against and sum_r the number of ground-truth pixels (summed over annotators).", "quantifier": "every prediction, every ground truth (any number of annotators), every threshold and option combination, every matcher satisfying the matcher's contract", "why_tests_cant": "The inequality must hold for every image; it is what makes recall and precision <= 1.", "anchors": ["pyEdgeEval/common/binary_label/evaluate_boundaries.py", "pyEdgeEval/common/multi_label/evaluate_boundaries.py"]}
{"id": "C11", "title": "Pixel correspondence is a one-to-one matching of edge pixels within the distance tolerance", "statement": "correspond_pixels returns two match images that are mutually inverse: a non-zero entry exists only at an edge pixel, decodes to an edge pixel of the other map, whose entry decodes back to it, and the two pixels are at Euclidean distance <= max_dist times the image diagonal.", "quantifier": "every pair of equally sized binary maps, every max_dist > 0, every perfect matching the assignment solver may return", "why_tests_cant": "Must hold for all image pairs and for whichever optimal assignment is returned.", "anchors": ["pyEdgeEval/_lib/src/match.cc:matchEdgeMaps", "pyEdgeEval/_lib/correspond_pixels.pyx"]}
{"id": "C12", "title": "With one annotator the matched counts agree on both sides", "statement": "With a single ground truth the number of matched predicted pixels equals the number of matched ground-truth pixels (count_p = count_r); with several annotators count_p is at most the sum over annotators of matched pixels and at least the largest of them.", "quantifier": "every prediction and every list of ground truths", "why_tests_cant": "A counting identity over all bijections between pixel sets.", "anchors": ["pyEdgeEval/common/binary_label/evaluate_boundaries.py", "pyEdgeEval/_lib/src/match.cc"]}
{"id": "C13", "title": "The assignment graph always has a perfect matching and is a simple graph of the announced size", "statement": "The graph handed to the assignment solver has every node id in range, no duplicate arc, exactly the announced number of arcs, and admits a perfect matching, for every pair of edge maps and for every random choice of outlier edges.", "quantifier": "every pair of edge maps, every outcome of the random sampler", "why_tests_cant": "If the graph had no perfect matching the solver would not terminate; random sampling cannot be exhausted by tests.", "anchors": ["pyEdgeEval/_lib/src/match.cc:matchEdgeMaps"]}
{"id": "C14", "title": "The k-of-n sampler returns k distinct increasing values in range, uniformly", "statement": "kOfN(k, n) returns exactly k strictly increasing integers in [0,n) for every k <= n and every random stream, whichever of the two algorithms is chosen. With equally likely independent draws every k-element subset is equally likely (probability 1/C(n,k)), so each value is sampled with probability k/n.", "quantifier": "every 0 <= k <= n and every random stream", "why_tests_cant": "Randomised; correct for every stream only by proof.", "anchors": ["pyEdgeEval/_lib/src/kofn.cc:kOfN,_kOfN_largeK,_kOfN_smallK"]}
{"id": "C15", "title": "Reported matching cost is outlierCost per unmatched pixel plus the distance per matched pair", "statement": "The cost returned with the match images equals outlier_cost (times max_dist times diagonal) for every unmatched edge pixel of either map plus the Euclidean distance of each matched pair; it lies between 0 and outlier cost times the number of edge pixels.", "quantifier": "every pair of edge maps and every returned matching", "why_tests_cant": "Sum over arbitrary matchings.", "anchors": ["pyEdgeEval/_lib/src/match.cc:matchEdgeMaps"]}
{"id": "C16", "title": "Assignment solver returns a minimum-cost perfect matching whenever it stops", "statement": "The assignment solver, run on any bipartite graph with integer costs (not all zero) that has a perfect matching, terminates with a perfect matching of minimum total cost; in every reachable state it keeps a consistent one-to-one partial matching.", "quantifier": "every bipartite graph with integer costs that has a perfect matching, every reachable state", "why_tests_cant": "Optimality against exponentially many matchings along unboundedly long runs.", "anchors": ["pyEdgeEval/_lib/include/csa.hh:double_push,refine,update_epsilon,main"]}
{"id": "C17", "title": "Thinning only deletes pixels, keeps the shape and always terminates", "statement": "binary_thin and bwmorph_thin return an image of the same shape whose set of edge pixels is a subset of the input's, for every iteration limit, and without a limit they stop after at most (number of edge pixels + 1) iterations.", "quantifier": "every binary image and every iteration limit", "why_tests_cant": "Termination and subset must hold for all images.", "anchors": ["pyEdgeEval/preprocess/thin/thin.py:binary_thin", "pyEdgeEval/preprocess/thin/bwmorph_thin.py:bwmorph_thin"]}
{"id": "C18", "title": "Thinning tables implement the Guo-Hall deletion conditions", "statement": "A pixel is deleted by a sub-iteration exactly when it is set and its 3x3 neighbourhood satisfies conditions G1, G2 and G3 (G3' in the second sub-iteration); both implementations (512-entry and 256-entry tables) delete exactly the same pixels per sub-iteration.", "quantifier": "every image, every pixel (all 512 neighbourhoods)", "why_tests_cant": "The tables are opaque literals; agreement needs all entries and all image contexts including the border.", "anchors": ["pyEdgeEval/preprocess/thin/thin.py", "pyEdgeEval/preprocess/thin/bwmorph_thin.py"]}
{"id": "C19", "title": "Thinning preserves connectivity and never erases a component", "statement": "Isolated pixels and end points of lines are never deleted; a non-empty image stays non-empty; two edge pixels of the thinned image are 8-connected in it iff they were in the input, every component of the input keeps at least one pixel, and the holes (4-connected background components) correspond one to one.", "quantifier": "every binary image", "why_tests_cant": "A topological invariant over all images and all numbers of iterations.", "anchors": ["pyEdgeEval/preprocess/thin/thin.py:binary_thin"]}
{"id": "C20", "title": "Thinning to convergence is a fixpoint", "statement": "bwmorph_thin without a limit returns a fixpoint of both sub-iterations, is idempotent, and with limit k performs exactly k iterations. binary_thin stops at an image that at least one sub-iteration leaves alone; finishing it with bwmorph_thin gives bwmorph_thin of the input. (Finding: binary_thin itself is neither idempotent nor equal to bwmorph_thin.)", "quantifier": "every binary image", "why_tests_cant": "The early exits of binary_thin depend on which sub-iteration stalls; a counterexample needs a specific image.", "anchors": ["pyEdgeEval/preprocess/thin/thin.py:binary_thin", "pyEdgeEval/preprocess/thin/bwmorph_thin.py:bwmorph_thin"]}
{"id": "C21", "title": "Edge NMS only keeps or suppresses responses", "statement": "Non-maximum suppression returns at every pixel either 0 or the input response damped by a border factor in [0,1]; for a non-negative input the output is between 0 and the input, pixels farther than s from the border keep their exact value when not suppressed, and a pixel is suppressed exactly when some sampled neighbour along the edge normal within the radius exceeds m times its response; all reads are inside the image for images at least 2x2.", "quantifier": "every response map, orientation map and parameter setting", "why_tests_cant": "Sub-pixel interpolation and clamping at all positions of all images.", "anchors": ["pyEdgeEval/_lib/src/benms.cc:benms,interp"]}
{"id": "C22", "title": "RGB edge label encoding round-trips for up to 24 classes and rejects more", "statement": "rgb_multilabel_encoding followed by decode_png returns the original multi-label edges for every number of classes n <= 24, and encoding raises for every image with more than 24 classes, whatever its contents.", "quantifier": "every multi-label edge image with n classes", "why_tests_cant": "All 2^24 label combinations at every pixel.", "anchors": ["pyEdgeEval/common/multi_label/edge_encoding.py:rgb_multilabel_encoding", "pyEdgeEval/common/multi_label/edge_decoding.py:decode_png"]}
{"id": "C23", "title": "32-bit edge label encoding round-trips for up to 32 classes", "statement": "default_multilabel_encoding written as 32-bit words and read back by decode_tif / binary_multilabel_decoding returns the original edges for every n <= 32; distinct label sets get distinct codes.", "quantifier": "every multi-label edge image with n <= 32 classes", "why_tests_cant": "All 2^32 label combinations.", "anchors": ["pyEdgeEval/common/multi_label/edge_encoding.py:default_multilabel_encoding", "pyEdgeEval/common/multi_label/edge_decoding.py:decode_tif,binary_multilabel_decoding"]}
{"id": "C24", "title": "Mask, one-hot and trainId conversions preserve the labelling", "statement": "mask2onehot(mask, labels)[k] is set exactly where mask equals labels[k]; mask_label2trainId maps every pixel to its trainId or 255; edge_label2trainId places the edge channel of each label in its trainId slot; converting the mask before or the edges after gives the same channels.", "quantifier": "every mask, label list and label2trainId table", "why_tests_cant": "For every image and table, including duplicates, gaps and out-of-range ids.", "anchors": ["pyEdgeEval/utils/convert_formats.py"]}
{"id": "C25", "title": "Binary edge map is the union of the class edge maps", "statement": "edge_multilabel2binary is set exactly where some class channel is set.", "quantifier": "every multi-label edge image", "why_tests_cant": "For every number of channels (sum could wrap).", "anchors": ["pyEdgeEval/utils/convert_formats.py:edge_multilabel2binary,edge_onehot2multilabel"]}
{"id": "C26", "title": "Instance ids encode and decode the category and instance number", "statement": "convert_inst_seg gives every instance of category < 100 and index < 1000 an id from which the loop implementation recovers the category and instance number; distinct instances get distinct ids and no instance gets the background id.", "quantifier": "every segmentation and instance list", "why_tests_cant": "String-based digit arithmetic over all ids.", "anchors": ["pyEdgeEval/common/multi_label/utils.py:convert_inst_seg", "pyEdgeEval/edge_tools/mask2edge_loop.py:loop_instance_mask2edge"]}
{"id": "C27", "title": "Border ignore only touches the border", "statement": "add_ignore_pixel clears exactly the pixels nearer than border_px to an image edge and leaves all other pixels unchanged, for every border width >= 0 (a smaller image is cleared completely). Limit established: a negative width -c is not refused but clears everything except the last c rows and columns' corner.", "quantifier": "every image size and border width", "why_tests_cant": "Slice semantics with negative indices differ for small images.", "anchors": ["pyEdgeEval/common/multi_label/utils.py:add_ignore_pixel"]}
{"id": "C28", "title": "Semantic edges are exactly the pixels within radius of the class boundary", "statement": "mask2edge marks for each label exactly the pixels inside the mask within radius of the outside (excluding ignored pixels) or outside within radius of the inside; absent and ignored labels get an empty channel; each channel depends only on its own mask and the ignore mask; a uniform image has no edges. Single-precision rounding of the distances and of their sum changes no pixel for radii up to 31.", "quantifier": "every mask, label list, ignore list, radius and (for the rounding) every round-to-nearest rule", "why_tests_cant": "Geometric claim over all images.", "anchors": ["pyEdgeEval/edge_tools/mask2edge_loop.py:loop_mask2edge", "pyEdgeEval/utils/distance_transforms.py"]}
{"id": "C29", "title": "Loop, multiprocess and on-the-fly edge generation agree", "statement": "The loop and the multiprocess implementations return the same edges for every schedule of workers, and the on-the-fly single-label versions agree with the corresponding channel.", "quantifier": "every mask, parameter setting and worker schedule", "why_tests_cant": "Schedules and images cannot be enumerated.", "anchors": ["pyEdgeEval/edge_tools/mask2edge_loop.py", "pyEdgeEval/edge_tools/mask2edge_mp.py", "pyEdgeEval/datasets/otf_cityscapes.py"]}
{"id": "C30", "title": "Instance-sensitive edges contain the semantic edges' instance refinement", "statement": "Instance-sensitive edge channel of a class is the semantic edge channel united with the boundaries of every instance of that class present; classes without instances get the semantic edges; instances of other classes never contribute.", "quantifier": "every semantic mask, instance mask and label table", "why_tests_cant": "For every set of instance ids, including ids below 10000.", "anchors": ["pyEdgeEval/edge_tools/mask2edge_loop.py:loop_instance_mask2edge", "pyEdgeEval/edge_tools/mask2edge_mp.py:mp_instance_mask2edge"]}
{"id": "C31", "title": "kill_internal removes only interior false positives", "statement": "kill_internal_prediction never adds a predicted pixel, never removes a predicted pixel within the distance tolerance of a ground-truth edge or outside the class segment, and removes every other predicted pixel.", "quantifier": "every prediction, ground truth, segment mask and tolerance", "why_tests_cant": "Geometric claim over all images.", "anchors": ["pyEdgeEval/common/multi_label/options.py:kill_internal_prediction"]}
{"id": "C32", "title": "Evaluator presets: the parameters after set_eval_params are those of the chosen protocol", "statement": "After any history of set_eval_params calls, successful or not, a successful call alone determines all effective parameters: they are those of the protocol it requests (pre-SEAL: tolerance 0.02, never instance-sensitive; post-SEAL: kill_internal and skip_if_nonexistent off exactly in instance-sensitive mode). A call fails exactly for a scale outside (0,1] (no effect on the object) or for instance-sensitive pre-SEAL on Cityscapes (which leaves scale, thinning and NMS already replaced); a reported scale is always in (0,1].", "quantifier": "every history of calls with arbitrary arguments", "why_tests_cant": "All histories of a state machine including failed calls.", "anchors": ["pyEdgeEval/evaluators/cityscapes.py:set_eval_params", "pyEdgeEval/evaluators/sbd.py:set_eval_params", "pyEdgeEval/evaluators/bsds.py:set_eval_params"]}
{"id": "C33", "title": "Multi-category evaluation evaluates every requested category once and averages the results", "statement": "BaseMultilabelEvaluator.evaluate evaluates exactly the requested categories in order, each independent of the others, and reports for each metric the mean over the evaluated categories.", "quantifier": "every category argument (None, int or list) and every outcome of the per-category evaluation", "why_tests_cant": "For every list of categories and results.", "anchors": ["pyEdgeEval/evaluators/base.py:evaluate"]}
{"id": "C34", "title": "Progress tracking returns one result per task", "statement": "track_progress, track_iter_progress and track_parallel_progress return (or yield) one result per task, drive the progress bar exactly once per completed task (after skip-first accounting), and reject malformed task arguments.", "quantifier": "every task list or (iterable, length) pair, every function", "why_tests_cant": "For every length including zero and every skip/chunk parameter.", "anchors": ["pyEdgeEval/utils/progressbar.py"]}
{"id": "C35", "title": "Timer measures since the right moment", "statement": "Timer.since_start returns now minus the start() that switched the timer from stopped to running (a further start() while running does not move it), since_last_check returns now minus the latest of start and check calls, and calling them when not running raises, for every history of calls.", "quantifier": "every history of start/check calls with a monotone clock", "why_tests_cant": "All histories.", "anchors": ["pyEdgeEval/utils/timer.py"]}
{"id": "C36", "title": "Loggers get their handlers once", "statement": "get_logger attaches handlers the first time a name is requested and never again, whatever the history of calls; a hierarchical child of an initialised logger gets no handlers of its own.", "quantifier": "every history of get_logger calls", "why_tests_cant": "All histories and all pairs of names.", "anchors": ["pyEdgeEval/utils/logger.py:get_logger"]}
{"id": "C37", "title": "Saved result files reproduce the scores to six decimals", "statement": "Each number written by the save functions, read back, is within 5e-7 of the value computed; records are written one per line in order; nothing is written for an empty list.", "quantifier": "every list of results", "why_tests_cant": "All values; column formatting with field widths.", "anchors": ["pyEdgeEval/common/binary_label/io.py", "pyEdgeEval/common/multi_label/io.py"]}
{"id": "C38", "title": "Iso-F1 contours of the PR plot have the stated F1", "statement": "Every point (r, p) drawn on the iso-F contour for f satisfies f1(r,p) = f and p>=0 for r > f/2, both for the arm (r, p) and the arm (p, r); loading saved threshold results for plotting keeps, in order, the records with recall at least 0.001 to print accuracy; and it is decided for every pair of saved files whether plot_pr_curve can load them (it cannot: the overall file has nine columns and eight are expected).", "quantifier": "every f and r", "why_tests_cant": "Continuum.", "anchors": ["pyEdgeEval/visualization/pr_curve.py"]}
{"id": "C39", "title": "The Pascal VOC colour map is injective", "statement": "color_map(N) assigns pairwise distinct colours for every N up to 2**24 (and repeats exactly modulo 2**24), each component in 0..255 (or 0..1 if normalized), label 0 black.", "quantifier": "all label indices", "why_tests_cant": "Bit-interleaving over the whole table, for each table size N.", "anchors": ["scripts/other/pascal_voc_colormap.py"]}
{"id": "C40", "title": "Argument validation of pixel correspondence", "statement": "correspond_pixels raises ValueError for mismatched shapes, non-positive max_dist, outlier_cost <= 1 and images without pixels (a zero-length axis), and for no other pair of two-dimensional images.", "quantifier": "every argument combination", "why_tests_cant": "All combinations.", "anchors": ["pyEdgeEval/_lib/correspond_pixels.pyx"]}
{"id": "C41", "title": "Raising the threshold never adds predicted pixels", "statement": "Without thinning, the predicted pixel count is antitone in the threshold, and predictions at a higher threshold are a subset of those at a lower one; a threshold above every response gives zero counts on the prediction side.", "quantifier": "every prediction map and pair of thresholds", "why_tests_cant": "All images and threshold pairs.", "anchors": ["pyEdgeEval/common/binary_label/evaluate_boundaries.py"]}
{"id": "C42", "title": "Command-line threshold and category arguments are parsed as intended", "statement": "The helper parsers turn a decimal integer string into that integer and a bracketed list into the list of its numbers, printing a list and parsing it gives the list back, exactly the strings int() / bracketed lists accept are accepted, and an evaluation that starts has a non-empty list of in-range categories and the protocol the flags select.", "quantifier": "every integer and every list of integers", "why_tests_cant": "All strings.", "anchors": ["pyEdgeEval/helpers/evaluate_cityscapes.py", "pyEdgeEval/helpers/evaluate_sbd.py", "pyEdgeEval/helpers/evaluate_bsds500.py"]}
{"id": "C43", "title": "Pixel correspondence is maximal and lossless for small maps, and only for those", "statement": "If both edge maps are equal and have at most six edge pixels, correspond_pixels matches every pixel to itself at cost zero, for every random stream; if one of the maps has at most six edge pixels, no two edge pixels within the tolerance are both left unmatched, and when moreover the outlier cost is at least seven (the default is 100) the matching has maximum cardinality among all one-to-one matchings within the tolerance. With seven or more pixels a perfect prediction can lose pixels, because each matched pixel consumes a randomly drawn outlier connection: an image compared with itself is completely matched if and only if the random connections between outliers contain a one-to-one assignment, and for every image with at least seven edge pixels some random stream matches all of them and another at most six.", "quantifier": "every pair of edge maps and every random stream", "why_tests_cant": "The random stream is part of the input; optimality compares with all matchings.", "anchors": ["pyEdgeEval/_lib/src/match.cc", "pyEdgeEval/_lib/correspond_pixels.pyx"]}
{"id": "C44", "title": "Triangle smoothing is a weighted mean of the mirrored image", "statement": "conv_tri with a positive integer radius and no sub-sampling keeps the shape and returns at every pixel the mean with separable triangle weights of the mirror-padded image; the weights are non-negative and sum to 1, so the result stays in the range of the input and constants are kept; with sub-sampling s every returned pixel is a pixel of the smoothed image inside its bounds.", "quantifier": "every image, every radius, every sub-sampling step", "why_tests_cant": "Two code branches, padding longer than the image and all sizes.", "anchors": ["pyEdgeEval/preprocess/nms/toolbox.py:conv_tri"]}
{"id": "C45", "title": "fast_nms maps images in [0,1] to images in [0,1] of the same shape", "statement": "fast_nms accepts every uint8 or float image with both sides at least 2 and returns an image of the same shape whose pixels are 0 or the smoothed response times the border ramp; values in [0,1] stay in [0,1]; the 8-bit result is the float result times 255 to the nearest integer; smaller images raise ValueError and other dtypes AssertionError.", "quantifier": "every image, dtype and parameter setting", "why_tests_cant": "All images; the orientation comes from second derivatives of a doubly smoothed image.", "anchors": ["pyEdgeEval/preprocess/nms/fast_nms.py:fast_nms", "pyEdgeEval/preprocess/nms/toolbox.py:grad2"]}
{"id": "C46", "title": "fast_nms thins along the direction of the second derivative", "statement": "For every float image of at least 2x2 pixels fast_nms succeeds, compares each smoothed response with its interpolated neighbours along a direction in [0, pi) whose tangent is the quotient of second slopes of the twice smoothed image (sign taken from the mixed slope), sets it to 0 when beaten and otherwise keeps it times the border ramps. As a consequence an image that varies only down the rows is never thinned above its last row (the orientation formula multiplies by the sign of a zero mixed derivative), while one that varies only along the columns is thinned across them.", "quantifier": "every float image of at least 2x2 pixels, radius, margin and multiplier", "why_tests_cant": "The direction is a function of all pixels through two smoothing passes.", "anchors": ["pyEdgeEval/preprocess/nms/fast_nms.py:fast_nms", "pyEdgeEval/preprocess/nms/toolbox.py:grad2"]}
{"id": "C47", "title": "The samples evaluated are exactly the ones named, and later mutation cannot corrupt them", "statement": "Constructing an evaluator with explicit names, or set_sample_names, evaluates exactly those names in order; a split file gives exactly its lines in order for every line ending; missing split files, missing arguments and empty lists raise; for BSDS the names are those of the .mat files of the split directory. The last successful set wins over any history of sets. Mutating a list returned by the sample_names getter never changes the evaluator, but mutating a list passed to the setter does.", "quantifier": "every file system, every list of names, every history of constructor / setter / getter calls", "why_tests_cant": "All histories and all file contents.", "anchors": ["pyEdgeEval/evaluators/base.py", "pyEdgeEval/evaluators/cityscapes.py", "pyEdgeEval/evaluators/sbd.py", "pyEdgeEval/evaluators/bsds.py"]}
{"id": "C48", "title": "Every sample record points at the files of that sample, protocol and category", "statement": "evaluate_category builds, for every accepted category and for every sample name in order, a record naming the prediction of that category and sample, the ground truth edge file selected by thin and instance-sensitive, and the segmentation file; it succeeds exactly when the ground truth and segmentation files exist (the segmentation even when it will not be used); predictions are never checked for existence; different (category, sample) pairs have different prediction files and different protocol variants read different ground truth files.", "quantifier": "every file system, evaluator state, list of names and category", "why_tests_cant": "All names, categories, protocol settings and file systems.", "anchors": ["pyEdgeEval/evaluators/cityscapes.py", "pyEdgeEval/evaluators/sbd.py", "pyEdgeEval/evaluators/otf_cityscapes.py", "pyEdgeEval/evaluators/bsds.py"]}
{"id": "C49", "title": "One sample is read and resampled as documented", "statement": "For one sample of a category, the evaluators compare exactly the documented pictures: the category's channel of the encoded ground truth (or, on the fly, the boundary of the category's label and instances in the resampled label map, ignoring labels 2 and 3), the prediction divided by 255 and the category's region, all resampled to round(size x scale) by nearest neighbour, with 5 border pixels of the prediction blanked for SBD; reading succeeds exactly when the files exist and the scaled size is positive. The sub-routine then returns consistent counts whose sum_r is the number of ground-truth pixels and whose sum_p is the number of responses reaching the threshold. Limits established: half scale keeps only odd rows and columns, the on-the-fly evaluator refuses scaled heights below 34, the SBD mask for removing internal predictions selects the previous class, and the generic binary dataset raises AttributeError on every sample.", "quantifier": "all files, sizes, scales, categories, options, thresholds and random streams", "why_tests_cant": "depends on arbitrary picture contents and real-valued scales; a unit test fixes one", "anchors": ["pyEdgeEval/datasets/cityscapes.py: _evaluate_single", "pyEdgeEval/datasets/sbd.py: _evaluate_single", "pyEdgeEval/datasets/otf_cityscapes.py: _evaluate_single", "pyEdgeEval/datasets/bsds.py: bsds_eval_single", "pyEdgeEval/common/multi_label/edge_decoding.py: load_scaled_edge"]}
{"id": "C50", "title": "An evaluation turns files into the documented scores, whatever the workers do", "statement": "With the dataset, prediction (and label) files in place and valid parameters, evaluating a category of the Cityscapes, half-scale, SBD and on-the-fly evaluators, and the BSDS evaluation, has exactly one outcome for every number of processes and every schedule: every run that ends, ends with it and every run whose workers finish ends. The tables have one row per sample and per threshold, all scores lie in [0,1], F-scores are harmonic means, ODS is the best (interpolated) threshold; at each threshold recall is the pooled matched fraction of the documented ground-truth pixels and precision that of the responses reaching the threshold; the three result files hold these tables exactly when saving was asked for; evaluate over several categories reports exactly the per-category scores and their averages. If any prediction is missing, every run that ends raises and nothing is saved.", "quantifier": "every file system content, sample list, category, parameter setting, threshold list, number of processes, worker schedule and random stream", "why_tests_cant": "Combines arbitrary pictures, schedules and randomised matching; a test runs one.", "anchors": ["pyEdgeEval/evaluators/cityscapes.py", "pyEdgeEval/evaluators/sbd.py", "pyEdgeEval/evaluators/otf_cityscapes.py", "pyEdgeEval/evaluators/bsds.py", "pyEdgeEval/evaluators/base.py", "pyEdgeEval/common/multi_label/calculate_metrics.py"]}
{"id": "C51", "title": "Directory scans list exactly the wanted files, once; directory creation is idempotent", "statement": "scandir(dir, suffix, recursive, case_sensitive) yields exactly the relative paths of the regular files whose own name does not start with a dot and whose relative path ends with the suffix (or with one of a tuple of suffixes, up to case on request), in the directory itself or anywhere below it when recursive, each exactly once; hidden directories are entered; a bad argument type is a TypeError. mkdir_or_exist makes the path and its ancestors directories, changes nothing else, is idempotent and fails exactly when one of them exists as something else; symlink replaces an existing entry only with overwrite and never a directory.", "quantifier": "every directory tree (any depth, any listing order), every suffix argument, every disk state", "why_tests_cant": "Directory trees have unbounded depth and width.", "anchors": ["pyEdgeEval/utils/path.py"]}
{"id": "C52", "title": "The Cityscapes converter writes the documented boundary of every label", "statement": "Converting a label map writes exactly one picture, named after the label file: bit t of a pixel is set exactly when the pixel is a boundary pixel (within the radius) of the label with trainId t or, in instance-sensitive mode, of one of its instances, labels 2 and 3 being ignored; below scale 1 the label map is resampled first (seal=False or thin) or the finished edges are resampled (seal=True); with thin the picture holds a thinned version of the same topology and the call ends. Evaluating against the converted PNG gives exactly the result of evaluating on the fly with the same radius. Thinning with another radius than 1, missing files, unknown extensions and label maps of fewer than 34 rows raise AssertionError. Limits established: the .bin format never succeeds (TypeError), and at half scale the converter keeps the even pixels while the evaluator keeps the odd ones.", "quantifier": "every label map, instance map, radius, scale, option set and (for the agreement) distance transform", "why_tests_cant": "All label maps and scales; a test compares a few pictures.", "anchors": ["pyEdgeEval/helpers/convert_cityscapes.py:convert_label_to_semantic_edges", "pyEdgeEval/datasets/otf_cityscapes.py"]}
{"id": "C53", "title": "Converting the Cityscapes dataset produces exactly the files the evaluators need", "statement": "convert_cityscapes on a well-formed dataset (label maps of at least 34 rows, 67 for half-size maps) ends without an exception after writing exactly: the trainId picture of every annotated sample, one edge map per training sample, raw and thinned (and on request half-size) edge maps per validation sample, named after the sample, and the three lists of sample names; no file is written twice, and the order in which worker processes do the work of a phase does not change the final files. Afterwards an evaluator told the same root, directory and instance mode reads its sample list from the written split file and finds every ground-truth file. With a bad argument nothing is written (AssertionError); a missing test split fails with FileNotFoundError only after all other files have been written; a thinning radius other than 1 fails after the raw maps; the bin format fails at the first training sample.", "quantifier": "every dataset tree, sample names, pictures, radii, formats, modes and order of work inside a phase", "why_tests_cant": "Depends on the whole directory tree and on the schedule of worker processes.", "anchors": ["pyEdgeEval/helpers/convert_cityscapes.py:convert_cityscapes", "pyEdgeEval/helpers/convert_cityscapes.py:convert_json_to_label", "pyEdgeEval/evaluators/cityscapes.py"]}
{"id": "C54", "title": "Converting the SBD dataset produces exactly the files the evaluators need", "statement": "The SBD conversion script on a complete SBD directory (segmentations of at least 22 rows, at most 1000 instances per category) ends without an exception after writing exactly seven files per sample of train.txt and val.txt: raw edges of radius 2 and thinned edges of radius 1, each without and with instances, the label map with a 5-pixel border of the ignored label 21, the trainId map and the instance map; bit t of an edge pixel is set exactly at the boundary pixels of label t+1 (or of its instances). With --reanno it also writes the boundaries of the re-annotated files and the list of their names. No two samples or variants share a file. Afterwards the SBD evaluator reads the converted names from val.txt, finds every file it needs and reads back exactly those edges as ground truth; the re-annotated evaluator does so for exactly the samples that are in both an original and the re-annotated list. Missing inputs raise AssertionError or FileNotFoundError, annotation files that do not fit together AssertionError or IndexError; a missing val.txt or re-annotated directory is only noticed after all earlier samples have been converted. Limit established: the instance-insensitive ground truth has no pixel in the 5-pixel border where the evaluator erases predictions, but the instance-sensitive ground truth has.", "quantifier": "every SBD directory, segmentation, instance map, list of names and line-ending convention, distance transform exact up to the radius", "why_tests_cant": "All segmentations, all sample lists and all missing-file situations.", "anchors": ["pyEdgeEval/helpers/convert_sbd.py:routine", "pyEdgeEval/helpers/convert_sbd.py:convert_mat2np", "pyEdgeEval/helpers/convert_sbd.py:reanno_routine", "scripts/convert_datasets/sbd.py", "pyEdgeEval/evaluators/sbd.py"]}
{"id": "C55", "title": "The scores keep their meaning in floating point", "statement": "With every float operation rounded to a nearest binary64 number (any tie rule), thresholds, recall, precision, F, ODS, OIS, AP and AUC of counts that are whole numbers (at most 2^53 in total) satisfy: the run succeeds; recall and precision are the correctly rounded exact quotients, in [0,1], equal to 0 (1) exactly when nothing (everything) is matched; F lies in [0,1], is within 2^-50 of the exact harmonic mean, 0 exactly when it is 0 and 1 for a perfect prediction; the n thresholds are strictly increasing in (0,1), within 2^-50 of (k+1)/(n+1); ODS F is in [0,1], at least the F of every threshold and within 2^-47 of the exact ODS F; AP is in [0, 100/101 + 2^-46]; AUC is within 2^-44 of [0,1] whatever the order of summation; the order of the samples does not change any pooled number, bit for bit. Limit established: the recall grid k*0.01 overshoots for some k, so a recall of exactly 35/100 misses its grid point and AP is 1/101 too small.", "quantifier": "every rounding function to nearest, all whole counts, samples, thresholds, summation orders", "why_tests_cant": "All counts and all roundings; a test compares a few floats.", "anchors": ["pyEdgeEval/common/metrics.py", "pyEdgeEval/common/utils.py:check_thresholds", "pyEdgeEval/common/multi_label/calculate_metrics.py", "pyEdgeEval/common/binary_label/calculate_metrics.py"]}
{"id": "C56", "title": "The assignment solver stays correct in floating point", "statement": "The solver computes prices, reduced costs and the scaling parameter in doubles. Whatever the rounding does, a returned assignment is a perfect matching made of arcs of the input graph. With rounding to nearest (any tie rule) its total cost exceeds that of every perfect matching by less than 1 + 7N(B+C)/2^53, N the number of nodes per side, C the largest cost, -B a lower bound of the final prices; it is exactly minimal when 7N(2N+1)(B+C) < 2^53. On every graph that has a perfect matching and a non-zero cost and with N (600 N C + 5000) <= 2^53 the solver ends, the prices stay above -(98 N C + 825), and the cost is within 2 of the minimum; with 2100 N^2 (N C + 9) <= 2^53 the assignment is exactly minimal; without rounding it is the solver of the exact model.", "quantifier": "every graph, cost, size, and every rounding function (to nearest where stated)", "why_tests_cant": "All graphs and all rounding behaviours; rounding errors accumulate over an unbounded number of steps.", "anchors": ["pyEdgeEval/_lib/include/csa.hh"]}
{"id": "C57", "title": "The pixel matcher stays correct in floating point", "statement": "With the diagonal, the tolerance, its square, the outlier cost, the distances, the weights, the random connections, the solver and the returned cost computed in doubles rounded to nearest (any tie rule) and a correctly rounded square root, for two equally shaped images of at most 131072 rows and columns: every reported match pairs two edge pixels, one-to-one, whose distance is at most max_dist times the image diagonal up to a relative 2^-50; integer weights are exactly the nearest hundredth-pixel distance; the call ends for E edge pixels with E(600 E C + 5000) <= 2^53, C the largest weight; with at most six edge pixels on one side and outlier_cost >= 7 the number of matched pixels is maximum; an image of at most six edge pixels against itself matches every pixel to itself at cost exactly 0; the outlier cost is within three roundings of outlier_cost*max_dist*diagonal and the returned cost within (number of edge pixels + 2) roundings of the exact sum. Finding: if no pair of edge pixels is within the tolerance the cost is 0 although every edge pixel is unmatched.", "quantifier": "every pair of images, tolerance, outlier cost, random stream, and every rounding to nearest", "why_tests_cant": "All images and all rounding behaviours; comparisons at the tolerance boundary and long sums depend on every rounding.", "anchors": ["pyEdgeEval/_lib/src/match.cc", "pyEdgeEval/_lib/correspond_pixels.pyx", "pyEdgeEval/_lib/include/csa.hh"]}
{"id": "C58", "title": "32-bit integers of the pixel matcher: when they are safe and when they overflow", "statement": "One call of the pixel matcher computes array indices, squared image sizes, window bounds, node numbers, integer costs and random indices in 32-bit ints, and array lengths in 32-bit unsigned numbers. For images of at most 32767 rows and columns, a tolerance of at most R <= 32765 pixels, an outlier cost of at most 214748 pixels and 3(E0 (2R+3)^2 + 13(E0+E1)) < 2^32 (E0, E1 edge pixels) every one of these numbers lies in its range, whatever the images, rounding and random draws. Limits established: with 46341 rows or columns squaring the size overflows; and the solver's running total cost overflows as soon as 100*outlier_cost*tolerance times the number of matchable pixels reaches 2^31, e.g. 18000 edge pixels in a 375x500 picture at max_dist 0.02 (the total is only computed and discarded, the assignment is unaffected).", "quantifier": "all image sizes, edge maps, tolerances, outlier costs, roundings to nearest and random streams", "why_tests_cant": "Overflow needs image sizes and edge densities that no unit test uses; safety must hold for all inputs below the limits.", "anchors": ["pyEdgeEval/_lib/correspond_pixels.pyx", "pyEdgeEval/_lib/src/match.cc", "pyEdgeEval/_lib/include/csa.hh", "pyEdgeEval/_lib/include/Array.hh", "pyEdgeEval/_lib/src/Matrix.cc"]}
{"id": "C59", "title": "Random numbers and random subsets stay in range and the generator does not repeat", "statement": "For every seed fp() returns multiples of 2^-48 between 0 and 1-2^-48, and the 2^48 values drawn from any state on are all different; a stream depends only on the low 48 bits of the seed and reset() replays it. i32(0,m-1) lies in [0,m) and the argument-free i32()/ui32() are exactly floor(2^32 x) shifted, whatever the rounding. With all double operations rounded to nearest and whichever algorithm its logarithm test selects, kOfN(k,n) returns exactly k increasing integers of [0,n) for every stream; without rounding it is the sampler of C14, and every k-subset is the result of some stream. Findings: without a seed two processes started 0.524288 s apart within the same second get identical streams (16 bits of an 8-microsecond clock); i32(a,b) with a large lower bound can return b+1.", "quantifier": "every seed, clock value, number of draws, k, n, and every rounding to nearest", "why_tests_cant": "2^48 states, all roundings; a test sees a handful of draws.", "anchors": ["pyEdgeEval/_lib/src/Random.cc", "pyEdgeEval/_lib/include/Random.hh", "pyEdgeEval/_lib/src/kofn.cc"]}
{"id": "C60", "title": "Batch thinning writes the right pictures, resumes, and when it loses them", "statement": "nms_all_results: no existing picture is changed; every new picture is save_dir/model/stem.png for a listed model and a listed stem with the chosen extension, and holds the thinned image of exactly that file, also when the run raises halfway; after a run that returns, all of them exist; a second run then loads nothing and changes nothing; a wrong format, a missing directory or a .mat run without key is refused with nothing written. nms_process_one_image writes exactly the given .png path, refuses other extensions before computing, and with its default arguments raises after computing. Findings: the model name never selects the input, so all models get the same pictures; nms_results names its output after the first character of the file name only, so a directory yields at most as many pictures as different first characters, the last listed file wins, and existing pictures are overwritten although 'skipping' is printed.", "quantifier": "every listing, directory, loader, thinning function, set of existing pictures and point of failure", "why_tests_cant": "All listings, prior states and failure points; a test uses one directory.", "anchors": ["pyEdgeEval/preprocess/nms/fast_nms.py:nms_all_results", "pyEdgeEval/preprocess/nms/fast_nms.py:nms_results", "pyEdgeEval/preprocess/nms/fast_nms.py:nms_process_one_image"]}
{"id": "C61", "title": "The PR plot ranks the algorithms, keeps name, colour, curve and scores together, and prints the recall at 50% precision", "statement": "If plot_pr_curve draws, its legend lists every algorithm exactly once by decreasing ODS F, each entry with the name, colour, curve and scores of the same algorithm; curves are drawn in reverse order (best on top). R50 is nan if no row reaches precision 1/2, the recall of the first row with precision exactly 1/2, the recall of the least precise row if all exceed 1/2, and otherwise linear interpolation between the rows of nearest precision; it is nan or in [0,1]. An empty list of algorithms or a wrong number of names or colours (one more colour with the human point) is an AssertionError. Findings: algorithms with different numbers of rows of recall >= 0.001 cannot be drawn together; results written by this project can never be drawn (nine numbers against eight).", "quantifier": "every set of algorithms, files, names, colours, every (unstable) sorting function and every float32 rounding", "why_tests_cant": "All file contents and all orders of ties; a figure is not unit-testable.", "anchors": ["pyEdgeEval/visualization/pr_curve.py", "pyEdgeEval/common/binary_label/visualize.py"]}
{"id": "C62", "title": "The assignment solver never touches memory it should not", "statement": "For every graph with all ends in range in which every left node has an arc and some cost is not 0, and for every rounding to nearest, at no point of its run does the solver read or write outside one of its arrays (arcs, nodes, best lists, stack, degree and temporary arrays, input graph, results), read an array cell before it was written, use a null pointer, pop an empty stack or decrement a zero counter: a finished run returns the edges of a perfect matching, and it is the same result as that of the solver described without arrays (C16, C56), so of minimum cost at moderate sizes. All graphs the pixel matcher builds, for every pair of edge maps and every random stream, are of this kind. An arc with an end outside the graph ends the program with a parse error. If all costs are 0 the solver uses a null pointer.", "quantifier": "every graph, every rounding to nearest, every number of steps, every pair of edge maps and random stream", "why_tests_cant": "Bad accesses occur only in particular states of an unbounded run and need not crash; no finite set of graphs excludes them.", "anchors": ["pyEdgeEval/_lib/include/csa.hh", "pyEdgeEval/_lib/include/csa_types.h", "pyEdgeEval/_lib/include/csa_defs.h", "pyEdgeEval/_lib/src/csa.cc", "pyEdgeEval/_lib/src/match.cc"]}
{"id": "C63", "title": "The pixel matcher and its sampler never touch memory they should not, and no assertion fires", "statement": "For every image size, every pair of edge maps, every tolerance >= 0 and outlier cost above it, every random stream and every rounding to nearest in the solver, the run of matchEdgeMaps on its arrays (match matrices, match arrays, matchable maps, pixel-to-node tables, node and edge vectors, the graph matrix of the announced number of rows, the outlier buffer, the solution matrix), of the sampler and of the solver has no access outside an array, no read of an uninitialised cell, no null pointer and no failed assertion; it has the result of the matcher described without arrays (C11-C13, C57) in both output matrices, every cell initialised, or the solver is still running; in exact arithmetic it always stops. The output matrices are symmetric: a non-zero entry is the column-major number of an edge pixel of the other map within the tolerance, which points back. The sampler writes exactly its first k cells and a buffer of k cells suffices. The overlay edges counted for the printed warning are unmatched pixels that had a partner in range. Limits outside the precondition stop at an assertion before any allocation.", "quantifier": "every image size, pair of maps, tolerance, outlier cost, random stream, rounding to nearest and number of steps", "why_tests_cant": "Bad accesses depend on image content, border pixels and random draws and need not crash; no finite set of images excludes them.", "anchors": ["pyEdgeEval/_lib/src/match.cc", "pyEdgeEval/_lib/src/kofn.cc", "pyEdgeEval/_lib/include/Array.hh", "pyEdgeEval/_lib/src/Matrix.cc", "pyEdgeEval/_lib/include/csa.hh", "pyEdgeEval/_lib/correspond_pixels.pyx"]}
{"id": "C64", "title": "Matrices are values, the native wrappers return the right arrays and neither leak nor touch foreign memory", "statement": "Every terminating program over Matrix objects and Fortran-ordered arrays (default, sized and copy construction, assignment, element reads and writes, view copies, destruction), on any heap, behaves as if each matrix were a value of its own: assignment and copy are deep, an index out of range throws, every living object has its own block of exactly its size in column order, blocks that existed before are untouched, and when all objects are destroyed the heap is as before. Hence nms(edge, ori, r, s, m) returns an array with exactly the thinned image, and correspond_pixels two arrays in different blocks with exactly the match matrices (not transposed), each as the only objects left; after a ValueError nothing is left. A Matrix wrapped around foreign data cannot be assigned from (it reads an uninitialised member), and if malloc(0) returned NULL both wrappers would abort.", "quantifier": "every program, heap, pair of images, parameters, random stream", "why_tests_cant": "Aliasing, leaks, double frees and out-of-bounds accesses depend on the history of operations and need not crash.", "anchors": ["pyEdgeEval/_lib/src/Matrix.cc", "pyEdgeEval/_lib/include/Matrix.hh", "pyEdgeEval/_lib/src/benms.cc", "pyEdgeEval/_lib/nms.pyx:nms", "pyEdgeEval/_lib/correspond_pixels.pyx:correspond_pixels", "pyEdgeEval/_lib/src/match.cc"]}
{"id": "C65", "title": "NMS stays correct in floating point", "statement": "nms and fast_nms computed in doubles (single-precision multiplier, single-precision smoothing where the input is float32): on every image of at least 2 x 2 pixels no read falls outside the image and the result has the same shape, however roundings, sines and cosines come out; every value is between 0 and the input value, rows and columns on the outermost border are exactly 0 for s >= 1, farther than s inside a value is removed or copied bit for bit. A pixel is removed if and only if it is beaten in exact arithmetic unless one of its comparisons is a near-tie (within V(m+rows+cols+2r)2^-48, V the largest response), and a kept value is the exact one up to 2^-50 relatively. With m >= 1+2^-22 a largest response of the image is never removed. The smoothing stays within [0,1] and is accurate to 2^-50 (2^-21 in single precision); returned bytes lie in 0..255 within 1/2 + 2^-40 of 255 times the value. Maps of different shapes and empty maps are a ValueError. Findings: the multiplier is rounded to single precision first; with m = 1 rounding erases pixels of a constant image.", "quantifier": "every image size, image, orientation map, radius, margin, multiplier, every rounding to nearest, every order of summation and every sine/cosine function of the stated accuracy", "why_tests_cant": "All roundings at all pixels of all images; a test sees one machine and a few images.", "anchors": ["pyEdgeEval/_lib/src/benms.cc", "pyEdgeEval/_lib/nms.pyx:nms", "pyEdgeEval/preprocess/nms/fast_nms.py:fast_nms", "pyEdgeEval/preprocess/nms/toolbox.py:conv_tri"]}
{"id": "C66", "title": "The native sort sorts, in place and safely, whatever the comparison", "statement": "For every element type, every array and every deterministic comparison, sorting the first n elements terminates, touches no position outside [0,n), trips no internal assertion and returns a rearrangement of the input; the insertion sort and both selection sorts do so on any segment. If the comparison orders (sign flips, transitive) sort returns with cmp(x_i,x_j) <= 0 for every pair i < j, not only the adjacent pairs its final check tests; with the default comparison this is increasing order of any linearly ordered type. The pivot is the median of the probed elements. Findings: with a NaN the sort of doubles returns normally but unsorted; the documented example comparison (a difference of ints) sorts the wrong way round when the difference overflows.", "quantifier": "every element type, comparison, array, segment and length", "why_tests_cant": "All comparisons and all arrays of all lengths; memory errors need not crash.", "anchors": ["pyEdgeEval/_lib/include/Sort.hh"]}
{"id": "C67", "title": "Matrix rearrangements move entries where their names say", "statement": "For every shape (empty ones, vectors, square and other), every entries of any type and whatever is in fresh memory: transpose gives entry (j,i), fliplr and flipud mirror, rot90(k) for every int k (negative too) is k quarter turns counter-clockwise with four turns the identity, reshape keeps column order and refuses another number of entries, repmat(p,q) with q >= 1 tiles, eye is the identity of any shape, tril/triu(k) keep what is on or below/above diagonal k. No access leaves a block. Findings: repmat with q <= 0 writes past a block of size zero; repmat of a matrix without rows throws.", "quantifier": "every shape, entry type, entries, rotation count and tile counts, every content of uninitialised memory", "why_tests_cant": "All shapes and all contents of fresh memory; the in-place transposition and the tiling by memcpy have different code paths by shape.", "anchors": ["pyEdgeEval/_lib/src/Matrix.cc:transpose", "pyEdgeEval/_lib/src/Matrix.cc:rot90", "pyEdgeEval/_lib/src/Matrix.cc:repmat", "pyEdgeEval/_lib/src/Matrix.cc:reshape"]}
{"id": "C68", "title": "Matrix element access, index lists and submatrices", "statement": "Element access inside the matrix reads and writes that element only and throws outside; find lists exactly the indices of non-zero entries in increasing order; gather returns the entries at the given indices and throws if one is not an index; scatter writes the last value given for an index, keeps all other entries and throws on a wrong count or index; ind2sub gives row and column; taking out and writing in a block of rows and columns affects exactly that block; setdiag/getdiag act on column - row = k. Findings: sub2ind ignores the columns; taking out an empty range of rows throws though the ranges were accepted; insert does not check the size of its source and reads past its end; diag(v,k) puts v on the diagonal that getdiag calls -k.", "quantifier": "every shape, entries, index matrix, block and diagonal", "why_tests_cant": "All shapes and index matrices; out-of-bounds reads need not crash.", "anchors": ["pyEdgeEval/_lib/src/Matrix.cc:find", "pyEdgeEval/_lib/src/Matrix.cc:scatter", "pyEdgeEval/_lib/src/Matrix.cc:sub2ind", "pyEdgeEval/_lib/src/Matrix.cc:insert", "pyEdgeEval/_lib/src/Matrix.cc:diag"]}
{"id": "C69", "title": "Matrix reductions and extremes", "statement": "sum and prod over everything, rows or columns fold the entries from the left in index order for any (rounded) operation, hence are the sums and products in exact arithmetic; any/all decide whether some/every entry is non-zero; min/max of a non-empty matrix return an unbeaten entry and the first index it occurs at; rmin/rmax with and without indices do so per row, cmin/cmax without indices per column; all refuse empty matrices. Finding: cmin/cmax with indices address the result by row, so they leave its memory when there are more rows than columns and otherwise return row minima mixed with the first row.", "quantifier": "every shape, entries, operation and strict order, every content of uninitialised memory", "why_tests_cant": "All shapes and entries; a square symmetric test matrix hides the row/column mix-up.", "anchors": ["pyEdgeEval/_lib/src/Matrix.cc:csum", "pyEdgeEval/_lib/src/Matrix.cc:rmin", "pyEdgeEval/_lib/src/Matrix.cc:cmin"]}
{"id": "C70", "title": "Elementwise matrix operations, product, comparison and linspace", "statement": "Elementwise functions act on every entry, into a new matrix or in place; binary operators act entry by entry on equal shapes and refuse others; isequal decides equal shape and entries; the product accumulates a(i,k)*b(k,j) from k = 0 for any (rounded) arithmetic and is the matrix product in exact arithmetic, 1 x 1 factors scale, other misfitting shapes are refused; linspace(a,b,n), n >= 2, runs from exactly a to exactly b in equal steps. Finding: computed assignment (a += b) compares the number of rows with itself, so a right-hand side with fewer rows is read past its end and one with more rows is used shifted.", "quantifier": "every shape, entries, element function, operation and number of points, every content of uninitialised memory", "why_tests_cant": "All shapes and all arithmetic; a mismatch of rows is not detected at run time.", "anchors": ["pyEdgeEval/_lib/src/Matrix.cc:mtimes", "pyEdgeEval/_lib/src/Matrix.cc:isequal", "pyEdgeEval/_lib/src/Matrix.cc:linspace"]}
{"id": "C71", "title": "The scalar functions defined by the matrix library", "statement": "mod(x,y) is x minus a whole multiple of y lying between 0 and y with the sign of y (x itself for y = 0); rem(x,y) is x minus a whole multiple of y, smaller than y in size with the sign of x (NaN for y = 0); the inverse functions asec, acsc, acsch, acot invert the reciprocal functions. Finding: sec, csc, cot, sech, csch and coth are not the reciprocals of cos, sin, ...: they apply the function to 1/x, which is wrong for every positive argument of sech, csch, coth and on [2, pi) for csc and cot.", "quantifier": "every argument", "why_tests_cant": "All real arguments.", "anchors": ["pyEdgeEval/_lib/src/Matrix.cc:sec", "pyEdgeEval/_lib/src/Matrix.cc:rem", "pyEdgeEval/_lib/src/Matrix.cc:mod"]}
{"id": "C72", "title": "The 1-4-dimensional arrays address row by row, one element per index tuple", "statement": "In an array of fewer than 2^32 elements and any number of dimensions, the element at an in-range index tuple lies at its row-major rank, computed in 32-bit unsigned arithmetic without loss; tuples and positions of the block correspond one to one. Finding: larger arrays silently alias (Array2D(65537,65536) has 65536 elements and its rows overlap).", "quantifier": "every number of dimensions, every shape, every index tuple", "why_tests_cant": "All shapes and tuples; overflow only shows at sizes no test allocates.", "anchors": ["pyEdgeEval/_lib/include/Array.hh:Array2D::index", "pyEdgeEval/_lib/include/Array.hh:Array3D::index", "pyEdgeEval/_lib/include/Array.hh:Array4D::index"]}
{"id": "C73", "title": "Arrays are values as long as they are not copied", "statement": "Every program over arrays of fewer than 2^32 elements (construct, resize, fill, read and write elements, read through data(), destroy) on any clean heap behaves as if each array were a function from index tuples to values, and touches nothing else. Without data() nothing but a failed assertion, an uninitialised or a destroyed object can go wrong whatever the sizes; with assertions an index at or above its dimension is always caught. If every array is destroyed all memory is given back. Findings: copy construction and assignment share the block, so that destroying both is a double free; size() of a dimension of 2^31 or more is negative.", "quantifier": "every program, element type, heap and size", "why_tests_cant": "Aliasing, leaks and double frees depend on the history of operations and need not crash.", "anchors": ["pyEdgeEval/_lib/include/Array.hh"]}
{"id": "C74", "title": "The native timer adds up exactly the measured intervals and prints clock times correctly", "statement": "After any history and a reset, the timer reports the sum of the start-stop intervals (elapsed, user, system, cpu); with assertions a sequence of calls goes through exactly if starts and stops alternate. In double arithmetic a measurement is off by less than half a microsecond. formatTime writes hours:minutes:seconds with the requested (0-9) decimals, nearest to the argument, never overruns its buffers, and its result is valid until the next call. Findings: without assertions a second stop counts the interval again and a stop without start uses unset members; a negative time that rounds to zero is written with a minus sign.", "quantifier": "every sequence of calls, every clock reading, every time and precision", "why_tests_cant": "Histories of calls and all clock values cannot be enumerated.", "anchors": ["pyEdgeEval/_lib/src/Timer.cc", "pyEdgeEval/_lib/include/Timer.hh"]}
{"id": "C75", "title": "Native strings are values and free what they allocate", "statement": "Every program over strings (construct, copy, format, assign, append, read lines, compare, destroy) within the documented limits leaves each string with exactly the text the value semantics gives, reads and writes only its own memory, and leaks nothing; nextLine reads lines of any length and reports the end of file exactly; comparison is lexicographic on the text up to the first NUL. Findings: a format with arguments that prints 127 characters or more uses a va_list twice (undefined), so assigning a string of 127 characters or more is undefined; x = x.text() empties x; appending a part of a string to itself reads freed memory when the text moves; a NUL at the start of a line makes nextLine read before the text.", "quantifier": "every program (history of operations), every text up to 2^28 characters", "why_tests_cant": "Aliasing, reallocation and buffer limits depend on the history and lengths.", "anchors": ["pyEdgeEval/_lib/src/String.cc", "pyEdgeEval/_lib/include/String.hh"]}
{"id": "C76", "title": "Native exceptions carry their complete message and free it once", "statement": "throw Exception(String(fmt, ...)) with a message of fewer than 127 characters leaves an exception with exactly the printed text and no other new memory; every formatted error of the matrix library is below that limit whatever its 32-bit numbers are; copies have their own message, and however often an exception is copied on its way up exactly one block stays in use. Finding: assignment of exceptions shares the message (double free) and leaks the old one.", "quantifier": "every format, every error of the matrix library, every value of its numbers, every number of copies", "why_tests_cant": "The longest message needs extreme numbers; leaks and double frees depend on how often the exception is copied.", "anchors": ["pyEdgeEval/_lib/src/Exception.cc", "pyEdgeEval/_lib/include/Exception.hh", "pyEdgeEval/_lib/src/Matrix.cc"]}
{"id": "C77", "title": "An assignment-solver object gives back every block exactly once", "statement": "A program that declares CSA objects and lets them go in any order, on any graphs and with any memory requests failing, never frees anything twice or in the wrong way, and between two steps exactly the blocks of the living objects are allocated beyond those from before. A constructed object holds eight different blocks, its edges() / edge(i) / cost() are those of a minimum-cost perfect matching (moderate sizes), bad sizes are rejected by assertion before any allocation and a bad arc ends the process with a message. Findings: a failed allocation of the right nodes is not checked and leads to a null pointer; a failed allocation of the results leaks five blocks; copying an object leads to a double free.", "quantifier": "every program, graph, heap and schedule of failing allocations", "why_tests_cant": "Leaks, double frees and failing allocations depend on the history and are not seen by tests that compare results.", "anchors": ["pyEdgeEval/_lib/src/csa.cc", "pyEdgeEval/_lib/include/csa.hh:_delete", "pyEdgeEval/_lib/include/csa.hh:parse", "pyEdgeEval/_lib/include/csa.hh:st_create"]}
{"id": "C78", "title": "Worker processes with a state of their own", "statement": "When the task function reads or changes the state of its process (the global random stream of the C++ library, caches, ...), then whatever the schedule, a pool returns in task order what the function returns for every task in some state that a worker can reach from its start state by running tasks; each worker runs its chunks one after the other, beginning with a copy of the caller's state changed by the initializer. So anything true of a task and its result in every state is true of every result of a pool, results that do not depend on the state are those of the sequential loop, and an evaluation with any number of processes is an evaluation with some random stream per sample (to which C50 applies). The initializer arguments must be a tuple, otherwise TypeError. Finding: all workers start with the same random stream, so results that depend on it depend on the schedule and on nproc.", "quantifier": "every task function with state, every number of processes, chunk size, initializer and schedule", "why_tests_cant": "The assignment of tasks to processes varies from run to run.", "anchors": ["pyEdgeEval/utils/progressbar.py:track_parallel_progress", "pyEdgeEval/utils/progressbar.py:init_pool", "pyEdgeEval/_lib/src/Random.cc:Random::rand", "pyEdgeEval/common/multi_label/calculate_metrics.py:calculate_metrics"]}
{"id": "C79", "title": "The comparison with the MATLAB edges compares the right files and counts the differences", "statement": "test_against_matlab compares the MATLAB picture of every training and validation sample with the picture of the same sample the converter wrote (full size, not thinned), reports for each split the number of samples whose pictures are not identical and names those with more than three different entries, whatever the number of workers and their order; after a conversion to PNG without instances it reports no miss exactly when every MATLAB picture is the picture convert_cityscapes made of that label map. Findings: with instances (the default) it is refused; TIFF results cannot be compared (ValueError at the first sample); a gtProc in the path of the data directory is rewritten too.", "quantifier": "all pictures, sample names, data directories, numbers of workers and schedules", "why_tests_cant": "Path rewriting depends on every component of the path; the tests ship no MATLAB results.", "anchors": ["pyEdgeEval/helpers/convert_cityscapes.py:test_edges", "pyEdgeEval/helpers/convert_cityscapes.py:test_against_matlab"]}
{"id": "C80", "title": "Ground truth is read back exactly from MATLAB files, and the two loaders agree on well-formed ones", "statement": "load_sbd_gt_cls_mat and load_sbd_gt_inst_mat applied to an SBD file (a structure with boundaries as a column cell of sparse 0/1 matrices, a segmentation of the same size and a vector of categories) return the stack of all classes with exactly the stored boundary pixels, the segmentation and the categories in order; the dense form of a sparse matrix has at each place the sum of the entries stored for it. The old loader reads fields by position whatever their names, the new one by name whatever their order, and needs at least two classes (or none) and at least two rows and columns: one class raises TypeError, one row or column AssertionError, a single pixel AttributeError. A row cell instead of a column cell makes the old loader return the first class only, while the new one returns all. A boundary of another size raises ValueError unless a single row or column can be repeated. load_reanno_samples returns the names in order, except that a list with exactly one name raises TypeError (old) or AssertionError (new). load_bsds_gt_boundaries returns the annotations in order; with the new loader a single annotation raises KeyError. A missing file or package raises AssertionError, a missing variable KeyError.", "quantifier": "all MATLAB files of the described shape (any number of classes, any picture size, any sparse storage including duplicates and stored zeros, any number of categories, names, annotators), both loaders", "why_tests_cant": "the result must be right for every size and every way of storing the same picture; the failing sizes are boundary cases of two different library conventions", "anchors": ["pyEdgeEval/utils/mat_utils.py:loadmat,sparse2numpy", "pyEdgeEval/helpers/convert_sbd.py:load_sbd_gt_cls_mat", "pyEdgeEval/helpers/convert_sbd.py:load_sbd_gt_inst_mat", "pyEdgeEval/helpers/convert_sbd.py:load_reanno_samples", "pyEdgeEval/datasets/bsds.py:load_bsds_gt_boundaries"]}
{"id": "C81", "title": "The SBD conversion turns the MATLAB files of a directory into exactly the documented pictures", "statement": "On an SBD directory whose lists and MATLAB files are in place and well-formed, scripts/convert_datasets/sbd.py ends without an exception and writes exactly seven pictures for every listed sample, each showing what the MATLAB files of that sample say (classes, instances, categories); with --reanno and the new MATLAB reader it also writes the raw and thin re-annotated pictures with the boundaries in their files and the list of the re-annotated samples. Every annotation can be stored in such files. A file that cannot be read stops the run with the loader's exception after the samples before it; a missing, wrong or one-name test.mat and a missing new reader are noticed only after both splits have been converted.", "quantifier": "all directories, lists, line ends, annotations, sparse storage layouts and sound distance transforms", "why_tests_cant": "two loaders, two annotation layouts and the converter must agree for every annotation; the repository ships no MATLAB files", "anchors": ["scripts/convert_datasets/sbd.py", "pyEdgeEval/helpers/convert_sbd.py:routine", "pyEdgeEval/helpers/convert_sbd.py:reanno_routine", "pyEdgeEval/helpers/convert_sbd.py:load_sbd_gt_cls_mat", "pyEdgeEval/helpers/convert_sbd.py:load_reanno_samples"]}
{"id": "C82", "title": "A BSDS evaluation scores the boundaries the annotators stored in the MATLAB files", "statement": "With a well-formed annotation file and a prediction of the same size for every sample, BSDS500Evaluator.evaluate ends with one table of sound scores whatever the workers' schedule; recall at a threshold is the matched fraction of the boundary pixels of all annotators of all samples, precision (without NMS and thinning) the matched fraction of the responses reaching the threshold. An annotation file that exists but cannot be read makes every run end in the reader's exception, and nothing is returned or saved.", "quantifier": "all sets of annotation files (any number of annotators, any content), predictions, thresholds, random streams, worker counts and schedules", "why_tests_cant": "files, loader, matcher, pool and scores have to agree for every input; the repository ships no MATLAB files", "anchors": ["pyEdgeEval/datasets/bsds.py:load_bsds_gt_boundaries", "pyEdgeEval/datasets/bsds.py:bsds_eval_single", "pyEdgeEval/evaluators/bsds.py:BSDS500Evaluator.evaluate", "pyEdgeEval/utils/mat_utils.py:loadmat"]}
{"id": "C83", "title": "Every command reads its command line as documented, and refuses everything else", "statement": "A command line written by the usual rules (positional words in order; options by their name or an unambiguous prefix of a long name; values as the next word, after = or attached to a short option; -- before words that look like options) with the right number of positional words is accepted by every command whatever the order of its words, nothing else is accepted, every word of an accepted command line counts, and its meaning is unique: the last occurrence of an option wins, absent options have the documented default. Each command hands exactly these values to its evaluation or conversion (data set and prediction directories in this order, number of processes, thresholds, ...). A wrong number of positional words, an unknown option, an ambiguous prefix or a value of the wrong type stops the command before anything is done, with a status of at most 2. Findings: --n is always refused (--nonIS or --nproc), --pre is --pre-seal for Cityscapes and refused by SBD; --pred-suffix has no effect on the SBD evaluation; the thin protocol refuses --half and --scale; no command line makes evaluate_reanno_sbd evaluate anything.", "quantifier": "all command lines (any words in any order), all seven parsers", "why_tests_cant": "There are infinitely many command lines; order, repetition, abbreviation and attached values interact.", "anchors": ["pyEdgeEval/helpers/evaluate_cityscapes.py:_common_parser_args,raw_eval_parse_args,thin_eval_parse_args,evaluate_cityscapes_raw,evaluate_cityscapes_thin", "pyEdgeEval/helpers/evaluate_sbd.py:parse_args,evaluate_sbd,evaluate_reanno_sbd", "pyEdgeEval/helpers/evaluate_bsds500.py:parse_args,evaluate_bsds500", "scripts/convert_datasets/cityscapes.py:parse_args,main", "scripts/convert_datasets/sbd.py:parse_args", "tests/script_bsds500.py:parse_args,main", "scripts/evaluate/cityscapes_raw.py", "scripts/evaluate/cityscapes_thin.py", "scripts/evaluate/sbd.py", "scripts/evaluate/bsds500.py"]}
{"id": "C84", "title": "An evaluation command turns a command line and the files it names into the scores, or stops early for the documented reasons", "statement": "cityscapes_raw.py, cityscapes_thin.py, sbd.py, bsds500.py and script_bsds500.py: when the command line is well-formed, the output directory and its log file can be made and the files of every listed sample are in place, the command ends normally whatever the workers' schedules, with sound scores for exactly the listed samples (and, with categories, one report over exactly the requested ones), computed under the protocol the options select; for BSDS recall is the matched fraction of the pixels the annotators marked. Results are saved unless the output path is empty; without --output-path they go to edge_results_<time> in the prediction directory. A refused command line, a malformed list or a category out of range ends the command before anything is created, an output directory or log that cannot be made ends it before any sample is read, a missing sample list, directory or ground-truth file ends it with an AssertionError, and with a missing prediction it can only end with an exception: no report is ever made of the remaining samples. Wherever the path of the predictions leads (., .., doubled slashes), the default output directory is a new name in it. Findings: a BSDS split without annotations is a TypeError; --pre-seal without --nonIS and a bad --scale are only noticed after the output directory has been made; an empty output path saves nothing silently; the default output directory creates a missing prediction directory instead of noticing it.", "quantifier": "every command line, every file system (before and after the output directory is made), all pictures, annotation files, random streams, worker counts and schedules", "why_tests_cant": "parsing, paths, sample lists, protocol, pool and scores have to fit together for every combination of options and files", "anchors": ["scripts/evaluate/cityscapes_raw.py", "scripts/evaluate/cityscapes_thin.py", "scripts/evaluate/sbd.py", "scripts/evaluate/bsds500.py", "pyEdgeEval/helpers/evaluate_cityscapes.py:evaluate", "pyEdgeEval/helpers/evaluate_sbd.py:evaluate", "pyEdgeEval/helpers/evaluate_bsds500.py:evaluate", "tests/script_bsds500.py:test,main", "pyEdgeEval/utils/path.py:mkdir_or_exist", "pyEdgeEval/evaluators/base.py", "pyEdgeEval/evaluators/bsds.py"]}
{"id": "C85", "title": "A conversion command turns a complete dataset into exactly the documented files, however many processes share the work, and these files are what the evaluation commands read", "statement": "cityscapes.py [options] and sbd.py [options] of scripts/convert_datasets: with a complete dataset and an output directory that can be made, the command ends without an exception whatever the number of processes and the order in which they take the files, and has written exactly the files the options ask for (trainId pictures, edge maps of radius 2 and thin maps of radius 1 in full and half size, sample lists; for SBD the seven pictures of every listed sample and, with --reanno, the re-annotated pictures and their list in the order of test.mat). A refused command line, an empty output directory name, a missing gtFine or sample list and an output directory that cannot be made end the command before anything is written. An evaluation command on a converted dataset with predictions in place then finds all its files and ends with sound scores. Findings: --ext bin always ends in a TypeError after the trainId pictures; --test_mode without --nonIS is always refused.", "quantifier": "every command line, dataset, number of processes, order of the workers, fuel and sound distance transform", "why_tests_cant": "options, file names, job lists, workers and two programs (converter, evaluator) have to agree for every dataset; the repository ships no data", "anchors": ["scripts/convert_datasets/cityscapes.py:parse_args,main", "scripts/convert_datasets/sbd.py", "pyEdgeEval/helpers/convert_cityscapes.py:convert_cityscapes,test_against_matlab", "pyEdgeEval/helpers/convert_sbd.py:routine,reanno_routine", "pyEdgeEval/utils/path.py:mkdir_or_exist"]}
