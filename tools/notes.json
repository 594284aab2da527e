{
 "C07": "The one-column clause is false unless the labels are 0 and 1: C07_binary_column_refuted; C07_binary_column_partial covers labels 0/1.",
 "C15": "The stated behaviour is false: binary_kld is NaN at the extreme prevalences (C15_binary_kld_refuted) and can be strictly negative (C15_binary_kld_negative_refuted). C15_binary_kld_partial: finite and bounded below by minus a smoothing term on the open interval.",
 "C18": "Both parts proved for every positive smoothing constant; C18_jensenshannon_self_pos records that jensenshannon(p,p) is not exactly 0 but in (0, n*eps/2].",
 "C19": "The stated behaviour is false: kld is NaN as soon as a true prevalence is 0 (C19_kld_zero_class_refuted) and strictly negative for a perfect prediction (C19_kld_self_negative_refuted). C19_kld_partial: finite and >= -log2(1+n*eps) when all true prevalences are positive.",
 "C32": "False for every injective distance (C32_reported_loss_refuted): the loss belongs to a golden section point, the prevalence is the centre of the bracket. C32_reported_loss_partial: the reported loss is the distance at a point closer than the tolerance.",
 "C33": "False (C33_global_search_refuted: a convex distance with its minimum at 0.99 is answered with a prevalence below 0.02). Partial theorems: validity for every finite distance; near-optimality for convex and unimodal distances outside the last two grid cells; for convex distances that change at most by L per unit, near-optimality up to L / 50 without conditions, except that ValueError may be raised when all prevalences are that good.",
 "C35": "compute_quantiles drops a remaining weight below 0.0001 and then loses mass (C35_quantiles_refuted). C35_quantiles_of_test_sample: full statement for equal weights; C35_quantiles_of_mixture_partial: for weighted samples when no cut falls within the threshold. C35_quantiles_error_partial: for all weighted samples, up to n / 10000 in each quantile and 1 / 10000 in the average (for scores between -1 and 1).",
 "C81": "False for solve_hd when the columns have different totals, as for cumulative histograms (C81_hd_recovers_mixture_refuted). Proved for solve_l1, and for solve_hd with equal column totals (C81_hd_recovers_mixture_partial).",
 "C39": "False: the bags of the first call are returned by every later call (C39_second_call_refuted). The first call is right (C39_first_call_partial).",
 "C40": "False: a failure after the arrays are allocated makes the next call return arrays of zeros (C40_failed_call_refuted), and a failed call fixes bag_size=None to the size of its data (C40_bag_size_refuted). Proved for failures before allocation with an explicit bag size (C40_early_failure_partial).",
 "C41": "False for the Dirichlet method, which draws prevalences from the global generator (C41_dirichlet_refuted). Proved for the uniform method; the covariate generator's model has no access to the global generator.",
 "C42": "False for the mixed generator with its default bag_size=None, which always raises TypeError (C42_mixed_default_size_refuted). Proved with an explicit bag size and for the covariate generator.",
 "C82": "False with three or more classes: minimum prevalences that are accepted but whose numbers of examples add up to the size of the bag or more (so also when they add up to exactly 1, as 0.25, 0.5, 0.25) make generate_bags loop for ever (C82_unattainable_refuted, C82_infeasible_minimum_refuted). Proved otherwise: below that total a fair generator brings it back (C82_attainable_partial), the first and last minimum alone are checked (C82_ends_rejected_partial), and without minima, with at most two classes or with the Dirichlet method it always comes back (C82_comes_back_partial, C82_mixed_partial).",
 "C43": "False for normal bins on a constant feature, whose examples may all fall outside the bins (C43_constant_feature_refuted). Proved for equal-width and equal-count bins, and for normal and binormal bins when the deviations are positive (partial).",
 "C44": "Proved for DFX. False for DFy with three or more classes: the block of descriptor d ends at d+1 (C44_dfy_multiclass_refuted); proved for DFy with two classes (partial).",
 "C46": "False for the normal strategy on a constant sample: the cut points run from -1/2 to 1/2 (C46_normal_constant_refuted). Proved for equal_width, for equal_count with fewer than two bins per example (see C125), and for normal and binormal with a positive deviation (partial).",
 "C83": "False: with normal or binormal bins fit raises IndexError (C83_repeated_predictions_refuted). Proved for the other strategies (partial).",
 "C84": "False: with a distance function the answer has two entries whatever the number of classes (C84_callable_refuted). Proved in the other cases (partial).",
 "C51": "False with two classes: LabelBinarizer returns one column and fit raises IndexError at the second class (C51_two_classes_refuted). Proved for three or more classes (C51_ovr_partial, C51_ovr_faithful).",
 "C52": "False with two classes: fit raises IndexError (C52_two_classes_refuted). Proved for three or more classes (C52_fh_partial, C52_fh_faithful).",
 "C88": "False unless neg_label is 0: summing columns adds neg_label once per class (C88_other_labels_refuted). Proved for neg_label 0 (partial).",
 "C57": "False: training histograms are divided by the number of training examples instead of the bag size (C57_bag_size_refuted). Proved when they coincide, as with bag_size=None; the bins of REGy with equal widths are always those of the interval from 0 to 1 (partial).",
 "C58": "False: all objects built with the default arguments hold one bag generator, which returns the bags of the first fit for ever (C58_shared_generator_refuted). Proved for objects with different generators (partial). The part about the ensemble EoQ is C90.",
 "C89": "False with two classes: the given regressor itself is trained (C89_shared_regressor_refuted, C89_answers_change_refuted). Proved for other numbers of classes, GLMs and separate regressors (partial).",
 "C59": "Proved for both families of quantifiers (C59_eoqx_valid, C59_eoqx_unanimous, C59_eoqy_valid, C59_eoqy_unanimous). C59_none_selected shows what happens without the hypothesis that some member is selected: NaN for every class.",
 "C60": "False: the distributions stored for all the members are that of the whole training set, so that the selection is arbitrary (C60_refuted, for every sorting algorithm). Proved when all the bags have the distribution of the training set (partial), also with classifiers.",
 "C90": "False: the default bag generator is shared and returns the bags of the first fit; a second object with more members cannot be fitted (C90_shared_generator_refuted). Proved for objects with different generators (partial).",
 "C91": "False: with 'CDF' fit never returns (C91_cdf_refuted, C91_cdf_classifiers_refuted), and without classifiers it never returns unless n_bins is 100 (C91_bins_refuted). Proved for 'PDF': without classifiers with 100 bins, and with a new ensemble of classifiers and bins of equal width (partial).",
 "C92": "Proved with one prediction per example. With several, fit never returns unless the bags are as large as the training set (C92_bag_size_refuted), in which case it holds (partial).",
 "C93": "False: a single prevalence is recorded for every class (C93_single_class_refuted), and other vectors that are too short raise ValueError (C93_missing_class_refuted). Proved when members predict all the classes (partial).",
 "C61": "Proved for splitters that give the same folds in every call (the default, and any with a fixed random_state): training examples are predicted by models trained without them, in every repetition; other data by every model. See C96 for splitters that shuffle.",
 "C96": "False: _predict_proba calls cv_.split again, twice. With a splitter whose calls differ the fold numbers and the models do not match, and examples may be predicted by the model trained with them (C96_shuffled_refuted). C61 is the positive part.",
 "C97": "False: the row of a model that knows a single class is broadcast to all the classes (rows sum to the number of classes) and other short rows raise an error. Partial: when every model knows all the classes the averaged rows are distributions.",
 "C62": "False for the classes in the middle: 1 - a*b is computed instead of (1-a)*b (frank_and_hall.py:253); the two agree only when b = 1 (C62_middle_refuted). Partial: the first and the last class are right and all the values are in [0,1].",
 "C63": "`ascending is False` (frank_and_hall.py:538) compares an array with the object False, so no row is ever corrected (C63_envelopes_refuted). Partial: the rows are still distributions, their cumulative sums are the running maxima, and they are the averages of the envelopes when the binary outputs are already nondecreasing.",
 "C65": "False: the examples with label 0 are counted for the left group, but the left group has label 1 (frank_and_hall.py:800), so the prevalence of the right group is used (C65_wrong_group_refuted). Partial: apart from that, every node has the first model with the smallest loss of its subtree and every model is in the tree exactly once (this for every performance measure, also with NaN).",
 "C99": "False: with three or more classes predict never returns the last class, because the wrong value of the previous class is never smaller (C99_last_class_refuted).",
 "C100": "Proved for three or more classes; with two classes fit raises IndexError (C100_two_classes_refuted).",
 "C70": "False when the tasks share the process, which is the default (n_jobs=None) or with threads: base_estimator.fit returns the same object, so every estimator is the one trained last (C70_shared_refuted, for every order of the calls). True when joblib runs the tasks in other processes (C70_processes_partial). The bags are the columns of indexes, although the docstring says rows.",
 "C102": "False: a second fit trains nothing, it only replaces classes_ (C102_refit_refuted). The first fit is C70.",
 "C103": "predict is proved for every ensemble; predict_proba when each estimator has a column per class. With a bag of a single class the code records probability 1 for every class (C103_single_class_refuted).",
 "C105": "HD and L2 are proved (L2: exact when the class histograms are linearly independent, otherwise within half a floating point spacing, the perturbation of the Gram matrix). False for the documented 'L1' and for a function: predict returns None (C105_other_refuted).",
 "C71": "Exact solver (ExactCvx) is a hypothesis; known predictions (every prediction is one of the training labels) is a hypothesis.",
 "C72": "winner_node: the score is the expected position for posteriors with two consecutive classes, as those of the tree classifiers; other posteriors only get the range.",
 "C107": "False: a second fit keeps the first classifier and only replaces classes_ (C107_refit_refuted); after an exception while the tree is built every later fit raises ValueError (C107_interrupted_refuted).",
 "C106": "Both for predict(X) and for given predictions.",
 "C74": "Proved for labels and for matrices of probabilities. False for a single column of probabilities, which is cut into the integers 0 and 1 whatever the classes are called (C74_single_column_refuted).",
 "C116": "Proved when the second training set has the same labels (C116_same_labels_partial). False otherwise: classes_ is assigned before the checks (base.py:194), so that after a fit that raised ValueError the confusion matrix of AC is used with the labels of the rejected training set (C116_failed_fit_refuted).",
 "C118": "Proved for distances that do not raise and for the first two points. False inside the loop: a bare except (search.py:183-187, 197-201) keeps the previous loss, so that a distance that fails everywhere but at the first two points gives the right end of the interval (C118_swallowed_refuted).",
 "C120": "Ensembles that are not fitted are new ones, joblib runs each task once, and other estimators can predict after their own fit.",
 "C121": "Proved for a new ensemble whose tasks run in other processes (C70) and whose classifiers know all the classes (partial). False for a second fit: the ensemble keeps the classifiers of the first training set, so that members are trained with the new bags and the predictions of the old classifiers (C121_refit_refuted).",
 "C122": "False: the matrix of labels (a column per classifier) is taken for a matrix of probabilities (a column per class), and its first largest label for the class. With two or more members and classifiers that agree, the answer is that everything is of the first class (C122_unanimous_refuted); an IndexError if the largest label is in a column beyond the classes (C122_predict_raises_refuted); with three or more classes and fewer bags fit never returns (C122_few_members_refuted). True with one bag (partial).",
 "C123": "Proved for CV_estimator and EnsembleOfClassifiers, for new objects and once a call has returned, and for the Frank and Hall classifiers, with and without a tree, once a call has returned. False of the Frank and Hall classifiers, which assign classes_ before anything else and test only that: after a first call to fit that fails, predict raises TypeError (data rejected by check_X_y, C123_fh_rejected_refuted) or AttributeError (a binary model that fails, C123_fh_base_refuted), and every later fit of a quantifier with that estimator raises AttributeError (C123_stuck_refuted).",
 "C124": "Proved: a call that returns erases the past for Frank and Hall (also with the tree) and CV_estimator; rejected training sets leave no trace in an EnsembleOfClassifiers, nor in the classifier with a tree if the labels are the same (partial). False: after a call that fails, the models of the previous training set answer with the labels of the rejected one (C124_fh_relabels_refuted, C124_cv_relabels_refuted); an EnsembleOfClassifiers whose training failed is never trained again, although fit returns (C124_ens_retry_refuted).",
 "C125": "Proved for fewer bins than twice the examples (partial). False beyond: with more than two bins per example the last cut point is read after the end of the sample and compute_bincuts always raises IndexError (C125_equal_count_refuted, and C125_dfx_refuted, C125_dfy_refuted for fit); with exactly two bins per example the first cut point is computed with sorted_values[-1], and cut points can decrease (C125_unsorted_refuted).",
 "C126": "Proved for every method but CvMy: for QUANTy up to 9999 quantiles (the loop has a tolerance of 1e-4), for SORDy with two classes. REGX and REGy have it with every regressor (C126_reg), EoQ when its members have it (C126_eoqx, C126_eoqy). CvMy ranks the predictions of the bag among the training ones, so that its order does not matter (C126_cvmy_order_partial) but repeating the bag changes the answer (C126_cvmy_repetition_refuted).",
 "C127": "The attributes of the quantifier do not remember earlier fits (C127_*_partial for fourteen classes; DFy, FriedmanME, ACOrdinal and PDFOrdinaly for solvers whose answer does not depend on where they start). The estimators do: fit trains only estimators that are not fitted, so a second call of fit trains nothing (C127_not_retrained_refuted) and a CC fitted with two training sets one after the other answers with the classifier of the first (C127_refit_refuted). The proved theorems compare objects whose last fit finds the estimators in the same state.",
 "C128": "Proved through the whole call of fit and predict with given predictions; C128_own_classifier reduces the case with estimators to it. Solvers are exact (stated hypotheses).",
 "C129": "Proved for CC, PCC, AC, PAC, EM, DeBias, FriedmanME, EDy, ACOrdinal, PDFOrdinaly and EDX for training sets of any sizes, for SORDy with two classes and nonempty bags, and for DFy/HDy/MMy and DFX/HDX with every strategy but 'equal_count', which needs training sets of the same size. False of DFX with 'equal_count' when the training set is repeated (C129_equal_count_refuted: an IndexError with few examples disappears) and of CvMy, whose ranks mix training set and bag (C129_cvmy_size_refuted). For QUANTy only the order is covered, with distinct probabilities. Regression-based quantifiers, ensembles and PWKQ are not covered: they draw samples or call scikit-learn's neighbours.",
 "C130": "Refuted for max_iter=1: the loop leaves before the check, and EM returns NaN for every class. Proved for every larger limit.",
 "C131": "Refuted for emd_score with rows: `prevs[0, :] = 1` fills the whole row, so the score of the worst prediction is 2/3 instead of 0. Proved for flat arrays and columns, and for every other metric in every layout.",
 "C132": "Refuted for distances written with NumPy: the mixtures of the grid are flat and the distribution of the bag is a column, so `np.sum(np.abs(p - q))` adds over all pairs of bins; a witness where the library metric gives a prevalence of at least 0.98 and the same distance written with NumPy raises ValueError. Proved for the metrics of the library.",
 "C133": "Refuted for one example: its prediction in a column raises IndexError. Proved for every other number of examples.",
 "C134": "Refuted for CC and AC with a single class: the answer has no dimensions. Proved for two or more classes, and for PCC and PAC always.",
 "C137": "Of the distances given as callables the norms of the difference are covered, with two classes (C137_dfy_norm, C137_dfx_norm, C137_friedman_norm). 'HD' requires representations with equal totals and 'L2' independent ones, as in C73 and C26.",
 "C138": "Refuted for DFy with two classes: it uses the probabilities of the first class only and its bins are closed on the left, so a probability on a cut is in different bins for the two classes (`C138_dfy_refuted`). `C138_dfy_partial` has the case of three or more classes, except the combination of cumulative histograms with 'HD'. Refuted for probabilities with ties given to quantifiers that need labels: the first class wins (`C138_ties_refuted`); `C138_crisp_partial` has the case of a unique maximum. AC and PAC with three or more classes and a singular matrix depend on the solver and are not covered.",
 "C139": "partial: for files with two or more examples (C139_load_partial). A file with one example raises IndexError (C139_one_example_refuted), because genfromtxt returns a one-dimensional array. Labels that are not integers are cut, so that different labels may become one class (C139_labels_cut).",
 "C140": "partial: among the vectors with at least one example of every class but the first, all are equally likely, with m! of the bs^m draws each (C140_equally_likely_partial, C140_two_classes_partial), and every vector with at least one example of the last class is possible (C140_reachable_partial). The claim as a whole is false: no bag is ever without examples of the last class, because `high` is exclusive in randint (C140_last_class_refuted), and bags without the class in the middle are half as likely as the others (C140_three_classes_refuted).",
 "C141": "partial: holds of CC, PCC, AC, PAC, EM, DeBias, SORDy, QUANTy, DFy, FriedmanME, EDy, ACOrdinal and PDFOrdinaly. False of CvMy, which keeps the predictions of the training examples by reference and uses them in predict (C141_cvmy_refuted), and of the bag generators, which return the arrays that they keep (C141_bags_refuted).",
 "C142": "partial: holds of l1, l2, mean_absolute_error, mean_squared_error, bray_curtis, topsoe, jensenshannon, probsymmetric, kld (positive true prevalences), emd, emd_score, absolute, squared and relative errors and the two normalized scores, and of EoQ with the strategy 'mean'. False of hd (C142_hd_refuted) and symmetric_absolute_percentage_error (C142_sape_refuted); for those two the average is never worse than the worst prediction (C142_hd_partial, C142_sape_partial).",
 "C143": "Classifier predictions of the training set are given, so that the classifier does not change along the stream. Distances given as callables are not covered. `C143_streams_exist` builds such a stream for every training set and all prevalences.",
 "C144": "proved for CC, PCC, AC, PAC, FriedmanME, DFy, DFX (with 'L2'), EDy, EDX and DeBias",
 "C145": "The last prevalence of FrankAndHallQuantifier can be negative on doubles: with nine classes and 0.15, 0.2, 0.25, 0.3, 0.35, 0.4, 0.45, 1 for the left groups, np.sum adds the first eight prevalences up to 1 + 2^-52 and the last one is not clipped (ordinal.py:263). Overflow and underflow are not modelled.",
 "C146": "linalg.inv is a parameter whose results are assumed to tend to the exact inverse.",
 "C147": "Refuted in part: on doubles `hd` is 0 for two different vectors (square roots that round to the same number), `topsoe` and `jensenshannon` are negative for (1 - 2^-53, 2^-53) and (1, 0) whatever accurate logarithm is used and for every epsilon up to the default, and `emd_score` is negative for a pair of 3-class prevalences. A score or distance can thus be slightly outside its range. Overflow and subnormal numbers are not part of the model of rounding; `kld` only for positive true prevalences.",
 "C148": "False for several methods: proved refutations for CC, SORDy, DFy (two classes), FriedmanME and PAC (two classes, NaN in the training set); proved for PCC, EM, DeBias, PAC in the other cases, one-versus-rest, Frank and Hall, and QUANTy with the metrics of the library (refuted for it with other distances). EDy, CvMy, k-NN and the regression methods are not covered: they hand the predictions to scikit-learn or SciPy functions with their own checks.",
 "C149": "C149: for DFX with 'binormal' and null deviations the cut points are those of the range [0, 0] whatever the units, so the answer changes with the origin of the feature (refuted); EDX answers change when the features change by different factors (refuted).",
 "C150": "Refuted for EM, EDX, PWK and PWKQuantifier (the constructor stores an argument under another name, so get_params, clone and set_params raise AttributeError whatever the arguments), for OrdinalQuantificationTree (get_params gives the wrapped tree, clone raises RuntimeError, set_params drops the tree), for CV_estimator after fit (its setting cv is overwritten) and for objects with such an object among their settings. Proved for the 28 other classes. Not modelled: nested names with two underscores.",
 "C151": "Refuted for EDX with Euclidean distances when a column that is constant in the training set has another value in the bag; with the same value in the bag it is proved (C151_edx_euclidean_partial). Proved in full for DFX, HDX (as the order of the prevalences by distance) and EDX with Manhattan distances. For EDX the classes must be told apart by the distance (Separated).",
 "C152": "Also: C86 says that a stationary answer is of maximum likelihood among the prevalences with its support; C152 removes that restriction for the iterates that the program computes.",
 "C153": "Proved of CC, PCC, AC and PAC (two classes or an invertible matrix), ACOrdinal, DeBias and QUANTy, of EM with two or more iterations, and of DFy with the metrics of the library, which reject NaN. False of DFy with other distance functions that give NaN for NaN, whose answer is at least 98% of positives (C153_dfy_refuted), and of SORDy, which takes the examples of the second class for the bag and answers with valid prevalences (C153_sordy_refuted). The solvers for HD, L1 and L2 and the distances of EDy and CvMy on arrays of NaN or without rows are outside the model.",
 "C156": "kappa is a hypothesis (TellsApart, MixturesTellApart, EnergyTellsApart), as in C135 and C137, which also give it for two classes. Exact solvers, rounding not modelled.",
 "C157": "Exact arithmetic; labels given as predictions. The two-class statement for PCC is C157_bias applied to the matrix in C157_pcc_shift.",
 "C158": "jensenshannon is not 0 for the right prediction (C18), and kld is negative or nan there (C19), so they are not in the statement about limits.",
 "C159": "Training sets with two classes are excluded because fit raises for them (C51, C52). The errors of the binary quantifiers are hypotheses.",
 "C160": "False: the rest of the classes is one label of the binary problem, and its scores change when the prevalences within it change. C160_ovr_refuted: PAC itself is exact for all such bags, and the decomposition answers 1/4, 3/4, 0 for a bag of the second class only. C160_fh_refuted: Frank and Hall gives the first class 1/3 in such a bag. The partial theorems add that the mean of each score is the same for all the classes on a side of its binary problem. Predictions are given, one per training example (with estimators the copies ask the binary estimators).",
 "C161": "Partial: the last clause is false. UsingClassifiers.fit assigns classes_ before it checks that there are predictions, and quantifiers_ is not touched by a fit that it rejects, so after such a fit with labels of fewer classes the object answers, for the new classes, with the first copies of the old fit (C161_rejected_refuted, for every base quantifier that needs predictions). For the same reason it can answer although no fit has returned (C161_no_fit_refuted). Proved: the clause about the last fit that returns (C161_last_fit), a new object (C161_unfitted), fits that raise in a copy (C161_failed_copy_partial, and C161_missing_copy_partial when the base quantifier was already fitted and the copy is not the last one) or while the labels are binarised (C161_failed_labels_partial).",
 "C162": "Proved. The solvers of the methods that match find an optimum (the contracts of C26, C28 and C73). `AcExact` is the case of the claim for these methods: it excludes confusion matrices that AC does not invert, and with three or more classes the bags where AC clips. The distances given as functions and the CDFs are not covered. Not stated for SORDy and QUANTy, whose answers come from a search with a tolerance.",
 "C164": "For the methods that keep the problem of their solver between two calls to predict (DFy, FriedmanME, ACOrdinal, PDFOrdinaly) the error of a bag is that of some of the best prevalences for that bag, with a solver that finds one of them: when there are several, which one may depend on the bags seen before. DFy and FriedmanME with a function as distance are outside of the statement. For 'L2' the class representations have to be linearly independent, and for 'HD' they have to have the same total.",
 "C165": "DFy: bins of equal width; 'PDF' with 'L1', 'L2' or 'HD', 'CDF' with 'L1'. With bins of equal count the cut points move with the training sample. The solvers are exact, as in C73 and C137; the least squares of PAC and the other solvers of AC are not used when the rates have an inverse. Measurability: the labels have measurable singletons.",
 "C166": "False for a shared quantifier: `C166_other_bag_refuted` (every class) and `C166_cc_not_prevalences_refuted` (an answer of no bag). `C166_own_objects` is for a quantifier per thread, `C166_one_at_a_time_partial` for calls that do not overlap. A call of a method of an estimator is one operation; the part of `predict` after the predictions is one read and one write, except in CC, which has each of its reads.",
 "C167": "Holds for the same training set (`C167_same_data`). False for different training sets (`C167_other_model_refuted` for every class, `C167_no_order_refuted` for AC) and for a FrankAndHallClassifier as the shared estimator (`C167_frank_hall_refuted`): the check of the estimator and its training are two operations.",
 "C168": "Holds for a generator per thread: `C168_own_generators` (seeds: the same as alone) and `C168_shared_random_state` (bags, though `C168_not_reproducible_refuted`). False for a new generator that is shared: `C168_zeros_refuted` and `C168_type_error_refuted` (all data), `C168_not_prevalences_refuted`. `C168_filled_partial`: shared, once its bags exist. The generator here is CovariateShift_BagGenerator; C174 is about PriorShift_BagGenerator.",
 "C169": "The last sentence is false. An interrupted fit leaves classes_ of the new call with what the old one learned, and predict answers with them (CC, any labels: C169_half_fitted_refuted). generate_bags of CovariateShift_BagGenerator interrupted after it made its arrays makes every later call return them, full of zeros, without an exception (C169_bags_refuted). A FrankAndHallClassifier interrupted after classes_ is assigned passes for trained, and every later fit of a quantifier with it raises TypeError, also the repeated one (C169_frank_hall_refuted). The rest is proved for each class; for DFy, FriedmanME, ACOrdinal and PDFOrdinaly with a solver whose solution does not depend on the starting point, as in C127. Other estimators are taken to be trained in one operation.",
 "C170": "proved for CC and PCC and for l1, bray_curtis, hd and emd. Refuted for AC (`C170_ac_refuted`: exact with three classes, 2/3 instead of 1 after merging two of them, because the merged class has other error rates in the bag than in the training set), and for mean_absolute_error, mean_squared_error and l2 (`C170_mean_errors_refuted`: the same estimate looks worse after merging).",
 "C171": "one prediction is replaced: with r predictions per example (repeated cross-validation) the theorem is applied r times. Of the methods that match distributions FriedmanME and DFy with 'L2' and bins of equal width are covered, when the training distributions are independent before and after, and EDy and EDX, when the classes are separated before and after.",
 "C172": "Proved for AC and PAC with two classes and for DFy and FriedmanME with two classes and a distance function. False for the others treated here: DFy and FriedmanME with 'L2' answer the uniform prevalences, EDy that every example is of the last class, SORDy that every example is of the second class (up to half the tolerance), whatever the bag: the ridge that makes the matrix positive definite, and the direction in which the golden section search breaks ties, decide the answer. With 'HD' and 'L1' every prevalence is optimal and the answer is the solver's choice; AC and PAC with three or more classes answer the uniform prevalences with 'L2' too. QUANTy and EM are not covered.",
 "C173": "For 'L2' the training distributions have to be independent, for the energy distance the classes have to be separated (otherwise the answer does not depend on the bag, C172). DFy and DFX with other distances, SORDy, QUANTy and EM are not covered. C173_three_classes is the example with three classes.",
 "C174": "`C174_own_generators`, `C174_uniform`, `C174_bags` hold for a generator with a seed per thread. False: `C174_dirichlet_refuted` (the bags of a seed with the Dirichlet method), `C174_zeros_refuted`, `C174_drawn_refuted`, `C174_type_error_refuted` (a new generator that is shared). `C174_filled_partial`: shared, once its bags exist. `C174_shared_random_state`: generators that share RandomState objects.",
 "C175": "The conditions on the distance are those of `Searchable`, and none is left for `l2` (`C175_dfy_l2`, `C175_dfx_l2`, `C175_friedman_l2`) nor, with 2% of the distance between the classes as margin, for any norm (`C175_dfy_norm`, `C175_dfx_norm`, `C175_friedman_norm`; `C175_norms` says which metrics of the library they are for); without the condition on the last minimum the answer may be far from it (C33_global_search_refuted). The distance has finite values (NaN: C148)."
}