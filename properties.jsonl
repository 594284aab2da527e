{"id": "C01", "title": "CC returns the class frequencies of the predictions, a valid prevalence vector", "statement": "For a fitted CC and a nonempty testing bag whose crisp predictions are all known class labels, predict returns one value per class (in the sorted order of classes_), each equal to the fraction of the bag predicted as that class; all values lie in [0,1] and they sum to 1. If some predictions are not known labels the values sum to the fraction of known ones; for an empty bag every value is NaN.", "quantifier": "every label type with a total order, every training label list, every list of predictions", "why_tests_cant": "Tests sample a few bags; the claim is about every bag size, number of classes and set of values.", "anchors": ["quantificationlib/baselines/cc.py:CC.predict", "quantificationlib/base.py:UsingClassifiers.predict"]}
{"id": "C02", "title": "CC and PCC depend only on the multiset of test predictions and pool linearly", "statement": "Reordering the examples of a testing bag never changes what CC.predict or PCC.predict return, and the prevalences returned for the union of two nonempty bags are the size-weighted average of the prevalences returned for each bag.", "quantifier": "every pair of nonempty bags and every permutation", "why_tests_cant": "Permutation invariance and additivity quantify over all orders and all splits of all bags.", "anchors": ["quantificationlib/baselines/cc.py:CC.predict", "quantificationlib/baselines/cc.py:PCC.predict"]}
{"id": "C03", "title": "PCC returns the mean posterior, a valid prevalence vector, and agrees with CC on one-hot posteriors", "statement": "For a nonempty bag of posterior rows each of which is nonnegative and sums to 1, PCC.predict returns the column means, which are in [0,1] and sum to 1; when each row is the one-hot encoding of a known class it returns exactly what CC.predict returns for the corresponding crisp labels.", "quantifier": "every number of classes and every nonempty list of posterior rows", "why_tests_cant": "Tests sample a few bags; the claim is about every bag size, number of classes and set of values.", "anchors": ["quantificationlib/baselines/cc.py:PCC.predict", "quantificationlib/baselines/cc.py:CC.predict"]}
{"id": "C04", "title": "Missing predictions and estimators are rejected, supplied predictions win", "statement": "Any quantifier that needs training predictions raises ValueError in fit exactly when it has neither estimator_train nor predictions_train; predict raises ValueError exactly when there is neither estimator_test nor predictions_test. CC and PCC need no training predictions, so that their fit never raises. When predictions are supplied the result is the one computed from them and the estimator's predictions are not consulted.", "quantifier": "every combination of present/absent estimators and predictions and every estimator behaviour", "why_tests_cant": "The estimator is an arbitrary user object; a test fixes one.", "anchors": ["quantificationlib/base.py:UsingClassifiers.fit", "quantificationlib/base.py:UsingClassifiers.predict"]}
{"id": "C05", "title": "Training labels stay aligned with repeated training predictions", "statement": "When the training predictions are r stacked copies of a prediction per training example (r>=1), the labels used by the quantifier have exactly the length of the predictions and the label at position k*n+i is y[i]; class frequencies in the extended labels equal those in y.", "quantifier": "every training label list, every number of repetitions r", "why_tests_cant": "Holds for every length and every r.", "anchors": ["quantificationlib/base.py:UsingClassifiers.fit"]}
{"id": "C06", "title": "A shared estimator is trained at most once", "statement": "However many quantifiers share an estimator and whatever sequence of fit calls (including failing ones) is made on them, the estimator's fit method runs at most once, with the data of the first call that reached it, and an estimator that was already fitted is never refitted.", "quantifier": "every history of fit calls over every set of quantifiers sharing one estimator", "why_tests_cant": "It is a statement about unbounded call histories.", "anchors": ["quantificationlib/base.py:UsingClassifiers.fit"]}
{"id": "C07", "title": "Probabilities given to a crisp quantifier become the labels of the most probable class", "statement": "When predictions with one column per class are given to a quantifier that needs crisp predictions, each becomes the label of the first class with maximal probability, so it is always a known label. For one-column binary probabilities the crisp value should be the second class label when the probability is at least 0.5 and the first otherwise.", "quantifier": "every label set, every probability matrix", "why_tests_cant": "Quantifies over all label sets; tests in the repo only use 0/1 labels.", "anchors": ["quantificationlib/base.py:UsingClassifiers.__probs2crisps"]}
{"id": "C08", "title": "The confusion matrix learned by AC is the matrix of conditional frequencies P(predicted | true)", "statement": "After AC.fit on predictions that are all known labels, entry (i,j) of the confusion matrix is the fraction of training examples of class i predicted as class j; every row is a probability distribution. For PAC row i is the mean posterior of the examples of class i and is a probability distribution when posteriors are.", "quantifier": "every training set and predictions", "why_tests_cant": "Tests sample a few bags; the claim is about every bag size, number of classes and set of values.", "anchors": ["quantificationlib/baselines/ac.py:AC.fit", "quantificationlib/baselines/ac.py:PAC.fit"]}
{"id": "C09", "title": "Binary AC, PAC and PWK always return a valid prevalence vector", "statement": "For two classes and any finite test prevalence estimate and any rates tpr, fpr, the values returned are in [0,1] and sum to 1; if |tpr-fpr| <= 0.001 the unadjusted estimate is returned (when it is itself a prevalence vector).", "quantifier": "every real tpr, fpr and every observed prevalence", "why_tests_cant": "Ranges over a continuum including degenerate classifiers.", "anchors": ["quantificationlib/baselines/ac.py:AC.predict", "quantificationlib/baselines/ac.py:PAC.predict", "quantificationlib/multiclass/knn.py:PWKQuantifier.predict"]}
{"id": "C10", "title": "Multiclass AC and PAC return a valid prevalence vector whenever the matrix can be inverted", "statement": "With three or more classes, if the transposed confusion matrix is invertible, its rows are distributions and the observed prevalences sum to 1, the values returned by AC.predict/PAC.predict are nonnegative and sum to 1 - the clipping never removes all the mass and no NaN can appear.", "quantifier": "every number of classes, every invertible stochastic confusion matrix, every observed prevalence vector", "why_tests_cant": "An algebraic fact about all invertible stochastic matrices.", "anchors": ["quantificationlib/baselines/ac.py:AC.predict", "quantificationlib/baselines/ac.py:PAC.predict"]}
{"id": "C11", "title": "AC and PAC recover the true prevalences exactly under prior probability shift", "statement": "If the observed prevalences are exactly the mixture of the confusion-matrix rows with weights p (a valid prevalence vector), then the adjusted prevalences returned are exactly p: for two classes whenever |tpr-fpr|>0.001, for more classes whenever the matrix is invertible.", "quantifier": "every number of classes, confusion matrix and true prevalence vector", "why_tests_cant": "Correctness of the estimator for all populations.", "anchors": ["quantificationlib/baselines/ac.py:AC.predict", "quantificationlib/baselines/ac.py:PAC.predict"]}
{"id": "C12", "title": "Predicting on the training predictions returns the training prevalences", "statement": "Fitting AC on (y, predictions) and predicting the very same predictions returns exactly the class frequencies of y, under the same non-degeneracy condition as C11. The same holds for PAC with posterior rows.", "quantifier": "every training set with known-label predictions", "why_tests_cant": "End-to-end identity for every data set.", "anchors": ["quantificationlib/baselines/ac.py:AC.fit", "quantificationlib/baselines/ac.py:AC.predict", "quantificationlib/baselines/ac.py:PAC.fit", "quantificationlib/baselines/ac.py:PAC.predict"]}
{"id": "C13", "title": "Binary error measures are genuine errors", "statement": "For prevalences in [0,1]: absolute_error, squared_error, relative_absolute_error (positive eps) and symmetric_absolute_percentage_error are finite, nonnegative and zero exactly when the prediction is right; absolute_error, squared_error and SAPE are symmetric; SAPE is at most 1; bias is antisymmetric and its absolute value is the absolute error.", "quantifier": "every pair of prevalences in [0,1], every eps>0", "why_tests_cant": "A continuum of inputs including the 0 boundary.", "anchors": ["quantificationlib/metrics/binary.py"]}
{"id": "C14", "title": "Normalised binary scores range over [0,1] and reward accuracy", "statement": "normalized_absolute_score and normalized_squared_score are in [0,1] for prevalences in [0,1], equal 1 exactly for perfect predictions, strictly decrease with the absolute error, and 0 is reached by the worst possible prediction.", "quantifier": "every pair of prevalences in [0,1]", "why_tests_cant": "A continuum of inputs.", "anchors": ["quantificationlib/metrics/binary.py:normalized_absolute_score", "quantificationlib/metrics/binary.py:normalized_squared_score"]}
{"id": "C15", "title": "binary_kld is a divergence", "statement": "binary_kld(p, q) is finite and nonnegative, and zero exactly when p = q, for all p, q in [0,1] and every small positive eps.", "quantifier": "every p, q in [0,1]", "why_tests_cant": "A continuum; the boundary is a special case in the code.", "anchors": ["quantificationlib/metrics/binary.py:binary_kld"]}
{"id": "C16", "title": "l1, l2, Hellinger and mean absolute error are metrics", "statement": "On prevalence vectors of the same length these four functions are nonnegative, symmetric, zero exactly on equal vectors and satisfy the triangle inequality; mean_squared_error and probsymmetric are nonnegative, symmetric and zero exactly on equal vectors.", "quantifier": "every number of classes, every triple of vectors", "why_tests_cant": "Triangle inequality over all triples.", "anchors": ["quantificationlib/metrics/multiclass.py:l1", "quantificationlib/metrics/multiclass.py:l2", "quantificationlib/metrics/multiclass.py:hd", "quantificationlib/metrics/multiclass.py:mean_absolute_error"]}
{"id": "C17", "title": "Multiclass errors are bounded on prevalence vectors", "statement": "For valid prevalence vectors: l1<=2, mean_absolute_error<=2/n, l2<=sqrt 2, hd<=sqrt 2, bray_curtis = l1/2 in [0,1], probsymmetric<=4, and the Le Cam sandwich hd^2 <= l1 <= 2*hd holds.", "quantifier": "every number of classes, every pair of prevalence vectors", "why_tests_cant": "Tests sample a few bags; the claim is about every bag size, number of classes and set of values.", "anchors": ["quantificationlib/metrics/multiclass.py"]}
{"id": "C18", "title": "topsoe and jensenshannon are symmetric bounded divergences", "statement": "For valid prevalence vectors and eps>0 both are finite and symmetric; topsoe is nonnegative, zero exactly on equal vectors and at most 2 log 2; jensenshannon is between 0 and log 2 up to an error of at most n*eps, and is within that error of topsoe/2.", "quantifier": "every number of classes, pair of prevalence vectors and eps>0", "why_tests_cant": "Tests sample a few bags; the claim is about every bag size, number of classes and set of values.", "anchors": ["quantificationlib/metrics/multiclass.py:topsoe", "quantificationlib/metrics/multiclass.py:jensenshannon"]}
{"id": "C19", "title": "kld is a divergence", "statement": "For valid prevalence vectors kld is finite and nonnegative (up to the smoothing constant) and zero when prediction equals truth.", "quantifier": "every number of classes, every pair of prevalence vectors, every eps>0", "why_tests_cant": "Boundary vectors with a zero component behave differently.", "anchors": ["quantificationlib/metrics/multiclass.py:kld"]}
{"id": "C20", "title": "Multiclass metrics do not depend on the order in which classes are listed", "statement": "Applying the same permutation of classes to both arguments leaves every multiclass metric unchanged (kld, mean_absolute_error, l1, mean_squared_error, l2, hd, bray_curtis, topsoe, jensenshannon, probsymmetric).", "quantifier": "every permutation of every pair of vectors", "why_tests_cant": "All permutations.", "anchors": ["quantificationlib/metrics/multiclass.py"]}
{"id": "C21", "title": "geometric_mean is between 0 and 1 and is 1 exactly for perfect classifiers", "statement": "With correction in [0,1] geometric_mean is the n-th root of the product of the (corrected) class recalls, lies in [0,1], is 0 with correction 0 iff some class is never recognised, and with correction 0 is 1 exactly when every example is correctly predicted.", "quantifier": "every pair of label lists of the same nonzero length", "why_tests_cant": "Tests sample a few bags; the claim is about every bag size, number of classes and set of values.", "anchors": ["quantificationlib/metrics/multiclass.py:geometric_mean"]}
{"id": "C22", "title": "brier_multi is between 0 and 2 and zero exactly for perfect posteriors", "statement": "For posterior rows and truth rows that are probability distributions, brier_multi is in [0,2] and zero exactly when all rows coincide.", "quantifier": "every number of examples and classes", "why_tests_cant": "Tests sample a few bags; the claim is about every bag size, number of classes and set of values.", "anchors": ["quantificationlib/metrics/multiclass.py:brier_multi"]}
{"id": "C23", "title": "emd is a metric and equals the optimal transport cost between ordered classes", "statement": "For prevalence vectors over ordered classes, emd equals the minimum over all transport plans of the mass moved times the number of class steps it is moved; hence it is symmetric, zero exactly on equal vectors and satisfies the triangle inequality.", "quantifier": "every number of classes, every pair of prevalence vectors, every transport plan", "why_tests_cant": "A minimum over an infinite set of plans.", "anchors": ["quantificationlib/metrics/ordinal.py:emd"]}
{"id": "C24", "title": "emd_score is a score in [0,1]", "statement": "For prevalence vectors with at least two classes emd_score is in [0,1], equals 1 exactly for the perfect prediction, and 0 for at least one of the two extreme predictions; no prediction is worse than the worse of the two extremes.", "quantifier": "every number of classes >=2, every pair of prevalence vectors", "why_tests_cant": "Tests sample a few bags; the claim is about every bag size, number of classes and set of values.", "anchors": ["quantificationlib/metrics/ordinal.py:emd_score"]}
{"id": "C25", "title": "emd_distances is the matrix of pairwise emd values", "statement": "For rows that are distributions with the same total, entry (i,j) of emd_distances(A,B) is emd of row i of A and row j of B.", "quantifier": "every pair of matrices with the same number of columns", "why_tests_cant": "Tests sample a few bags; the claim is about every bag size, number of classes and set of values.", "anchors": ["quantificationlib/metrics/ordinal.py:emd_distances", "quantificationlib/metrics/ordinal.py:emd"]}
{"id": "C26", "title": "The L2 quadratic program is least squares on the simplex", "statement": "The parameters built by compute_l2_param_train and solve_l2 encode minimising ||T p - q||^2 over prevalence vectors: the QP objective differs from that loss by a constant independent of p, its constraints hold exactly for valid prevalence vectors, so every exact QP solution is a valid prevalence vector that minimises the L2 distance.", "quantifier": "every training matrix (with positive definite Gram matrix), every test vector, every exact solver", "why_tests_cant": "Equivalence of two optimisation problems over all p.", "anchors": ["quantificationlib/optimization.py:compute_l2_param_train", "quantificationlib/optimization.py:solve_l2"]}
{"id": "C27", "title": "is_pd decides positive definiteness", "statement": "For every real symmetric matrix, is_pd answers true exactly when the matrix is positive definite (dpofa returns 0 iff Cholesky succeeds), and then the upper triangle produced satisfies R^T R = M.", "quantifier": "every size, every symmetric matrix", "why_tests_cant": "An algorithm correctness statement for all sizes.", "anchors": ["quantificationlib/optimization.py:dpofa", "quantificationlib/optimization.py:is_pd"]}
{"id": "C28", "title": "The energy-distance quadratic program minimises the energy distance between mixture and test bag", "statement": "With K the class average-distance matrix and Kt the class-to-test average distances, the QP built by compute_ed_param_train/test encodes minimising 2*E[mix,test]-E[mix,mix] over prevalence vectors: objective equal up to a constant when the last prevalence is 1 minus the others, constraints equivalent to validity, and solve_ed returns a valid prevalence vector minimising it for any exact QP solver.", "quantifier": "every number of classes >= 2, every symmetric K, every Kt", "why_tests_cant": "Equivalence of optimisation problems over all prevalence vectors.", "anchors": ["quantificationlib/optimization.py:compute_ed_param_train", "quantificationlib/optimization.py:compute_ed_param_test", "quantificationlib/optimization.py:solve_ed"]}
{"id": "C29", "title": "Warm-started solvers never answer with a stale training distribution", "statement": "For any sequence of fit and predict calls on AC, ACOrdinal, DFy/DFX, PDFOrdinaly, FriedmanME or PWKQuantifier, a prediction depends only on the most recent fit and the current bag; the cached solver problem never leaks an earlier training or testing distribution.", "quantifier": "every history of fit/predict calls", "why_tests_cant": "Unbounded call histories.", "anchors": ["quantificationlib/optimization.py:solve_l1", "quantificationlib/optimization.py:solve_hd"]}
{"id": "C30", "title": "golden_section_search returns a prevalence inside the search interval after a predictable number of evaluations", "statement": "For every distance function and interval [a,b], the prevalence found is in [a,b], the returned pair sums to 1, the number of distance evaluations is 1+ceil(log(tol/(b-a))/log(invphi)) (2 when already within tolerance branch excluded) and the final bracket is no wider than tol.", "quantifier": "every distance function, every interval and tolerance", "why_tests_cant": "Holds for arbitrary user distances.", "anchors": ["quantificationlib/search.py:golden_section_search"]}
{"id": "C31", "title": "golden_section_search converges to the minimiser of a unimodal distance", "statement": "If the distance is strictly decreasing up to some point of [a,b] and strictly increasing after it, the prevalence returned is within tol of that minimiser.", "quantifier": "every unimodal distance, interval and tolerance", "why_tests_cant": "All unimodal functions.", "anchors": ["quantificationlib/search.py:golden_section_search"]}
{"id": "C32", "title": "The loss returned by golden_section_search is the loss at the returned prevalence", "statement": "The distance value returned together with the prevalences is the distance evaluated at those prevalences.", "quantifier": "every distance function", "why_tests_cant": "False in general; the counterexample is a function, not an input list.", "anchors": ["quantificationlib/search.py:golden_section_search"]}
{"id": "C33", "title": "global_search returns the best prevalence of its grid and never something worse than it reports", "statement": "global_search returns a valid binary prevalence vector whose loss is no greater than the loss at every grid point i/100.", "quantifier": "every distance function", "why_tests_cant": "All distance functions.", "anchors": ["quantificationlib/search.py:global_search"]}
{"id": "C34", "title": "Mixtures of class distributions are distributions", "statement": "mixture_of_pdfs of class histograms that are distributions, with weights that form a prevalence vector, is a distribution; it is linear in the weights and equals the class histogram at a one-hot weight.", "quantifier": "every number of bins and weights", "why_tests_cant": "Tests sample a few bags; the claim is about every bag size, number of classes and set of values.", "anchors": ["quantificationlib/search.py:mixture_of_pdfs"]}
{"id": "C35", "title": "compute_quantiles conserves the weighted mean", "statement": "For a weighted sample, compute_quantiles splits the sorted sample in n groups of equal weight and returns the group means: values are sorted and their average is the weighted mean of the sample.", "quantifier": "every sample, every prevalence, every number of quantiles", "why_tests_cant": "Tests sample a few bags; the claim is about every bag size, number of classes and set of values.", "anchors": ["quantificationlib/search.py:compute_quantiles"]}
{"id": "C36", "title": "sord is the 1-Wasserstein distance between mixture and test sample", "statement": "With weights given by compute_sord_weights (class weights p_c/n_c for training and -1/n for test examples) the weights sum to zero and sord equals the integral of the absolute difference of the two weighted cumulative distribution functions; it is nonnegative and zero when the two weighted samples coincide.", "quantifier": "every sorted sample of scores, every labels and prevalences", "why_tests_cant": "All samples.", "anchors": ["quantificationlib/search.py:compute_sord_weights", "quantificationlib/search.py:sord"]}
{"id": "C37", "title": "Every bag produced by PriorShift_BagGenerator is what it says it is", "statement": "Each generated bag has exactly bag_size examples, each index is a valid training index, the reported prevalences of the bag are exactly the class frequencies of the indexed labels, and they form a valid prevalence vector.", "quantifier": "every training label vector, every bag size, every stream of random draws, both methods", "why_tests_cant": "All random outcomes.", "anchors": ["quantificationlib/bag_generator.py:PriorShift_BagGenerator"]}
{"id": "C38", "title": "min_prevalence is respected in every uniform bag", "statement": "With method 'uniform' and a minimum prevalence (scalar or per class), every class has in every bag at least the (rounded) minimum number of examples round(min_prevalence*bag_size); the prevalence itself is at least min_prevalence up to rounding.", "quantifier": "every label vector, every min_prevalence accepted, every random stream", "why_tests_cant": "All random outcomes.", "anchors": ["quantificationlib/bag_generator.py:PriorShift_BagGenerator._generate_uniform"]}
{"id": "C39", "title": "generate_bags reflects the data it is given", "statement": "Every call generate_bags(X, y) returns bags of the data passed in that call: indexes valid for y and prevalences the class frequencies of the indexed labels.", "quantifier": "every history of generate_bags calls with arbitrary data sets", "why_tests_cant": "Unbounded histories; the second call is never tested.", "anchors": ["quantificationlib/bag_generator.py:generate_bags"]}
{"id": "C40", "title": "A failed bag generation leaves no trace", "statement": "If generate_bags raises, a later call behaves as if the failed one had not happened (it either raises again or returns real bags).", "quantifier": "every crash point of the generation", "why_tests_cant": "Crash-point property.", "anchors": ["quantificationlib/bag_generator.py:PriorShift_BagGenerator._generate_uniform"]}
{"id": "C41", "title": "Equal integer seeds give equal bags", "statement": "Two generators with the same parameters and the same integer random_state return the same bags for the same data, whatever other random activity happens in the program.", "quantifier": "every seed, data set and state of the global random generator", "why_tests_cant": "Depends on hidden global state.", "anchors": ["quantificationlib/bag_generator.py"]}
{"id": "C42", "title": "Covariate-shift and mixed bags are well formed", "statement": "Each bag of CovariateShift_BagGenerator and PriorAndCovariateShift_BagGenerator has bag_size valid indexes and prevalences equal to the class frequencies of the indexed labels; the mixed generator returns exactly n_bags bags.", "quantifier": "every data set, number of bags and random stream", "why_tests_cant": "All random outcomes.", "anchors": ["quantificationlib/bag_generator.py:CovariateShift_BagGenerator", "quantificationlib/bag_generator.py:PriorAndCovariateShift_BagGenerator"]}
{"id": "C43", "title": "Histogram representations lose no example", "statement": "For DFy and DFX with PDF representation, each class column restricted to one descriptor is a probability distribution, and so is the test column, even for test values outside the training range, because the outer bins are infinite.", "quantifier": "every training set, test bag, number of bins", "why_tests_cant": "Tests sample a few bags; the claim is about every bag size, number of classes and set of values.", "anchors": ["quantificationlib/multiclass/df.py:DFy", "quantificationlib/multiclass/df.py:DFX"]}
{"id": "C44", "title": "Cumulative representations are nondecreasing and end at 1", "statement": "With distribution_function='CDF' each descriptor's block of the representation is nondecreasing and its last value is 1.", "quantifier": "every training set and test bag", "why_tests_cant": "Tests sample a few bags; the claim is about every bag size, number of classes and set of values.", "anchors": ["quantificationlib/multiclass/df.py:DFy", "quantificationlib/multiclass/df.py:DFX"]}
{"id": "C45", "title": "Matching the training bag itself has zero loss at the training prevalences", "statement": "For DFy, DFX, Friedman, and the energy based methods the mixture of class representations with the training prevalences as weights is exactly the representation of the pooled training sample, so predicting the training bag has loss zero at the training prevalences.", "quantifier": "every training set", "why_tests_cant": "End-to-end identity for all data.", "anchors": ["quantificationlib/multiclass/df.py", "quantificationlib/multiclass/friedman.py"]}
{"id": "C46", "title": "Bin cuts are ordered", "statement": "compute_bincuts returns n_bins+1 cut points from -inf to +inf in nondecreasing order for equal_width, normal and binormal and for equal_count whenever each bin can get at least one example.", "quantifier": "every sample and number of bins", "why_tests_cant": "Tests sample a few bags; the claim is about every bag size, number of classes and set of values.", "anchors": ["quantificationlib/multiclass/df.py:compute_bincuts"]}
{"id": "C47", "title": "EM returns a valid prevalence vector", "statement": "For posterior rows that are distributions and positive training prevalences, every iterate of EM.predict and the value returned are valid prevalence vectors.", "quantifier": "every bag, every number of iterations", "why_tests_cant": "Tests sample a few bags; the claim is about every bag size, number of classes and set of values.", "anchors": ["quantificationlib/multiclass/em.py:EM.predict"]}
{"id": "C48", "title": "EM never decreases the likelihood", "statement": "Each EM iteration does not decrease the log-likelihood of the testing bag under the mixture model sum_i log sum_c p_c P(c|x_i)/P_train(c).", "quantifier": "every bag and every iterate", "why_tests_cant": "Monotonicity at every step for every input.", "anchors": ["quantificationlib/multiclass/em.py:EM.predict"]}
{"id": "C49", "title": "EM stops within max_iter iterations, after at least min(10, max_iter) of them", "statement": "EM.predict performs at most max_iter iterations, at least min(10,max_iter), and when it stops before max_iter the last change in mean absolute error is at most epsilon.", "quantifier": "every bag, epsilon and max_iter", "why_tests_cant": "Termination for every input.", "anchors": ["quantificationlib/multiclass/em.py:EM.predict"]}
{"id": "C50", "title": "DeBias returns a valid prevalence vector", "statement": "When the training variance term is nonzero, DeBias.predict returns values in [0,1] summing to 1; if the test mean posterior equals the training prevalence it returns the training prevalence.", "quantifier": "every training and testing posteriors", "why_tests_cant": "Tests sample a few bags; the claim is about every bag size, number of classes and set of values.", "anchors": ["quantificationlib/binary/debias.py:DeBias"]}
{"id": "C51", "title": "OneVsRestQuantifier returns a valid prevalence vector and is faithful to consistent binary quantifiers", "statement": "The output is nonnegative and sums to 1 whenever some binary quantifier returns a positive prevalence; if the binary estimates already sum to 1 they are returned unchanged.", "quantifier": "every number of classes, every binary quantifier outputs in [0,1]", "why_tests_cant": "Tests sample a few bags; the claim is about every bag size, number of classes and set of values.", "anchors": ["quantificationlib/decomposition/multiclass.py:OneVsRestQuantifier"]}
{"id": "C52", "title": "FrankAndHallQuantifier returns a valid prevalence vector", "statement": "For any outputs in [0,1] of the binary quantifiers the returned prevalences are nonnegative and sum to 1, and their cumulative sums are exactly the corrected left-group prevalences.", "quantifier": "every number of classes, every binary outputs in [0,1]", "why_tests_cant": "Tests sample a few bags; the claim is about every bag size, number of classes and set of values.", "anchors": ["quantificationlib/decomposition/ordinal.py:FrankAndHallQuantifier"]}
{"id": "C53", "title": "Inconsistent Frank-and-Hall group prevalences are corrected to monotone ones, consistent ones are untouched", "statement": "The corrected group prevalences are nondecreasing, lie between the minimum and maximum of the input, equal the input when it is already nondecreasing, and correcting twice is the same as correcting once.", "quantifier": "every list of group prevalences", "why_tests_cant": "Tests sample a few bags; the claim is about every bag size, number of classes and set of values.", "anchors": ["quantificationlib/decomposition/ordinal.py:FrankAndHallQuantifier.check_and_correct_prevalences_asc"]}
{"id": "C54", "title": "Friedman's training representation and prediction are consistent", "statement": "Each column of the training matrix is the vector of fractions of class examples whose posterior reaches the training prevalence; all entries are in [0,1] and the representation of a pooled bag is the prevalence-weighted mixture of the class columns.", "quantifier": "every training set", "why_tests_cant": "Tests sample a few bags; the claim is about every bag size, number of classes and set of values.", "anchors": ["quantificationlib/multiclass/friedman.py"]}
{"id": "C55", "title": "PWK posteriors are distributions and its crisp prediction is the most probable class", "statement": "With at least two classes in the training set, each row returned by PWK.predict_proba is a probability distribution and PWK.predict returns the first class with the largest probability; example weights are 1 minus the class frequency.", "quantifier": "every training set, every neighbourhood", "why_tests_cant": "Tests sample a few bags; the claim is about every bag size, number of classes and set of values.", "anchors": ["quantificationlib/estimators/weighted_knn.py:PWK"]}
{"id": "C56", "title": "Regression quantifiers return a valid prevalence vector", "statement": "predict_bag returns nonnegative values summing to 1: with two classes for every number the regressor returns (ValueError for NaN), with more classes whenever some regressor returns a positive number and none returns NaN.", "quantifier": "every regressor output", "why_tests_cant": "Tests sample a few bags; the claim is about every bag size, number of classes and set of values.", "anchors": ["quantificationlib/multiclass/regression.py:REG.predict_bag"]}
{"id": "C57", "title": "Regression quantifiers are trained and queried with histograms on the same scale", "statement": "The descriptor of a training bag, like that of a testing bag, is a concatenation of probability distributions (each feature block sums to 1), whatever the bag size.", "quantifier": "every data set, bag size and bags", "why_tests_cant": "Only visible when bag_size differs from the training size.", "anchors": ["quantificationlib/multiclass/regression.py:REG.create_training_set_of_distributions"]}
{"id": "C58", "title": "Independent quantifiers built with default arguments do not influence each other", "statement": "Fitting one REGX/REGy/EoQ object never changes what another object, built separately with default arguments, learns from its own data.", "quantifier": "every history of constructions and fits", "why_tests_cant": "History property across objects; shared mutable defaults.", "anchors": ["quantificationlib/multiclass/regression.py", "quantificationlib/ensembles/eoq.py", "quantificationlib/bag_generator.py"]}
{"id": "C59", "title": "EoQ combinations of valid predictions are valid", "statement": "For every combination strategy except distribution-based failures, if all member quantifiers return valid prevalence vectors and at least one member is selected, the combined prediction is a valid prevalence vector (for median: whenever some class has a positive median), and identical member predictions are returned unchanged.", "quantifier": "every number of members and classes", "why_tests_cant": "Tests sample a few bags; the claim is about every bag size, number of classes and set of values.", "anchors": ["quantificationlib/ensembles/eoq.py:EoQ.predict"]}
{"id": "C60", "title": "distribution_similarity selects the members trained on the most similar bags", "statement": "The members selected are those whose own training-bag distribution is closest to the test distribution. With classifiers the distributions are those of the probabilities that they give, averaged over the classifiers of an ensemble; with crisp predictions for the testing sample, predict raises ValueError.", "quantifier": "every data set and bags", "why_tests_cant": "Requires comparing all members' bags.", "anchors": ["quantificationlib/ensembles/eoq.py:EoQ.fit", "quantificationlib/ensembles/eoq.py:EoQ.predict"]}
{"id": "C61", "title": "CV_estimator predicts training examples only with models that did not see them", "statement": "When predict/predict_proba is called with the training set and the splitter is deterministic, the prediction of every example in every repetition comes from a fold model whose training indexes exclude it, and every example gets exactly one prediction per repetition; for other data every fold model predicts every example.", "quantifier": "every splitter producing partitions, every data set", "why_tests_cant": "Quantifies over all splitters.", "anchors": ["quantificationlib/estimators/cross_validation.py:CV_estimator._predict_proba"]}
{"id": "C62", "title": "FrankAndHallClassifier returns the documented class probabilities", "statement": "For the middle classes predict_proba returns Pr(y>c_{i-1}) * Pr(y<=c_i), which lies in [0,1].", "quantifier": "every number of classes and binary outputs", "why_tests_cant": "Tests sample a few bags; the claim is about every bag size, number of classes and set of values.", "anchors": ["quantificationlib/estimators/frank_and_hall.py:FrankAndHallClassifier.predict_proba"]}
{"id": "C63", "title": "FrankAndHallMonotoneClassifier returns consistent probabilities", "statement": "For binary outputs in [0,1] every row of predict_proba is a probability distribution, and its cumulative sums are the average of the upper and lower monotone envelopes of the binary outputs (Destercke and Yang).", "quantifier": "every number of classes and binary outputs", "why_tests_cant": "Tests sample a few bags; the claim is about every bag size, number of classes and set of values.", "anchors": ["quantificationlib/estimators/frank_and_hall.py:FrankAndHallMonotoneClassifier"]}
{"id": "C64", "title": "FrankAndHallTreeClassifier posteriors are distributions for every tree", "statement": "For binary posteriors that sum to 1 and are in [0,1] each row of predict_proba is a probability distribution, and the probability of a class is the product of the binary probabilities along its root-to-leaf path.", "quantifier": "every number of classes, every binary outputs, every tree the builder can produce", "why_tests_cant": "All trees.", "anchors": ["quantificationlib/estimators/frank_and_hall.py:FrankAndHallTreeClassifier"]}
{"id": "C65", "title": "The Frank-and-Hall tree places at each node the best binary model for quantifying its left group", "statement": "Each node holds, among the models available to its subtree, the first with the smallest performance loss between the true prevalence of the left group and the one estimated by that model; each model appears exactly once.", "quantifier": "every training set and performance measure", "why_tests_cant": "All score vectors.", "anchors": ["quantificationlib/estimators/frank_and_hall.py:FrankAndHallTreeClassifier.__generate_tree"]}
{"id": "C66", "title": "DDAG posteriors are distributions and sum over all root-to-leaf paths", "statement": "For pairwise posteriors in [0,1] summing to 1, each row of predict_proba is a probability distribution (both prediction methods), and with full_probabilistic the probability of a class is the sum over all root-to-leaf paths of the products of pairwise probabilities.", "quantifier": "every number of classes and pairwise outputs", "why_tests_cant": "All sizes of the DAG.", "anchors": ["quantificationlib/estimators/ordinal_ddag.py:DDAGClassifier"]}
{"id": "C67", "title": "DDAG consults the right pairwise model", "statement": "At the node for classes (i,j) the classifier consulted is the one trained for that pair in the one-vs-one order, for every number of classes.", "quantifier": "every n and i<j<n", "why_tests_cant": "Index arithmetic for all sizes.", "anchors": ["quantificationlib/estimators/ordinal_ddag.py:DDAGClassifier.__compute_probabilities"]}
{"id": "C68", "title": "winner_node returns only two consecutive classes", "statement": "With predict_method='winner_node' the probabilities are zero except for two consecutive classes, which receive the probabilities of the binary model reached by following the majority decisions from the root.", "quantifier": "every number of classes and pairwise outputs", "why_tests_cant": "Tests sample a few bags; the claim is about every bag size, number of classes and set of values.", "anchors": ["quantificationlib/estimators/ordinal_ddag.py:DDAGClassifier"]}
{"id": "C69", "title": "FHLabelBinarizer encodes membership in the left group", "statement": "With three or more classes the entry for an example and column i is 1 exactly when the example's class is among the first i+1 classes; columns are nondecreasing along the row and the last column is all ones.", "quantifier": "every label set and labels", "why_tests_cant": "Tests sample a few bags; the claim is about every bag size, number of classes and set of values.", "anchors": ["quantificationlib/estimators/frank_and_hall.py:FHLabelBinarizer.transform"]}
{"id": "C70", "title": "EnsembleOfClassifiers trains one model per bag", "statement": "After fit, the i-th estimator is the base estimator trained on the i-th bag, whatever the execution schedule (n_jobs).", "quantifier": "every set of bags, every schedule", "why_tests_cant": "Depends on the execution schedule and object aliasing.", "anchors": ["quantificationlib/estimators/ensembles.py:EnsembleOfClassifiers.fit"]}
{"id": "C71", "title": "ACOrdinal minimises the earth mover's distance between adjusted and observed predictions", "statement": "The training matrix has in row i the cumulative confusion probabilities, so the L1 objective solved equals emd between the mixture of confusion rows and the observed class frequencies, and at the true prevalences under prior shift it is zero.", "quantifier": "every confusion matrix and prevalence vector", "why_tests_cant": "Equality of objectives for all p.", "anchors": ["quantificationlib/ordinal/ac_ordinal.py:ACOrdinal"]}
{"id": "C72", "title": "PDFOrdinaly scores of winner-node posteriors are expected class positions", "statement": "For a posterior supported on two consecutive classes (or one class) the winner_node score equals the full_probabilistic score sum_c c*p_c; scores of probability rows lie in [1,n], so the histogram over [1,n] loses no example.", "quantifier": "every number of classes and rows", "why_tests_cant": "Tests sample a few bags; the claim is about every bag size, number of classes and set of values.", "anchors": ["quantificationlib/ordinal/pdf.py:PDFOrdinaly"]}
{"id": "C73", "title": "Every DFy/DFX/AC objective is nonnegative and exact solvers return a minimiser over valid prevalences", "statement": "For any exact solver of the stated problem, the prevalence returned by the distribution-matching quantifiers is a valid prevalence vector whose loss is minimal among all valid prevalence vectors.", "quantifier": "every representation and exact solver", "why_tests_cant": "Optimality over a continuum.", "anchors": ["quantificationlib/optimization.py", "quantificationlib/multiclass/df.py"]}
{"id": "C74", "title": "Class relabelling that preserves order does not change quantifier outputs", "statement": "Replacing all class labels by an order-preserving renaming in training labels and predictions leaves the prevalence vectors returned by CC, AC and PAC unchanged.", "quantifier": "every strictly monotone renaming", "why_tests_cant": "All renamings.", "anchors": ["quantificationlib/baselines/cc.py", "quantificationlib/baselines/ac.py", "quantificationlib/base.py"]}
{"id": "C75", "title": "nearest_pd stops and returns the nearest positive definite matrix", "statement": "In exact arithmetic nearest_pd returns after at most one pass through its loop, for every square matrix. The result is positive definite: it is the positive semidefinite matrix nearest to the input in the Frobenius norm when that one is positive definite, and that matrix plus one floating-point spacing on the diagonal otherwise. On a positive semidefinite input the only change is the spacing on the diagonal.", "quantifier": "every square matrix of every size", "why_tests_cant": "Termination and optimality over all matrices.", "anchors": ["quantificationlib/optimization.py:nearest_pd"]}
{"id": "C76", "title": "Energy-distance quantifiers always return a valid, near-optimal prevalence vector", "statement": "For every training set with at least two classes and every nonempty bag, EDy (Manhattan distance) and EDX (Euclidean distance), and any distance of negative type, fit and predict without error for exact numerical libraries; the result is a valid prevalence vector and its energy loss is within half a floating-point spacing of the minimum over all valid prevalence vectors.", "quantifier": "every training set, bag, number of classes and of columns", "why_tests_cant": "Convexity of the problem is a theorem about all samples (the distances are of negative type).", "anchors": ["quantificationlib/multiclass/energy.py:EDy", "quantificationlib/multiclass/energy.py:EDX"]}
{"id": "C77", "title": "Energy-distance quantifiers recover the proportions of mixtures of the training classes", "statement": "When no two different mixtures of the training classes look alike to the distance, a bag consisting of m_i copies of every training example of class i gets exactly the class proportions of that bag; otherwise the energy distance between the answer and the bag is at most half a floating-point spacing.", "quantifier": "every training set, every vector of multiplicities, every order of the bag", "why_tests_cant": "All mixtures and all training sets.", "anchors": ["quantificationlib/multiclass/energy.py:EDy", "quantificationlib/multiclass/energy.py:EDX", "quantificationlib/multiclass/energy.py:CvMy"]}
{"id": "C78", "title": "CvMy depends only on the order of the predicted probabilities", "statement": "Applying any strictly increasing recalibration to each column of the training and testing predictions leaves the answer of CvMy unchanged; the answer is a valid prevalence vector; ranks are 1..N when there are no ties.", "quantifier": "every strictly increasing recalibration, every training set and bag", "why_tests_cant": "All monotone functions.", "anchors": ["quantificationlib/multiclass/energy.py:CvMy"]}
{"id": "C79", "title": "Energy-distance quantifiers see samples as weighted sets", "statement": "Permuting the bag, permuting the training examples together with their labels, or repeating every example of the bag the same number of times does not change the answer of EDy and EDX.", "quantifier": "every permutation and every repetition count", "why_tests_cant": "All permutations.", "anchors": ["quantificationlib/multiclass/energy.py:EDy", "quantificationlib/multiclass/energy.py:EDX"]}
{"id": "C80", "title": "SORDy minimises the Wasserstein distance and recovers exact mixtures", "statement": "For every two-class training set, every nonempty bag and every positive tolerance, SORDy returns a valid vector [1-p, p] with p within half the tolerance of a minimiser over [0,1] of the 1-Wasserstein distance between the mixture of the training score distributions and the score distribution of the bag; if the bag has exactly the score distribution of the mixture with prevalence q and the two class score distributions differ, p is within half the tolerance of q.", "quantifier": "every training set, bag and mixture", "why_tests_cant": "Optimality over a continuum of mixtures and all score samples.", "anchors": ["quantificationlib/binary/emd.py:SORDy", "quantificationlib/search.py:sord"]}
{"id": "C81", "title": "Distribution matching recovers the prevalences of an exact mixture", "statement": "If the testing distribution is exactly the mixture of the training class distributions with prevalences p, and different prevalences give different mixtures, the solver behind AC, PAC, DFy, DFX, FriedmanME and PWKQuantifier returns p, for the L1 and the Hellinger distance.", "quantifier": "every matrix of class distributions and every prevalence vector", "why_tests_cant": "All mixtures over a continuum.", "anchors": ["quantificationlib/optimization.py:solve_l1", "quantificationlib/optimization.py:solve_hd", "quantificationlib/multiclass/df.py:DFy"]}
{"id": "C82", "title": "generate_bags always comes back", "statement": "generate_bags either returns the bags or raises an exception; in particular minimum prevalences that no bag can satisfy are rejected.", "quantifier": "every data set, bag size, minimum prevalences and stream of random draws", "why_tests_cant": "Non-termination can never be observed by a test.", "anchors": ["quantificationlib/bag_generator.py:PriorShift_BagGenerator._generate_uniform"]}
{"id": "C83", "title": "Every bin strategy accepts predictions of a repeated cross-validation", "statement": "DFy.fit with predictions_train longer than y (repeated predictions, whose labels are y repeated) computes the class histograms for every bin strategy, as it does for equal_width.", "quantifier": "every training set with repeated predictions", "why_tests_cant": "Holds or fails for all such inputs.", "anchors": ["quantificationlib/multiclass/df.py:DFy.fit", "quantificationlib/multiclass/df.py:compute_bincuts"]}
{"id": "C84", "title": "Distribution matching answers with one prevalence per class", "statement": "The vector returned by predict of DFy, DFX and FriedmanME has one entry per class for every supported distance: 'HD', 'L1', 'L2' or a function.", "quantifier": "every distance, number of classes and bag", "why_tests_cant": "Tests sample a few bags; the claim is about every bag size, number of classes and set of values.", "anchors": ["quantificationlib/multiclass/df.py:DFy.predict", "quantificationlib/multiclass/df.py:DFX.predict", "quantificationlib/multiclass/friedman.py:FriedmanME.predict"]}
{"id": "C85", "title": "PWKQuantifier's matrix holds the conditional frequencies of its own predictions, and it is exact on its training bag", "statement": "After fit, entry (i,j) of the matrix is the fraction of training examples of class i its classifier predicts as class j. Asked for the bag it was fitted on, it returns the class frequencies of the training labels: with two classes whenever |tpr-fpr|>0.001, otherwise when the matrix is invertible and the L1 solver is exact.", "quantifier": "every label vector, every vector of training predictions with known labels", "why_tests_cant": "Tests sample a few bags; the claim is about every bag size, number of classes and set of values.", "anchors": ["quantificationlib/multiclass/knn.py:PWKQuantifier.fit", "quantificationlib/multiclass/knn.py:PWKQuantifier.predict"]}
{"id": "C86", "title": "EM is invariant to the order of the bag, keeps calibrated training prevalences and its fixed points are maximum likelihood estimates", "statement": "The answer of EM does not depend on the order of the examples. If the mean posterior of the bag equals the training prevalences, EM returns the training prevalences. A vector EM leaves unchanged has the greatest likelihood among the valid prevalence vectors with the same or smaller support.", "quantifier": "every bag, epsilon and max_iter", "why_tests_cant": "Optimality against every competitor.", "anchors": ["quantificationlib/multiclass/em.py:EM.predict"]}
{"id": "C87", "title": "DeBias is exact under prior shift when the training posteriors are calibrated", "statement": "If among the training examples with each value of the posterior of the positive class the fraction of positives is that value, and the testing bag has, within each class, the mean posterior of the training examples of that class (prior probability shift), then DeBias returns exactly the prevalence of the bag.", "quantifier": "every training set with calibrated posteriors, every testing bag with the same class conditional means", "why_tests_cant": "Exactness over all distributions and prevalences.", "anchors": ["quantificationlib/binary/debias.py:DeBias.fit", "quantificationlib/binary/debias.py:DeBias.predict"]}
{"id": "C88", "title": "FHLabelBinarizer honours neg_label and pos_label", "statement": "Entry (r,i) of FHLabelBinarizer.transform is pos_label when the label of example r is one of the first i+1 classes and neg_label otherwise, for every pair of labels given to the constructor.", "quantifier": "every neg_label and pos_label, every label list", "why_tests_cant": "All pairs of labels.", "anchors": ["quantificationlib/estimators/frank_and_hall.py:FHLabelBinarizer"]}
{"id": "C89", "title": "Fitting a regression quantifier does not change the answers of another one", "statement": "Once a REGX/REGy object is fitted, its answers do not change when another object is fitted, even if both were given the same regression_estimator.", "quantifier": "every history of fits over objects that share a regressor", "why_tests_cant": "History property across objects; aliasing.", "anchors": ["quantificationlib/multiclass/regression.py:REG.fit_regressor", "quantificationlib/multiclass/regression.py:REG.predict_bag"]}
{"id": "C90", "title": "EoQ objects built with the default arguments are independent", "statement": "Fitting an EoQ object does not change what another EoQ object, built with the default bag_generator, learns from its own data.", "quantifier": "every pair of objects and data sets, every order of fits", "why_tests_cant": "History property across objects; aliasing of a default argument.", "anchors": ["quantificationlib/ensembles/eoq.py:EoQ.__init__", "quantificationlib/ensembles/eoq.py:EoQ.fit"]}
{"id": "C91", "title": "EoQ.fit accepts every documented option", "statement": "EoQ.fit returns for both values of distribution_function ('PDF', 'CDF') and every positive n_bins, for quantifiers with and without classifiers.", "quantifier": "every data set and option", "why_tests_cant": "Tests sample a few bags; the claim is about every bag size, number of classes and set of values.", "anchors": ["quantificationlib/ensembles/eoq.py:EoQ.fit"]}
{"id": "C92", "title": "Every member of an EoQ is trained on its own bag", "statement": "After fit, member i is the base quantifier trained with the examples (or the predictions) and the labels of bag i, where several predictions per example are all used with the label of their example; with an ensemble of classifiers, member i uses the predictions of classifier i.", "quantifier": "every data set, bags and predictions", "why_tests_cant": "Tests sample a few bags; the claim is about every bag size, number of classes and set of values.", "anchors": ["quantificationlib/ensembles/eoq.py:EoQ.fit"]}
{"id": "C93", "title": "EoQ records members' predictions against the right classes", "statement": "When a member was trained on a bag in which some classes are missing, its predictions are combined as prevalences of the classes it knows.", "quantifier": "every data set and bags", "why_tests_cant": "Tests sample a few bags; the claim is about every bag size, number of classes and set of values.", "anchors": ["quantificationlib/ensembles/eoq.py:EoQ.predict"]}
{"id": "C94", "title": "prevalence_similarity averages the members closest to the mean prediction", "statement": "With 'prevalence_similarity' the answer is the average of k member predictions, k being the rounded percentage of the members, such that no other member is closer (mean absolute error) to the mean of all the predictions.", "quantifier": "every number of members and classes, every sorting algorithm", "why_tests_cant": "Comparison with all the members left out.", "anchors": ["quantificationlib/ensembles/eoq.py:EoQ.predict"]}
{"id": "C95", "title": "The mean and median strategies of EoQ", "statement": "With 'mean' the answer is the average of the members' predictions. With 'median' it is proportional to medians of the members' predictions of each class, unless every class is given a prevalence of 0 by more than half of the members, in which case it is NaN.", "quantifier": "every number of members and classes", "why_tests_cant": "Tests sample a few bags; the claim is about every bag size, number of classes and set of values.", "anchors": ["quantificationlib/ensembles/eoq.py:EoQ.predict"]}
{"id": "C96", "title": "Out-of-fold predictions with splitters that shuffle", "statement": "CV_estimator predicts every training example with a model that was not trained with it, whatever the splitter passed as cv, including one that shuffles without a fixed random state.", "quantifier": "every splitter, training set, classifier and repetition", "why_tests_cant": "A test with the default splitter, which is deterministic, sees out-of-fold predictions; the folds are recomputed in predict, so the property depends on every sequence of splits.", "anchors": ["quantificationlib/estimators/cross_validation.py:CV_estimator.fit", "quantificationlib/estimators/cross_validation.py:CV_estimator._predict_proba"]}
{"id": "C97", "title": "Columns of cross-validated probabilities are classes", "statement": "The rows of probabilities given by CV_estimator.predict_proba are distributions over all the classes of the training set, also when the training part of some fold lacks a class.", "quantifier": "every data set, splitter, classifier and example", "why_tests_cant": "Missing classes in a fold need rare classes or unlucky splits; a fixed data set does not show them.", "anchors": ["quantificationlib/estimators/cross_validation.py:CV_estimator.predict_proba", "quantificationlib/estimators/cross_validation.py:CV_estimator._predict_proba"]}
{"id": "C98", "title": "Crisp predictions of CV_estimator", "statement": "predict of CV_estimator returns, without averaging, the first class with the largest probability for every row; with soft voting the first class whose mean probability is the largest; with hard voting the first class with most votes.", "quantifier": "every array of predictions, with every tie, number of models and classes", "why_tests_cant": "Tests sample a few bags; the claim is about every bag size, number of classes and set of values.", "anchors": ["quantificationlib/estimators/cross_validation.py:CV_estimator.predict"]}
{"id": "C99", "title": "FrankAndHallClassifier.predict can return every class", "statement": "For every class there are binary posteriors for which predict of FrankAndHallClassifier returns it; in particular, when the binary models are certain that an example is of a class, predict returns that class.", "quantifier": "every training set with three or more classes, every binary outputs", "why_tests_cant": "A test would need an example of the last class whose binary models are well trained; the property is about all the outputs of the binary models.", "anchors": ["quantificationlib/estimators/frank_and_hall.py:FrankAndHallClassifier.predict", "quantificationlib/estimators/frank_and_hall.py:FrankAndHallClassifier.predict_proba"]}
{"id": "C100", "title": "The binary models of a Frank and Hall classifier separate the first classes from the rest", "statement": "fit of FrankAndHallClassifier (and of its derived classes) trains, for every data set with two or more classes, one model for each class but the last, and model i learns on all the examples to tell the first i+1 classes, with label 1, from the rest, with label 0.", "quantifier": "every training set, number of classes and base estimator", "why_tests_cant": "Tests sample a few bags; the claim is about every bag size, number of classes and set of values.", "anchors": ["quantificationlib/estimators/frank_and_hall.py:FrankAndHallClassifier.fit", "quantificationlib/estimators/frank_and_hall.py:FHLabelBinarizer.transform"]}
{"id": "C101", "title": "DDAGClassifier.predict is the most probable class", "statement": "predict of DDAGClassifier returns, for every example, the first class with the largest probability given by predict_proba; a class that is certain in all the pairwise models where it takes part gets probability 1 and is returned.", "quantifier": "every training set, pairwise outputs and number of classes", "why_tests_cant": "Tests sample a few bags; the claim is about every bag size, number of classes and set of values.", "anchors": ["quantificationlib/estimators/ordinal_ddag.py:DDAGClassifier.predict", "quantificationlib/estimators/ordinal_ddag.py:DDAGClassifier.predict_proba"]}
{"id": "C102", "title": "EnsembleOfClassifiers can be fitted again", "statement": "After every call to fit of EnsembleOfClassifiers, not only the first, the estimators are those trained with the bags and the data given in that call.", "quantifier": "every sequence of calls to fit", "why_tests_cant": "A test calls fit once; the property is about the history of the object.", "anchors": ["quantificationlib/estimators/ensembles.py:EnsembleOfClassifiers.fit"]}
{"id": "C103", "title": "The predictions of an ensemble are those of its estimators", "statement": "predict and predict_proba of EnsembleOfClassifiers give for every example and every estimator, in order, the prediction of that estimator, with one column per class, also when the bag of an estimator has fewer classes than the training set.", "quantifier": "every ensemble, bag and example", "why_tests_cant": "Bags without some class need unlucky samples; the claim is about all ensembles.", "anchors": ["quantificationlib/estimators/ensembles.py:EnsembleOfClassifiers.predict", "quantificationlib/estimators/ensembles.py:EnsembleOfClassifiers.predict_proba"]}
{"id": "C104", "title": "PDFOrdinaly with EMD minimises the earth mover's distance", "statement": "With distance='EMD', after every history of fit and predict calls, the prevalences returned by PDFOrdinaly are valid and no other valid prevalences give a smaller earth mover's distance between the mixture of the class histograms of expected positions and the histogram of the bag; dropping the last bin of the cumulated histograms and the final clipping change nothing.", "quantifier": "every training set with three or more classes, posteriors, number of bins, bag and history of calls; the solver is exact", "why_tests_cant": "Tests sample a few bags; the claim is about every bag size, number of classes and set of values.", "anchors": ["quantificationlib/ordinal/pdf.py:PDFOrdinaly.fit", "quantificationlib/ordinal/pdf.py:PDFOrdinaly.predict", "quantificationlib/optimization.py:solve_l1"]}
{"id": "C105", "title": "PDFOrdinaly answers for every documented distance", "statement": "For the documented distances ('HD', 'L1', 'L2' or a function) PDFOrdinaly returns valid prevalences, and no other valid prevalences are closer, in that distance, between the mixture of the class histograms and the histogram of the bag. It is restricted to three or more classes and rejects unknown methods.", "quantifier": "every training set, posteriors, number of bins, bag and history of calls; the solvers are exact", "why_tests_cant": "Tests sample a few bags; the claim is about every bag size, number of classes and set of values.", "anchors": ["quantificationlib/ordinal/pdf.py:PDFOrdinaly.fit", "quantificationlib/ordinal/pdf.py:PDFOrdinaly.predict", "quantificationlib/optimization.py:solve_hd", "quantificationlib/optimization.py:solve_l2", "quantificationlib/optimization.py:compute_l2_param_train"]}
{"id": "C106", "title": "OrdinalQuantificationTree returns the mean of the tree's probabilities", "statement": "A new OrdinalQuantificationTree is fitted without error on every training set with three or more classes, and for every nonempty bag predict returns valid prevalences: for each class the mean over the bag of the probability of its leaf, the product of the probabilities of the branches on its path in a binary tree over the class boundaries. Predictions given by the caller (predictions_test) are averaged as they are.", "quantifier": "every training set with three or more classes, base estimator that gives two-column probabilities, performance measure and bag", "why_tests_cant": "Tests sample a few bags; the claim is about every bag size, number of classes and set of values.", "anchors": ["quantificationlib/ordinal/trees.py:OrdinalQuantificationTree", "quantificationlib/estimators/frank_and_hall.py:FrankAndHallTreeClassifier", "quantificationlib/baselines/cc.py:PCC.predict", "quantificationlib/base.py:UsingClassifiers.fit"]}
{"id": "C107", "title": "OrdinalQuantificationTree can be fitted again", "statement": "Calling fit again, or after an exception interrupted an earlier fit, gives the quantifier of the new training set, as if the object were new.", "quantifier": "every pair of training sets, and every point at which an earlier fit stopped", "why_tests_cant": "Tests sample a few bags; the claim is about every bag size, number of classes and set of values.", "anchors": ["quantificationlib/ordinal/trees.py:OrdinalQuantificationTree", "quantificationlib/base.py:UsingClassifiers.fit", "quantificationlib/estimators/frank_and_hall.py:FrankAndHallTreeClassifier"]}
{"id": "C108", "title": "QUANTy with one quantile is the adjusted probabilistic count", "statement": "With n_quantiles=1 and the L2 loss, after every history of fit and predict calls, QUANTy's positive prevalence differs by at most twice the search tolerance from the adjusted probabilistic count of the bag, (bag mean - mean of the negatives) / (mean of the positives - mean of the negatives), clipped to [0, 1].", "quantifier": "every training set with two classes of different mean posterior, every posterior, bag, tolerance and history of calls", "why_tests_cant": "Tests sample a few bags; the claim is about every bag size, number of classes and set of values.", "anchors": ["quantificationlib/binary/quantiles.py:QUANTy.fit", "quantificationlib/binary/quantiles.py:QUANTy.predict", "quantificationlib/search.py:compute_quantiles", "quantificationlib/search.py:global_search"]}
{"id": "C109", "title": "QUANTy returns valid prevalences and ignores the order of examples", "statement": "QUANTy rejects training sets with more than two classes; on two classes, with the L2 loss, it returns valid prevalences or raises ValueError, the latter only when both ends of the interval have the same loss; an empty bag raises ValueError; for every loss the answer does not depend on the order of the examples of the bag, nor, when the training scores are distinct, on the order of the training examples.", "quantifier": "every training set, posteriors, number of quantiles, loss, bag, permutation and history of calls", "why_tests_cant": "Tests sample a few bags; the claim is about every bag size, number of classes and set of values.", "anchors": ["quantificationlib/binary/quantiles.py:QUANTy.fit", "quantificationlib/binary/quantiles.py:QUANTy.predict", "quantificationlib/search.py:compute_quantiles", "quantificationlib/search.py:global_search"]}
{"id": "C110", "title": "The metrics compute the published formulas", "statement": "On prevalence vectors l1, mean_absolute_error and bray_curtis are multiples of the total variation distance, l2 and mean_squared_error come from the Euclidean distance and hd from the Bhattacharyya coefficient; topsoe, jensenshannon, probsymmetric and kld are the divergences of those names up to an error bounded by the smoothing constant; the binary metrics are their textbook formulas, and on two classes the multiclass metrics agree with the binary ones and emd with the absolute error.", "quantifier": "every pair of prevalence vectors of every length and every positive smoothing constant", "why_tests_cant": "Tests sample a few bags; the claim is about every bag size, number of classes and set of values.", "anchors": ["quantificationlib/metrics/multiclass.py:l1", "quantificationlib/metrics/multiclass.py:l2", "quantificationlib/metrics/multiclass.py:mean_absolute_error", "quantificationlib/metrics/multiclass.py:mean_squared_error", "quantificationlib/metrics/multiclass.py:kld", "quantificationlib/metrics/multiclass.py:hd", "quantificationlib/metrics/multiclass.py:bray_curtis", "quantificationlib/metrics/multiclass.py:topsoe", "quantificationlib/metrics/multiclass.py:jensenshannon", "quantificationlib/metrics/multiclass.py:probsymmetric", "quantificationlib/metrics/binary.py:bias", "quantificationlib/metrics/binary.py:absolute_error", "quantificationlib/metrics/binary.py:squared_error", "quantificationlib/metrics/binary.py:relative_absolute_error", "quantificationlib/metrics/binary.py:symmetric_absolute_percentage_error", "quantificationlib/metrics/binary.py:normalized_absolute_score", "quantificationlib/metrics/binary.py:normalized_squared_score", "quantificationlib/metrics/ordinal.py:emd"]}
{"id": "C111", "title": "normalize standardises with training statistics only", "statement": "After normalize every training feature has mean 0 and variance 1, or is 0 throughout because it was constant; training and testing examples go through the same increasing affine map of each feature, which depends on the training set alone.", "quantifier": "every non-empty training set, every testing set, every number of features", "why_tests_cant": "Tests sample a few bags; the claim is about every bag size, number of classes and set of values.", "anchors": ["quantificationlib/data_utils.py:normalize"]}
{"id": "C112", "title": "plot_line_prevalences draws every experiment once and to scale", "statement": "One line per row of the matrix at heights 1, 2, ...; in a line the classes are consecutive segments, each 100 times its prevalence long, so that a valid prevalence vector fills exactly the range from 0 to 100; whatever the order asked for, every row is drawn exactly once.", "quantifier": "every prevalence matrix with at least one class, every order", "why_tests_cant": "Tests sample a few bags; the claim is about every bag size, number of classes and set of values.", "anchors": ["quantificationlib/plot/qlplot.py:plot_line_prevalences"]}
{"id": "C113", "title": "plot_line_prevalences sorts the lines by the first class", "statement": "With order 'ascending' the lines go up, and with 'descending' down, in the prevalence of the first class.", "quantifier": "every prevalence matrix with at least one class", "why_tests_cant": "Tests sample a few bags; the claim is about every bag size, number of classes and set of values.", "anchors": ["quantificationlib/plot/qlplot.py:plot_line_prevalences", "quantificationlib/plot/qlplot.py:_sort_rows_bycolumns"]}
{"id": "C114", "title": "Quantifiers that share estimators do not influence each other", "statement": "In a program that makes any sequence of fit and predict calls on any objects of the classes based on classifiers, which may share estimators and are all fitted on the same training set, the calls on one object give back what they give back when the program makes only these calls.", "quantifier": "every program, every number of objects, every interleaving, every estimator for which predict after fit does not raise NotFittedError, every initial state of the estimators", "why_tests_cant": "The number of objects, the interleavings and the sharing of estimators are unbounded.", "anchors": ["quantificationlib/base.py:UsingClassifiers.fit", "quantificationlib/base.py:UsingClassifiers.predict"]}
{"id": "C115", "title": "From a classifier to valid prevalences", "statement": "fit on a non-empty training set followed by predict on a non-empty bag, with estimators that predict labels of the training set and valid probabilities, returns a valid prevalence vector with one entry per class for CC, PCC, AC, PAC, ACOrdinal, EM, DFy, FriedmanME, PDFOrdinaly, DeBias, EDy, CvMy and SORDy (AC and PAC with three or more classes: when the matrix of rates is invertible or the solver returns prevalences; DeBias: unless all the training posteriors equal the prevalence).", "quantifier": "every training set, bag, number of classes allowed by the method, proper classifier, fitted or not, shared or not, and exact solver", "why_tests_cant": "Training sets, bags and classifiers are unbounded.", "anchors": ["quantificationlib/base.py:UsingClassifiers", "quantificationlib/baselines/cc.py:CC", "quantificationlib/baselines/cc.py:PCC", "quantificationlib/baselines/ac.py:AC", "quantificationlib/baselines/ac.py:PAC", "quantificationlib/ordinal/ac_ordinal.py:ACOrdinal", "quantificationlib/multiclass/em.py:EM", "quantificationlib/multiclass/df.py:DFy", "quantificationlib/multiclass/friedman.py:FriedmanME", "quantificationlib/ordinal/pdf.py:PDFOrdinaly", "quantificationlib/binary/debias.py:DeBias", "quantificationlib/multiclass/energy.py:EDy", "quantificationlib/multiclass/energy.py:CvMy", "quantificationlib/binary/emd.py:SORDy"]}
{"id": "C116", "title": "A fit that raises leaves the quantifier as it was", "statement": "After a fit that returned, a second fit that raises an exception trains no estimator and leaves every later answer of predict as it was before.", "quantifier": "every quantifier based on classifiers, every pair of fits of which the second raises, every bag", "why_tests_cant": "Training sets, bags and states are unbounded.", "anchors": ["quantificationlib/base.py:UsingClassifiers.fit", "quantificationlib/baselines/ac.py:AC.predict"]}
{"id": "C117", "title": "Methods for a given number of classes reject the rest", "statement": "fit of SORDy and QUANTy raises TypeError exactly when the training set has more than two classes, fit of PDFOrdinaly raises TypeError exactly when it has at most two, and fit of DeBias raises AttributeError exactly when it does not have two; otherwise fit returns. DeBias rejects before anything is changed.", "quantifier": "every state of the object, every training set with a row of probabilities for each example", "why_tests_cant": "Tests sample a few bags; the claim is about every bag size, number of classes and set of values.", "anchors": ["quantificationlib/binary/emd.py:SORDy.fit", "quantificationlib/binary/quantiles.py:QUANTy.fit", "quantificationlib/ordinal/pdf.py:PDFOrdinaly.fit", "quantificationlib/binary/debias.py:DeBias.fit"]}
{"id": "C118", "title": "An error of the distance ends the search", "statement": "golden_section_search raises the exception of the distance whenever the distance raises at a point where the search evaluates it; otherwise it returns what it returns for the same distance without errors.", "quantifier": "every distance that returns or raises at each point, every interval and tolerance", "why_tests_cant": "Distances and the points where they fail are unbounded.", "anchors": ["quantificationlib/search.py:golden_section_search"]}
{"id": "C119", "title": "Regression quantifiers learn the prevalence of each class", "statement": "After fit of REGX or REGy with a new generator of bags, predict asks, for each class, the user's regressor (or a GLM) trained with one example per bag: the descriptor of the bag and the frequency of this class in the bag. With two classes there is one regressor, trained with the frequencies of the second class. The answers, brought to the interval from 0 to 1 and divided by their sum, are the prevalences of the classes in order.", "quantifier": "every training set, generator state, regressor and testing bag for which no regressor answers NaN and some answer is positive", "why_tests_cant": "Training sets, bags and regressors are unbounded.", "anchors": ["quantificationlib/multiclass/regression.py:REG.fit_regressor", "quantificationlib/multiclass/regression.py:REG.predict_bag", "quantificationlib/multiclass/regression.py:REG.create_training_set_of_distributions"]}
{"id": "C120", "title": "EoQ trains its estimators once, on the right data", "statement": "After fit of an EoQ of quantifiers that use classifiers, the method fit of each estimator that is needed (that of the testing bags, and that of the training set unless its predictions are given) has been called once, with all the training examples, and also with the bags if it is an EnsembleOfClassifiers, or not at all if the estimator could already predict. One object passed for both is trained once. No other estimator is touched. Without predictions and without the estimator, fit raises ValueError and trains nothing. predict uses the predictions that it is given, whatever the estimators; otherwise those of the estimator for the testing bags, and it raises ValueError without one.", "quantifier": "every configuration, state of the estimators and generators, training set and bags for which fit returns", "why_tests_cant": "Estimators, training sets and bags are unbounded.", "anchors": ["quantificationlib/ensembles/eoq.py:EoQ.fit", "quantificationlib/estimators/ensembles.py:EnsembleOfClassifiers.fit"]}
{"id": "C121", "title": "Each member of EoQ uses the classifier of its own bag", "statement": "With probabilistic quantifiers and an EnsembleOfClassifiers, fit trains member i with bag i of the current training set and the probabilities given by a classifier trained with that bag; predict asks member i with the probabilities that this classifier gives to the testing examples.", "quantifier": "every base quantifier, classifier, training set and bags for which fit returns, every testing bag", "why_tests_cant": "Classifiers, quantifiers and bags are unbounded.", "anchors": ["quantificationlib/ensembles/eoq.py:EoQ.fit", "quantificationlib/ensembles/eoq.py:EoQ.predict", "quantificationlib/estimators/ensembles.py:EnsembleOfClassifiers"]}
{"id": "C122", "title": "Members of EoQ count the labels of their classifiers", "statement": "With crisp quantifiers as CC and an EnsembleOfClassifiers, fit returns and member i estimates from the labels that classifier i gives; when all the classifiers give the same labels, the answer is the share of each label.", "quantifier": "every classifier, training set and bags with all the classes, every testing bag", "why_tests_cant": "Classifiers and bags are unbounded.", "anchors": ["quantificationlib/ensembles/eoq.py:EoQ.fit", "quantificationlib/ensembles/eoq.py:EoQ.predict", "quantificationlib/estimators/ensembles.py:EnsembleOfClassifiers.predict", "quantificationlib/base.py:UsingClassifiers.__probs2crisps", "quantificationlib/baselines/cc.py:CC.predict"]}
{"id": "C123", "title": "An estimator raises NotFittedError until it is trained, and not afterwards", "statement": "predict and predict_proba of the Frank and Hall classifiers, of CV_estimator and of EnsembleOfClassifiers raise NotFittedError as long as no call to fit has returned, whatever calls failed before, and no longer once one has returned; so a quantifier, which trains its estimators when they raise NotFittedError, can always be fitted again after a failure.", "quantifier": "every base estimator, every sequence of calls to fit, with any of them failing at any point", "why_tests_cant": "The sequences of calls and the points where they fail are unbounded.", "anchors": ["quantificationlib/estimators/frank_and_hall.py:FrankAndHallClassifier.fit", "quantificationlib/estimators/frank_and_hall.py:FrankAndHallClassifier.predict", "quantificationlib/estimators/frank_and_hall.py:FrankAndHallTreeClassifier.predict_proba", "quantificationlib/estimators/cross_validation.py:CV_estimator.fit", "quantificationlib/estimators/cross_validation.py:CV_estimator.predict", "quantificationlib/estimators/ensembles.py:EnsembleOfClassifiers.fit", "quantificationlib/base.py:UsingClassifiers.fit"]}
{"id": "C124", "title": "A training of an estimator that fails leaves no trace", "statement": "A call to fit of an estimator of the library that raises does not change what predict answers, and a call that returns makes the estimator what it would make of a new one, whatever calls failed before.", "quantifier": "every base estimator, every sequence of calls to fit, with any of them failing at any point, every testing set", "why_tests_cant": "The sequences of calls and the points where they fail are unbounded.", "anchors": ["quantificationlib/estimators/frank_and_hall.py:FrankAndHallClassifier.fit", "quantificationlib/estimators/cross_validation.py:CV_estimator.fit", "quantificationlib/estimators/ensembles.py:EnsembleOfClassifiers.fit"]}
{"id": "C125", "title": "equal_count bins exist for every number of bins", "statement": "compute_bincuts with bin_strategy='equal_count' returns, for every nonempty sample and every positive n_bins, n_bins + 1 cut points that go from -infinity to infinity without decreasing; so fit of DFX and DFy with this strategy returns for every number of bins.", "quantifier": "every nonempty sample, every positive number of bins", "why_tests_cant": "Samples and numbers of bins are unbounded; the failure depends on how they compare.", "anchors": ["quantificationlib/multiclass/df.py:compute_bincuts", "quantificationlib/multiclass/df.py:DFX.fit", "quantificationlib/multiclass/df.py:DFy.fit"]}
{"id": "C126", "title": "A bag counts only through the distribution of its predictions", "statement": "predict gives the same answer to two nonempty bags in which every prediction (or every example, if the classifier predicts each one by itself) has the same relative frequency: neither the order of the examples nor repeating the whole bag matters.", "quantifier": "every quantifier of the library that answers from predictions or distances, every fitted state, every pair of bags with the same relative frequencies", "why_tests_cant": "Bags are unbounded.", "anchors": ["quantificationlib/baselines/cc.py", "quantificationlib/baselines/ac.py", "quantificationlib/multiclass/em.py:EM.predict", "quantificationlib/multiclass/df.py:DFy.predict", "quantificationlib/multiclass/df.py:DFX.predict", "quantificationlib/multiclass/friedman.py", "quantificationlib/multiclass/energy.py:CvMy.predict", "quantificationlib/multiclass/energy.py:EDy.predict", "quantificationlib/multiclass/energy.py:EDX.predict", "quantificationlib/multiclass/knn.py:PWKQuantifier.predict", "quantificationlib/binary/debias.py", "quantificationlib/binary/emd.py:SORDy.predict", "quantificationlib/binary/quantiles.py:QUANTy.predict", "quantificationlib/ordinal/ac_ordinal.py", "quantificationlib/ordinal/pdf.py", "quantificationlib/multiclass/regression.py:REGX.predict", "quantificationlib/multiclass/regression.py:REGy.predict", "quantificationlib/ensembles/eoq.py:EoQ.predict"]}
{"id": "C127", "title": "An object remembers only its last fit", "statement": "After a call of fit that returns, the answers of a quantifier are those of a new object on which only that call has been made, whatever calls of fit and predict (successful or not) came before and whatever predictions were made in between.", "quantifier": "every class of quantifiers that use classifiers, every history of calls of fit and predict on the object and every use of its estimators by others", "why_tests_cant": "It ranges over all histories; tests create a new object for each training set.", "anchors": ["quantificationlib/base.py:UsingClassifiers.fit", "quantificationlib/baselines/cc.py:CC", "quantificationlib/baselines/ac.py:AC", "quantificationlib/multiclass/df.py:DFy", "quantificationlib/multiclass/em.py:EM", "quantificationlib/multiclass/energy.py:EDy", "quantificationlib/binary/quantiles.py:QUANTy"]}
{"id": "C128", "title": "Exact prevalences under prior probability shift", "statement": "If a testing bag differs from the training set only in the class prevalences (within each class of the bag, what the quantifier sees of the examples has the frequencies it has in the training set), then AC, PAC, EDy, CvMy, EDX, DFy/HDy/MMy, DFX/HDX/MMX, FriedmanME, ACOrdinal and PDFOrdinaly answer exactly the prevalences of the bag, SORDy answers them within half of its tolerance, and DFy, DFX and FriedmanME with two classes and any norm of the difference given as distance answer them within twice their tolerance, whenever the training representations of the classes can be told apart (non-degenerate confusion matrix; separated classes; different mixtures for different prevalences; for 'HD' also equal totals, as densities have; for 'L2' independent columns). Classes may be missing in the bag.", "quantifier": "all training sets, predictions (also those of repeated cross-validations), bags under prior shift, numbers of classes, constructor arguments, and exact solvers", "why_tests_cant": "the equality must hold for every bag of every prevalence; tests draw a few bags, whose class-conditional frequencies never match the training ones exactly, so they only see approximate answers", "anchors": ["quantificationlib/baselines/ac.py:AC", "quantificationlib/baselines/ac.py:PAC", "quantificationlib/multiclass/df.py:DFy", "quantificationlib/multiclass/df.py:DFX", "quantificationlib/multiclass/energy.py:EDy", "quantificationlib/multiclass/energy.py:EDX", "quantificationlib/multiclass/energy.py:CvMy", "quantificationlib/multiclass/friedman.py:FriedmanME", "quantificationlib/ordinal/ac_ordinal.py:ACOrdinal", "quantificationlib/ordinal/pdf.py:PDFOrdinaly", "quantificationlib/binary/emd.py:SORDy"]}
{"id": "C129", "title": "A training set counts only through the distribution of its examples, labels and predictions", "statement": "If two nonempty training sets give every pair of label and prediction (or of label and example) the same relative frequency, fit followed by predict gives the same answer, or raises the same exception, for every bag: neither the order of the training examples nor repeating the whole training set matters. With predictions given by the user this holds whatever the estimators; with estimators, when they learn only from that distribution and predict every example by itself.", "quantifier": "all classes of quantifiers that use classifiers, DFX/HDX and EDX, all pairs of training sets with the same relative frequencies, all bags, all solvers and all estimators", "why_tests_cant": "Training sets are unbounded; tests train on one order of one sample.", "anchors": ["quantificationlib/base.py:UsingClassifiers.fit", "quantificationlib/baselines/cc.py:CC", "quantificationlib/baselines/ac.py:AC", "quantificationlib/multiclass/em.py:EM", "quantificationlib/multiclass/df.py:DFy", "quantificationlib/multiclass/df.py:DFX", "quantificationlib/multiclass/df.py:compute_bincuts", "quantificationlib/multiclass/friedman.py:FriedmanME", "quantificationlib/multiclass/energy.py:EDy", "quantificationlib/multiclass/energy.py:CvMy", "quantificationlib/multiclass/energy.py:EDX", "quantificationlib/binary/debias.py:DeBias", "quantificationlib/binary/emd.py:SORDy", "quantificationlib/binary/quantiles.py:QUANTy", "quantificationlib/ordinal/ac_ordinal.py:ACOrdinal", "quantificationlib/ordinal/pdf.py:PDFOrdinaly"]}
{"id": "C130", "title": "EM rejects bags that no prevalences explain", "statement": "If the bag is empty, or the posterior probabilities of some example are all zero, EM.predict raises ValueError instead of returning NaN; and whenever EM stops before its iteration limit the answer is finite.", "quantifier": "every training set, every bag, every tolerance and every iteration limit", "why_tests_cant": "the failure shows up only for degenerate bags and depends on which iteration the check happens in; a test sees one bag and one limit", "anchors": ["quantificationlib/multiclass/em.py:EM.predict", "quantificationlib/metrics/multiclass.py:mean_absolute_error", "quantificationlib/metrics/multiclass.py:check_prevalences"]}
{"id": "C131", "title": "Metrics do not depend on whether vectors are flat, columns or rows", "statement": "A metric of the library has the same value whether its two arguments are flat arrays, columns or rows; a flat array and a column can be mixed; a row and a flat array of two or more classes raise ValueError, and so do vectors of different lengths. The same holds of emd_score.", "quantifier": "every metric, every number of classes, every pair of vectors and every layout of the two", "why_tests_cant": "a test has to choose a layout; the code turns flat arguments into columns and then loops over rows", "anchors": ["quantificationlib/metrics/multiclass.py:check_prevalences", "quantificationlib/metrics/ordinal.py:emd", "quantificationlib/metrics/ordinal.py:emd_score"]}
{"id": "C132", "title": "A distance function given to a search compares the two distributions", "statement": "A distance callable given to DFy, DFX or FriedmanME is evaluated between the mixture and the distribution of the bag as two vectors over the same bins, on the grid as well as in the golden section search.", "quantifier": "every number of bins, every mixture, every bag and every distance callable", "why_tests_cant": "whether the arrays broadcast depends on their shapes and no single distance shows it: the metrics of the library reshape their arguments and hide the mismatch", "anchors": ["quantificationlib/search.py:global_search", "quantificationlib/search.py:golden_section_search", "quantificationlib/multiclass/df.py:DFy.predict", "quantificationlib/multiclass/df.py:DFX.predict", "quantificationlib/multiclass/friedman.py:FriedmanME.predict"]}
{"id": "C133", "title": "A column of predictions means the same as a flat array", "statement": "CC.predict gives the same answer for predictions in a column of shape (n, 1) as for the flat array of the same predictions, labels or probabilities.", "quantifier": "every list of labels or probabilities and every list of classes", "why_tests_cant": "the conversion tests the number of elements of the array and of its second dimension; a test uses one size", "anchors": ["quantificationlib/base.py:UsingClassifiers", "quantificationlib/baselines/cc.py:CC.predict"]}
{"id": "C134", "title": "The answer is a flat array with one entry per class", "statement": "CC, AC, PCC and PAC return a flat array with one entry per class.", "quantifier": "every training set, every estimator, every bag, every distance", "why_tests_cant": "the squeeze at the end of predict behaves differently for exactly one class", "anchors": ["quantificationlib/baselines/cc.py:CC.predict", "quantificationlib/baselines/cc.py:PCC.predict", "quantificationlib/baselines/ac.py:AC.predict", "quantificationlib/baselines/ac.py:PAC.predict"]}
{"id": "C135", "title": "The error of AC and PAC is bounded by the deviation of the predictions", "statement": "There is a constant, which depends only on the rates estimated with the training set, such that for every bag the answer of AC and PAC is a vector of prevalences whose error is at most the constant times the distance between the predictions observed on the bag and those expected for its true prevalences. The constant exists whenever the matrix of rates is invertible; with two classes it is 1/|tpr - fpr|, which must be smaller than 1000.", "quantifier": "every training set with its predictions, every number of classes, every bag and every true labelling of it, drawn in any way", "why_tests_cant": "prior probability shift holds only approximately in any finite bag: tests on bags with an exact shift say nothing about how the error grows with the deviation", "anchors": ["quantificationlib/baselines/ac.py:AC.fit", "quantificationlib/baselines/ac.py:AC.predict", "quantificationlib/baselines/ac.py:PAC.fit", "quantificationlib/baselines/ac.py:PAC.predict"]}
{"id": "C136", "title": "More positive predictions never lower the estimated prevalence", "statement": "In binary problems, if the share of positive predictions (AC) or the mean probability of the positives (PAC) of a second bag is at least that of the first, so is the estimated prevalence, whenever the true positive rate is at least the false positive rate. With a classifier worse than chance by more than 0.001 the order is reversed.", "quantifier": "every binary training set with its predictions and every pair of bags", "why_tests_cant": "monotonicity relates all pairs of bags; the clipping and the threshold of 0.001 have to respect it", "anchors": ["quantificationlib/baselines/ac.py:AC.predict", "quantificationlib/baselines/ac.py:PAC.predict"]}
{"id": "C137", "title": "The error of matching methods is bounded by the quality of the match", "statement": "There is a constant, which depends only on the representations of the classes, such that for every bag and all prevalences p the answer of DFy, FriedmanME, DFX and ACOrdinal is a vector of prevalences whose distance to p is at most twice the constant times the distance ('L1', 'L2' or 'HD') between the representation of the bag and the mixture of the classes with prevalences p. The constant exists whenever different prevalences give different mixtures. The same holds of EDy and EDX, with the average distances from the classes to the bag and to the mixture, whenever the classes are separated. With two classes and any norm of the difference given as the distance of DFy, DFX or FriedmanME, the error of each prevalence is at most twice the distance between the bag and the mixture with prevalences p, divided by the distance between the classes, plus twice the tolerance of the search or 0.02, or a ValueError is raised, which happens only if every mixture is farther from the bag than 48% of the distance between the classes.", "quantifier": "every training set, every number of classes and bins, the three named distances and every norm, every bag and all prevalences p", "why_tests_cant": "the bound compares the answer with all other prevalences and ranges over all bags, including those that are not mixtures of the training classes", "anchors": ["quantificationlib/multiclass/df.py:DFy.predict", "quantificationlib/multiclass/df.py:DFX.predict", "quantificationlib/multiclass/friedman.py:FriedmanME.predict", "quantificationlib/ordinal/ac_ordinal.py:ACOrdinal.predict", "quantificationlib/multiclass/energy.py:EDy.predict", "quantificationlib/multiclass/energy.py:EDX.predict"]}
{"id": "C138", "title": "Renaming the classes in any way moves the prevalences with them", "statement": "If the classes are renamed by any injective function, in the labels, the predictions and the columns of the probabilities, which the library orders by class, then the prevalence that each class gets is the same. It holds of CC, PCC, EM, AC and PAC (two classes or an invertible matrix), DeBias, FriedmanME with 'L2', EDy, CvMy, EDX (separated classes), DFX and DFy.", "quantifier": "every injective renaming, increasing or not, every number of classes, every training set and bag", "why_tests_cant": "a test uses a few labels; a method that treats the first or the last class in a special way only shows it when the order changes", "anchors": ["quantificationlib/baselines/cc.py:CC", "quantificationlib/baselines/cc.py:PCC", "quantificationlib/baselines/ac.py:AC", "quantificationlib/baselines/ac.py:PAC", "quantificationlib/multiclass/em.py:EM", "quantificationlib/binary/debias.py:DeBias", "quantificationlib/multiclass/friedman.py:FriedmanME", "quantificationlib/multiclass/df.py:DFy", "quantificationlib/multiclass/df.py:DFX", "quantificationlib/multiclass/energy.py:EDy", "quantificationlib/multiclass/energy.py:CvMy", "quantificationlib/multiclass/energy.py:EDX"]}
{"id": "C139", "title": "load_data returns the examples of the file", "statement": "load_data returns the features and the integer class of every line of the file, in order: the last column is the class and the others are the features. Files whose lines have different numbers of fields raise ValueError.", "quantifier": "every file of comma-separated numbers: any number of examples and of features", "why_tests_cant": "Tests sample a few bags; the claim is about every bag size, number of classes and set of values.", "anchors": ["quantificationlib/data_utils.py:load_data"]}
{"id": "C140", "title": "Uniform bags: which prevalences are possible and how likely", "statement": "With method 'uniform' and no minimum prevalence, all the vectors of numbers of examples per class that add up to the size of the bag are possible and equally likely.", "quantifier": "every number of classes, every size of bag, every vector of numbers of examples, every random generator", "why_tests_cant": "a claim about all the draws of the random generator: a test sees a sample of them and the difference in probability is in the rare vectors with empty classes", "anchors": ["quantificationlib/bag_generator.py:PriorShift_BagGenerator.generate_bags"]}
{"id": "C141", "title": "Writing into an array after a call does not change later answers", "statement": "If a program writes other values into the arrays that it gave to fit (labels, predictions of the training examples), or into the arrays that generate_bags returned, later calls answer as if it had not.", "quantifier": "every class of the hierarchy, every training set, every overwriting of the arrays, every later bag", "why_tests_cant": "histories of writes by the caller between two calls are not part of any test of a single call", "anchors": ["quantificationlib/base.py:UsingClassifiers.fit", "quantificationlib/multiclass/energy.py:CvMy.predict", "quantificationlib/bag_generator.py:PriorShift_BagGenerator.generate_bags"]}
{"id": "C142", "title": "The error of an average of predictions is at most the average of their errors", "statement": "For every list of predictions, the error of the vector of mean prevalences is at most the mean of the errors of the predictions (at least, for scores). It holds of every error measure of the library, and so an ensemble that takes the mean of its members is not worse than its members are on average.", "quantifier": "all true prevalences, every number of predictions and of classes, every smoothing constant, every ensemble", "why_tests_cant": "it compares a metric at infinitely many points; a metric that is not convex violates it only for some lists of predictions", "anchors": ["quantificationlib/metrics/multiclass.py", "quantificationlib/metrics/binary.py", "quantificationlib/metrics/ordinal.py:emd", "quantificationlib/ensembles/eoq.py:EoQ.predict"]}
{"id": "C143", "title": "With more and more test examples the answers approach the prevalences", "statement": "Let the test examples be a stream of independent random examples that all have the same distribution, which differs from that of the training set in the prevalences of the classes only. With probability one, the answers of AC, PAC, ACOrdinal, FriedmanME, DFy (HDy, MMy), DFX (HDX, MMX), EDy and EDX to the bags of the first 1, 2, 3, ... examples are vectors of prevalences that converge to the prevalences of the stream, whenever the method can tell the classes apart (matrix of rates that is not degenerate, different mixtures for different prevalences, separated classes). The answers of CC and PCC converge to the expected predictions instead, so that in general more examples do not correct them.", "quantifier": "all training sets and predictions, all prevalences, all pairwise independent streams on any probability space, almost all outcomes of the stream", "why_tests_cant": "a limit over infinitely many bag sizes that holds with probability one; a test sees finitely many bags of one outcome", "anchors": ["quantificationlib/baselines/ac.py:AC.predict", "quantificationlib/baselines/ac.py:PAC.predict", "quantificationlib/multiclass/df.py:DFy.predict", "quantificationlib/multiclass/df.py:DFX.predict", "quantificationlib/multiclass/friedman.py:FriedmanME.predict", "quantificationlib/multiclass/energy.py:EDy.predict", "quantificationlib/multiclass/energy.py:EDX.predict", "quantificationlib/ordinal/ac_ordinal.py:ACOrdinal.predict", "quantificationlib/baselines/cc.py:CC.predict", "quantificationlib/baselines/cc.py:PCC.predict"]}
{"id": "C144", "title": "One example changes the answer by at most a constant divided by the size of the bag", "statement": "If one example of a bag of n examples is replaced by another, the answer changes by at most a number divided by n that depends only on the training set (and, for the energy methods, on the distance between the two examples): 2/n for CC and PCC; 4 K / n for AC and PAC, where K says how well the misclassification rates tell prevalences apart; K times the number of classes, divided by n, for FriedmanME with 'L2'; K times the size of the representation, divided by n, for DFy and DFX with 'L2'; K times the number of classes times the distance between the examples, divided by n, for EDy and EDX; the change in the posterior over the relative variance, divided by n, for DeBias.", "quantifier": "every training set on which the method is defined, every size of bag, every position and every pair of examples", "why_tests_cant": "a bound that decreases with the size of the bag, for all replacements of an example, is not visible in the answers to any finite number of bags", "anchors": ["quantificationlib/baselines/ac.py:AC.predict", "quantificationlib/baselines/ac.py:PAC.predict", "quantificationlib/baselines/cc.py:CC.predict", "quantificationlib/baselines/cc.py:PCC.predict", "quantificationlib/multiclass/energy.py:EDy.predict", "quantificationlib/multiclass/df.py:DFy.predict", "quantificationlib/multiclass/friedman.py:FriedmanME.predict", "quantificationlib/binary/debias.py:DeBias.predict"]}
{"id": "C145", "title": "Answers are valid up to the rounding of floating-point arithmetic", "statement": "In an arithmetic whose operations have relative error at most u and that adds arrays in any order, the answers of CC, PCC, AC, PAC, OneVsRestQuantifier, EM and DeBias are nonnegative and add up to 1 within explicit bounds that depend only on u and on the numbers of classes and examples, not on the data nor on the number of iterations. FrankAndHallQuantifier: the prevalences of all classes but the last are nonnegative, and the last one is not negative by more than the rounding errors.", "quantifier": "every arithmetic with relative error below 1 (including IEEE doubles with NumPy's pairwise summation, without overflow or underflow), every list of predictions, rates, training labels, tolerance and number of iterations", "why_tests_cant": "a test runs on one machine arithmetic and on a few numbers, and whether a sum of rounded numbers exceeds 1 depends on the last bits", "anchors": ["quantificationlib/baselines/cc.py:CC.predict", "quantificationlib/baselines/cc.py:PCC.predict", "quantificationlib/baselines/ac.py:AC.predict", "quantificationlib/baselines/ac.py:PAC.predict", "quantificationlib/decomposition/multiclass.py:OneVsRestQuantifier.predict", "quantificationlib/decomposition/ordinal.py:FrankAndHallQuantifier.predict", "quantificationlib/multiclass/em.py:EM.predict", "quantificationlib/binary/debias.py:DeBias.predict"]}
{"id": "C146", "title": "Answers in floating-point arithmetic tend to the exact ones as the precision grows", "statement": "For arithmetics whose relative error tends to 0, the answers of CC, PCC, AC, PAC, OneVsRestQuantifier, FrankAndHallQuantifier, EM and DeBias computed with rounding tend to the answers of the exact models, provided that no decision of the program is taken on its very edge: |tpr - fpr| = 0.001 for AC and PAC, a change equal to the tolerance for EM.", "quantifier": "every sequence of arithmetics with relative error tending to 0, every order of the additions, all predictions, rates and training labels", "why_tests_cant": "it is a statement about a limit over all arithmetics; it also says that the exact models describe the program", "anchors": ["quantificationlib/baselines/cc.py:CC.predict", "quantificationlib/baselines/cc.py:PCC.predict", "quantificationlib/baselines/ac.py:AC.fit", "quantificationlib/baselines/ac.py:AC.predict", "quantificationlib/baselines/ac.py:PAC.fit", "quantificationlib/baselines/ac.py:PAC.predict", "quantificationlib/decomposition/multiclass.py:OneVsRestQuantifier.predict", "quantificationlib/decomposition/ordinal.py:FrankAndHallQuantifier.predict", "quantificationlib/multiclass/em.py:EM.predict", "quantificationlib/binary/debias.py:DeBias.fit", "quantificationlib/binary/debias.py:DeBias.predict"]}
{"id": "C147", "title": "Error measures in floating-point arithmetic", "statement": "In floating-point arithmetic the error measures keep their meaning. l1, l2, mean_absolute_error, mean_squared_error, bray_curtis and probsymmetric return the exact value except for a relative error of a known number of roundings, are never negative, and are zero exactly when the prediction equals the true prevalences; the same holds of emd, apart from the relative error. Measures that do not depend on the order of the two vectors return exactly the same number when they are swapped. topsoe is 0 and emd_score is 1 for a perfect prediction. All the measures tend to their exact values as the rounding errors get smaller. hd, topsoe, jensenshannon and emd_score should also be non-negative, and hd zero only for equal vectors: this fails on doubles.", "quantifier": "every arithmetic with a bounded relative error (doubles among them), every computed logarithm with a bounded relative error, every order of the additions, every number of classes and every two vectors", "why_tests_cant": "Rounding errors depend on every bit of the inputs; tests compare with tolerances and on a few vectors, so they never see the inputs for which a divergence comes out negative.", "anchors": ["quantificationlib/metrics/multiclass.py:l1", "quantificationlib/metrics/multiclass.py:l2", "quantificationlib/metrics/multiclass.py:mean_absolute_error", "quantificationlib/metrics/multiclass.py:mean_squared_error", "quantificationlib/metrics/multiclass.py:hd", "quantificationlib/metrics/multiclass.py:bray_curtis", "quantificationlib/metrics/multiclass.py:probsymmetric", "quantificationlib/metrics/multiclass.py:topsoe", "quantificationlib/metrics/multiclass.py:jensenshannon", "quantificationlib/metrics/multiclass.py:kld", "quantificationlib/metrics/ordinal.py:emd", "quantificationlib/metrics/ordinal.py:emd_score"]}
{"id": "C148", "title": "Predictions that are not numbers are not hidden", "statement": "When the classifier returns NaN for an example (of the bag or of the training set), the quantifier raises an exception or its answer has a NaN in it; it does not answer with ordinary-looking prevalences. True of PCC, EM (with at least one iteration), DeBias, one-versus-rest and Frank-and-Hall decompositions, QUANTy with the metrics of the library as distance, and PAC with three or more classes and an invertible matrix or with NaN in the positive column of the bag. False of PAC with two classes and NaN in the training set (it answers as PCC), CC (a vote for the first class), SORDy (the same answer for all data: almost all examples positive), DFy (the example is left out of the histogram but counted), FriedmanME (taken for zero) and QUANTy with distances that let NaN through (the same answer between 0.98 and 1 for all data).", "quantifier": "all bags and training sets with predictions that may be NaN or infinite, all numbers of classes, tolerances, solvers and sort orders", "why_tests_cant": "NaN comes from rare failures of the classifier; tests with a NaN in one place say nothing about other places, sizes and methods", "anchors": ["quantificationlib/baselines/cc.py:PCC.predict", "quantificationlib/baselines/cc.py:CC.predict", "quantificationlib/baselines/ac.py:PAC.fit", "quantificationlib/baselines/ac.py:PAC.predict", "quantificationlib/multiclass/em.py:EM.predict", "quantificationlib/binary/debias.py:DeBias.predict", "quantificationlib/binary/emd.py:SORDy.predict", "quantificationlib/search.py:golden_section_search", "quantificationlib/multiclass/df.py:DFy.predict", "quantificationlib/multiclass/friedman.py:FriedmanME.predict", "quantificationlib/decomposition/multiclass.py:OneVsRestQuantifier.predict", "quantificationlib/decomposition/ordinal.py:FrankAndHallQuantifier.predict"]}
{"id": "C149", "title": "The answers do not depend on the units of the features", "statement": "Let the training set and the bags be given in other units: every feature is multiplied by a positive factor and shifted. DFX and HDX then give the same answers for every sequence of bags (or the same failures), whatever the distance, the distribution function and the solvers, when the features vary in the training set ('equal_width', 'normal') or within a class ('binormal'), and always with 'equal_count'. With features that do not vary and all the strategies but 'binormal', the prevalences closest to a bag are the same. EDX gives the same answer when all the features change by the same factor. Two exceptions: with 'binormal' and a feature that does not vary within the classes, moving the origin of the feature can turn 'all of one class' into 'all of the other'; and EDX gives other answers when the features change by different factors.", "quantifier": "all training sets, sequences of bags, numbers of features, factors and shifts, bins, strategies, distances, and solvers", "why_tests_cant": "a test tries one change of units on one data set; that the bins move with the values must hold for every data set, factor and shift", "anchors": ["quantificationlib/multiclass/df.py:DFX.fit", "quantificationlib/multiclass/df.py:DFX.predict", "quantificationlib/multiclass/df.py:compute_bincuts", "quantificationlib/multiclass/energy.py:EDX"]}
{"id": "C150", "title": "Settings can be read, changed and copied as in scikit-learn", "statement": "get_params returns the arguments given to the constructor, whatever calls of fit and predict came before; set_params leaves an object like one constructed with the changed arguments and rejects unknown names with ValueError; sklearn.base.clone gives a new object constructed with copies of the arguments.", "quantifier": "every class of quantifier and estimator of the library, all the values of the arguments, all the attributes that the methods may have assigned, all the lists of changes, every way of copying the values", "why_tests_cant": "The tests never call get_params, set_params or clone; the claim is about every class, all the arguments and all the histories of calls.", "anchors": ["quantificationlib/base.py:WithoutClassifiers", "quantificationlib/base.py:UsingClassifiers", "quantificationlib/multiclass/em.py:EM", "quantificationlib/multiclass/energy.py:EDX", "quantificationlib/estimators/weighted_knn.py:PWK", "quantificationlib/multiclass/knn.py:PWKQuantifier", "quantificationlib/ordinal/trees.py:OrdinalQuantificationTree", "quantificationlib/estimators/cross_validation.py:CV_estimator"]}
{"id": "C151", "title": "Neither the order of the features nor constant features change the answer", "statement": "For DFX, HDX and EDX, giving the columns of the training set and of the bag in another order, or leaving out columns that have the same value in all the training examples, does not change which prevalences are the closest to the bag, whatever the values of those columns in the bag.", "quantifier": "all training sets, bags, numbers of features, orders of the columns and sets of constant columns; all the binning strategies, distribution functions and named distances of DFX; EDX with Manhattan and Euclidean distances", "why_tests_cant": "There are infinitely many data sets and arrangements of the columns; the effect of a constant column depends on its values in the bag, which a test fixes.", "anchors": ["quantificationlib/multiclass/df.py:DFX", "quantificationlib/multiclass/df.py:HDX", "quantificationlib/multiclass/df.py:compute_bincuts", "quantificationlib/multiclass/energy.py:EDX"]}
{"id": "C152", "title": "EM reaches the maximum likelihood, at a known rate", "statement": "Fitted on any labels and given any nonempty bag of valid posterior rows, EM's answer after T iterations explains the bag nearly as well as any prevalences: the mean log-likelihood of an example is at most log(1/m)/(T+1) below that of any other prevalence vector, where m is the smallest training prevalence (so at most log(n)/(T+1) for n training examples). With a small enough epsilon and enough iterations allowed, the answer is as near as wanted to prevalences of maximum likelihood, so the method does not get trapped in worse points nor oscillate. For every positive epsilon the number of iterations is bounded whatever max_iter is.", "quantifier": "all nonempty label lists (any number of classes), all nonempty bags of posterior rows that are distributions (zeros allowed), all epsilon and max_iter, all competing prevalence vectors", "why_tests_cant": "A test compares one answer with one known value; convergence and its rate are statements about the limit of the iterations for every bag.", "anchors": ["quantificationlib/multiclass/em.py:EM.predict"]}
{"id": "C153", "title": "A bag without predictions gets no prevalences", "statement": "predict with an empty array of predictions for the bag raises an exception or answers NaN for the classes; it never returns numbers that look like prevalences.", "quantifier": "every fitted object, every training set, every distance", "why_tests_cant": "An empty bag is what a filter leaves now and then; a test tries one method, and whether NaN gets through depends on every comparison in the code after it.", "anchors": ["quantificationlib/baselines/cc.py:CC.predict", "quantificationlib/baselines/cc.py:PCC.predict", "quantificationlib/baselines/ac.py:AC.predict", "quantificationlib/baselines/ac.py:PAC.predict", "quantificationlib/binary/debias.py:DeBias.predict", "quantificationlib/multiclass/em.py:EM.predict", "quantificationlib/binary/quantiles.py:QUANTy.predict", "quantificationlib/multiclass/df.py:DFy.predict", "quantificationlib/binary/emd.py:SORDy.predict", "quantificationlib/search.py:global_search", "quantificationlib/search.py:compute_sord_weights"]}
{"id": "C154", "title": "How many test examples are enough", "statement": "Let the test examples be a stream of random examples, independent two by two, that all have the same distribution, which differs from that of the training set in the prevalences of the classes only. The answer of CC to the bag of the first n examples has exactly the expected predictions as expectation, and for each class the variance q (1 - q) / n, where q is the expected frequency of its predictions; the answer of PCC has as expectation the expected means of the probabilities, and as variances the variances of the probabilities divided by n. The probability of a total error of E or more is at most k / (n E^2) for CC and PCC (against the expected predictions) and k K^2 / (n E^2) for AC and PAC (against the prevalences), where k is the number of classes and K says how well the misclassification rates tell prevalences apart; similar bounds hold for DFy, HDy, MMy, DFX, HDX and FriedmanME with 'L1', 'L2' and 'HD', and for ACOrdinal, EDy and EDX. Consequently k K^2 / (d E^2) examples are enough for an error below E except with probability d. If the examples are all independent, the probabilities decrease exponentially in n: 2 k exp(-2 n (E / (K k))^2). The adjustment of AC is not unbiased: with two classes, its answer to a bag of one example has the same expectation as that of CC.", "quantifier": "all training sets and predictions, all prevalences, all streams on any probability space, all sizes of bag n >= 1 and all errors E > 0", "why_tests_cant": "bounds on probabilities that hold for every distribution of the examples and every size of bag; a test sees finitely many bags drawn from one distribution", "anchors": ["quantificationlib/baselines/cc.py:CC.predict", "quantificationlib/baselines/cc.py:PCC.predict", "quantificationlib/baselines/ac.py:AC.predict", "quantificationlib/baselines/ac.py:PAC.predict", "quantificationlib/multiclass/df.py:DFy.predict", "quantificationlib/multiclass/energy.py:EDy.predict", "quantificationlib/multiclass/df.py:DFX.predict", "quantificationlib/multiclass/friedman.py:FriedmanME.predict", "quantificationlib/multiclass/energy.py:EDX.predict", "quantificationlib/ordinal/ac_ordinal.py:ACOrdinal.predict"]}
{"id": "C155", "title": "plot_boxes gives every system its colour", "statement": "With a list of colours, the box of the i-th system (column of the error matrix) gets the i-th colour, edge and inside; if there are fewer colours than systems, the remaining boxes keep the colours of matplotlib, and if there are more, the rest is ignored; all the medians are black. Without colours nothing is changed.", "quantifier": "every number of systems, every list of colours", "why_tests_cant": "Tests sample a few bags; the claim is about every bag size, number of classes and set of values.", "anchors": ["quantificationlib/plot/qlplot.py:plot_boxes"]}
{"id": "C156", "title": "When the examples of the classes change too, the error is bounded by how much they have changed", "statement": "Bags need not follow prior probability shift exactly. For any bag of examples of the known classes, let the drift be how much the examples of each class have changed from the training set to the bag, as the method sees them (the misclassification rates for AC, the mean probabilities for PAC, the bins of the histograms for DFy and DFX, the mean distances to the training examples of each class for EDy and EDX, whether the scores reach the prevalence for FriedmanME, the accumulated predictions for ACOrdinal), averaged over the examples of the bag. The total error of AC and PAC is at most kappa times the drift, where kappa says how well the training set tells the classes apart; the one of EDy, EDX, ACOrdinal, and of DFy, DFX and FriedmanME with 'L1' or 'L2', is at most twice kappa times the drift (times the number of bins when accumulated distributions are compared); with 'HD' the square root of the drift replaces the drift. CC and PCC have the error that they have without drift, up to the drift. Without drift, in particular under prior probability shift, the drift is 0 and the right prevalences are answered by the former methods. The bound of AC is attained.", "quantifier": "training sets, predictions given for them, bags of any size of examples of the known classes with any predictions, classes missing in the bag, distances and numbers of bins; exact solvers", "why_tests_cant": "Tests sample a few bags; the claim is about every bag size, number of classes and set of values.", "anchors": ["quantificationlib/baselines/ac.py:AC.predict", "quantificationlib/baselines/ac.py:PAC.predict", "quantificationlib/baselines/cc.py:CC.predict", "quantificationlib/baselines/cc.py:PCC.predict", "quantificationlib/multiclass/df.py:DFy.predict", "quantificationlib/multiclass/df.py:DFX.predict", "quantificationlib/multiclass/energy.py:EDy.predict", "quantificationlib/multiclass/energy.py:EDX.predict", "quantificationlib/multiclass/friedman.py:FriedmanME.predict", "quantificationlib/ordinal/ac_ordinal.py:ACOrdinal.predict"]}
{"id": "C157", "title": "What classify and count gets wrong, and when it is right", "statement": "For every bag, what CC answers for a class differs from the prevalence of the class in the bag by the number of false positives minus the number of false negatives of the class, over the size of the bag: mistakes cancel out, and the total error is at most twice the share of misclassified examples. Under prior probability shift CC answers the mixture, with the prevalences of the bag, of the rates with which the training examples of each class are predicted as each class (PCC: of their mean probabilities). With two classes, false positive rate fpr and false negative rate fnr, its error is fpr(1-p) - fnr p for prevalence p: it overestimates the positives when p is below fpr/(fpr+fnr), underestimates them when p is above, and is right only there. CC is right for every bag with prior probability shift if and only if no training example is misclassified.", "quantifier": "training sets, predictions given for them (any number of repetitions), bags of any size, number of classes; for the second part bags with prior probability shift", "why_tests_cant": "Tests sample a few bags; the claim is about every bag size, number of classes and set of values.", "anchors": ["quantificationlib/baselines/cc.py:CC.predict", "quantificationlib/baselines/cc.py:PCC.predict", "quantificationlib/baselines/cc.py:CC.fit"]}
{"id": "C158", "title": "The error measures agree on what a small error is", "statement": "For prevalence vectors over n classes and eps > 0, every multiclass error measure is bounded above and below by the l1 error: sqrt 2 * l2 <= l1 <= sqrt n * l2; mean_absolute_error, bray_curtis and mean_squared_error are l1/n, l1/2 and l2^2/n; 2 l1^2/(2 + n eps) <= probsymmetric <= 2 l1; topsoe is between a quarter and a half of probsymmetric; l1/2 <= emd <= (n-1)/2 * l1. So, for a sequence of predictions, the errors of any of them (and of hd) tend to 0 exactly when the predictions tend to the true prevalences: a method that converges for one of them converges for all. When all the classes occur, hd <= sqrt(kld log 2 + n eps) + sqrt(n eps), and kld log 2 <= l1/eps.", "quantifier": "prevalence vectors of any length, sequences of predictions, smoothing constants eps > 0", "why_tests_cant": "Tests sample a few bags; the claim is about every bag size, number of classes and set of values.", "anchors": ["quantificationlib/metrics/multiclass.py:l1", "quantificationlib/metrics/multiclass.py:l2", "quantificationlib/metrics/multiclass.py:mean_absolute_error", "quantificationlib/metrics/multiclass.py:mean_squared_error", "quantificationlib/metrics/multiclass.py:hd", "quantificationlib/metrics/multiclass.py:bray_curtis", "quantificationlib/metrics/multiclass.py:topsoe", "quantificationlib/metrics/multiclass.py:probsymmetric", "quantificationlib/metrics/multiclass.py:kld", "quantificationlib/metrics/ordinal.py:emd"]}
{"id": "C159", "title": "The error of a decomposition is bounded by the errors of its binary quantifiers", "statement": "For every bag and all prevalences it is compared with: the total error of OneVsRestQuantifier is at most twice the sum of the errors of its binary quantifiers, and the error of one class at most the error of its own binary quantifier plus what the binary answers miss from adding up to 1. If every binary quantifier of FrankAndHallQuantifier is within d of the prevalence of its group of classes, the cumulative prevalences of the answer are within d too, so the error of a class is at most 2d, the total error at most 2(n-1)d and the earth mover's distance at most (n-1)d.", "quantifier": "every base quantifier that answers nonnegative numbers (in [0,1] for Frank and Hall), every training set with three or more classes, every bag, all reference prevalences", "why_tests_cant": "Tests sample a few bags; the claim is about every bag size, number of classes and set of values.", "anchors": ["quantificationlib/decomposition/multiclass.py:OneVsRestQuantifier.predict", "quantificationlib/decomposition/ordinal.py:FrankAndHallQuantifier.predict", "quantificationlib/decomposition/ordinal.py:FrankAndHallQuantifier.check_and_correct_prevalences_asc"]}
{"id": "C160", "title": "A decomposition of an exact binary quantifier is exact", "statement": "OneVsRestQuantifier and FrankAndHallQuantifier with PAC as base quantifier answer the prevalences of the bag when the bag differs from the training set in the prevalences of the classes only.", "quantifier": "every training set with three or more classes, all scores, every bag with the same scores within each class as the training set", "why_tests_cant": "Tests sample a few bags; the claim is about every bag size, number of classes and set of values.", "anchors": ["quantificationlib/decomposition/multiclass.py:OneVsRestQuantifier.fit", "quantificationlib/decomposition/multiclass.py:OneVsRestQuantifier.predict", "quantificationlib/decomposition/ordinal.py:FrankAndHallQuantifier.fit", "quantificationlib/decomposition/ordinal.py:FrankAndHallQuantifier.predict", "quantificationlib/baselines/ac.py:PAC.fit", "quantificationlib/baselines/ac.py:PAC.predict"]}
{"id": "C161", "title": "A decomposition answers for its last successful fit", "statement": "For OneVsRestQuantifier and FrankAndHallQuantifier, with any base quantifier and any history of calls of fit, some of which raise: predict raises until a fit has returned; after a fit that returns, predict answers as a new object on which only that fit was called; a fit that raises either changes no answer or makes predict raise until the next fit that returns.", "quantifier": "every base quantifier, every sequence of calls of fit with arbitrary labels and predictions, every bag", "why_tests_cant": "Tests sample a few bags; the claim is about every bag size, number of classes and set of values.", "anchors": ["quantificationlib/decomposition/multiclass.py:OneVsRestQuantifier.fit", "quantificationlib/decomposition/multiclass.py:OneVsRestQuantifier.predict", "quantificationlib/decomposition/ordinal.py:FrankAndHallQuantifier.fit", "quantificationlib/decomposition/ordinal.py:FrankAndHallQuantifier.predict", "quantificationlib/base.py:UsingClassifiers.fit"]}
{"id": "C162", "title": "With certain posteriors the probabilistic methods answer as the methods for labels", "statement": "Posteriors that give probability 1 to one class say the same as the label of that class. When the predictions given to fit and predict are of this kind, PCC and EM (with at least one iteration) answer exactly what CC answers when it is given the labels, and PAC what AC answers with the same distance, whatever the bag. FriedmanME and DFy (and so HDy; histograms of two or more bins of equal width) with 'HD', 'L1' or 'L2', and EDy and CvMy with their default distance, answer what AC answers, with two classes for every bag, and with more classes for every bag whose predictions some prevalences explain (AC has nothing to clip), if the confusion matrix of the training predictions can be inverted.", "quantifier": "every training set, every number of classes, every list of labels predicted for the training set (any number of repetitions) and for the bag, every value of the estimators and of the threshold of EM", "why_tests_cant": "Tests sample a few bags; the claim is about every bag size, number of classes and set of values.", "anchors": ["quantificationlib/baselines/cc.py:CC", "quantificationlib/baselines/cc.py:PCC", "quantificationlib/baselines/ac.py:AC", "quantificationlib/baselines/ac.py:PAC", "quantificationlib/multiclass/em.py:EM", "quantificationlib/multiclass/friedman.py:FriedmanME", "quantificationlib/multiclass/df.py:DFy", "quantificationlib/multiclass/energy.py:EDy", "quantificationlib/multiclass/energy.py:CvMy"]}
{"id": "C163", "title": "With predictions that are never wrong every method answers the true prevalences", "statement": "If the predictions on the training set are its labels and those on the bag are the true labels of its examples (for the methods that use posteriors: posteriors certain of those labels), then CC, AC, PCC, PAC, EM, DeBias, FriedmanME, DFy with histograms of equal width, EDy and CvMy with their default distances, ACOrdinal, PDFOrdinaly, and one-vs-rest and Frank and Hall over PAC answer the fraction of the bag of each class, and SORDy, and FriedmanME with two classes and any norm of the difference given as distance, the same up to their tolerance (twice the tolerance for FriedmanME), whatever the classes, their prevalences in the training set and in the bag, the loss and the number of copies of the training predictions. PDFOrdinaly needs two bins for each class: with one, a bag of the last class and a bag of the class before get the same answer.", "quantifier": "all training labels, all bags with labels among them, all losses with a name, all parameters of each class", "why_tests_cant": "Tests sample a few bags; the claim is about every bag size, number of classes and set of values.", "anchors": ["quantificationlib/baselines/cc.py:CC", "quantificationlib/baselines/cc.py:PCC", "quantificationlib/baselines/ac.py:AC", "quantificationlib/baselines/ac.py:PAC", "quantificationlib/multiclass/em.py:EM", "quantificationlib/multiclass/friedman.py:FriedmanME", "quantificationlib/multiclass/df.py:DFy", "quantificationlib/multiclass/energy.py:EDy", "quantificationlib/multiclass/energy.py:CvMy", "quantificationlib/binary/debias.py:DeBias", "quantificationlib/ordinal/ac_ordinal.py:ACOrdinal", "quantificationlib/ordinal/pdf.py:PDFOrdinaly", "quantificationlib/binary/emd.py:SORDy", "quantificationlib/decomposition/multiclass.py:OneVsRestQuantifier", "quantificationlib/decomposition/ordinal.py:FrankAndHallQuantifier"]}
{"id": "C164", "title": "The experiments of the examples report the error of each bag", "statement": "The experiment of examples/multiclass_quantifiers.py and examples/tutorial_example.py (fit, generate_bags with a new PriorShift_BagGenerator on the testing set, then predict and mean_absolute_error for each bag with the same object) reports one number for each bag: the mean over the classes of the absolute difference between the fraction of the examples of the bag of that class and the answer that a quantifier trained on the same training set gives for that bag alone. For answers that are valid prevalences it is between 0 and 2 divided by the number of classes. It is exactly 0 for every bag for AC, PAC, PCC, EM, EDy and CvMy when the predictions are never wrong, and for CC it is at most two times the share of examples of the bag with a wrong prediction, divided by the number of classes. FriedmanME, DFy, ACOrdinal and PDFOrdinaly keep the optimisation problem of the first bag for the next ones; the number that they report for each bag is the error of prevalences that are, for the predictions of that bag, as close as possible for their distance. If the testing set has another number of classes than the training set, the experiment ends with a ValueError.", "quantifier": "all training and testing sets, all bag generators that return, all random number generators, all methods that keep nothing between two calls to predict, and FriedmanME, DFy, ACOrdinal and PDFOrdinaly with the distances that have a name", "why_tests_cant": "Tests sample a few bags; the claim is about every bag size, number of classes and set of values.", "anchors": ["quantificationlib/bag_generator.py:PriorShift_BagGenerator", "quantificationlib/metrics/multiclass.py:mean_absolute_error", "quantificationlib/baselines/cc.py:CC", "quantificationlib/baselines/ac.py:AC", "quantificationlib/multiclass/em.py:EM", "quantificationlib/multiclass/friedman.py:FriedmanME", "quantificationlib/multiclass/df.py:DFy", "quantificationlib/ordinal/ac_ordinal.py:ACOrdinal", "quantificationlib/ordinal/pdf.py:PDFOrdinaly"]}
{"id": "C165", "title": "With more and more training and test examples, the answers approach the prevalences", "statement": "Let the training examples and the test examples be random streams that differ in the prevalences of the classes only, with a positive probability of each class in training. If AC, PAC, ACOrdinal or DFy (HDy and MMy are cases of it) are trained with the first n examples of the first stream and applied to the first m examples of the second stream, then with probability one the answers are numbers when n and m are large enough, and they converge to the true prevalences of the second stream when n and m grow together, in any manner. It takes that the predictions tell the classes apart: rates with an inverse for AC and PAC (and, with two classes, tpr and fpr that differ by more than 1/1000), different accumulated rates for different prevalences for ACOrdinal, different probabilities of the bins of equal width for different prevalences for DFy. For a fixed n and m, the error of AC and PAC is at most K (d + e) / (1 - K e) if K e is below 1 (and, with two classes, K / (1 - K e) below 1000), where K is the constant of the true rates, e the error of the rates estimated in training and d the error of the frequencies in the bag. CC and PCC converge to what the classifier is expected to predict, which is not the prevalences.", "quantifier": "all numbers of classes, all prevalences of training and test, all distributions of the predictions of each class, all streams of pairwise independent examples, all ways in which the two sample sizes grow", "why_tests_cant": "Tests sample a few bags; the claim is about every bag size, number of classes and set of values.", "anchors": ["quantificationlib/baselines/ac.py:AC", "quantificationlib/baselines/ac.py:PAC", "quantificationlib/baselines/cc.py:CC", "quantificationlib/baselines/cc.py:PCC", "quantificationlib/ordinal/ac_ordinal.py:ACOrdinal", "quantificationlib/multiclass/df.py:DFy", "quantificationlib/multiclass/df.py:HDy", "quantificationlib/multiclass/df.py:MMy"]}
{"id": "C166", "title": "Fitted quantifiers can be asked by several threads at the same time", "statement": "When several threads call `predict`, each one on its own fitted quantifier (of any of the classes that use classifiers), every one of them gets, however the system interleaves them, the answer that it gets when there are no other threads, also when the quantifiers share their estimators. It is false when the threads share the quantifier: `predict` leaves the predictions in an attribute and reads them from there, so, with any class, a thread can get the answer for the bag of another thread; CC, which reads them once for each class, can answer with numbers that are not prevalences of any bag (1 for both classes). On a shared quantifier the answers are right when the calls do not overlap. EDX can be shared: its `predict` assigns nothing.", "quantifier": "all numbers of threads, all interleavings of their operations, all classes that use classifiers, all bags, all assignments of quantifiers to threads", "why_tests_cant": "Tests sample a few bags; the claim is about every bag size, number of classes and set of values.", "anchors": ["quantificationlib/base.py:UsingClassifiers.predict", "quantificationlib/baselines/cc.py:CC.predict", "quantificationlib/multiclass/energy.py:EDX.predict"]}
{"id": "C167", "title": "Quantifiers can be fitted by several threads at the same time", "statement": "When several threads call `fit` on new quantifiers of their own, with the same training set, and then `predict`, every one of them gets, however the system interleaves them, the answer that it gets when there are no other threads, although they share untrained estimators, each of which may be trained more than once. It takes that training an estimator is one operation and that training it again with the same examples gives the same. With different training sets it is false: the quantifier can learn with the estimator that its thread trained and be asked when the other thread has trained it again, which gives, for AC, an answer that no order of the calls gives. It is also false when the shared estimator is a FrankAndHallClassifier, whose training is not one operation: `fit` in another thread finds it half trained and raises TypeError or AttributeError.", "quantifier": "all numbers of threads, all interleavings of their operations, all classes that use classifiers, all training sets and bags, all estimators with those contracts, all ways of sharing them", "why_tests_cant": "Tests sample a few bags; the claim is about every bag size, number of classes and set of values.", "anchors": ["quantificationlib/base.py:UsingClassifiers.fit", "quantificationlib/base.py:UsingClassifiers.predict", "quantificationlib/baselines/ac.py:AC", "quantificationlib/estimators/frank_and_hall.py:FrankAndHallClassifier.fit"]}
{"id": "C168", "title": "Bags can be generated by several threads at the same time", "statement": "When several threads call `generate_bags`, each one on its own new CovariateShift_BagGenerator with an integer seed, every one of them gets, however the system interleaves them, the bags (or the exception) that it gets when there are no other threads. When the generators share a RandomState object, every call that returns still returns bags: positions of examples of its data set and the prevalences of those examples; but which ones depends on the interleaving. A generator whose bags have been generated before can be shared. It is false for a new generator that threads share: a thread can get, without any exception, the arrays of zeros that the other one has not filled yet; it can raise TypeError, because it takes as a seed the object that the other thread has just made; and both can end with prevalences that are not the ones of the bag, and that sum 2.", "quantifier": "all numbers of threads, all interleavings of their operations, all data sets, all numbers and sizes of bags, all streams of random numbers, all assignments of generators to threads", "why_tests_cant": "Tests sample a few bags; the claim is about every bag size, number of classes and set of values.", "anchors": ["quantificationlib/bag_generator.py:CovariateShift_BagGenerator.generate_bags"]}
{"id": "C169", "title": "An interrupted call does not spoil later ones", "statement": "A call of fit or predict may be interrupted between any two of its operations (Ctrl-C, a time limit), leaving assigned what it had assigned. Whenever predict is interrupted, what the object learned is as before or as after the complete call. After any history of complete and interrupted calls, a fit that returns makes the object answer every bag as a new object fitted by the same call, and a fit that was interrupted and is repeated raises or leads to the same answers as without the interruption. An interrupted fit or generate_bags does not make a later predict, fit or generate_bags return something that no complete call would have given.", "quantifier": "every class that uses a classifier, all training sets, bags, shared estimators and histories of calls, every operation at which each call is interrupted; all data for the generators of bags", "why_tests_cant": "Tests sample a few bags; the claim is about every bag size, number of classes and set of values.", "anchors": ["quantificationlib/base.py:UsingClassifiers.fit", "quantificationlib/base.py:UsingClassifiers.predict", "quantificationlib/bag_generator.py:CovariateShift_BagGenerator.generate_bags", "quantificationlib/estimators/frank_and_hall.py:FrankAndHallClassifier.fit", "quantificationlib/multiclass/df.py:DFy", "quantificationlib/optimization.py:solve_hd"]}
{"id": "C170", "title": "Taking several classes as one", "statement": "If some classes are given one common label in the training labels and in the predictions, CC gives the merged class the sum of the prevalences it gave to its parts, and so does PCC when the probability of the merged class is the sum of the probabilities of its parts. An estimate judged by l1, bray_curtis or hd on the merged classes is not worse than before, and by emd when the merged classes are next to each other. Every quantifier would behave as CC and PCC do.", "quantifier": "all training labels, all predictions among their classes, all maps of the classes to other classes, all prevalence vectors; for emd all monotone maps onto the remaining classes", "why_tests_cant": "Tests sample a few bags; the claim is about every bag size, number of classes and set of values.", "anchors": ["quantificationlib/baselines/cc.py:CC", "quantificationlib/baselines/cc.py:PCC", "quantificationlib/baselines/ac.py:AC", "quantificationlib/metrics/multiclass.py:l1", "quantificationlib/metrics/multiclass.py:l2", "quantificationlib/metrics/multiclass.py:hd", "quantificationlib/metrics/multiclass.py:bray_curtis", "quantificationlib/metrics/multiclass.py:mean_absolute_error", "quantificationlib/metrics/multiclass.py:mean_squared_error", "quantificationlib/metrics/ordinal.py:emd"]}
{"id": "C171", "title": "One training example changes the answer little", "statement": "If one example of the training set is replaced by another one of the same class, whose predictions are different, the answer of AC and PAC for a bag changes by at most 4 K (1 + 2 K) / (N - 2 K), where K is the constant that says how well the training rates tell prevalences apart and N the number of predictions of the smallest class, if N is larger than 2 K (and, with two classes, K N / (N - 2 K) is below 1000). The answer of FriedmanME and DFy (bins of equal width) with 'L2' changes by at most K B (1 + K B) / N, where K says how well mixtures of the training distributions tell prevalences apart and B bounds how far two distributions can be: the number of classes for FriedmanME, twice the number of descriptors for DFy, times the number of bins of all descriptors together if the distributions are cumulated. The answer of EDy and EDX, with a distance d for which the triangle inequality holds, changes by at most 3 K d / N, where K says how well the distances between examples tell prevalences apart and d is the distance between the two examples. The training predictions do not change the answers of CC, PCC and EM at all.", "quantifier": "every training set, every number of classes, every position, every pair of predictions, every bag that is not empty", "why_tests_cant": "Tests sample a few bags; the claim is about every bag size, number of classes and set of values.", "anchors": ["quantificationlib/baselines/ac.py:AC", "quantificationlib/baselines/ac.py:PAC", "quantificationlib/baselines/cc.py:CC", "quantificationlib/baselines/cc.py:PCC", "quantificationlib/multiclass/em.py:EM", "quantificationlib/multiclass/friedman.py:FriedmanME", "quantificationlib/multiclass/df.py:DFy", "quantificationlib/multiclass/energy.py:EDX", "quantificationlib/multiclass/energy.py:EDy", "quantificationlib/base.py:UsingClassifiers"]}
{"id": "C172", "title": "Predictions that say nothing about the class are not turned into an estimate", "statement": "When the training predictions of every class have the same distribution, so that nothing can be learnt from them about the class, a method does not present a made-up number as an estimate: with two classes AC and PAC answer what CC and PCC answer, and DFy and FriedmanME with a distance function raise ValueError. A method that answers with prevalences that do not depend on the bag at all (always the uniform distribution, always the last class) violates this.", "quantifier": "every training set whose predictions have the same distribution in each class, every bag", "why_tests_cant": "Tests sample a few bags; the claim is about every bag size, number of classes and set of values.", "anchors": ["quantificationlib/baselines/ac.py:AC", "quantificationlib/baselines/ac.py:PAC", "quantificationlib/search.py:global_search", "quantificationlib/search.py:golden_section_search", "quantificationlib/multiclass/df.py:DFy", "quantificationlib/multiclass/friedman.py:FriedmanME", "quantificationlib/binary/emd.py:SORDy", "quantificationlib/multiclass/energy.py:EDy", "quantificationlib/optimization.py:nearest_pd", "quantificationlib/optimization.py:solve_l2", "quantificationlib/optimization.py:solve_ed"]}
{"id": "C173", "title": "The answer for two bags put together lies between the answers for each of them", "statement": "With two classes, the prevalence of each class that CC, PCC, AC, PAC, DeBias, FriedmanME, DFy and DFX with 'L2', EDy and EDX give for two bags put together is not below the smaller nor above the larger of those they give for the two bags. CC and PCC have the property with any number of classes. With three or more classes AC does not have it: it may give a class a quarter of each bag and half of the two together.", "quantifier": "every training set with two classes, its predictions, and every pair of bags that are not empty", "why_tests_cant": "Tests sample a few bags; the claim is about every bag size, number of classes and set of values.", "anchors": ["quantificationlib/baselines/cc.py:CC", "quantificationlib/baselines/cc.py:PCC", "quantificationlib/baselines/ac.py:AC", "quantificationlib/baselines/ac.py:PAC", "quantificationlib/binary/debias.py:DeBias", "quantificationlib/multiclass/friedman.py:FriedmanME", "quantificationlib/multiclass/df.py:DFy", "quantificationlib/multiclass/df.py:DFX", "quantificationlib/multiclass/energy.py:EDX", "quantificationlib/multiclass/energy.py:EDy", "quantificationlib/base.py:UsingClassifiers"]}
{"id": "C174", "title": "Bags with prior probability shift can be generated by several threads at the same time", "statement": "When several threads call `generate_bags`, each one on its own new PriorShift_BagGenerator with an integer seed, every call that returns gives, however the system interleaves them, what it gives when there are no other threads and the generator of the `np.random` module is in some state: with the uniform method, the same bags or exception as alone; with both methods, bags (positions of examples of its data set and the prevalences of those examples). The number of operations that a call needs does not depend on the other threads. When the generators share RandomState objects, every call that returns bags still returns bags in that sense, with both methods. It is false that with the Dirichlet method a thread gets the bags of its seed: they depend on the interleaving, since the prevalences come from the generator of the module. A generator whose bags have been generated before can be shared, but not a new one: a thread can get the arrays of zeros (uniform), or what `np.random.dirichlet` has drawn with bags that are the first example repeated (Dirichlet), without any exception, or raise TypeError.", "quantifier": "all numbers of threads, all interleavings of their operations, all data sets, all parameters, all streams of random numbers, all assignments of generators to threads", "why_tests_cant": "Tests sample a few bags; the claim is about every bag size, number of classes and set of values.", "anchors": ["quantificationlib/bag_generator.py:PriorShift_BagGenerator"]}
{"id": "C175", "title": "With two classes and a distance given as a function, DFy, DFX and FriedmanME answer with nearly the closest mixture", "statement": "With two classes and a distance given as a function, DFy (HDy, MMy), DFX (HDX, MMX) and FriedmanME answer with a pair of prevalences, and the mixture of the training representations of the classes with these prevalences is as near to the representation of the bag as the mixture with any other prevalences, up to twice the largest change of the distance over one tolerance of the search, when the distance is convex in the prevalences and either its last minimum has at most 0.98 of the second class or a bag of the second class alone is nearer than one of the first class alone. For DFX this holds for each of any number of bags predicted one after the other. With the metric `l2` of the library as distance these conditions hold for every bag as soon as the training representations of the two classes are not the same, and the largest change is the tolerance times the Euclidean distance between them. With any norm of the difference as distance (l1, l2, the mean absolute error, or a norm given by the user) and every training set with two classes and nonempty bag, either the mixture of the answer is as near to the bag as that of any other prevalences, up to twice the tolerance or 2% of the distance between the classes, or a ValueError is raised, and then the mixtures of all prevalences are equally near up to 2% of the distance between the classes.", "quantifier": "every training set with two classes, every predictions or features, every bag, every convex distance function, every positive tolerance", "why_tests_cant": "The claim is about every distance function and bag.", "anchors": ["quantificationlib/multiclass/df.py:DFy", "quantificationlib/multiclass/df.py:DFX", "quantificationlib/multiclass/friedman.py:FriedmanME", "quantificationlib/search.py:global_search", "quantificationlib/search.py:golden_section_search"]}
