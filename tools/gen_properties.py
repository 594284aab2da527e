#!/usr/bin/env python3
"""Writes properties.jsonl (one property per line)."""
import json, os
P = []
def split(a):
    """ "file: A, B" as "file:A", "file:B" """
    if ':' not in a: return [a]
    f, names = a.split(':', 1)
    return [f + ':' + n.strip() for n in names.split(',')]
def add(id, title, statement, quantifier, why, *anchors):
    P.append(dict(id=id, title=title, statement=statement, quantifier=quantifier,
                  why_tests_cant=why, anchors=[b for a in anchors for b in split(a)]))
q = "quantificationlib/"
EVERY = "Tests sample a few bags; the claim is about every bag size, number of classes and set of values."

add("C01", "CC returns the class frequencies of the predictions, a valid prevalence vector",
    "For a fitted CC and a nonempty testing bag whose crisp predictions are all known class labels, predict returns one value per class (in the sorted order of classes_), each equal to the fraction of the bag predicted as that class; all values lie in [0,1] and they sum to 1. If some predictions are not known labels the values sum to the fraction of known ones; for an empty bag every value is NaN.",
    "every label type with a total order, every training label list, every list of predictions",
    EVERY, q+"baselines/cc.py:CC.predict", q+"base.py:UsingClassifiers.predict")
add("C02", "CC and PCC depend only on the multiset of test predictions and pool linearly",
    "Reordering the examples of a testing bag never changes what CC.predict or PCC.predict return, and the prevalences returned for the union of two nonempty bags are the size-weighted average of the prevalences returned for each bag.",
    "every pair of nonempty bags and every permutation",
    "Permutation invariance and additivity quantify over all orders and all splits of all bags.",
    q+"baselines/cc.py:CC.predict", q+"baselines/cc.py:PCC.predict")
add("C03", "PCC returns the mean posterior, a valid prevalence vector, and agrees with CC on one-hot posteriors",
    "For a nonempty bag of posterior rows each of which is nonnegative and sums to 1, PCC.predict returns the column means, which are in [0,1] and sum to 1; when each row is the one-hot encoding of a known class it returns exactly what CC.predict returns for the corresponding crisp labels.",
    "every number of classes and every nonempty list of posterior rows", EVERY,
    q+"baselines/cc.py:PCC.predict", q+"baselines/cc.py:CC.predict")
add("C04", "Missing predictions and estimators are rejected, supplied predictions win",
    "Any quantifier that needs training predictions raises ValueError in fit exactly when it has neither estimator_train nor predictions_train; predict raises ValueError exactly when there is neither estimator_test nor predictions_test. CC and PCC need no training predictions, so that their fit never raises. When predictions are supplied the result is the one computed from them and the estimator's predictions are not consulted.",
    "every combination of present/absent estimators and predictions and every estimator behaviour",
    "The estimator is an arbitrary user object; a test fixes one.", q+"base.py:UsingClassifiers.fit", q+"base.py:UsingClassifiers.predict")
add("C05", "Training labels stay aligned with repeated training predictions",
    "When the training predictions are r stacked copies of a prediction per training example (r>=1), the labels used by the quantifier have exactly the length of the predictions and the label at position k*n+i is y[i]; class frequencies in the extended labels equal those in y.",
    "every training label list, every number of repetitions r", "Holds for every length and every r.",
    q+"base.py:UsingClassifiers.fit")
add("C06", "A shared estimator is trained at most once",
    "However many quantifiers share an estimator and whatever sequence of fit calls (including failing ones) is made on them, the estimator's fit method runs at most once, with the data of the first call that reached it, and an estimator that was already fitted is never refitted.",
    "every history of fit calls over every set of quantifiers sharing one estimator",
    "It is a statement about unbounded call histories.", q+"base.py:UsingClassifiers.fit")
add("C07", "Probabilities given to a crisp quantifier become the labels of the most probable class",
    "When predictions with one column per class are given to a quantifier that needs crisp predictions, each becomes the label of the first class with maximal probability, so it is always a known label. For one-column binary probabilities the crisp value should be the second class label when the probability is at least 0.5 and the first otherwise.",
    "every label set, every probability matrix", "Quantifies over all label sets; tests in the repo only use 0/1 labels.",
    q+"base.py:UsingClassifiers.__probs2crisps")
add("C08", "The confusion matrix learned by AC is the matrix of conditional frequencies P(predicted | true)",
    "After AC.fit on predictions that are all known labels, entry (i,j) of the confusion matrix is the fraction of training examples of class i predicted as class j; every row is a probability distribution. For PAC row i is the mean posterior of the examples of class i and is a probability distribution when posteriors are.",
    "every training set and predictions", EVERY, q+"baselines/ac.py:AC.fit", q+"baselines/ac.py:PAC.fit")
add("C09", "Binary AC, PAC and PWK always return a valid prevalence vector",
    "For two classes and any finite test prevalence estimate and any rates tpr, fpr, the values returned are in [0,1] and sum to 1; if |tpr-fpr| <= 0.001 the unadjusted estimate is returned (when it is itself a prevalence vector).",
    "every real tpr, fpr and every observed prevalence", "Ranges over a continuum including degenerate classifiers.",
    q+"baselines/ac.py:AC.predict", q+"baselines/ac.py:PAC.predict", q+"multiclass/knn.py:PWKQuantifier.predict")
add("C10", "Multiclass AC and PAC return a valid prevalence vector whenever the matrix can be inverted",
    "With three or more classes, if the transposed confusion matrix is invertible, its rows are distributions and the observed prevalences sum to 1, the values returned by AC.predict/PAC.predict are nonnegative and sum to 1 - the clipping never removes all the mass and no NaN can appear.",
    "every number of classes, every invertible stochastic confusion matrix, every observed prevalence vector",
    "An algebraic fact about all invertible stochastic matrices.", q+"baselines/ac.py:AC.predict", q+"baselines/ac.py:PAC.predict")
add("C11", "AC and PAC recover the true prevalences exactly under prior probability shift",
    "If the observed prevalences are exactly the mixture of the confusion-matrix rows with weights p (a valid prevalence vector), then the adjusted prevalences returned are exactly p: for two classes whenever |tpr-fpr|>0.001, for more classes whenever the matrix is invertible.",
    "every number of classes, confusion matrix and true prevalence vector", "Correctness of the estimator for all populations.",
    q+"baselines/ac.py:AC.predict", q+"baselines/ac.py:PAC.predict")
add("C12", "Predicting on the training predictions returns the training prevalences",
    "Fitting AC on (y, predictions) and predicting the very same predictions returns exactly the class frequencies of y, under the same non-degeneracy condition as C11. The same holds for PAC with posterior rows.",
    "every training set with known-label predictions", "End-to-end identity for every data set.",
    q+"baselines/ac.py:AC.fit", q+"baselines/ac.py:AC.predict", q+"baselines/ac.py:PAC.fit", q+"baselines/ac.py:PAC.predict")
add("C13", "Binary error measures are genuine errors",
    "For prevalences in [0,1]: absolute_error, squared_error, relative_absolute_error (positive eps) and symmetric_absolute_percentage_error are finite, nonnegative and zero exactly when the prediction is right; absolute_error, squared_error and SAPE are symmetric; SAPE is at most 1; bias is antisymmetric and its absolute value is the absolute error.",
    "every pair of prevalences in [0,1], every eps>0", "A continuum of inputs including the 0 boundary.",
    q+"metrics/binary.py")
add("C14", "Normalised binary scores range over [0,1] and reward accuracy",
    "normalized_absolute_score and normalized_squared_score are in [0,1] for prevalences in [0,1], equal 1 exactly for perfect predictions, strictly decrease with the absolute error, and 0 is reached by the worst possible prediction.",
    "every pair of prevalences in [0,1]", "A continuum of inputs.", q+"metrics/binary.py:normalized_absolute_score", q+"metrics/binary.py:normalized_squared_score")
add("C15", "binary_kld is a divergence",
    "binary_kld(p, q) is finite and nonnegative, and zero exactly when p = q, for all p, q in [0,1] and every small positive eps.",
    "every p, q in [0,1]", "A continuum; the boundary is a special case in the code.", q+"metrics/binary.py:binary_kld")
add("C16", "l1, l2, Hellinger and mean absolute error are metrics",
    "On prevalence vectors of the same length these four functions are nonnegative, symmetric, zero exactly on equal vectors and satisfy the triangle inequality; mean_squared_error and probsymmetric are nonnegative, symmetric and zero exactly on equal vectors.",
    "every number of classes, every triple of vectors", "Triangle inequality over all triples.",
    q+"metrics/multiclass.py:l1", q+"metrics/multiclass.py:l2", q+"metrics/multiclass.py:hd", q+"metrics/multiclass.py:mean_absolute_error")
add("C17", "Multiclass errors are bounded on prevalence vectors",
    "For valid prevalence vectors: l1<=2, mean_absolute_error<=2/n, l2<=sqrt 2, hd<=sqrt 2, bray_curtis = l1/2 in [0,1], probsymmetric<=4, and the Le Cam sandwich hd^2 <= l1 <= 2*hd holds.",
    "every number of classes, every pair of prevalence vectors", EVERY, q+"metrics/multiclass.py")
add("C18", "topsoe and jensenshannon are symmetric bounded divergences",
    "For valid prevalence vectors and eps>0 both are finite and symmetric; topsoe is nonnegative, zero exactly on equal vectors and at most 2 log 2; jensenshannon is between 0 and log 2 up to an error of at most n*eps, and is within that error of topsoe/2.",
    "every number of classes, pair of prevalence vectors and eps>0", EVERY, q+"metrics/multiclass.py:topsoe", q+"metrics/multiclass.py:jensenshannon")
add("C19", "kld is a divergence",
    "For valid prevalence vectors kld is finite and nonnegative (up to the smoothing constant) and zero when prediction equals truth.",
    "every number of classes, every pair of prevalence vectors, every eps>0",
    "Boundary vectors with a zero component behave differently.", q+"metrics/multiclass.py:kld")
add("C20", "Multiclass metrics do not depend on the order in which classes are listed",
    "Applying the same permutation of classes to both arguments leaves every multiclass metric unchanged (kld, mean_absolute_error, l1, mean_squared_error, l2, hd, bray_curtis, topsoe, jensenshannon, probsymmetric).",
    "every permutation of every pair of vectors", "All permutations.", q+"metrics/multiclass.py")
add("C21", "geometric_mean is between 0 and 1 and is 1 exactly for perfect classifiers",
    "With correction in [0,1] geometric_mean is the n-th root of the product of the (corrected) class recalls, lies in [0,1], is 0 with correction 0 iff some class is never recognised, and with correction 0 is 1 exactly when every example is correctly predicted.",
    "every pair of label lists of the same nonzero length", EVERY, q+"metrics/multiclass.py:geometric_mean")
add("C22", "brier_multi is between 0 and 2 and zero exactly for perfect posteriors",
    "For posterior rows and truth rows that are probability distributions, brier_multi is in [0,2] and zero exactly when all rows coincide.",
    "every number of examples and classes", EVERY, q+"metrics/multiclass.py:brier_multi")
add("C23", "emd is a metric and equals the optimal transport cost between ordered classes",
    "For prevalence vectors over ordered classes, emd equals the minimum over all transport plans of the mass moved times the number of class steps it is moved; hence it is symmetric, zero exactly on equal vectors and satisfies the triangle inequality.",
    "every number of classes, every pair of prevalence vectors, every transport plan", "A minimum over an infinite set of plans.",
    q+"metrics/ordinal.py:emd")
add("C24", "emd_score is a score in [0,1]",
    "For prevalence vectors with at least two classes emd_score is in [0,1], equals 1 exactly for the perfect prediction, and 0 for at least one of the two extreme predictions; no prediction is worse than the worse of the two extremes.",
    "every number of classes >=2, every pair of prevalence vectors", EVERY, q+"metrics/ordinal.py:emd_score")
add("C25", "emd_distances is the matrix of pairwise emd values",
    "For rows that are distributions with the same total, entry (i,j) of emd_distances(A,B) is emd of row i of A and row j of B.",
    "every pair of matrices with the same number of columns", EVERY, q+"metrics/ordinal.py:emd_distances", q+"metrics/ordinal.py:emd")
add("C26", "The L2 quadratic program is least squares on the simplex",
    "The parameters built by compute_l2_param_train and solve_l2 encode minimising ||T p - q||^2 over prevalence vectors: the QP objective differs from that loss by a constant independent of p, its constraints hold exactly for valid prevalence vectors, so every exact QP solution is a valid prevalence vector that minimises the L2 distance.",
    "every training matrix (with positive definite Gram matrix), every test vector, every exact solver",
    "Equivalence of two optimisation problems over all p.", q+"optimization.py:compute_l2_param_train", q+"optimization.py:solve_l2")
add("C27", "is_pd decides positive definiteness",
    "For every real symmetric matrix, is_pd answers true exactly when the matrix is positive definite (dpofa returns 0 iff Cholesky succeeds), and then the upper triangle produced satisfies R^T R = M.",
    "every size, every symmetric matrix", "An algorithm correctness statement for all sizes.", q+"optimization.py:dpofa", q+"optimization.py:is_pd")
add("C28", "The energy-distance quadratic program minimises the energy distance between mixture and test bag",
    "With K the class average-distance matrix and Kt the class-to-test average distances, the QP built by compute_ed_param_train/test encodes minimising 2*E[mix,test]-E[mix,mix] over prevalence vectors: objective equal up to a constant when the last prevalence is 1 minus the others, constraints equivalent to validity, and solve_ed returns a valid prevalence vector minimising it for any exact QP solver.",
    "every number of classes >= 2, every symmetric K, every Kt", "Equivalence of optimisation problems over all prevalence vectors.",
    q+"optimization.py:compute_ed_param_train", q+"optimization.py:compute_ed_param_test", q+"optimization.py:solve_ed")
add("C29", "Warm-started solvers never answer with a stale training distribution",
    "For any sequence of fit and predict calls on AC, ACOrdinal, DFy/DFX, PDFOrdinaly, FriedmanME or PWKQuantifier, a prediction depends only on the most recent fit and the current bag; the cached solver problem never leaks an earlier training or testing distribution.",
    "every history of fit/predict calls", "Unbounded call histories.", q+"optimization.py:solve_l1", q+"optimization.py:solve_hd")
add("C30", "golden_section_search returns a prevalence inside the search interval after a predictable number of evaluations",
    "For every distance function and interval [a,b], the prevalence found is in [a,b], the returned pair sums to 1, the number of distance evaluations is 1+ceil(log(tol/(b-a))/log(invphi)) (2 when already within tolerance branch excluded) and the final bracket is no wider than tol.",
    "every distance function, every interval and tolerance", "Holds for arbitrary user distances.", q+"search.py:golden_section_search")
add("C31", "golden_section_search converges to the minimiser of a unimodal distance",
    "If the distance is strictly decreasing up to some point of [a,b] and strictly increasing after it, the prevalence returned is within tol of that minimiser.",
    "every unimodal distance, interval and tolerance", "All unimodal functions.", q+"search.py:golden_section_search")
add("C32", "The loss returned by golden_section_search is the loss at the returned prevalence",
    "The distance value returned together with the prevalences is the distance evaluated at those prevalences.",
    "every distance function", "False in general; the counterexample is a function, not an input list.", q+"search.py:golden_section_search")
add("C33", "global_search returns the best prevalence of its grid and never something worse than it reports",
    "global_search returns a valid binary prevalence vector whose loss is no greater than the loss at every grid point i/100.",
    "every distance function", "All distance functions.", q+"search.py:global_search")
add("C34", "Mixtures of class distributions are distributions",
    "mixture_of_pdfs of class histograms that are distributions, with weights that form a prevalence vector, is a distribution; it is linear in the weights and equals the class histogram at a one-hot weight.",
    "every number of bins and weights", EVERY, q+"search.py:mixture_of_pdfs")
add("C35", "compute_quantiles conserves the weighted mean",
    "For a weighted sample, compute_quantiles splits the sorted sample in n groups of equal weight and returns the group means: values are sorted and their average is the weighted mean of the sample.",
    "every sample, every prevalence, every number of quantiles", EVERY, q+"search.py:compute_quantiles")
add("C36", "sord is the 1-Wasserstein distance between mixture and test sample",
    "With weights given by compute_sord_weights (class weights p_c/n_c for training and -1/n for test examples) the weights sum to zero and sord equals the integral of the absolute difference of the two weighted cumulative distribution functions; it is nonnegative and zero when the two weighted samples coincide.",
    "every sorted sample of scores, every labels and prevalences", "All samples.", q+"search.py:compute_sord_weights", q+"search.py:sord")
add("C37", "Every bag produced by PriorShift_BagGenerator is what it says it is",
    "Each generated bag has exactly bag_size examples, each index is a valid training index, the reported prevalences of the bag are exactly the class frequencies of the indexed labels, and they form a valid prevalence vector.",
    "every training label vector, every bag size, every stream of random draws, both methods", "All random outcomes.",
    q+"bag_generator.py:PriorShift_BagGenerator")
add("C38", "min_prevalence is respected in every uniform bag",
    "With method 'uniform' and a minimum prevalence (scalar or per class), every class has in every bag at least the (rounded) minimum number of examples round(min_prevalence*bag_size); the prevalence itself is at least min_prevalence up to rounding.",
    "every label vector, every min_prevalence accepted, every random stream", "All random outcomes.", q+"bag_generator.py:PriorShift_BagGenerator._generate_uniform")
add("C39", "generate_bags reflects the data it is given",
    "Every call generate_bags(X, y) returns bags of the data passed in that call: indexes valid for y and prevalences the class frequencies of the indexed labels.",
    "every history of generate_bags calls with arbitrary data sets", "Unbounded histories; the second call is never tested.", q+"bag_generator.py:generate_bags")
add("C40", "A failed bag generation leaves no trace",
    "If generate_bags raises, a later call behaves as if the failed one had not happened (it either raises again or returns real bags).",
    "every crash point of the generation", "Crash-point property.", q+"bag_generator.py:PriorShift_BagGenerator._generate_uniform")
add("C41", "Equal integer seeds give equal bags",
    "Two generators with the same parameters and the same integer random_state return the same bags for the same data, whatever other random activity happens in the program.",
    "every seed, data set and state of the global random generator", "Depends on hidden global state.", q+"bag_generator.py")
add("C42", "Covariate-shift and mixed bags are well formed",
    "Each bag of CovariateShift_BagGenerator and PriorAndCovariateShift_BagGenerator has bag_size valid indexes and prevalences equal to the class frequencies of the indexed labels; the mixed generator returns exactly n_bags bags.",
    "every data set, number of bags and random stream", "All random outcomes.", q+"bag_generator.py:CovariateShift_BagGenerator", q+"bag_generator.py:PriorAndCovariateShift_BagGenerator")
add("C43", "Histogram representations lose no example",
    "For DFy and DFX with PDF representation, each class column restricted to one descriptor is a probability distribution, and so is the test column, even for test values outside the training range, because the outer bins are infinite.",
    "every training set, test bag, number of bins", EVERY, q+"multiclass/df.py:DFy", q+"multiclass/df.py:DFX")
add("C44", "Cumulative representations are nondecreasing and end at 1",
    "With distribution_function='CDF' each descriptor's block of the representation is nondecreasing and its last value is 1.",
    "every training set and test bag", EVERY, q+"multiclass/df.py:DFy", q+"multiclass/df.py:DFX")
add("C45", "Matching the training bag itself has zero loss at the training prevalences",
    "For DFy, DFX, Friedman, and the energy based methods the mixture of class representations with the training prevalences as weights is exactly the representation of the pooled training sample, so predicting the training bag has loss zero at the training prevalences.",
    "every training set", "End-to-end identity for all data.", q+"multiclass/df.py", q+"multiclass/friedman.py")
add("C46", "Bin cuts are ordered",
    "compute_bincuts returns n_bins+1 cut points from -inf to +inf in nondecreasing order for equal_width, normal and binormal and for equal_count whenever each bin can get at least one example.",
    "every sample and number of bins", EVERY, q+"multiclass/df.py:compute_bincuts")
add("C47", "EM returns a valid prevalence vector",
    "For posterior rows that are distributions and positive training prevalences, every iterate of EM.predict and the value returned are valid prevalence vectors.",
    "every bag, every number of iterations", EVERY, q+"multiclass/em.py:EM.predict")
add("C48", "EM never decreases the likelihood",
    "Each EM iteration does not decrease the log-likelihood of the testing bag under the mixture model sum_i log sum_c p_c P(c|x_i)/P_train(c).",
    "every bag and every iterate", "Monotonicity at every step for every input.", q+"multiclass/em.py:EM.predict")
add("C49", "EM stops within max_iter iterations, after at least min(10, max_iter) of them",
    "EM.predict performs at most max_iter iterations, at least min(10,max_iter), and when it stops before max_iter the last change in mean absolute error is at most epsilon.",
    "every bag, epsilon and max_iter", "Termination for every input.", q+"multiclass/em.py:EM.predict")
add("C50", "DeBias returns a valid prevalence vector",
    "When the training variance term is nonzero, DeBias.predict returns values in [0,1] summing to 1; if the test mean posterior equals the training prevalence it returns the training prevalence.",
    "every training and testing posteriors", EVERY, q+"binary/debias.py:DeBias")
add("C51", "OneVsRestQuantifier returns a valid prevalence vector and is faithful to consistent binary quantifiers",
    "The output is nonnegative and sums to 1 whenever some binary quantifier returns a positive prevalence; if the binary estimates already sum to 1 they are returned unchanged.",
    "every number of classes, every binary quantifier outputs in [0,1]", EVERY, q+"decomposition/multiclass.py:OneVsRestQuantifier")
add("C52", "FrankAndHallQuantifier returns a valid prevalence vector",
    "For any outputs in [0,1] of the binary quantifiers the returned prevalences are nonnegative and sum to 1, and their cumulative sums are exactly the corrected left-group prevalences.",
    "every number of classes, every binary outputs in [0,1]", EVERY, q+"decomposition/ordinal.py:FrankAndHallQuantifier")
add("C53", "Inconsistent Frank-and-Hall group prevalences are corrected to monotone ones, consistent ones are untouched",
    "The corrected group prevalences are nondecreasing, lie between the minimum and maximum of the input, equal the input when it is already nondecreasing, and correcting twice is the same as correcting once.",
    "every list of group prevalences", EVERY, q+"decomposition/ordinal.py:FrankAndHallQuantifier.check_and_correct_prevalences_asc")
add("C54", "Friedman's training representation and prediction are consistent",
    "Each column of the training matrix is the vector of fractions of class examples whose posterior reaches the training prevalence; all entries are in [0,1] and the representation of a pooled bag is the prevalence-weighted mixture of the class columns.",
    "every training set", EVERY, q+"multiclass/friedman.py")
add("C55", "PWK posteriors are distributions and its crisp prediction is the most probable class",
    "With at least two classes in the training set, each row returned by PWK.predict_proba is a probability distribution and PWK.predict returns the first class with the largest probability; example weights are 1 minus the class frequency.",
    "every training set, every neighbourhood", EVERY, q+"estimators/weighted_knn.py:PWK")
add("C56", "Regression quantifiers return a valid prevalence vector",
    "predict_bag returns nonnegative values summing to 1: with two classes for every number the regressor returns (ValueError for NaN), with more classes whenever some regressor returns a positive number and none returns NaN.",
    "every regressor output", EVERY, q+"multiclass/regression.py:REG.predict_bag")
add("C57", "Regression quantifiers are trained and queried with histograms on the same scale",
    "The descriptor of a training bag, like that of a testing bag, is a concatenation of probability distributions (each feature block sums to 1), whatever the bag size.",
    "every data set, bag size and bags", "Only visible when bag_size differs from the training size.", q+"multiclass/regression.py:REG.create_training_set_of_distributions")
add("C58", "Independent quantifiers built with default arguments do not influence each other",
    "Fitting one REGX/REGy/EoQ object never changes what another object, built separately with default arguments, learns from its own data.",
    "every history of constructions and fits", "History property across objects; shared mutable defaults.", q+"multiclass/regression.py", q+"ensembles/eoq.py", q+"bag_generator.py")
add("C59", "EoQ combinations of valid predictions are valid",
    "For every combination strategy except distribution-based failures, if all member quantifiers return valid prevalence vectors and at least one member is selected, the combined prediction is a valid prevalence vector (for median: whenever some class has a positive median), and identical member predictions are returned unchanged.",
    "every number of members and classes", EVERY, q+"ensembles/eoq.py:EoQ.predict")
add("C60", "distribution_similarity selects the members trained on the most similar bags",
    "The members selected are those whose own training-bag distribution is closest to the test distribution. With classifiers the distributions are those of the probabilities that they give, averaged over the classifiers of an ensemble; with crisp predictions for the testing sample, predict raises ValueError.",
    "every data set and bags", "Requires comparing all members' bags.", q+"ensembles/eoq.py:EoQ.fit", q+"ensembles/eoq.py:EoQ.predict")
add("C61", "CV_estimator predicts training examples only with models that did not see them",
    "When predict/predict_proba is called with the training set and the splitter is deterministic, the prediction of every example in every repetition comes from a fold model whose training indexes exclude it, and every example gets exactly one prediction per repetition; for other data every fold model predicts every example.",
    "every splitter producing partitions, every data set", "Quantifies over all splitters.", q+"estimators/cross_validation.py:CV_estimator._predict_proba")
add("C62", "FrankAndHallClassifier returns the documented class probabilities",
    "For the middle classes predict_proba returns Pr(y>c_{i-1}) * Pr(y<=c_i), which lies in [0,1].",
    "every number of classes and binary outputs", EVERY, q+"estimators/frank_and_hall.py:FrankAndHallClassifier.predict_proba")
add("C63", "FrankAndHallMonotoneClassifier returns consistent probabilities",
    "For binary outputs in [0,1] every row of predict_proba is a probability distribution, and its cumulative sums are the average of the upper and lower monotone envelopes of the binary outputs (Destercke and Yang).",
    "every number of classes and binary outputs", EVERY, q+"estimators/frank_and_hall.py:FrankAndHallMonotoneClassifier")
add("C64", "FrankAndHallTreeClassifier posteriors are distributions for every tree",
    "For binary posteriors that sum to 1 and are in [0,1] each row of predict_proba is a probability distribution, and the probability of a class is the product of the binary probabilities along its root-to-leaf path.",
    "every number of classes, every binary outputs, every tree the builder can produce", "All trees.", q+"estimators/frank_and_hall.py:FrankAndHallTreeClassifier")
add("C65", "The Frank-and-Hall tree places at each node the best binary model for quantifying its left group",
    "Each node holds, among the models available to its subtree, the first with the smallest performance loss between the true prevalence of the left group and the one estimated by that model; each model appears exactly once.",
    "every training set and performance measure", "All score vectors.", q+"estimators/frank_and_hall.py:FrankAndHallTreeClassifier.__generate_tree")
add("C66", "DDAG posteriors are distributions and sum over all root-to-leaf paths",
    "For pairwise posteriors in [0,1] summing to 1, each row of predict_proba is a probability distribution (both prediction methods), and with full_probabilistic the probability of a class is the sum over all root-to-leaf paths of the products of pairwise probabilities.",
    "every number of classes and pairwise outputs", "All sizes of the DAG.", q+"estimators/ordinal_ddag.py:DDAGClassifier")
add("C67", "DDAG consults the right pairwise model",
    "At the node for classes (i,j) the classifier consulted is the one trained for that pair in the one-vs-one order, for every number of classes.",
    "every n and i<j<n", "Index arithmetic for all sizes.", q+"estimators/ordinal_ddag.py:DDAGClassifier.__compute_probabilities")
add("C68", "winner_node returns only two consecutive classes",
    "With predict_method='winner_node' the probabilities are zero except for two consecutive classes, which receive the probabilities of the binary model reached by following the majority decisions from the root.",
    "every number of classes and pairwise outputs", EVERY, q+"estimators/ordinal_ddag.py:DDAGClassifier")
add("C69", "FHLabelBinarizer encodes membership in the left group",
    "With three or more classes the entry for an example and column i is 1 exactly when the example's class is among the first i+1 classes; columns are nondecreasing along the row and the last column is all ones.",
    "every label set and labels", EVERY, q+"estimators/frank_and_hall.py:FHLabelBinarizer.transform")
add("C70", "EnsembleOfClassifiers trains one model per bag",
    "After fit, the i-th estimator is the base estimator trained on the i-th bag, whatever the execution schedule (n_jobs).",
    "every set of bags, every schedule", "Depends on the execution schedule and object aliasing.", q+"estimators/ensembles.py:EnsembleOfClassifiers.fit")
add("C71", "ACOrdinal minimises the earth mover's distance between adjusted and observed predictions",
    "The training matrix has in row i the cumulative confusion probabilities, so the L1 objective solved equals emd between the mixture of confusion rows and the observed class frequencies, and at the true prevalences under prior shift it is zero.",
    "every confusion matrix and prevalence vector", "Equality of objectives for all p.", q+"ordinal/ac_ordinal.py:ACOrdinal")
add("C72", "PDFOrdinaly scores of winner-node posteriors are expected class positions",
    "For a posterior supported on two consecutive classes (or one class) the winner_node score equals the full_probabilistic score sum_c c*p_c; scores of probability rows lie in [1,n], so the histogram over [1,n] loses no example.",
    "every number of classes and rows", EVERY, q+"ordinal/pdf.py:PDFOrdinaly")
add("C73", "Every DFy/DFX/AC objective is nonnegative and exact solvers return a minimiser over valid prevalences",
    "For any exact solver of the stated problem, the prevalence returned by the distribution-matching quantifiers is a valid prevalence vector whose loss is minimal among all valid prevalence vectors.",
    "every representation and exact solver", "Optimality over a continuum.", q+"optimization.py", q+"multiclass/df.py")
add("C74", "Class relabelling that preserves order does not change quantifier outputs",
    "Replacing all class labels by an order-preserving renaming in training labels and predictions leaves the prevalence vectors returned by CC, AC and PAC unchanged.",
    "every strictly monotone renaming", "All renamings.", q+"baselines/cc.py", q+"baselines/ac.py", q+"base.py")
add("C75", "nearest_pd stops and returns the nearest positive definite matrix",
    "In exact arithmetic nearest_pd returns after at most one pass through its loop, for every square matrix. The result is positive definite: it is the positive semidefinite matrix nearest to the input in the Frobenius norm when that one is positive definite, and that matrix plus one floating-point spacing on the diagonal otherwise. On a positive semidefinite input the only change is the spacing on the diagonal.",
    "every square matrix of every size", "Termination and optimality over all matrices.", q+"optimization.py:nearest_pd")
add("C76", "Energy-distance quantifiers always return a valid, near-optimal prevalence vector",
    "For every training set with at least two classes and every nonempty bag, EDy (Manhattan distance) and EDX (Euclidean distance), and any distance of negative type, fit and predict without error for exact numerical libraries; the result is a valid prevalence vector and its energy loss is within half a floating-point spacing of the minimum over all valid prevalence vectors.",
    "every training set, bag, number of classes and of columns", "Convexity of the problem is a theorem about all samples (the distances are of negative type).", q+"multiclass/energy.py:EDy", q+"multiclass/energy.py:EDX")
add("C77", "Energy-distance quantifiers recover the proportions of mixtures of the training classes",
    "When no two different mixtures of the training classes look alike to the distance, a bag consisting of m_i copies of every training example of class i gets exactly the class proportions of that bag; otherwise the energy distance between the answer and the bag is at most half a floating-point spacing.",
    "every training set, every vector of multiplicities, every order of the bag", "All mixtures and all training sets.", q+"multiclass/energy.py:EDy", q+"multiclass/energy.py:EDX", q+"multiclass/energy.py:CvMy")
add("C78", "CvMy depends only on the order of the predicted probabilities",
    "Applying any strictly increasing recalibration to each column of the training and testing predictions leaves the answer of CvMy unchanged; the answer is a valid prevalence vector; ranks are 1..N when there are no ties.",
    "every strictly increasing recalibration, every training set and bag", "All monotone functions.", q+"multiclass/energy.py:CvMy")
add("C79", "Energy-distance quantifiers see samples as weighted sets",
    "Permuting the bag, permuting the training examples together with their labels, or repeating every example of the bag the same number of times does not change the answer of EDy and EDX.",
    "every permutation and every repetition count", "All permutations.", q+"multiclass/energy.py:EDy", q+"multiclass/energy.py:EDX")

add("C80", "SORDy minimises the Wasserstein distance and recovers exact mixtures",
    "For every two-class training set, every nonempty bag and every positive tolerance, SORDy returns a valid vector [1-p, p] with p within half the tolerance of a minimiser over [0,1] of the 1-Wasserstein distance between the mixture of the training score distributions and the score distribution of the bag; if the bag has exactly the score distribution of the mixture with prevalence q and the two class score distributions differ, p is within half the tolerance of q.",
    "every training set, bag and mixture", "Optimality over a continuum of mixtures and all score samples.", q+"binary/emd.py:SORDy", q+"search.py:sord")
add("C81", "Distribution matching recovers the prevalences of an exact mixture",
    "If the testing distribution is exactly the mixture of the training class distributions with prevalences p, and different prevalences give different mixtures, the solver behind AC, PAC, DFy, DFX, FriedmanME and PWKQuantifier returns p, for the L1 and the Hellinger distance.",
    "every matrix of class distributions and every prevalence vector", "All mixtures over a continuum.", q+"optimization.py:solve_l1", q+"optimization.py:solve_hd", q+"multiclass/df.py:DFy")

add("C82", "generate_bags always comes back",
    "generate_bags either returns the bags or raises an exception; in particular minimum prevalences that no bag can satisfy are rejected.",
    "every data set, bag size, minimum prevalences and stream of random draws",
    "Non-termination can never be observed by a test.",
    "quantificationlib/bag_generator.py:PriorShift_BagGenerator._generate_uniform")

add("C83", "Every bin strategy accepts predictions of a repeated cross-validation",
    "DFy.fit with predictions_train longer than y (repeated predictions, whose labels are y repeated) computes the class histograms for every bin strategy, as it does for equal_width.",
    "every training set with repeated predictions", "Holds or fails for all such inputs.", q+"multiclass/df.py:DFy.fit", q+"multiclass/df.py:compute_bincuts")
add("C84", "Distribution matching answers with one prevalence per class",
    "The vector returned by predict of DFy, DFX and FriedmanME has one entry per class for every supported distance: 'HD', 'L1', 'L2' or a function.",
    "every distance, number of classes and bag", EVERY, q+"multiclass/df.py:DFy.predict", q+"multiclass/df.py:DFX.predict", q+"multiclass/friedman.py:FriedmanME.predict")

add("C85", "PWKQuantifier's matrix holds the conditional frequencies of its own predictions, and it is exact on its training bag",
    "After fit, entry (i,j) of the matrix is the fraction of training examples of class i its classifier predicts as class j. Asked for the bag it was fitted on, it returns the class frequencies of the training labels: with two classes whenever |tpr-fpr|>0.001, otherwise when the matrix is invertible and the L1 solver is exact.",
    "every label vector, every vector of training predictions with known labels", EVERY, q+"multiclass/knn.py:PWKQuantifier.fit", q+"multiclass/knn.py:PWKQuantifier.predict")
add("C86", "EM is invariant to the order of the bag, keeps calibrated training prevalences and its fixed points are maximum likelihood estimates",
    "The answer of EM does not depend on the order of the examples. If the mean posterior of the bag equals the training prevalences, EM returns the training prevalences. A vector EM leaves unchanged has the greatest likelihood among the valid prevalence vectors with the same or smaller support.",
    "every bag, epsilon and max_iter", "Optimality against every competitor.", q+"multiclass/em.py:EM.predict")
add("C87", "DeBias is exact under prior shift when the training posteriors are calibrated",
    "If among the training examples with each value of the posterior of the positive class the fraction of positives is that value, and the testing bag has, within each class, the mean posterior of the training examples of that class (prior probability shift), then DeBias returns exactly the prevalence of the bag.",
    "every training set with calibrated posteriors, every testing bag with the same class conditional means", "Exactness over all distributions and prevalences.", q+"binary/debias.py:DeBias.fit", q+"binary/debias.py:DeBias.predict")
add("C88", "FHLabelBinarizer honours neg_label and pos_label",
    "Entry (r,i) of FHLabelBinarizer.transform is pos_label when the label of example r is one of the first i+1 classes and neg_label otherwise, for every pair of labels given to the constructor.",
    "every neg_label and pos_label, every label list", "All pairs of labels.", q+"estimators/frank_and_hall.py:FHLabelBinarizer")
add("C89", "Fitting a regression quantifier does not change the answers of another one",
    "Once a REGX/REGy object is fitted, its answers do not change when another object is fitted, even if both were given the same regression_estimator.",
    "every history of fits over objects that share a regressor", "History property across objects; aliasing.", q+"multiclass/regression.py:REG.fit_regressor", q+"multiclass/regression.py:REG.predict_bag")
add("C90", "EoQ objects built with the default arguments are independent",
    "Fitting an EoQ object does not change what another EoQ object, built with the default bag_generator, learns from its own data.",
    "every pair of objects and data sets, every order of fits", "History property across objects; aliasing of a default argument.", q+"ensembles/eoq.py:EoQ.__init__", q+"ensembles/eoq.py:EoQ.fit")
add("C91", "EoQ.fit accepts every documented option",
    "EoQ.fit returns for both values of distribution_function ('PDF', 'CDF') and every positive n_bins, for quantifiers with and without classifiers.",
    "every data set and option", EVERY, q+"ensembles/eoq.py:EoQ.fit")
add("C92", "Every member of an EoQ is trained on its own bag",
    "After fit, member i is the base quantifier trained with the examples (or the predictions) and the labels of bag i, where several predictions per example are all used with the label of their example; with an ensemble of classifiers, member i uses the predictions of classifier i.",
    "every data set, bags and predictions", EVERY, q+"ensembles/eoq.py:EoQ.fit")
add("C93", "EoQ records members' predictions against the right classes",
    "When a member was trained on a bag in which some classes are missing, its predictions are combined as prevalences of the classes it knows.",
    "every data set and bags", EVERY, q+"ensembles/eoq.py:EoQ.predict")
add("C94", "prevalence_similarity averages the members closest to the mean prediction",
    "With 'prevalence_similarity' the answer is the average of k member predictions, k being the rounded percentage of the members, such that no other member is closer (mean absolute error) to the mean of all the predictions.",
    "every number of members and classes, every sorting algorithm", "Comparison with all the members left out.", q+"ensembles/eoq.py:EoQ.predict")
add("C95", "The mean and median strategies of EoQ",
    "With 'mean' the answer is the average of the members' predictions. With 'median' it is proportional to medians of the members' predictions of each class, unless every class is given a prevalence of 0 by more than half of the members, in which case it is NaN.",
    "every number of members and classes", EVERY, q+"ensembles/eoq.py:EoQ.predict")
add("C96","Out-of-fold predictions with splitters that shuffle",
"CV_estimator predicts every training example with a model that was not trained with it, whatever the splitter passed as cv, including one that shuffles without a fixed random state.",
"every splitter, training set, classifier and repetition",
"A test with the default splitter, which is deterministic, sees out-of-fold predictions; the folds are recomputed in predict, so the property depends on every sequence of splits.",
q+"estimators/cross_validation.py: CV_estimator.fit, CV_estimator._predict_proba")
add("C97","Columns of cross-validated probabilities are classes",
"The rows of probabilities given by CV_estimator.predict_proba are distributions over all the classes of the training set, also when the training part of some fold lacks a class.",
"every data set, splitter, classifier and example",
"Missing classes in a fold need rare classes or unlucky splits; a fixed data set does not show them.",
q+"estimators/cross_validation.py: CV_estimator.predict_proba, CV_estimator._predict_proba")
add("C98","Crisp predictions of CV_estimator",
"predict of CV_estimator returns, without averaging, the first class with the largest probability for every row; with soft voting the first class whose mean probability is the largest; with hard voting the first class with most votes.",
"every array of predictions, with every tie, number of models and classes",
EVERY,
q+"estimators/cross_validation.py: CV_estimator.predict")

add("C99","FrankAndHallClassifier.predict can return every class",
"For every class there are binary posteriors for which predict of FrankAndHallClassifier returns it; in particular, when the binary models are certain that an example is of a class, predict returns that class.",
"every training set with three or more classes, every binary outputs",
"A test would need an example of the last class whose binary models are well trained; the property is about all the outputs of the binary models.",
q+"estimators/frank_and_hall.py: FrankAndHallClassifier.predict, FrankAndHallClassifier.predict_proba")
add("C100","The binary models of a Frank and Hall classifier separate the first classes from the rest",
"fit of FrankAndHallClassifier (and of its derived classes) trains, for every data set with two or more classes, one model for each class but the last, and model i learns on all the examples to tell the first i+1 classes, with label 1, from the rest, with label 0.",
"every training set, number of classes and base estimator",
EVERY,
q+"estimators/frank_and_hall.py: FrankAndHallClassifier.fit, FHLabelBinarizer.transform")

add("C101","DDAGClassifier.predict is the most probable class",
"predict of DDAGClassifier returns, for every example, the first class with the largest probability given by predict_proba; a class that is certain in all the pairwise models where it takes part gets probability 1 and is returned.",
"every training set, pairwise outputs and number of classes",
EVERY,
q+"estimators/ordinal_ddag.py: DDAGClassifier.predict, DDAGClassifier.predict_proba")
add("C102","EnsembleOfClassifiers can be fitted again",
"After every call to fit of EnsembleOfClassifiers, not only the first, the estimators are those trained with the bags and the data given in that call.",
"every sequence of calls to fit",
"A test calls fit once; the property is about the history of the object.",
q+"estimators/ensembles.py: EnsembleOfClassifiers.fit")
add("C103","The predictions of an ensemble are those of its estimators",
"predict and predict_proba of EnsembleOfClassifiers give for every example and every estimator, in order, the prediction of that estimator, with one column per class, also when the bag of an estimator has fewer classes than the training set.",
"every ensemble, bag and example",
"Bags without some class need unlucky samples; the claim is about all ensembles.",
q+"estimators/ensembles.py: EnsembleOfClassifiers.predict, EnsembleOfClassifiers.predict_proba")

add("C104","PDFOrdinaly with EMD minimises the earth mover's distance",
"With distance='EMD', after every history of fit and predict calls, the prevalences returned by PDFOrdinaly are valid and no other valid prevalences give a smaller earth mover's distance between the mixture of the class histograms of expected positions and the histogram of the bag; dropping the last bin of the cumulated histograms and the final clipping change nothing.",
"every training set with three or more classes, posteriors, number of bins, bag and history of calls; the solver is exact",
EVERY,
q+"ordinal/pdf.py: PDFOrdinaly.fit, PDFOrdinaly.predict", q+"optimization.py: solve_l1")
add("C105","PDFOrdinaly answers for every documented distance",
"For the documented distances ('HD', 'L1', 'L2' or a function) PDFOrdinaly returns valid prevalences, and no other valid prevalences are closer, in that distance, between the mixture of the class histograms and the histogram of the bag. It is restricted to three or more classes and rejects unknown methods.",
"every training set, posteriors, number of bins, bag and history of calls; the solvers are exact",
EVERY,
q+"ordinal/pdf.py: PDFOrdinaly.fit, PDFOrdinaly.predict", q+"optimization.py: solve_hd, solve_l2, compute_l2_param_train")
add("C106","OrdinalQuantificationTree returns the mean of the tree's probabilities",
"A new OrdinalQuantificationTree is fitted without error on every training set with three or more classes, and for every nonempty bag predict returns valid prevalences: for each class the mean over the bag of the probability of its leaf, the product of the probabilities of the branches on its path in a binary tree over the class boundaries. Predictions given by the caller (predictions_test) are averaged as they are.",
"every training set with three or more classes, base estimator that gives two-column probabilities, performance measure and bag",
EVERY,
q+"ordinal/trees.py: OrdinalQuantificationTree", q+"estimators/frank_and_hall.py: FrankAndHallTreeClassifier", q+"baselines/cc.py: PCC.predict", q+"base.py: UsingClassifiers.fit")
add("C107","OrdinalQuantificationTree can be fitted again",
"Calling fit again, or after an exception interrupted an earlier fit, gives the quantifier of the new training set, as if the object were new.",
"every pair of training sets, and every point at which an earlier fit stopped",
EVERY,
q+"ordinal/trees.py: OrdinalQuantificationTree", q+"base.py: UsingClassifiers.fit", q+"estimators/frank_and_hall.py: FrankAndHallTreeClassifier")
add("C108","QUANTy with one quantile is the adjusted probabilistic count",
"With n_quantiles=1 and the L2 loss, after every history of fit and predict calls, QUANTy's positive prevalence differs by at most twice the search tolerance from the adjusted probabilistic count of the bag, (bag mean - mean of the negatives) / (mean of the positives - mean of the negatives), clipped to [0, 1].",
"every training set with two classes of different mean posterior, every posterior, bag, tolerance and history of calls",
EVERY,
q+"binary/quantiles.py: QUANTy.fit, QUANTy.predict", q+"search.py: compute_quantiles, global_search")
add("C109","QUANTy returns valid prevalences and ignores the order of examples",
"QUANTy rejects training sets with more than two classes; on two classes, with the L2 loss, it returns valid prevalences or raises ValueError, the latter only when both ends of the interval have the same loss; an empty bag raises ValueError; for every loss the answer does not depend on the order of the examples of the bag, nor, when the training scores are distinct, on the order of the training examples.",
"every training set, posteriors, number of quantiles, loss, bag, permutation and history of calls",
EVERY,
q+"binary/quantiles.py: QUANTy.fit, QUANTy.predict", q+"search.py: compute_quantiles, global_search")

add("C110","The metrics compute the published formulas",
"On prevalence vectors l1, mean_absolute_error and bray_curtis are multiples of the total variation distance, l2 and mean_squared_error come from the Euclidean distance and hd from the Bhattacharyya coefficient; topsoe, jensenshannon, probsymmetric and kld are the divergences of those names up to an error bounded by the smoothing constant; the binary metrics are their textbook formulas, and on two classes the multiclass metrics agree with the binary ones and emd with the absolute error.",
"every pair of prevalence vectors of every length and every positive smoothing constant",
EVERY,
q+"metrics/multiclass.py: l1, l2, mean_absolute_error, mean_squared_error, kld, hd, bray_curtis, topsoe, jensenshannon, probsymmetric", q+"metrics/binary.py: bias, absolute_error, squared_error, relative_absolute_error, symmetric_absolute_percentage_error, normalized_absolute_score, normalized_squared_score", q+"metrics/ordinal.py: emd")
add("C111","normalize standardises with training statistics only",
"After normalize every training feature has mean 0 and variance 1, or is 0 throughout because it was constant; training and testing examples go through the same increasing affine map of each feature, which depends on the training set alone.",
"every non-empty training set, every testing set, every number of features",
EVERY,
q+"data_utils.py: normalize")
add("C112","plot_line_prevalences draws every experiment once and to scale",
"One line per row of the matrix at heights 1, 2, ...; in a line the classes are consecutive segments, each 100 times its prevalence long, so that a valid prevalence vector fills exactly the range from 0 to 100; whatever the order asked for, every row is drawn exactly once.",
"every prevalence matrix with at least one class, every order",
EVERY,
q+"plot/qlplot.py: plot_line_prevalences")
add("C113","plot_line_prevalences sorts the lines by the first class",
"With order 'ascending' the lines go up, and with 'descending' down, in the prevalence of the first class.",
"every prevalence matrix with at least one class",
EVERY,
q+"plot/qlplot.py: plot_line_prevalences, _sort_rows_bycolumns")

add("C114","Quantifiers that share estimators do not influence each other",
"In a program that makes any sequence of fit and predict calls on any objects of the classes based on classifiers, which may share estimators and are all fitted on the same training set, the calls on one object give back what they give back when the program makes only these calls.",
"every program, every number of objects, every interleaving, every estimator for which predict after fit does not raise NotFittedError, every initial state of the estimators",
"The number of objects, the interleavings and the sharing of estimators are unbounded.",
q+"base.py: UsingClassifiers.fit, UsingClassifiers.predict")
add("C115","From a classifier to valid prevalences",
"fit on a non-empty training set followed by predict on a non-empty bag, with estimators that predict labels of the training set and valid probabilities, returns a valid prevalence vector with one entry per class for CC, PCC, AC, PAC, ACOrdinal, EM, DFy, FriedmanME, PDFOrdinaly, DeBias, EDy, CvMy and SORDy (AC and PAC with three or more classes: when the matrix of rates is invertible or the solver returns prevalences; DeBias: unless all the training posteriors equal the prevalence).",
"every training set, bag, number of classes allowed by the method, proper classifier, fitted or not, shared or not, and exact solver",
"Training sets, bags and classifiers are unbounded.",
q+"base.py: UsingClassifiers", q+"baselines/cc.py: CC, PCC", q+"baselines/ac.py: AC, PAC", q+"ordinal/ac_ordinal.py: ACOrdinal", q+"multiclass/em.py: EM", q+"multiclass/df.py: DFy", q+"multiclass/friedman.py: FriedmanME", q+"ordinal/pdf.py: PDFOrdinaly", q+"binary/debias.py: DeBias", q+"multiclass/energy.py: EDy, CvMy", q+"binary/emd.py: SORDy")
add("C116","A fit that raises leaves the quantifier as it was",
"After a fit that returned, a second fit that raises an exception trains no estimator and leaves every later answer of predict as it was before.",
"every quantifier based on classifiers, every pair of fits of which the second raises, every bag",
"Training sets, bags and states are unbounded.",
q+"base.py: UsingClassifiers.fit", q+"baselines/ac.py: AC.predict")
add("C117","Methods for a given number of classes reject the rest",
"fit of SORDy and QUANTy raises TypeError exactly when the training set has more than two classes, fit of PDFOrdinaly raises TypeError exactly when it has at most two, and fit of DeBias raises AttributeError exactly when it does not have two; otherwise fit returns. DeBias rejects before anything is changed.",
"every state of the object, every training set with a row of probabilities for each example",
EVERY,
q+"binary/emd.py: SORDy.fit", q+"binary/quantiles.py: QUANTy.fit", q+"ordinal/pdf.py: PDFOrdinaly.fit", q+"binary/debias.py: DeBias.fit")
add("C118","An error of the distance ends the search",
"golden_section_search raises the exception of the distance whenever the distance raises at a point where the search evaluates it; otherwise it returns what it returns for the same distance without errors.",
"every distance that returns or raises at each point, every interval and tolerance",
"Distances and the points where they fail are unbounded.",
q+"search.py: golden_section_search")
add("C119","Regression quantifiers learn the prevalence of each class",
"After fit of REGX or REGy with a new generator of bags, predict asks, for each class, the user's regressor (or a GLM) trained with one example per bag: the descriptor of the bag and the frequency of this class in the bag. With two classes there is one regressor, trained with the frequencies of the second class. The answers, brought to the interval from 0 to 1 and divided by their sum, are the prevalences of the classes in order.",
"every training set, generator state, regressor and testing bag for which no regressor answers NaN and some answer is positive",
"Training sets, bags and regressors are unbounded.",
q+"multiclass/regression.py: REG.fit_regressor, REG.predict_bag, REG.create_training_set_of_distributions")
add("C120","EoQ trains its estimators once, on the right data",
"After fit of an EoQ of quantifiers that use classifiers, the method fit of each estimator that is needed (that of the testing bags, and that of the training set unless its predictions are given) has been called once, with all the training examples, and also with the bags if it is an EnsembleOfClassifiers, or not at all if the estimator could already predict. One object passed for both is trained once. No other estimator is touched. Without predictions and without the estimator, fit raises ValueError and trains nothing. predict uses the predictions that it is given, whatever the estimators; otherwise those of the estimator for the testing bags, and it raises ValueError without one.",
"every configuration, state of the estimators and generators, training set and bags for which fit returns",
"Estimators, training sets and bags are unbounded.",
q+"ensembles/eoq.py: EoQ.fit", q+"estimators/ensembles.py: EnsembleOfClassifiers.fit")
add("C121","Each member of EoQ uses the classifier of its own bag",
"With probabilistic quantifiers and an EnsembleOfClassifiers, fit trains member i with bag i of the current training set and the probabilities given by a classifier trained with that bag; predict asks member i with the probabilities that this classifier gives to the testing examples.",
"every base quantifier, classifier, training set and bags for which fit returns, every testing bag",
"Classifiers, quantifiers and bags are unbounded.",
q+"ensembles/eoq.py: EoQ.fit, EoQ.predict", q+"estimators/ensembles.py: EnsembleOfClassifiers")
add("C122","Members of EoQ count the labels of their classifiers",
"With crisp quantifiers as CC and an EnsembleOfClassifiers, fit returns and member i estimates from the labels that classifier i gives; when all the classifiers give the same labels, the answer is the share of each label.",
"every classifier, training set and bags with all the classes, every testing bag",
"Classifiers and bags are unbounded.",
q+"ensembles/eoq.py: EoQ.fit, EoQ.predict", q+"estimators/ensembles.py: EnsembleOfClassifiers.predict", q+"base.py: UsingClassifiers.__probs2crisps", q+"baselines/cc.py: CC.predict")
add("C123","An estimator raises NotFittedError until it is trained, and not afterwards",
"predict and predict_proba of the Frank and Hall classifiers, of CV_estimator and of EnsembleOfClassifiers raise NotFittedError as long as no call to fit has returned, whatever calls failed before, and no longer once one has returned; so a quantifier, which trains its estimators when they raise NotFittedError, can always be fitted again after a failure.",
"every base estimator, every sequence of calls to fit, with any of them failing at any point",
"The sequences of calls and the points where they fail are unbounded.",
q+"estimators/frank_and_hall.py: FrankAndHallClassifier.fit, FrankAndHallClassifier.predict, FrankAndHallTreeClassifier.predict_proba", q+"estimators/cross_validation.py: CV_estimator.fit, CV_estimator.predict", q+"estimators/ensembles.py: EnsembleOfClassifiers.fit", q+"base.py: UsingClassifiers.fit")
add("C124","A training of an estimator that fails leaves no trace",
"A call to fit of an estimator of the library that raises does not change what predict answers, and a call that returns makes the estimator what it would make of a new one, whatever calls failed before.",
"every base estimator, every sequence of calls to fit, with any of them failing at any point, every testing set",
"The sequences of calls and the points where they fail are unbounded.",
q+"estimators/frank_and_hall.py: FrankAndHallClassifier.fit", q+"estimators/cross_validation.py: CV_estimator.fit", q+"estimators/ensembles.py: EnsembleOfClassifiers.fit")
add("C125","equal_count bins exist for every number of bins",
"compute_bincuts with bin_strategy='equal_count' returns, for every nonempty sample and every positive n_bins, n_bins + 1 cut points that go from -infinity to infinity without decreasing; so fit of DFX and DFy with this strategy returns for every number of bins.",
"every nonempty sample, every positive number of bins",
"Samples and numbers of bins are unbounded; the failure depends on how they compare.",
q+"multiclass/df.py: compute_bincuts, DFX.fit, DFy.fit")
add("C126","A bag counts only through the distribution of its predictions",
"predict gives the same answer to two nonempty bags in which every prediction (or every example, if the classifier predicts each one by itself) has the same relative frequency: neither the order of the examples nor repeating the whole bag matters.",
"every quantifier of the library that answers from predictions or distances, every fitted state, every pair of bags with the same relative frequencies",
"Bags are unbounded.",
q+"baselines/cc.py", q+"baselines/ac.py", q+"multiclass/em.py: EM.predict", q+"multiclass/df.py: DFy.predict, DFX.predict", q+"multiclass/friedman.py", q+"multiclass/energy.py: CvMy.predict, EDy.predict, EDX.predict", q+"multiclass/knn.py: PWKQuantifier.predict", q+"binary/debias.py", q+"binary/emd.py: SORDy.predict", q+"binary/quantiles.py: QUANTy.predict", q+"ordinal/ac_ordinal.py", q+"ordinal/pdf.py", q+"multiclass/regression.py: REGX.predict, REGy.predict", q+"ensembles/eoq.py: EoQ.predict")
add("C127","An object remembers only its last fit",
"After a call of fit that returns, the answers of a quantifier are those of a new object on which only that call has been made, whatever calls of fit and predict (successful or not) came before and whatever predictions were made in between.",
"every class of quantifiers that use classifiers, every history of calls of fit and predict on the object and every use of its estimators by others",
"It ranges over all histories; tests create a new object for each training set.",
q+"base.py:UsingClassifiers.fit", q+"baselines/cc.py:CC", q+"baselines/ac.py:AC", q+"multiclass/df.py:DFy", q+"multiclass/em.py:EM", q+"multiclass/energy.py:EDy", q+"binary/quantiles.py:QUANTy")
add("C128","Exact prevalences under prior probability shift",
"If a testing bag differs from the training set only in the class prevalences (within each class of the bag, what the quantifier sees of the examples has the frequencies it has in the training set), then AC, PAC, EDy, CvMy, EDX, DFy/HDy/MMy, DFX/HDX/MMX, FriedmanME, ACOrdinal and PDFOrdinaly answer exactly the prevalences of the bag, SORDy answers them within half of its tolerance, and DFy, DFX and FriedmanME with two classes and any norm of the difference given as distance answer them within twice their tolerance, whenever the training representations of the classes can be told apart (non-degenerate confusion matrix; separated classes; different mixtures for different prevalences; for 'HD' also equal totals, as densities have; for 'L2' independent columns). Classes may be missing in the bag.",
"all training sets, predictions (also those of repeated cross-validations), bags under prior shift, numbers of classes, constructor arguments, and exact solvers",
"the equality must hold for every bag of every prevalence; tests draw a few bags, whose class-conditional frequencies never match the training ones exactly, so they only see approximate answers",
q+"baselines/ac.py:AC", q+"baselines/ac.py:PAC", q+"multiclass/df.py:DFy", q+"multiclass/df.py:DFX", q+"multiclass/energy.py:EDy", q+"multiclass/energy.py:EDX", q+"multiclass/energy.py:CvMy", q+"multiclass/friedman.py:FriedmanME", q+"ordinal/ac_ordinal.py:ACOrdinal", q+"ordinal/pdf.py:PDFOrdinaly", q+"binary/emd.py:SORDy")
add("C129","A training set counts only through the distribution of its examples, labels and predictions",
"If two nonempty training sets give every pair of label and prediction (or of label and example) the same relative frequency, fit followed by predict gives the same answer, or raises the same exception, for every bag: neither the order of the training examples nor repeating the whole training set matters. With predictions given by the user this holds whatever the estimators; with estimators, when they learn only from that distribution and predict every example by itself.",
"all classes of quantifiers that use classifiers, DFX/HDX and EDX, all pairs of training sets with the same relative frequencies, all bags, all solvers and all estimators",
"Training sets are unbounded; tests train on one order of one sample.",
q+"base.py:UsingClassifiers.fit", q+"baselines/cc.py:CC", q+"baselines/ac.py:AC", q+"multiclass/em.py:EM", q+"multiclass/df.py:DFy", q+"multiclass/df.py:DFX", q+"multiclass/df.py:compute_bincuts", q+"multiclass/friedman.py:FriedmanME", q+"multiclass/energy.py:EDy", q+"multiclass/energy.py:CvMy", q+"multiclass/energy.py:EDX", q+"binary/debias.py:DeBias", q+"binary/emd.py:SORDy", q+"binary/quantiles.py:QUANTy", q+"ordinal/ac_ordinal.py:ACOrdinal", q+"ordinal/pdf.py:PDFOrdinaly")
add("C130","EM rejects bags that no prevalences explain",
"If the bag is empty, or the posterior probabilities of some example are all zero, EM.predict raises ValueError instead of returning NaN; and whenever EM stops before its iteration limit the answer is finite.",
"every training set, every bag, every tolerance and every iteration limit",
"the failure shows up only for degenerate bags and depends on which iteration the check happens in; a test sees one bag and one limit",
q+"multiclass/em.py:EM.predict", q+"metrics/multiclass.py:mean_absolute_error", q+"metrics/multiclass.py:check_prevalences")
add("C131","Metrics do not depend on whether vectors are flat, columns or rows",
"A metric of the library has the same value whether its two arguments are flat arrays, columns or rows; a flat array and a column can be mixed; a row and a flat array of two or more classes raise ValueError, and so do vectors of different lengths. The same holds of emd_score.",
"every metric, every number of classes, every pair of vectors and every layout of the two",
"a test has to choose a layout; the code turns flat arguments into columns and then loops over rows",
q+"metrics/multiclass.py:check_prevalences", q+"metrics/ordinal.py:emd", q+"metrics/ordinal.py:emd_score")
add("C132","A distance function given to a search compares the two distributions",
"A distance callable given to DFy, DFX or FriedmanME is evaluated between the mixture and the distribution of the bag as two vectors over the same bins, on the grid as well as in the golden section search.",
"every number of bins, every mixture, every bag and every distance callable",
"whether the arrays broadcast depends on their shapes and no single distance shows it: the metrics of the library reshape their arguments and hide the mismatch",
q+"search.py:global_search", q+"search.py:golden_section_search", q+"multiclass/df.py:DFy.predict", q+"multiclass/df.py:DFX.predict", q+"multiclass/friedman.py:FriedmanME.predict")
add("C133","A column of predictions means the same as a flat array",
"CC.predict gives the same answer for predictions in a column of shape (n, 1) as for the flat array of the same predictions, labels or probabilities.",
"every list of labels or probabilities and every list of classes",
"the conversion tests the number of elements of the array and of its second dimension; a test uses one size",
q+"base.py:UsingClassifiers", q+"baselines/cc.py:CC.predict")
add("C134","The answer is a flat array with one entry per class",
"CC, AC, PCC and PAC return a flat array with one entry per class.",
"every training set, every estimator, every bag, every distance",
"the squeeze at the end of predict behaves differently for exactly one class",
q+"baselines/cc.py:CC.predict", q+"baselines/cc.py:PCC.predict", q+"baselines/ac.py:AC.predict", q+"baselines/ac.py:PAC.predict")
add("C135","The error of AC and PAC is bounded by the deviation of the predictions",
"There is a constant, which depends only on the rates estimated with the training set, such that for every bag the answer of AC and PAC is a vector of prevalences whose error is at most the constant times the distance between the predictions observed on the bag and those expected for its true prevalences. The constant exists whenever the matrix of rates is invertible; with two classes it is 1/|tpr - fpr|, which must be smaller than 1000.",
"every training set with its predictions, every number of classes, every bag and every true labelling of it, drawn in any way",
"prior probability shift holds only approximately in any finite bag: tests on bags with an exact shift say nothing about how the error grows with the deviation",
q+"baselines/ac.py:AC.fit", q+"baselines/ac.py:AC.predict", q+"baselines/ac.py:PAC.fit", q+"baselines/ac.py:PAC.predict")
add("C136","More positive predictions never lower the estimated prevalence",
"In binary problems, if the share of positive predictions (AC) or the mean probability of the positives (PAC) of a second bag is at least that of the first, so is the estimated prevalence, whenever the true positive rate is at least the false positive rate. With a classifier worse than chance by more than 0.001 the order is reversed.",
"every binary training set with its predictions and every pair of bags",
"monotonicity relates all pairs of bags; the clipping and the threshold of 0.001 have to respect it",
q+"baselines/ac.py:AC.predict", q+"baselines/ac.py:PAC.predict")
add("C137","The error of matching methods is bounded by the quality of the match",
"There is a constant, which depends only on the representations of the classes, such that for every bag and all prevalences p the answer of DFy, FriedmanME, DFX and ACOrdinal is a vector of prevalences whose distance to p is at most twice the constant times the distance ('L1', 'L2' or 'HD') between the representation of the bag and the mixture of the classes with prevalences p. The constant exists whenever different prevalences give different mixtures. The same holds of EDy and EDX, with the average distances from the classes to the bag and to the mixture, whenever the classes are separated. With two classes and any norm of the difference given as the distance of DFy, DFX or FriedmanME, the error of each prevalence is at most twice the distance between the bag and the mixture with prevalences p, divided by the distance between the classes, plus twice the tolerance of the search or 0.02, or a ValueError is raised, which happens only if every mixture is farther from the bag than 48% of the distance between the classes.",
"every training set, every number of classes and bins, the three named distances and every norm, every bag and all prevalences p",
"the bound compares the answer with all other prevalences and ranges over all bags, including those that are not mixtures of the training classes",
q+"multiclass/df.py:DFy.predict", q+"multiclass/df.py:DFX.predict", q+"multiclass/friedman.py:FriedmanME.predict", q+"ordinal/ac_ordinal.py:ACOrdinal.predict", q+"multiclass/energy.py:EDy.predict", q+"multiclass/energy.py:EDX.predict")
add("C138","Renaming the classes in any way moves the prevalences with them",
"If the classes are renamed by any injective function, in the labels, the predictions and the columns of the probabilities, which the library orders by class, then the prevalence that each class gets is the same. It holds of CC, PCC, EM, AC and PAC (two classes or an invertible matrix), DeBias, FriedmanME with 'L2', EDy, CvMy, EDX (separated classes), DFX and DFy.",
"every injective renaming, increasing or not, every number of classes, every training set and bag",
"a test uses a few labels; a method that treats the first or the last class in a special way only shows it when the order changes",
q+"baselines/cc.py:CC", q+"baselines/cc.py:PCC", q+"baselines/ac.py:AC", q+"baselines/ac.py:PAC", q+"multiclass/em.py:EM", q+"binary/debias.py:DeBias", q+"multiclass/friedman.py:FriedmanME", q+"multiclass/df.py:DFy", q+"multiclass/df.py:DFX", q+"multiclass/energy.py:EDy", q+"multiclass/energy.py:CvMy", q+"multiclass/energy.py:EDX")
add("C139","load_data returns the examples of the file",
"load_data returns the features and the integer class of every line of the file, in order: the last column is the class and the others are the features. Files whose lines have different numbers of fields raise ValueError.",
"every file of comma-separated numbers: any number of examples and of features",
EVERY,
q+"data_utils.py:load_data")
add("C140","Uniform bags: which prevalences are possible and how likely",
"With method 'uniform' and no minimum prevalence, all the vectors of numbers of examples per class that add up to the size of the bag are possible and equally likely.",
"every number of classes, every size of bag, every vector of numbers of examples, every random generator",
"a claim about all the draws of the random generator: a test sees a sample of them and the difference in probability is in the rare vectors with empty classes",
q+"bag_generator.py:PriorShift_BagGenerator.generate_bags")
add("C141","Writing into an array after a call does not change later answers",
"If a program writes other values into the arrays that it gave to fit (labels, predictions of the training examples), or into the arrays that generate_bags returned, later calls answer as if it had not.",
"every class of the hierarchy, every training set, every overwriting of the arrays, every later bag",
"histories of writes by the caller between two calls are not part of any test of a single call",
q+"base.py:UsingClassifiers.fit", q+"multiclass/energy.py:CvMy.predict", q+"bag_generator.py:PriorShift_BagGenerator.generate_bags")
add("C142","The error of an average of predictions is at most the average of their errors",
"For every list of predictions, the error of the vector of mean prevalences is at most the mean of the errors of the predictions (at least, for scores). It holds of every error measure of the library, and so an ensemble that takes the mean of its members is not worse than its members are on average.",
"all true prevalences, every number of predictions and of classes, every smoothing constant, every ensemble",
"it compares a metric at infinitely many points; a metric that is not convex violates it only for some lists of predictions",
q+"metrics/multiclass.py", q+"metrics/binary.py", q+"metrics/ordinal.py:emd", q+"ensembles/eoq.py:EoQ.predict")
add("C143","With more and more test examples the answers approach the prevalences",
"Let the test examples be a stream of independent random examples that all have the same distribution, which differs from that of the training set in the prevalences of the classes only. With probability one, the answers of AC, PAC, ACOrdinal, FriedmanME, DFy (HDy, MMy), DFX (HDX, MMX), EDy and EDX to the bags of the first 1, 2, 3, ... examples are vectors of prevalences that converge to the prevalences of the stream, whenever the method can tell the classes apart (matrix of rates that is not degenerate, different mixtures for different prevalences, separated classes). The answers of CC and PCC converge to the expected predictions instead, so that in general more examples do not correct them.",
"all training sets and predictions, all prevalences, all pairwise independent streams on any probability space, almost all outcomes of the stream",
"a limit over infinitely many bag sizes that holds with probability one; a test sees finitely many bags of one outcome",
q+"baselines/ac.py:AC.predict", q+"baselines/ac.py:PAC.predict", q+"multiclass/df.py:DFy.predict", q+"multiclass/df.py:DFX.predict", q+"multiclass/friedman.py:FriedmanME.predict", q+"multiclass/energy.py:EDy.predict", q+"multiclass/energy.py:EDX.predict", q+"ordinal/ac_ordinal.py:ACOrdinal.predict", q+"baselines/cc.py:CC.predict", q+"baselines/cc.py:PCC.predict")
add("C144","One example changes the answer by at most a constant divided by the size of the bag",
"If one example of a bag of n examples is replaced by another, the answer changes by at most a number divided by n that depends only on the training set (and, for the energy methods, on the distance between the two examples): 2/n for CC and PCC; 4 K / n for AC and PAC, where K says how well the misclassification rates tell prevalences apart; K times the number of classes, divided by n, for FriedmanME with 'L2'; K times the size of the representation, divided by n, for DFy and DFX with 'L2'; K times the number of classes times the distance between the examples, divided by n, for EDy and EDX; the change in the posterior over the relative variance, divided by n, for DeBias.",
"every training set on which the method is defined, every size of bag, every position and every pair of examples",
"a bound that decreases with the size of the bag, for all replacements of an example, is not visible in the answers to any finite number of bags",
q+"baselines/ac.py:AC.predict", q+"baselines/ac.py:PAC.predict", q+"baselines/cc.py:CC.predict", q+"baselines/cc.py:PCC.predict", q+"multiclass/energy.py:EDy.predict", q+"multiclass/df.py:DFy.predict", q+"multiclass/friedman.py:FriedmanME.predict", q+"binary/debias.py:DeBias.predict")
add("C145","Answers are valid up to the rounding of floating-point arithmetic",
"In an arithmetic whose operations have relative error at most u and that adds arrays in any order, the answers of CC, PCC, AC, PAC, OneVsRestQuantifier, EM and DeBias are nonnegative and add up to 1 within explicit bounds that depend only on u and on the numbers of classes and examples, not on the data nor on the number of iterations. FrankAndHallQuantifier: the prevalences of all classes but the last are nonnegative, and the last one is not negative by more than the rounding errors.",
"every arithmetic with relative error below 1 (including IEEE doubles with NumPy's pairwise summation, without overflow or underflow), every list of predictions, rates, training labels, tolerance and number of iterations",
"a test runs on one machine arithmetic and on a few numbers, and whether a sum of rounded numbers exceeds 1 depends on the last bits",
q+"baselines/cc.py:CC.predict", q+"baselines/cc.py:PCC.predict", q+"baselines/ac.py:AC.predict", q+"baselines/ac.py:PAC.predict", q+"decomposition/multiclass.py:OneVsRestQuantifier.predict", q+"decomposition/ordinal.py:FrankAndHallQuantifier.predict", q+"multiclass/em.py:EM.predict", q+"binary/debias.py:DeBias.predict")
add("C146","Answers in floating-point arithmetic tend to the exact ones as the precision grows",
"For arithmetics whose relative error tends to 0, the answers of CC, PCC, AC, PAC, OneVsRestQuantifier, FrankAndHallQuantifier, EM and DeBias computed with rounding tend to the answers of the exact models, provided that no decision of the program is taken on its very edge: |tpr - fpr| = 0.001 for AC and PAC, a change equal to the tolerance for EM.",
"every sequence of arithmetics with relative error tending to 0, every order of the additions, all predictions, rates and training labels",
"it is a statement about a limit over all arithmetics; it also says that the exact models describe the program",
q+"baselines/cc.py:CC.predict", q+"baselines/cc.py:PCC.predict", q+"baselines/ac.py:AC.fit", q+"baselines/ac.py:AC.predict", q+"baselines/ac.py:PAC.fit", q+"baselines/ac.py:PAC.predict", q+"decomposition/multiclass.py:OneVsRestQuantifier.predict", q+"decomposition/ordinal.py:FrankAndHallQuantifier.predict", q+"multiclass/em.py:EM.predict", q+"binary/debias.py:DeBias.fit", q+"binary/debias.py:DeBias.predict")
add("C147","Error measures in floating-point arithmetic",
"In floating-point arithmetic the error measures keep their meaning. l1, l2, mean_absolute_error, mean_squared_error, bray_curtis and probsymmetric return the exact value except for a relative error of a known number of roundings, are never negative, and are zero exactly when the prediction equals the true prevalences; the same holds of emd, apart from the relative error. Measures that do not depend on the order of the two vectors return exactly the same number when they are swapped. topsoe is 0 and emd_score is 1 for a perfect prediction. All the measures tend to their exact values as the rounding errors get smaller. hd, topsoe, jensenshannon and emd_score should also be non-negative, and hd zero only for equal vectors: this fails on doubles.",
"every arithmetic with a bounded relative error (doubles among them), every computed logarithm with a bounded relative error, every order of the additions, every number of classes and every two vectors",
"Rounding errors depend on every bit of the inputs; tests compare with tolerances and on a few vectors, so they never see the inputs for which a divergence comes out negative.",
q+"metrics/multiclass.py:l1", q+"metrics/multiclass.py:l2", q+"metrics/multiclass.py:mean_absolute_error", q+"metrics/multiclass.py:mean_squared_error", q+"metrics/multiclass.py:hd", q+"metrics/multiclass.py:bray_curtis", q+"metrics/multiclass.py:probsymmetric", q+"metrics/multiclass.py:topsoe", q+"metrics/multiclass.py:jensenshannon", q+"metrics/multiclass.py:kld", q+"metrics/ordinal.py:emd", q+"metrics/ordinal.py:emd_score")
add("C148","Predictions that are not numbers are not hidden",
"When the classifier returns NaN for an example (of the bag or of the training set), the quantifier raises an exception or its answer has a NaN in it; it does not answer with ordinary-looking prevalences. True of PCC, EM (with at least one iteration), DeBias, one-versus-rest and Frank-and-Hall decompositions, QUANTy with the metrics of the library as distance, and PAC with three or more classes and an invertible matrix or with NaN in the positive column of the bag. False of PAC with two classes and NaN in the training set (it answers as PCC), CC (a vote for the first class), SORDy (the same answer for all data: almost all examples positive), DFy (the example is left out of the histogram but counted), FriedmanME (taken for zero) and QUANTy with distances that let NaN through (the same answer between 0.98 and 1 for all data).",
"all bags and training sets with predictions that may be NaN or infinite, all numbers of classes, tolerances, solvers and sort orders",
"NaN comes from rare failures of the classifier; tests with a NaN in one place say nothing about other places, sizes and methods",
q+"baselines/cc.py:PCC.predict", q+"baselines/cc.py:CC.predict", q+"baselines/ac.py:PAC.fit", q+"baselines/ac.py:PAC.predict", q+"multiclass/em.py:EM.predict", q+"binary/debias.py:DeBias.predict", q+"binary/emd.py:SORDy.predict", q+"search.py:golden_section_search", q+"multiclass/df.py:DFy.predict", q+"multiclass/friedman.py:FriedmanME.predict", q+"decomposition/multiclass.py:OneVsRestQuantifier.predict", q+"decomposition/ordinal.py:FrankAndHallQuantifier.predict")
add("C149","The answers do not depend on the units of the features",
"Let the training set and the bags be given in other units: every feature is multiplied by a positive factor and shifted. DFX and HDX then give the same answers for every sequence of bags (or the same failures), whatever the distance, the distribution function and the solvers, when the features vary in the training set ('equal_width', 'normal') or within a class ('binormal'), and always with 'equal_count'. With features that do not vary and all the strategies but 'binormal', the prevalences closest to a bag are the same. EDX gives the same answer when all the features change by the same factor. Two exceptions: with 'binormal' and a feature that does not vary within the classes, moving the origin of the feature can turn 'all of one class' into 'all of the other'; and EDX gives other answers when the features change by different factors.",
"all training sets, sequences of bags, numbers of features, factors and shifts, bins, strategies, distances, and solvers",
"a test tries one change of units on one data set; that the bins move with the values must hold for every data set, factor and shift",
q+"multiclass/df.py:DFX.fit", q+"multiclass/df.py:DFX.predict", q+"multiclass/df.py:compute_bincuts", q+"multiclass/energy.py:EDX")
add("C150","Settings can be read, changed and copied as in scikit-learn",
"get_params returns the arguments given to the constructor, whatever calls of fit and predict came before; set_params leaves an object like one constructed with the changed arguments and rejects unknown names with ValueError; sklearn.base.clone gives a new object constructed with copies of the arguments.",
"every class of quantifier and estimator of the library, all the values of the arguments, all the attributes that the methods may have assigned, all the lists of changes, every way of copying the values",
"The tests never call get_params, set_params or clone; the claim is about every class, all the arguments and all the histories of calls.",
q+"base.py:WithoutClassifiers", q+"base.py:UsingClassifiers", q+"multiclass/em.py:EM", q+"multiclass/energy.py:EDX", q+"estimators/weighted_knn.py:PWK", q+"multiclass/knn.py:PWKQuantifier", q+"ordinal/trees.py:OrdinalQuantificationTree", q+"estimators/cross_validation.py:CV_estimator")
add("C151","Neither the order of the features nor constant features change the answer",
"For DFX, HDX and EDX, giving the columns of the training set and of the bag in another order, or leaving out columns that have the same value in all the training examples, does not change which prevalences are the closest to the bag, whatever the values of those columns in the bag.",
"all training sets, bags, numbers of features, orders of the columns and sets of constant columns; all the binning strategies, distribution functions and named distances of DFX; EDX with Manhattan and Euclidean distances",
"There are infinitely many data sets and arrangements of the columns; the effect of a constant column depends on its values in the bag, which a test fixes.",
q+"multiclass/df.py:DFX", q+"multiclass/df.py:HDX", q+"multiclass/df.py:compute_bincuts", q+"multiclass/energy.py:EDX")
add("C152","EM reaches the maximum likelihood, at a known rate",
"Fitted on any labels and given any nonempty bag of valid posterior rows, EM's answer after T iterations explains the bag nearly as well as any prevalences: the mean log-likelihood of an example is at most log(1/m)/(T+1) below that of any other prevalence vector, where m is the smallest training prevalence (so at most log(n)/(T+1) for n training examples). With a small enough epsilon and enough iterations allowed, the answer is as near as wanted to prevalences of maximum likelihood, so the method does not get trapped in worse points nor oscillate. For every positive epsilon the number of iterations is bounded whatever max_iter is.",
"all nonempty label lists (any number of classes), all nonempty bags of posterior rows that are distributions (zeros allowed), all epsilon and max_iter, all competing prevalence vectors",
"A test compares one answer with one known value; convergence and its rate are statements about the limit of the iterations for every bag.",
q+"multiclass/em.py:EM.predict")
add("C153","A bag without predictions gets no prevalences",
"predict with an empty array of predictions for the bag raises an exception or answers NaN for the classes; it never returns numbers that look like prevalences.",
"every fitted object, every training set, every distance",
"An empty bag is what a filter leaves now and then; a test tries one method, and whether NaN gets through depends on every comparison in the code after it.",
q+"baselines/cc.py:CC.predict", q+"baselines/cc.py:PCC.predict", q+"baselines/ac.py:AC.predict", q+"baselines/ac.py:PAC.predict", q+"binary/debias.py:DeBias.predict", q+"multiclass/em.py:EM.predict", q+"binary/quantiles.py:QUANTy.predict", q+"multiclass/df.py:DFy.predict", q+"binary/emd.py:SORDy.predict", q+"search.py:global_search", q+"search.py:compute_sord_weights")
add("C154","How many test examples are enough",
"Let the test examples be a stream of random examples, independent two by two, that all have the same distribution, which differs from that of the training set in the prevalences of the classes only. The answer of CC to the bag of the first n examples has exactly the expected predictions as expectation, and for each class the variance q (1 - q) / n, where q is the expected frequency of its predictions; the answer of PCC has as expectation the expected means of the probabilities, and as variances the variances of the probabilities divided by n. The probability of a total error of E or more is at most k / (n E^2) for CC and PCC (against the expected predictions) and k K^2 / (n E^2) for AC and PAC (against the prevalences), where k is the number of classes and K says how well the misclassification rates tell prevalences apart; similar bounds hold for DFy, HDy, MMy, DFX, HDX and FriedmanME with 'L1', 'L2' and 'HD', and for ACOrdinal, EDy and EDX. Consequently k K^2 / (d E^2) examples are enough for an error below E except with probability d. If the examples are all independent, the probabilities decrease exponentially in n: 2 k exp(-2 n (E / (K k))^2). The adjustment of AC is not unbiased: with two classes, its answer to a bag of one example has the same expectation as that of CC.",
"all training sets and predictions, all prevalences, all streams on any probability space, all sizes of bag n >= 1 and all errors E > 0",
"bounds on probabilities that hold for every distribution of the examples and every size of bag; a test sees finitely many bags drawn from one distribution",
q+"baselines/cc.py:CC.predict", q+"baselines/cc.py:PCC.predict", q+"baselines/ac.py:AC.predict", q+"baselines/ac.py:PAC.predict", q+"multiclass/df.py:DFy.predict", q+"multiclass/energy.py:EDy.predict", q+"multiclass/df.py:DFX.predict", q+"multiclass/friedman.py:FriedmanME.predict", q+"multiclass/energy.py:EDX.predict", q+"ordinal/ac_ordinal.py:ACOrdinal.predict")
add("C155","plot_boxes gives every system its colour",
"With a list of colours, the box of the i-th system (column of the error matrix) gets the i-th colour, edge and inside; if there are fewer colours than systems, the remaining boxes keep the colours of matplotlib, and if there are more, the rest is ignored; all the medians are black. Without colours nothing is changed.",
"every number of systems, every list of colours",
EVERY,
q+"plot/qlplot.py: plot_boxes")
add("C156","When the examples of the classes change too, the error is bounded by how much they have changed",
"Bags need not follow prior probability shift exactly. For any bag of examples of the known classes, let the drift be how much the examples of each class have changed from the training set to the bag, as the method sees them (the misclassification rates for AC, the mean probabilities for PAC, the bins of the histograms for DFy and DFX, the mean distances to the training examples of each class for EDy and EDX, whether the scores reach the prevalence for FriedmanME, the accumulated predictions for ACOrdinal), averaged over the examples of the bag. The total error of AC and PAC is at most kappa times the drift, where kappa says how well the training set tells the classes apart; the one of EDy, EDX, ACOrdinal, and of DFy, DFX and FriedmanME with 'L1' or 'L2', is at most twice kappa times the drift (times the number of bins when accumulated distributions are compared); with 'HD' the square root of the drift replaces the drift. CC and PCC have the error that they have without drift, up to the drift. Without drift, in particular under prior probability shift, the drift is 0 and the right prevalences are answered by the former methods. The bound of AC is attained.",
"training sets, predictions given for them, bags of any size of examples of the known classes with any predictions, classes missing in the bag, distances and numbers of bins; exact solvers",
EVERY,
q+"baselines/ac.py:AC.predict", q+"baselines/ac.py:PAC.predict", q+"baselines/cc.py:CC.predict", q+"baselines/cc.py:PCC.predict", q+"multiclass/df.py:DFy.predict", q+"multiclass/df.py:DFX.predict", q+"multiclass/energy.py:EDy.predict", q+"multiclass/energy.py:EDX.predict", q+"multiclass/friedman.py:FriedmanME.predict", q+"ordinal/ac_ordinal.py:ACOrdinal.predict")
add("C157","What classify and count gets wrong, and when it is right",
"For every bag, what CC answers for a class differs from the prevalence of the class in the bag by the number of false positives minus the number of false negatives of the class, over the size of the bag: mistakes cancel out, and the total error is at most twice the share of misclassified examples. Under prior probability shift CC answers the mixture, with the prevalences of the bag, of the rates with which the training examples of each class are predicted as each class (PCC: of their mean probabilities). With two classes, false positive rate fpr and false negative rate fnr, its error is fpr(1-p) - fnr p for prevalence p: it overestimates the positives when p is below fpr/(fpr+fnr), underestimates them when p is above, and is right only there. CC is right for every bag with prior probability shift if and only if no training example is misclassified.",
"training sets, predictions given for them (any number of repetitions), bags of any size, number of classes; for the second part bags with prior probability shift",
EVERY,
q+"baselines/cc.py:CC.predict", q+"baselines/cc.py:PCC.predict", q+"baselines/cc.py:CC.fit")
add("C158","The error measures agree on what a small error is",
"For prevalence vectors over n classes and eps > 0, every multiclass error measure is bounded above and below by the l1 error: sqrt 2 * l2 <= l1 <= sqrt n * l2; mean_absolute_error, bray_curtis and mean_squared_error are l1/n, l1/2 and l2^2/n; 2 l1^2/(2 + n eps) <= probsymmetric <= 2 l1; topsoe is between a quarter and a half of probsymmetric; l1/2 <= emd <= (n-1)/2 * l1. So, for a sequence of predictions, the errors of any of them (and of hd) tend to 0 exactly when the predictions tend to the true prevalences: a method that converges for one of them converges for all. When all the classes occur, hd <= sqrt(kld log 2 + n eps) + sqrt(n eps), and kld log 2 <= l1/eps.",
"prevalence vectors of any length, sequences of predictions, smoothing constants eps > 0",
EVERY,
q+"metrics/multiclass.py:l1", q+"metrics/multiclass.py:l2", q+"metrics/multiclass.py:mean_absolute_error", q+"metrics/multiclass.py:mean_squared_error", q+"metrics/multiclass.py:hd", q+"metrics/multiclass.py:bray_curtis", q+"metrics/multiclass.py:topsoe", q+"metrics/multiclass.py:probsymmetric", q+"metrics/multiclass.py:kld", q+"metrics/ordinal.py:emd")
add("C159","The error of a decomposition is bounded by the errors of its binary quantifiers",
"For every bag and all prevalences it is compared with: the total error of OneVsRestQuantifier is at most twice the sum of the errors of its binary quantifiers, and the error of one class at most the error of its own binary quantifier plus what the binary answers miss from adding up to 1. If every binary quantifier of FrankAndHallQuantifier is within d of the prevalence of its group of classes, the cumulative prevalences of the answer are within d too, so the error of a class is at most 2d, the total error at most 2(n-1)d and the earth mover's distance at most (n-1)d.",
"every base quantifier that answers nonnegative numbers (in [0,1] for Frank and Hall), every training set with three or more classes, every bag, all reference prevalences",
EVERY,
q+"decomposition/multiclass.py:OneVsRestQuantifier.predict", q+"decomposition/ordinal.py:FrankAndHallQuantifier.predict", q+"decomposition/ordinal.py:FrankAndHallQuantifier.check_and_correct_prevalences_asc")
add("C160","A decomposition of an exact binary quantifier is exact",
"OneVsRestQuantifier and FrankAndHallQuantifier with PAC as base quantifier answer the prevalences of the bag when the bag differs from the training set in the prevalences of the classes only.",
"every training set with three or more classes, all scores, every bag with the same scores within each class as the training set",
EVERY,
q+"decomposition/multiclass.py:OneVsRestQuantifier.fit", q+"decomposition/multiclass.py:OneVsRestQuantifier.predict", q+"decomposition/ordinal.py:FrankAndHallQuantifier.fit", q+"decomposition/ordinal.py:FrankAndHallQuantifier.predict", q+"baselines/ac.py:PAC.fit", q+"baselines/ac.py:PAC.predict")
add("C161","A decomposition answers for its last successful fit",
"For OneVsRestQuantifier and FrankAndHallQuantifier, with any base quantifier and any history of calls of fit, some of which raise: predict raises until a fit has returned; after a fit that returns, predict answers as a new object on which only that fit was called; a fit that raises either changes no answer or makes predict raise until the next fit that returns.",
"every base quantifier, every sequence of calls of fit with arbitrary labels and predictions, every bag",
EVERY,
q+"decomposition/multiclass.py: OneVsRestQuantifier.fit, OneVsRestQuantifier.predict", q+"decomposition/ordinal.py: FrankAndHallQuantifier.fit, FrankAndHallQuantifier.predict", q+"base.py: UsingClassifiers.fit")
add("C162","With certain posteriors the probabilistic methods answer as the methods for labels",
"Posteriors that give probability 1 to one class say the same as the label of that class. When the predictions given to fit and predict are of this kind, PCC and EM (with at least one iteration) answer exactly what CC answers when it is given the labels, and PAC what AC answers with the same distance, whatever the bag. FriedmanME and DFy (and so HDy; histograms of two or more bins of equal width) with 'HD', 'L1' or 'L2', and EDy and CvMy with their default distance, answer what AC answers, with two classes for every bag, and with more classes for every bag whose predictions some prevalences explain (AC has nothing to clip), if the confusion matrix of the training predictions can be inverted.",
"every training set, every number of classes, every list of labels predicted for the training set (any number of repetitions) and for the bag, every value of the estimators and of the threshold of EM",
EVERY,
q+"baselines/cc.py: CC, PCC", q+"baselines/ac.py: AC, PAC", q+"multiclass/em.py: EM", q+"multiclass/friedman.py: FriedmanME", q+"multiclass/df.py: DFy", q+"multiclass/energy.py: EDy, CvMy")
add("C163","With predictions that are never wrong every method answers the true prevalences",
"If the predictions on the training set are its labels and those on the bag are the true labels of its examples (for the methods that use posteriors: posteriors certain of those labels), then CC, AC, PCC, PAC, EM, DeBias, FriedmanME, DFy with histograms of equal width, EDy and CvMy with their default distances, ACOrdinal, PDFOrdinaly, and one-vs-rest and Frank and Hall over PAC answer the fraction of the bag of each class, and SORDy, and FriedmanME with two classes and any norm of the difference given as distance, the same up to their tolerance (twice the tolerance for FriedmanME), whatever the classes, their prevalences in the training set and in the bag, the loss and the number of copies of the training predictions. PDFOrdinaly needs two bins for each class: with one, a bag of the last class and a bag of the class before get the same answer.",
"all training labels, all bags with labels among them, all losses with a name, all parameters of each class",
EVERY,
q+"baselines/cc.py: CC", q+"baselines/cc.py: PCC", q+"baselines/ac.py: AC", q+"baselines/ac.py: PAC", q+"multiclass/em.py: EM", q+"multiclass/friedman.py: FriedmanME", q+"multiclass/df.py: DFy", q+"multiclass/energy.py: EDy", q+"multiclass/energy.py: CvMy", q+"binary/debias.py: DeBias", q+"ordinal/ac_ordinal.py: ACOrdinal", q+"ordinal/pdf.py: PDFOrdinaly", q+"binary/emd.py: SORDy", q+"decomposition/multiclass.py: OneVsRestQuantifier", q+"decomposition/ordinal.py: FrankAndHallQuantifier")
add("C164","The experiments of the examples report the error of each bag",
"The experiment of examples/multiclass_quantifiers.py and examples/tutorial_example.py (fit, generate_bags with a new PriorShift_BagGenerator on the testing set, then predict and mean_absolute_error for each bag with the same object) reports one number for each bag: the mean over the classes of the absolute difference between the fraction of the examples of the bag of that class and the answer that a quantifier trained on the same training set gives for that bag alone. For answers that are valid prevalences it is between 0 and 2 divided by the number of classes. It is exactly 0 for every bag for AC, PAC, PCC, EM, EDy and CvMy when the predictions are never wrong, and for CC it is at most two times the share of examples of the bag with a wrong prediction, divided by the number of classes. FriedmanME, DFy, ACOrdinal and PDFOrdinaly keep the optimisation problem of the first bag for the next ones; the number that they report for each bag is the error of prevalences that are, for the predictions of that bag, as close as possible for their distance. If the testing set has another number of classes than the training set, the experiment ends with a ValueError.",
"all training and testing sets, all bag generators that return, all random number generators, all methods that keep nothing between two calls to predict, and FriedmanME, DFy, ACOrdinal and PDFOrdinaly with the distances that have a name",
EVERY,
q+"bag_generator.py: PriorShift_BagGenerator", q+"metrics/multiclass.py: mean_absolute_error", q+"baselines/cc.py: CC", q+"baselines/ac.py: AC", q+"multiclass/em.py: EM", q+"multiclass/friedman.py: FriedmanME", q+"multiclass/df.py: DFy", q+"ordinal/ac_ordinal.py: ACOrdinal", q+"ordinal/pdf.py: PDFOrdinaly")
add("C165","With more and more training and test examples, the answers approach the prevalences",
"Let the training examples and the test examples be random streams that differ in the prevalences of the classes only, with a positive probability of each class in training. If AC, PAC, ACOrdinal or DFy (HDy and MMy are cases of it) are trained with the first n examples of the first stream and applied to the first m examples of the second stream, then with probability one the answers are numbers when n and m are large enough, and they converge to the true prevalences of the second stream when n and m grow together, in any manner. It takes that the predictions tell the classes apart: rates with an inverse for AC and PAC (and, with two classes, tpr and fpr that differ by more than 1/1000), different accumulated rates for different prevalences for ACOrdinal, different probabilities of the bins of equal width for different prevalences for DFy. For a fixed n and m, the error of AC and PAC is at most K (d + e) / (1 - K e) if K e is below 1 (and, with two classes, K / (1 - K e) below 1000), where K is the constant of the true rates, e the error of the rates estimated in training and d the error of the frequencies in the bag. CC and PCC converge to what the classifier is expected to predict, which is not the prevalences.",
"all numbers of classes, all prevalences of training and test, all distributions of the predictions of each class, all streams of pairwise independent examples, all ways in which the two sample sizes grow",
EVERY,
q+"baselines/ac.py: AC", q+"baselines/ac.py: PAC", q+"baselines/cc.py: CC", q+"baselines/cc.py: PCC", q+"ordinal/ac_ordinal.py: ACOrdinal", q+"multiclass/df.py: DFy", q+"multiclass/df.py: HDy", q+"multiclass/df.py: MMy")
add("C166","Fitted quantifiers can be asked by several threads at the same time",
"When several threads call `predict`, each one on its own fitted quantifier (of any of the classes that use classifiers), every one of them gets, however the system interleaves them, the answer that it gets when there are no other threads, also when the quantifiers share their estimators. It is false when the threads share the quantifier: `predict` leaves the predictions in an attribute and reads them from there, so, with any class, a thread can get the answer for the bag of another thread; CC, which reads them once for each class, can answer with numbers that are not prevalences of any bag (1 for both classes). On a shared quantifier the answers are right when the calls do not overlap. EDX can be shared: its `predict` assigns nothing.",
"all numbers of threads, all interleavings of their operations, all classes that use classifiers, all bags, all assignments of quantifiers to threads",
EVERY,
q+"base.py: UsingClassifiers.predict", q+"baselines/cc.py: CC.predict", q+"multiclass/energy.py: EDX.predict")
add("C167","Quantifiers can be fitted by several threads at the same time",
"When several threads call `fit` on new quantifiers of their own, with the same training set, and then `predict`, every one of them gets, however the system interleaves them, the answer that it gets when there are no other threads, although they share untrained estimators, each of which may be trained more than once. It takes that training an estimator is one operation and that training it again with the same examples gives the same. With different training sets it is false: the quantifier can learn with the estimator that its thread trained and be asked when the other thread has trained it again, which gives, for AC, an answer that no order of the calls gives. It is also false when the shared estimator is a FrankAndHallClassifier, whose training is not one operation: `fit` in another thread finds it half trained and raises TypeError or AttributeError.",
"all numbers of threads, all interleavings of their operations, all classes that use classifiers, all training sets and bags, all estimators with those contracts, all ways of sharing them",
EVERY,
q+"base.py: UsingClassifiers.fit", q+"base.py: UsingClassifiers.predict", q+"baselines/ac.py: AC", q+"estimators/frank_and_hall.py: FrankAndHallClassifier.fit")
add("C168","Bags can be generated by several threads at the same time",
"When several threads call `generate_bags`, each one on its own new CovariateShift_BagGenerator with an integer seed, every one of them gets, however the system interleaves them, the bags (or the exception) that it gets when there are no other threads. When the generators share a RandomState object, every call that returns still returns bags: positions of examples of its data set and the prevalences of those examples; but which ones depends on the interleaving. A generator whose bags have been generated before can be shared. It is false for a new generator that threads share: a thread can get, without any exception, the arrays of zeros that the other one has not filled yet; it can raise TypeError, because it takes as a seed the object that the other thread has just made; and both can end with prevalences that are not the ones of the bag, and that sum 2.",
"all numbers of threads, all interleavings of their operations, all data sets, all numbers and sizes of bags, all streams of random numbers, all assignments of generators to threads",
EVERY,
q+"bag_generator.py: CovariateShift_BagGenerator.generate_bags")
add("C169","An interrupted call does not spoil later ones",
"A call of fit or predict may be interrupted between any two of its operations (Ctrl-C, a time limit), leaving assigned what it had assigned. Whenever predict is interrupted, what the object learned is as before or as after the complete call. After any history of complete and interrupted calls, a fit that returns makes the object answer every bag as a new object fitted by the same call, and a fit that was interrupted and is repeated raises or leads to the same answers as without the interruption. An interrupted fit or generate_bags does not make a later predict, fit or generate_bags return something that no complete call would have given.",
"every class that uses a classifier, all training sets, bags, shared estimators and histories of calls, every operation at which each call is interrupted; all data for the generators of bags",
EVERY,
q+"base.py: UsingClassifiers.fit", q+"base.py: UsingClassifiers.predict", q+"bag_generator.py: CovariateShift_BagGenerator.generate_bags", q+"estimators/frank_and_hall.py: FrankAndHallClassifier.fit", q+"multiclass/df.py: DFy", q+"optimization.py: solve_hd")
add("C170","Taking several classes as one",
"If some classes are given one common label in the training labels and in the predictions, CC gives the merged class the sum of the prevalences it gave to its parts, and so does PCC when the probability of the merged class is the sum of the probabilities of its parts. An estimate judged by l1, bray_curtis or hd on the merged classes is not worse than before, and by emd when the merged classes are next to each other. Every quantifier would behave as CC and PCC do.",
"all training labels, all predictions among their classes, all maps of the classes to other classes, all prevalence vectors; for emd all monotone maps onto the remaining classes",
EVERY,
q+"baselines/cc.py: CC, PCC", q+"baselines/ac.py: AC", q+"metrics/multiclass.py: l1, l2, hd, bray_curtis, mean_absolute_error, mean_squared_error", q+"metrics/ordinal.py: emd")
add("C171","One training example changes the answer little",
"If one example of the training set is replaced by another one of the same class, whose predictions are different, the answer of AC and PAC for a bag changes by at most 4 K (1 + 2 K) / (N - 2 K), where K is the constant that says how well the training rates tell prevalences apart and N the number of predictions of the smallest class, if N is larger than 2 K (and, with two classes, K N / (N - 2 K) is below 1000). The answer of FriedmanME and DFy (bins of equal width) with 'L2' changes by at most K B (1 + K B) / N, where K says how well mixtures of the training distributions tell prevalences apart and B bounds how far two distributions can be: the number of classes for FriedmanME, twice the number of descriptors for DFy, times the number of bins of all descriptors together if the distributions are cumulated. The answer of EDy and EDX, with a distance d for which the triangle inequality holds, changes by at most 3 K d / N, where K says how well the distances between examples tell prevalences apart and d is the distance between the two examples. The training predictions do not change the answers of CC, PCC and EM at all.",
"every training set, every number of classes, every position, every pair of predictions, every bag that is not empty",
EVERY,
q+"baselines/ac.py: AC, PAC", q+"baselines/cc.py: CC, PCC", q+"multiclass/em.py: EM", q+"multiclass/friedman.py: FriedmanME", q+"multiclass/df.py: DFy", q+"multiclass/energy.py: EDX, EDy", q+"base.py: UsingClassifiers")
add("C172","Predictions that say nothing about the class are not turned into an estimate",
"When the training predictions of every class have the same distribution, so that nothing can be learnt from them about the class, a method does not present a made-up number as an estimate: with two classes AC and PAC answer what CC and PCC answer, and DFy and FriedmanME with a distance function raise ValueError. A method that answers with prevalences that do not depend on the bag at all (always the uniform distribution, always the last class) violates this.",
"every training set whose predictions have the same distribution in each class, every bag",
EVERY,
q+"baselines/ac.py: AC, PAC", q+"search.py: global_search, golden_section_search", q+"multiclass/df.py: DFy", q+"multiclass/friedman.py: FriedmanME", q+"binary/emd.py: SORDy", q+"multiclass/energy.py: EDy", q+"optimization.py: nearest_pd, solve_l2, solve_ed")
add("C173","The answer for two bags put together lies between the answers for each of them",
"With two classes, the prevalence of each class that CC, PCC, AC, PAC, DeBias, FriedmanME, DFy and DFX with 'L2', EDy and EDX give for two bags put together is not below the smaller nor above the larger of those they give for the two bags. CC and PCC have the property with any number of classes. With three or more classes AC does not have it: it may give a class a quarter of each bag and half of the two together.",
"every training set with two classes, its predictions, and every pair of bags that are not empty",
EVERY,
q+"baselines/cc.py: CC, PCC", q+"baselines/ac.py: AC, PAC", q+"binary/debias.py: DeBias", q+"multiclass/friedman.py: FriedmanME", q+"multiclass/df.py: DFy, DFX", q+"multiclass/energy.py: EDX, EDy", q+"base.py: UsingClassifiers")
add("C174","Bags with prior probability shift can be generated by several threads at the same time",
"When several threads call `generate_bags`, each one on its own new PriorShift_BagGenerator with an integer seed, every call that returns gives, however the system interleaves them, what it gives when there are no other threads and the generator of the `np.random` module is in some state: with the uniform method, the same bags or exception as alone; with both methods, bags (positions of examples of its data set and the prevalences of those examples). The number of operations that a call needs does not depend on the other threads. When the generators share RandomState objects, every call that returns bags still returns bags in that sense, with both methods. It is false that with the Dirichlet method a thread gets the bags of its seed: they depend on the interleaving, since the prevalences come from the generator of the module. A generator whose bags have been generated before can be shared, but not a new one: a thread can get the arrays of zeros (uniform), or what `np.random.dirichlet` has drawn with bags that are the first example repeated (Dirichlet), without any exception, or raise TypeError.",
"all numbers of threads, all interleavings of their operations, all data sets, all parameters, all streams of random numbers, all assignments of generators to threads",
EVERY,
q+"bag_generator.py: PriorShift_BagGenerator")
add("C175","With two classes and a distance given as a function, DFy, DFX and FriedmanME answer with nearly the closest mixture",
"With two classes and a distance given as a function, DFy (HDy, MMy), DFX (HDX, MMX) and FriedmanME answer with a pair of prevalences, and the mixture of the training representations of the classes with these prevalences is as near to the representation of the bag as the mixture with any other prevalences, up to twice the largest change of the distance over one tolerance of the search, when the distance is convex in the prevalences and either its last minimum has at most 0.98 of the second class or a bag of the second class alone is nearer than one of the first class alone. For DFX this holds for each of any number of bags predicted one after the other. With the metric `l2` of the library as distance these conditions hold for every bag as soon as the training representations of the two classes are not the same, and the largest change is the tolerance times the Euclidean distance between them. With any norm of the difference as distance (l1, l2, the mean absolute error, or a norm given by the user) and every training set with two classes and nonempty bag, either the mixture of the answer is as near to the bag as that of any other prevalences, up to twice the tolerance or 2% of the distance between the classes, or a ValueError is raised, and then the mixtures of all prevalences are equally near up to 2% of the distance between the classes.",
"every training set with two classes, every predictions or features, every bag, every convex distance function, every positive tolerance",
"The claim is about every distance function and bag.",
q+"multiclass/df.py: DFy, DFX", q+"multiclass/friedman.py: FriedmanME", q+"search.py: global_search, golden_section_search")

with open(os.path.join(os.path.dirname(__file__), "..", "properties.jsonl"), "w") as f:
    for p in P:
        f.write(json.dumps(p) + "\n")
print(len(P))
