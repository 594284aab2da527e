# A Lean 4 model of quantificationlib

The model lives in `lean/Verif`. It is a shallow embedding: every Python function or
method that is modelled becomes a Lean function over explicit values, every mutable
attribute becomes a field of a state that is passed in and returned, every exception
becomes a value, and every external collaborator (classifier, QP solver, random
generator, matrix inversion) becomes a parameter.

## 1. Layout

| directory | contents |
|---|---|
| `Verif/Num` | the number type `Fl` and list/finset helper lemmas (no model, no property) |
| `Verif/Model` | the model, one file per Python file; each definition cites file and lines |
| `Verif/Spec` | small specifications used in theorem statements (prevalence vector, transport plan, class frequency ...) |
| `Verif/Proof` | helper lemmas about the model |
| `Verif/Props` | the property theorems, each followed by an `example` showing a concrete case that meets its hypotheses |

## 2. Numbers

NumPy arithmetic never raises: `0/0` is NaN, `1/0` is inf, `log 0` is -inf. Modelling
floats by plain reals with Lean's `x/0 = 0` would make theorems true for the wrong
reason. `Verif.Num.Fl` is therefore the type

    inductive Fl | fin (x : ℝ) | pinf | ninf | nan

with the IEEE-754 rules for special values in `+ - * /`, `sqrt`, `log`, `abs`,
comparisons (every comparison with NaN is false). Simplifications, stated once here:
finite arithmetic is exact real arithmetic (no rounding, no overflow, no underflow)
and there is one unsigned zero (`x/0` is `+inf` for `x>0`). Every claim below about
"equality" is therefore equality in exact arithmetic. The exceptions are C145 and C147, whose
models round after every operation (`Spec/Rounding`, doubles in `Spec/Double`).

Where no special value can arise (the code only adds, multiplies, compares and clips
finite values) the model uses `ℝ` directly, and says so.

## 3. External code as parameters

* Classifiers: arbitrary objects with a hidden state; `predict`, `predict_proba`, `fit`
  are arbitrary functions of it.
* `np.linalg.inv`: returns a matrix `A` with `A * M = 1` or raises `LinAlgError`.
* `quadprog.solve_qp`, `cvxpy`: an arbitrary function assumed, as an explicit hypothesis
  of the theorem, to return a minimiser over the feasible set it is given.
* Random generators: arbitrary streams of draws that respect the range contract of the
  NumPy call (`randint(low, high)` in `[low, high)`, `choice(xs)` in `xs`,
  `dirichlet` a probability vector).
* Regressors, nearest-neighbour search, `norm.ppf` (monotone), `argsort` (a sorting
  permutation), cross-validation splitters: likewise.

## 4. Plan per property

Titles and statements are in `properties.jsonl`, theorem names and status in `MANIFEST.json`.

| id | modelled | proof |
|---|---|---|
| C01 | `CC.predict` (Model/CC) on lists of labels | counting: the counts of the classes add up to the length of the bag |
| C02 | `CC`, `PCC` | `List.Perm` invariance; sums over an appended list |
| C03 | `PCC.predict` | exchange of sums; one-hot rows are indicator functions |
| C04 | `UsingClassifiers.fit/predict` (Model/Base) as functions of configuration, state and heap of estimators | case analysis of every branch |
| C05 | `y_ext_` and `np.tile` | division with remainder, induction on the number of copies |
| C06 | the heap of estimators | induction over arbitrary histories of `fit`/`predict` calls |
| C07 | `__probs2crisps` | first-argmax lemma; counterexample for labels other than 0/1 |
| C08 | `AC.fit`, `confusion_matrix`, row normalisation (Model/AC) | counting of pairs |
| C09 | binary branch of `AC`, `PAC`, `PWKQuantifier` | the clipped value is in [0,1] or the answer is the fallback |
| C10 | matrix branch | a left inverse of a column-stochastic matrix preserves sums; clipping and renormalisation |
| C11 | `fit` and `predict` together | the observed frequencies are the matrix times the prevalences; left inverse |
| C12 | as C11 | special case of a bag with the conditional frequencies of the training set |
| C13, C14 | `metrics/binary.py` over `Fl` | real arithmetic with all the divisions guarded |
| C15 | `binary_kld` | Gibbs' inequality with smoothing; counterexamples at 0 and 1 |
| C16 | `l1`, `l2`, `hd`, `mean_absolute_error` | Minkowski's inequality |
| C17 | bounds of the multiclass errors | triangle inequality, Cauchy-Schwarz |
| C18 | `topsoe`, `jensenshannon` | log-sum inequality with smoothing |
| C19 | `kld` | Gibbs' inequality with smoothing; counterexamples |
| C20 | all multiclass metrics | reindexing of finite sums |
| C21, C22 | `geometric_mean`, `brier_multi` | products and sums over classes |
| C23 | `emd` against transport plans (Spec/Transport) | duality lower bound and an explicit monotone plan, by induction |
| C24, C25 | `emd_score`, `emd_distances` | C23; indicator vectors |
| C26 | `compute_l2_param_train/test`, `solve_l2` | polynomial identity; solver contract |
| C27 | `dpofa`, `is_pd` | Cholesky by induction on the size |
| C28 | `compute_ed_param_train/test`, `solve_ed` | polynomial identity |
| C29 | the cached `problem_` of every quantifier (Model/Solve) | invariant over histories of calls |
| C30 | `golden_section_search` | loop invariant of the bracket |
| C31 | as C30 | unimodality keeps the minimiser in the bracket |
| C32 | as C30 | counterexample for every injective distance; the points are close |
| C33 | `global_search` | analysis of the grid, counterexample in its last cells |
| C34 | `mixture_of_pdfs`, `compute_sord_weights` | sums of convex combinations |
| C35 | `compute_quantiles` | induction over the sample; counterexample below the threshold |
| C36 | `sord` against the integral of the difference of distribution functions (Spec/Ecdf) | step functions, induction over the sorted sample |
| C37, C38 | `PriorShift_BagGenerator.generate_bags` with arbitrary draws (Model/Bags) | invariants of the loops |
| C39, C40, C41 | the three generators as state machines | counterexamples for a second call, for a failed call and for the global generator; positive parts by cases |
| C42 | covariate and mixed generators | invariants; counterexample for the default bag size |
| C43, C44, C46 | bin cuts and histograms (Model/Df) | counting over bins; counterexamples for constant features |
| C45 | `DFy`, `DFX` | mixture at the training prevalences is the test histogram |
| C47, C49 | the loop of `EM.predict` | invariant; loop counter |
| C48 | as C47 | Jensen's inequality (EM monotonicity) |
| C50, C87 | `DeBias` | clipping; calibrated posteriors |
| C51, C52 | `OneVsRestQuantifier`, `FrankAndHallQuantifier` (Model/Decomp) | normalisation lemmas; counterexamples with two classes |
| C53 | `fix_probs_decreasing` and the correction of group prevalences | running maxima and minima |
| C54 | `FriedmanME` | counting |
| C55 | `PWK` (Model/WeightedKnn) | sums of weights |
| C56, C57, C58, C89 | `REG`, `REGX`, `REGy` with shared objects in a heap (Model/Regression) | normalisation; counterexamples for shared defaults |
| C59, C60, C90-C95 | `EoQ` (Model/Eoq) | sums over selected members; counterexamples |
| C61, C96, C97, C98 | `CV_estimator` (Model/CvEstimator) | partition into folds; splitters with state |
| C62, C63, C99, C100 | `FrankAndHallClassifier`, `FrankAndHallMonotoneClassifier` (Model/FrankHall) | telescoping sums; counterexamples |
| C64, C65 | `FrankAndHallTreeClassifier` | induction over trees |
| C66, C67, C68, C101 | `DDAGClassifier` (Model/Ddag) | induction over the DAG; sums over paths |
| C69, C88 | `FHLabelBinarizer` | sums of indicator columns |
| C70, C102, C103 | `EnsembleOfClassifiers` with references (Model/Ensemble) | every order of the tasks |
| C71, C72, C104, C105 | `ACOrdinal`, `PDFOrdinaly` (Model/Ordinal) | cumulative sums turn emd into l1; solver contract |
| C73 | objectives of the exact solvers | nonnegative sums; contracts |
| C74 | `CC`, `AC`, `PAC` under an order isomorphism of labels (Spec/Relabel) | naturality of `np.unique`, counting and the matrix |
| C75 | `nearest_pd` | termination measure; positive definiteness |
| C76, C77, C79 | `EDy`, `EDX`, `CvMy` (Model/Energy) | conditionally negative definite kernels; solver contract |
| C78 | `CvMy` | invariance under increasing maps of the ranks |
| C80 | `SORDy` (Model/Sordy) | C36 and C31 |
| C81, C84 | `solve_l1`, `solve_hd`; `DFy.predict` branches | zero distance; counterexamples |
| C82 | `generate_bags` | loop measure; counterexample that never ends |
| C83 | `compute_bincuts` with repeated predictions | index analysis |
| C85 | `PWKQuantifier` (Model/Knn) | C08, C12 |
| C86 | `EM` | permutation of sums; stationarity and concavity |
| C106, C107 | `OrdinalQuantificationTree` (Model/OrdTree) | C64; state machine of `fit` |
| C108, C109 | `QUANTy` (Model/Quanty) | C35 with one quantile; permutations of sorted samples |
| C110 | all the metrics against the textbook divergences (Spec/Divergences) | bounds on the effect of the smoothing constant |
| C111 | `normalize` (Model/Utils) | moments of an affine image |
| C112, C113 | `plot_line_prevalences` (Model/Utils) | segments by induction; stable sort |
| C114 | programs over objects that share estimators (Model/Pipeline) | simulation between a program and its restriction to one object, by induction on the calls |
| C115 | `fit` and `predict` of each class derived from `UsingClassifiers`, from the estimators to the answer (Model/Pipeline) | composition of the theorems on each method |
| C116 | a second `fit` that raises (Model/Pipeline) | case analysis of `fit`; refuted for other labels by a run of AC |
| C117 | checks on the number of classes (Model/Pipeline, Model/Sordy) | case analysis of `fit` |
| C118 | `golden_section_search` with a distance that may raise (Model/Search) | equality with the search without errors; refuted by an invariant of the loop |
| C119 | `fit_regressor` and `predict_bag` (Model/Regression), regressors as arbitrary objects | inversion of `fit`, with the bags of C37 and the descriptors of C57 |
| C120 | `EoQ.fit` with estimators, and a log of the calls to their `fit` (Model/EoqEst) | inversion of `fit`; the second estimator finds the state left by the first |
| C121 | `EoQ` with an `EnsembleOfClassifiers` (Model/EoqEst, Model/Ensemble) | composition of C70, C92, C95 and C103; refuted for a second `fit` by the same invariant |
| C122 | labels of an `EnsembleOfClassifiers` as predictions of the members, with `CC` (Model/EoqEst) | evaluation of `argmax` on rows of equal labels, with C59; three refutations |
| C123, C124 | attributes of the estimators from the constructor on, through calls that raise (Model/Lifecycle) | induction on the sequence of calls; refuted for every failing call |
| C125 | bin cuts (Model/Df) | rounding bounds of the positions; refuted beyond two bins per example |
| C126 | predict of every class (Model/Pipeline, Df, Energy, Knn, Regression, Eoq) | two samples have the same frequencies iff some numbers of copies of them are permutations of each other (Spec/SameFrequencies) |
| C127 | fit and predict of every class as transitions of the attributes of an object and of the estimators (Model/Pipeline) | inductive histories of calls; invariant on the attributes that predict changes (problems and mixtures kept for later bags) |
| C128 | fit and predict of every class, on pairs (true class, prediction) | averages over the bag are mixtures of the class averages (Proof/PriorShift.lean), then uniqueness of the minimiser of each loss; end to end through `ucRun` |
| C129 | `ucRun` of every class of `Model/Pipeline.lean`, `dfxFit`, `edFit` | What `super().fit` leaves is related for related training sets (`distributionDecidesOn_of`); then, class by class, what is learnt is a function of averages over the pairs of label and prediction. For 'equal_count' and CvMy only training sets of the same size, with refutations for others; for QUANTy only the order |
| C130 | `emChange` of `Model/EM.lean` with the finiteness check of `check_prevalences` | one step from a degenerate bag gives NaN for every class, the second step is rejected; the loop invariant is that every accepted change was computed between finite vectors; with `max_iter=1` the check is never reached (refuted) |
| C131 | `NdArr`, `checkPrevalencesNd`, `metricNd`, `emdScoreNd` of `Model/Shapes.lean` | the row-major listing of a column or a row is the vector; `emd_score` fills a row of the column of extreme prevalences, which for a row layout is every entry (refuted) |
| C132 | `globalSearchNd`: flat mixtures in the grid, columns in the golden section search, column for the bag; `npSumOf` is a NumPy expression with broadcasting | for distances that reshape their arguments the search is `globalSearch` of C33; for distances written with NumPy the grid sums over all pairs of bins (refuted), and a perfect classifier ends in ValueError |
| C133 | `RawPreds`, `rawProbs2crisps`, `ccPredictRaw` of `Model/Shapes.lean` | case analysis on the shape; with exactly one example the column is squeezed to no dimensions and the next test raises IndexError (refuted) |
| C134 | `npSqueeze`, `ccAnswer`, `acAnswer`, `pccAnswer`, `pacAnswer` of `Model/Shapes.lean` | the column of frequencies squeezes to a flat array unless there is one class (refuted) |
| C135 | `acClass`, `pacClass` of `Model/Pipeline.lean` through fit and predict | the adjustment inverts the matrix, so the error before clipping is the constant times the deviation; clipping to [0, 1] and normalising a vector of sum 1 does not increase the error |
| C136 | `acClass`, `pacClass` of `Model/Pipeline.lean` | the adjustment is increasing in the share of positives or is not made at all; clipping is monotone |
| C137 | `dfyClass`, `friedmanClass`, `acoClass`, `edyClass` of `Model/Pipeline.lean` through fit and predict, `dfSolve` for DFX, `edPredict` for EDX; the solvers are assumed exact | the answer is the closest mixture, so the mixtures of the answer and of p are within twice the distance of the bag to the latter (triangle inequality); injective linear maps on a finite dimensional space stretch by a fixed factor; for the energy distance, a negative definite form on a compact set |
| C138 | `ccClass`, `pccClass`, `acClass`, `pacClass`, `emClass`, `deBiasClass`, `friedmanClass`, `dfyClass`, `edyClass`, `cvmyClass` of `Model/Pipeline.lean` through fit and predict; DFX and EDX of `Model/Df.lean` and `Model/Energy.lean` | the renaming permutes rows and columns; histograms are permuted in blocks and energy distances are sums over pairs of classes; sums, inverses and the unique solution of 'L2' commute with permutations; with two classes the formulas for one class give the complement for the other |
| C139 | `Model/LoadData`: `genfromtxt` (with its final squeeze), the two slices and `astype(int)` | file built from arbitrary examples; case analysis on the squeeze |
| C140 | `Model/Bags` (`kraemer`, `uniformLoop`, `priorGenerate`) | count the draws that lead to given numbers of examples: permutations of the ends of the classes |
| C141 | `Model/Aliasing`: the effect on the state of writing into an array that the state holds by reference | the answers do not read those attributes; concrete counterexamples for CvMy and the generators |
| C142 | `Model/MetricsMulti`, `Model/MetricsBinary`, `Model/MetricsOrdinal`, `Model/Eoq` | convexity in the predicted vector (second derivatives for the logarithmic ones) and Jensen's inequality |
| C143 | the classes of `Model/Pipeline.lean` through fit and predict with the predictions of the training set given; `dfSolve` and `edPredict` for DFX and EDX; the solvers are assumed exact | strong law of large numbers for the frequencies of what is seen of the examples, and the error bounds of C135 and C137, which are continuous functions of means over the bag |
| C144 | the models of the methods; `OneReplaced` (one example of the bag replaced) as specification | means change by 1/n times the change of the example; the answers of AC, PAC are Lipschitz in the mean predictions (clipping and normalising), the answers of the matching methods are projections (first-order optimality on the simplex, Cauchy-Schwarz), the answers of the energy methods minimise a quadratic form with the same matrix |
| C145 | operation by operation models over an arithmetic that rounds (`Model/Rounding.lean`), with NumPy's arithmetic on doubles as an instance (`Spec/Double.lean`) | bounds for computed sums by induction on the order of the additions, invariants of the loops of EM and Frank and Hall |
| C146 | the models of C145 and the exact models | limits of rounded operations and of computed sums; induction on the iterations of EM and on the classes of Frank and Hall |
| C147 | the measures operation by operation in an arithmetic that rounds (`Model/RoundedMetrics.lean`), for any rounding with relative error u and any order of summation; doubles are an instance | counting roundings (relative errors of sums, products, quotients and roots of non-negative numbers); limits; on doubles, explicit vectors for which `hd` is 0, and `topsoe`, `jensenshannon` and `emd_score` are negative |
| C148 | the methods again, on NumPy floats instead of real numbers, shown to agree with the other models on numbers | propagation of NaN through sums, means and the loop of EM; for SORDy the golden section search with a loss that is never a number always moves right |
| C149 | `dfxRun` composes `dfxFit`, `dfxTest` and `matchAnswer` for a list of bags; EDX from `Verif.Model.Energy` | the cut points of every strategy are carried by the affine map (linspace, sorted values, means and deviations), which is strictly increasing on the extended reals, so all counts are the same; constant features add the same amount to every distance; the energy loss is multiplied by the factor and has one minimiser |
| C150 | the attributes that each constructor leaves, the names of its arguments, the attributes that the methods assign, and get_params / set_params / clone of scikit-learn (Model/Settings.lean) | each constructor keeps each argument under its name and the rest does not depend on the arguments; no method assigns a setting; the rest by induction on the list of names. False for EM, EDX, PWK, PWKQuantifier, OrdinalQuantificationTree and a fitted CV_estimator |
| C151 | DFX.fit and DFX.predict (Model/Df.lean), EDX.fit and EDX.predict; a rearrangement is an injective choice of columns that leaves out only constants (Spec/Columns.lean) | the sum of the distance splits by features; a constant feature contributes the same for all prevalences; for EDX with Manhattan distances it adds the same amount to all losses. False for EDX with Euclidean distances when the bag has another value in the constant column (1/4, 3/4 instead of 0, 1) |
| C152 | `EM` as in C47 | for any competitor, one iteration gains at least what separates the log-likelihoods (log x <= x - 1 on each posterior), the gains telescope to a bounded sum, and monotonicity (C48) gives the rate; the limit exists by compactness of the simplex, because the divergence from a limit point decreases (Gibbs) |
| C153 | the division 0/0 of NumPy in the models of the counts, means and histograms (Model/EmptyBag) | NaN goes through sums, inverses and clipping; searches whose comparisons are all false |
| C154 | the models of the methods on the bag of the first n examples of a stream (Spec/Consistency, Spec/SampleSize) | mean and variance of means of independent variables, the inequalities of Chebyshev and Hoeffding (Mathlib), and the bounds of C135 and C137 for the error of a bag |
| C155 | paintBoxes, plotBoxes (Model/Plot), with matplotlib as a parameter | induction on the boxes |
| C156 | the models of C135 and C137; Spec/Drift.lean defines the drift | the mean of a feature over a bag is the mixture of its means within the classes; its distance from the mixture of the means of the training set is at most the drift; C135 and C137 turn that into the total error |
| C157 | the models of CC and PCC (C01, C03) run with given predictions; Spec/Bias.lean counts false positives, false negatives and mistakes | induction on the bag for the counts; the mixture lemma of C128; a bag with the training examples of one class for the necessity |
| C158 | the models of the metrics (C16-C24); Spec/ErrorVanishes.lean says that the errors of a sequence are numbers that tend to 0 | Cauchy-Schwarz, (1+x)log(1+x)+(1-x)log(1-x) >= x^2 by monotonicity, log t <= t-1, partial sums for emd; squeezing for the limits |
| C159 | Model/Decomp | the normalisation moves every entry by q_i/S times the distance of S from 1, which is at most the sum of the errors; the mean of the two monotone envelopes is no farther from a nondecreasing sequence than the original; differences of cumulative sums |
| C160 | Model/DecompBase: the pipeline of Model/Pipeline as base quantifier of Model/Decomp | the mean over the rest is the common mean of its classes, Forman's formula; for the refutation, three classes and one example of each |
| C161 | the attributes classes_ and quantifiers_ as a record, fit as a step that returns the new attributes and the exception, with the positions of quantifiers_ holding 0, an unfitted copy or a fitted copy | the loop that fits the copies against the mapM of Model.Decomp; a position that raises makes predict raise |
| C162 | the end-to-end model (`ucRun`) of the nine classes, with predictions given by the user | the posteriors are `oneHot` rows; means of rows are frequencies of labels, one step of EM fixes them; for the methods that match, any comparison that is least for equal frequencies only and convex has its best prevalences where AC answers (`best_is_adjust`) |
| C163 | The classes of C47 to C128 run end to end on given predictions; truth is a list of labels. | The confusion matrix is the identity and any bag differs from the training set in the prevalences only, so C128, C160, C162 and C87 apply with every condition proved; PDFOrdinaly by the bin in which each class falls. |
| C164 | The loop of the scripts over the model of fit and predict of the classes (C114), of generate_bags (C37) and of mean_absolute_error (C16). | Induction on the bags, with predict leaving the object as it was; C37 for what a bag is, C163 and C157 for the answers. For the methods that keep their optimisation problem, an invariant of their attributes: the problem that they keep is the one of the training set. |
| C165 | The model of fit and predict of the classes (C114) on the first examples of two random streams; the distribution of the predictions of each class is any probability measure. | Strong law of large numbers (Mathlib) for the rates and the frequencies; a perturbation bound for the rates with C135 for AC and PAC; compactness of the prevalences and C137 for the methods that look for the closest mixture. |
| C166 | A thread is a sequence of reads and assignments over a store of quantifiers and estimators (`Model/Threads`); a schedule is a list of turns. | Rely-guarantee: each step of a thread keeps an assertion that the steps of the others cannot break; explicit schedules for the negative part. |
| C167 | As C166, with the check of the estimator, its training and every assignment of `fit` as separate operations. | Rely-guarantee: the other threads may train an estimator, always to the same state; explicit schedules for the negative part. |
| C168 | As C166, with each assignment to the attributes and to the columns of the arrays as an operation, and each call of a method of the RandomState as one operation (`Model/ThreadsBags`). | Rely-guarantee, with the number of operations that are left; explicit schedules for the negative part. |
| C169 | the calls as sequences of operations of C166-C168, stopped after any number of them; after an interruption inside the part of a class, its own attributes are arbitrary | an invariant of all the stores of a call (the estimators are only trained, a class without training predictions has none); then the argument of C127 from arbitrary old attributes; concrete interrupted calls for the refuted parts |
| C170 | the two runs (before and after merging) of the existing models, with the merged vector as a separate specification | counts of a list mapped by a non-injective function; triangle inequality, Cauchy-Schwarz, and an injection of cumulative sums for emd |
| C171 | two runs of the existing models that differ in one training prediction | the adjustment is the solution of the system, clipped and divided by its sum (also with two classes); perturbation of the matrix; means of a class with one replacement; with 'L2' and with the energy distance, the first order conditions of the two closest mixtures |
| C172 | `SaysNothing` (specification), the classes of the pipeline | equal rows of the confusion matrix, equal columns of the training distributions; the global search on a constant loss, the golden section search on a constant loss, the quadratic program whose matrix is the ridge |
| C173 | runs of the existing models on the two bags and on the bag that has both | what is compared is a mean over the bag; the adjustments are monotone; the answers of 'L2' and of the energy distance are minima of parabolas with the same curvature over the same interval |
| C174 | the operations of `generate_bags`, `_generate_uniform` and `_generate_dirichlet` on a store with the generators, the RandomState objects and the generator of the module | rely-guarantee assertions step by step, against the sequential model of C37; schedules for the refutations |
| C175 | `ucRun` of the objects of DFy and FriedmanME, `dfxRun`, `globalSearch` | C33_matching_partial for a state with two classes, convexity moved from the prevalences to the search interval, then the plumbing of `fit` and `predict`; for DFX induction over the bags with the invariant of C127 (the mixtures kept are those of the training set) |

A theorem with `_refuted` in its name proves that the property as stated in
`properties.jsonl` is false of the code: it exhibits reachable inputs and the wrong
result. A theorem with `_partial` proves the part that does hold, with the missing part
named in the manifest note. Both kinds give the property the status `partial`.

## 5. Trusted base

* Lean 4.33.0's kernel and Mathlib's definitions.
* Axioms: every property theorem depends on `propext`, `Classical.choice` and
  `Quot.sound` and on nothing else; `AXIOMS.md` lists the output of `#print axioms`
  theorem by theorem (`tools/gen_axioms.py`). No axiom is added; there is no `sorry`,
  `admit`, `native_decide`, `bv_decide`, `implemented_by`, `extern` or `unsafe`.
* The tie between model and code is reading: each definition cites file and lines.
* The contracts of external code (section 3). They are hypotheses of the theorems, in
  `Verif/Spec` (`Solvers`, `Cvx`, `Bags`, ...), never axioms. Each is shown to be
  satisfiable in an `example`.

### What is modelled

| file of `/repo/quantificationlib` | model | not modelled |
|---|---|---|
| `base.py` | `Model/Base` | printing, sparse matrices, content checks of `check_X_y`/`check_array`, float32 predictions (NumPy < 1.24 assumed because of `np.float`) |
| `baselines/cc.py`, `baselines/ac.py` | `Model/CC`, `Model/AC` | printing |
| `metrics/binary.py`, `metrics/multiclass.py`, `metrics/ordinal.py` | `Model/MetricsBinary`, `Model/MetricsMulti`, `Model/MetricsOrdinal`, `Model/Shapes` (flat, column and row arguments) | arguments with three or more dimensions; commented-out code (multiclass.py:413-484) |
| `optimization.py` | `Model/Optimization`, `Model/Solve` | the inside of quadprog, cvxpy, `svd`, `eigvals`; distributions with a single entry, which `np.squeeze` leaves without dimensions, are vectors |
| `search.py` | `Model/Search` | nothing |
| `bag_generator.py` | `Model/Bags` | width of `np.uint32`, printing |
| `multiclass/df.py`, `multiclass/friedman.py` | `Model/Df` | NaN in the features; empty bags |
| `multiclass/em.py` | `Model/EM` | printing |
| `multiclass/energy.py` | `Model/Energy` | printing |
| `multiclass/regression.py` | `Model/Regression` | one-dimensional `X`; regressors that raise |
| `multiclass/knn.py`, `estimators/weighted_knn.py` | `Model/Knn`, `Model/WeightedKnn` | the search for neighbours |
| `binary/debias.py`, `binary/emd.py`, `binary/quantiles.py` | `Model/DeBias`, `Model/Sordy`, `Model/Quanty` | printing |
| `decomposition/*.py` | `Model/Decomp`, `Model/DecompBase`, `Model/DecompLife` | base quantifiers of foreign classes |
| `ensembles/eoq.py` | `Model/Eoq`, `Model/EoqEst` | members that predict NaN; labels that are not numbers given by an ensemble |
| `estimators/cross_validation.py` | `Model/CvEstimator`, `Model/Lifecycle` | `groups`, `fit_params`, scores |
| `estimators/frank_and_hall.py` | `Model/FrankHall`, `Model/Decomp`, `Model/Lifecycle` | messages |
| `estimators/ordinal_ddag.py` | `Model/Ddag` | |
| `estimators/ensembles.py` | `Model/Ensemble`, `Model/Lifecycle` | interleaving inside one `fit` of a thread |
| `data_utils.py`, `plot/qlplot.py` | `Model/Utils`, `Model/LoadData`, `Model/Plot` | parsing of the characters of a file, colours of the lines, what matplotlib draws |
| references to arrays of the caller | `Model/Aliasing` | arrays shared by other routes than the arguments of `fit` and the bags returned |
| `fit` and `predict` in several threads | `Model/Threads` | threads inside the methods of an estimator other than `FrankAndHallClassifier`; the decomposition methods, EoQ and the regression methods in threads |
| `generate_bags` in several threads | `Model/ThreadsBags`, `Model/ThreadsPrior` | `PriorAndCovariateShift_BagGenerator` in threads; what the caller sees later in the arrays that it got (they are the ones of the object) |
| the classes derived from `UsingClassifiers`, end to end | `Model/Pipeline` (`fit` and `predict` with shared estimators) | see its header |
| `DFX` from `fit` to the answers for several bags | `Model/DfxRun` | empty bags |
| the methods on predictions that are NaN or infinite | `Model/NanPreds`, `Model/NanQuanty` | EDy, CvMy, k-NN and the regression methods |
| the methods and the measures on rounded numbers | `Model/Rounding`, `Model/RoundedMetrics` | overflow, underflow, NaN; the methods that call a solver |
| constructors, `get_params`, `set_params`, `clone` | `Model/Settings` | parameters of nested objects (`a__b`) |
| `cvxpy_installed_solvers.py`, `__init__.py` | | not modelled (no behaviour) |
| `/repo/examples/multiclass_quantifiers.py`, `tutorial_example.py` | `Model/Experiment.lean`: one repetition of the loop over the bags for one quantifier (C164) | reading, splitting and normalising the data sets, the tables that are printed; the other scripts |

Rounding is modelled only for C145 and C147 (`Model/Rounding`, `Model/RoundedMetrics`,
without overflow, underflow or NaN): everywhere else arithmetic on finite values is exact.
Where the code protects itself against rounding (smoothing constants, thresholds,
tolerances) the constants are in the model, as parameters where they are arguments in the
code.

## 6. Where the code does not do what it says

These properties are false of the code as stated; the theorem named in the note exhibits
a failing input in each case.

* C07: The one-column clause is false unless the labels are 0 and 1: C07_binary_column_refuted; C07_binary_column_partial covers labels 0/1.
* C15: The stated behaviour is false: binary_kld is NaN at the extreme prevalences (C15_binary_kld_refuted) and can be strictly negative (C15_binary_kld_negative_refuted). C15_binary_kld_partial: finite and bounded below by minus a smoothing term on the open interval.
* C19: The stated behaviour is false: kld is NaN as soon as a true prevalence is 0 (C19_kld_zero_class_refuted) and strictly negative for a perfect prediction (C19_kld_self_negative_refuted). C19_kld_partial: finite and >= -log2(1+n*eps) when all true prevalences are positive.
* C32: False for every injective distance (C32_reported_loss_refuted): the loss belongs to a golden section point, the prevalence is the centre of the bracket. C32_reported_loss_partial: the reported loss is the distance at a point closer than the tolerance.
* C33: False (C33_global_search_refuted: a convex distance with its minimum at 0.99 is answered with a prevalence below 0.02). Partial theorems: validity for every finite distance; near-optimality for convex and unimodal distances outside the last two grid cells; for convex distances that change at most by L per unit, near-optimality up to L / 50 without conditions, except that ValueError may be raised when all prevalences are that good.
* C35: compute_quantiles drops a remaining weight below 0.0001 and then loses mass (C35_quantiles_refuted). C35_quantiles_of_test_sample: full statement for equal weights; C35_quantiles_of_mixture_partial: for weighted samples when no cut falls within the threshold. C35_quantiles_error_partial: for all weighted samples, up to n / 10000 in each quantile and 1 / 10000 in the average (for scores between -1 and 1).
* C39: False: the bags of the first call are returned by every later call (C39_second_call_refuted). The first call is right (C39_first_call_partial).
* C40: False: a failure after the arrays are allocated makes the next call return arrays of zeros (C40_failed_call_refuted), and a failed call fixes bag_size=None to the size of its data (C40_bag_size_refuted). Proved for failures before allocation with an explicit bag size (C40_early_failure_partial).
* C41: False for the Dirichlet method, which draws prevalences from the global generator (C41_dirichlet_refuted). Proved for the uniform method; the covariate generator's model has no access to the global generator.
* C42: False for the mixed generator with its default bag_size=None, which always raises TypeError (C42_mixed_default_size_refuted). Proved with an explicit bag size and for the covariate generator.
* C43: False for normal bins on a constant feature, whose examples may all fall outside the bins (C43_constant_feature_refuted). Proved for equal-width and equal-count bins, and for normal and binormal bins when the deviations are positive (partial).
* C44: Proved for DFX. False for DFy with three or more classes: the block of descriptor d ends at d+1 (C44_dfy_multiclass_refuted); proved for DFy with two classes (partial).
* C46: False for the normal strategy on a constant sample: the cut points run from -1/2 to 1/2 (C46_normal_constant_refuted). Proved for equal_width, for equal_count with fewer than two bins per example (see C125), and for normal and binormal with a positive deviation (partial).
* C51: False with two classes: LabelBinarizer returns one column and fit raises IndexError at the second class (C51_two_classes_refuted). Proved for three or more classes (C51_ovr_partial, C51_ovr_faithful).
* C52: False with two classes: fit raises IndexError (C52_two_classes_refuted). Proved for three or more classes (C52_fh_partial, C52_fh_faithful).
* C57: False: training histograms are divided by the number of training examples instead of the bag size (C57_bag_size_refuted). Proved when they coincide, as with bag_size=None; the bins of REGy with equal widths are always those of the interval from 0 to 1 (partial).
* C58: False: all objects built with the default arguments hold one bag generator, which returns the bags of the first fit for ever (C58_shared_generator_refuted). Proved for objects with different generators (partial).
* C60: False: the distributions stored for all the members are that of the whole training set, so that the selection is arbitrary (C60_refuted, for every sorting algorithm). Proved when all the bags have the distribution of the training set (partial), also with classifiers.
* C62: False for the classes in the middle: 1 - a*b is computed instead of (1-a)*b (frank_and_hall.py:253); the two agree only when b = 1 (C62_middle_refuted). Partial: the first and the last class are right and all the values are in [0,1].
* C63: `ascending is False` (frank_and_hall.py:538) compares an array with the object False, so no row is ever corrected (C63_envelopes_refuted). Partial: the rows are still distributions, their cumulative sums are the running maxima, and they are the averages of the envelopes when the binary outputs are already nondecreasing.
* C65: False: the examples with label 0 are counted for the left group, but the left group has label 1 (frank_and_hall.py:800), so the prevalence of the right group is used (C65_wrong_group_refuted). Partial: apart from that, every node has the first model with the smallest loss of its subtree and every model is in the tree exactly once (this for every performance measure, also with NaN).
* C70: False when the tasks share the process, which is the default (n_jobs=None) or with threads: base_estimator.fit returns the same object, so every estimator is the one trained last (C70_shared_refuted, for every order of the calls). True when joblib runs the tasks in other processes (C70_processes_partial). The bags are the columns of indexes, although the docstring says rows.
* C74: Proved for labels and for matrices of probabilities. False for a single column of probabilities, which is cut into the integers 0 and 1 whatever the classes are called (C74_single_column_refuted).
* C81: False for solve_hd when the columns have different totals, as for cumulative histograms (C81_hd_recovers_mixture_refuted). Proved for solve_l1, and for solve_hd with equal column totals (C81_hd_recovers_mixture_partial).
* C82: False with three or more classes: minimum prevalences that are accepted but whose numbers of examples add up to the size of the bag or more (so also when they add up to exactly 1, as 0.25, 0.5, 0.25) make generate_bags loop for ever (C82_unattainable_refuted, C82_infeasible_minimum_refuted). Proved otherwise: below that total a fair generator brings it back (C82_attainable_partial), the first and last minimum alone are checked (C82_ends_rejected_partial), and without minima, with at most two classes or with the Dirichlet method it always comes back (C82_comes_back_partial, C82_mixed_partial).
* C83: False: with normal or binormal bins fit raises IndexError (C83_repeated_predictions_refuted). Proved for the other strategies (partial).
* C84: False: with a distance function the answer has two entries whatever the number of classes (C84_callable_refuted). Proved in the other cases (partial).
* C88: False unless neg_label is 0: summing columns adds neg_label once per class (C88_other_labels_refuted). Proved for neg_label 0 (partial).
* C89: False with two classes: the given regressor itself is trained (C89_shared_regressor_refuted, C89_answers_change_refuted). Proved for other numbers of classes, GLMs and separate regressors (partial).
* C90: False: the default bag generator is shared and returns the bags of the first fit; a second object with more members cannot be fitted (C90_shared_generator_refuted). Proved for objects with different generators (partial).
* C91: False: with 'CDF' fit never returns (C91_cdf_refuted, C91_cdf_classifiers_refuted), and without classifiers it never returns unless n_bins is 100 (C91_bins_refuted). Proved for 'PDF': without classifiers with 100 bins, and with a new ensemble of classifiers and bins of equal width (partial).
* C92: Proved with one prediction per example. With several, fit never returns unless the bags are as large as the training set (C92_bag_size_refuted), in which case it holds (partial).
* C93: False: a single prevalence is recorded for every class (C93_single_class_refuted), and other vectors that are too short raise ValueError (C93_missing_class_refuted). Proved when members predict all the classes (partial).
* C96: False: _predict_proba calls cv_.split again, twice. With a splitter whose calls differ the fold numbers and the models do not match, and examples may be predicted by the model trained with them (C96_shuffled_refuted). C61 is the positive part.
* C97: False: the row of a model that knows a single class is broadcast to all the classes (rows sum to the number of classes) and other short rows raise an error. Partial: when every model knows all the classes the averaged rows are distributions.
* C99: False: with three or more classes predict never returns the last class, because the wrong value of the previous class is never smaller (C99_last_class_refuted).
* C100: Proved for three or more classes; with two classes fit raises IndexError (C100_two_classes_refuted).
* C102: False: a second fit trains nothing, it only replaces classes_ (C102_refit_refuted). The first fit is C70.
* C103: predict is proved for every ensemble; predict_proba when each estimator has a column per class. With a bag of a single class the code records probability 1 for every class (C103_single_class_refuted).
* C105: HD and L2 are proved (L2: exact when the class histograms are linearly independent, otherwise within half a floating point spacing, the perturbation of the Gram matrix). False for the documented 'L1' and for a function: predict returns None (C105_other_refuted).
* C107: False: a second fit keeps the first classifier and only replaces classes_ (C107_refit_refuted); after an exception while the tree is built every later fit raises ValueError (C107_interrupted_refuted).
* C116: False when the labels differ: `classes_` is assigned before the checks of `fit`, so after a `fit` that raised ValueError AC uses its old confusion matrix with the labels of the rejected training set (C116_failed_fit_refuted). Proved for the same labels.
* C118: False inside the loop: a bare `except` keeps the last loss, and a distance that fails everywhere but at the first two points gives the right end of the interval (C118_swallowed_refuted). Proved for the first two points and for distances that do not raise.
* C121: Proved for a new ensemble whose tasks run in other processes (C70) and whose classifiers know all the classes (partial). False for a second fit: the ensemble keeps the classifiers of the first training set, so that members are trained with the new bags and the predictions of the old classifiers (C121_refit_refuted).
* C122: False: the matrix of labels (a column per classifier) is taken for a matrix of probabilities (a column per class), and its first largest label for the class. With two or more members and classifiers that agree, the answer is that everything is of the first class (C122_unanimous_refuted); an IndexError if the largest label is in a column beyond the classes (C122_predict_raises_refuted); with three or more classes and fewer bags fit never returns (C122_few_members_refuted). True with one bag (partial).
* C123: Proved for CV_estimator and EnsembleOfClassifiers, for new objects and once a call has returned, and for the Frank and Hall classifiers, with and without a tree, once a call has returned. False of the Frank and Hall classifiers, which assign classes_ before anything else and test only that: after a first call to fit that fails, predict raises TypeError (data rejected by check_X_y, C123_fh_rejected_refuted) or AttributeError (a binary model that fails, C123_fh_base_refuted), and every later fit of a quantifier with that estimator raises AttributeError (C123_stuck_refuted).
* C124: Proved: a call that returns erases the past for Frank and Hall (also with the tree) and CV_estimator; rejected training sets leave no trace in an EnsembleOfClassifiers, nor in the classifier with a tree if the labels are the same (partial). False: after a call that fails, the models of the previous training set answer with the labels of the rejected one (C124_fh_relabels_refuted, C124_cv_relabels_refuted); an EnsembleOfClassifiers whose training failed is never trained again, although fit returns (C124_ens_retry_refuted).
* C125: Proved for fewer bins than twice the examples (partial). False beyond: with more than two bins per example the last cut point is read after the end of the sample and compute_bincuts always raises IndexError (C125_equal_count_refuted, and C125_dfx_refuted, C125_dfy_refuted for fit); with exactly two bins per example the first cut point is computed with sorted_values[-1], and cut points can decrease (C125_unsorted_refuted).
* C126: Proved for every method but CvMy: for QUANTy up to 9999 quantiles (the loop has a tolerance of 1e-4), for SORDy with two classes. REGX and REGy have it with every regressor (C126_reg), EoQ when its members have it (C126_eoqx, C126_eoqy). CvMy ranks the predictions of the bag among the training ones, so that its order does not matter (C126_cvmy_order_partial) but repeating the bag changes the answer (C126_cvmy_repetition_refuted).
* C127: The attributes of the quantifier do not remember earlier fits (C127_*_partial for fourteen classes; DFy, FriedmanME, ACOrdinal and PDFOrdinaly for solvers whose answer does not depend on where they start). The estimators do: fit trains only estimators that are not fitted, so a second call of fit trains nothing (C127_not_retrained_refuted) and a CC fitted with two training sets one after the other answers with the classifier of the first (C127_refit_refuted). The proved theorems compare objects whose last fit finds the estimators in the same state.
* C128: Proved through the whole call of fit and predict with given predictions; C128_own_classifier reduces the case with estimators to it. Solvers are exact (stated hypotheses).
* C129: Proved for CC, PCC, AC, PAC, EM, DeBias, FriedmanME, EDy, ACOrdinal, PDFOrdinaly and EDX for training sets of any sizes, for SORDy with two classes and nonempty bags, and for DFy/HDy/MMy and DFX/HDX with every strategy but 'equal_count', which needs training sets of the same size. False of DFX with 'equal_count' when the training set is repeated (C129_equal_count_refuted: an IndexError with few examples disappears) and of CvMy, whose ranks mix training set and bag (C129_cvmy_size_refuted). For QUANTy only the order is covered, with distinct probabilities. Regression-based quantifiers, ensembles and PWKQ are not covered: they draw samples or call scikit-learn's neighbours.
* C130: Refuted for max_iter=1: the loop leaves before the check, and EM returns NaN for every class. Proved for every larger limit.
* C131: Refuted for emd_score with rows: `prevs[0, :] = 1` fills the whole row, so the score of the worst prediction is 2/3 instead of 0. Proved for flat arrays and columns, and for every other metric in every layout.
* C132: Refuted for distances written with NumPy: the mixtures of the grid are flat and the distribution of the bag is a column, so `np.sum(np.abs(p - q))` adds over all pairs of bins; a witness where the library metric gives a prevalence of at least 0.98 and the same distance written with NumPy raises ValueError. Proved for the metrics of the library.
* C133: Refuted for one example: its prediction in a column raises IndexError. Proved for every other number of examples.
* C134: Refuted for CC and AC with a single class: the answer has no dimensions. Proved for two or more classes, and for PCC and PAC always.
* C137: Of the distances given as callables the norms of the difference are covered, with two classes (C137_dfy_norm, C137_dfx_norm, C137_friedman_norm). 'HD' requires representations with equal totals and 'L2' independent ones, as in C73 and C26.
* C138: Refuted for DFy with two classes: it uses the probabilities of the first class only and its bins are closed on the left, so a probability on a cut is in different bins for the two classes (`C138_dfy_refuted`). `C138_dfy_partial` has the case of three or more classes, except the combination of cumulative histograms with 'HD'. Refuted for probabilities with ties given to quantifiers that need labels: the first class wins (`C138_ties_refuted`); `C138_crisp_partial` has the case of a unique maximum. AC and PAC with three or more classes and a singular matrix depend on the solver and are not covered.
* C139: partial: for files with two or more examples (C139_load_partial). A file with one example raises IndexError (C139_one_example_refuted), because genfromtxt returns a one-dimensional array. Labels that are not integers are cut, so that different labels may become one class (C139_labels_cut).
* C140: partial: among the vectors with at least one example of every class but the first, all are equally likely, with m! of the bs^m draws each (C140_equally_likely_partial, C140_two_classes_partial), and every vector with at least one example of the last class is possible (C140_reachable_partial). The claim as a whole is false: no bag is ever without examples of the last class, because `high` is exclusive in randint (C140_last_class_refuted), and bags without the class in the middle are half as likely as the others (C140_three_classes_refuted).
* C141: partial: holds of CC, PCC, AC, PAC, EM, DeBias, SORDy, QUANTy, DFy, FriedmanME, EDy, ACOrdinal and PDFOrdinaly. False of CvMy, which keeps the predictions of the training examples by reference and uses them in predict (C141_cvmy_refuted), and of the bag generators, which return the arrays that they keep (C141_bags_refuted).
* C142: partial: holds of l1, l2, mean_absolute_error, mean_squared_error, bray_curtis, topsoe, jensenshannon, probsymmetric, kld (positive true prevalences), emd, emd_score, absolute, squared and relative errors and the two normalized scores, and of EoQ with the strategy 'mean'. False of hd (C142_hd_refuted) and symmetric_absolute_percentage_error (C142_sape_refuted); for those two the average is never worse than the worst prediction (C142_hd_partial, C142_sape_partial).
* C143: Classifier predictions of the training set are given, so that the classifier does not change along the stream. Distances given as callables are not covered. `C143_streams_exist` builds such a stream for every training set and all prevalences.
* C144: proved for CC, PCC, AC, PAC, FriedmanME, DFy, DFX (with 'L2'), EDy, EDX and DeBias
* C145: The last prevalence of FrankAndHallQuantifier can be negative on doubles: with nine classes and 0.15, 0.2, 0.25, 0.3, 0.35, 0.4, 0.45, 1 for the left groups, np.sum adds the first eight prevalences up to 1 + 2^-52 and the last one is not clipped (ordinal.py:263). Overflow and underflow are not modelled.
* C146: linalg.inv is a parameter whose results are assumed to tend to the exact inverse.
* C147: Refuted in part: on doubles `hd` is 0 for two different vectors (square roots that round to the same number), `topsoe` and `jensenshannon` are negative for (1 - 2^-53, 2^-53) and (1, 0) whatever accurate logarithm is used and for every epsilon up to the default, and `emd_score` is negative for a pair of 3-class prevalences. A score or distance can thus be slightly outside its range. Overflow and subnormal numbers are not part of the model of rounding; `kld` only for positive true prevalences.
* C148: False for several methods: proved refutations for CC, SORDy, DFy (two classes), FriedmanME and PAC (two classes, NaN in the training set); proved for PCC, EM, DeBias, PAC in the other cases, one-versus-rest, Frank and Hall, and QUANTy with the metrics of the library (refuted for it with other distances). EDy, CvMy, k-NN and the regression methods are not covered: they hand the predictions to scikit-learn or SciPy functions with their own checks.
* C149: C149: for DFX with 'binormal' and null deviations the cut points are those of the range [0, 0] whatever the units, so the answer changes with the origin of the feature (refuted); EDX answers change when the features change by different factors (refuted).
* C150: Refuted for EM, EDX, PWK and PWKQuantifier (the constructor stores an argument under another name, so get_params, clone and set_params raise AttributeError whatever the arguments), for OrdinalQuantificationTree (get_params gives the wrapped tree, clone raises RuntimeError, set_params drops the tree), for CV_estimator after fit (its setting cv is overwritten) and for objects with such an object among their settings. Proved for the 28 other classes. Not modelled: nested names with two underscores.
* C151: Refuted for EDX with Euclidean distances when a column that is constant in the training set has another value in the bag; with the same value in the bag it is proved (C151_edx_euclidean_partial). Proved in full for DFX, HDX (as the order of the prevalences by distance) and EDX with Manhattan distances. For EDX the classes must be told apart by the distance (Separated).
* C152: Also: C86 says that a stationary answer is of maximum likelihood among the prevalences with its support; C152 removes that restriction for the iterates that the program computes.
* C153: Proved of CC, PCC, AC and PAC (two classes or an invertible matrix), ACOrdinal, DeBias and QUANTy, of EM with two or more iterations, and of DFy with the metrics of the library, which reject NaN. False of DFy with other distance functions that give NaN for NaN, whose answer is at least 98% of positives (C153_dfy_refuted), and of SORDy, which takes the examples of the second class for the bag and answers with valid prevalences (C153_sordy_refuted). The solvers for HD, L1 and L2 and the distances of EDy and CvMy on arrays of NaN or without rows are outside the model.
* C156: kappa is a hypothesis (TellsApart, MixturesTellApart, EnergyTellsApart), as in C135 and C137, which also give it for two classes. Exact solvers, rounding not modelled.
* C157: Exact arithmetic; labels given as predictions. The two-class statement for PCC is C157_bias applied to the matrix in C157_pcc_shift.
* C158: jensenshannon is not 0 for the right prediction (C18), and kld is negative or nan there (C19), so they are not in the statement about limits.
* C159: Training sets with two classes are excluded because fit raises for them (C51, C52). The errors of the binary quantifiers are hypotheses.
* C160: False: the rest of the classes is one label of the binary problem, and its scores change when the prevalences within it change. C160_ovr_refuted: PAC itself is exact for all such bags, and the decomposition answers 1/4, 3/4, 0 for a bag of the second class only. C160_fh_refuted: Frank and Hall gives the first class 1/3 in such a bag. The partial theorems add that the mean of each score is the same for all the classes on a side of its binary problem. Predictions are given, one per training example (with estimators the copies ask the binary estimators).
* C161: Partial: the last clause is false. UsingClassifiers.fit assigns classes_ before it checks that there are predictions, and quantifiers_ is not touched by a fit that it rejects, so after such a fit with labels of fewer classes the object answers, for the new classes, with the first copies of the old fit (C161_rejected_refuted, for every base quantifier that needs predictions). For the same reason it can answer although no fit has returned (C161_no_fit_refuted). Proved: the clause about the last fit that returns (C161_last_fit), a new object (C161_unfitted), fits that raise in a copy (C161_failed_copy_partial, and C161_missing_copy_partial when the base quantifier was already fitted and the copy is not the last one) or while the labels are binarised (C161_failed_labels_partial).
* C162: Proved. The solvers of the methods that match find an optimum (the contracts of C26, C28 and C73). `AcExact` is the case of the claim for these methods: it excludes confusion matrices that AC does not invert, and with three or more classes the bags where AC clips. The distances given as functions and the CDFs are not covered. Not stated for SORDy and QUANTy, whose answers come from a search with a tolerance.
* C164: For the methods that keep the problem of their solver between two calls to predict (DFy, FriedmanME, ACOrdinal, PDFOrdinaly) the error of a bag is that of some of the best prevalences for that bag, with a solver that finds one of them: when there are several, which one may depend on the bags seen before. DFy and FriedmanME with a function as distance are outside of the statement. For 'L2' the class representations have to be linearly independent, and for 'HD' they have to have the same total.
* C165: DFy: bins of equal width; 'PDF' with 'L1', 'L2' or 'HD', 'CDF' with 'L1'. With bins of equal count the cut points move with the training sample. The solvers are exact, as in C73 and C137; the least squares of PAC and the other solvers of AC are not used when the rates have an inverse. Measurability: the labels have measurable singletons.
* C166: False for a shared quantifier: `C166_other_bag_refuted` (every class) and `C166_cc_not_prevalences_refuted` (an answer of no bag). `C166_own_objects` is for a quantifier per thread, `C166_one_at_a_time_partial` for calls that do not overlap. A call of a method of an estimator is one operation; the part of `predict` after the predictions is one read and one write, except in CC, which has each of its reads.
* C167: Holds for the same training set (`C167_same_data`). False for different training sets (`C167_other_model_refuted` for every class, `C167_no_order_refuted` for AC) and for a FrankAndHallClassifier as the shared estimator (`C167_frank_hall_refuted`): the check of the estimator and its training are two operations.
* C168: Holds for a generator per thread: `C168_own_generators` (seeds: the same as alone) and `C168_shared_random_state` (bags, though `C168_not_reproducible_refuted`). False for a new generator that is shared: `C168_zeros_refuted` and `C168_type_error_refuted` (all data), `C168_not_prevalences_refuted`. `C168_filled_partial`: shared, once its bags exist. The generator here is CovariateShift_BagGenerator; C174 is about PriorShift_BagGenerator.
* C169: The last sentence is false. An interrupted fit leaves classes_ of the new call with what the old one learned, and predict answers with them (CC, any labels: C169_half_fitted_refuted). generate_bags of CovariateShift_BagGenerator interrupted after it made its arrays makes every later call return them, full of zeros, without an exception (C169_bags_refuted). A FrankAndHallClassifier interrupted after classes_ is assigned passes for trained, and every later fit of a quantifier with it raises TypeError, also the repeated one (C169_frank_hall_refuted). The rest is proved for each class; for DFy, FriedmanME, ACOrdinal and PDFOrdinaly with a solver whose solution does not depend on the starting point, as in C127. Other estimators are taken to be trained in one operation.
* C170: proved for CC and PCC and for l1, bray_curtis, hd and emd. Refuted for AC (`C170_ac_refuted`: exact with three classes, 2/3 instead of 1 after merging two of them, because the merged class has other error rates in the bag than in the training set), and for mean_absolute_error, mean_squared_error and l2 (`C170_mean_errors_refuted`: the same estimate looks worse after merging).
* C171: one prediction is replaced: with r predictions per example (repeated cross-validation) the theorem is applied r times. Of the methods that match distributions FriedmanME and DFy with 'L2' and bins of equal width are covered, when the training distributions are independent before and after, and EDy and EDX, when the classes are separated before and after.
* C172: Proved for AC and PAC with two classes and for DFy and FriedmanME with two classes and a distance function. False for the others treated here: DFy and FriedmanME with 'L2' answer the uniform prevalences, EDy that every example is of the last class, SORDy that every example is of the second class (up to half the tolerance), whatever the bag: the ridge that makes the matrix positive definite, and the direction in which the golden section search breaks ties, decide the answer. With 'HD' and 'L1' every prevalence is optimal and the answer is the solver's choice; AC and PAC with three or more classes answer the uniform prevalences with 'L2' too. QUANTy and EM are not covered.
* C173: For 'L2' the training distributions have to be independent, for the energy distance the classes have to be separated (otherwise the answer does not depend on the bag, C172). DFy and DFX with other distances, SORDy, QUANTy and EM are not covered. C173_three_classes is the example with three classes.
* C174: `C174_own_generators`, `C174_uniform`, `C174_bags` hold for a generator with a seed per thread. False: `C174_dirichlet_refuted` (the bags of a seed with the Dirichlet method), `C174_zeros_refuted`, `C174_drawn_refuted`, `C174_type_error_refuted` (a new generator that is shared). `C174_filled_partial`: shared, once its bags exist. `C174_shared_random_state`: generators that share RandomState objects.
* C175: The conditions on the distance are those of `Searchable`, and none is left for `l2` (`C175_dfy_l2`, `C175_dfx_l2`, `C175_friedman_l2`) nor, with 2% of the distance between the classes as margin, for any norm (`C175_dfy_norm`, `C175_dfx_norm`, `C175_friedman_norm`; `C175_norms` says which metrics of the library they are for); without the condition on the last minimum the answer may be far from it (C33_global_search_refuted). The distance has finite values (NaN: C148).

## 7. Tests of the theorems

`tools/mutate.py` edits a copy of the model the way a bug would change the program,
rebuilds it and records in `seeded/LOG.jsonl` which theorems stop holding. A mutant that
no theorem of the affected property notices leads to a stronger theorem; the line of the
log names it.

How to read a line of the log. `failed` are the declarations where the build reported an error.
`theorems_resting_on_a_failed_lemma` are theorems of the property whose proofs mention, directly
or not, one of those (found by their names in the sources, not by Lean). `not_rebuilt` are
theorems of the property in modules that were not compiled because one they import failed: this
says nothing about them. A property with nothing else is `undetermined`, and its line is not
`caught`. Until the last hours of the work the tool put `not_rebuilt` together with
`theorems_resting_on_a_failed_lemma` and counted it as caught; all the lines were then classified
again, with the sources as they are now. Of 1007 lines 771 are caught (300 of them because a theorem
of every property that is named fails, the others through a lemma that fails), 139 are undetermined
and have not been tried again, and in 97 some property survived: for most of them a `comment`,
`tightened` or a later line says what was done. A lemma that fails shows that the proof noticed the edit, and not by itself
that the theorem would be false of the edited program.
