import Verif.Model.Base

/-!
# Settings of the objects: constructors, `get_params`, `set_params` and `clone`

The constructors of all the quantifiers and estimators, as the attributes they leave in the object, and the functions of scikit-learn
that every class inherits from `BaseEstimator`: `get_params` and `set_params` (sklearn/base.py) and `sklearn.base.clone`. A value is the
reference that the caller gave, so two values are equal when they are the same object. Not modelled: the order of the dictionary, keys
with two underscores (parameters of a nested object), what the nested objects contain (`deep` and `copy` say whether they can be read and
copied), verbose printing, and the bag generators, which are not estimators of scikit-learn.
-/

namespace Verif.Model

/-- Errors of `get_params`, `set_params` and `clone`: AttributeError, ValueError and RuntimeError. -/
inductive SkErr where
  | attributeError | valueError | runtimeError
  deriving DecidableEq

/-- What an attribute can hold: an object given by the caller, a constant, a new object made by a constructor from other values, something
computed by a method. -/
inductive Val (V : Type) where
  | ref (v : V)
  | none | true | false | zero | emptyTuple
  | str (s : String)
  | built (cls : String) (args : List (Val V))

/-- The attributes of an object (`__dict__`). -/
def Attrs (V : Type) := String → Option (Val V)

/-- An object without attributes. -/
def Attrs.empty {V : Type} : Attrs V := fun _ => .none

/-- `self.k = v`. -/
def Attrs.set {V : Type} (o : Attrs V) (k : String) (v : Val V) : Attrs V := fun n => if n = k then some v else o n

/-- Assignments, one after the other. -/
def Attrs.sets {V : Type} (o : Attrs V) (l : List (String × Val V)) : Attrs V := l.foldl (fun o t => o.set t.1 t.2) o

variable {V : Type}

/-- `WithoutClassifiers.__init__` (base.py:45-50) after `super().__init__`. -/
def withoutInit (o : Attrs V) (verbose : Val V) : Attrs V := o.sets [("verbose", verbose), ("classes_", .none)]

/-- `UsingClassifiers.__init__` (base.py:147-160) after `super().__init__`. -/
def usingInit (o : Attrs V) (estTrain estTest needs prob verbose : Val V) : Attrs V :=
  o.sets [("estimator_train", estTrain), ("estimator_test", estTest), ("needs_predictions_train", needs), ("probabilistic_predictions", prob), ("verbose", verbose),
    ("predictions_test_", .none), ("predictions_train_", .none), ("classes_", .none), ("y_ext_", .none)]

/-- `REG.__init__` (regression.py:108-121). -/
def regInit (gen nBins strategy est verbose : Val V) : Attrs V :=
  Attrs.empty.sets [("bag_generator", gen), ("n_bins", nBins), ("bin_strategy", strategy), ("regression_estimator", est), ("verbose", verbose), ("dataX_", .none), ("dataY_", .none), ("bincuts_", .none),
    ("estimators_", .none), ("models_", .none), ("n_classes_", .none)]

/-- `DFy.__init__` (df.py:193-214). -/
def dfyInit (estTrain estTest f nBins strategy distance tol verbose : Val V) : Attrs V :=
  (usingInit Attrs.empty estTrain estTest .true .true verbose).sets [("distribution_function", f), ("n_bins", nBins), ("bin_strategy", strategy), ("distance", distance), ("tol", tol), ("bincuts_", .none), ("classes_", .none),
    ("train_distrib_", .none), ("test_distrib_", .none), ("G_", .none), ("C_", .none), ("b_", .none), ("problem_", .none), ("mixtures_", .none)]

/-- `DFX.__init__` (df.py:497-516). -/
def dfxInit (f nBins strategy distance tol verbose : Val V) : Attrs V :=
  (withoutInit Attrs.empty verbose).sets [("distribution_function", f), ("n_bins", nBins), ("bin_strategy", strategy), ("distance", distance), ("tol", tol), ("bincuts_", .none), ("train_distrib_", .none), ("test_distrib_", .none),
    ("G_", .none), ("C_", .none), ("b_", .none), ("problem_", .none), ("mixtures_", .none)]

/-- `FrankAndHallClassifier.__init__` (frank_and_hall.py:84-92). -/
def fhInit (estimator nJobs verbose paramsFit : Val V) : Attrs V :=
  Attrs.empty.sets [("estimator", estimator), ("verbose", verbose), ("n_jobs", nJobs), ("params_fit", paramsFit), ("classes_", .none), ("estimators_", .none), ("label_binarizer_", .none)]

/-- The classes whose objects users create. -/
inductive Cls where
  | ac | pac | cc | pcc | deBias | sordy | quanty | ovr | fhq | dfy | em | edy | cvmy | friedman | acOrdinal | pdfOrdinaly | dfx | edx | eoq | ensemble | cv | fh | hdy | mmy | hdx | fhMonotone | fhTree | fhBinarizer | ddag | pwk | pwkQuantifier | regx | regy | ordTree
  deriving DecidableEq

/-- The names of the arguments of the constructor, which `get_params` reads from its signature (the file and lines of each are those of `init`). -/
def signature : Cls → List String
  | .ac => ["estimator_train", "estimator_test", "distance", "verbose"]
  | .pac => ["estimator_test", "estimator_train", "distance", "verbose"]
  | .cc => ["estimator_test", "verbose"]
  | .pcc => ["estimator_test", "verbose"]
  | .deBias => ["estimator_test", "estimator_train", "verbose"]
  | .sordy => ["estimator_train", "estimator_test", "tol", "verbose"]
  | .quanty => ["estimator_train", "estimator_test", "n_quantiles", "distance", "tol", "verbose"]
  | .ovr => ["base_quantifier", "estimator_train", "estimator_test", "verbose"]
  | .fhq => ["quantifier", "estimator_train", "estimator_test", "verbose"]
  | .dfy => ["estimator_train", "estimator_test", "distribution_function", "n_bins", "bin_strategy", "distance", "tol", "verbose"]
  | .em => ["estimator_train", "estimator_test", "verbose", "epsilon", "max_iter"]
  | .edy => ["estimator_train", "estimator_test", "distance", "verbose"]
  | .cvmy => ["estimator_train", "estimator_test", "distance", "verbose"]
  | .friedman => ["estimator_test", "estimator_train", "distance", "tol", "verbose"]
  | .acOrdinal => ["estimator_train", "estimator_test", "verbose"]
  | .pdfOrdinaly => ["estimator_train", "estimator_test", "n_bins", "distance", "method", "tol", "verbose"]
  | .dfx => ["distribution_function", "n_bins", "bin_strategy", "distance", "tol", "verbose"]
  | .edx => ["distance", "verbose"]
  | .eoq => ["base_quantifier", "n_quantifiers", "bag_generator", "combination_strategy", "ensemble_estimator_train", "ensemble_estimator_test", "distribution_function", "n_bins", "bin_strategy", "distance_bags", "percentage_of_selected_models", "verbose"]
  | .ensemble => ["base_estimator", "n_jobs", "verbose"]
  | .cv => ["estimator", "groups", "cv", "n_jobs", "fit_params", "pre_dispatch", "averaged_predictions", "voting", "verbose"]
  | .fh => ["estimator", "n_jobs", "verbose", "params_fit"]
  | .hdy => ["estimator_train", "estimator_test", "n_bins", "bin_strategy", "tol", "verbose"]
  | .mmy => ["estimator_train", "estimator_test", "n_bins", "bin_strategy", "tol", "verbose"]
  | .hdx => ["n_bins", "bin_strategy", "tol"]
  | .fhMonotone => ["estimator", "n_jobs", "verbose", "params_fit"]
  | .fhTree => ["estimator", "n_jobs", "verbose", "performance_measure", "params_fit"]
  | .fhBinarizer => ["neg_label", "pos_label"]
  | .ddag => ["estimator", "n_jobs", "predict_method", "verbose"]
  | .pwk => ["n_neighbors", "algorithm", "leaf_size", "p", "metric", "metric_params", "n_jobs"]
  | .pwkQuantifier => ["n_neighbors", "p", "metric", "metric_params", "verbose"]
  | .regx => ["bag_generator", "n_bins", "bin_strategy", "regression_estimator", "verbose"]
  | .regy => ["estimator_train", "estimator_test", "bag_generator", "n_bins", "bin_strategy", "regression_estimator", "verbose"]
  | .ordTree => ["estimator_test", "verbose"]

/-- The attributes of a new object, for the values `args` of the arguments. -/
def init : Cls → (String → Val V) → Attrs V
  -- `AC` (baselines/ac.py:119-129)
  | .ac, args => (usingInit Attrs.empty (args "estimator_train") (args "estimator_test") .true .false (args "verbose")).sets [("distance", args "distance"), ("cm_", .none), ("G_", .none), ("C_", .none), ("b_", .none), ("problem_", .none)]
  -- `PAC` (baselines/ac.py:373-383)
  | .pac, args => (usingInit Attrs.empty (args "estimator_train") (args "estimator_test") .true .true (args "verbose")).sets [("distance", args "distance"), ("cm_", .none), ("G_", .none), ("C_", .none), ("b_", .none), ("problem_", .none)]
  -- `CC` (baselines/cc.py:77-79)
  | .cc, args => (usingInit Attrs.empty .none (args "estimator_test") .false .false (args "verbose"))
  -- `PCC` (baselines/cc.py:206-208)
  | .pcc, args => (usingInit Attrs.empty .none (args "estimator_test") .false .true (args "verbose"))
  -- `DeBias` (binary/debias.py:97-103)
  | .deBias, args => (usingInit Attrs.empty (args "estimator_train") (args "estimator_test") .true .true (args "verbose")).sets [("train_prevs_", .none), ("Vt_", .none)]
  -- `SORDy` (binary/emd.py:108-117)
  | .sordy, args => (usingInit Attrs.empty (args "estimator_train") (args "estimator_test") .true .true (args "verbose")).sets [("tol", args "tol"), ("train_distrib_", .none), ("train_labels_", .none), ("union_distrib_", .none), ("union_labels_", .none)]
  -- `QUANTy` (binary/quantiles.py:129-140)
  | .quanty, args => (usingInit Attrs.empty (args "estimator_train") (args "estimator_test") .true .true (args "verbose")).sets [("n_quantiles", args "n_quantiles"), ("distance", args "distance"), ("tol", args "tol"), ("train_distrib_", .none), ("train_labels_", .none), ("test_distrib_", .none), ("mixtures_", .none)]
  -- `OneVsRestQuantifier` (decomposition/multiclass.py:89-94)
  | .ovr, args => (usingInit Attrs.empty (args "estimator_train") (args "estimator_test") .true .true (args "verbose")).sets [("base_quantifier", args "base_quantifier"), ("quantifiers_", .none)]
  -- `FrankAndHallQuantifier` (decomposition/ordinal.py:90-96)
  | .fhq, args => (usingInit Attrs.empty (args "estimator_train") (args "estimator_test") .true .true (args "verbose")).sets [("quantifier", args "quantifier"), ("quantifiers_", .none), ("classes_", .none)]
  -- `DFy` (multiclass/df.py:193-214)
  | .dfy, args => dfyInit (args "estimator_train") (args "estimator_test") (args "distribution_function") (args "n_bins") (args "bin_strategy") (args "distance") (args "tol") (args "verbose")
  -- `EM` (multiclass/em.py:103-108)
  | .em, args => (usingInit Attrs.empty (args "estimator_train") (args "estimator_test") .true .true (args "verbose")).sets [("epsilon_", args "epsilon"), ("max_iter_", args "max_iter"), ("prevalences_train_", .none)]
  -- `EDy` (multiclass/energy.py:122-134)
  | .edy, args => (usingInit Attrs.empty (args "estimator_train") (args "estimator_test") .true .true (args "verbose")).sets [("distance", args "distance"), ("train_n_cls_i_", .none), ("train_distrib_", .none), ("K_", .none), ("G_", .none), ("C_", .none), ("b_", .none), ("a_", .none)]
  -- `CvMy` (multiclass/energy.py:334-347)
  | .cvmy, args => (usingInit Attrs.empty (args "estimator_train") (args "estimator_test") .true .true (args "verbose")).sets [("distance", args "distance"), ("train_n_cls_i_", .none), ("train_distrib_", .none), ("test_distrib_", .none), ("K_", .none), ("G_", .none), ("C_", .none), ("b_", .none), ("a_", .none)]
  -- `FriedmanME` (multiclass/friedman.py:132-147)
  | .friedman, args => (usingInit Attrs.empty (args "estimator_train") (args "estimator_test") .true .true (args "verbose")).sets [("distance", args "distance"), ("tol", args "tol"), ("train_distrib_", .none), ("test_distrib_", .none), ("train_prevs_", .none), ("G_", .none), ("C_", .none), ("b_", .none), ("problem_", .none), ("mixtures_", .none)]
  -- `ACOrdinal` (ordinal/ac_ordinal.py:112-119)
  | .acOrdinal, args => (usingInit Attrs.empty (args "estimator_train") (args "estimator_test") .true .false (args "verbose")).sets [("cm_", .none), ("train_distrib_", .none), ("test_distrib_", .none), ("problem_", .none)]
  -- `PDFOrdinaly` (ordinal/pdf.py:135-151)
  | .pdfOrdinaly, args => (usingInit Attrs.empty (args "estimator_train") (args "estimator_test") .true .true (args "verbose")).sets [("n_bins", args "n_bins"), ("distance", args "distance"), ("method", args "method"), ("tol", args "tol"), ("train_distrib_", .none), ("test_distrib_", .none), ("G_", .none), ("C_", .none), ("b_", .none), ("problem_", .none)]
  -- `DFX` (multiclass/df.py:497-516)
  | .dfx, args => dfxInit (args "distribution_function") (args "n_bins") (args "bin_strategy") (args "distance") (args "tol") (args "verbose")
  -- `EDX` (multiclass/energy.py:490-500)
  | .edx, args => (withoutInit Attrs.empty (args "verbose")).sets [("distance_", args "distance"), ("train_n_cls_i_", .none), ("train_distrib_", .none), ("K_", .none), ("G_", .none), ("C_", .none), ("b_", .none)]
  -- `EoQ` (ensembles/eoq.py:155-183)
  | .eoq, args => Attrs.empty.sets [("base_quantifier", args "base_quantifier"), ("n_quantifiers", args "n_quantifiers"), ("bag_generator", args "bag_generator"), ("combination_strategy", args "combination_strategy"), ("ensemble_estimator_train", args "ensemble_estimator_train"), ("ensemble_estimator_test", args "ensemble_estimator_test"), ("distribution_function", args "distribution_function"), ("n_bins", args "n_bins"), ("bin_strategy", args "bin_strategy"), ("distance_bags", args "distance_bags"), ("percentage_of_selected_models", args "percentage_of_selected_models"), ("verbose", args "verbose"), ("quantifiers_", .none), ("prevalences_", .none), ("indexes_", .none), ("bincuts_", .none), ("distributions_", .none), ("classes_", .none)]
  -- `EnsembleOfClassifiers` (estimators/ensembles.py:70-77)
  | .ensemble, args => Attrs.empty.sets [("base_estimator", args "base_estimator"), ("verbose", args "verbose"), ("n_jobs", args "n_jobs"), ("classes_", .none), ("n_estimators_", .zero), ("estimators_", .none)]
  -- `CV_estimator` (estimators/cross_validation.py:117-132)
  | .cv, args => Attrs.empty.sets [("estimator", args "estimator"), ("groups", args "groups"), ("cv", args "cv"), ("n_jobs", args "n_jobs"), ("fit_params", args "fit_params"), ("pre_dispatch", args "pre_dispatch"), ("averaged_predictions", args "averaged_predictions"), ("voting", args "voting"), ("verbose", args "verbose"), ("estimators_", .emptyTuple), ("le_", .none), ("classes_", .none), ("X_train_", .none), ("y_train_", .none)]
  -- `FrankAndHallClassifier` (estimators/frank_and_hall.py:84-92)
  | .fh, args => fhInit (args "estimator") (args "n_jobs") (args "verbose") (args "params_fit")
  -- `HDy` (multiclass/df.py:370-373)
  | .hdy, args => dfyInit (args "estimator_train") (args "estimator_test") (.str "PDF") (args "n_bins") (args "bin_strategy") (.str "HD") (args "tol") (args "verbose")
  -- `MMy` (multiclass/df.py:386-390)
  | .mmy, args => dfyInit (args "estimator_train") (args "estimator_test") (.str "CDF") (args "n_bins") (args "bin_strategy") (.str "L1") (args "tol") (args "verbose")
  -- `HDX` (multiclass/df.py:636-638)
  | .hdx, args => dfxInit (.str "PDF") (args "n_bins") (args "bin_strategy") (.str "HD") (args "tol") .zero
  -- `FrankAndHallMonotoneClassifier` (estimators/frank_and_hall.py:362-364)
  | .fhMonotone, args => fhInit (args "estimator") (args "n_jobs") (args "verbose") (args "params_fit")
  -- `FrankAndHallTreeClassifier` (estimators/frank_and_hall.py:653-658)
  | .fhTree, args => (fhInit (args "estimator") (args "n_jobs") (args "verbose") (args "params_fit")).sets [("performance_measure", args "performance_measure"), ("tree_", .none)]
  -- `FHLabelBinarizer` (estimators/frank_and_hall.py:972-973)
  | .fhBinarizer, args => Attrs.empty.sets [("neg_label", args "neg_label"), ("pos_label", args "pos_label"), ("sparse_output", .false)]
  -- `DDAGClassifier` (estimators/ordinal_ddag.py:201-207)
  | .ddag, args => Attrs.empty.sets [("estimator", args "estimator"), ("n_jobs", args "n_jobs"), ("predict_method", args "predict_method"), ("verbose", args "verbose"), ("classes_", .none)]
  -- `PWK` (estimators/weighted_knn.py:86-92)
  | .pwk, args => Attrs.empty.sets [("knn_", .built "KNeighborsClassifier" [args "n_neighbors", args "algorithm", args "leaf_size", args "metric", args "p", args "metric_params", args "n_jobs"]), ("classes_", .none), ("weights_", .none), ("y_", .none)]
  -- `PWKQuantifier` (multiclass/knn.py:74-79)
  | .pwkQuantifier, args => (withoutInit Attrs.empty (args "verbose")).sets [("knn_estimator_", .built "PWK" [args "n_neighbors", args "p", args "metric", args "metric_params"]), ("cm_", .none), ("problem_", .none)]
  -- `REGX` (multiclass/regression.py:330-333)
  | .regx, args => withoutInit (regInit (args "bag_generator") (args "n_bins") (args "bin_strategy") (args "regression_estimator") .zero) (args "verbose")
  -- `REGy` (multiclass/regression.py:522-527)
  | .regy, args => usingInit (regInit (args "bag_generator") (args "n_bins") (args "bin_strategy") (args "regression_estimator") .zero) (args "estimator_train") (args "estimator_test") .true .true (args "verbose")
  -- `OrdinalQuantificationTree` (ordinal/trees.py:37-39)
  | .ordTree, args => usingInit Attrs.empty .none (.built "FrankAndHallTreeClassifier" [args "estimator_test"]) .false .true (args "verbose")

/-- The attributes that the methods of the class, and those they inherit, can assign (`fit` and `predict`, estimators/cross_validation.py:153 for `cv`; base.py:64, 194, 247-260, 302-310 for the inherited ones, and the methods of the files cited in `init`). -/
def assigned : Cls → List String
  | .ac => ["cm_", "problem_", "G_", "C_", "b_", "classes_", "y_ext_", "predictions_train_", "predictions_test_"]
  | .pac => ["cm_", "problem_", "G_", "C_", "b_", "classes_", "y_ext_", "predictions_train_", "predictions_test_"]
  | .cc => ["classes_", "y_ext_", "predictions_train_", "predictions_test_"]
  | .pcc => ["classes_", "y_ext_", "predictions_train_", "predictions_test_"]
  | .deBias => ["train_prevs_", "Vt_", "classes_", "y_ext_", "predictions_train_", "predictions_test_"]
  | .sordy => ["train_distrib_", "train_labels_", "union_distrib_", "union_labels_", "classes_", "y_ext_", "predictions_train_", "predictions_test_"]
  | .quanty => ["train_distrib_", "train_labels_", "mixtures_", "test_distrib_", "classes_", "y_ext_", "predictions_train_", "predictions_test_"]
  | .ovr => ["classes_", "quantifiers_", "needs_predictions_train", "y_ext_", "predictions_train_", "predictions_test_"]
  | .fhq => ["classes_", "quantifiers_", "needs_predictions_train", "y_ext_", "predictions_train_", "predictions_test_"]
  | .dfy => ["bincuts_", "train_distrib_", "problem_", "mixtures_", "G_", "C_", "b_", "test_distrib_", "classes_", "y_ext_", "predictions_train_", "predictions_test_"]
  | .em => ["prevalences_train_", "classes_", "y_ext_", "predictions_train_", "predictions_test_"]
  | .edy => ["train_distrib_", "train_n_cls_i_", "K_", "G_", "C_", "b_", "a_", "classes_", "y_ext_", "predictions_train_", "predictions_test_"]
  | .cvmy => ["train_distrib_", "train_n_cls_i_", "test_distrib_", "a_", "K_", "G_", "C_", "b_", "classes_", "y_ext_", "predictions_train_", "predictions_test_"]
  | .friedman => ["train_prevs_", "train_distrib_", "problem_", "mixtures_", "G_", "C_", "b_", "test_distrib_", "classes_", "y_ext_", "predictions_train_", "predictions_test_"]
  | .acOrdinal => ["cm_", "train_distrib_", "problem_", "test_distrib_", "classes_", "y_ext_", "predictions_train_", "predictions_test_"]
  | .pdfOrdinaly => ["train_distrib_", "problem_", "G_", "C_", "b_", "test_distrib_", "classes_", "y_ext_", "predictions_train_", "predictions_test_"]
  | .dfx => ["bincuts_", "train_distrib_", "problem_", "mixtures_", "G_", "C_", "b_", "test_distrib_", "classes_"]
  | .edx => ["train_distrib_", "train_n_cls_i_", "K_", "G_", "C_", "b_", "classes_"]
  | .eoq => ["classes_", "prevalences_", "indexes_", "bincuts_", "quantifiers_", "distributions_"]
  | .ensemble => ["classes_", "n_estimators_", "estimators_"]
  | .cv => ["X_train_", "y_train_", "classes_", "le_", "cv", "estimators_"]
  | .fh => ["label_binarizer_", "classes_", "estimators_"]
  | .hdy => ["bincuts_", "train_distrib_", "problem_", "mixtures_", "G_", "C_", "b_", "test_distrib_", "classes_", "y_ext_", "predictions_train_", "predictions_test_"]
  | .mmy => ["bincuts_", "train_distrib_", "problem_", "mixtures_", "G_", "C_", "b_", "test_distrib_", "classes_", "y_ext_", "predictions_train_", "predictions_test_"]
  | .hdx => ["bincuts_", "train_distrib_", "problem_", "mixtures_", "G_", "C_", "b_", "test_distrib_", "classes_"]
  | .fhMonotone => ["label_binarizer_", "classes_", "estimators_"]
  | .fhTree => ["label_binarizer_", "classes_", "estimators_", "tree_"]
  | .fhBinarizer => ["y_type_", "sparse_input_", "classes_"]
  | .ddag => ["classes_", "estimators_", "pairwise_indices_", "n_features_in_"]
  | .pwk => ["y_", "classes_", "weights_"]
  | .pwkQuantifier => ["cm_", "problem_", "classes_"]
  | .regx => ["n_classes_", "bincuts_", "dataX_", "dataY_", "estimators_", "models_", "classes_"]
  | .regy => ["n_classes_", "bincuts_", "dataX_", "dataY_", "estimators_", "models_", "classes_", "y_ext_", "predictions_train_", "predictions_test_"]
  | .ordTree => ["classes_", "y_ext_", "predictions_train_", "predictions_test_"]

/-- `get_params(deep=False)`: the attributes with the names of the arguments. -/
def getParams (c : Cls) (o : Attrs V) : Except SkErr (List (String × Val V)) :=
  (signature c).mapM fun n =>
    match o n with
    | some v => .ok (n, v)
    | none => .error .attributeError

/-- `get_params(deep=True)`: also the parameters of the nested objects; `deep` says which cannot be read. -/
def getParamsDeep (deep : Val V → Option SkErr) (c : Cls) (o : Attrs V) : Except SkErr (List (String × Val V)) :=
  (signature c).mapM fun n =>
    match o n with
    | some v =>
      match deep v with
      | some e => .error e
      | none => .ok (n, v)
    | none => .error .attributeError

/-- The loop of `set_params`: an unknown name is a ValueError, after the assignments of the names before it. -/
def setLoop (c : Cls) (o : Attrs V) : List (String × Val V) → Attrs V × Option SkErr
  | [] => (o, none)
  | (k, v) :: l => if k ∈ signature c then setLoop c (o.set k v) l else (o, some .valueError)

/-- `set_params(**params)`: the object after the call, and the error if it fails. -/
def setParams (deep : Val V → Option SkErr) (c : Cls) (o : Attrs V) (params : List (String × Val V)) : Attrs V × Option SkErr :=
  if params = [] then (o, none)
  else
    match getParamsDeep deep c o with
    | .error e => (o, some e)
    | .ok _ => setLoop c o params

/-- What `CV_estimator.fit` does to the settings (estimators/cross_validation.py:153): `cv` becomes the splitter that `check_cv` makes from it. -/
def cvFitSettings (checkCv : Val V → Val V) (o : Attrs V) : Attrs V :=
  match o "cv" with
  | some v => o.set "cv" (checkCv v)
  | none => o

/-- The value of a name in a list of parameters. -/
def lookup (l : List (String × Val V)) (n : String) : Val V := ((l.find? fun t => t.1 = n).map Prod.snd).getD .none

open Classical in
/-- `sklearn.base.clone(o)`: `copy` are the copies of the parameters (clones of estimators, deep copies of the rest). The constructor must leave in the new object the very parameters it is given. -/
noncomputable def cloneObj (copy : Val V → Except SkErr (Val V)) (c : Cls) (o : Attrs V) : Except SkErr (Attrs V) :=
  match getParams c o with
  | .error e => .error e
  | .ok ps =>
    match ps.mapM fun t => (copy t.2).map fun v => (t.1, v) with
    | .error e => .error e
    | .ok qs =>
      match getParams c (init c (lookup qs)) with
      | .error e => .error e
      | .ok rs => if rs = qs then .ok (init c (lookup qs)) else .error .runtimeError

end Verif.Model
