{
 "claims": [
  {
   "property": "C01",
   "status": "proved",
   "theorems": [
    "Verif.Props.C01_cc_empty",
    "Verif.Props.C01_cc_fit",
    "Verif.Props.C01_cc_unknown_labels",
    "Verif.Props.C01_cc_valid",
    "Verif.Props.C01_cc_valid_estimator"
   ],
   "note": ""
  },
  {
   "property": "C02",
   "status": "proved",
   "theorems": [
    "Verif.Props.C02_cc_perm",
    "Verif.Props.C02_cc_pool",
    "Verif.Props.C02_pcc_perm",
    "Verif.Props.C02_pcc_pool"
   ],
   "note": ""
  },
  {
   "property": "C03",
   "status": "proved",
   "theorems": [
    "Verif.Props.C03_pcc_empty",
    "Verif.Props.C03_pcc_eq_cc_on_onehot",
    "Verif.Props.C03_pcc_valid"
   ],
   "note": ""
  },
  {
   "property": "C04",
   "status": "proved",
   "theorems": [
    "Verif.Props.C04_cc_pcc_fit",
    "Verif.Props.C04_fit_estimator_eq_supplied",
    "Verif.Props.C04_fit_stores_supplied",
    "Verif.Props.C04_fit_supplied_wins",
    "Verif.Props.C04_fit_valueError_iff",
    "Verif.Props.C04_predict_estimator_eq_supplied",
    "Verif.Props.C04_predict_supplied_wins",
    "Verif.Props.C04_predict_valueError_iff"
   ],
   "note": ""
  },
  {
   "property": "C05",
   "status": "proved",
   "theorems": [
    "Verif.Props.C05_crisp",
    "Verif.Props.C05_estimator",
    "Verif.Props.C05_labels_aligned",
    "Verif.Props.C05_labels_aligned_any"
   ],
   "note": ""
  },
  {
   "property": "C06",
   "status": "proved",
   "theorems": [
    "Verif.Props.C06_cc_keeps",
    "Verif.Props.C06_cc_trains",
    "Verif.Props.C06_first_fit_wins",
    "Verif.Props.C06_trained_at_most_once"
   ],
   "note": ""
  },
  {
   "property": "C07",
   "status": "partial",
   "theorems": [
    "Verif.Props.C07_binary_column_breaks_cc",
    "Verif.Props.C07_binary_column_partial",
    "Verif.Props.C07_binary_column_refuted",
    "Verif.Props.C07_fit_converts",
    "Verif.Props.C07_matrix_argmax",
    "Verif.Props.C07_matrix_known",
    "Verif.Props.C07_predict_converts"
   ],
   "note": "The one-column clause is false unless the labels are 0 and 1: C07_binary_column_refuted; C07_binary_column_partial covers labels 0/1."
  },
  {
   "property": "C08",
   "status": "proved",
   "theorems": [
    "Verif.Props.C08_ac_confusion",
    "Verif.Props.C08_ac_estimator",
    "Verif.Props.C08_pac_confusion"
   ],
   "note": ""
  },
  {
   "property": "C09",
   "status": "proved",
   "theorems": [
    "Verif.Props.C09_ac_binary_valid",
    "Verif.Props.C09_binary_formula",
    "Verif.Props.C09_binary_unadjusted",
    "Verif.Props.C09_pac_binary_valid",
    "Verif.Props.C09_pwk_binary_valid"
   ],
   "note": ""
  },
  {
   "property": "C10",
   "status": "proved",
   "theorems": [
    "Verif.Props.C10_ac_valid",
    "Verif.Props.C10_multi_valid",
    "Verif.Props.C10_pac_valid",
    "Verif.Props.C10_singular"
   ],
   "note": ""
  },
  {
   "property": "C11",
   "status": "proved",
   "theorems": [
    "Verif.Props.C11_ac_recovery",
    "Verif.Props.C11_binary_recovery",
    "Verif.Props.C11_multi_recovery",
    "Verif.Props.C11_pac_recovery",
    "Verif.Props.C11_recovery"
   ],
   "note": ""
  },
  {
   "property": "C12",
   "status": "proved",
   "theorems": [
    "Verif.Props.C12_ac_self",
    "Verif.Props.C12_pac_self"
   ],
   "note": ""
  },
  {
   "property": "C13",
   "status": "proved",
   "theorems": [
    "Verif.Props.C13_absolute_error",
    "Verif.Props.C13_bias",
    "Verif.Props.C13_relative_absolute_error",
    "Verif.Props.C13_relative_absolute_error_value",
    "Verif.Props.C13_sape",
    "Verif.Props.C13_squared_error"
   ],
   "note": ""
  },
  {
   "property": "C14",
   "status": "proved",
   "theorems": [
    "Verif.Props.C14_nas",
    "Verif.Props.C14_nss"
   ],
   "note": ""
  },
  {
   "property": "C15",
   "status": "partial",
   "theorems": [
    "Verif.Props.C15_binary_kld_negative_refuted",
    "Verif.Props.C15_binary_kld_partial",
    "Verif.Props.C15_binary_kld_refuted"
   ],
   "note": "The stated behaviour is false: binary_kld is NaN at the extreme prevalences (C15_binary_kld_refuted) and can be strictly negative (C15_binary_kld_negative_refuted). C15_binary_kld_partial: finite and bounded below by minus a smoothing term on the open interval."
  },
  {
   "property": "C16",
   "status": "proved",
   "theorems": [
    "Verif.Props.C16_hd",
    "Verif.Props.C16_l1",
    "Verif.Props.C16_l2",
    "Verif.Props.C16_length_check",
    "Verif.Props.C16_mean_absolute_error",
    "Verif.Props.C16_mean_squared_error",
    "Verif.Props.C16_probsymmetric"
   ],
   "note": ""
  },
  {
   "property": "C17",
   "status": "proved",
   "theorems": [
    "Verif.Props.C17_bray_curtis",
    "Verif.Props.C17_hd_le",
    "Verif.Props.C17_l1_le",
    "Verif.Props.C17_l2_le",
    "Verif.Props.C17_le_cam",
    "Verif.Props.C17_mae_le",
    "Verif.Props.C17_probsymmetric_le"
   ],
   "note": ""
  },
  {
   "property": "C18",
   "status": "proved",
   "theorems": [
    "Verif.Props.C18_jensenshannon",
    "Verif.Props.C18_jensenshannon_self_pos",
    "Verif.Props.C18_topsoe",
    "Verif.Props.C18_topsoe_le"
   ],
   "note": "Both parts proved for every positive smoothing constant; C18_jensenshannon_self_pos records that jensenshannon(p,p) is not exactly 0 but in (0, n*eps/2]."
  },
  {
   "property": "C19",
   "status": "partial",
   "theorems": [
    "Verif.Props.C19_kld_partial",
    "Verif.Props.C19_kld_self_negative_refuted",
    "Verif.Props.C19_kld_zero_class_refuted"
   ],
   "note": "The stated behaviour is false: kld is NaN as soon as a true prevalence is 0 (C19_kld_zero_class_refuted) and strictly negative for a perfect prediction (C19_kld_self_negative_refuted). C19_kld_partial: finite and >= -log2(1+n*eps) when all true prevalences are positive."
  },
  {
   "property": "C20",
   "status": "proved",
   "theorems": [
    "Verif.Props.C20_class_order"
   ],
   "note": ""
  },
  {
   "property": "C21",
   "status": "proved",
   "theorems": [
    "Verif.Props.C21_one_iff",
    "Verif.Props.C21_range",
    "Verif.Props.C21_value",
    "Verif.Props.C21_zero_iff"
   ],
   "note": ""
  },
  {
   "property": "C22",
   "status": "proved",
   "theorems": [
    "Verif.Props.C22_brier_multi"
   ],
   "note": ""
  },
  {
   "property": "C23",
   "status": "proved",
   "theorems": [
    "Verif.Props.C23_emd_metric",
    "Verif.Props.C23_emd_optimal_transport"
   ],
   "note": ""
  },
  {
   "property": "C24",
   "status": "proved",
   "theorems": [
    "Verif.Props.C24_extreme_score_zero",
    "Verif.Props.C24_extremes_are_worst",
    "Verif.Props.C24_score"
   ],
   "note": ""
  },
  {
   "property": "C25",
   "status": "proved",
   "theorems": [
    "Verif.Props.C25_emd_distances"
   ],
   "note": ""
  },
  {
   "property": "C26",
   "status": "proved",
   "theorems": [
    "Verif.Props.C26_l2",
    "Verif.Props.C26_l2_exact",
    "Verif.Props.C26_l2_near"
   ],
   "note": ""
  },
  {
   "property": "C27",
   "status": "proved",
   "theorems": [
    "Verif.Props.C27_factor",
    "Verif.Props.C27_is_pd",
    "Verif.Props.C27_leading_minor"
   ],
   "note": ""
  },
  {
   "property": "C28",
   "status": "proved",
   "theorems": [
    "Verif.Props.C28_energy",
    "Verif.Props.C28_energy_near"
   ],
   "note": ""
  },
  {
   "property": "C29",
   "status": "proved",
   "theorems": [
    "Verif.Props.C29_cached_mixtures",
    "Verif.Props.C29_cached_mixtures_not_stale",
    "Verif.Props.C29_warm_start_equals_fresh",
    "Verif.Props.C29_warm_start_is_not_stale"
   ],
   "note": ""
  },
  {
   "property": "C30",
   "status": "proved",
   "theorems": [
    "Verif.Props.C30_golden_section_bracket",
    "Verif.Props.C30_golden_section_errors",
    "Verif.Props.C30_golden_section_looks_at_few_points"
   ],
   "note": ""
  },
  {
   "property": "C31",
   "status": "proved",
   "theorems": [
    "Verif.Props.C31_golden_section_convex",
    "Verif.Props.C31_golden_section_unimodal"
   ],
   "note": ""
  },
  {
   "property": "C32",
   "status": "partial",
   "theorems": [
    "Verif.Props.C32_reported_loss_partial",
    "Verif.Props.C32_reported_loss_refuted"
   ],
   "note": "False for every injective distance (C32_reported_loss_refuted): the loss belongs to a golden section point, the prevalence is the centre of the bracket. C32_reported_loss_partial: the reported loss is the distance at a point closer than the tolerance."
  },
  {
   "property": "C33",
   "status": "partial",
   "theorems": [
    "Verif.Props.C33_global_search_convex_partial",
    "Verif.Props.C33_global_search_lipschitz_partial",
    "Verif.Props.C33_global_search_refuted",
    "Verif.Props.C33_global_search_unimodal_partial",
    "Verif.Props.C33_global_search_valid_partial",
    "Verif.Props.C33_matching_partial"
   ],
   "note": "False (C33_global_search_refuted: a convex distance with its minimum at 0.99 is answered with a prevalence below 0.02). Partial theorems: validity for every finite distance; near-optimality for convex and unimodal distances outside the last two grid cells; for convex distances that change at most by L per unit, near-optimality up to L / 50 without conditions, except that ValueError may be raised when all prevalences are that good."
  },
  {
   "property": "C34",
   "status": "proved",
   "theorems": [
    "Verif.Props.C34_mixture_of_pdfs"
   ],
   "note": ""
  },
  {
   "property": "C35",
   "status": "partial",
   "theorems": [
    "Verif.Props.C35_quantiles_error_partial",
    "Verif.Props.C35_quantiles_of_mixture_partial",
    "Verif.Props.C35_quantiles_of_test_sample",
    "Verif.Props.C35_quantiles_refuted"
   ],
   "note": "compute_quantiles drops a remaining weight below 0.0001 and then loses mass (C35_quantiles_refuted). C35_quantiles_of_test_sample: full statement for equal weights; C35_quantiles_of_mixture_partial: for weighted samples when no cut falls within the threshold. C35_quantiles_error_partial: for all weighted samples, up to n / 10000 in each quantile and 1 / 10000 in the average (for scores between -1 and 1)."
  },
  {
   "property": "C36",
   "status": "proved",
   "theorems": [
    "Verif.Props.C36_sord_is_wasserstein"
   ],
   "note": ""
  },
  {
   "property": "C37",
   "status": "proved",
   "theorems": [
    "Verif.Props.C37_prior_shift_bags"
   ],
   "note": ""
  },
  {
   "property": "C38",
   "status": "proved",
   "theorems": [
    "Verif.Props.C38_min_prevalence"
   ],
   "note": ""
  },
  {
   "property": "C39",
   "status": "partial",
   "theorems": [
    "Verif.Props.C39_first_call_partial",
    "Verif.Props.C39_second_call_refuted"
   ],
   "note": "False: the bags of the first call are returned by every later call (C39_second_call_refuted). The first call is right (C39_first_call_partial)."
  },
  {
   "property": "C40",
   "status": "partial",
   "theorems": [
    "Verif.Props.C40_bag_size_refuted",
    "Verif.Props.C40_early_failure_partial",
    "Verif.Props.C40_failed_call_refuted"
   ],
   "note": "False: a failure after the arrays are allocated makes the next call return arrays of zeros (C40_failed_call_refuted), and a failed call fixes bag_size=None to the size of its data (C40_bag_size_refuted). Proved for failures before allocation with an explicit bag size (C40_early_failure_partial)."
  },
  {
   "property": "C41",
   "status": "partial",
   "theorems": [
    "Verif.Props.C41_dirichlet_refuted",
    "Verif.Props.C41_mixed_uniform_reproducible_partial",
    "Verif.Props.C41_uniform_reproducible_partial"
   ],
   "note": "False for the Dirichlet method, which draws prevalences from the global generator (C41_dirichlet_refuted). Proved for the uniform method; the covariate generator's model has no access to the global generator."
  },
  {
   "property": "C42",
   "status": "partial",
   "theorems": [
    "Verif.Props.C42_covariate_bags",
    "Verif.Props.C42_mixed_bags_partial",
    "Verif.Props.C42_mixed_default_size_refuted"
   ],
   "note": "False for the mixed generator with its default bag_size=None, which always raises TypeError (C42_mixed_default_size_refuted). Proved with an explicit bag size and for the covariate generator."
  },
  {
   "property": "C43",
   "status": "partial",
   "theorems": [
    "Verif.Props.C43_constant_feature_refuted",
    "Verif.Props.C43_dfx_distributions",
    "Verif.Props.C43_dfx_normal_partial",
    "Verif.Props.C43_dfy_binormal_partial",
    "Verif.Props.C43_dfy_distributions"
   ],
   "note": "False for normal bins on a constant feature, whose examples may all fall outside the bins (C43_constant_feature_refuted). Proved for equal-width and equal-count bins, and for normal and binormal bins when the deviations are positive (partial)."
  },
  {
   "property": "C44",
   "status": "partial",
   "theorems": [
    "Verif.Props.C44_dfx_cdf",
    "Verif.Props.C44_dfy_binary_partial",
    "Verif.Props.C44_dfy_multiclass_refuted"
   ],
   "note": "Proved for DFX. False for DFy with three or more classes: the block of descriptor d ends at d+1 (C44_dfy_multiclass_refuted); proved for DFy with two classes (partial)."
  },
  {
   "property": "C45",
   "status": "proved",
   "theorems": [
    "Verif.Props.C45_dfx_mixture",
    "Verif.Props.C45_dfy_mixture",
    "Verif.Props.C45_energy",
    "Verif.Props.C45_l1_training_bag",
    "Verif.Props.C45_zero_loss"
   ],
   "note": ""
  },
  {
   "property": "C46",
   "status": "partial",
   "theorems": [
    "Verif.Props.C46_binormal_partial",
    "Verif.Props.C46_equal_count",
    "Verif.Props.C46_equal_width",
    "Verif.Props.C46_normal_constant_refuted",
    "Verif.Props.C46_normal_partial"
   ],
   "note": "False for the normal strategy on a constant sample: the cut points run from -1/2 to 1/2 (C46_normal_constant_refuted). Proved for equal_width, for equal_count with fewer than two bins per example (see C125), and for normal and binormal with a positive deviation (partial)."
  },
  {
   "property": "C47",
   "status": "proved",
   "theorems": [
    "Verif.Props.C47_em_iterates",
    "Verif.Props.C47_em_valid"
   ],
   "note": ""
  },
  {
   "property": "C48",
   "status": "proved",
   "theorems": [
    "Verif.Props.C48_em_answer",
    "Verif.Props.C48_em_likelihood"
   ],
   "note": ""
  },
  {
   "property": "C49",
   "status": "proved",
   "theorems": [
    "Verif.Props.C49_em_iterations",
    "Verif.Props.C49_em_stops"
   ],
   "note": ""
  },
  {
   "property": "C50",
   "status": "proved",
   "theorems": [
    "Verif.Props.C50_debias_fixed",
    "Verif.Props.C50_debias_formula",
    "Verif.Props.C50_debias_valid",
    "Verif.Props.C50_debias_zero_variance"
   ],
   "note": ""
  },
  {
   "property": "C51",
   "status": "partial",
   "theorems": [
    "Verif.Props.C51_ovr_faithful",
    "Verif.Props.C51_ovr_partial",
    "Verif.Props.C51_two_classes_refuted"
   ],
   "note": "False with two classes: LabelBinarizer returns one column and fit raises IndexError at the second class (C51_two_classes_refuted). Proved for three or more classes (C51_ovr_partial, C51_ovr_faithful)."
  },
  {
   "property": "C52",
   "status": "partial",
   "theorems": [
    "Verif.Props.C52_fh_faithful",
    "Verif.Props.C52_fh_partial",
    "Verif.Props.C52_two_classes_refuted"
   ],
   "note": "False with two classes: fit raises IndexError (C52_two_classes_refuted). Proved for three or more classes (C52_fh_partial, C52_fh_faithful)."
  },
  {
   "property": "C53",
   "status": "proved",
   "theorems": [
    "Verif.Props.C53_correction",
    "Verif.Props.C53_correction_monotone"
   ],
   "note": ""
  },
  {
   "property": "C54",
   "status": "proved",
   "theorems": [
    "Verif.Props.C54_friedman"
   ],
   "note": ""
  },
  {
   "property": "C55",
   "status": "proved",
   "theorems": [
    "Verif.Props.C55_pwk_predict",
    "Verif.Props.C55_pwk_proba",
    "Verif.Props.C55_pwk_weights",
    "Verif.Props.C55_single_class"
   ],
   "note": ""
  },
  {
   "property": "C56",
   "status": "proved",
   "theorems": [
    "Verif.Props.C56_reg_binary",
    "Verif.Props.C56_reg_multiclass",
    "Verif.Props.C56_reg_multiclass_nan"
   ],
   "note": ""
  },
  {
   "property": "C57",
   "status": "partial",
   "theorems": [
    "Verif.Props.C57_bag_size_refuted",
    "Verif.Props.C57_regy_bins_partial",
    "Verif.Props.C57_same_size_partial"
   ],
   "note": "False: training histograms are divided by the number of training examples instead of the bag size (C57_bag_size_refuted). Proved when they coincide, as with bag_size=None; the bins of REGy with equal widths are always those of the interval from 0 to 1 (partial)."
  },
  {
   "property": "C58",
   "status": "partial",
   "theorems": [
    "Verif.Props.C58_separate_generators_partial",
    "Verif.Props.C58_shared_generator_refuted"
   ],
   "note": "False: all objects built with the default arguments hold one bag generator, which returns the bags of the first fit for ever (C58_shared_generator_refuted). Proved for objects with different generators (partial). The part about the ensemble EoQ is C90."
  },
  {
   "property": "C59",
   "status": "proved",
   "theorems": [
    "Verif.Props.C59_eoqx_unanimous",
    "Verif.Props.C59_eoqx_valid",
    "Verif.Props.C59_eoqy_unanimous",
    "Verif.Props.C59_eoqy_valid",
    "Verif.Props.C59_none_selected"
   ],
   "note": "Proved for both families of quantifiers (C59_eoqx_valid, C59_eoqx_unanimous, C59_eoqy_valid, C59_eoqy_unanimous). C59_none_selected shows what happens without the hypothesis that some member is selected: NaN for every class."
  },
  {
   "property": "C60",
   "status": "partial",
   "theorems": [
    "Verif.Props.C60_classifiers_partial",
    "Verif.Props.C60_crisp_rejected",
    "Verif.Props.C60_refuted",
    "Verif.Props.C60_representative_bags_partial"
   ],
   "note": "False: the distributions stored for all the members are that of the whole training set, so that the selection is arbitrary (C60_refuted, for every sorting algorithm). Proved when all the bags have the distribution of the training set (partial), also with classifiers."
  },
  {
   "property": "C61",
   "status": "proved",
   "theorems": [
    "Verif.Props.C61_testing_set",
    "Verif.Props.C61_training_set",
    "Verif.Props.C61_training_set_averaged"
   ],
   "note": "Proved for splitters that give the same folds in every call (the default, and any with a fixed random_state): training examples are predicted by models trained without them, in every repetition; other data by every model. See C96 for splitters that shuffle."
  },
  {
   "property": "C62",
   "status": "partial",
   "theorems": [
    "Verif.Props.C62_ends_partial",
    "Verif.Props.C62_middle_refuted"
   ],
   "note": "False for the classes in the middle: 1 - a*b is computed instead of (1-a)*b (frank_and_hall.py:253); the two agree only when b = 1 (C62_middle_refuted). Partial: the first and the last class are right and all the values are in [0,1]."
  },
  {
   "property": "C63",
   "status": "partial",
   "theorems": [
    "Verif.Props.C63_envelopes_refuted",
    "Verif.Props.C63_monotone_partial"
   ],
   "note": "`ascending is False` (frank_and_hall.py:538) compares an array with the object False, so no row is ever corrected (C63_envelopes_refuted). Partial: the rows are still distributions, their cumulative sums are the running maxima, and they are the averages of the envelopes when the binary outputs are already nondecreasing."
  },
  {
   "property": "C64",
   "status": "proved",
   "theorems": [
    "Verif.Props.C64_tree_probabilities"
   ],
   "note": ""
  },
  {
   "property": "C65",
   "status": "partial",
   "theorems": [
    "Verif.Props.C65_tree_order_partial",
    "Verif.Props.C65_wrong_group_refuted"
   ],
   "note": "False: the examples with label 0 are counted for the left group, but the left group has label 1 (frank_and_hall.py:800), so the prevalence of the right group is used (C65_wrong_group_refuted). Partial: apart from that, every node has the first model with the smallest loss of its subtree and every model is in the tree exactly once (this for every performance measure, also with NaN)."
  },
  {
   "property": "C66",
   "status": "proved",
   "theorems": [
    "Verif.Props.C66_distribution",
    "Verif.Props.C66_paths"
   ],
   "note": ""
  },
  {
   "property": "C67",
   "status": "proved",
   "theorems": [
    "Verif.Props.C67_pair_model"
   ],
   "note": ""
  },
  {
   "property": "C68",
   "status": "proved",
   "theorems": [
    "Verif.Props.C68_winner_node"
   ],
   "note": ""
  },
  {
   "property": "C69",
   "status": "proved",
   "theorems": [
    "Verif.Props.C69_fh_binarizer",
    "Verif.Props.C69_fh_binarizer_rows",
    "Verif.Props.C69_two_classes_error"
   ],
   "note": ""
  },
  {
   "property": "C70",
   "status": "partial",
   "theorems": [
    "Verif.Props.C70_processes_partial",
    "Verif.Props.C70_shared_refuted"
   ],
   "note": "False when the tasks share the process, which is the default (n_jobs=None) or with threads: base_estimator.fit returns the same object, so every estimator is the one trained last (C70_shared_refuted, for every order of the calls). True when joblib runs the tasks in other processes (C70_processes_partial). The bags are the columns of indexes, although the docstring says rows."
  },
  {
   "property": "C71",
   "status": "proved",
   "theorems": [
    "Verif.Props.C71_optimal",
    "Verif.Props.C71_prior_shift",
    "Verif.Props.C71_train_matrix"
   ],
   "note": "Exact solver (ExactCvx) is a hypothesis; known predictions (every prediction is one of the training labels) is a hypothesis."
  },
  {
   "property": "C72",
   "status": "proved",
   "theorems": [
    "Verif.Props.C72_full_score",
    "Verif.Props.C72_histogram",
    "Verif.Props.C72_scores_range",
    "Verif.Props.C72_winner_score"
   ],
   "note": "winner_node: the score is the expected position for posteriors with two consecutive classes, as those of the tree classifiers; other posteriors only get the range."
  },
  {
   "property": "C73",
   "status": "proved",
   "theorems": [
    "Verif.Props.C73_ac",
    "Verif.Props.C73_df_hd",
    "Verif.Props.C73_df_l1",
    "Verif.Props.C73_df_l2",
    "Verif.Props.C73_dfx_optimal",
    "Verif.Props.C73_dfy_optimal",
    "Verif.Props.C73_objectives_bounded",
    "Verif.Props.C73_pac",
    "Verif.Props.C73_solve_hd_optimal",
    "Verif.Props.C73_solve_l1_optimal"
   ],
   "note": ""
  },
  {
   "property": "C74",
   "status": "partial",
   "theorems": [
    "Verif.Props.C74_ac",
    "Verif.Props.C74_cc",
    "Verif.Props.C74_pac",
    "Verif.Props.C74_single_column_refuted"
   ],
   "note": "Proved for labels and for matrices of probabilities. False for a single column of probabilities, which is cut into the integers 0 and 1 whatever the classes are called (C74_single_column_refuted)."
  },
  {
   "property": "C75",
   "status": "proved",
   "theorems": [
    "Verif.Props.C75_nearest_pd",
    "Verif.Props.C75_nearest_pd_any_svd",
    "Verif.Props.C75_nearest_pd_of_psd"
   ],
   "note": ""
  },
  {
   "property": "C76",
   "status": "proved",
   "theorems": [
    "Verif.Props.C76_EDX",
    "Verif.Props.C76_EDy",
    "Verif.Props.C76_energy_quantifier"
   ],
   "note": ""
  },
  {
   "property": "C77",
   "status": "proved",
   "theorems": [
    "Verif.Props.C77_cvm_recovery",
    "Verif.Props.C77_exact_recovery",
    "Verif.Props.C77_near_recovery"
   ],
   "note": ""
  },
  {
   "property": "C78",
   "status": "proved",
   "theorems": [
    "Verif.Props.C78_cvm_rank_invariant",
    "Verif.Props.C78_cvm_valid",
    "Verif.Props.C78_rank_no_ties"
   ],
   "note": ""
  },
  {
   "property": "C79",
   "status": "proved",
   "theorems": [
    "Verif.Props.C79_order_irrelevant",
    "Verif.Props.C79_repetition_irrelevant"
   ],
   "note": ""
  },
  {
   "property": "C80",
   "status": "proved",
   "theorems": [
    "Verif.Props.C80_sordy_consistent",
    "Verif.Props.C80_sordy_minimises_wasserstein"
   ],
   "note": ""
  },
  {
   "property": "C81",
   "status": "partial",
   "theorems": [
    "Verif.Props.C81_hd_recovers_mixture_partial",
    "Verif.Props.C81_hd_recovers_mixture_refuted",
    "Verif.Props.C81_l1_recovers_mixture"
   ],
   "note": "False for solve_hd when the columns have different totals, as for cumulative histograms (C81_hd_recovers_mixture_refuted). Proved for solve_l1, and for solve_hd with equal column totals (C81_hd_recovers_mixture_partial)."
  },
  {
   "property": "C82",
   "status": "partial",
   "theorems": [
    "Verif.Props.C82_attainable_partial",
    "Verif.Props.C82_comes_back_partial",
    "Verif.Props.C82_ends_rejected_partial",
    "Verif.Props.C82_infeasible_minimum_refuted",
    "Verif.Props.C82_mixed_partial",
    "Verif.Props.C82_unattainable_refuted",
    "Verif.Props.C82_uniform_returns_partial"
   ],
   "note": "False with three or more classes: minimum prevalences that are accepted but whose numbers of examples add up to the size of the bag or more (so also when they add up to exactly 1, as 0.25, 0.5, 0.25) make generate_bags loop for ever (C82_unattainable_refuted, C82_infeasible_minimum_refuted). Proved otherwise: below that total a fair generator brings it back (C82_attainable_partial), the first and last minimum alone are checked (C82_ends_rejected_partial), and without minima, with at most two classes or with the Dirichlet method it always comes back (C82_comes_back_partial, C82_mixed_partial)."
  },
  {
   "property": "C83",
   "status": "partial",
   "theorems": [
    "Verif.Props.C83_repeated_predictions_partial",
    "Verif.Props.C83_repeated_predictions_refuted"
   ],
   "note": "False: with normal or binormal bins fit raises IndexError (C83_repeated_predictions_refuted). Proved for the other strategies (partial)."
  },
  {
   "property": "C84",
   "status": "partial",
   "theorems": [
    "Verif.Props.C84_callable_refuted",
    "Verif.Props.C84_one_entry_per_class_partial"
   ],
   "note": "False: with a distance function the answer has two entries whatever the number of classes (C84_callable_refuted). Proved in the other cases (partial)."
  },
  {
   "property": "C85",
   "status": "proved",
   "theorems": [
    "Verif.Props.C85_pwkq_matrix",
    "Verif.Props.C85_pwkq_self"
   ],
   "note": ""
  },
  {
   "property": "C86",
   "status": "proved",
   "theorems": [
    "Verif.Props.C86_em_fixed_point",
    "Verif.Props.C86_em_perm",
    "Verif.Props.C86_em_stationary"
   ],
   "note": ""
  },
  {
   "property": "C87",
   "status": "proved",
   "theorems": [
    "Verif.Props.C87_debias_exact"
   ],
   "note": ""
  },
  {
   "property": "C88",
   "status": "partial",
   "theorems": [
    "Verif.Props.C88_other_labels_refuted",
    "Verif.Props.C88_zero_neg_label_partial"
   ],
   "note": "False unless neg_label is 0: summing columns adds neg_label once per class (C88_other_labels_refuted). Proved for neg_label 0 (partial)."
  },
  {
   "property": "C89",
   "status": "partial",
   "theorems": [
    "Verif.Props.C89_answers_change_refuted",
    "Verif.Props.C89_own_regressors_partial",
    "Verif.Props.C89_shared_regressor_refuted"
   ],
   "note": "False with two classes: the given regressor itself is trained (C89_shared_regressor_refuted, C89_answers_change_refuted). Proved for other numbers of classes, GLMs and separate regressors (partial)."
  },
  {
   "property": "C90",
   "status": "partial",
   "theorems": [
    "Verif.Props.C90_separate_generators_partial",
    "Verif.Props.C90_shared_generator_refuted"
   ],
   "note": "False: the default bag generator is shared and returns the bags of the first fit; a second object with more members cannot be fitted (C90_shared_generator_refuted). Proved for objects with different generators (partial)."
  },
  {
   "property": "C91",
   "status": "partial",
   "theorems": [
    "Verif.Props.C91_bins_refuted",
    "Verif.Props.C91_cdf_classifiers_refuted",
    "Verif.Props.C91_cdf_refuted",
    "Verif.Props.C91_estimators_partial",
    "Verif.Props.C91_generated_bags_partial",
    "Verif.Props.C91_given_bags_partial"
   ],
   "note": "False: with 'CDF' fit never returns (C91_cdf_refuted, C91_cdf_classifiers_refuted), and without classifiers it never returns unless n_bins is 100 (C91_bins_refuted). Proved for 'PDF': without classifiers with 100 bins, and with a new ensemble of classifiers and bins of equal width (partial)."
  },
  {
   "property": "C92",
   "status": "partial",
   "theorems": [
    "Verif.Props.C92_bag_size_refuted",
    "Verif.Props.C92_eoqx_own_bag",
    "Verif.Props.C92_eoqy_own_bag",
    "Verif.Props.C92_eoqy_repeated_partial"
   ],
   "note": "Proved with one prediction per example. With several, fit never returns unless the bags are as large as the training set (C92_bag_size_refuted), in which case it holds (partial)."
  },
  {
   "property": "C93",
   "status": "partial",
   "theorems": [
    "Verif.Props.C93_all_classes_partial",
    "Verif.Props.C93_missing_class_refuted",
    "Verif.Props.C93_single_class_refuted"
   ],
   "note": "False: a single prevalence is recorded for every class (C93_single_class_refuted), and other vectors that are too short raise ValueError (C93_missing_class_refuted). Proved when members predict all the classes (partial)."
  },
  {
   "property": "C94",
   "status": "proved",
   "theorems": [
    "Verif.Props.C94_eoqx_prevalence_similarity",
    "Verif.Props.C94_eoqy_prevalence_similarity"
   ],
   "note": ""
  },
  {
   "property": "C95",
   "status": "proved",
   "theorems": [
    "Verif.Props.C95_eoqx_mean_median",
    "Verif.Props.C95_eoqy_mean_median"
   ],
   "note": ""
  },
  {
   "property": "C96",
   "status": "partial",
   "theorems": [
    "Verif.Props.C96_shuffled_refuted"
   ],
   "note": "False: _predict_proba calls cv_.split again, twice. With a splitter whose calls differ the fold numbers and the models do not match, and examples may be predicted by the model trained with them (C96_shuffled_refuted). C61 is the positive part."
  },
  {
   "property": "C97",
   "status": "partial",
   "theorems": [
    "Verif.Props.C97_all_classes_partial",
    "Verif.Props.C97_missing_class_refuted",
    "Verif.Props.C97_single_class_refuted"
   ],
   "note": "False: the row of a model that knows a single class is broadcast to all the classes (rows sum to the number of classes) and other short rows raise an error. Partial: when every model knows all the classes the averaged rows are distributions."
  },
  {
   "property": "C98",
   "status": "proved",
   "theorems": [
    "Verif.Props.C98_fitted",
    "Verif.Props.C98_predict"
   ],
   "note": ""
  },
  {
   "property": "C99",
   "status": "partial",
   "theorems": [
    "Verif.Props.C99_last_class_refuted"
   ],
   "note": "False: with three or more classes predict never returns the last class, because the wrong value of the previous class is never smaller (C99_last_class_refuted)."
  },
  {
   "property": "C100",
   "status": "partial",
   "theorems": [
    "Verif.Props.C100_models_partial",
    "Verif.Props.C100_two_classes_refuted"
   ],
   "note": "Proved for three or more classes; with two classes fit raises IndexError (C100_two_classes_refuted)."
  },
  {
   "property": "C101",
   "status": "proved",
   "theorems": [
    "Verif.Props.C101_certain_class",
    "Verif.Props.C101_certain_returned",
    "Verif.Props.C101_predict"
   ],
   "note": ""
  },
  {
   "property": "C102",
   "status": "partial",
   "theorems": [
    "Verif.Props.C102_refit_refuted"
   ],
   "note": "False: a second fit trains nothing, it only replaces classes_ (C102_refit_refuted). The first fit is C70."
  },
  {
   "property": "C103",
   "status": "partial",
   "theorems": [
    "Verif.Props.C103_predict",
    "Verif.Props.C103_predict_proba",
    "Verif.Props.C103_single_class_refuted"
   ],
   "note": "predict is proved for every ensemble; predict_proba when each estimator has a column per class. With a bag of a single class the code records probability 1 for every class (C103_single_class_refuted)."
  },
  {
   "property": "C104",
   "status": "proved",
   "theorems": [
    "Verif.Props.C104_emd_any_solver",
    "Verif.Props.C104_emd_optimal"
   ],
   "note": ""
  },
  {
   "property": "C105",
   "status": "partial",
   "theorems": [
    "Verif.Props.C105_few_classes",
    "Verif.Props.C105_hd_optimal",
    "Verif.Props.C105_l2_optimal",
    "Verif.Props.C105_other_refuted",
    "Verif.Props.C105_unknown_method"
   ],
   "note": "HD and L2 are proved (L2: exact when the class histograms are linearly independent, otherwise within half a floating point spacing, the perturbation of the Gram matrix). False for the documented 'L1' and for a function: predict returns None (C105_other_refuted)."
  },
  {
   "property": "C106",
   "status": "proved",
   "theorems": [
    "Verif.Props.C106_given_predictions",
    "Verif.Props.C106_tree_prevalences"
   ],
   "note": "Both for predict(X) and for given predictions."
  },
  {
   "property": "C107",
   "status": "partial",
   "theorems": [
    "Verif.Props.C107_interrupted_refuted",
    "Verif.Props.C107_refit_refuted"
   ],
   "note": "False: a second fit keeps the first classifier and only replaces classes_ (C107_refit_refuted); after an exception while the tree is built every later fit raises ValueError (C107_interrupted_refuted)."
  },
  {
   "property": "C108",
   "status": "proved",
   "theorems": [
    "Verif.Props.C108_single_quantile"
   ],
   "note": ""
  },
  {
   "property": "C109",
   "status": "proved",
   "theorems": [
    "Verif.Props.C109_bag_order",
    "Verif.Props.C109_empty_bag",
    "Verif.Props.C109_multiclass",
    "Verif.Props.C109_train_order",
    "Verif.Props.C109_valid"
   ],
   "note": ""
  },
  {
   "property": "C110",
   "status": "proved",
   "theorems": [
    "Verif.Props.C110_binary",
    "Verif.Props.C110_distances",
    "Verif.Props.C110_jensenshannon",
    "Verif.Props.C110_kld",
    "Verif.Props.C110_probsymmetric",
    "Verif.Props.C110_topsoe",
    "Verif.Props.C110_two_classes"
   ],
   "note": ""
  },
  {
   "property": "C111",
   "status": "proved",
   "theorems": [
    "Verif.Props.C111_normalize"
   ],
   "note": ""
  },
  {
   "property": "C112",
   "status": "proved",
   "theorems": [
    "Verif.Props.C112_lines"
   ],
   "note": ""
  },
  {
   "property": "C113",
   "status": "proved",
   "theorems": [
    "Verif.Props.C113_order"
   ],
   "note": ""
  },
  {
   "property": "C114",
   "status": "proved",
   "theorems": [
    "Verif.Props.C114_no_interference",
    "Verif.Props.C114_other_training"
   ],
   "note": ""
  },
  {
   "property": "C115",
   "status": "proved",
   "theorems": [
    "Verif.Props.C115_ac",
    "Verif.Props.C115_aco",
    "Verif.Props.C115_cc",
    "Verif.Props.C115_cvmy",
    "Verif.Props.C115_debias",
    "Verif.Props.C115_dfy",
    "Verif.Props.C115_edy",
    "Verif.Props.C115_em",
    "Verif.Props.C115_friedman",
    "Verif.Props.C115_pac",
    "Verif.Props.C115_pcc",
    "Verif.Props.C115_pdfo",
    "Verif.Props.C115_sordy"
   ],
   "note": ""
  },
  {
   "property": "C116",
   "status": "partial",
   "theorems": [
    "Verif.Props.C116_failed_fit_refuted",
    "Verif.Props.C116_same_labels_partial"
   ],
   "note": "Proved when the second training set has the same labels (C116_same_labels_partial). False otherwise: classes_ is assigned before the checks (base.py:194), so that after a fit that raised ValueError the confusion matrix of AC is used with the labels of the rejected training set (C116_failed_fit_refuted)."
  },
  {
   "property": "C117",
   "status": "proved",
   "theorems": [
    "Verif.Props.C117_debias",
    "Verif.Props.C117_pdfo",
    "Verif.Props.C117_quanty",
    "Verif.Props.C117_sordy",
    "Verif.Props.C117_sordy_fit"
   ],
   "note": ""
  },
  {
   "property": "C118",
   "status": "partial",
   "theorems": [
    "Verif.Props.C118_first_points_partial",
    "Verif.Props.C118_loss_computed_partial",
    "Verif.Props.C118_no_exception_partial",
    "Verif.Props.C118_swallowed_refuted"
   ],
   "note": "Proved for distances that do not raise and for the first two points. False inside the loop: a bare except (search.py:183-187, 197-201) keeps the previous loss, so that a distance that fails everywhere but at the first two points gives the right end of the interval (C118_swallowed_refuted)."
  },
  {
   "property": "C119",
   "status": "proved",
   "theorems": [
    "Verif.Props.C119_multiclass",
    "Verif.Props.C119_predict_multiclass",
    "Verif.Props.C119_predict_two_classes",
    "Verif.Props.C119_regx_multiclass",
    "Verif.Props.C119_regx_two_classes",
    "Verif.Props.C119_regy_two_classes",
    "Verif.Props.C119_two_classes"
   ],
   "note": ""
  },
  {
   "property": "C120",
   "status": "proved",
   "theorems": [
    "Verif.Props.C120_predict",
    "Verif.Props.C120_required",
    "Verif.Props.C120_trained_once"
   ],
   "note": "Ensembles that are not fitted are new ones, joblib runs each task once, and other estimators can predict after their own fit."
  },
  {
   "property": "C121",
   "status": "partial",
   "theorems": [
    "Verif.Props.C121_own_classifier_partial",
    "Verif.Props.C121_predict_partial",
    "Verif.Props.C121_refit_refuted"
   ],
   "note": "Proved for a new ensemble whose tasks run in other processes (C70) and whose classifiers know all the classes (partial). False for a second fit: the ensemble keeps the classifiers of the first training set, so that members are trained with the new bags and the predictions of the old classifiers (C121_refit_refuted)."
  },
  {
   "property": "C122",
   "status": "partial",
   "theorems": [
    "Verif.Props.C122_few_members_refuted",
    "Verif.Props.C122_predict_raises_refuted",
    "Verif.Props.C122_single_partial",
    "Verif.Props.C122_unanimous_refuted"
   ],
   "note": "False: the matrix of labels (a column per classifier) is taken for a matrix of probabilities (a column per class), and its first largest label for the class. With two or more members and classifiers that agree, the answer is that everything is of the first class (C122_unanimous_refuted); an IndexError if the largest label is in a column beyond the classes (C122_predict_raises_refuted); with three or more classes and fewer bags fit never returns (C122_few_members_refuted). True with one bag (partial)."
  },
  {
   "property": "C123",
   "status": "partial",
   "theorems": [
    "Verif.Props.C123_cv_fitted_partial",
    "Verif.Props.C123_cv_unfitted_partial",
    "Verif.Props.C123_ens_unfitted_partial",
    "Verif.Props.C123_fh_base_refuted",
    "Verif.Props.C123_fh_fitted_partial",
    "Verif.Props.C123_fh_rejected_refuted",
    "Verif.Props.C123_new_partial",
    "Verif.Props.C123_stuck_refuted",
    "Verif.Props.C123_tree_fitted_partial"
   ],
   "note": "Proved for CV_estimator and EnsembleOfClassifiers, for new objects and once a call has returned, and for the Frank and Hall classifiers, with and without a tree, once a call has returned. False of the Frank and Hall classifiers, which assign classes_ before anything else and test only that: after a first call to fit that fails, predict raises TypeError (data rejected by check_X_y, C123_fh_rejected_refuted) or AttributeError (a binary model that fails, C123_fh_base_refuted), and every later fit of a quantifier with that estimator raises AttributeError (C123_stuck_refuted)."
  },
  {
   "property": "C124",
   "status": "partial",
   "theorems": [
    "Verif.Props.C124_cv_fresh_partial",
    "Verif.Props.C124_cv_relabels_refuted",
    "Verif.Props.C124_ens_rejected_partial",
    "Verif.Props.C124_ens_retry_refuted",
    "Verif.Props.C124_fh_fresh_partial",
    "Verif.Props.C124_fh_relabels_refuted",
    "Verif.Props.C124_tree_fresh_partial",
    "Verif.Props.C124_tree_rejected_partial"
   ],
   "note": "Proved: a call that returns erases the past for Frank and Hall (also with the tree) and CV_estimator; rejected training sets leave no trace in an EnsembleOfClassifiers, nor in the classifier with a tree if the labels are the same (partial). False: after a call that fails, the models of the previous training set answer with the labels of the rejected one (C124_fh_relabels_refuted, C124_cv_relabels_refuted); an EnsembleOfClassifiers whose training failed is never trained again, although fit returns (C124_ens_retry_refuted)."
  },
  {
   "property": "C125",
   "status": "partial",
   "theorems": [
    "Verif.Props.C125_dfx_refuted",
    "Verif.Props.C125_dfy_refuted",
    "Verif.Props.C125_equal_count_partial",
    "Verif.Props.C125_equal_count_refuted",
    "Verif.Props.C125_unsorted_refuted"
   ],
   "note": "Proved for fewer bins than twice the examples (partial). False beyond: with more than two bins per example the last cut point is read after the end of the sample and compute_bincuts always raises IndexError (C125_equal_count_refuted, and C125_dfx_refuted, C125_dfy_refuted for fit); with exactly two bins per example the first cut point is computed with sorted_values[-1], and cut points can decrease (C125_unsorted_refuted)."
  },
  {
   "property": "C126",
   "status": "partial",
   "theorems": [
    "Verif.Props.C126_ac",
    "Verif.Props.C126_aco",
    "Verif.Props.C126_cc",
    "Verif.Props.C126_cvmy_order_partial",
    "Verif.Props.C126_cvmy_repetition_refuted",
    "Verif.Props.C126_debias",
    "Verif.Props.C126_dfx",
    "Verif.Props.C126_dfy",
    "Verif.Props.C126_edx",
    "Verif.Props.C126_edy",
    "Verif.Props.C126_em",
    "Verif.Props.C126_eoqx",
    "Verif.Props.C126_eoqy",
    "Verif.Props.C126_friedman",
    "Verif.Props.C126_pac",
    "Verif.Props.C126_pcc",
    "Verif.Props.C126_pdfo",
    "Verif.Props.C126_pwkq",
    "Verif.Props.C126_quanty",
    "Verif.Props.C126_reg",
    "Verif.Props.C126_sordy"
   ],
   "note": "Proved for every method but CvMy: for QUANTy up to 9999 quantiles (the loop has a tolerance of 1e-4), for SORDy with two classes. REGX and REGy have it with every regressor (C126_reg), EoQ when its members have it (C126_eoqx, C126_eoqy). CvMy ranks the predictions of the bag among the training ones, so that its order does not matter (C126_cvmy_order_partial) but repeating the bag changes the answer (C126_cvmy_repetition_refuted)."
  },
  {
   "property": "C127",
   "status": "partial",
   "theorems": [
    "Verif.Props.C127_ac_partial",
    "Verif.Props.C127_aco_partial",
    "Verif.Props.C127_cc_partial",
    "Verif.Props.C127_cvmy_partial",
    "Verif.Props.C127_debias_partial",
    "Verif.Props.C127_dfy_partial",
    "Verif.Props.C127_edy_partial",
    "Verif.Props.C127_em_partial",
    "Verif.Props.C127_friedman_partial",
    "Verif.Props.C127_not_retrained_refuted",
    "Verif.Props.C127_pac_partial",
    "Verif.Props.C127_pcc_partial",
    "Verif.Props.C127_pdfo_partial",
    "Verif.Props.C127_quanty_partial",
    "Verif.Props.C127_refit_refuted",
    "Verif.Props.C127_sordy_partial"
   ],
   "note": "The attributes of the quantifier do not remember earlier fits (C127_*_partial for fourteen classes; DFy, FriedmanME, ACOrdinal and PDFOrdinaly for solvers whose answer does not depend on where they start). The estimators do: fit trains only estimators that are not fitted, so a second call of fit trains nothing (C127_not_retrained_refuted) and a CC fitted with two training sets one after the other answers with the classifier of the first (C127_refit_refuted). The proved theorems compare objects whose last fit finds the estimators in the same state."
  },
  {
   "property": "C128",
   "status": "proved",
   "theorems": [
    "Verif.Props.C128_ac",
    "Verif.Props.C128_aco",
    "Verif.Props.C128_cvmy",
    "Verif.Props.C128_dfx",
    "Verif.Props.C128_dfx_norm",
    "Verif.Props.C128_dfy",
    "Verif.Props.C128_dfy_norm",
    "Verif.Props.C128_edx",
    "Verif.Props.C128_edy",
    "Verif.Props.C128_friedman",
    "Verif.Props.C128_friedman_norm",
    "Verif.Props.C128_hdy",
    "Verif.Props.C128_own_classifier",
    "Verif.Props.C128_pac",
    "Verif.Props.C128_pdfo",
    "Verif.Props.C128_sordy"
   ],
   "note": "Proved through the whole call of fit and predict with given predictions; C128_own_classifier reduces the case with estimators to it. Solvers are exact (stated hypotheses)."
  },
  {
   "property": "C129",
   "status": "partial",
   "theorems": [
    "Verif.Props.C129_ac",
    "Verif.Props.C129_aco",
    "Verif.Props.C129_cc",
    "Verif.Props.C129_cvmy_partial",
    "Verif.Props.C129_cvmy_size_refuted",
    "Verif.Props.C129_debias",
    "Verif.Props.C129_dfx",
    "Verif.Props.C129_dfy",
    "Verif.Props.C129_edx",
    "Verif.Props.C129_edy",
    "Verif.Props.C129_em",
    "Verif.Props.C129_equal_count_refuted",
    "Verif.Props.C129_friedman",
    "Verif.Props.C129_pac",
    "Verif.Props.C129_pcc",
    "Verif.Props.C129_pdfo",
    "Verif.Props.C129_quanty_partial",
    "Verif.Props.C129_sordy"
   ],
   "note": "Proved for CC, PCC, AC, PAC, EM, DeBias, FriedmanME, EDy, ACOrdinal, PDFOrdinaly and EDX for training sets of any sizes, for SORDy with two classes and nonempty bags, and for DFy/HDy/MMy and DFX/HDX with every strategy but 'equal_count', which needs training sets of the same size. False of DFX with 'equal_count' when the training set is repeated (C129_equal_count_refuted: an IndexError with few examples disappears) and of CvMy, whose ranks mix training set and bag (C129_cvmy_size_refuted). For QUANTy only the order is covered, with distinct probabilities. Regression-based quantifiers, ensembles and PWKQ are not covered: they draw samples or call scikit-learn's neighbours."
  },
  {
   "property": "C130",
   "status": "partial",
   "theorems": [
    "Verif.Props.C130_em_finite_partial",
    "Verif.Props.C130_em_rejects_partial",
    "Verif.Props.C130_one_iteration_refuted"
   ],
   "note": "Refuted for max_iter=1: the loop leaves before the check, and EM returns NaN for every class. Proved for every larger limit."
  },
  {
   "property": "C131",
   "status": "partial",
   "theorems": [
    "Verif.Props.C131_emd_score_partial",
    "Verif.Props.C131_emd_score_row_refuted",
    "Verif.Props.C131_metric_layout",
    "Verif.Props.C131_mixed_layout",
    "Verif.Props.C131_other_length"
   ],
   "note": "Refuted for emd_score with rows: `prevs[0, :] = 1` fills the whole row, so the score of the worst prediction is 2/3 instead of 0. Proved for flat arrays and columns, and for every other metric in every layout."
  },
  {
   "property": "C132",
   "status": "partial",
   "theorems": [
    "Verif.Props.C132_columns",
    "Verif.Props.C132_distance_between_vectors_partial",
    "Verif.Props.C132_grid_refuted",
    "Verif.Props.C132_library_metrics_partial",
    "Verif.Props.C132_user_distance_refuted"
   ],
   "note": "Refuted for distances written with NumPy: the mixtures of the grid are flat and the distribution of the bag is a column, so `np.sum(np.abs(p - q))` adds over all pairs of bins; a witness where the library metric gives a prevalence of at least 0.98 and the same distance written with NumPy raises ValueError. Proved for the metrics of the library."
  },
  {
   "property": "C133",
   "status": "partial",
   "theorems": [
    "Verif.Props.C133_column_partial",
    "Verif.Props.C133_one_example_refuted"
   ],
   "note": "Refuted for one example: its prediction in a column raises IndexError. Proved for every other number of examples."
  },
  {
   "property": "C134",
   "status": "partial",
   "theorems": [
    "Verif.Props.C134_any_layout_partial",
    "Verif.Props.C134_crisp_partial",
    "Verif.Props.C134_one_class_refuted",
    "Verif.Props.C134_one_class_value_refuted",
    "Verif.Props.C134_probabilistic"
   ],
   "note": "Refuted for CC and AC with a single class: the answer has no dimensions. Proved for two or more classes, and for PCC and PAC always."
  },
  {
   "property": "C135",
   "status": "proved",
   "theorems": [
    "Verif.Props.C135_ac",
    "Verif.Props.C135_constant",
    "Verif.Props.C135_pac",
    "Verif.Props.C135_two_classes"
   ],
   "note": ""
  },
  {
   "property": "C136",
   "status": "proved",
   "theorems": [
    "Verif.Props.C136_ac",
    "Verif.Props.C136_pac"
   ],
   "note": ""
  },
  {
   "property": "C137",
   "status": "proved",
   "theorems": [
    "Verif.Props.C137_aco",
    "Verif.Props.C137_constant",
    "Verif.Props.C137_dfx",
    "Verif.Props.C137_dfx_norm",
    "Verif.Props.C137_dfy",
    "Verif.Props.C137_dfy_norm",
    "Verif.Props.C137_edx",
    "Verif.Props.C137_edy",
    "Verif.Props.C137_energy_constant",
    "Verif.Props.C137_friedman",
    "Verif.Props.C137_friedman_norm"
   ],
   "note": "Of the distances given as callables the norms of the difference are covered, with two classes (C137_dfy_norm, C137_dfx_norm, C137_friedman_norm). 'HD' requires representations with equal totals and 'L2' independent ones, as in C73 and C26."
  },
  {
   "property": "C138",
   "status": "partial",
   "theorems": [
    "Verif.Props.C138_ac",
    "Verif.Props.C138_cc",
    "Verif.Props.C138_crisp_partial",
    "Verif.Props.C138_cvmy",
    "Verif.Props.C138_debias",
    "Verif.Props.C138_dfx",
    "Verif.Props.C138_dfy_partial",
    "Verif.Props.C138_dfy_refuted",
    "Verif.Props.C138_edx",
    "Verif.Props.C138_edy",
    "Verif.Props.C138_em",
    "Verif.Props.C138_friedman",
    "Verif.Props.C138_pac",
    "Verif.Props.C138_pcc",
    "Verif.Props.C138_ties_refuted"
   ],
   "note": "Refuted for DFy with two classes: it uses the probabilities of the first class only and its bins are closed on the left, so a probability on a cut is in different bins for the two classes (`C138_dfy_refuted`). `C138_dfy_partial` has the case of three or more classes, except the combination of cumulative histograms with 'HD'. Refuted for probabilities with ties given to quantifiers that need labels: the first class wins (`C138_ties_refuted`); `C138_crisp_partial` has the case of a unique maximum. AC and PAC with three or more classes and a singular matrix depend on the solver and are not covered."
  },
  {
   "property": "C139",
   "status": "partial",
   "theorems": [
    "Verif.Props.C139_labels_cut",
    "Verif.Props.C139_load_partial",
    "Verif.Props.C139_one_example_refuted",
    "Verif.Props.C139_ragged"
   ],
   "note": "partial: for files with two or more examples (C139_load_partial). A file with one example raises IndexError (C139_one_example_refuted), because genfromtxt returns a one-dimensional array. Labels that are not integers are cut, so that different labels may become one class (C139_labels_cut)."
  },
  {
   "property": "C140",
   "status": "partial",
   "theorems": [
    "Verif.Props.C140_draws_iff",
    "Verif.Props.C140_equally_likely_partial",
    "Verif.Props.C140_last_class_refuted",
    "Verif.Props.C140_one_bag",
    "Verif.Props.C140_reachable_partial",
    "Verif.Props.C140_three_classes_refuted",
    "Verif.Props.C140_two_classes_partial"
   ],
   "note": "partial: among the vectors with at least one example of every class but the first, all are equally likely, with m! of the bs^m draws each (C140_equally_likely_partial, C140_two_classes_partial), and every vector with at least one example of the last class is possible (C140_reachable_partial). The claim as a whole is false: no bag is ever without examples of the last class, because `high` is exclusive in randint (C140_last_class_refuted), and bags without the class in the middle are half as likely as the others (C140_three_classes_refuted)."
  },
  {
   "property": "C141",
   "status": "partial",
   "theorems": [
    "Verif.Props.C141_ac",
    "Verif.Props.C141_acordinal",
    "Verif.Props.C141_bags_refuted",
    "Verif.Props.C141_cc",
    "Verif.Props.C141_cvmy_refuted",
    "Verif.Props.C141_debias",
    "Verif.Props.C141_dfy",
    "Verif.Props.C141_edy",
    "Verif.Props.C141_em",
    "Verif.Props.C141_friedman",
    "Verif.Props.C141_pac",
    "Verif.Props.C141_pcc",
    "Verif.Props.C141_pdfordinaly",
    "Verif.Props.C141_quanty",
    "Verif.Props.C141_sordy",
    "Verif.Props.C141_uniform_bags_refuted"
   ],
   "note": "partial: holds of CC, PCC, AC, PAC, EM, DeBias, SORDy, QUANTy, DFy, FriedmanME, EDy, ACOrdinal and PDFOrdinaly. False of CvMy, which keeps the predictions of the training examples by reference and uses them in predict (C141_cvmy_refuted), and of the bag generators, which return the arrays that they keep (C141_bags_refuted)."
  },
  {
   "property": "C142",
   "status": "partial",
   "theorems": [
    "Verif.Props.C142_absolute_error",
    "Verif.Props.C142_bray_curtis",
    "Verif.Props.C142_emd",
    "Verif.Props.C142_emd_score",
    "Verif.Props.C142_eoqx",
    "Verif.Props.C142_eoqy",
    "Verif.Props.C142_hd_partial",
    "Verif.Props.C142_hd_refuted",
    "Verif.Props.C142_jensenshannon",
    "Verif.Props.C142_kld",
    "Verif.Props.C142_l1",
    "Verif.Props.C142_l2",
    "Verif.Props.C142_mae",
    "Verif.Props.C142_mse",
    "Verif.Props.C142_normalized_absolute_score",
    "Verif.Props.C142_normalized_squared_score",
    "Verif.Props.C142_not_worst",
    "Verif.Props.C142_probsymmetric",
    "Verif.Props.C142_relative_absolute_error",
    "Verif.Props.C142_sape_partial",
    "Verif.Props.C142_sape_refuted",
    "Verif.Props.C142_squared_error",
    "Verif.Props.C142_topsoe"
   ],
   "note": "partial: holds of l1, l2, mean_absolute_error, mean_squared_error, bray_curtis, topsoe, jensenshannon, probsymmetric, kld (positive true prevalences), emd, emd_score, absolute, squared and relative errors and the two normalized scores, and of EoQ with the strategy 'mean'. False of hd (C142_hd_refuted) and symmetric_absolute_percentage_error (C142_sape_refuted); for those two the average is never worse than the worst prediction (C142_hd_partial, C142_sape_partial)."
  },
  {
   "property": "C143",
   "status": "proved",
   "theorems": [
    "Verif.Props.C143_ac",
    "Verif.Props.C143_aco",
    "Verif.Props.C143_cc",
    "Verif.Props.C143_dfx",
    "Verif.Props.C143_dfy",
    "Verif.Props.C143_edx",
    "Verif.Props.C143_edy",
    "Verif.Props.C143_friedman",
    "Verif.Props.C143_limit_unique",
    "Verif.Props.C143_pac",
    "Verif.Props.C143_pcc",
    "Verif.Props.C143_streams_exist"
   ],
   "note": "Classifier predictions of the training set are given, so that the classifier does not change along the stream. Distances given as callables are not covered. `C143_streams_exist` builds such a stream for every training set and all prevalences."
  },
  {
   "property": "C144",
   "status": "proved",
   "theorems": [
    "Verif.Props.C144_ac",
    "Verif.Props.C144_cc",
    "Verif.Props.C144_debias",
    "Verif.Props.C144_dfx",
    "Verif.Props.C144_dfy",
    "Verif.Props.C144_edx",
    "Verif.Props.C144_edy",
    "Verif.Props.C144_friedman",
    "Verif.Props.C144_pac",
    "Verif.Props.C144_pcc"
   ],
   "note": "proved for CC, PCC, AC, PAC, FriedmanME, DFy, DFX (with 'L2'), EDy, EDX and DeBias"
  },
  {
   "property": "C145",
   "status": "partial",
   "theorems": [
    "Verif.Props.C145_ac_many_classes",
    "Verif.Props.C145_ac_many_classes_defined",
    "Verif.Props.C145_ac_two_classes",
    "Verif.Props.C145_cc",
    "Verif.Props.C145_debias",
    "Verif.Props.C145_em",
    "Verif.Props.C145_frankhall_partial",
    "Verif.Props.C145_frankhall_refuted",
    "Verif.Props.C145_one_vs_rest",
    "Verif.Props.C145_pcc"
   ],
   "note": "The last prevalence of FrankAndHallQuantifier can be negative on doubles: with nine classes and 0.15, 0.2, 0.25, 0.3, 0.35, 0.4, 0.45, 1 for the left groups, np.sum adds the first eight prevalences up to 1 + 2^-52 and the last one is not clipped (ordinal.py:263). Overflow and underflow are not modelled."
  },
  {
   "property": "C146",
   "status": "proved",
   "theorems": [
    "Verif.Props.C146_ac_many_classes",
    "Verif.Props.C146_ac_rates",
    "Verif.Props.C146_ac_two_classes",
    "Verif.Props.C146_cc",
    "Verif.Props.C146_debias",
    "Verif.Props.C146_em",
    "Verif.Props.C146_frankhall",
    "Verif.Props.C146_one_vs_rest",
    "Verif.Props.C146_pac_rates",
    "Verif.Props.C146_pcc"
   ],
   "note": "linalg.inv is a parameter whose results are assumed to tend to the exact inverse."
  },
  {
   "property": "C147",
   "status": "partial",
   "theorems": [
    "Verif.Props.C147_bray_curtis",
    "Verif.Props.C147_emd",
    "Verif.Props.C147_emd_limit",
    "Verif.Props.C147_emd_score_limit",
    "Verif.Props.C147_emd_score_negative_refuted",
    "Verif.Props.C147_emd_score_self",
    "Verif.Props.C147_hd_limit",
    "Verif.Props.C147_hd_partial",
    "Verif.Props.C147_hd_zero_refuted",
    "Verif.Props.C147_jensenshannon_limit",
    "Verif.Props.C147_jensenshannon_negative_refuted",
    "Verif.Props.C147_kld_limit",
    "Verif.Props.C147_l1",
    "Verif.Props.C147_l2",
    "Verif.Props.C147_mae",
    "Verif.Props.C147_mse",
    "Verif.Props.C147_probsymmetric",
    "Verif.Props.C147_symmetric",
    "Verif.Props.C147_topsoe_limit",
    "Verif.Props.C147_topsoe_negative_refuted",
    "Verif.Props.C147_topsoe_self"
   ],
   "note": "Refuted in part: on doubles `hd` is 0 for two different vectors (square roots that round to the same number), `topsoe` and `jensenshannon` are negative for (1 - 2^-53, 2^-53) and (1, 0) whatever accurate logarithm is used and for every epsilon up to the default, and `emd_score` is negative for a pair of 3-class prevalences. A score or distance can thus be slightly outside its range. Overflow and subnormal numbers are not part of the model of rounding; `kld` only for positive true prevalences."
  },
  {
   "property": "C148",
   "status": "partial",
   "theorems": [
    "Verif.Props.C148_cc_refuted",
    "Verif.Props.C148_debias_test_partial",
    "Verif.Props.C148_debias_train_partial",
    "Verif.Props.C148_dfy_refuted",
    "Verif.Props.C148_em_partial",
    "Verif.Props.C148_fhq_partial",
    "Verif.Props.C148_friedman_refuted",
    "Verif.Props.C148_numbers",
    "Verif.Props.C148_numbers_fit",
    "Verif.Props.C148_numbers_quanty",
    "Verif.Props.C148_numbers_sordy",
    "Verif.Props.C148_numbers_sordy_run",
    "Verif.Props.C148_ovr_partial",
    "Verif.Props.C148_pac_many_partial",
    "Verif.Props.C148_pac_train_partial",
    "Verif.Props.C148_pac_train_refuted",
    "Verif.Props.C148_pac_two_partial",
    "Verif.Props.C148_pcc_partial",
    "Verif.Props.C148_quanty_default_partial",
    "Verif.Props.C148_quanty_partial",
    "Verif.Props.C148_quanty_refuted",
    "Verif.Props.C148_sordy_refuted",
    "Verif.Props.C148_sordy_run_refuted"
   ],
   "note": "False for several methods: proved refutations for CC, SORDy, DFy (two classes), FriedmanME and PAC (two classes, NaN in the training set); proved for PCC, EM, DeBias, PAC in the other cases, one-versus-rest, Frank and Hall, and QUANTy with the metrics of the library (refuted for it with other distances). EDy, CvMy, k-NN and the regression methods are not covered: they hand the predictions to scikit-learn or SciPy functions with their own checks."
  },
  {
   "property": "C149",
   "status": "partial",
   "theorems": [
    "Verif.Props.C149_binormal_refuted",
    "Verif.Props.C149_dfx",
    "Verif.Props.C149_dfx_closest",
    "Verif.Props.C149_edx",
    "Verif.Props.C149_edx_refuted"
   ],
   "note": "C149: for DFX with 'binormal' and null deviations the cut points are those of the range [0, 0] whatever the units, so the answer changes with the origin of the feature (refuted); EDX answers change when the features change by different factors (refuted)."
  },
  {
   "property": "C150",
   "status": "partial",
   "theorems": [
    "Verif.Props.C150_clone_cv_partial",
    "Verif.Props.C150_clone_partial",
    "Verif.Props.C150_cv_refuted",
    "Verif.Props.C150_get_cv_partial",
    "Verif.Props.C150_get_partial",
    "Verif.Props.C150_nested_refuted",
    "Verif.Props.C150_set_new_partial",
    "Verif.Props.C150_set_partial",
    "Verif.Props.C150_set_unknown",
    "Verif.Props.C150_tree_refuted",
    "Verif.Props.C150_unreadable_refuted"
   ],
   "note": "Refuted for EM, EDX, PWK and PWKQuantifier (the constructor stores an argument under another name, so get_params, clone and set_params raise AttributeError whatever the arguments), for OrdinalQuantificationTree (get_params gives the wrapped tree, clone raises RuntimeError, set_params drops the tree), for CV_estimator after fit (its setting cv is overwritten) and for objects with such an object among their settings. Proved for the 28 other classes. Not modelled: nested names with two underscores."
  },
  {
   "property": "C151",
   "status": "partial",
   "theorems": [
    "Verif.Props.C151_dfx",
    "Verif.Props.C151_edx_euclidean_partial",
    "Verif.Props.C151_edx_euclidean_refuted",
    "Verif.Props.C151_edx_manhattan"
   ],
   "note": "Refuted for EDX with Euclidean distances when a column that is constant in the training set has another value in the bag; with the same value in the bag it is proved (C151_edx_euclidean_partial). Proved in full for DFX, HDX (as the order of the prevalences by distance) and EDX with Manhattan distances. For EDX the classes must be told apart by the distance (Separated)."
  },
  {
   "property": "C152",
   "status": "proved",
   "theorems": [
    "Verif.Props.C152_em_limit",
    "Verif.Props.C152_em_rate",
    "Verif.Props.C152_em_rate_size",
    "Verif.Props.C152_em_terminates"
   ],
   "note": "Also: C86 says that a stationary answer is of maximum likelihood among the prevalences with its support; C152 removes that restriction for the iterates that the program computes."
  },
  {
   "property": "C153",
   "status": "partial",
   "theorems": [
    "Verif.Props.C153_ac_ordinal_partial",
    "Verif.Props.C153_adjusted_partial",
    "Verif.Props.C153_counting_partial",
    "Verif.Props.C153_debias_partial",
    "Verif.Props.C153_dfy_library_partial",
    "Verif.Props.C153_dfy_refuted",
    "Verif.Props.C153_em_partial",
    "Verif.Props.C153_quanty_partial",
    "Verif.Props.C153_sordy_refuted"
   ],
   "note": "Proved of CC, PCC, AC and PAC (two classes or an invertible matrix), ACOrdinal, DeBias and QUANTy, of EM with two or more iterations, and of DFy with the metrics of the library, which reject NaN. False of DFy with other distance functions that give NaN for NaN, whose answer is at least 98% of positives (C153_dfy_refuted), and of SORDy, which takes the examples of the second class for the bag and answers with valid prevalences (C153_sordy_refuted). The solvers for HD, L1 and L2 and the distances of EDy and CvMy on arrays of NaN or without rows are outside the model."
  },
  {
   "property": "C154",
   "status": "proved",
   "theorems": [
    "Verif.Props.C154_ac",
    "Verif.Props.C154_ac_one_example",
    "Verif.Props.C154_aco",
    "Verif.Props.C154_cc",
    "Verif.Props.C154_cc_moments",
    "Verif.Props.C154_dfx",
    "Verif.Props.C154_dfy",
    "Verif.Props.C154_edx",
    "Verif.Props.C154_edy",
    "Verif.Props.C154_friedman",
    "Verif.Props.C154_pac",
    "Verif.Props.C154_pcc",
    "Verif.Props.C154_pcc_moments",
    "Verif.Props.C154_size"
   ],
   "note": ""
  },
  {
   "property": "C155",
   "status": "proved",
   "theorems": [
    "Verif.Props.C155_colors",
    "Verif.Props.C155_no_colors"
   ],
   "note": ""
  },
  {
   "property": "C156",
   "status": "proved",
   "theorems": [
    "Verif.Props.C156_ac",
    "Verif.Props.C156_aco",
    "Verif.Props.C156_cc",
    "Verif.Props.C156_dfx",
    "Verif.Props.C156_dfy",
    "Verif.Props.C156_edx",
    "Verif.Props.C156_edy",
    "Verif.Props.C156_friedman",
    "Verif.Props.C156_no_drift",
    "Verif.Props.C156_pac",
    "Verif.Props.C156_pcc"
   ],
   "note": "kappa is a hypothesis (TellsApart, MixturesTellApart, EnergyTellsApart), as in C135 and C137, which also give it for two classes. Exact solvers, rounding not modelled."
  },
  {
   "property": "C157",
   "status": "proved",
   "theorems": [
    "Verif.Props.C157_bias",
    "Verif.Props.C157_cc_exact_iff",
    "Verif.Props.C157_cc_shift",
    "Verif.Props.C157_cc_two",
    "Verif.Props.C157_mistakes",
    "Verif.Props.C157_pcc_shift"
   ],
   "note": "Exact arithmetic; labels given as predictions. The two-class statement for PCC is C157_bias applied to the matrix in C157_pcc_shift."
  },
  {
   "property": "C158",
   "status": "proved",
   "theorems": [
    "Verif.Props.C158_emd",
    "Verif.Props.C158_kld",
    "Verif.Props.C158_l1_limit",
    "Verif.Props.C158_l2",
    "Verif.Props.C158_means",
    "Verif.Props.C158_probsymmetric",
    "Verif.Props.C158_same_limits",
    "Verif.Props.C158_topsoe"
   ],
   "note": "jensenshannon is not 0 for the right prediction (C18), and kld is negative or nan there (C19), so they are not in the statement about limits."
  },
  {
   "property": "C159",
   "status": "proved",
   "theorems": [
    "Verif.Props.C159_fh",
    "Verif.Props.C159_ovr"
   ],
   "note": "Training sets with two classes are excluded because fit raises for them (C51, C52). The errors of the binary quantifiers are hypotheses."
  },
  {
   "property": "C160",
   "status": "partial",
   "theorems": [
    "Verif.Props.C160_fh_partial",
    "Verif.Props.C160_fh_refuted",
    "Verif.Props.C160_ovr_partial",
    "Verif.Props.C160_ovr_refuted"
   ],
   "note": "False: the rest of the classes is one label of the binary problem, and its scores change when the prevalences within it change. C160_ovr_refuted: PAC itself is exact for all such bags, and the decomposition answers 1/4, 3/4, 0 for a bag of the second class only. C160_fh_refuted: Frank and Hall gives the first class 1/3 in such a bag. The partial theorems add that the mean of each score is the same for all the classes on a side of its binary problem. Predictions are given, one per training example (with estimators the copies ask the binary estimators)."
  },
  {
   "property": "C161",
   "status": "partial",
   "theorems": [
    "Verif.Props.C161_failed_copy_partial",
    "Verif.Props.C161_failed_labels_partial",
    "Verif.Props.C161_last_fit",
    "Verif.Props.C161_missing_copy_partial",
    "Verif.Props.C161_no_fit_refuted",
    "Verif.Props.C161_rejected_refuted",
    "Verif.Props.C161_unfitted"
   ],
   "note": "Partial: the last clause is false. UsingClassifiers.fit assigns classes_ before it checks that there are predictions, and quantifiers_ is not touched by a fit that it rejects, so after such a fit with labels of fewer classes the object answers, for the new classes, with the first copies of the old fit (C161_rejected_refuted, for every base quantifier that needs predictions). For the same reason it can answer although no fit has returned (C161_no_fit_refuted). Proved: the clause about the last fit that returns (C161_last_fit), a new object (C161_unfitted), fits that raise in a copy (C161_failed_copy_partial, and C161_missing_copy_partial when the base quantifier was already fitted and the copy is not the last one) or while the labels are binarised (C161_failed_labels_partial)."
  },
  {
   "property": "C162",
   "status": "proved",
   "theorems": [
    "Verif.Props.C162_cvmy",
    "Verif.Props.C162_dfy",
    "Verif.Props.C162_edy",
    "Verif.Props.C162_edy_default",
    "Verif.Props.C162_em",
    "Verif.Props.C162_friedman",
    "Verif.Props.C162_pac",
    "Verif.Props.C162_pcc"
   ],
   "note": "Proved. The solvers of the methods that match find an optimum (the contracts of C26, C28 and C73). `AcExact` is the case of the claim for these methods: it excludes confusion matrices that AC does not invert, and with three or more classes the bags where AC clips. The distances given as functions and the CDFs are not covered. Not stated for SORDy and QUANTy, whose answers come from a search with a tolerance."
  },
  {
   "property": "C163",
   "status": "proved",
   "theorems": [
    "Verif.Props.C163_ac",
    "Verif.Props.C163_aco",
    "Verif.Props.C163_cc",
    "Verif.Props.C163_cvmy",
    "Verif.Props.C163_debias",
    "Verif.Props.C163_dfy",
    "Verif.Props.C163_edy",
    "Verif.Props.C163_em",
    "Verif.Props.C163_fh",
    "Verif.Props.C163_friedman",
    "Verif.Props.C163_friedman_norm",
    "Verif.Props.C163_ovr",
    "Verif.Props.C163_pac",
    "Verif.Props.C163_pcc",
    "Verif.Props.C163_pdfo",
    "Verif.Props.C163_pdfo_one_bin",
    "Verif.Props.C163_sordy"
   ],
   "note": ""
  },
  {
   "property": "C164",
   "status": "proved",
   "theorems": [
    "Verif.Props.C164_aco",
    "Verif.Props.C164_cc",
    "Verif.Props.C164_dfy",
    "Verif.Props.C164_friedman",
    "Verif.Props.C164_inputs",
    "Verif.Props.C164_missing_class",
    "Verif.Props.C164_missing_class_cc",
    "Verif.Props.C164_pdfo",
    "Verif.Props.C164_perfect_ac",
    "Verif.Props.C164_perfect_cvmy",
    "Verif.Props.C164_perfect_edy",
    "Verif.Props.C164_perfect_em",
    "Verif.Props.C164_perfect_pac",
    "Verif.Props.C164_perfect_pcc",
    "Verif.Props.C164_range",
    "Verif.Props.C164_reports",
    "Verif.Props.C164_right"
   ],
   "note": "For the methods that keep the problem of their solver between two calls to predict (DFy, FriedmanME, ACOrdinal, PDFOrdinaly) the error of a bag is that of some of the best prevalences for that bag, with a solver that finds one of them: when there are several, which one may depend on the bags seen before. DFy and FriedmanME with a function as distance are outside of the statement. For 'L2' the class representations have to be linearly independent, and for 'HD' they have to have the same total."
  },
  {
   "property": "C165",
   "status": "proved",
   "theorems": [
    "Verif.Props.C165_ac",
    "Verif.Props.C165_ac_error",
    "Verif.Props.C165_aco",
    "Verif.Props.C165_cc",
    "Verif.Props.C165_dfy",
    "Verif.Props.C165_pac",
    "Verif.Props.C165_pac_error",
    "Verif.Props.C165_pcc",
    "Verif.Props.C165_streams_exist"
   ],
   "note": "DFy: bins of equal width; 'PDF' with 'L1', 'L2' or 'HD', 'CDF' with 'L1'. With bins of equal count the cut points move with the training sample. The solvers are exact, as in C73 and C137; the least squares of PAC and the other solvers of AC are not used when the rates have an inverse. Measurability: the labels have measurable singletons."
  },
  {
   "property": "C166",
   "status": "partial",
   "theorems": [
    "Verif.Props.C166_cc_not_prevalences_refuted",
    "Verif.Props.C166_cc_own_objects",
    "Verif.Props.C166_edx",
    "Verif.Props.C166_one_at_a_time_partial",
    "Verif.Props.C166_other_bag_refuted",
    "Verif.Props.C166_own_objects"
   ],
   "note": "False for a shared quantifier: `C166_other_bag_refuted` (every class) and `C166_cc_not_prevalences_refuted` (an answer of no bag). `C166_own_objects` is for a quantifier per thread, `C166_one_at_a_time_partial` for calls that do not overlap. A call of a method of an estimator is one operation; the part of `predict` after the predictions is one read and one write, except in CC, which has each of its reads."
  },
  {
   "property": "C167",
   "status": "partial",
   "theorems": [
    "Verif.Props.C167_frank_hall_refuted",
    "Verif.Props.C167_no_order_refuted",
    "Verif.Props.C167_other_model_refuted",
    "Verif.Props.C167_same_data"
   ],
   "note": "Holds for the same training set (`C167_same_data`). False for different training sets (`C167_other_model_refuted` for every class, `C167_no_order_refuted` for AC) and for a FrankAndHallClassifier as the shared estimator (`C167_frank_hall_refuted`): the check of the estimator and its training are two operations."
  },
  {
   "property": "C168",
   "status": "partial",
   "theorems": [
    "Verif.Props.C168_filled_partial",
    "Verif.Props.C168_not_prevalences_refuted",
    "Verif.Props.C168_not_reproducible_refuted",
    "Verif.Props.C168_own_generators",
    "Verif.Props.C168_shared_random_state",
    "Verif.Props.C168_type_error_refuted",
    "Verif.Props.C168_zeros_refuted"
   ],
   "note": "Holds for a generator per thread: `C168_own_generators` (seeds: the same as alone) and `C168_shared_random_state` (bags, though `C168_not_reproducible_refuted`). False for a new generator that is shared: `C168_zeros_refuted` and `C168_type_error_refuted` (all data), `C168_not_prevalences_refuted`. `C168_filled_partial`: shared, once its bags exist. The generator here is CovariateShift_BagGenerator; C174 is about PriorShift_BagGenerator."
  },
  {
   "property": "C169",
   "status": "partial",
   "theorems": [
    "Verif.Props.C169_ac_partial",
    "Verif.Props.C169_aco_partial",
    "Verif.Props.C169_bags_refuted",
    "Verif.Props.C169_cc_partial",
    "Verif.Props.C169_complete",
    "Verif.Props.C169_cvmy_partial",
    "Verif.Props.C169_debias_partial",
    "Verif.Props.C169_dfy_partial",
    "Verif.Props.C169_edy_partial",
    "Verif.Props.C169_em_partial",
    "Verif.Props.C169_frank_hall_refuted",
    "Verif.Props.C169_friedman_partial",
    "Verif.Props.C169_half_fitted_refuted",
    "Verif.Props.C169_pac_partial",
    "Verif.Props.C169_pcc_partial",
    "Verif.Props.C169_pdfo_partial",
    "Verif.Props.C169_predict",
    "Verif.Props.C169_quanty_partial",
    "Verif.Props.C169_sordy_partial"
   ],
   "note": "The last sentence is false. An interrupted fit leaves classes_ of the new call with what the old one learned, and predict answers with them (CC, any labels: C169_half_fitted_refuted). generate_bags of CovariateShift_BagGenerator interrupted after it made its arrays makes every later call return them, full of zeros, without an exception (C169_bags_refuted). A FrankAndHallClassifier interrupted after classes_ is assigned passes for trained, and every later fit of a quantifier with it raises TypeError, also the repeated one (C169_frank_hall_refuted). The rest is proved for each class; for DFy, FriedmanME, ACOrdinal and PDFOrdinaly with a solver whose solution does not depend on the starting point, as in C127. Other estimators are taken to be trained in one operation."
  },
  {
   "property": "C170",
   "status": "partial",
   "theorems": [
    "Verif.Props.C170_ac_refuted",
    "Verif.Props.C170_bray_curtis",
    "Verif.Props.C170_cc_partial",
    "Verif.Props.C170_emd",
    "Verif.Props.C170_hd",
    "Verif.Props.C170_l1",
    "Verif.Props.C170_mean_errors_refuted",
    "Verif.Props.C170_pcc_partial",
    "Verif.Props.C170_prevalences"
   ],
   "note": "proved for CC and PCC and for l1, bray_curtis, hd and emd. Refuted for AC (`C170_ac_refuted`: exact with three classes, 2/3 instead of 1 after merging two of them, because the merged class has other error rates in the bag than in the training set), and for mean_absolute_error, mean_squared_error and l2 (`C170_mean_errors_refuted`: the same estimate looks worse after merging)."
  },
  {
   "property": "C171",
   "status": "proved",
   "theorems": [
    "Verif.Props.C171_ac",
    "Verif.Props.C171_cc",
    "Verif.Props.C171_dfy",
    "Verif.Props.C171_edx",
    "Verif.Props.C171_edy",
    "Verif.Props.C171_em",
    "Verif.Props.C171_friedman",
    "Verif.Props.C171_pac",
    "Verif.Props.C171_pcc"
   ],
   "note": "one prediction is replaced: with r predictions per example (repeated cross-validation) the theorem is applied r times. Of the methods that match distributions FriedmanME and DFy with 'L2' and bins of equal width are covered, when the training distributions are independent before and after, and EDy and EDX, when the classes are separated before and after."
  },
  {
   "property": "C172",
   "status": "partial",
   "theorems": [
    "Verif.Props.C172_ac_l2_refuted",
    "Verif.Props.C172_ac_partial",
    "Verif.Props.C172_dfy_distance_partial",
    "Verif.Props.C172_dfy_l2_refuted",
    "Verif.Props.C172_edy_refuted",
    "Verif.Props.C172_friedman_distance_partial",
    "Verif.Props.C172_friedman_l2_refuted",
    "Verif.Props.C172_pac_l2_refuted",
    "Verif.Props.C172_pac_partial",
    "Verif.Props.C172_sordy_refuted"
   ],
   "note": "Proved for AC and PAC with two classes and for DFy and FriedmanME with two classes and a distance function. False for the others treated here: DFy and FriedmanME with 'L2' answer the uniform prevalences, EDy that every example is of the last class, SORDy that every example is of the second class (up to half the tolerance), whatever the bag: the ridge that makes the matrix positive definite, and the direction in which the golden section search breaks ties, decide the answer. With 'HD' and 'L1' every prevalence is optimal and the answer is the solver's choice; AC and PAC with three or more classes answer the uniform prevalences with 'L2' too. QUANTy and EM are not covered."
  },
  {
   "property": "C173",
   "status": "proved",
   "theorems": [
    "Verif.Props.C173_ac",
    "Verif.Props.C173_cc",
    "Verif.Props.C173_debias",
    "Verif.Props.C173_dfx",
    "Verif.Props.C173_dfy",
    "Verif.Props.C173_edx",
    "Verif.Props.C173_edy",
    "Verif.Props.C173_friedman",
    "Verif.Props.C173_pac",
    "Verif.Props.C173_pcc",
    "Verif.Props.C173_three_classes"
   ],
   "note": "For 'L2' the training distributions have to be independent, for the energy distance the classes have to be separated (otherwise the answer does not depend on the bag, C172). DFy and DFX with other distances, SORDy, QUANTy and EM are not covered. C173_three_classes is the example with three classes."
  },
  {
   "property": "C174",
   "status": "partial",
   "theorems": [
    "Verif.Props.C174_bags",
    "Verif.Props.C174_dirichlet_refuted",
    "Verif.Props.C174_drawn_refuted",
    "Verif.Props.C174_filled_partial",
    "Verif.Props.C174_own_generators",
    "Verif.Props.C174_shared_random_state",
    "Verif.Props.C174_type_error_refuted",
    "Verif.Props.C174_uniform",
    "Verif.Props.C174_zeros_refuted"
   ],
   "note": "`C174_own_generators`, `C174_uniform`, `C174_bags` hold for a generator with a seed per thread. False: `C174_dirichlet_refuted` (the bags of a seed with the Dirichlet method), `C174_zeros_refuted`, `C174_drawn_refuted`, `C174_type_error_refuted` (a new generator that is shared). `C174_filled_partial`: shared, once its bags exist. `C174_shared_random_state`: generators that share RandomState objects."
  },
  {
   "property": "C175",
   "status": "proved",
   "theorems": [
    "Verif.Props.C175_dfx",
    "Verif.Props.C175_dfx_l2",
    "Verif.Props.C175_dfx_norm",
    "Verif.Props.C175_dfy",
    "Verif.Props.C175_dfy_l2",
    "Verif.Props.C175_dfy_norm",
    "Verif.Props.C175_friedman",
    "Verif.Props.C175_friedman_l2",
    "Verif.Props.C175_friedman_norm",
    "Verif.Props.C175_norms"
   ],
   "note": "The conditions on the distance are those of `Searchable`, and none is left for `l2` (`C175_dfy_l2`, `C175_dfx_l2`, `C175_friedman_l2`) nor, with 2% of the distance between the classes as margin, for any norm (`C175_dfy_norm`, `C175_dfx_norm`, `C175_friedman_norm`; `C175_norms` says which metrics of the library they are for); without the condition on the last minimum the answer may be far from it (C33_global_search_refuted). The distance has finite values (NaN: C148)."
  }
 ]
}