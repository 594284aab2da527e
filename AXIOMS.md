# Axioms of the property theorems

Output of `#print axioms` for every theorem of MANIFEST.json (namespace `Verif.Props`), grouped.

## none

`C155_no_colors`

## propext

`C150_set_unknown`

## propext, Classical.choice, Quot.sound

`C01_cc_empty`, `C01_cc_fit`, `C01_cc_unknown_labels`, `C01_cc_valid`, `C01_cc_valid_estimator`, `C02_cc_perm`, `C02_cc_pool`, `C02_pcc_perm`, `C02_pcc_pool`, `C03_pcc_empty`, `C03_pcc_eq_cc_on_onehot`, `C03_pcc_valid`, `C04_cc_pcc_fit`, `C04_fit_estimator_eq_supplied`, `C04_fit_stores_supplied`, `C04_fit_supplied_wins`, `C04_fit_valueError_iff`, `C04_predict_estimator_eq_supplied`, `C04_predict_supplied_wins`, `C04_predict_valueError_iff`, `C05_crisp`, `C05_estimator`, `C05_labels_aligned`, `C05_labels_aligned_any`, `C06_cc_keeps`, `C06_cc_trains`, `C06_first_fit_wins`, `C06_trained_at_most_once`, `C07_binary_column_breaks_cc`, `C07_binary_column_partial`, `C07_binary_column_refuted`, `C07_fit_converts`, `C07_matrix_argmax`, `C07_matrix_known`, `C07_predict_converts`, `C08_ac_confusion`, `C08_ac_estimator`, `C08_pac_confusion`, `C09_ac_binary_valid`, `C09_binary_formula`, `C09_binary_unadjusted`, `C09_pac_binary_valid`, `C09_pwk_binary_valid`, `C10_ac_valid`, `C10_multi_valid`, `C10_pac_valid`, `C10_singular`, `C11_ac_recovery`, `C11_binary_recovery`, `C11_multi_recovery`, `C11_pac_recovery`, `C11_recovery`, `C12_ac_self`, `C12_pac_self`, `C13_absolute_error`, `C13_bias`, `C13_relative_absolute_error`, `C13_relative_absolute_error_value`, `C13_sape`, `C13_squared_error`, `C14_nas`, `C14_nss`, `C15_binary_kld_negative_refuted`, `C15_binary_kld_partial`, `C15_binary_kld_refuted`, `C16_hd`, `C16_l1`, `C16_l2`, `C16_length_check`, `C16_mean_absolute_error`, `C16_mean_squared_error`, `C16_probsymmetric`, `C17_bray_curtis`, `C17_hd_le`, `C17_l1_le`, `C17_l2_le`, `C17_le_cam`, `C17_mae_le`, `C17_probsymmetric_le`, `C18_jensenshannon`, `C18_jensenshannon_self_pos`, `C18_topsoe`, `C18_topsoe_le`, `C19_kld_partial`, `C19_kld_self_negative_refuted`, `C19_kld_zero_class_refuted`, `C20_class_order`, `C21_one_iff`, `C21_range`, `C21_value`, `C21_zero_iff`, `C22_brier_multi`, `C23_emd_metric`, `C23_emd_optimal_transport`, `C24_extreme_score_zero`, `C24_extremes_are_worst`, `C24_score`, `C25_emd_distances`, `C26_l2`, `C26_l2_exact`, `C26_l2_near`, `C27_factor`, `C27_is_pd`, `C27_leading_minor`, `C28_energy`, `C28_energy_near`, `C29_cached_mixtures`, `C29_cached_mixtures_not_stale`, `C29_warm_start_equals_fresh`, `C29_warm_start_is_not_stale`, `C30_golden_section_bracket`, `C30_golden_section_errors`, `C30_golden_section_looks_at_few_points`, `C31_golden_section_convex`, `C31_golden_section_unimodal`, `C32_reported_loss_partial`, `C32_reported_loss_refuted`, `C33_global_search_convex_partial`, `C33_global_search_lipschitz_partial`, `C33_global_search_refuted`, `C33_global_search_unimodal_partial`, `C33_global_search_valid_partial`, `C33_matching_partial`, `C34_mixture_of_pdfs`, `C35_quantiles_error_partial`, `C35_quantiles_of_mixture_partial`, `C35_quantiles_of_test_sample`, `C35_quantiles_refuted`, `C36_sord_is_wasserstein`, `C37_prior_shift_bags`, `C38_min_prevalence`, `C39_first_call_partial`, `C39_second_call_refuted`, `C40_bag_size_refuted`, `C40_early_failure_partial`, `C40_failed_call_refuted`, `C41_dirichlet_refuted`, `C41_mixed_uniform_reproducible_partial`, `C41_uniform_reproducible_partial`, `C42_covariate_bags`, `C42_mixed_bags_partial`, `C42_mixed_default_size_refuted`, `C43_constant_feature_refuted`, `C43_dfx_distributions`, `C43_dfx_normal_partial`, `C43_dfy_binormal_partial`, `C43_dfy_distributions`, `C44_dfx_cdf`, `C44_dfy_binary_partial`, `C44_dfy_multiclass_refuted`, `C45_dfx_mixture`, `C45_dfy_mixture`, `C45_energy`, `C45_l1_training_bag`, `C45_zero_loss`, `C46_binormal_partial`, `C46_equal_count`, `C46_equal_width`, `C46_normal_constant_refuted`, `C46_normal_partial`, `C47_em_iterates`, `C47_em_valid`, `C48_em_answer`, `C48_em_likelihood`, `C49_em_iterations`, `C49_em_stops`, `C50_debias_fixed`, `C50_debias_formula`, `C50_debias_valid`, `C50_debias_zero_variance`, `C51_ovr_faithful`, `C51_ovr_partial`, `C51_two_classes_refuted`, `C52_fh_faithful`, `C52_fh_partial`, `C52_two_classes_refuted`, `C53_correction`, `C53_correction_monotone`, `C54_friedman`, `C55_pwk_predict`, `C55_pwk_proba`, `C55_pwk_weights`, `C55_single_class`, `C56_reg_binary`, `C56_reg_multiclass`, `C56_reg_multiclass_nan`, `C57_bag_size_refuted`, `C57_regy_bins_partial`, `C57_same_size_partial`, `C58_separate_generators_partial`, `C58_shared_generator_refuted`, `C59_eoqx_unanimous`, `C59_eoqx_valid`, `C59_eoqy_unanimous`, `C59_eoqy_valid`, `C59_none_selected`, `C60_classifiers_partial`, `C60_crisp_rejected`, `C60_refuted`, `C60_representative_bags_partial`, `C61_testing_set`, `C61_training_set`, `C61_training_set_averaged`, `C62_ends_partial`, `C62_middle_refuted`, `C63_envelopes_refuted`, `C63_monotone_partial`, `C64_tree_probabilities`, `C65_tree_order_partial`, `C65_wrong_group_refuted`, `C66_distribution`, `C66_paths`, `C67_pair_model`, `C68_winner_node`, `C69_fh_binarizer`, `C69_fh_binarizer_rows`, `C69_two_classes_error`, `C70_processes_partial`, `C70_shared_refuted`, `C71_optimal`, `C71_prior_shift`, `C71_train_matrix`, `C72_full_score`, `C72_histogram`, `C72_scores_range`, `C72_winner_score`, `C73_ac`, `C73_df_hd`, `C73_df_l1`, `C73_df_l2`, `C73_dfx_optimal`, `C73_dfy_optimal`, `C73_objectives_bounded`, `C73_pac`, `C73_solve_hd_optimal`, `C73_solve_l1_optimal`, `C74_ac`, `C74_cc`, `C74_pac`, `C74_single_column_refuted`, `C75_nearest_pd`, `C75_nearest_pd_any_svd`, `C75_nearest_pd_of_psd`, `C76_EDX`, `C76_EDy`, `C76_energy_quantifier`, `C77_cvm_recovery`, `C77_exact_recovery`, `C77_near_recovery`, `C78_cvm_rank_invariant`, `C78_cvm_valid`, `C78_rank_no_ties`, `C79_order_irrelevant`, `C79_repetition_irrelevant`, `C80_sordy_consistent`, `C80_sordy_minimises_wasserstein`, `C81_hd_recovers_mixture_partial`, `C81_hd_recovers_mixture_refuted`, `C81_l1_recovers_mixture`, `C82_attainable_partial`, `C82_comes_back_partial`, `C82_ends_rejected_partial`, `C82_infeasible_minimum_refuted`, `C82_mixed_partial`, `C82_unattainable_refuted`, `C82_uniform_returns_partial`, `C83_repeated_predictions_partial`, `C83_repeated_predictions_refuted`, `C84_callable_refuted`, `C84_one_entry_per_class_partial`, `C85_pwkq_matrix`, `C85_pwkq_self`, `C86_em_fixed_point`, `C86_em_perm`, `C86_em_stationary`, `C87_debias_exact`, `C88_other_labels_refuted`, `C88_zero_neg_label_partial`, `C89_answers_change_refuted`, `C89_own_regressors_partial`, `C89_shared_regressor_refuted`, `C90_separate_generators_partial`, `C90_shared_generator_refuted`, `C91_bins_refuted`, `C91_cdf_classifiers_refuted`, `C91_cdf_refuted`, `C91_estimators_partial`, `C91_generated_bags_partial`, `C91_given_bags_partial`, `C92_bag_size_refuted`, `C92_eoqx_own_bag`, `C92_eoqy_own_bag`, `C92_eoqy_repeated_partial`, `C93_all_classes_partial`, `C93_missing_class_refuted`, `C93_single_class_refuted`, `C94_eoqx_prevalence_similarity`, `C94_eoqy_prevalence_similarity`, `C95_eoqx_mean_median`, `C95_eoqy_mean_median`, `C96_shuffled_refuted`, `C97_all_classes_partial`, `C97_missing_class_refuted`, `C97_single_class_refuted`, `C98_fitted`, `C98_predict`, `C99_last_class_refuted`, `C100_models_partial`, `C100_two_classes_refuted`, `C101_certain_class`, `C101_certain_returned`, `C101_predict`, `C102_refit_refuted`, `C103_predict`, `C103_predict_proba`, `C103_single_class_refuted`, `C104_emd_any_solver`, `C104_emd_optimal`, `C105_few_classes`, `C105_hd_optimal`, `C105_l2_optimal`, `C105_other_refuted`, `C105_unknown_method`, `C106_given_predictions`, `C106_tree_prevalences`, `C107_interrupted_refuted`, `C107_refit_refuted`, `C108_single_quantile`, `C109_bag_order`, `C109_empty_bag`, `C109_multiclass`, `C109_train_order`, `C109_valid`, `C110_binary`, `C110_distances`, `C110_jensenshannon`, `C110_kld`, `C110_probsymmetric`, `C110_topsoe`, `C110_two_classes`, `C111_normalize`, `C112_lines`, `C113_order`, `C114_no_interference`, `C114_other_training`, `C115_ac`, `C115_aco`, `C115_cc`, `C115_cvmy`, `C115_debias`, `C115_dfy`, `C115_edy`, `C115_em`, `C115_friedman`, `C115_pac`, `C115_pcc`, `C115_pdfo`, `C115_sordy`, `C116_failed_fit_refuted`, `C116_same_labels_partial`, `C117_debias`, `C117_pdfo`, `C117_quanty`, `C117_sordy`, `C117_sordy_fit`, `C118_first_points_partial`, `C118_loss_computed_partial`, `C118_no_exception_partial`, `C118_swallowed_refuted`, `C119_multiclass`, `C119_predict_multiclass`, `C119_predict_two_classes`, `C119_regx_multiclass`, `C119_regx_two_classes`, `C119_regy_two_classes`, `C119_two_classes`, `C120_predict`, `C120_required`, `C120_trained_once`, `C121_own_classifier_partial`, `C121_predict_partial`, `C121_refit_refuted`, `C122_few_members_refuted`, `C122_predict_raises_refuted`, `C122_single_partial`, `C122_unanimous_refuted`, `C123_cv_fitted_partial`, `C123_cv_unfitted_partial`, `C123_ens_unfitted_partial`, `C123_fh_base_refuted`, `C123_fh_fitted_partial`, `C123_fh_rejected_refuted`, `C123_new_partial`, `C123_stuck_refuted`, `C123_tree_fitted_partial`, `C124_cv_fresh_partial`, `C124_cv_relabels_refuted`, `C124_ens_rejected_partial`, `C124_ens_retry_refuted`, `C124_fh_fresh_partial`, `C124_fh_relabels_refuted`, `C124_tree_fresh_partial`, `C124_tree_rejected_partial`, `C125_dfx_refuted`, `C125_dfy_refuted`, `C125_equal_count_partial`, `C125_equal_count_refuted`, `C125_unsorted_refuted`, `C126_ac`, `C126_aco`, `C126_cc`, `C126_cvmy_order_partial`, `C126_cvmy_repetition_refuted`, `C126_debias`, `C126_dfx`, `C126_dfy`, `C126_edx`, `C126_edy`, `C126_em`, `C126_eoqx`, `C126_eoqy`, `C126_friedman`, `C126_pac`, `C126_pcc`, `C126_pdfo`, `C126_pwkq`, `C126_quanty`, `C126_reg`, `C126_sordy`, `C127_ac_partial`, `C127_aco_partial`, `C127_cc_partial`, `C127_cvmy_partial`, `C127_debias_partial`, `C127_dfy_partial`, `C127_edy_partial`, `C127_em_partial`, `C127_friedman_partial`, `C127_not_retrained_refuted`, `C127_pac_partial`, `C127_pcc_partial`, `C127_pdfo_partial`, `C127_quanty_partial`, `C127_refit_refuted`, `C127_sordy_partial`, `C128_ac`, `C128_aco`, `C128_cvmy`, `C128_dfx`, `C128_dfx_norm`, `C128_dfy`, `C128_dfy_norm`, `C128_edx`, `C128_edy`, `C128_friedman`, `C128_friedman_norm`, `C128_hdy`, `C128_own_classifier`, `C128_pac`, `C128_pdfo`, `C128_sordy`, `C129_ac`, `C129_aco`, `C129_cc`, `C129_cvmy_partial`, `C129_cvmy_size_refuted`, `C129_debias`, `C129_dfx`, `C129_dfy`, `C129_edx`, `C129_edy`, `C129_em`, `C129_equal_count_refuted`, `C129_friedman`, `C129_pac`, `C129_pcc`, `C129_pdfo`, `C129_quanty_partial`, `C129_sordy`, `C130_em_finite_partial`, `C130_em_rejects_partial`, `C130_one_iteration_refuted`, `C131_emd_score_partial`, `C131_emd_score_row_refuted`, `C131_metric_layout`, `C131_mixed_layout`, `C131_other_length`, `C132_columns`, `C132_distance_between_vectors_partial`, `C132_grid_refuted`, `C132_library_metrics_partial`, `C132_user_distance_refuted`, `C133_column_partial`, `C133_one_example_refuted`, `C134_any_layout_partial`, `C134_crisp_partial`, `C134_one_class_refuted`, `C134_one_class_value_refuted`, `C134_probabilistic`, `C135_ac`, `C135_constant`, `C135_pac`, `C135_two_classes`, `C136_ac`, `C136_pac`, `C137_aco`, `C137_constant`, `C137_dfx`, `C137_dfx_norm`, `C137_dfy`, `C137_dfy_norm`, `C137_edx`, `C137_edy`, `C137_energy_constant`, `C137_friedman`, `C137_friedman_norm`, `C138_ac`, `C138_cc`, `C138_crisp_partial`, `C138_cvmy`, `C138_debias`, `C138_dfx`, `C138_dfy_partial`, `C138_dfy_refuted`, `C138_edx`, `C138_edy`, `C138_em`, `C138_friedman`, `C138_pac`, `C138_pcc`, `C138_ties_refuted`, `C139_labels_cut`, `C139_load_partial`, `C139_one_example_refuted`, `C139_ragged`, `C140_draws_iff`, `C140_equally_likely_partial`, `C140_last_class_refuted`, `C140_one_bag`, `C140_reachable_partial`, `C140_three_classes_refuted`, `C140_two_classes_partial`, `C141_ac`, `C141_acordinal`, `C141_bags_refuted`, `C141_cc`, `C141_cvmy_refuted`, `C141_debias`, `C141_dfy`, `C141_edy`, `C141_em`, `C141_friedman`, `C141_pac`, `C141_pcc`, `C141_pdfordinaly`, `C141_quanty`, `C141_sordy`, `C141_uniform_bags_refuted`, `C142_absolute_error`, `C142_bray_curtis`, `C142_emd`, `C142_emd_score`, `C142_eoqx`, `C142_eoqy`, `C142_hd_partial`, `C142_hd_refuted`, `C142_jensenshannon`, `C142_kld`, `C142_l1`, `C142_l2`, `C142_mae`, `C142_mse`, `C142_normalized_absolute_score`, `C142_normalized_squared_score`, `C142_not_worst`, `C142_probsymmetric`, `C142_relative_absolute_error`, `C142_sape_partial`, `C142_sape_refuted`, `C142_squared_error`, `C142_topsoe`, `C143_ac`, `C143_aco`, `C143_cc`, `C143_dfx`, `C143_dfy`, `C143_edx`, `C143_edy`, `C143_friedman`, `C143_limit_unique`, `C143_pac`, `C143_pcc`, `C143_streams_exist`, `C144_ac`, `C144_cc`, `C144_debias`, `C144_dfx`, `C144_dfy`, `C144_edx`, `C144_edy`, `C144_friedman`, `C144_pac`, `C144_pcc`, `C145_ac_many_classes`, `C145_ac_many_classes_defined`, `C145_ac_two_classes`, `C145_cc`, `C145_debias`, `C145_em`, `C145_frankhall_partial`, `C145_frankhall_refuted`, `C145_one_vs_rest`, `C145_pcc`, `C146_ac_many_classes`, `C146_ac_rates`, `C146_ac_two_classes`, `C146_cc`, `C146_debias`, `C146_em`, `C146_frankhall`, `C146_one_vs_rest`, `C146_pac_rates`, `C146_pcc`, `C147_bray_curtis`, `C147_emd`, `C147_emd_limit`, `C147_emd_score_limit`, `C147_emd_score_negative_refuted`, `C147_emd_score_self`, `C147_hd_limit`, `C147_hd_partial`, `C147_hd_zero_refuted`, `C147_jensenshannon_limit`, `C147_jensenshannon_negative_refuted`, `C147_kld_limit`, `C147_l1`, `C147_l2`, `C147_mae`, `C147_mse`, `C147_probsymmetric`, `C147_symmetric`, `C147_topsoe_limit`, `C147_topsoe_negative_refuted`, `C147_topsoe_self`, `C148_cc_refuted`, `C148_debias_test_partial`, `C148_debias_train_partial`, `C148_dfy_refuted`, `C148_em_partial`, `C148_fhq_partial`, `C148_friedman_refuted`, `C148_numbers`, `C148_numbers_fit`, `C148_numbers_quanty`, `C148_numbers_sordy`, `C148_numbers_sordy_run`, `C148_ovr_partial`, `C148_pac_many_partial`, `C148_pac_train_partial`, `C148_pac_train_refuted`, `C148_pac_two_partial`, `C148_pcc_partial`, `C148_quanty_default_partial`, `C148_quanty_partial`, `C148_quanty_refuted`, `C148_sordy_refuted`, `C148_sordy_run_refuted`, `C149_binormal_refuted`, `C149_dfx`, `C149_dfx_closest`, `C149_edx`, `C149_edx_refuted`, `C150_clone_cv_partial`, `C150_clone_partial`, `C150_cv_refuted`, `C150_get_cv_partial`, `C150_get_partial`, `C150_nested_refuted`, `C150_set_new_partial`, `C150_set_partial`, `C150_tree_refuted`, `C150_unreadable_refuted`, `C151_dfx`, `C151_edx_euclidean_partial`, `C151_edx_euclidean_refuted`, `C151_edx_manhattan`, `C152_em_limit`, `C152_em_rate`, `C152_em_rate_size`, `C152_em_terminates`, `C153_ac_ordinal_partial`, `C153_adjusted_partial`, `C153_counting_partial`, `C153_debias_partial`, `C153_dfy_library_partial`, `C153_dfy_refuted`, `C153_em_partial`, `C153_quanty_partial`, `C153_sordy_refuted`, `C154_ac`, `C154_ac_one_example`, `C154_aco`, `C154_cc`, `C154_cc_moments`, `C154_dfx`, `C154_dfy`, `C154_edx`, `C154_edy`, `C154_friedman`, `C154_pac`, `C154_pcc`, `C154_pcc_moments`, `C154_size`, `C156_ac`, `C156_aco`, `C156_cc`, `C156_dfx`, `C156_dfy`, `C156_edx`, `C156_edy`, `C156_friedman`, `C156_no_drift`, `C156_pac`, `C156_pcc`, `C157_bias`, `C157_cc_exact_iff`, `C157_cc_shift`, `C157_cc_two`, `C157_mistakes`, `C157_pcc_shift`, `C158_emd`, `C158_kld`, `C158_l1_limit`, `C158_l2`, `C158_means`, `C158_probsymmetric`, `C158_same_limits`, `C158_topsoe`, `C159_fh`, `C159_ovr`, `C160_fh_partial`, `C160_fh_refuted`, `C160_ovr_partial`, `C160_ovr_refuted`, `C161_failed_copy_partial`, `C161_failed_labels_partial`, `C161_last_fit`, `C161_missing_copy_partial`, `C161_no_fit_refuted`, `C161_rejected_refuted`, `C161_unfitted`, `C162_cvmy`, `C162_dfy`, `C162_edy`, `C162_edy_default`, `C162_em`, `C162_friedman`, `C162_pac`, `C162_pcc`, `C163_ac`, `C163_aco`, `C163_cc`, `C163_cvmy`, `C163_debias`, `C163_dfy`, `C163_edy`, `C163_em`, `C163_fh`, `C163_friedman`, `C163_friedman_norm`, `C163_ovr`, `C163_pac`, `C163_pcc`, `C163_pdfo`, `C163_pdfo_one_bin`, `C163_sordy`, `C164_aco`, `C164_cc`, `C164_dfy`, `C164_friedman`, `C164_inputs`, `C164_missing_class`, `C164_missing_class_cc`, `C164_pdfo`, `C164_perfect_ac`, `C164_perfect_cvmy`, `C164_perfect_edy`, `C164_perfect_em`, `C164_perfect_pac`, `C164_perfect_pcc`, `C164_range`, `C164_reports`, `C164_right`, `C165_ac`, `C165_ac_error`, `C165_aco`, `C165_cc`, `C165_dfy`, `C165_pac`, `C165_pac_error`, `C165_pcc`, `C165_streams_exist`, `C166_cc_not_prevalences_refuted`, `C166_cc_own_objects`, `C166_edx`, `C166_one_at_a_time_partial`, `C166_other_bag_refuted`, `C166_own_objects`, `C167_frank_hall_refuted`, `C167_no_order_refuted`, `C167_other_model_refuted`, `C167_same_data`, `C168_filled_partial`, `C168_not_prevalences_refuted`, `C168_not_reproducible_refuted`, `C168_own_generators`, `C168_shared_random_state`, `C168_type_error_refuted`, `C168_zeros_refuted`, `C169_ac_partial`, `C169_aco_partial`, `C169_bags_refuted`, `C169_cc_partial`, `C169_complete`, `C169_cvmy_partial`, `C169_debias_partial`, `C169_dfy_partial`, `C169_edy_partial`, `C169_em_partial`, `C169_frank_hall_refuted`, `C169_friedman_partial`, `C169_half_fitted_refuted`, `C169_pac_partial`, `C169_pcc_partial`, `C169_pdfo_partial`, `C169_predict`, `C169_quanty_partial`, `C169_sordy_partial`, `C170_ac_refuted`, `C170_bray_curtis`, `C170_cc_partial`, `C170_emd`, `C170_hd`, `C170_l1`, `C170_mean_errors_refuted`, `C170_pcc_partial`, `C170_prevalences`, `C171_ac`, `C171_cc`, `C171_dfy`, `C171_edx`, `C171_edy`, `C171_em`, `C171_friedman`, `C171_pac`, `C171_pcc`, `C172_ac_l2_refuted`, `C172_ac_partial`, `C172_dfy_distance_partial`, `C172_dfy_l2_refuted`, `C172_edy_refuted`, `C172_friedman_distance_partial`, `C172_friedman_l2_refuted`, `C172_pac_l2_refuted`, `C172_pac_partial`, `C172_sordy_refuted`, `C173_ac`, `C173_cc`, `C173_debias`, `C173_dfx`, `C173_dfy`, `C173_edx`, `C173_edy`, `C173_friedman`, `C173_pac`, `C173_pcc`, `C173_three_classes`, `C174_bags`, `C174_dirichlet_refuted`, `C174_drawn_refuted`, `C174_filled_partial`, `C174_own_generators`, `C174_shared_random_state`, `C174_type_error_refuted`, `C174_uniform`, `C174_zeros_refuted`, `C175_dfx`, `C175_dfx_l2`, `C175_dfx_norm`, `C175_dfy`, `C175_dfy_l2`, `C175_dfy_norm`, `C175_friedman`, `C175_friedman_l2`, `C175_friedman_norm`, `C175_norms`

## propext, Quot.sound

`C155_colors`
