# Axioms of each manifest theorem

Printed by `#print axioms` (generated; P = `propext`, C = `Classical.choice`, Q = `Quot.sound`).

* C01 `EdgeEval.Props.C01_denominators_nonzero`: PCQ
* C01 `EdgeEval.Props.C01_scores`: PCQ
* C02 `EdgeEval.Props.C02_f1_harmonic_mean`: PCQ
* C03 `EdgeEval.Props.C03_int_grid`: PCQ
* C03 `EdgeEval.Props.C03_grid_shape`: PCQ
* C03 `EdgeEval.Props.C03_other_arguments`: PCQ
* C04 `EdgeEval.Props.C04_ods`: PCQ
* C04 `EdgeEval.Props.C04_empty`: PCQ
* C04 `EdgeEval.Props.C04_ods_of_run`: PCQ
* C05 `EdgeEval.Props.C05_success_iff`: PCQ
* C05 `EdgeEval.Props.C05_table_pools_counts`: PCQ
* C05 `EdgeEval.Props.C05_order_independent`: PCQ
* C05 `EdgeEval.Props.C05_zero_sample_neutral`: PCQ
* C06 `EdgeEval.Props.C06_parallel_eq_sequential`: PCQ
* C06 `EdgeEval.Props.C06_parallel_terminates`: PCQ
* C06 `EdgeEval.Props.C06_unordered_is_permutation`: PCQ
* C06 `EdgeEval.Props.C06_calculate_metrics_parallel`: PCQ
* C06 `EdgeEval.Props.C06_calculate_metrics_total`: PCQ
* C07 `EdgeEval.Props.C07_ois`: PCQ
* C07 `EdgeEval.Props.C07_single_image_ois_le_ods`: PCQ
* C07 `EdgeEval.Props.C07_ois_can_be_below_fixed_threshold`: PCQ
* C08 `EdgeEval.Props.C08_ap_formula`: PCQ
* C08 `EdgeEval.Props.C08_ap_bounds`: PCQ
* C08 `EdgeEval.Props.C08_perfect_detector_ap`: PCQ
* C08 `EdgeEval.Props.C08_ap_monotone`: PCQ
* C09 `EdgeEval.Props.C09_auc_bounds`: PCQ
* C09 `EdgeEval.Props.C09_auc_zero_of_constant_recall`: PCQ
* C09 `EdgeEval.Props.C09_perfect_detector_auc_zero`: PCQ
* C09 `EdgeEval.Props.C09_auc_formula`: PCQ
* C10 `EdgeEval.Props.C10_binary_counts`: PCQ
* C10 `EdgeEval.Props.C10_binary_totals`: PCQ
* C10 `EdgeEval.Props.C10_multiple_gts_counts`: PCQ
* C10 `EdgeEval.Props.C10_multiple_gts_totals`: PCQ
* C10 `EdgeEval.Props.C10_multi_label_counts`: PCQ
* C10 `EdgeEval.Props.C10_multi_label_totals`: PCQ
* C10 `EdgeEval.Props.C10_binary_total`: PCQ
* C10 `EdgeEval.Props.C10_multiple_gts_total`: PCQ
* C10 `EdgeEval.Props.C10_multi_label_total`: PCQ
* C11 `EdgeEval.Props.C11_ceilSqrt`: PCQ
* C11 `EdgeEval.Props.C11_rint`: PCQ
* C11 `EdgeEval.Props.C11_matching`: PCQ
* C11 `EdgeEval.Props.C11_injective`: PCQ
* C11 `EdgeEval.Props.C11_total`: PCQ
* C12 `EdgeEval.Props.C12_binary_counts_agree`: PCQ
* C12 `EdgeEval.Props.C12_multiple_gts_counts`: PCQ
* C12 `EdgeEval.Props.C12_multi_label_counts_agree`: PCQ
* C13 `EdgeEval.Props.C13_graph`: PCQ
* C13 `EdgeEval.Props.C13_no_assertion_fires`: PCQ
* C13 `EdgeEval.Props.C13_arc_count`: PCQ
* C14 `EdgeEval.Props.C14_kofn`: PCQ
* C14 `EdgeEval.Props.C14_all_of_n`: PCQ
* C14 `EdgeEval.Props.C14_uniform`: PCQ
* C14 `EdgeEval.Props.C14_inclusion`: PCQ
* C15 `EdgeEval.Props.C15_cost`: PCQ
* C15 `EdgeEval.Props.C15_cost_bounds`: PCQ
* C15 `EdgeEval.Props.C15_nothing_matchable_costs_zero`: PCQ
* C16 `EdgeEval.Props.C16_result_is_optimal`: PCQ
* C16 `EdgeEval.Props.C16_terminates`: PCQ
* C16 `EdgeEval.Props.C16_zero_costs_no_result`: PCQ
* C16 `EdgeEval.Props.C16_every_state_consistent`: PCQ
* C17 `EdgeEval.Props.C17_binary_thin_subset`: PCQ
* C17 `EdgeEval.Props.C17_binary_thin_terminates`: PCQ
* C17 `EdgeEval.Props.C17_binary_thin_limit`: PCQ
* C17 `EdgeEval.Props.C17_bwmorph`: PCQ
* C17 `EdgeEval.Props.C17_bwmorph_errors`: PCQ
* C18 `EdgeEval.Props.C18_sub_iterations`: PCQ
* C18 `EdgeEval.Props.C18_indices_in_range`: PCQ
* C18 `EdgeEval.Props.C18_mutation_test`: PCQ
* C19 `EdgeEval.Props.C19_binary_thin_topology`: PCQ
* C19 `EdgeEval.Props.C19_bwmorph_topology`: PCQ
* C19 `EdgeEval.Props.C19_end_points_survive`: PCQ
* C19 `EdgeEval.Props.C19_nonempty`: PCQ
* C20 `EdgeEval.Props.C20_bwmorph_result`: PCQ
* C20 `EdgeEval.Props.C20_bwmorph_idempotent`: PCQ
* C20 `EdgeEval.Props.C20_binary_thin_result`: PCQ
* C20 `EdgeEval.Props.C20_bwmorph_after_binary_thin`: PCQ
* C20 `EdgeEval.Props.C20_implementations_disagree`: PCQ
* C20 `EdgeEval.Props.C20_binary_thin_not_idempotent`: PQ
* C21 `EdgeEval.Props.C21_result`: PCQ
* C21 `EdgeEval.Props.C21_empty`: PCQ
* C21 `EdgeEval.Props.C21_shape_mismatch`: PCQ
* C21 `EdgeEval.Props.C21_damped`: PCQ
* C21 `EdgeEval.Props.C21_between`: PCQ
* C21 `EdgeEval.Props.C21_interior`: PCQ
* C21 `EdgeEval.Props.C21_border`: PCQ
* C21 `EdgeEval.Props.C21_maximum_kept`: PCQ
* C21 `EdgeEval.Props.C21_conservative`: PCQ
* C21 `EdgeEval.Props.C21_radius_zero`: PCQ
* C21 `EdgeEval.Props.C21_single_column_reads_outside`: PCQ
* C21 `EdgeEval.Props.C21_beaten_witness`: PCQ
* C22 `EdgeEval.Props.C22_rejects_more_than_24`: PCQ
* C22 `EdgeEval.Props.C22_png_roundtrip`: PCQ
* C22 `EdgeEval.Props.C22_png_prefix`: PCQ
* C23 `EdgeEval.Props.C23_tif_roundtrip`: PCQ
* C23 `EdgeEval.Props.C23_binary_roundtrip`: PCQ
* C23 `EdgeEval.Props.C23_wrong_size_rejected`: P
* C23 `EdgeEval.Props.C23_code_injective`: PQ
* C23 `EdgeEval.Props.C23_code_range`: PQ
* C23 `EdgeEval.Props.C23_code_bits`: PQ
* C23 `EdgeEval.Props.C23_classes_beyond_32_lost`: P
* C24 `EdgeEval.Props.C24_onehot`: PQ
* C24 `EdgeEval.Props.C24_onehot_disjoint`: PQ
* C24 `EdgeEval.Props.C24_mask_trainId`: PQ
* C24 `EdgeEval.Props.C24_edge_trainId`: PQ
* C24 `EdgeEval.Props.C24_edge_trainId_rejected`: PQ
* C24 `EdgeEval.Props.C24_conversions_commute`: PCQ
* C24 `EdgeEval.Props.C24_tables`: none
* C25 `EdgeEval.Props.C25_union`: PCQ
* C25 `EdgeEval.Props.C25_code_nonzero`: PCQ
* C26 `EdgeEval.Props.C26_pixels`: PCQ
* C26 `EdgeEval.Props.C26_id_value`: PCQ
* C26 `EdgeEval.Props.C26_recover`: PCQ
* C26 `EdgeEval.Props.C26_recover_mp`: PCQ
* C26 `EdgeEval.Props.C26_mp_misreads_small_categories`: PCQ
* C26 `EdgeEval.Props.C26_distinct`: PCQ
* C26 `EdgeEval.Props.C26_not_background`: PCQ
* C26 `EdgeEval.Props.C26_collision_beyond_1000`: PCQ
* C27 `EdgeEval.Props.C27_border`: PCQ
* C27 `EdgeEval.Props.C27_small_image`: PCQ
* C27 `EdgeEval.Props.C27_idempotent`: PCQ
* C27 `EdgeEval.Props.C27_negative_border`: PCQ
* C28 `EdgeEval.Props.C28_semantic_edges`: PCQ
* C28 `EdgeEval.Props.C28_internal_only`: PCQ
* C28 `EdgeEval.Props.C28_depends_on_own_mask`: PCQ
* C28 `EdgeEval.Props.C28_uniform_no_edges`: PCQ
* C28 `EdgeEval.Props.C28_radius_monotone`: PCQ
* C28 `EdgeEval.Props.C28_thinned`: PCQ
* C28 `EdgeEval.Props.C28_bad_ignore_index`: PCQ
* C28 `EdgeEval.Props.C28_transform`: PCQ
* C28 `EdgeEval.Props.C28_transform_rejects`: PCQ
* C28 `EdgeEval.Props.C28_binary32`: PCQ
* C28 `EdgeEval.Props.C28_binary64`: PCQ
* C28 `EdgeEval.Props.C28_no_full_image`: PCQ
* C28 `EdgeEval.Props.C28_full_image`: PCQ
* C29 `EdgeEval.Props.C29_mp_eq_loop`: PCQ
* C29 `EdgeEval.Props.C29_mp_refuses_thin`: PCQ
* C29 `EdgeEval.Props.C29_one_label`: PCQ
* C29 `EdgeEval.Props.C29_one_label_range`: PCQ
* C29 `EdgeEval.Props.C29_dispatch`: none
* C29 `EdgeEval.Props.C29_mp_eq_loop_instances`: PCQ
* C29 `EdgeEval.Props.C29_one_label_instances`: PCQ
* C29 `EdgeEval.Props.C29_mp_differs_for_small_labels`: PCQ
* C29 `EdgeEval.Props.C29_mp_label_zero`: PCQ
* C29 `EdgeEval.Props.C29_no_labels`: PCQ
* C30 `EdgeEval.Props.C30_instance_edges`: PCQ
* C30 `EdgeEval.Props.C30_contains_semantic`: PCQ
* C30 `EdgeEval.Props.C30_thinned`: PCQ
* C30 `EdgeEval.Props.C30_no_instances`: PCQ
* C30 `EdgeEval.Props.C30_transform`: PCQ
* C30 `EdgeEval.Props.C30_transform_shape`: PCQ
* C30 `EdgeEval.Props.C30_no_full_image`: PCQ
* C31 `EdgeEval.Props.C31_kill_internal`: PCQ
* C31 `EdgeEval.Props.C31_shapes`: PCQ
* C31 `EdgeEval.Props.C31_uint8_mask_kills_nothing`: PCQ
* C31 `EdgeEval.Props.C31_only_lowers_sum_p`: PCQ
* C31 `EdgeEval.Props.C31_sum_p`: PCQ
* C31 `EdgeEval.Props.C31_error_kinds`: PCQ
* C31 `EdgeEval.Props.C31_needs_segmentation`: PCQ
* C32 `EdgeEval.Props.C32_last_call_decides`: PCQ
* C32 `EdgeEval.Props.C32_failure_iff`: PCQ
* C32 `EdgeEval.Props.C32_bad_scale_no_effect`: PCQ
* C32 `EdgeEval.Props.C32_bad_scales_keep_parameters`: PCQ
* C32 `EdgeEval.Props.C32_failed_preseal_half_applied`: PCQ
* C32 `EdgeEval.Props.C32_scale_always_valid`: PCQ
* C32 `EdgeEval.Props.C32_presets_consistent`: PCQ
* C32 `EdgeEval.Props.C32_unset`: PQ
* C32 `EdgeEval.Props.C32_cli_preseal_needs_nonIS`: PCQ
* C33 `EdgeEval.Props.C33_categories`: PQ
* C33 `EdgeEval.Props.C33_report`: PCQ
* C33 `EdgeEval.Props.C33_rounding`: PCQ
* C33 `EdgeEval.Props.C33_first_failure`: PCQ
* C33 `EdgeEval.Props.C33_class_name`: PCQ
* C33 `EdgeEval.Props.C33_round_half_even`: PCQ
* C33 `EdgeEval.Props.C33_saved_keys`: PCQ
* C34 `EdgeEval.Props.C34_track_progress`: PQ
* C34 `EdgeEval.Props.C34_task_arguments`: none
* C34 `EdgeEval.Props.C34_parallel_bar`: PCQ
* C34 `EdgeEval.Props.C34_parallel_bar_unordered`: PCQ
* C34 `EdgeEval.Props.C34_bar_field`: PCQ
* C34 `EdgeEval.Props.C34_iter_progress`: PCQ
* C34 `EdgeEval.Props.C34_update`: PQ
* C35 `EdgeEval.Props.C35_calls_without_number`: PCQ
* C35 `EdgeEval.Props.C35_new_timer`: PCQ
* C35 `EdgeEval.Props.C35_since_start`: PCQ
* C35 `EdgeEval.Props.C35_since_last_check`: PCQ
* C35 `EdgeEval.Props.C35_running_iff`: PCQ
* C35 `EdgeEval.Props.C35_raises_iff_stopped`: PCQ
* C35 `EdgeEval.Props.C35_checks_add_up`: PCQ
* C35 `EdgeEval.Props.C35_check_time`: PCQ
* C36 `EdgeEval.Props.C36_unconfigured`: P
* C36 `EdgeEval.Props.C36_handlers_once`: PQ
* C36 `EdgeEval.Props.C36_first_call_wins`: PQ
* C36 `EdgeEval.Props.C36_child_gets_none`: PQ
* C36 `EdgeEval.Props.C36_prefix_sibling_is_silent`: P
* C36 `EdgeEval.Props.C36_child_before_parent_duplicates`: P
* C36 `EdgeEval.Props.C36_print_log`: PCQ
* C37 `EdgeEval.Props.C37_threshold_file`: PCQ
* C37 `EdgeEval.Props.C37_threshold_file_single`: PCQ
* C37 `EdgeEval.Props.C37_overall_file`: PCQ
* C37 `EdgeEval.Props.C37_sample_file`: PCQ
* C37 `EdgeEval.Props.C37_sample_name`: PCQ
* C37 `EdgeEval.Props.C37_six_decimals_exact`: PCQ
* C37 `EdgeEval.Props.C37_overall_average_exact`: PCQ
* C37 `EdgeEval.Props.C37_files`: PCQ
* C37 `EdgeEval.Props.C37_category_dirs`: PCQ
* C37 `EdgeEval.Props.C37_ties_to_even`: PCQ
* C37 `EdgeEval.Props.C37_field`: PCQ
* C37 `EdgeEval.Props.C37_columns`: PCQ
* C38 `EdgeEval.Props.C38_contour`: PCQ
* C38 `EdgeEval.Props.C38_plotted_points`: PCQ
* C38 `EdgeEval.Props.C38_threshold_loader`: PCQ
* C38 `EdgeEval.Props.C38_plot_rejects_saved_results`: PCQ
* C38 `EdgeEval.Props.C38_exact_points`: PCQ
* C38 `EdgeEval.Props.C38_table_loader`: PCQ
* C38 `EdgeEval.Props.C38_plot_accepts`: PCQ
* C38 `EdgeEval.Props.C38_exponents`: PCQ
* C38 `EdgeEval.Props.C38_integer_literals`: PCQ
* C38 `EdgeEval.Props.C38_number_errors`: PCQ
* C38 `EdgeEval.Props.C38_bad_digits`: P
* C39 `EdgeEval.Props.C39_bits`: PCQ
* C39 `EdgeEval.Props.C39_same_color_iff`: PCQ
* C39 `EdgeEval.Props.C39_table`: PCQ
* C39 `EdgeEval.Props.C39_repeats`: PCQ
* C39 `EdgeEval.Props.C39_normalized`: PCQ
* C40 `EdgeEval.Props.C40_argument_checks`: PCQ
* C41 `EdgeEval.Props.C41_threshold_antitone`: PCQ
* C41 `EdgeEval.Props.C41_threshold_above_all`: PCQ
* C41 `EdgeEval.Props.C41_threshold_below_all`: PCQ
* C41 `EdgeEval.Props.C41_thinning_breaks_antitone`: PCQ
* C42 `EdgeEval.Props.C42_thresholds_int`: PCQ
* C42 `EdgeEval.Props.C42_thresholds_iff`: PCQ
* C42 `EdgeEval.Props.C42_thresholds_list`: PCQ
* C42 `EdgeEval.Props.C42_categories_iff`: PQ
* C42 `EdgeEval.Props.C42_categories_int`: PCQ
* C42 `EdgeEval.Props.C42_categories_roundtrip`: PCQ
* C42 `EdgeEval.Props.C42_categories_default`: PCQ
* C42 `EdgeEval.Props.C42_cityscapes_plan`: PCQ
* C42 `EdgeEval.Props.C42_sbd_plan`: PCQ
* C42 `EdgeEval.Props.C42_out_of_range`: PCQ
* C42 `EdgeEval.Props.C42_bad_format`: PCQ
* C42 `EdgeEval.Props.C42_cityscapes_protocol`: PCQ
* C42 `EdgeEval.Props.C42_cityscapes_thin`: PCQ
* C42 `EdgeEval.Props.C42_cityscapes_raw`: PCQ
* C42 `EdgeEval.Props.C42_sbd_ignores_options`: PCQ
* C42 `EdgeEval.Props.C42_reanno_command_fails`: PCQ
* C42 `EdgeEval.Props.C42_reanno_direct`: PCQ
* C42 `EdgeEval.Props.C42_bsds`: PCQ
* C42 `EdgeEval.Props.C42_keywords`: PCQ
* C42 `EdgeEval.Props.C42_reanno_ignores_mode`: PCQ
* C42 `EdgeEval.Props.C42_scale`: PCQ
* C42 `EdgeEval.Props.C42_preset_flags`: PCQ
* C43 `EdgeEval.Props.C43_self_match_small`: PCQ
* C43 `EdgeEval.Props.C43_uncovered_outlier_loses_a_pixel`: PCQ
* C43 `EdgeEval.Props.C43_seven_pixels_lose_one`: PCQ
* C43 `EdgeEval.Props.C43_maximal_small`: PCQ
* C43 `EdgeEval.Props.C43_maximum_small`: PCQ
* C43 `EdgeEval.Props.C43_self_match_covered`: PCQ
* C43 `EdgeEval.Props.C43_perfect_iff`: PCQ
* C43 `EdgeEval.Props.C43_matched_le_covered`: PCQ
* C43 `EdgeEval.Props.C43_depends_on_stream`: PCQ
* C44 `EdgeEval.Props.C44_float_images`: PCQ
* C44 `EdgeEval.Props.C44_integer_images`: PCQ
* C44 `EdgeEval.Props.C44_closed_form`: PCQ
* C44 `EdgeEval.Props.C44_weights`: PCQ
* C44 `EdgeEval.Props.C44_range`: PCQ
* C44 `EdgeEval.Props.C44_trivial`: PCQ
* C44 `EdgeEval.Props.C44_radius_zero_subsampling`: PCQ
* C44 `EdgeEval.Props.C44_subsampling`: PCQ
* C44 `EdgeEval.Props.C44_matlab_differs`: PCQ
* C44 `EdgeEval.Props.C44_mirror`: PCQ
* C44 `EdgeEval.Props.C44_reduced_size`: PCQ
* C45 `EdgeEval.Props.C45_float`: PCQ
* C45 `EdgeEval.Props.C45_value`: PCQ
* C45 `EdgeEval.Props.C45_small_rejected`: PCQ
* C45 `EdgeEval.Props.C45_uint8_input`: PCQ
* C45 `EdgeEval.Props.C45_other_dtype`: PCQ
* C45 `EdgeEval.Props.C45_uint8_output`: PCQ
* C45 `EdgeEval.Props.C45_constant`: PCQ
* C45 `EdgeEval.Props.C45_bytes_ties_to_even`: PCQ
* C46 `EdgeEval.Props.C46_direction`: PCQ
* C46 `EdgeEval.Props.C46_horizontal_not_thinned`: PCQ
* C46 `EdgeEval.Props.C46_vertical_thinned`: PCQ
* C47 `EdgeEval.Props.C47_explicit`: PCQ
* C47 `EdgeEval.Props.C47_split_file`: PCQ
* C47 `EdgeEval.Props.C47_split_file_errors`: PCQ
* C47 `EdgeEval.Props.C47_history`: PCQ
* C47 `EdgeEval.Props.C47_bsds`: PCQ
* C47 `EdgeEval.Props.C47_bsds_missing`: PCQ
* C47 `EdgeEval.Props.C47_constructor`: PCQ
* C47 `EdgeEval.Props.C47_getter_isolated`: PQ
* C47 `EdgeEval.Props.C47_setter_aliases`: PQ
* C47 `EdgeEval.Props.C47_getter_none`: P
* C48 `EdgeEval.Props.C48_samples`: PCQ
* C48 `EdgeEval.Props.C48_otf_samples`: PCQ
* C48 `EdgeEval.Props.C48_predictions_unchecked`: PCQ
* C48 `EdgeEval.Props.C48_predictions_distinct`: PCQ
* C48 `EdgeEval.Props.C48_gt_distinct`: PCQ
* C48 `EdgeEval.Props.C48_variants_distinct`: PCQ
* C48 `EdgeEval.Props.C48_bsds_samples`: PCQ
* C48 `EdgeEval.Props.C48_no_split_dir`: PCQ
* C48 `EdgeEval.Props.C48_no_split_dir_greedy`: PCQ
* C48 `EdgeEval.Props.C48_absolute_names`: PCQ
* C48 `EdgeEval.Props.C48_absolute_gt_dir`: PCQ
* C48 `EdgeEval.Props.C48_refusals`: PCQ
* C48 `EdgeEval.Props.C48_bsds_refusals`: PCQ
* C49 `EdgeEval.Props.C49_scaled_size`: PCQ
* C49 `EdgeEval.Props.C49_resize`: PCQ
* C49 `EdgeEval.Props.C49_resize_order`: PCQ
* C49 `EdgeEval.Props.C49_half_scale`: PCQ
* C49 `EdgeEval.Props.C49_upscale_uses_all`: PCQ
* C49 `EdgeEval.Props.C49_precomputed_inputs`: PCQ
* C49 `EdgeEval.Props.C49_round_trip`: PCQ
* C49 `EdgeEval.Props.C49_responses_in_unit`: PCQ
* C49 `EdgeEval.Props.C49_sbd_mask_off_by_one`: PCQ
* C49 `EdgeEval.Props.C49_single`: PCQ
* C49 `EdgeEval.Props.C49_otf_inputs`: PCQ
* C49 `EdgeEval.Props.C49_otf_rejects_small`: PCQ
* C49 `EdgeEval.Props.C49_otf_single`: PCQ
* C49 `EdgeEval.Props.C49_bsds_single`: PCQ
* C49 `EdgeEval.Props.C49_generic_binary_fails`: PCQ
* C49 `EdgeEval.Props.C49_flipped_table`: PCQ
* C49 `EdgeEval.Props.C49_bsds_missing`: PCQ
* C50 `EdgeEval.Props.C50_category`: PCQ
* C50 `EdgeEval.Props.C50_otf`: PCQ
* C50 `EdgeEval.Props.C50_bsds`: PCQ
* C50 `EdgeEval.Props.C50_missing_prediction`: PCQ
* C50 `EdgeEval.Props.C50_evaluate`: PCQ
* C51 `EdgeEval.Props.C51_scandir_exact`: PQ
* C51 `EdgeEval.Props.C51_scandir_all`: PQ
* C51 `EdgeEval.Props.C51_scandir_refuses`: P
* C51 `EdgeEval.Props.C51_scandir_once`: PQ
* C51 `EdgeEval.Props.C51_hidden_directory_entered`: PQ
* C51 `EdgeEval.Props.C51_mkdir`: PCQ
* C51 `EdgeEval.Props.C51_symlink`: P
* C51 `EdgeEval.Props.C51_check_file`: P
* C52 `EdgeEval.Props.C52_contents`: PCQ
* C52 `EdgeEval.Props.C52_sealed`: PCQ
* C52 `EdgeEval.Props.C52_thin`: PCQ
* C52 `EdgeEval.Props.C52_half_offset`: PCQ
* C52 `EdgeEval.Props.C52_same_as_otf`: PCQ
* C52 `EdgeEval.Props.C52_refusals`: PCQ
* C52 `EdgeEval.Props.C52_written`: PCQ
* C52 `EdgeEval.Props.C52_bin_fails`: PCQ
* C52 `EdgeEval.Props.C52_extension`: PQ
* C52 `EdgeEval.Props.C52_reduced_sizes`: PCQ
* C52 `EdgeEval.Props.C52_encode_refusals`: PCQ
* C53 `EdgeEval.Props.C53_file_names`: PCQ
* C53 `EdgeEval.Props.C53_root_rewritten`: PCQ
* C53 `EdgeEval.Props.C53_jobs_ok`: PCQ
* C53 `EdgeEval.Props.C53_complete`: PCQ
* C53 `EdgeEval.Props.C53_paths_agree`: PCQ
* C53 `EdgeEval.Props.C53_evaluator_ready`: PCQ
* C53 `EdgeEval.Props.C53_checks`: PCQ
* C53 `EdgeEval.Props.C53_bin_fails`: PCQ
* C53 `EdgeEval.Props.C53_thin_radius`: PCQ
* C53 `EdgeEval.Props.C53_missing_test`: PCQ
* C53 `EdgeEval.Props.C53_order_irrelevant`: PCQ
* C53 `EdgeEval.Props.C53_jobs`: PCQ
* C53 `EdgeEval.Props.C53_run`: PCQ
* C54 `EdgeEval.Props.C54_raw`: PCQ
* C54 `EdgeEval.Props.C54_thin`: PCQ
* C54 `EdgeEval.Props.C54_no_list`: PCQ
* C54 `EdgeEval.Props.C54_reanno_checked_late`: PCQ
* C54 `EdgeEval.Props.C54_evaluator_ready`: PCQ
* C54 `EdgeEval.Props.C54_reanno_evaluator`: PCQ
* C54 `EdgeEval.Props.C54_one_content`: PCQ
* C54 `EdgeEval.Props.C54_reanno_sample`: PCQ
* C54 `EdgeEval.Props.C54_reanno_refusals`: PCQ
* C54 `EdgeEval.Props.C54_reanno`: PCQ
* C54 `EdgeEval.Props.C54_refusals`: PCQ
* C54 `EdgeEval.Props.C54_samples`: PQ
* C54 `EdgeEval.Props.C54_script`: PCQ
* C54 `EdgeEval.Props.C54_files_distinct`: PCQ
* C54 `EdgeEval.Props.C54_ground_truth`: PCQ
* C54 `EdgeEval.Props.C54_border_free`: PCQ
* C54 `EdgeEval.Props.C54_border_instances`: PCQ
* C54 `EdgeEval.Props.C54_deprecated_loader`: PCQ
* C54 `EdgeEval.Props.C54_no_test_mat`: PCQ
* C55 `EdgeEval.Props.C55_scores`: PCQ
* C55 `EdgeEval.Props.C55_f1`: PCQ
* C55 `EdgeEval.Props.C55_thresholds`: PCQ
* C55 `EdgeEval.Props.C55_evaluation`: PCQ
* C55 `EdgeEval.Props.C55_close`: PCQ
* C55 `EdgeEval.Props.C55_order_independent`: PCQ
* C55 `EdgeEval.Props.C55_exact`: PCQ
* C55 `EdgeEval.Props.C55_grid_point_missed`: PCQ
* C55 `EdgeEval.Props.C55_ap_artefact`: PCQ
* C56 `EdgeEval.Props.C56_no_rounding`: PCQ
* C56 `EdgeEval.Props.C56_valid`: PCQ
* C56 `EdgeEval.Props.C56_near_optimal`: PCQ
* C56 `EdgeEval.Props.C56_exact_if_prices_small`: PCQ
* C56 `EdgeEval.Props.C56_stops`: PCQ
* C56 `EdgeEval.Props.C56_moderate_prices`: PCQ
* C56 `EdgeEval.Props.C56_exact_moderate`: PCQ
* C57 `EdgeEval.Props.C57_matching`: PCQ
* C57 `EdgeEval.Props.C57_injective`: PCQ
* C57 `EdgeEval.Props.C57_weight`: PCQ
* C57 `EdgeEval.Props.C57_total`: PCQ
* C57 `EdgeEval.Props.C57_maximum_small`: PCQ
* C57 `EdgeEval.Props.C57_self_match_small`: PCQ
* C57 `EdgeEval.Props.C57_cost`: PCQ
* C57 `EdgeEval.Props.C57_nothing_matchable`: PCQ
* C58 `EdgeEval.Props.C58_kofn`: PCQ
* C58 `EdgeEval.Props.C58_kofn_covers`: PCQ
* C58 `EdgeEval.Props.C58_no_overflow`: PCQ
* C58 `EdgeEval.Props.C58_tall_image_overflows`: PCQ
* C58 `EdgeEval.Props.C58_result_cost_overflows`: PCQ
* C58 `EdgeEval.Props.C58_covers`: PCQ
* C58 `EdgeEval.Props.C58_covers_counts`: PCQ
* C58 `EdgeEval.Props.C58_covers_diagonal`: PCQ
* C58 `EdgeEval.Props.C58_covers_graph`: PCQ
* C58 `EdgeEval.Props.C58_covers_windows`: PCQ
* C58 `EdgeEval.Props.C58_covers_unsigned`: PCQ
* C58 `EdgeEval.Props.C58_covers_partners`: PCQ
* C59 `EdgeEval.Props.C59_fp_range`: PCQ
* C59 `EdgeEval.Props.C59_reset`: PCQ
* C59 `EdgeEval.Props.C59_clock_seed`: PCQ
* C59 `EdgeEval.Props.C59_clock_collision`: PCQ
* C59 `EdgeEval.Props.C59_full_period`: PCQ
* C59 `EdgeEval.Props.C59_int_range`: PCQ
* C59 `EdgeEval.Props.C59_int_full`: PCQ
* C59 `EdgeEval.Props.C59_int_can_exceed`: PCQ
* C59 `EdgeEval.Props.C59_kofn_float`: PCQ
* C59 `EdgeEval.Props.C59_exact`: PCQ
* C59 `EdgeEval.Props.C59_every_subset`: PCQ
* C60 `EdgeEval.Props.C60_all_results_sound`: PCQ
* C60 `EdgeEval.Props.C60_all_results_complete`: PCQ
* C60 `EdgeEval.Props.C60_all_results_resume`: PCQ
* C60 `EdgeEval.Props.C60_models_identical`: PCQ
* C60 `EdgeEval.Props.C60_all_results_refusals`: PCQ
* C60 `EdgeEval.Props.C60_results_collide`: PCQ
* C60 `EdgeEval.Props.C60_results_lost`: PCQ
* C60 `EdgeEval.Props.C60_process_one`: PCQ
* C60 `EdgeEval.Props.C60_results_missing`: none
* C60 `EdgeEval.Props.C60_results_raises`: P
* C61 `EdgeEval.Props.C61_r50`: PCQ
* C61 `EdgeEval.Props.C61_r50_range`: PCQ
* C61 `EdgeEval.Props.C61_plot`: PCQ
* C61 `EdgeEval.Props.C61_plot_arguments`: PCQ
* C61 `EdgeEval.Props.C61_plot_needs_equal_lengths`: PCQ
* C61 `EdgeEval.Props.C61_plot_never_own_results`: PCQ
* C62 `EdgeEval.Props.C62_same_result`: PCQ
* C62 `EdgeEval.Props.C62_no_bad_access`: PCQ
* C62 `EdgeEval.Props.C62_solves`: PCQ
* C62 `EdgeEval.Props.C62_correspondence`: PCQ
* C62 `EdgeEval.Props.C62_bad_arc`: PCQ
* C62 `EdgeEval.Props.C62_zero_costs_null_pointer`: PCQ
* C63 `EdgeEval.Props.C63_same_result`: PCQ
* C63 `EdgeEval.Props.C63_no_bad_access`: PCQ
* C63 `EdgeEval.Props.C63_terminates`: PCQ
* C63 `EdgeEval.Props.C63_matching`: PCQ
* C63 `EdgeEval.Props.C63_precondition`: PCQ
* C63 `EdgeEval.Props.C63_sampler`: PCQ
* C63 `EdgeEval.Props.C63_overlay`: PCQ
* C64 `EdgeEval.Props.C64_values`: PCQ
* C64 `EdgeEval.Props.C64_memory_safe`: PCQ
* C64 `EdgeEval.Props.C64_no_leak`: PCQ
* C64 `EdgeEval.Props.C64_deep_copy`: PCQ
* C64 `EdgeEval.Props.C64_nms`: PCQ
* C64 `EdgeEval.Props.C64_correspond`: PCQ
* C64 `EdgeEval.Props.C64_wrapped`: PCQ
* C64 `EdgeEval.Props.C64_malloc_zero`: PCQ
* C65 `EdgeEval.Props.C65_refusals`: PCQ
* C65 `EdgeEval.Props.C65_between`: PCQ
* C65 `EdgeEval.Props.C65_interior`: PCQ
* C65 `EdgeEval.Props.C65_border`: PCQ
* C65 `EdgeEval.Props.C65_agrees`: PCQ
* C65 `EdgeEval.Props.C65_maximum_kept`: PCQ
* C65 `EdgeEval.Props.C65_smoothing`: PCQ
* C65 `EdgeEval.Props.C65_fast_nms`: PCQ
* C65 `EdgeEval.Props.C65_fast_nms_bytes`: PCQ
* C65 `EdgeEval.Props.C65_fast_nms_refusals`: PCQ
* C65 `EdgeEval.Props.C65_float_multiplier`: PCQ
* C65 `EdgeEval.Props.C65_constant_erased`: PCQ
* C65 `EdgeEval.Props.C65_one_wide_reads_outside`: PCQ
* C65 `EdgeEval.Props.C65_bytes_ties_to_even`: PCQ
* C66 `EdgeEval.Props.C66_safe`: PCQ
* C66 `EdgeEval.Props.C66_sorts`: PCQ
* C66 `EdgeEval.Props.C66_returns`: PQ
* C66 `EdgeEval.Props.C66_simple_sorts`: PCQ
* C66 `EdgeEval.Props.C66_median`: PCQ
* C66 `EdgeEval.Props.C66_default`: PCQ
* C66 `EdgeEval.Props.C66_example_decreasing`: PCQ
* C66 `EdgeEval.Props.C66_example_overflow`: none
* C66 `EdgeEval.Props.C66_nan_unsorted`: PCQ
* C67 `EdgeEval.Props.C67_transpose`: PCQ
* C67 `EdgeEval.Props.C67_flips`: PCQ
* C67 `EdgeEval.Props.C67_rot90`: PCQ
* C67 `EdgeEval.Props.C67_rot90_returns`: PCQ
* C67 `EdgeEval.Props.C67_reshape`: PCQ
* C67 `EdgeEval.Props.C67_repmat`: PCQ
* C67 `EdgeEval.Props.C67_repmat_none`: PCQ
* C67 `EdgeEval.Props.C67_repmat_norows`: PCQ
* C67 `EdgeEval.Props.C67_eye`: PCQ
* C67 `EdgeEval.Props.C67_tri`: PCQ
* C68 `EdgeEval.Props.C68_access`: PCQ
* C68 `EdgeEval.Props.C68_find`: PCQ
* C68 `EdgeEval.Props.C68_gather`: PCQ
* C68 `EdgeEval.Props.C68_scatter`: PCQ
* C68 `EdgeEval.Props.C68_scatter_refuses`: PCQ
* C68 `EdgeEval.Props.C68_ind2sub`: PCQ
* C68 `EdgeEval.Props.C68_sub2ind_ignores_columns`: PCQ
* C68 `EdgeEval.Props.C68_extract`: PCQ
* C68 `EdgeEval.Props.C68_extract_empty`: PCQ
* C68 `EdgeEval.Props.C68_insert`: PCQ
* C68 `EdgeEval.Props.C68_insert_too_small`: PCQ
* C68 `EdgeEval.Props.C68_diagonals`: PCQ
* C68 `EdgeEval.Props.C68_diag`: PCQ
* C69 `EdgeEval.Props.C69_folds`: PCQ
* C69 `EdgeEval.Props.C69_sums`: PCQ
* C69 `EdgeEval.Props.C69_any_all`: PCQ
* C69 `EdgeEval.Props.C69_min`: PCQ
* C69 `EdgeEval.Props.C69_rmin`: PCQ
* C69 `EdgeEval.Props.C69_cmin`: PCQ
* C69 `EdgeEval.Props.C69_cmin_indices_wrong`: PCQ
* C69 `EdgeEval.Props.C69_empty`: PQ
* C70 `EdgeEval.Props.C70_map`: PCQ
* C70 `EdgeEval.Props.C70_zip`: PCQ
* C70 `EdgeEval.Props.C70_assign`: PCQ
* C70 `EdgeEval.Props.C70_assign_rows_unchecked`: PCQ
* C70 `EdgeEval.Props.C70_isequal`: PCQ
* C70 `EdgeEval.Props.C70_mtimes`: PCQ
* C70 `EdgeEval.Props.C70_product`: PCQ
* C70 `EdgeEval.Props.C70_linspace`: PCQ
* C70 `EdgeEval.Props.C70_linspace_one`: PCQ
* C71 `EdgeEval.Props.C71_inverse`: PCQ
* C71 `EdgeEval.Props.C71_reciprocal_wrong`: PCQ
* C71 `EdgeEval.Props.C71_mod`: PCQ
* C71 `EdgeEval.Props.C71_rem`: PCQ
* C72 `EdgeEval.Props.C72_row_major`: PCQ
* C72 `EdgeEval.Props.C72_one_to_one`: PCQ
* C72 `EdgeEval.Props.C72_formulas`: PCQ
* C72 `EdgeEval.Props.C72_overflow`: P
* C73 `EdgeEval.Props.C73_values`: PCQ
* C73 `EdgeEval.Props.C73_memory_safe`: PCQ
* C73 `EdgeEval.Props.C73_no_leak`: PCQ
* C73 `EdgeEval.Props.C73_checked`: PCQ
* C73 `EdgeEval.Props.C73_copies_share`: none
* C73 `EdgeEval.Props.C73_size`: PQ
* C74 `EdgeEval.Props.C74_total_time`: PCQ
* C74 `EdgeEval.Props.C74_from_construction`: PCQ
* C74 `EdgeEval.Props.C74_protocol`: PCQ
* C74 `EdgeEval.Props.C74_reading_while_running`: PCQ
* C74 `EdgeEval.Props.C74_unchecked_misuse`: PCQ
* C74 `EdgeEval.Props.C74_rounding`: PCQ
* C74 `EdgeEval.Props.C74_format`: PCQ
* C74 `EdgeEval.Props.C74_format_exact`: PCQ
* C74 `EdgeEval.Props.C74_format_float`: PCQ
* C74 `EdgeEval.Props.C74_buffers`: PCQ
* C74 `EdgeEval.Props.C74_static_buffer`: PCQ
* C74 `EdgeEval.Props.C74_minus_zero`: PCQ
* C75 `EdgeEval.Props.C75_values`: PCQ
* C75 `EdgeEval.Props.C75_no_leak`: PCQ
* C75 `EdgeEval.Props.C75_compare`: PCQ
* C75 `EdgeEval.Props.C75_next_line`: PCQ
* C75 `EdgeEval.Props.C75_long_format`: PCQ
* C75 `EdgeEval.Props.C75_long_assignment`: PCQ
* C75 `EdgeEval.Props.C75_own_text`: PCQ
* C75 `EdgeEval.Props.C75_self_append`: PCQ
* C75 `EdgeEval.Props.C75_nul_line`: PCQ
* C76 `EdgeEval.Props.C76_throw`: PCQ
* C76 `EdgeEval.Props.C76_matrix_messages`: PCQ
* C76 `EdgeEval.Props.C76_copy`: PCQ
* C76 `EdgeEval.Props.C76_rethrow`: PCQ
* C76 `EdgeEval.Props.C76_assign_double_free`: PQ
* C77 `EdgeEval.Props.C77_no_leak`: PCQ
* C77 `EdgeEval.Props.C77_object`: PCQ
* C77 `EdgeEval.Props.C77_failed_request`: PCQ
* C77 `EdgeEval.Props.C77_bad_alloc_leaks`: PCQ
* C77 `EdgeEval.Props.C77_assertions`: PCQ
* C77 `EdgeEval.Props.C77_bad_arc`: PCQ
* C77 `EdgeEval.Props.C77_result`: PCQ
* C77 `EdgeEval.Props.C77_copy_double_free`: PCQ
* C78 `EdgeEval.Props.C78_pool`: PCQ
* C78 `EdgeEval.Props.C78_results`: PCQ
* C78 `EdgeEval.Props.C78_invariant`: PCQ
* C78 `EdgeEval.Props.C78_state_independent`: PCQ
* C78 `EdgeEval.Props.C78_one_process`: PCQ
* C78 `EdgeEval.Props.C78_terminates`: PCQ
* C78 `EdgeEval.Props.C78_init_pool`: PQ
* C78 `EdgeEval.Props.C78_schedule_matters`: P
* C78 `EdgeEval.Props.C78_evaluate_category`: PCQ
* C78 `EdgeEval.Props.C78_evaluate_category_total`: PCQ
* C79 `EdgeEval.Props.C79_test_edges`: PCQ
* C79 `EdgeEval.Props.C79_sizes`: PCQ
* C79 `EdgeEval.Props.C79_same_sample`: PCQ
* C79 `EdgeEval.Props.C79_reports`: PCQ
* C79 `EdgeEval.Props.C79_no_misses`: PCQ
* C79 `EdgeEval.Props.C79_ends`: PCQ
* C79 `EdgeEval.Props.C79_checks_converter`: PCQ
* C79 `EdgeEval.Props.C79_instances_refused`: PCQ
* C79 `EdgeEval.Props.C79_tif_fails`: PCQ
* C79 `EdgeEval.Props.C79_root_rewritten`: PCQ
* C80 `EdgeEval.Props.C80_dense`: PCQ
* C80 `EdgeEval.Props.C80_every_picture`: PCQ
* C80 `EdgeEval.Props.C80_not_sparse`: P
* C80 `EdgeEval.Props.C80_cls_by_position`: PCQ
* C80 `EdgeEval.Props.C80_cls_by_name`: PCQ
* C80 `EdgeEval.Props.C80_cls`: PCQ
* C80 `EdgeEval.Props.C80_inst_by_position`: PCQ
* C80 `EdgeEval.Props.C80_inst_by_name`: PCQ
* C80 `EdgeEval.Props.C80_inst`: PCQ
* C80 `EdgeEval.Props.C80_one_class`: PCQ
* C80 `EdgeEval.Props.C80_thin_picture`: PCQ
* C80 `EdgeEval.Props.C80_row_cell`: PCQ
* C80 `EdgeEval.Props.C80_no_file`: PCQ
* C80 `EdgeEval.Props.C80_names`: PCQ
* C80 `EdgeEval.Props.C80_bsds`: PCQ
* C80 `EdgeEval.Props.C80_bsds_one`: PCQ
* C80 `EdgeEval.Props.C80_plane`: PCQ
* C80 `EdgeEval.Props.C80_conversion_input`: PQ
* C81 `EdgeEval.Props.C81_script`: PCQ
* C81 `EdgeEval.Props.C81_reanno`: PCQ
* C81 `EdgeEval.Props.C81_reanno_fails`: PCQ
* C81 `EdgeEval.Props.C81_unreadable`: PCQ
* C81 `EdgeEval.Props.C81_no_reader`: PCQ
* C81 `EdgeEval.Props.C81_every_annotation`: PCQ
* C82 `EdgeEval.Props.C82_scores`: PCQ
* C82 `EdgeEval.Props.C82_unreadable`: PCQ
* C83 `EdgeEval.Props.C83_accepted`: PCQ
* C83 `EdgeEval.Props.C83_only`: PCQ
* C83 `EdgeEval.Props.C83_unambiguous`: PCQ
* C83 `EdgeEval.Props.C83_wrong_count`: PCQ
* C83 `EdgeEval.Props.C83_unknown`: PCQ
* C83 `EdgeEval.Props.C83_ambiguous`: PCQ
* C83 `EdgeEval.Props.C83_exit`: PCQ
* C83 `EdgeEval.Props.C83_help`: PCQ
* C83 `EdgeEval.Props.C83_parsers`: PCQ
* C83 `EdgeEval.Props.C83_cityscapes_raw`: PCQ
* C83 `EdgeEval.Props.C83_cityscapes_thin`: PCQ
* C83 `EdgeEval.Props.C83_sbd`: PCQ
* C83 `EdgeEval.Props.C83_bsds`: PCQ
* C83 `EdgeEval.Props.C83_convert_cityscapes`: PCQ
* C83 `EdgeEval.Props.C83_convert_sbd`: PCQ
* C83 `EdgeEval.Props.C83_script`: PCQ
* C83 `EdgeEval.Props.C83_sbd_suffix_ignored`: PCQ
* C83 `EdgeEval.Props.C83_reanno_never`: PCQ
* C83 `EdgeEval.Props.C83_thin_refuses`: PCQ
* C83 `EdgeEval.Props.C83_short_prefixes`: PCQ
* C84 `EdgeEval.Props.C84_bsds_evaluator`: PCQ
* C84 `EdgeEval.Props.C84_bsds`: PCQ
* C84 `EdgeEval.Props.C84_script_evaluator`: PCQ
* C84 `EdgeEval.Props.C84_script`: PCQ
* C84 `EdgeEval.Props.C84_cityscapes_raw`: PCQ
* C84 `EdgeEval.Props.C84_cityscapes_thin`: PCQ
* C84 `EdgeEval.Props.C84_sbd`: PCQ
* C84 `EdgeEval.Props.C84_cityscapes_raw_evaluator`: PCQ
* C84 `EdgeEval.Props.C84_cityscapes_thin_evaluator`: PCQ
* C84 `EdgeEval.Props.C84_sbd_evaluator`: PCQ
* C84 `EdgeEval.Props.C84_bad_words`: PCQ
* C84 `EdgeEval.Props.C84_no_output`: PCQ
* C84 `EdgeEval.Props.C84_no_samples`: PCQ
* C84 `EdgeEval.Props.C84_refused`: PCQ
* C84 `EdgeEval.Props.C84_bsds_stops`: PCQ
* C84 `EdgeEval.Props.C84_bad_parameters`: PCQ
* C84 `EdgeEval.Props.C84_default_output`: PCQ
* C84 `EdgeEval.Props.C84_cityscapes_raw_missing`: PCQ
* C84 `EdgeEval.Props.C84_cityscapes_thin_missing`: PCQ
* C84 `EdgeEval.Props.C84_sbd_missing`: PCQ
* C84 `EdgeEval.Props.C84_bsds_missing`: PCQ
* C84 `EdgeEval.Props.C84_script_missing`: PCQ
* C84 `EdgeEval.Props.C84_default_output_place`: PCQ
* C85 `EdgeEval.Props.C85_convert_cityscapes`: PCQ
* C85 `EdgeEval.Props.C85_convert_cityscapes_stops`: PCQ
* C85 `EdgeEval.Props.C85_convert_cityscapes_bin`: PCQ
* C85 `EdgeEval.Props.C85_test_mode`: PCQ
* C85 `EdgeEval.Props.C85_convert_sbd`: PCQ
* C85 `EdgeEval.Props.C85_convert_sbd_reanno`: PCQ
* C85 `EdgeEval.Props.C85_convert_sbd_stops`: PCQ
* C85 `EdgeEval.Props.C85_mismatched_files`: PCQ
* C85 `EdgeEval.Props.C85_mismatch_raw`: PCQ
* C85 `EdgeEval.Props.C85_converted_files`: PCQ
* C85 `EdgeEval.Props.C85_convert_then_evaluate_raw`: PCQ
* C85 `EdgeEval.Props.C85_convert_then_evaluate_thin`: PCQ
* C85 `EdgeEval.Props.C85_converted_sbd_files`: PCQ
* C85 `EdgeEval.Props.C85_convert_then_evaluate_sbd`: PCQ
