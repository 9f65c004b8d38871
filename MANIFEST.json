{
 "claims": [
  {
   "property": "C01",
   "status": "proved",
   "theorems": [
    "EdgeEval.Props.C01_denominators_nonzero",
    "EdgeEval.Props.C01_scores"
   ],
   "note": ""
  },
  {
   "property": "C02",
   "status": "proved",
   "theorems": [
    "EdgeEval.Props.C02_f1_harmonic_mean"
   ],
   "note": ""
  },
  {
   "property": "C03",
   "status": "proved",
   "theorems": [
    "EdgeEval.Props.C03_int_grid",
    "EdgeEval.Props.C03_grid_shape",
    "EdgeEval.Props.C03_other_arguments"
   ],
   "note": ""
  },
  {
   "property": "C04",
   "status": "proved",
   "theorems": [
    "EdgeEval.Props.C04_ods",
    "EdgeEval.Props.C04_empty",
    "EdgeEval.Props.C04_ods_of_run"
   ],
   "note": ""
  },
  {
   "property": "C05",
   "status": "proved",
   "theorems": [
    "EdgeEval.Props.C05_success_iff",
    "EdgeEval.Props.C05_table_pools_counts",
    "EdgeEval.Props.C05_order_independent",
    "EdgeEval.Props.C05_zero_sample_neutral"
   ],
   "note": ""
  },
  {
   "property": "C06",
   "status": "proved",
   "theorems": [
    "EdgeEval.Props.C06_parallel_eq_sequential",
    "EdgeEval.Props.C06_parallel_terminates",
    "EdgeEval.Props.C06_unordered_is_permutation",
    "EdgeEval.Props.C06_calculate_metrics_parallel",
    "EdgeEval.Props.C06_calculate_metrics_total"
   ],
   "note": ""
  },
  {
   "property": "C07",
   "status": "proved",
   "theorems": [
    "EdgeEval.Props.C07_ois",
    "EdgeEval.Props.C07_single_image_ois_le_ods",
    "EdgeEval.Props.C07_ois_can_be_below_fixed_threshold"
   ],
   "note": ""
  },
  {
   "property": "C08",
   "status": "proved",
   "theorems": [
    "EdgeEval.Props.C08_ap_formula",
    "EdgeEval.Props.C08_ap_bounds",
    "EdgeEval.Props.C08_perfect_detector_ap",
    "EdgeEval.Props.C08_ap_monotone"
   ],
   "note": ""
  },
  {
   "property": "C09",
   "status": "proved",
   "theorems": [
    "EdgeEval.Props.C09_auc_bounds",
    "EdgeEval.Props.C09_auc_zero_of_constant_recall",
    "EdgeEval.Props.C09_perfect_detector_auc_zero",
    "EdgeEval.Props.C09_auc_formula"
   ],
   "note": ""
  },
  {
   "property": "C10",
   "status": "proved",
   "theorems": [
    "EdgeEval.Props.C10_binary_counts",
    "EdgeEval.Props.C10_binary_totals",
    "EdgeEval.Props.C10_multiple_gts_counts",
    "EdgeEval.Props.C10_multiple_gts_totals",
    "EdgeEval.Props.C10_multi_label_counts",
    "EdgeEval.Props.C10_multi_label_totals",
    "EdgeEval.Props.C10_binary_total",
    "EdgeEval.Props.C10_multiple_gts_total",
    "EdgeEval.Props.C10_multi_label_total"
   ],
   "note": ""
  },
  {
   "property": "C11",
   "status": "proved",
   "theorems": [
    "EdgeEval.Props.C11_ceilSqrt",
    "EdgeEval.Props.C11_rint",
    "EdgeEval.Props.C11_matching",
    "EdgeEval.Props.C11_injective",
    "EdgeEval.Props.C11_total"
   ],
   "note": ""
  },
  {
   "property": "C12",
   "status": "proved",
   "theorems": [
    "EdgeEval.Props.C12_binary_counts_agree",
    "EdgeEval.Props.C12_multiple_gts_counts",
    "EdgeEval.Props.C12_multi_label_counts_agree"
   ],
   "note": ""
  },
  {
   "property": "C13",
   "status": "proved",
   "theorems": [
    "EdgeEval.Props.C13_graph",
    "EdgeEval.Props.C13_no_assertion_fires",
    "EdgeEval.Props.C13_arc_count"
   ],
   "note": ""
  },
  {
   "property": "C14",
   "status": "proved",
   "theorems": [
    "EdgeEval.Props.C14_kofn",
    "EdgeEval.Props.C14_all_of_n",
    "EdgeEval.Props.C14_uniform",
    "EdgeEval.Props.C14_inclusion"
   ],
   "note": ""
  },
  {
   "property": "C15",
   "status": "proved",
   "theorems": [
    "EdgeEval.Props.C15_cost",
    "EdgeEval.Props.C15_cost_bounds",
    "EdgeEval.Props.C15_nothing_matchable_costs_zero"
   ],
   "note": ""
  },
  {
   "property": "C16",
   "status": "proved",
   "theorems": [
    "EdgeEval.Props.C16_result_is_optimal",
    "EdgeEval.Props.C16_terminates",
    "EdgeEval.Props.C16_zero_costs_no_result",
    "EdgeEval.Props.C16_every_state_consistent"
   ],
   "note": ""
  },
  {
   "property": "C17",
   "status": "proved",
   "theorems": [
    "EdgeEval.Props.C17_binary_thin_subset",
    "EdgeEval.Props.C17_binary_thin_terminates",
    "EdgeEval.Props.C17_binary_thin_limit",
    "EdgeEval.Props.C17_bwmorph",
    "EdgeEval.Props.C17_bwmorph_errors"
   ],
   "note": ""
  },
  {
   "property": "C18",
   "status": "proved",
   "theorems": [
    "EdgeEval.Props.C18_sub_iterations",
    "EdgeEval.Props.C18_indices_in_range",
    "EdgeEval.Props.C18_mutation_test"
   ],
   "note": ""
  },
  {
   "property": "C19",
   "status": "proved",
   "theorems": [
    "EdgeEval.Props.C19_binary_thin_topology",
    "EdgeEval.Props.C19_bwmorph_topology",
    "EdgeEval.Props.C19_end_points_survive",
    "EdgeEval.Props.C19_nonempty"
   ],
   "note": ""
  },
  {
   "property": "C20",
   "status": "proved",
   "theorems": [
    "EdgeEval.Props.C20_bwmorph_result",
    "EdgeEval.Props.C20_bwmorph_idempotent",
    "EdgeEval.Props.C20_binary_thin_result",
    "EdgeEval.Props.C20_bwmorph_after_binary_thin",
    "EdgeEval.Props.C20_implementations_disagree",
    "EdgeEval.Props.C20_binary_thin_not_idempotent"
   ],
   "note": ""
  },
  {
   "property": "C21",
   "status": "proved",
   "theorems": [
    "EdgeEval.Props.C21_result",
    "EdgeEval.Props.C21_empty",
    "EdgeEval.Props.C21_shape_mismatch",
    "EdgeEval.Props.C21_damped",
    "EdgeEval.Props.C21_between",
    "EdgeEval.Props.C21_interior",
    "EdgeEval.Props.C21_border",
    "EdgeEval.Props.C21_maximum_kept",
    "EdgeEval.Props.C21_conservative",
    "EdgeEval.Props.C21_radius_zero",
    "EdgeEval.Props.C21_single_column_reads_outside",
    "EdgeEval.Props.C21_beaten_witness"
   ],
   "note": ""
  },
  {
   "property": "C22",
   "status": "proved",
   "theorems": [
    "EdgeEval.Props.C22_rejects_more_than_24",
    "EdgeEval.Props.C22_png_roundtrip",
    "EdgeEval.Props.C22_png_prefix"
   ],
   "note": ""
  },
  {
   "property": "C23",
   "status": "proved",
   "theorems": [
    "EdgeEval.Props.C23_tif_roundtrip",
    "EdgeEval.Props.C23_binary_roundtrip",
    "EdgeEval.Props.C23_wrong_size_rejected",
    "EdgeEval.Props.C23_code_injective",
    "EdgeEval.Props.C23_code_range",
    "EdgeEval.Props.C23_code_bits",
    "EdgeEval.Props.C23_classes_beyond_32_lost"
   ],
   "note": ""
  },
  {
   "property": "C24",
   "status": "proved",
   "theorems": [
    "EdgeEval.Props.C24_onehot",
    "EdgeEval.Props.C24_onehot_disjoint",
    "EdgeEval.Props.C24_mask_trainId",
    "EdgeEval.Props.C24_edge_trainId",
    "EdgeEval.Props.C24_edge_trainId_rejected",
    "EdgeEval.Props.C24_conversions_commute",
    "EdgeEval.Props.C24_tables"
   ],
   "note": ""
  },
  {
   "property": "C25",
   "status": "proved",
   "theorems": [
    "EdgeEval.Props.C25_union",
    "EdgeEval.Props.C25_code_nonzero"
   ],
   "note": ""
  },
  {
   "property": "C26",
   "status": "proved",
   "theorems": [
    "EdgeEval.Props.C26_pixels",
    "EdgeEval.Props.C26_id_value",
    "EdgeEval.Props.C26_recover",
    "EdgeEval.Props.C26_recover_mp",
    "EdgeEval.Props.C26_mp_misreads_small_categories",
    "EdgeEval.Props.C26_distinct",
    "EdgeEval.Props.C26_not_background",
    "EdgeEval.Props.C26_collision_beyond_1000"
   ],
   "note": ""
  },
  {
   "property": "C27",
   "status": "proved",
   "theorems": [
    "EdgeEval.Props.C27_border",
    "EdgeEval.Props.C27_small_image",
    "EdgeEval.Props.C27_idempotent",
    "EdgeEval.Props.C27_negative_border"
   ],
   "note": ""
  },
  {
   "property": "C28",
   "status": "proved",
   "theorems": [
    "EdgeEval.Props.C28_semantic_edges",
    "EdgeEval.Props.C28_internal_only",
    "EdgeEval.Props.C28_depends_on_own_mask",
    "EdgeEval.Props.C28_uniform_no_edges",
    "EdgeEval.Props.C28_radius_monotone",
    "EdgeEval.Props.C28_thinned",
    "EdgeEval.Props.C28_bad_ignore_index",
    "EdgeEval.Props.C28_transform",
    "EdgeEval.Props.C28_transform_rejects",
    "EdgeEval.Props.C28_binary32",
    "EdgeEval.Props.C28_binary64",
    "EdgeEval.Props.C28_no_full_image",
    "EdgeEval.Props.C28_full_image"
   ],
   "note": ""
  },
  {
   "property": "C29",
   "status": "proved",
   "theorems": [
    "EdgeEval.Props.C29_mp_eq_loop",
    "EdgeEval.Props.C29_mp_refuses_thin",
    "EdgeEval.Props.C29_one_label",
    "EdgeEval.Props.C29_one_label_range",
    "EdgeEval.Props.C29_dispatch",
    "EdgeEval.Props.C29_mp_eq_loop_instances",
    "EdgeEval.Props.C29_one_label_instances",
    "EdgeEval.Props.C29_mp_differs_for_small_labels",
    "EdgeEval.Props.C29_mp_label_zero",
    "EdgeEval.Props.C29_no_labels"
   ],
   "note": ""
  },
  {
   "property": "C30",
   "status": "proved",
   "theorems": [
    "EdgeEval.Props.C30_instance_edges",
    "EdgeEval.Props.C30_contains_semantic",
    "EdgeEval.Props.C30_thinned",
    "EdgeEval.Props.C30_no_instances",
    "EdgeEval.Props.C30_transform",
    "EdgeEval.Props.C30_transform_shape",
    "EdgeEval.Props.C30_no_full_image"
   ],
   "note": ""
  },
  {
   "property": "C31",
   "status": "proved",
   "theorems": [
    "EdgeEval.Props.C31_kill_internal",
    "EdgeEval.Props.C31_shapes",
    "EdgeEval.Props.C31_uint8_mask_kills_nothing",
    "EdgeEval.Props.C31_only_lowers_sum_p",
    "EdgeEval.Props.C31_sum_p",
    "EdgeEval.Props.C31_error_kinds",
    "EdgeEval.Props.C31_needs_segmentation"
   ],
   "note": ""
  },
  {
   "property": "C32",
   "status": "proved",
   "theorems": [
    "EdgeEval.Props.C32_last_call_decides",
    "EdgeEval.Props.C32_failure_iff",
    "EdgeEval.Props.C32_bad_scale_no_effect",
    "EdgeEval.Props.C32_bad_scales_keep_parameters",
    "EdgeEval.Props.C32_failed_preseal_half_applied",
    "EdgeEval.Props.C32_scale_always_valid",
    "EdgeEval.Props.C32_presets_consistent",
    "EdgeEval.Props.C32_unset",
    "EdgeEval.Props.C32_cli_preseal_needs_nonIS"
   ],
   "note": ""
  },
  {
   "property": "C33",
   "status": "proved",
   "theorems": [
    "EdgeEval.Props.C33_categories",
    "EdgeEval.Props.C33_report",
    "EdgeEval.Props.C33_rounding",
    "EdgeEval.Props.C33_first_failure",
    "EdgeEval.Props.C33_class_name",
    "EdgeEval.Props.C33_round_half_even",
    "EdgeEval.Props.C33_saved_keys"
   ],
   "note": ""
  },
  {
   "property": "C34",
   "status": "proved",
   "theorems": [
    "EdgeEval.Props.C34_track_progress",
    "EdgeEval.Props.C34_task_arguments",
    "EdgeEval.Props.C34_parallel_bar",
    "EdgeEval.Props.C34_parallel_bar_unordered",
    "EdgeEval.Props.C34_bar_field",
    "EdgeEval.Props.C34_iter_progress",
    "EdgeEval.Props.C34_update"
   ],
   "note": ""
  },
  {
   "property": "C35",
   "status": "proved",
   "theorems": [
    "EdgeEval.Props.C35_calls_without_number",
    "EdgeEval.Props.C35_new_timer",
    "EdgeEval.Props.C35_since_start",
    "EdgeEval.Props.C35_since_last_check",
    "EdgeEval.Props.C35_running_iff",
    "EdgeEval.Props.C35_raises_iff_stopped",
    "EdgeEval.Props.C35_checks_add_up",
    "EdgeEval.Props.C35_check_time"
   ],
   "note": ""
  },
  {
   "property": "C36",
   "status": "proved",
   "theorems": [
    "EdgeEval.Props.C36_unconfigured",
    "EdgeEval.Props.C36_handlers_once",
    "EdgeEval.Props.C36_first_call_wins",
    "EdgeEval.Props.C36_child_gets_none",
    "EdgeEval.Props.C36_prefix_sibling_is_silent",
    "EdgeEval.Props.C36_child_before_parent_duplicates",
    "EdgeEval.Props.C36_print_log"
   ],
   "note": ""
  },
  {
   "property": "C37",
   "status": "proved",
   "theorems": [
    "EdgeEval.Props.C37_threshold_file",
    "EdgeEval.Props.C37_threshold_file_single",
    "EdgeEval.Props.C37_overall_file",
    "EdgeEval.Props.C37_sample_file",
    "EdgeEval.Props.C37_sample_name",
    "EdgeEval.Props.C37_six_decimals_exact",
    "EdgeEval.Props.C37_overall_average_exact",
    "EdgeEval.Props.C37_files",
    "EdgeEval.Props.C37_category_dirs",
    "EdgeEval.Props.C37_ties_to_even",
    "EdgeEval.Props.C37_field",
    "EdgeEval.Props.C37_columns"
   ],
   "note": ""
  },
  {
   "property": "C38",
   "status": "proved",
   "theorems": [
    "EdgeEval.Props.C38_contour",
    "EdgeEval.Props.C38_plotted_points",
    "EdgeEval.Props.C38_threshold_loader",
    "EdgeEval.Props.C38_plot_rejects_saved_results",
    "EdgeEval.Props.C38_exact_points",
    "EdgeEval.Props.C38_table_loader",
    "EdgeEval.Props.C38_plot_accepts",
    "EdgeEval.Props.C38_exponents",
    "EdgeEval.Props.C38_integer_literals",
    "EdgeEval.Props.C38_number_errors",
    "EdgeEval.Props.C38_bad_digits"
   ],
   "note": ""
  },
  {
   "property": "C39",
   "status": "proved",
   "theorems": [
    "EdgeEval.Props.C39_bits",
    "EdgeEval.Props.C39_same_color_iff",
    "EdgeEval.Props.C39_table",
    "EdgeEval.Props.C39_repeats",
    "EdgeEval.Props.C39_normalized"
   ],
   "note": ""
  },
  {
   "property": "C40",
   "status": "proved",
   "theorems": [
    "EdgeEval.Props.C40_argument_checks"
   ],
   "note": ""
  },
  {
   "property": "C41",
   "status": "proved",
   "theorems": [
    "EdgeEval.Props.C41_threshold_antitone",
    "EdgeEval.Props.C41_threshold_above_all",
    "EdgeEval.Props.C41_threshold_below_all",
    "EdgeEval.Props.C41_thinning_breaks_antitone"
   ],
   "note": ""
  },
  {
   "property": "C42",
   "status": "proved",
   "theorems": [
    "EdgeEval.Props.C42_thresholds_int",
    "EdgeEval.Props.C42_thresholds_iff",
    "EdgeEval.Props.C42_thresholds_list",
    "EdgeEval.Props.C42_categories_iff",
    "EdgeEval.Props.C42_categories_int",
    "EdgeEval.Props.C42_categories_roundtrip",
    "EdgeEval.Props.C42_categories_default",
    "EdgeEval.Props.C42_cityscapes_plan",
    "EdgeEval.Props.C42_sbd_plan",
    "EdgeEval.Props.C42_out_of_range",
    "EdgeEval.Props.C42_bad_format",
    "EdgeEval.Props.C42_cityscapes_protocol",
    "EdgeEval.Props.C42_cityscapes_thin",
    "EdgeEval.Props.C42_cityscapes_raw",
    "EdgeEval.Props.C42_sbd_ignores_options",
    "EdgeEval.Props.C42_reanno_command_fails",
    "EdgeEval.Props.C42_reanno_direct",
    "EdgeEval.Props.C42_bsds",
    "EdgeEval.Props.C42_keywords",
    "EdgeEval.Props.C42_reanno_ignores_mode",
    "EdgeEval.Props.C42_scale",
    "EdgeEval.Props.C42_preset_flags"
   ],
   "note": ""
  },
  {
   "property": "C43",
   "status": "proved",
   "theorems": [
    "EdgeEval.Props.C43_self_match_small",
    "EdgeEval.Props.C43_uncovered_outlier_loses_a_pixel",
    "EdgeEval.Props.C43_seven_pixels_lose_one",
    "EdgeEval.Props.C43_maximal_small",
    "EdgeEval.Props.C43_maximum_small",
    "EdgeEval.Props.C43_self_match_covered",
    "EdgeEval.Props.C43_perfect_iff",
    "EdgeEval.Props.C43_matched_le_covered",
    "EdgeEval.Props.C43_depends_on_stream"
   ],
   "note": ""
  },
  {
   "property": "C44",
   "status": "proved",
   "theorems": [
    "EdgeEval.Props.C44_float_images",
    "EdgeEval.Props.C44_integer_images",
    "EdgeEval.Props.C44_closed_form",
    "EdgeEval.Props.C44_weights",
    "EdgeEval.Props.C44_range",
    "EdgeEval.Props.C44_trivial",
    "EdgeEval.Props.C44_radius_zero_subsampling",
    "EdgeEval.Props.C44_subsampling",
    "EdgeEval.Props.C44_matlab_differs",
    "EdgeEval.Props.C44_mirror",
    "EdgeEval.Props.C44_reduced_size"
   ],
   "note": ""
  },
  {
   "property": "C45",
   "status": "proved",
   "theorems": [
    "EdgeEval.Props.C45_float",
    "EdgeEval.Props.C45_value",
    "EdgeEval.Props.C45_small_rejected",
    "EdgeEval.Props.C45_uint8_input",
    "EdgeEval.Props.C45_other_dtype",
    "EdgeEval.Props.C45_uint8_output",
    "EdgeEval.Props.C45_constant",
    "EdgeEval.Props.C45_bytes_ties_to_even"
   ],
   "note": ""
  },
  {
   "property": "C46",
   "status": "proved",
   "theorems": [
    "EdgeEval.Props.C46_direction",
    "EdgeEval.Props.C46_horizontal_not_thinned",
    "EdgeEval.Props.C46_vertical_thinned"
   ],
   "note": ""
  },
  {
   "property": "C47",
   "status": "proved",
   "theorems": [
    "EdgeEval.Props.C47_explicit",
    "EdgeEval.Props.C47_split_file",
    "EdgeEval.Props.C47_split_file_errors",
    "EdgeEval.Props.C47_history",
    "EdgeEval.Props.C47_bsds",
    "EdgeEval.Props.C47_bsds_missing",
    "EdgeEval.Props.C47_constructor",
    "EdgeEval.Props.C47_getter_isolated",
    "EdgeEval.Props.C47_setter_aliases",
    "EdgeEval.Props.C47_getter_none"
   ],
   "note": ""
  },
  {
   "property": "C48",
   "status": "proved",
   "theorems": [
    "EdgeEval.Props.C48_samples",
    "EdgeEval.Props.C48_otf_samples",
    "EdgeEval.Props.C48_predictions_unchecked",
    "EdgeEval.Props.C48_predictions_distinct",
    "EdgeEval.Props.C48_gt_distinct",
    "EdgeEval.Props.C48_variants_distinct",
    "EdgeEval.Props.C48_bsds_samples",
    "EdgeEval.Props.C48_no_split_dir",
    "EdgeEval.Props.C48_no_split_dir_greedy",
    "EdgeEval.Props.C48_absolute_names",
    "EdgeEval.Props.C48_absolute_gt_dir",
    "EdgeEval.Props.C48_refusals",
    "EdgeEval.Props.C48_bsds_refusals"
   ],
   "note": ""
  },
  {
   "property": "C49",
   "status": "proved",
   "theorems": [
    "EdgeEval.Props.C49_scaled_size",
    "EdgeEval.Props.C49_resize",
    "EdgeEval.Props.C49_resize_order",
    "EdgeEval.Props.C49_half_scale",
    "EdgeEval.Props.C49_upscale_uses_all",
    "EdgeEval.Props.C49_precomputed_inputs",
    "EdgeEval.Props.C49_round_trip",
    "EdgeEval.Props.C49_responses_in_unit",
    "EdgeEval.Props.C49_sbd_mask_off_by_one",
    "EdgeEval.Props.C49_single",
    "EdgeEval.Props.C49_otf_inputs",
    "EdgeEval.Props.C49_otf_rejects_small",
    "EdgeEval.Props.C49_otf_single",
    "EdgeEval.Props.C49_bsds_single",
    "EdgeEval.Props.C49_generic_binary_fails",
    "EdgeEval.Props.C49_flipped_table",
    "EdgeEval.Props.C49_bsds_missing"
   ],
   "note": ""
  },
  {
   "property": "C50",
   "status": "proved",
   "theorems": [
    "EdgeEval.Props.C50_category",
    "EdgeEval.Props.C50_otf",
    "EdgeEval.Props.C50_bsds",
    "EdgeEval.Props.C50_missing_prediction",
    "EdgeEval.Props.C50_evaluate"
   ],
   "note": ""
  },
  {
   "property": "C51",
   "status": "proved",
   "theorems": [
    "EdgeEval.Props.C51_scandir_exact",
    "EdgeEval.Props.C51_scandir_all",
    "EdgeEval.Props.C51_scandir_refuses",
    "EdgeEval.Props.C51_scandir_once",
    "EdgeEval.Props.C51_hidden_directory_entered",
    "EdgeEval.Props.C51_mkdir",
    "EdgeEval.Props.C51_symlink",
    "EdgeEval.Props.C51_check_file"
   ],
   "note": ""
  },
  {
   "property": "C52",
   "status": "proved",
   "theorems": [
    "EdgeEval.Props.C52_contents",
    "EdgeEval.Props.C52_sealed",
    "EdgeEval.Props.C52_thin",
    "EdgeEval.Props.C52_half_offset",
    "EdgeEval.Props.C52_same_as_otf",
    "EdgeEval.Props.C52_refusals",
    "EdgeEval.Props.C52_written",
    "EdgeEval.Props.C52_bin_fails",
    "EdgeEval.Props.C52_extension",
    "EdgeEval.Props.C52_reduced_sizes",
    "EdgeEval.Props.C52_encode_refusals"
   ],
   "note": ""
  },
  {
   "property": "C53",
   "status": "proved",
   "theorems": [
    "EdgeEval.Props.C53_file_names",
    "EdgeEval.Props.C53_root_rewritten",
    "EdgeEval.Props.C53_jobs_ok",
    "EdgeEval.Props.C53_complete",
    "EdgeEval.Props.C53_paths_agree",
    "EdgeEval.Props.C53_evaluator_ready",
    "EdgeEval.Props.C53_checks",
    "EdgeEval.Props.C53_bin_fails",
    "EdgeEval.Props.C53_thin_radius",
    "EdgeEval.Props.C53_missing_test",
    "EdgeEval.Props.C53_order_irrelevant",
    "EdgeEval.Props.C53_jobs",
    "EdgeEval.Props.C53_run"
   ],
   "note": ""
  },
  {
   "property": "C54",
   "status": "proved",
   "theorems": [
    "EdgeEval.Props.C54_raw",
    "EdgeEval.Props.C54_thin",
    "EdgeEval.Props.C54_no_list",
    "EdgeEval.Props.C54_reanno_checked_late",
    "EdgeEval.Props.C54_evaluator_ready",
    "EdgeEval.Props.C54_reanno_evaluator",
    "EdgeEval.Props.C54_one_content",
    "EdgeEval.Props.C54_reanno_sample",
    "EdgeEval.Props.C54_reanno_refusals",
    "EdgeEval.Props.C54_reanno",
    "EdgeEval.Props.C54_refusals",
    "EdgeEval.Props.C54_samples",
    "EdgeEval.Props.C54_script",
    "EdgeEval.Props.C54_files_distinct",
    "EdgeEval.Props.C54_ground_truth",
    "EdgeEval.Props.C54_border_free",
    "EdgeEval.Props.C54_border_instances",
    "EdgeEval.Props.C54_deprecated_loader",
    "EdgeEval.Props.C54_no_test_mat"
   ],
   "note": ""
  },
  {
   "property": "C55",
   "status": "proved",
   "theorems": [
    "EdgeEval.Props.C55_scores",
    "EdgeEval.Props.C55_f1",
    "EdgeEval.Props.C55_thresholds",
    "EdgeEval.Props.C55_evaluation",
    "EdgeEval.Props.C55_close",
    "EdgeEval.Props.C55_order_independent",
    "EdgeEval.Props.C55_exact",
    "EdgeEval.Props.C55_grid_point_missed",
    "EdgeEval.Props.C55_ap_artefact"
   ],
   "note": ""
  },
  {
   "property": "C56",
   "status": "proved",
   "theorems": [
    "EdgeEval.Props.C56_no_rounding",
    "EdgeEval.Props.C56_valid",
    "EdgeEval.Props.C56_near_optimal",
    "EdgeEval.Props.C56_exact_if_prices_small",
    "EdgeEval.Props.C56_stops",
    "EdgeEval.Props.C56_moderate_prices",
    "EdgeEval.Props.C56_exact_moderate"
   ],
   "note": ""
  },
  {
   "property": "C57",
   "status": "proved",
   "theorems": [
    "EdgeEval.Props.C57_matching",
    "EdgeEval.Props.C57_injective",
    "EdgeEval.Props.C57_weight",
    "EdgeEval.Props.C57_total",
    "EdgeEval.Props.C57_maximum_small",
    "EdgeEval.Props.C57_self_match_small",
    "EdgeEval.Props.C57_cost",
    "EdgeEval.Props.C57_nothing_matchable"
   ],
   "note": ""
  },
  {
   "property": "C58",
   "status": "proved",
   "theorems": [
    "EdgeEval.Props.C58_kofn",
    "EdgeEval.Props.C58_kofn_covers",
    "EdgeEval.Props.C58_no_overflow",
    "EdgeEval.Props.C58_tall_image_overflows",
    "EdgeEval.Props.C58_result_cost_overflows",
    "EdgeEval.Props.C58_covers",
    "EdgeEval.Props.C58_covers_counts",
    "EdgeEval.Props.C58_covers_diagonal",
    "EdgeEval.Props.C58_covers_graph",
    "EdgeEval.Props.C58_covers_windows",
    "EdgeEval.Props.C58_covers_unsigned",
    "EdgeEval.Props.C58_covers_partners"
   ],
   "note": ""
  },
  {
   "property": "C59",
   "status": "proved",
   "theorems": [
    "EdgeEval.Props.C59_fp_range",
    "EdgeEval.Props.C59_reset",
    "EdgeEval.Props.C59_clock_seed",
    "EdgeEval.Props.C59_clock_collision",
    "EdgeEval.Props.C59_full_period",
    "EdgeEval.Props.C59_int_range",
    "EdgeEval.Props.C59_int_full",
    "EdgeEval.Props.C59_int_can_exceed",
    "EdgeEval.Props.C59_kofn_float",
    "EdgeEval.Props.C59_exact",
    "EdgeEval.Props.C59_every_subset"
   ],
   "note": ""
  },
  {
   "property": "C60",
   "status": "proved",
   "theorems": [
    "EdgeEval.Props.C60_all_results_sound",
    "EdgeEval.Props.C60_all_results_complete",
    "EdgeEval.Props.C60_all_results_resume",
    "EdgeEval.Props.C60_models_identical",
    "EdgeEval.Props.C60_all_results_refusals",
    "EdgeEval.Props.C60_results_collide",
    "EdgeEval.Props.C60_results_lost",
    "EdgeEval.Props.C60_process_one",
    "EdgeEval.Props.C60_results_missing",
    "EdgeEval.Props.C60_results_raises"
   ],
   "note": ""
  },
  {
   "property": "C61",
   "status": "proved",
   "theorems": [
    "EdgeEval.Props.C61_r50",
    "EdgeEval.Props.C61_r50_range",
    "EdgeEval.Props.C61_plot",
    "EdgeEval.Props.C61_plot_arguments",
    "EdgeEval.Props.C61_plot_needs_equal_lengths",
    "EdgeEval.Props.C61_plot_never_own_results"
   ],
   "note": ""
  },
  {
   "property": "C62",
   "status": "proved",
   "theorems": [
    "EdgeEval.Props.C62_same_result",
    "EdgeEval.Props.C62_no_bad_access",
    "EdgeEval.Props.C62_solves",
    "EdgeEval.Props.C62_correspondence",
    "EdgeEval.Props.C62_bad_arc",
    "EdgeEval.Props.C62_zero_costs_null_pointer"
   ],
   "note": ""
  },
  {
   "property": "C63",
   "status": "proved",
   "theorems": [
    "EdgeEval.Props.C63_same_result",
    "EdgeEval.Props.C63_no_bad_access",
    "EdgeEval.Props.C63_terminates",
    "EdgeEval.Props.C63_matching",
    "EdgeEval.Props.C63_precondition",
    "EdgeEval.Props.C63_sampler",
    "EdgeEval.Props.C63_overlay"
   ],
   "note": ""
  },
  {
   "property": "C64",
   "status": "proved",
   "theorems": [
    "EdgeEval.Props.C64_values",
    "EdgeEval.Props.C64_memory_safe",
    "EdgeEval.Props.C64_no_leak",
    "EdgeEval.Props.C64_deep_copy",
    "EdgeEval.Props.C64_nms",
    "EdgeEval.Props.C64_correspond",
    "EdgeEval.Props.C64_wrapped",
    "EdgeEval.Props.C64_malloc_zero"
   ],
   "note": ""
  },
  {
   "property": "C65",
   "status": "proved",
   "theorems": [
    "EdgeEval.Props.C65_refusals",
    "EdgeEval.Props.C65_between",
    "EdgeEval.Props.C65_interior",
    "EdgeEval.Props.C65_border",
    "EdgeEval.Props.C65_agrees",
    "EdgeEval.Props.C65_maximum_kept",
    "EdgeEval.Props.C65_smoothing",
    "EdgeEval.Props.C65_fast_nms",
    "EdgeEval.Props.C65_fast_nms_bytes",
    "EdgeEval.Props.C65_fast_nms_refusals",
    "EdgeEval.Props.C65_float_multiplier",
    "EdgeEval.Props.C65_constant_erased",
    "EdgeEval.Props.C65_one_wide_reads_outside",
    "EdgeEval.Props.C65_bytes_ties_to_even"
   ],
   "note": ""
  },
  {
   "property": "C66",
   "status": "proved",
   "theorems": [
    "EdgeEval.Props.C66_safe",
    "EdgeEval.Props.C66_sorts",
    "EdgeEval.Props.C66_returns",
    "EdgeEval.Props.C66_simple_sorts",
    "EdgeEval.Props.C66_median",
    "EdgeEval.Props.C66_default",
    "EdgeEval.Props.C66_example_decreasing",
    "EdgeEval.Props.C66_example_overflow",
    "EdgeEval.Props.C66_nan_unsorted"
   ],
   "note": ""
  },
  {
   "property": "C67",
   "status": "proved",
   "theorems": [
    "EdgeEval.Props.C67_transpose",
    "EdgeEval.Props.C67_flips",
    "EdgeEval.Props.C67_rot90",
    "EdgeEval.Props.C67_rot90_returns",
    "EdgeEval.Props.C67_reshape",
    "EdgeEval.Props.C67_repmat",
    "EdgeEval.Props.C67_repmat_none",
    "EdgeEval.Props.C67_repmat_norows",
    "EdgeEval.Props.C67_eye",
    "EdgeEval.Props.C67_tri"
   ],
   "note": ""
  },
  {
   "property": "C68",
   "status": "proved",
   "theorems": [
    "EdgeEval.Props.C68_access",
    "EdgeEval.Props.C68_find",
    "EdgeEval.Props.C68_gather",
    "EdgeEval.Props.C68_scatter",
    "EdgeEval.Props.C68_scatter_refuses",
    "EdgeEval.Props.C68_ind2sub",
    "EdgeEval.Props.C68_sub2ind_ignores_columns",
    "EdgeEval.Props.C68_extract",
    "EdgeEval.Props.C68_extract_empty",
    "EdgeEval.Props.C68_insert",
    "EdgeEval.Props.C68_insert_too_small",
    "EdgeEval.Props.C68_diagonals",
    "EdgeEval.Props.C68_diag"
   ],
   "note": ""
  },
  {
   "property": "C69",
   "status": "proved",
   "theorems": [
    "EdgeEval.Props.C69_folds",
    "EdgeEval.Props.C69_sums",
    "EdgeEval.Props.C69_any_all",
    "EdgeEval.Props.C69_min",
    "EdgeEval.Props.C69_rmin",
    "EdgeEval.Props.C69_cmin",
    "EdgeEval.Props.C69_cmin_indices_wrong",
    "EdgeEval.Props.C69_empty"
   ],
   "note": ""
  },
  {
   "property": "C70",
   "status": "proved",
   "theorems": [
    "EdgeEval.Props.C70_map",
    "EdgeEval.Props.C70_zip",
    "EdgeEval.Props.C70_assign",
    "EdgeEval.Props.C70_assign_rows_unchecked",
    "EdgeEval.Props.C70_isequal",
    "EdgeEval.Props.C70_mtimes",
    "EdgeEval.Props.C70_product",
    "EdgeEval.Props.C70_linspace",
    "EdgeEval.Props.C70_linspace_one"
   ],
   "note": ""
  },
  {
   "property": "C71",
   "status": "proved",
   "theorems": [
    "EdgeEval.Props.C71_inverse",
    "EdgeEval.Props.C71_reciprocal_wrong",
    "EdgeEval.Props.C71_mod",
    "EdgeEval.Props.C71_rem"
   ],
   "note": ""
  },
  {
   "property": "C72",
   "status": "proved",
   "theorems": [
    "EdgeEval.Props.C72_row_major",
    "EdgeEval.Props.C72_one_to_one",
    "EdgeEval.Props.C72_formulas",
    "EdgeEval.Props.C72_overflow"
   ],
   "note": ""
  },
  {
   "property": "C73",
   "status": "proved",
   "theorems": [
    "EdgeEval.Props.C73_values",
    "EdgeEval.Props.C73_memory_safe",
    "EdgeEval.Props.C73_no_leak",
    "EdgeEval.Props.C73_checked",
    "EdgeEval.Props.C73_copies_share",
    "EdgeEval.Props.C73_size"
   ],
   "note": ""
  },
  {
   "property": "C74",
   "status": "proved",
   "theorems": [
    "EdgeEval.Props.C74_total_time",
    "EdgeEval.Props.C74_from_construction",
    "EdgeEval.Props.C74_protocol",
    "EdgeEval.Props.C74_reading_while_running",
    "EdgeEval.Props.C74_unchecked_misuse",
    "EdgeEval.Props.C74_rounding",
    "EdgeEval.Props.C74_format",
    "EdgeEval.Props.C74_format_exact",
    "EdgeEval.Props.C74_format_float",
    "EdgeEval.Props.C74_buffers",
    "EdgeEval.Props.C74_static_buffer",
    "EdgeEval.Props.C74_minus_zero"
   ],
   "note": ""
  },
  {
   "property": "C75",
   "status": "proved",
   "theorems": [
    "EdgeEval.Props.C75_values",
    "EdgeEval.Props.C75_no_leak",
    "EdgeEval.Props.C75_compare",
    "EdgeEval.Props.C75_next_line",
    "EdgeEval.Props.C75_long_format",
    "EdgeEval.Props.C75_long_assignment",
    "EdgeEval.Props.C75_own_text",
    "EdgeEval.Props.C75_self_append",
    "EdgeEval.Props.C75_nul_line"
   ],
   "note": ""
  },
  {
   "property": "C76",
   "status": "proved",
   "theorems": [
    "EdgeEval.Props.C76_throw",
    "EdgeEval.Props.C76_matrix_messages",
    "EdgeEval.Props.C76_copy",
    "EdgeEval.Props.C76_rethrow",
    "EdgeEval.Props.C76_assign_double_free"
   ],
   "note": ""
  },
  {
   "property": "C77",
   "status": "proved",
   "theorems": [
    "EdgeEval.Props.C77_no_leak",
    "EdgeEval.Props.C77_object",
    "EdgeEval.Props.C77_failed_request",
    "EdgeEval.Props.C77_bad_alloc_leaks",
    "EdgeEval.Props.C77_assertions",
    "EdgeEval.Props.C77_bad_arc",
    "EdgeEval.Props.C77_result",
    "EdgeEval.Props.C77_copy_double_free"
   ],
   "note": ""
  },
  {
   "property": "C78",
   "status": "proved",
   "theorems": [
    "EdgeEval.Props.C78_pool",
    "EdgeEval.Props.C78_results",
    "EdgeEval.Props.C78_invariant",
    "EdgeEval.Props.C78_state_independent",
    "EdgeEval.Props.C78_one_process",
    "EdgeEval.Props.C78_terminates",
    "EdgeEval.Props.C78_init_pool",
    "EdgeEval.Props.C78_schedule_matters",
    "EdgeEval.Props.C78_evaluate_category",
    "EdgeEval.Props.C78_evaluate_category_total"
   ],
   "note": ""
  },
  {
   "property": "C79",
   "status": "proved",
   "theorems": [
    "EdgeEval.Props.C79_test_edges",
    "EdgeEval.Props.C79_sizes",
    "EdgeEval.Props.C79_same_sample",
    "EdgeEval.Props.C79_reports",
    "EdgeEval.Props.C79_no_misses",
    "EdgeEval.Props.C79_ends",
    "EdgeEval.Props.C79_checks_converter",
    "EdgeEval.Props.C79_instances_refused",
    "EdgeEval.Props.C79_tif_fails",
    "EdgeEval.Props.C79_root_rewritten"
   ],
   "note": ""
  },
  {
   "property": "C80",
   "status": "proved",
   "theorems": [
    "EdgeEval.Props.C80_dense",
    "EdgeEval.Props.C80_every_picture",
    "EdgeEval.Props.C80_not_sparse",
    "EdgeEval.Props.C80_cls_by_position",
    "EdgeEval.Props.C80_cls_by_name",
    "EdgeEval.Props.C80_cls",
    "EdgeEval.Props.C80_inst_by_position",
    "EdgeEval.Props.C80_inst_by_name",
    "EdgeEval.Props.C80_inst",
    "EdgeEval.Props.C80_one_class",
    "EdgeEval.Props.C80_thin_picture",
    "EdgeEval.Props.C80_row_cell",
    "EdgeEval.Props.C80_no_file",
    "EdgeEval.Props.C80_names",
    "EdgeEval.Props.C80_bsds",
    "EdgeEval.Props.C80_bsds_one",
    "EdgeEval.Props.C80_plane",
    "EdgeEval.Props.C80_conversion_input"
   ],
   "note": ""
  },
  {
   "property": "C81",
   "status": "proved",
   "theorems": [
    "EdgeEval.Props.C81_script",
    "EdgeEval.Props.C81_reanno",
    "EdgeEval.Props.C81_reanno_fails",
    "EdgeEval.Props.C81_unreadable",
    "EdgeEval.Props.C81_no_reader",
    "EdgeEval.Props.C81_every_annotation"
   ],
   "note": ""
  },
  {
   "property": "C82",
   "status": "proved",
   "theorems": [
    "EdgeEval.Props.C82_scores",
    "EdgeEval.Props.C82_unreadable"
   ],
   "note": ""
  },
  {
   "property": "C83",
   "status": "proved",
   "theorems": [
    "EdgeEval.Props.C83_accepted",
    "EdgeEval.Props.C83_only",
    "EdgeEval.Props.C83_unambiguous",
    "EdgeEval.Props.C83_wrong_count",
    "EdgeEval.Props.C83_unknown",
    "EdgeEval.Props.C83_ambiguous",
    "EdgeEval.Props.C83_exit",
    "EdgeEval.Props.C83_help",
    "EdgeEval.Props.C83_parsers",
    "EdgeEval.Props.C83_cityscapes_raw",
    "EdgeEval.Props.C83_cityscapes_thin",
    "EdgeEval.Props.C83_sbd",
    "EdgeEval.Props.C83_bsds",
    "EdgeEval.Props.C83_convert_cityscapes",
    "EdgeEval.Props.C83_convert_sbd",
    "EdgeEval.Props.C83_script",
    "EdgeEval.Props.C83_sbd_suffix_ignored",
    "EdgeEval.Props.C83_reanno_never",
    "EdgeEval.Props.C83_thin_refuses",
    "EdgeEval.Props.C83_short_prefixes"
   ],
   "note": ""
  },
  {
   "property": "C84",
   "status": "proved",
   "theorems": [
    "EdgeEval.Props.C84_bsds_evaluator",
    "EdgeEval.Props.C84_bsds",
    "EdgeEval.Props.C84_script_evaluator",
    "EdgeEval.Props.C84_script",
    "EdgeEval.Props.C84_cityscapes_raw",
    "EdgeEval.Props.C84_cityscapes_thin",
    "EdgeEval.Props.C84_sbd",
    "EdgeEval.Props.C84_cityscapes_raw_evaluator",
    "EdgeEval.Props.C84_cityscapes_thin_evaluator",
    "EdgeEval.Props.C84_sbd_evaluator",
    "EdgeEval.Props.C84_bad_words",
    "EdgeEval.Props.C84_no_output",
    "EdgeEval.Props.C84_no_samples",
    "EdgeEval.Props.C84_refused",
    "EdgeEval.Props.C84_bsds_stops",
    "EdgeEval.Props.C84_bad_parameters",
    "EdgeEval.Props.C84_default_output",
    "EdgeEval.Props.C84_cityscapes_raw_missing",
    "EdgeEval.Props.C84_cityscapes_thin_missing",
    "EdgeEval.Props.C84_sbd_missing",
    "EdgeEval.Props.C84_bsds_missing",
    "EdgeEval.Props.C84_script_missing",
    "EdgeEval.Props.C84_default_output_place"
   ],
   "note": ""
  },
  {
   "property": "C85",
   "status": "proved",
   "theorems": [
    "EdgeEval.Props.C85_convert_cityscapes",
    "EdgeEval.Props.C85_convert_cityscapes_stops",
    "EdgeEval.Props.C85_convert_cityscapes_bin",
    "EdgeEval.Props.C85_test_mode",
    "EdgeEval.Props.C85_convert_sbd",
    "EdgeEval.Props.C85_convert_sbd_reanno",
    "EdgeEval.Props.C85_convert_sbd_stops",
    "EdgeEval.Props.C85_mismatched_files",
    "EdgeEval.Props.C85_mismatch_raw",
    "EdgeEval.Props.C85_converted_files",
    "EdgeEval.Props.C85_convert_then_evaluate_raw",
    "EdgeEval.Props.C85_convert_then_evaluate_thin",
    "EdgeEval.Props.C85_converted_sbd_files",
    "EdgeEval.Props.C85_convert_then_evaluate_sbd"
   ],
   "note": ""
  }
 ]
}