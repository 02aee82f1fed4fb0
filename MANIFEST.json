{
 "claims": [
  {
   "property": "C01",
   "status": "proved",
   "theorems": [
    "Verif.Moe.C01_einsum_slots_exclusive",
    "Verif.Moe.C01_indices_slots_exclusive"
   ],
   "note": ""
  },
  {
   "property": "C02",
   "status": "proved",
   "theorems": [
    "Verif.Moe.C02_items_request_top_experts",
    "Verif.Moe.C02_dispatch_only_requested"
   ],
   "note": ""
  },
  {
   "property": "C03",
   "status": "proved",
   "theorems": [
    "Verif.Moe.C03_einsum_slot_is_count",
    "Verif.Moe.C03_indices_slot_is_count",
    "Verif.Moe.C03_dropped_iff",
    "Verif.Moe.C03_no_holes"
   ],
   "note": ""
  },
  {
   "property": "C04",
   "status": "proved",
   "theorems": [
    "Verif.Moe.C04_batch_priority_monotone",
    "Verif.Moe.C04_choice_rank_first",
    "Verif.Moe.C04_original_order"
   ],
   "note": ""
  },
  {
   "property": "C05",
   "status": "proved",
   "theorems": [
    "Verif.Moe.C05_dispatch_equal",
    "Verif.Moe.C05_combine_equal",
    "Verif.Moe.C05_buffer_contents"
   ],
   "note": ""
  },
  {
   "property": "C06",
   "status": "proved",
   "theorems": [
    "Verif.Moe.C06_moe_layer_einsum",
    "Verif.Moe.C06_moe_layer_indices",
    "Verif.Moe.C06_groups_independent"
   ],
   "note": ""
  },
  {
   "property": "C07",
   "status": "proved",
   "theorems": [
    "Verif.Moe.C07_dispatch_rows",
    "Verif.Moe.C07_receive_dispatch",
    "Verif.Moe.C07_dispatch_receive",
    "Verif.Moe.C07_process_in_between"
   ],
   "note": ""
  },
  {
   "property": "C08",
   "status": "proved",
   "theorems": [
    "Verif.Moe.C08_slot_is_preference_rank",
    "Verif.Moe.C08_every_expert_full",
    "Verif.Moe.C08_selected_are_best",
    "Verif.Moe.C08_moe_layer"
   ],
   "note": ""
  },
  {
   "property": "C09",
   "status": "proved",
   "theorems": [
    "Verif.Moe.C09_min_max",
    "Verif.Moe.C09_total",
    "Verif.Moe.C09_ratios",
    "Verif.Moe.C09_selected_gates"
   ],
   "note": ""
  },
  {
   "property": "C10",
   "status": "proved",
   "theorems": [
    "Verif.Moe.C10_capacity",
    "Verif.Moe.C10_success_only_if",
    "Verif.Moe.C10_unknown_mode",
    "Verif.Moe.C10_ceil_space"
   ],
   "note": ""
  },
  {
   "property": "C11",
   "status": "proved",
   "theorems": [
    "Verif.Moe.C11_both_or_none",
    "Verif.Moe.C11_unknown_name",
    "Verif.Moe.C11_given_capacity",
    "Verif.Moe.C11_zero_capacity",
    "Verif.Moe.C11_capacity_factor",
    "Verif.Moe.C11_expert_choice_small_group_counterexample"
   ],
   "note": ""
  },
  {
   "property": "C12",
   "status": "proved",
   "theorems": [
    "Verif.Ensemble.C12_gates_block_diagonal",
    "Verif.Ensemble.C12_no_shared_experts",
    "Verif.Ensemble.C12_non_interference",
    "Verif.Ensemble.C12_rejects",
    "Verif.Ensemble.C12_softmax_positive",
    "Verif.Ensemble.C12_zero_gate_leaks_counterexample"
   ],
   "note": ""
  },
  {
   "property": "C13",
   "status": "proved",
   "theorems": [
    "Verif.Ensemble.C13_regroup_position",
    "Verif.Ensemble.C13_no_collision",
    "Verif.Ensemble.C13_round_trip",
    "Verif.Ensemble.C13_repeat_row",
    "Verif.Ensemble.C13_bad_group_size"
   ],
   "note": ""
  },
  {
   "property": "C14",
   "status": "proved",
   "theorems": [
    "Verif.Moe.C14_number_kept",
    "Verif.Moe.C14_enough_capacity",
    "Verif.Moe.C14_full_capacity"
   ],
   "note": ""
  },
  {
   "property": "C15",
   "status": "proved",
   "theorems": [
    "Verif.Soft.C15_weights",
    "Verif.Soft.C15_slot_inputs_convex",
    "Verif.Soft.C15_outputs_convex",
    "Verif.Soft.C15_constant",
    "Verif.Soft.C15_permutation",
    "Verif.Soft.C15_scale_side",
    "Verif.Soft.C15_no_token_ignored"
   ],
   "note": ""
  },
  {
   "property": "C16",
   "status": "proved",
   "theorems": [
    "Verif.Aux.C16_closed_form",
    "Verif.Aux.C16_importance_loss",
    "Verif.Aux.C16_worst_case",
    "Verif.Aux.C16_load_loss",
    "Verif.Aux.C16_load_loss_value",
    "Verif.Aux.C16_gshard_value",
    "Verif.Aux.C16_gshard_loss",
    "Verif.Aux.C16_weighted_sum"
   ],
   "note": ""
  },
  {
   "property": "C17",
   "status": "proved",
   "theorems": [
    "Verif.Ckpt.C17_split_partition",
    "Verif.Ckpt.C17_no_maximum"
   ],
   "note": ""
  },
  {
   "property": "C18",
   "status": "proved",
   "theorems": [
    "Verif.Ckpt.C18_saved_exactly_once"
   ],
   "note": ""
  },
  {
   "property": "C19",
   "status": "proved",
   "theorems": [
    "Verif.Ckpt.C19_round_trip",
    "Verif.Ckpt.C19_empty_array_counterexample",
    "Verif.Ckpt.C19_structure"
   ],
   "note": ""
  },
  {
   "property": "C20",
   "status": "proved",
   "theorems": [
    "Verif.Ckpt.C20_reads_exactly_needed",
    "Verif.Ckpt.C20_intersection"
   ],
   "note": ""
  },
  {
   "property": "C21",
   "status": "proved",
   "theorems": [
    "Verif.Ckpt.C21_least_loaded",
    "Verif.Ckpt.C21_balanced",
    "Verif.Ckpt.C21_partitioned_unbalanced_counterexample"
   ],
   "note": ""
  },
  {
   "property": "C22",
   "status": "proved",
   "theorems": [
    "Verif.CkptFiles.C22_crash_atomic",
    "Verif.CkptFiles.C22_success",
    "Verif.CkptFiles.C22_missing_directory",
    "Verif.CkptFiles.C22_concurrent"
   ],
   "note": ""
  },
  {
   "property": "C23",
   "status": "proved",
   "theorems": [
    "Verif.CkptFiles.C23_exact",
    "Verif.CkptFiles.C23_no_suffix",
    "Verif.CkptFiles.C23_raises_iff",
    "Verif.CkptFiles.C23_latest",
    "Verif.CkptFiles.C23_crash",
    "Verif.CkptFiles.C23_crash_single_files",
    "Verif.CkptFiles.C23_missing_shard_counterexample",
    "Verif.CkptFiles.C23_hidden_by_refused_save_counterexample"
   ],
   "note": ""
  },
  {
   "property": "C24",
   "status": "proved",
   "theorems": [
    "Verif.CkptFiles.C24_round_trip",
    "Verif.CkptFiles.C24_injective",
    "Verif.CkptFiles.C24_unchanged_iff",
    "Verif.CkptFiles.C24_not_idempotent_counterexample"
   ],
   "note": ""
  },
  {
   "property": "C25",
   "status": "proved",
   "theorems": [
    "Verif.CkptFiles.C25_parse",
    "Verif.CkptFiles.C25_exact",
    "Verif.CkptFiles.C25_unique"
   ],
   "note": ""
  },
  {
   "property": "C26",
   "status": "proved",
   "theorems": [
    "Verif.Ser.C26_round_trip",
    "Verif.Ser.C26_serializes",
    "Verif.Ser.C26_injective",
    "Verif.Ser.C26_overflow"
   ],
   "note": ""
  },
  {
   "property": "C27",
   "status": "proved",
   "theorems": [
    "Verif.Ser.C27_round_trip",
    "Verif.Ser.C27_piece_sizes",
    "Verif.Ser.C27_serializes",
    "Verif.Ser.C27_empty_array_counterexample"
   ],
   "note": ""
  },
  {
   "property": "C28",
   "status": "proved",
   "theorems": [
    "Verif.Ckpt.C28_layout_independent",
    "Verif.Ckpt.C28_index_matches_files"
   ],
   "note": ""
  },
  {
   "property": "C29",
   "status": "proved",
   "theorems": [
    "Verif.SafeZip.C29_zip",
    "Verif.SafeZip.C29_rows",
    "Verif.SafeZip.C29_map",
    "Verif.SafeZip.C29_no_iterables"
   ],
   "note": ""
  },
  {
   "property": "C30",
   "status": "proved",
   "theorems": [
    "Verif.Regex.C30_union",
    "Verif.Regex.C30_arguments",
    "Verif.Regex.C30_unbalanced_counterexample"
   ],
   "note": ""
  },
  {
   "property": "C31",
   "status": "proved",
   "theorems": [
    "Verif.ParseCall.C31_literals",
    "Verif.ParseCall.C31_accepts_iff",
    "Verif.ParseCall.C31_keywords",
    "Verif.ParseCall.C31_dotted",
    "Verif.ParseCall.C31_rejects",
    "Verif.ParseCall.C31_parenthesis_counterexample"
   ],
   "note": ""
  },
  {
   "property": "C32",
   "status": "proved",
   "theorems": [
    "Verif.Multihost.C32_passes_iff",
    "Verif.Multihost.C32_same_name",
    "Verif.Multihost.C32_collision_counterexample"
   ],
   "note": ""
  },
  {
   "property": "C33",
   "status": "proved",
   "theorems": [
    "Verif.DataPipeline.C33_padding",
    "Verif.DataPipeline.C33_masks",
    "Verif.DataPipeline.C33_filter_counterexample",
    "Verif.DataPipeline.C33_filter_drops_counterexample"
   ],
   "note": ""
  },
  {
   "property": "C34",
   "status": "proved",
   "theorems": [
    "Verif.Evaluator.C34_batches",
    "Verif.Evaluator.C34_random_batches",
    "Verif.Evaluator.C34_metrics",
    "Verif.Evaluator.C34_batch_dependent_counterexample"
   ],
   "note": ""
  },
  {
   "property": "C35",
   "status": "proved",
   "theorems": [
    "Verif.Prefetch.C35_same_elements",
    "Verif.Prefetch.C35_read_ahead",
    "Verif.Prefetch.C35_no_prefetch",
    "Verif.Prefetch.C35_error",
    "Verif.Prefetch.C35_error_counterexample"
   ],
   "note": ""
  },
  {
   "property": "C36",
   "status": "proved",
   "theorems": [
    "Verif.Prefetch.C36_split",
    "Verif.Prefetch.C36_rejects",
    "Verif.Prefetch.C36_global",
    "Verif.Prefetch.C36_global_exists"
   ],
   "note": ""
  },
  {
   "property": "C37",
   "status": "proved",
   "theorems": [
    "Verif.PpOps.C37_left_to_right",
    "Verif.PpOps.C37_rejects",
    "Verif.PpOps.C37_bar_in_argument_counterexample",
    "Verif.PpOps.C37_in_out",
    "Verif.PpOps.C37_key",
    "Verif.PpOps.C37_keep",
    "Verif.PpOps.C37_valid_kept",
    "Verif.PpOps.C37_ignore_no_labels"
   ],
   "note": ""
  },
  {
   "property": "C38",
   "status": "proved",
   "theorems": [
    "Verif.PpOps.C38_value_range_affine",
    "Verif.PpOps.C38_value_range_bounds",
    "Verif.PpOps.C38_inverted_clip_counterexample",
    "Verif.PpOps.C38_crop_iff",
    "Verif.PpOps.C38_crop",
    "Verif.PpOps.C38_resize_small",
    "Verif.PpOps.C38_resize_small_ratio"
   ],
   "note": ""
  },
  {
   "property": "C39",
   "status": "proved",
   "theorems": [
    "Verif.DataPipeline.C39_validation",
    "Verif.DataPipeline.C39_devices"
   ],
   "note": ""
  },
  {
   "property": "C40",
   "status": "proved",
   "theorems": [
    "Verif.Partitioning.C40_default",
    "Verif.Partitioning.C40_tile",
    "Verif.Partitioning.C40_default_position",
    "Verif.Partitioning.C40_logical_mesh",
    "Verif.Partitioning.C40_exactly_once",
    "Verif.Partitioning.C40_rejects",
    "Verif.Partitioning.C40_accepts"
   ],
   "note": ""
  },
  {
   "property": "C41",
   "status": "proved",
   "theorems": [
    "Verif.Partitioning.C41_contiguous",
    "Verif.Partitioning.C41_no_devices",
    "Verif.Partitioning.C41_all_processes"
   ],
   "note": ""
  },
  {
   "property": "C42",
   "status": "proved",
   "theorems": [
    "Verif.Partitioning.C42_other",
    "Verif.Partitioning.C42_tpu",
    "Verif.Partitioning.C42_tpu_order",
    "Verif.Partitioning.C42_greedy_counterexample",
    "Verif.Partitioning.C42_auto_mesh"
   ],
   "note": ""
  },
  {
   "property": "C43",
   "status": "proved",
   "theorems": [
    "Verif.Partitioning.C43_axis_resources",
    "Verif.Partitioning.C43_separator_counterexample"
   ],
   "note": ""
  },
  {
   "property": "C44",
   "status": "proved",
   "theorems": [
    "Verif.Optimizer.C44_frozen",
    "Verif.Optimizer.C44_pattern_list",
    "Verif.Optimizer.C44_others_unchanged",
    "Verif.Optimizer.C44_arguments"
   ],
   "note": ""
  },
  {
   "property": "C45",
   "status": "proved",
   "theorems": [
    "Verif.Optimizer.C45_weight_decay",
    "Verif.Optimizer.C45_scalar_decay",
    "Verif.Optimizer.C45_no_decay",
    "Verif.Optimizer.C45_params_required",
    "Verif.Optimizer.C45_gradient_scaling",
    "Verif.Optimizer.C45_order_counterexample",
    "Verif.Optimizer.C45_empty_dict_counterexample"
   ],
   "note": ""
  },
  {
   "property": "C46",
   "status": "proved",
   "theorems": [
    "Verif.Optimizer.C46_global_norm",
    "Verif.Optimizer.C46_absolute",
    "Verif.Optimizer.C46_arguments",
    "Verif.Optimizer.C46_negative_counterexample"
   ],
   "note": ""
  },
  {
   "property": "C47",
   "status": "proved",
   "theorems": [
    "Verif.Schedule.C47_polynomial",
    "Verif.Schedule.C47_polynomial_ends",
    "Verif.Schedule.C47_polynomial_bounds",
    "Verif.Schedule.C47_short_decay_counterexample",
    "Verif.Schedule.C47_cosine",
    "Verif.Schedule.C47_rsqrt_rejects",
    "Verif.Schedule.C47_rsqrt",
    "Verif.Schedule.C47_rsqrt_negative_counterexample",
    "Verif.Schedule.C47_exponential_constant",
    "Verif.Schedule.C47_exponential",
    "Verif.Schedule.C47_exponential_negative_begin",
    "Verif.Schedule.C47_create",
    "Verif.Schedule.C47_total_ignored"
   ],
   "note": ""
  },
  {
   "property": "C48",
   "status": "proved",
   "theorems": [
    "Verif.Trainer.C48_disabled",
    "Verif.Trainer.C48_rejects",
    "Verif.Trainer.C48_microsteps",
    "Verif.Trainer.C48_every_example_once",
    "Verif.Trainer.C48_covers_devices",
    "Verif.Trainer.C48_mean",
    "Verif.Trainer.C48_batch_function_counterexample",
    "Verif.Trainer.C48_uneven_counterexample"
   ],
   "note": ""
  },
  {
   "property": "C49",
   "status": "proved",
   "theorems": [
    "Verif.Mixup.C49_mixup",
    "Verif.Mixup.C49_batch",
    "Verif.Mixup.C49_keeps_common_values",
    "Verif.Mixup.C49_labels",
    "Verif.Mixup.C49_batch_sum",
    "Verif.Mixup.C49_rejects",
    "Verif.Mixup.C49_unknown_granularity",
    "Verif.Mixup.C49_disabled",
    "Verif.Mixup.C49_needs_generator",
    "Verif.Mixup.C49_generators"
   ],
   "note": ""
  },
  {
   "property": "C50",
   "status": "proved",
   "theorems": [
    "Verif.Trainer.C50_accepts",
    "Verif.Trainer.C50_rejects",
    "Verif.Trainer.C50_steps",
    "Verif.Trainer.C50_epochs"
   ],
   "note": ""
  },
  {
   "property": "C51",
   "status": "proved",
   "theorems": [
    "Verif.TrainLoop.C51_labels",
    "Verif.TrainLoop.C51_completed",
    "Verif.TrainLoop.C51_uninterrupted",
    "Verif.TrainLoop.C51_replay_counterexample",
    "Verif.TrainLoop.C51_early_end_counterexample",
    "Verif.TrainLoop.C51_beyond_counterexample"
   ],
   "note": ""
  },
  {
   "property": "C52",
   "status": "proved",
   "theorems": [
    "Verif.Trainer.C52_reuse",
    "Verif.Trainer.C52_missing"
   ],
   "note": ""
  },
  {
   "property": "C53",
   "status": "proved",
   "theorems": [
    "Verif.Summarizer.C53_names",
    "Verif.Summarizer.C53_index_of_name",
    "Verif.Summarizer.C53_limit",
    "Verif.Summarizer.C53_complete",
    "Verif.Summarizer.C53_reduced_shape",
    "Verif.Summarizer.C53_norm",
    "Verif.Summarizer.C53_unknown_op",
    "Verif.Summarizer.C53_collision_counterexample",
    "Verif.Summarizer.C53_operations",
    "Verif.Summarizer.C53_transform"
   ],
   "note": ""
  },
  {
   "property": "C54",
   "status": "proved",
   "theorems": [
    "Verif.Mapping.C54_assignment",
    "Verif.Mapping.C54_strict_source",
    "Verif.Mapping.C54_strict_target",
    "Verif.Mapping.C54_sources_used",
    "Verif.Mapping.C54_twice_raises",
    "Verif.Mapping.C54_success"
   ],
   "note": ""
  },
  {
   "property": "C55",
   "status": "proved",
   "theorems": [
    "Verif.Mapping.C55_stack_order",
    "Verif.NaturalSort.C55_all_names",
    "Verif.NaturalSort.C55_numeric_order",
    "Verif.NaturalSort.C55_leading_zeros",
    "Verif.NaturalSort.C55_comparable",
    "Verif.NaturalSort.C55_minus_counterexample",
    "Verif.NaturalSort.C55_point_counterexample"
   ],
   "note": ""
  },
  {
   "property": "C56",
   "status": "proved",
   "theorems": [
    "Verif.InitRules.C56_tile_copies",
    "Verif.InitRules.C56_tile_total",
    "Verif.InitRules.C56_tile_experts",
    "Verif.InitRules.C56_reshape_entries",
    "Verif.InitRules.C56_reshape_shape",
    "Verif.InitRules.C56_squeeze",
    "Verif.InitRules.C56_stack",
    "Verif.InitRules.C56_stack_total",
    "Verif.Mapping.C56_target_shape",
    "Verif.Mapping.C56_no_broadcast"
   ],
   "note": ""
  },
  {
   "property": "C57",
   "status": "proved",
   "theorems": [
    "Verif.InitRules.C57_accepted",
    "Verif.InitRules.C57_grid",
    "Verif.InitRules.C57_zoom",
    "Verif.InitRules.C57_zoom_total",
    "Verif.InitRules.C57_zoom_same"
   ],
   "note": ""
  },
  {
   "property": "C58",
   "status": "proved",
   "theorems": [
    "Verif.Fewshot.C58_representation",
    "Verif.Fewshot.C58_subset",
    "Verif.Fewshot.C58_nested",
    "Verif.Fewshot.C58_all",
    "Verif.Fewshot.C58_results",
    "Verif.Fewshot.C58_no_classes"
   ],
   "note": ""
  },
  {
   "property": "C59",
   "status": "proved",
   "theorems": [
    "Verif.Fewshot.C59_minimum",
    "Verif.Fewshot.C59_prediction",
    "Verif.Fewshot.C59_accuracy",
    "Verif.Fewshot.C59_order",
    "Verif.Fewshot.C59_shift"
   ],
   "note": ""
  },
  {
   "property": "C60",
   "status": "proved",
   "theorems": [
    "Verif.EnsembleEval.C60_softmax_mean",
    "Verif.EnsembleEval.C60_sigmoid_mean",
    "Verif.EnsembleEval.C60_order",
    "Verif.EnsembleEval.C60_agree",
    "Verif.EnsembleEval.C60_shape",
    "Verif.EnsembleEval.C60_softmax_loss",
    "Verif.EnsembleEval.C60_sigmoid_loss",
    "Verif.EnsembleEval.C60_softmax_xent",
    "Verif.EnsembleEval.C60_prediction"
   ],
   "note": ""
  },
  {
   "property": "C61",
   "status": "proved",
   "theorems": [
    "Verif.Attack.C61_bound",
    "Verif.Attack.C61_attained",
    "Verif.Attack.C61_total",
    "Verif.Attack.C61_keys",
    "Verif.Attack.C61_range_counterexample"
   ],
   "note": ""
  },
  {
   "property": "C62",
   "status": "proved",
   "theorems": [
    "Verif.Attack.C62_totals",
    "Verif.Attack.C62_batching",
    "Verif.Attack.C62_bounds",
    "Verif.Attack.C62_report_bounds",
    "Verif.Attack.C62_report",
    "Verif.Attack.C62_unchanged",
    "Verif.Attack.C62_unrouted_counterexample",
    "Verif.Attack.C62_keys_reused_counterexample"
   ],
   "note": ""
  },
  {
   "property": "C63",
   "status": "proved",
   "theorems": [
    "Verif.ExampleStorage.C63_complete",
    "Verif.ExampleStorage.C63_zero_period"
   ],
   "note": ""
  },
  {
   "property": "C64",
   "status": "proved",
   "theorems": [
    "Verif.Contrastive.C64_no_input",
    "Verif.Contrastive.C64_embedding",
    "Verif.Contrastive.C64_logits",
    "Verif.Contrastive.C64_initial",
    "Verif.Contrastive.C64_loss",
    "Verif.Contrastive.C64_not_square",
    "Verif.Contrastive.C64_permutation",
    "Verif.Contrastive.C64_transpose",
    "Verif.Contrastive.C64_small_loss"
   ],
   "note": ""
  },
  {
   "property": "C65",
   "status": "proved",
   "theorems": [
    "Verif.PpOps.C65_multi_hot",
    "Verif.PpOps.C65_out_of_range",
    "Verif.PpOps.C65_single"
   ],
   "note": ""
  },
  {
   "property": "C66",
   "status": "proved",
   "theorems": [
    "Verif.Partitioning.C66_hardware_mesh",
    "Verif.Partitioning.C66_irregular_counterexample",
    "Verif.Partitioning.C66_collision_counterexample"
   ],
   "note": ""
  },
  {
   "property": "C67",
   "status": "proved",
   "theorems": [
    "Verif.Partitioning.C67_logical_mesh",
    "Verif.Partitioning.C67_tile_contiguous",
    "Verif.Partitioning.C67_not_contiguous_counterexample"
   ],
   "note": ""
  },
  {
   "property": "C68",
   "status": "proved",
   "theorems": [
    "Verif.Optimizer.C68_sgd"
   ],
   "note": ""
  },
  {
   "property": "C69",
   "status": "proved",
   "theorems": [
    "Verif.TrainLoop.C69_lost_work"
   ],
   "note": ""
  },
  {
   "property": "C70",
   "status": "proved",
   "theorems": [
    "Verif.Fewshot.C70_undominated",
    "Verif.Fewshot.C70_empty",
    "Verif.Fewshot.C70_tie_counterexample"
   ],
   "note": ""
  },
  {
   "property": "C71",
   "status": "proved",
   "theorems": [
    "Verif.Moe.C71_dense_layer",
    "Verif.Moe.C71_dense_dispatch",
    "Verif.Moe.C71_dense_eq_full_top_k",
    "Verif.Moe.C71_default_dispatch",
    "Verif.Moe.C71_default_weights_layer",
    "Verif.Moe.C71_default_weights_negative_counterexample"
   ],
   "note": ""
  },
  {
   "property": "C72",
   "status": "proved",
   "theorems": [
    "Verif.MoeBlock.C72_block_output",
    "Verif.MoeBlock.C72_block_errors",
    "Verif.MoeBlock.C72_group_local",
    "Verif.MoeBlock.C72_sequences_independent",
    "Verif.MoeBlock.C72_bounded",
    "Verif.MoeBlock.C72_metrics"
   ],
   "note": ""
  },
  {
   "property": "C73",
   "status": "proved",
   "theorems": [
    "Verif.Encoder.C73_ensemble_encoder",
    "Verif.Encoder.C73_plain_encoder",
    "Verif.Encoder.C73_ids_as_set",
    "Verif.Encoder.C73_batch_size",
    "Verif.Encoder.C73_bad_ensemble_size",
    "Verif.Encoder.C73_no_other_errors"
   ],
   "note": ""
  },
  {
   "property": "C74",
   "status": "proved",
   "theorems": [
    "Verif.OtRouting.C74_item_choice_layer",
    "Verif.OtRouting.C74_indices_rejected",
    "Verif.OtRouting.C74_expert_choice_layer",
    "Verif.OtRouting.C74_row_sparse_plan",
    "Verif.OtRouting.C74_row_sparse_layer",
    "Verif.OtRouting.C74_row_sparse_softmax_layer",
    "Verif.OtRouting.C74_column_sparse_plan",
    "Verif.OtRouting.C74_column_sparse_layer",
    "Verif.OtRouting.C74_capacity_factor_needed",
    "Verif.OtRouting.C74_column_sparse_total",
    "Verif.OtRouting.C74_max_op",
    "Verif.OtRouting.C74_metrics",
    "Verif.OtRouting.C74_zero_transport_counterexample"
   ],
   "note": ""
  },
  {
   "property": "C75",
   "status": "proved",
   "theorems": [
    "Verif.OtRouting.C75_rows",
    "Verif.OtRouting.C75_imbalance_never_grows",
    "Verif.OtRouting.C75_weighted_sum",
    "Verif.OtRouting.C75_expert_bias_ignored",
    "Verif.OtRouting.C75_columns_counterexample",
    "Verif.OtRouting.C75_item_choice_layer",
    "Verif.OtRouting.C75_item_choice_metrics",
    "Verif.OtRouting.C75_expert_choice_layer"
   ],
   "note": ""
  },
  {
   "property": "C76",
   "status": "proved",
   "theorems": [
    "Verif.EnsembleBlock.C76_members_are_plain_blocks",
    "Verif.EnsembleBlock.C76_same_capacity",
    "Verif.EnsembleBlock.C76_members_independent",
    "Verif.EnsembleBlock.C76_rejects"
   ],
   "note": ""
  },
  {
   "property": "C77",
   "status": "proved",
   "theorems": [
    "Verif.EvalAction.C77_reports"
   ],
   "note": ""
  },
  {
   "property": "C78",
   "status": "proved",
   "theorems": [
    "Verif.ExpertChoice.C78_block_output",
    "Verif.ExpertChoice.C78_balanced",
    "Verif.ExpertChoice.C78_block_errors",
    "Verif.ExpertChoice.C78_group_local",
    "Verif.ExpertChoice.C78_bounded"
   ],
   "note": ""
  },
  {
   "property": "C79",
   "status": "proved",
   "theorems": [
    "Verif.Config.C79_router",
    "Verif.Config.C79_router_follows_layer",
    "Verif.Config.C79_ensemble_router",
    "Verif.Config.C79_encoder_mlps",
    "Verif.Config.C79_encoder_blocks",
    "Verif.Config.C79_flax_model",
    "Verif.Config.C79_tower",
    "Verif.Config.C79_split_rngs"
   ],
   "note": ""
  },
  {
   "property": "C80",
   "status": "proved",
   "theorems": [
    "Verif.Vit.C80_forward",
    "Verif.Vit.C80_border",
    "Verif.Vit.C80_sincos_grid",
    "Verif.Vit.C80_sincos_injective",
    "Verif.Vit.C80_sincos_norm",
    "Verif.Vit.C80_position_kinds",
    "Verif.Vit.C80_position_emb_None"
   ],
   "note": ""
  },
  {
   "property": "C81",
   "status": "proved",
   "theorems": [
    "Verif.Vit.C81_text"
   ],
   "note": ""
  },
  {
   "property": "C82",
   "status": "proved",
   "theorems": [
    "Verif.TrainStep.C82_no_key_reused",
    "Verif.TrainStep.C82_init_keys_split_counterexample"
   ],
   "note": ""
  },
  {
   "property": "C83",
   "status": "proved",
   "theorems": [
    "Verif.TrainStep.C83_train_step",
    "Verif.TrainStep.C83_no_microsteps"
   ],
   "note": ""
  },
  {
   "property": "C84",
   "status": "proved",
   "theorems": [
    "Verif.InitVmoe.C84_initialize",
    "Verif.InitVmoe.C84_version",
    "Verif.InitVmoe.C84_too_many_values"
   ],
   "note": ""
  },
  {
   "property": "C85",
   "status": "proved",
   "theorems": [
    "Verif.Hooks.C85_hooks",
    "Verif.Hooks.C85_first_and_last",
    "Verif.Hooks.C85_same_on_all_processes",
    "Verif.Hooks.C85_first_report_counterexample",
    "Verif.Hooks.C85_final_evaluation_lost_counterexample",
    "Verif.Hooks.C85_zero_every_steps",
    "Verif.Hooks.C85_cost",
    "Verif.Hooks.C85_clocks_disagree_counterexample",
    "Verif.Hooks.C85_without_big_vision_counterexample",
    "Verif.Hooks.C85_nothing_to_evaluate",
    "Verif.Hooks.C85_big_vision_hooks"
   ],
   "note": ""
  },
  {
   "property": "C86",
   "status": "proved",
   "theorems": [
    "Verif.Partitioning.C86_logical_mesh",
    "Verif.Partitioning.C86_auto_mesh"
   ],
   "note": ""
  },
  {
   "property": "C87",
   "status": "proved",
   "theorems": [
    "Verif.RulesParse.C87_accepts",
    "Verif.RulesParse.C87_rejects",
    "Verif.RulesParse.C87_result",
    "Verif.RulesParse.C87_reshape_default",
    "Verif.RulesParse.C87_no_replacement",
    "Verif.RulesParse.C87_none_transform_counterexample",
    "Verif.RulesParse.C87_empty_transform_counterexample"
   ],
   "note": ""
  },
  {
   "property": "C88",
   "status": "proved",
   "theorems": [
    "Verif.Optimizer.C88_sgd"
   ],
   "note": ""
  },
  {
   "property": "C89",
   "status": "proved",
   "theorems": [
    "Verif.RestorePool.C89_every_file_once",
    "Verif.RestorePool.C89_progress",
    "Verif.RestorePool.C89_one_per_task",
    "Verif.RestorePool.C89_bytes",
    "Verif.RestorePool.C89_no_maximum",
    "Verif.RestorePool.C89_maximum_counterexample"
   ],
   "note": ""
  },
  {
   "property": "C90",
   "status": "proved",
   "theorems": [
    "Verif.Soft.C90_similarity",
    "Verif.Soft.C90_min",
    "Verif.Soft.C90_max",
    "Verif.Soft.C90_mean",
    "Verif.Soft.C90_probabilities",
    "Verif.Soft.C90_min_max_mean",
    "Verif.Soft.C90_weights",
    "Verif.Soft.C90_mu_max_counterexample",
    "Verif.Soft.C90_mean_counterexample"
   ],
   "note": ""
  },
  {
   "property": "C91",
   "status": "proved",
   "theorems": [
    "Verif.Contrastive.C91_full_batch",
    "Verif.Contrastive.C91_microsteps",
    "Verif.Contrastive.C91_missing_pairs",
    "Verif.Contrastive.C91_loss_counterexample",
    "Verif.Contrastive.C91_rejects"
   ],
   "note": ""
  },
  {
   "property": "C92",
   "status": "proved",
   "theorems": [
    "Verif.AttackRouting.C92_tokens",
    "Verif.AttackRouting.C92_items_are_tokens",
    "Verif.AttackRouting.C92_same_items",
    "Verif.AttackRouting.C92_uneven",
    "Verif.AttackRouting.C92_einsum",
    "Verif.AttackRouting.C92_indices",
    "Verif.AttackRouting.C92_expert_choice",
    "Verif.AttackRouting.C92_dispatchers_agree",
    "Verif.AttackRouting.C92_dropped_counterexample",
    "Verif.AttackRouting.C92_keys",
    "Verif.AttackRouting.C92_no_routers",
    "Verif.AttackRouting.C92_prediction"
   ],
   "note": ""
  },
  {
   "property": "C93",
   "status": "proved",
   "theorems": [
    "Verif.FewshotAction.C93_reports",
    "Verif.FewshotAction.C93_repeat",
    "Verif.FewshotAction.C93_same_split",
    "Verif.FewshotAction.C93_evaluates",
    "Verif.FewshotAction.C93_datasets",
    "Verif.FewshotAction.C93_main_task_rejected"
   ],
   "note": ""
  },
  {
   "property": "C94",
   "status": "proved",
   "theorems": [
    "Verif.ContrastiveEval.C94_apply",
    "Verif.ContrastiveEval.C94_zero_shot",
    "Verif.ContrastiveEval.C94_duration_counterexample",
    "Verif.ContrastiveEval.C94_retrieval"
   ],
   "note": ""
  },
  {
   "property": "C95",
   "status": "proved",
   "theorems": [
    "Verif.LossFn.C95_names",
    "Verif.LossFn.C95_plain",
    "Verif.LossFn.C95_lower_bound",
    "Verif.LossFn.C95_ensemble_of_one",
    "Verif.LossFn.C95_ensemble_train",
    "Verif.LossFn.C95_wrong_arguments",
    "Verif.LossFn.C95_options"
   ],
   "note": ""
  },
  {
   "property": "C96",
   "status": "proved",
   "theorems": [
    "Verif.DataShare.C96_shares",
    "Verif.DataShare.C96_evaluation",
    "Verif.DataShare.C96_builder_cache",
    "Verif.DataShare.C96_builder_cache_counterexample",
    "Verif.DataShare.C96_num_examples",
    "Verif.DataShare.C96_options",
    "Verif.DataShare.C96_directory"
   ],
   "note": ""
  },
  {
   "property": "C97",
   "status": "proved",
   "theorems": [
    "Verif.TrainStream.C97_training",
    "Verif.TrainStream.C97_empty",
    "Verif.TrainStream.C97_few_examples",
    "Verif.TrainStream.C97_errors",
    "Verif.TrainStream.C97_refused",
    "Verif.TrainStream.C97_cached"
   ],
   "note": ""
  },
  {
   "property": "C98",
   "status": "proved",
   "theorems": [
    "Verif.TrainStart.C98_methods",
    "Verif.TrainStart.C98_restart",
    "Verif.TrainStart.C98_scratch",
    "Verif.TrainStart.C98_finetune",
    "Verif.TrainStart.C98_finetune_ok",
    "Verif.TrainStart.C98_names",
    "Verif.TrainStart.C98_vit"
   ],
   "note": ""
  },
  {
   "property": "C99",
   "status": "proved",
   "theorems": [
    "Verif.ImageOps.C99_central_crop",
    "Verif.ImageOps.C99_resize",
    "Verif.ImageOps.C99_resize_errors",
    "Verif.ImageOps.C99_decode_and_crop",
    "Verif.ImageOps.C99_train",
    "Verif.ImageOps.C99_evaluation",
    "Verif.ImageOps.C99_evaluation_crop",
    "Verif.ImageOps.C99_crop",
    "Verif.ImageOps.C99_flip",
    "Verif.ImageOps.C99_no_size_counterexample"
   ],
   "note": ""
  },
  {
   "property": "C100",
   "status": "proved",
   "theorems": [
    "Verif.SoftRouter.C100_layer",
    "Verif.SoftRouter.C100_batch",
    "Verif.SoftRouter.C100_permutation",
    "Verif.SoftRouter.C100_given_slots",
    "Verif.SoftRouter.C100_slots",
    "Verif.SoftRouter.C100_runs",
    "Verif.SoftRouter.C100_other_size_counterexample"
   ],
   "note": ""
  },
  {
   "property": "C101",
   "status": "proved",
   "theorems": [
    "Verif.ConfigOverride.C101_override",
    "Verif.ConfigOverride.C101_no_override",
    "Verif.ConfigOverride.C101_accepted",
    "Verif.ConfigOverride.C101_fewshot",
    "Verif.ConfigOverride.C101_none_counterexample"
   ],
   "note": ""
  },
  {
   "property": "C102",
   "status": "proved",
   "theorems": [
    "Verif.Attention.C102_attention",
    "Verif.Attention.C102_between",
    "Verif.Attention.C102_map_head_order",
    "Verif.Attention.C102_map_head_repeat",
    "Verif.Attention.C102_map_head_equal",
    "Verif.Attention.C102_pooling_order",
    "Verif.Attention.C102_first_counterexample",
    "Verif.Attention.C102_encoder_order",
    "Verif.Attention.C102_soft_order",
    "Verif.Attention.C102_text_order",
    "Verif.Attention.C102_position_counterexample"
   ],
   "note": ""
  },
  {
   "property": "C103",
   "status": "proved",
   "theorems": [
    "Verif.AttackRun.C103_examples_and_reports",
    "Verif.AttackRun.C103_examples_written",
    "Verif.AttackRun.C103_same_report",
    "Verif.AttackRun.C103_state_file",
    "Verif.AttackRun.C103_paths_distinct",
    "Verif.AttackRun.C103_restore_from",
    "Verif.AttackRun.C103_empty_config_counterexample",
    "Verif.AttackRun.C103_zero_period"
   ],
   "note": ""
  },
  {
   "property": "C104",
   "status": "proved",
   "theorems": [
    "Verif.Adafactor.C104_rate",
    "Verif.Adafactor.C104_offset_counterexample",
    "Verif.Adafactor.C104_average",
    "Verif.Adafactor.C104_sign",
    "Verif.Adafactor.C104_bounded",
    "Verif.Adafactor.C104_first",
    "Verif.Adafactor.C104_momentum",
    "Verif.Adafactor.C104_factored_means",
    "Verif.Adafactor.C104_factored_update",
    "Verif.Adafactor.C104_rank_one",
    "Verif.Adafactor.C104_axes",
    "Verif.Adafactor.C104_expert_axis",
    "Verif.Adafactor.C104_expert_axis_counterexample"
   ],
   "note": ""
  },
  {
   "property": "C105",
   "status": "proved",
   "theorems": [
    "Verif.AttackLoss.C105_training_loss",
    "Verif.AttackLoss.C105_auxiliary",
    "Verif.AttackLoss.C105_loss_needed",
    "Verif.AttackLoss.C105_independent",
    "Verif.AttackLoss.C105_steepest",
    "Verif.AttackLoss.C105_increases",
    "Verif.AttackLoss.C105_linear_optimal",
    "Verif.AttackLoss.C105_auxiliary_counterexample",
    "Verif.AttackLoss.C105_deterministic"
   ],
   "note": ""
  },
  {
   "property": "C106",
   "status": "proved",
   "theorems": [
    "Verif.BatchSpec.C106_agree",
    "Verif.BatchSpec.C106_batch_size",
    "Verif.BatchSpec.C106_errors",
    "Verif.BatchSpec.C106_others",
    "Verif.BatchSpec.C106_text_counterexample"
   ],
   "note": ""
  },
  {
   "property": "C107",
   "status": "proved",
   "theorems": [
    "Verif.Ser.C107_round_trip",
    "Verif.Ser.C107_without_target",
    "Verif.Ser.C107_injective",
    "Verif.Ser.C107_serializes",
    "Verif.Ser.C107_file",
    "Verif.Ser.C107_multiple",
    "Verif.Ser.C107_refused",
    "Verif.Ser.C107_extra_keys_counterexample",
    "Verif.Ser.C107_shape_counterexample",
    "Verif.Ser.C107_reserved_key_counterexample"
   ],
   "note": ""
  },
  {
   "property": "C108",
   "status": "proved",
   "theorems": [
    "Verif.OtRouting.C108_columns",
    "Verif.OtRouting.C108_nearest",
    "Verif.OtRouting.C108_layer",
    "Verif.OtRouting.C108_all_experts",
    "Verif.OtRouting.C108_errors",
    "Verif.OtRouting.C108_rows_counterexample",
    "Verif.OtRouting.C108_all_experts_counterexample"
   ],
   "note": ""
  },
  {
   "property": "C109",
   "status": "proved",
   "theorems": [
    "Verif.MoeAxes.C109_arrays",
    "Verif.MoeAxes.C109_names",
    "Verif.MoeAxes.C109_aligned",
    "Verif.MoeAxes.C109_read",
    "Verif.MoeAxes.C109_total",
    "Verif.MoeAxes.C109_negative_counterexample"
   ],
   "note": ""
  },
  {
   "property": "C110",
   "status": "proved",
   "theorems": [
    "Verif.MeshLog.C110_table",
    "Verif.MeshLog.C110_total",
    "Verif.MeshLog.C110_errors"
   ],
   "note": ""
  },
  {
   "property": "C111",
   "status": "proved",
   "theorems": [
    "Verif.NoNan.C111_value",
    "Verif.NoNan.C111_gradient",
    "Verif.NoNan.C111_finite",
    "Verif.NoNan.C111_derivative",
    "Verif.NoNan.C111_inner_where",
    "Verif.NoNan.C111_zero_counterexample"
   ],
   "note": ""
  },
  {
   "property": "C112",
   "status": "proved",
   "theorems": [
    "Verif.RemovePool.C112_safe",
    "Verif.RemovePool.C112_removes",
    "Verif.RemovePool.C112_raises",
    "Verif.RemovePool.C112_returns",
    "Verif.RemovePool.C112_error_counterexample"
   ],
   "note": ""
  },
  {
   "property": "C113",
   "status": "proved",
   "theorems": [
    "Verif.DirSync.C113_writes",
    "Verif.DirSync.C113_progress",
    "Verif.DirSync.C113_failure",
    "Verif.DirSync.C113_without_sync"
   ],
   "note": ""
  },
  {
   "property": "C114",
   "status": "proved",
   "theorems": [
    "Verif.Summarizer.C114_none",
    "Verif.Summarizer.C114_list",
    "Verif.Summarizer.C114_dict",
    "Verif.Summarizer.C114_again",
    "Verif.Summarizer.C114_call",
    "Verif.Summarizer.C114_transforms",
    "Verif.Summarizer.C114_flat_counterexample",
    "Verif.Summarizer.C114_string_counterexample"
   ],
   "note": ""
  },
  {
   "property": "C115",
   "status": "proved",
   "theorems": [
    "Verif.AttackModel.C115_module",
    "Verif.AttackModel.C115_same_as_training",
    "Verif.AttackModel.C115_conflict_counterexample"
   ],
   "note": ""
  },
  {
   "property": "C116",
   "status": "proved",
   "theorems": [
    "Verif.LazyChunks.C116_copies",
    "Verif.LazyChunks.C116_contents",
    "Verif.LazyChunks.C116_without_copies"
   ],
   "note": ""
  },
  {
   "property": "C117",
   "status": "proved",
   "theorems": [
    "Verif.Donation.C117_refines",
    "Verif.Donation.C117_deleted",
    "Verif.Donation.C117_shared_buffer"
   ],
   "note": ""
  },
  {
   "property": "C118",
   "status": "proved",
   "theorems": [
    "Verif.Mapping.C118_linear",
    "Verif.Mapping.C118_buffers",
    "Verif.Mapping.C118_target_given_away"
   ],
   "note": ""
  },
  {
   "property": "C119",
   "status": "proved",
   "theorems": [
    "Verif.Vmoe.C119_layer",
    "Verif.Vmoe.C119_model",
    "Verif.Vmoe.C119_batches",
    "Verif.Vmoe.C119_position_counterexample"
   ],
   "note": ""
  },
  {
   "property": "C120",
   "status": "proved",
   "theorems": [
    "Verif.Vmoe.C120_layer",
    "Verif.Vmoe.C120_model",
    "Verif.Vmoe.C120_padding_counterexample"
   ],
   "note": ""
  },
  {
   "property": "C121",
   "status": "proved",
   "theorems": [
    "Verif.Spmd.C121_no_deadlock",
    "Verif.Spmd.C121_ends",
    "Verif.Spmd.C121_agree",
    "Verif.Spmd.C121_completed",
    "Verif.Spmd.C121_no_batches_counterexample",
    "Verif.Spmd.C121_clocks_counterexample"
   ],
   "note": ""
  },
  {
   "property": "C122",
   "status": "proved",
   "theorems": [
    "Verif.EvalRun.C122_metrics",
    "Verif.EvalRun.C122_distribution",
    "Verif.EvalRun.C122_model",
    "Verif.EvalRun.C122_order_counterexample"
   ],
   "note": ""
  },
  {
   "property": "C123",
   "status": "proved",
   "theorems": [
    "Verif.Progress.C123_report",
    "Verif.Progress.C123_report_none",
    "Verif.Progress.C123_errors",
    "Verif.Progress.C123_train",
    "Verif.Progress.C123_names_counterexample"
   ],
   "note": ""
  },
  {
   "property": "C124",
   "status": "proved",
   "theorems": [
    "Verif.Vmoe.C124_layer",
    "Verif.Vmoe.C124_encoder",
    "Verif.Vmoe.C124_model",
    "Verif.Vmoe.C124_capacity",
    "Verif.Vmoe.C124_batches",
    "Verif.Vmoe.C124_no_moe",
    "Verif.Vmoe.C124_position_ignored"
   ],
   "note": ""
  },
  {
   "property": "C125",
   "status": "proved",
   "theorems": [
    "Verif.Upcycling.C125_layer",
    "Verif.Upcycling.C125_fewer_experts",
    "Verif.Upcycling.C125_model",
    "Verif.Upcycling.C125_initialized",
    "Verif.Upcycling.C125_upcycled"
   ],
   "note": ""
  },
  {
   "property": "C126",
   "status": "proved",
   "theorems": [
    "Verif.Relabel.C126_items_choose",
    "Verif.Relabel.C126_experts_choose",
    "Verif.Relabel.C126_model",
    "Verif.Relabel.C126_ties_counterexample"
   ],
   "note": ""
  },
  {
   "property": "C127",
   "status": "proved",
   "theorems": [
    "Verif.BatchOrder.C127_layer",
    "Verif.BatchOrder.C127_model",
    "Verif.BatchOrder.C127_no_priority_counterexample"
   ],
   "note": ""
  },
  {
   "property": "C128",
   "status": "proved",
   "theorems": [
    "Verif.AppRun.C128_same_mesh",
    "Verif.AppRun.C128_same_mesh_other",
    "Verif.AppRun.C128_different_hosts_counterexample",
    "Verif.AppRun.C128_files",
    "Verif.AppRun.C128_job",
    "Verif.AppRun.C128_killed",
    "Verif.AppRun.C128_no_mesh",
    "Verif.AppRun.C128_single_process",
    "Verif.AppRun.C128_profile"
   ],
   "note": ""
  },
  {
   "property": "C129",
   "status": "proved",
   "theorems": [
    "Verif.Bfloat16.C129_same_routing",
    "Verif.Bfloat16.C129_error",
    "Verif.Bfloat16.C129_items"
   ],
   "note": ""
  },
  {
   "property": "C130",
   "status": "proved",
   "theorems": [
    "Verif.Moe.C130_capacity",
    "Verif.Moe.C130_places",
    "Verif.Moe.C130_items",
    "Verif.Moe.C130_block"
   ],
   "note": ""
  },
  {
   "property": "C131",
   "status": "proved",
   "theorems": [
    "Verif.RoutingStability.C131_margin",
    "Verif.RoutingStability.C131_block",
    "Verif.RoutingStability.C131_gradient",
    "Verif.RoutingStability.C131_continuous",
    "Verif.RoutingStability.C131_items",
    "Verif.RoutingStability.C131_tie_counterexample"
   ],
   "note": ""
  },
  {
   "property": "C132",
   "status": "proved",
   "theorems": [
    "Verif.Influence.C132_first_choice",
    "Verif.Influence.C132_number_first",
    "Verif.Influence.C132_influence"
   ],
   "note": ""
  },
  {
   "property": "C133",
   "status": "proved",
   "theorems": [
    "Verif.PaperConfigs.C133_description",
    "Verif.PaperConfigs.C133_every",
    "Verif.PaperConfigs.C133_last",
    "Verif.PaperConfigs.C133_last_zero_counterexample",
    "Verif.PaperConfigs.C133_model",
    "Verif.PaperConfigs.C133_errors",
    "Verif.PaperConfigs.C133_accepts",
    "Verif.PaperConfigs.C133_attack",
    "Verif.PaperConfigs.C133_attack_epochs",
    "Verif.PaperConfigs.C133_epochs",
    "Verif.PaperConfigs.C133_optimizer",
    "Verif.PaperConfigs.C133_mixup",
    "Verif.PaperConfigs.C133_mixup_section",
    "Verif.PaperConfigs.C133_pretrain_mixup_counterexample"
   ],
   "note": ""
  },
  {
   "property": "C134",
   "status": "proved",
   "theorems": [
    "Verif.SoftModel.C134_layer",
    "Verif.SoftModel.C134_model",
    "Verif.SoftModel.C134_layer_runs",
    "Verif.SoftModel.C134_runs",
    "Verif.SoftModel.C134_groups_counterexample"
   ],
   "note": ""
  },
  {
   "property": "C135",
   "status": "proved",
   "theorems": [
    "Verif.SoftConfigs.C135_names",
    "Verif.SoftConfigs.C135_errors",
    "Verif.SoftConfigs.C135_tiny_counterexample",
    "Verif.SoftConfigs.C135_models",
    "Verif.SoftConfigs.C135_dense",
    "Verif.SoftConfigs.C135_groups",
    "Verif.SoftConfigs.C135_soft",
    "Verif.SoftConfigs.C135_items_accepts",
    "Verif.SoftConfigs.C135_items",
    "Verif.SoftConfigs.C135_items_independent",
    "Verif.SoftConfigs.C135_last_zero_counterexample"
   ],
   "note": ""
  },
  {
   "property": "C136",
   "status": "proved",
   "theorems": [
    "Verif.RegexSub.C136_search",
    "Verif.RegexSub.C136_leftmost",
    "Verif.RegexSub.C136_anchored",
    "Verif.RegexSub.C136_not_found",
    "Verif.RegexSub.C136_once",
    "Verif.RegexSub.C136_unanchored_counterexample"
   ],
   "note": ""
  },
  {
   "property": "C137",
   "status": "proved",
   "theorems": [
    "Verif.FineTune.C137_restored",
    "Verif.FineTune.C137_succeeds",
    "Verif.FineTune.C137_same_grid",
    "Verif.FineTune.C137_checkpoint"
   ],
   "note": ""
  },
  {
   "property": "C138",
   "status": "proved",
   "theorems": [
    "Verif.Adam.C138_adam",
    "Verif.Adam.C138_bounded",
    "Verif.Adam.C138_defaults",
    "Verif.Adam.C138_moved",
    "Verif.Adam.C138_weights",
    "Verif.Adam.C138_first",
    "Verif.Adam.C138_gradient_scale"
   ],
   "note": ""
  },
  {
   "property": "C139",
   "status": "proved",
   "theorems": [
    "Verif.DecayRules.C139_weight_decay",
    "Verif.DecayRules.C139_kernels",
    "Verif.DecayRules.C139_jft",
    "Verif.DecayRules.C139_soft",
    "Verif.DecayRules.C139_limits_counterexample"
   ],
   "note": ""
  },
  {
   "property": "C140",
   "status": "proved",
   "theorems": [
    "Verif.ProcessText.C140_parse",
    "Verif.ProcessText.C140_builds",
    "Verif.ProcessText.C140_examples",
    "Verif.ProcessText.C140_missing_label",
    "Verif.ProcessText.C140_fewshot",
    "Verif.ProcessText.C140_unlabelled_counterexample"
   ],
   "note": ""
  },
  {
   "property": "C141",
   "status": "proved",
   "theorems": [
    "Verif.OptimizerRecipes.C141_rates",
    "Verif.OptimizerRecipes.C141_steps",
    "Verif.OptimizerRecipes.C141_built",
    "Verif.OptimizerRecipes.C141_adam",
    "Verif.OptimizerRecipes.C141_fine_tuning",
    "Verif.OptimizerRecipes.C141_first",
    "Verif.OptimizerRecipes.C141_sum"
   ],
   "note": ""
  },
  {
   "property": "C142",
   "status": "proved",
   "theorems": [
    "Verif.Layout.C142_pattern",
    "Verif.Layout.C142_layout",
    "Verif.Layout.C142_moments",
    "Verif.Layout.C142_parts",
    "Verif.Layout.C142_one_expert",
    "Verif.Layout.C142_whole",
    "Verif.Layout.C142_names"
   ],
   "note": ""
  },
  {
   "property": "C143",
   "status": "proved",
   "theorems": [
    "Verif.Placement.C143_attack_mesh",
    "Verif.Placement.C143_experts",
    "Verif.Placement.C143_one_expert",
    "Verif.Placement.C143_few_devices",
    "Verif.Placement.C143_whole"
   ],
   "note": ""
  },
  {
   "property": "C144",
   "status": "proved",
   "theorems": [
    "Verif.Splits.C144_complement",
    "Verif.Splits.C144_positions",
    "Verif.Splits.C144_percent",
    "Verif.Splits.C144_held_out",
    "Verif.Splits.C144_fewshot",
    "Verif.Splits.C144_readable",
    "Verif.Splits.C144_errors",
    "Verif.Splits.C144_malformed"
   ],
   "note": ""
  },
  {
   "property": "C145",
   "status": "proved",
   "theorems": [
    "Verif.LoadNoise.C145_expected_load",
    "Verif.LoadNoise.C145_bounds",
    "Verif.LoadNoise.C145_unselected",
    "Verif.LoadNoise.C145_lower_bound",
    "Verif.LoadNoise.C145_selected_counterexample",
    "Verif.LoadNoise.C145_router"
   ],
   "note": ""
  },
  {
   "property": "C146",
   "status": "proved",
   "theorems": [
    "Verif.LoadNoise.C146_order",
    "Verif.LoadNoise.C146_monotone",
    "Verif.LoadNoise.C146_total",
    "Verif.LoadNoise.C146_uniform",
    "Verif.LoadNoise.C146_balanced",
    "Verif.LoadNoise.C146_every_choice",
    "Verif.LoadNoise.C146_open",
    "Verif.LoadNoise.C146_small_noise",
    "Verif.LoadNoise.C146_large_noise",
    "Verif.LoadNoise.C146_router"
   ],
   "note": ""
  },
  {
   "property": "C147",
   "status": "proved",
   "theorems": [
    "Verif.Aux.C147_gshard",
    "Verif.Aux.C147_importance",
    "Verif.Aux.C147_gshard_push",
    "Verif.Aux.C147_importance_push",
    "Verif.Aux.C147_no_shift",
    "Verif.Aux.C147_router",
    "Verif.LoadNoise.C147_load",
    "Verif.LoadNoise.C147_load_push",
    "Verif.LoadNoise.C147_load_no_shift"
   ],
   "note": ""
  },
  {
   "property": "C148",
   "status": "proved",
   "theorems": [
    "Verif.LoadNoise.C148_overflow",
    "Verif.LoadNoise.C148_nothing_dropped",
    "Verif.LoadNoise.C148_balanced",
    "Verif.LoadNoise.C148_capacity",
    "Verif.LoadNoise.C148_certain",
    "Verif.LoadNoise.C148_router"
   ],
   "note": ""
  },
  {
   "property": "C149",
   "status": "proved",
   "theorems": [
    "Verif.MoeBlock.C149_idle",
    "Verif.MoeBlock.C149_no_gradient",
    "Verif.MoeBlock.C149_gradient",
    "Verif.Adam.C149_adam",
    "Verif.Adam.C149_sgd",
    "Verif.Adam.C149_adam_moves"
   ],
   "note": ""
  },
  {
   "property": "C150",
   "status": "proved",
   "theorems": [
    "Verif.LossFn.C150_softmax",
    "Verif.LossFn.C150_sigmoid",
    "Verif.LossFn.C150_convex",
    "Verif.LossFn.C150_minimum",
    "Verif.LossFn.C150_lipschitz",
    "Verif.Contrastive.C150_contrastive"
   ],
   "note": ""
  },
  {
   "property": "C151",
   "status": "proved",
   "theorems": [
    "Verif.EnsembleStart.C151_kernel",
    "Verif.EnsembleStart.C151_gates",
    "Verif.EnsembleStart.C151_noise",
    "Verif.EnsembleStart.C151_noise_counterexample",
    "Verif.EnsembleStart.C151_eee_capacity",
    "Verif.EnsembleStart.C151_eee_layer"
   ],
   "note": ""
  },
  {
   "property": "C152",
   "status": "proved",
   "theorems": [
    "Verif.RouterGradient.C152_token",
    "Verif.RouterGradient.C152_dropped",
    "Verif.RouterGradient.C152_single",
    "Verif.RouterGradient.C152_gate",
    "Verif.RouterGradient.C152_loss"
   ],
   "note": ""
  },
  {
   "property": "C153",
   "status": "proved",
   "theorems": [
    "Verif.RunCapacity.C153_room",
    "Verif.RunCapacity.C153_accepts",
    "Verif.RunCapacity.C153_batches",
    "Verif.RunCapacity.C153_evaluation",
    "Verif.RunCapacity.C153_evaluation_counterexample"
   ],
   "note": ""
  },
  {
   "property": "C154",
   "status": "proved",
   "theorems": [
    "Verif.TowerMetrics.C154_contrastive",
    "Verif.TowerMetrics.C154_classifier",
    "Verif.TowerMetrics.C154_reported",
    "Verif.TowerMetrics.C154_block",
    "Verif.TowerMetrics.C154_contrastive_counterexample",
    "Verif.TowerMetrics.C154_soft_configurations",
    "Verif.TowerMetrics.C154_step",
    "Verif.TowerMetrics.C154_step_same"
   ],
   "note": ""
  },
  {
   "property": "C155",
   "status": "proved",
   "theorems": [
    "Verif.Contrastive.C155_loss",
    "Verif.Contrastive.C155_bias",
    "Verif.Contrastive.C155_best_bias",
    "Verif.Contrastive.C155_scale",
    "Verif.Contrastive.C155_embedding",
    "Verif.Contrastive.C155_length",
    "Verif.Contrastive.C155_start"
   ],
   "note": ""
  },
  {
   "property": "C156",
   "status": "proved",
   "theorems": [
    "Verif.SoftRouter.C156_smooth",
    "Verif.SoftRouter.C156_expert",
    "Verif.SoftRouter.C156_no_idle_expert",
    "Verif.SoftRouter.C156_router"
   ],
   "note": ""
  },
  {
   "property": "C157",
   "status": "proved",
   "theorems": [
    "Verif.InterruptedData.C157_usage",
    "Verif.InterruptedData.C157_short_processes",
    "Verif.InterruptedData.C157_never_seen_counterexample"
   ],
   "note": ""
  },
  {
   "property": "C158",
   "status": "proved",
   "theorems": [
    "Verif.ExpertChoice.C158_token",
    "Verif.ExpertChoice.C158_ignored",
    "Verif.ExpertChoice.C158_no_idle_expert"
   ],
   "note": ""
  },
  {
   "property": "C159",
   "status": "proved",
   "theorems": [
    "Verif.AttackRestore.C159_restore",
    "Verif.AttackRestore.C159_refused",
    "Verif.AttackRestore.C159_layout",
    "Verif.AttackRestore.C159_other_shapes_counterexample"
   ],
   "note": ""
  },
  {
   "property": "C160",
   "status": "proved",
   "theorems": [
    "Verif.AttackConfig.C160_model",
    "Verif.AttackConfig.C160_room",
    "Verif.AttackConfig.C160_agree",
    "Verif.AttackConfig.C160_accepts",
    "Verif.AttackConfig.C160_batch",
    "Verif.AttackConfig.C160_groups_counterexample",
    "Verif.AttackConfig.C160_data"
   ],
   "note": ""
  },
  {
   "property": "C161",
   "status": "proved",
   "theorems": [
    "Verif.OtRouting.C161_balanced",
    "Verif.OtRouting.C161_projection",
    "Verif.OtRouting.C161_unique",
    "Verif.OtRouting.C161_settles",
    "Verif.OtRouting.C161_equal_tokens_counterexample"
   ],
   "note": ""
  },
  {
   "property": "C162",
   "status": "proved",
   "theorems": [
    "Verif.MicrostepGroups.C162_join",
    "Verif.MicrostepGroups.C162_reordered",
    "Verif.MicrostepGroups.C162_gradient",
    "Verif.MicrostepGroups.C162_single",
    "Verif.MicrostepGroups.C162_same",
    "Verif.MicrostepGroups.C162_groups",
    "Verif.MicrostepGroups.C162_groups_counterexample",
    "Verif.TotalLoss.C162_total"
   ],
   "note": ""
  },
  {
   "property": "C163",
   "status": "proved",
   "theorems": [
    "Verif.ModelGradient.C163_differentiable",
    "Verif.ModelGradient.C163_descent",
    "Verif.ModelGradient.C163_microsteps",
    "Verif.ModelGradient.C163_tie_counterexample"
   ],
   "note": ""
  },
  {
   "property": "C164",
   "status": "proved",
   "theorems": [
    "Verif.IdleDrift.C164_adam",
    "Verif.IdleDrift.C164_adam_usual",
    "Verif.IdleDrift.C164_sgd",
    "Verif.IdleDrift.C164_adafactor",
    "Verif.IdleDrift.C164_adafactor_factored"
   ],
   "note": ""
  },
  {
   "property": "C165",
   "status": "proved",
   "theorems": [
    "Verif.ExchangeLayout.C165_layout",
    "Verif.ExchangeLayout.C165_volume",
    "Verif.ExchangeLayout.C165_configs",
    "Verif.ExchangeLayout.C165_microsteps",
    "Verif.ExchangeLayout.C165_asked"
   ],
   "note": ""
  },
  {
   "property": "C166",
   "status": "proved",
   "theorems": [
    "Verif.SoftLoss.C166_differentiable",
    "Verif.SoftLoss.C166_images",
    "Verif.SoftLoss.C166_microsteps"
   ],
   "note": ""
  },
  {
   "property": "C167",
   "status": "proved",
   "theorems": [
    "Verif.Downhill.C167_sgd_step",
    "Verif.Downhill.C167_adam_step",
    "Verif.Downhill.C167_sgd",
    "Verif.Downhill.C167_adam",
    "Verif.Downhill.C167_experts",
    "Verif.Downhill.C167_momentum_counterexample"
   ],
   "note": ""
  },
  {
   "property": "C168",
   "status": "proved",
   "theorems": [
    "Verif.FewshotStep.C168_keys",
    "Verif.FewshotStep.C168_fresh",
    "Verif.FewshotStep.C168_batches",
    "Verif.FewshotStep.C168_soft",
    "Verif.FewshotStep.C168_groups_counterexample"
   ],
   "note": ""
  },
  {
   "property": "C169",
   "status": "proved",
   "theorems": [
    "Verif.StepSummaries.C169_training",
    "Verif.StepSummaries.C169_reported",
    "Verif.StepSummaries.C169_names"
   ],
   "note": ""
  },
  {
   "property": "C170",
   "status": "proved",
   "theorems": [
    "Verif.EnsembleLoss.C170_loss",
    "Verif.EnsembleLoss.C170_gradient",
    "Verif.EnsembleLoss.C170_own",
    "Verif.EnsembleLoss.C170_evaluation",
    "Verif.EnsembleLoss.C170_no_moe"
   ],
   "note": ""
  },
  {
   "property": "C171",
   "status": "proved",
   "theorems": [
    "Verif.AttackFiles.C171_complete",
    "Verif.AttackFiles.C171_crash",
    "Verif.AttackFiles.C171_cut_counterexample"
   ],
   "note": ""
  },
  {
   "property": "C172",
   "status": "proved",
   "theorems": [
    "Verif.DataPipeline.C172_filter",
    "Verif.DataPipeline.C172_aligned"
   ],
   "note": ""
  }
 ]
}
