import Verif.Props.Adafactor
import Verif.Props.Adam
import Verif.Props.AppRun
import Verif.Props.Attack
import Verif.Props.AttackConfig
import Verif.Props.AttackFiles
import Verif.Props.AttackLoss
import Verif.Props.AttackModel
import Verif.Props.AttackRestore
import Verif.Props.AttackRouting
import Verif.Props.AttackRun
import Verif.Props.Attention
import Verif.Props.BalanceGradients
import Verif.Props.BatchOrder
import Verif.Props.BatchSpec
import Verif.Props.Bfloat16
import Verif.Props.CapacityMonotone
import Verif.Props.CentralCrop
import Verif.Props.ChoiceGradient
import Verif.Props.CkptFiles
import Verif.Props.ConfigOverride
import Verif.Props.Contrastive
import Verif.Props.ContrastiveEval
import Verif.Props.ContrastiveStep
import Verif.Props.DataPipeline
import Verif.Props.DataShare
import Verif.Props.DecayRules
import Verif.Props.DenseTransport
import Verif.Props.DirSync
import Verif.Props.DirectoryBuilder
import Verif.Props.Donation
import Verif.Props.Downhill
import Verif.Props.Encoder
import Verif.Props.Ensemble
import Verif.Props.EnsembleBlock
import Verif.Props.EnsembleEval
import Verif.Props.EnsembleLoss
import Verif.Props.EnsembleModel
import Verif.Props.EnsembleStart
import Verif.Props.EvalAction
import Verif.Props.EvalRun
import Verif.Props.Evaluator
import Verif.Props.ExampleStorage
import Verif.Props.ExchangeLayout
import Verif.Props.ExpertChoiceBlock
import Verif.Props.Exploration
import Verif.Props.Fewshot
import Verif.Props.FewshotAction
import Verif.Props.FewshotBest
import Verif.Props.FewshotRidge
import Verif.Props.FewshotStep
import Verif.Props.FilteredEval
import Verif.Props.FineTune
import Verif.Props.Hooks
import Verif.Props.IdleDrift
import Verif.Props.IdleExperts
import Verif.Props.ImageOps
import Verif.Props.Influence
import Verif.Props.InitRules
import Verif.Props.InitVmoe
import Verif.Props.InterruptedData
import Verif.Props.Layout
import Verif.Props.LazyChunks
import Verif.Props.LoadGradient
import Verif.Props.LoadNoise
import Verif.Props.LossFn
import Verif.Props.LossGradients
import Verif.Props.Mapping
import Verif.Props.MappingDonation
import Verif.Props.MeshLog
import Verif.Props.MeshOther
import Verif.Props.MicrostepGroups
import Verif.Props.Mixup
import Verif.Props.ModelGradient
import Verif.Props.ModuleConfig
import Verif.Props.MoeAxes
import Verif.Props.MoeBlock
import Verif.Props.MoeCapacity
import Verif.Props.MoeDense
import Verif.Props.MoeExpertChoice
import Verif.Props.MoeRouting
import Verif.Props.Multihost
import Verif.Props.NaturalSort
import Verif.Props.NoNan
import Verif.Props.Optimizer
import Verif.Props.OptimizerFull
import Verif.Props.OptimizerRecipes
import Verif.Props.OtRouting
import Verif.Props.Overflow
import Verif.Props.PaddedBatch
import Verif.Props.PaperConfigs
import Verif.Props.ParseCall
import Verif.Props.Partitioned
import Verif.Props.Partitioning
import Verif.Props.Placement
import Verif.Props.PpOps
import Verif.Props.Prefetch
import Verif.Props.ProcessText
import Verif.Props.Progress
import Verif.Props.Regex
import Verif.Props.RegexSub
import Verif.Props.Relabel
import Verif.Props.RemovePool
import Verif.Props.RestorePool
import Verif.Props.RestoreStructure
import Verif.Props.RouterGradient
import Verif.Props.RoutingStability
import Verif.Props.RulesParse
import Verif.Props.RunCapacity
import Verif.Props.SafeZip
import Verif.Props.Schedule
import Verif.Props.Serialization
import Verif.Props.SinkhornLimit
import Verif.Props.SoftConfigs
import Verif.Props.SoftGradient
import Verif.Props.SoftLoss
import Verif.Props.SoftMetrics
import Verif.Props.SoftModel
import Verif.Props.SoftMoe
import Verif.Props.SoftRouter
import Verif.Props.Splits
import Verif.Props.Spmd
import Verif.Props.StartMethods
import Verif.Props.StateFile
import Verif.Props.StepSummaries
import Verif.Props.Summarizer
import Verif.Props.SummarizerConfig
import Verif.Props.SummarizerOps
import Verif.Props.TotalLoss
import Verif.Props.TowerGradient
import Verif.Props.TowerMetrics
import Verif.Props.TrainLoop
import Verif.Props.TrainStart
import Verif.Props.TrainState
import Verif.Props.TrainStep
import Verif.Props.TrainStream
import Verif.Props.Trainer
import Verif.Props.Upcycling
import Verif.Props.Vit
import Verif.Props.VmoeModel

/-! Axioms of every property theorem (generated by tools/gen.py). -/

#print axioms Verif.Moe.C01_einsum_slots_exclusive
#print axioms Verif.Moe.C01_indices_slots_exclusive
#print axioms Verif.Moe.C02_items_request_top_experts
#print axioms Verif.Moe.C02_dispatch_only_requested
#print axioms Verif.Moe.C03_einsum_slot_is_count
#print axioms Verif.Moe.C03_indices_slot_is_count
#print axioms Verif.Moe.C03_dropped_iff
#print axioms Verif.Moe.C03_no_holes
#print axioms Verif.Moe.C04_batch_priority_monotone
#print axioms Verif.Moe.C04_choice_rank_first
#print axioms Verif.Moe.C04_original_order
#print axioms Verif.Moe.C05_dispatch_equal
#print axioms Verif.Moe.C05_combine_equal
#print axioms Verif.Moe.C05_buffer_contents
#print axioms Verif.Moe.C06_moe_layer_einsum
#print axioms Verif.Moe.C06_moe_layer_indices
#print axioms Verif.Moe.C06_groups_independent
#print axioms Verif.Moe.C07_dispatch_rows
#print axioms Verif.Moe.C07_receive_dispatch
#print axioms Verif.Moe.C07_dispatch_receive
#print axioms Verif.Moe.C07_process_in_between
#print axioms Verif.Moe.C08_slot_is_preference_rank
#print axioms Verif.Moe.C08_every_expert_full
#print axioms Verif.Moe.C08_selected_are_best
#print axioms Verif.Moe.C08_moe_layer
#print axioms Verif.Moe.C09_min_max
#print axioms Verif.Moe.C09_total
#print axioms Verif.Moe.C09_ratios
#print axioms Verif.Moe.C09_selected_gates
#print axioms Verif.Moe.C10_capacity
#print axioms Verif.Moe.C10_success_only_if
#print axioms Verif.Moe.C10_unknown_mode
#print axioms Verif.Moe.C10_ceil_space
#print axioms Verif.SoftRouter.C100_layer
#print axioms Verif.SoftRouter.C100_batch
#print axioms Verif.SoftRouter.C100_permutation
#print axioms Verif.SoftRouter.C100_given_slots
#print axioms Verif.SoftRouter.C100_slots
#print axioms Verif.SoftRouter.C100_runs
#print axioms Verif.SoftRouter.C100_other_size_counterexample
#print axioms Verif.ConfigOverride.C101_override
#print axioms Verif.ConfigOverride.C101_no_override
#print axioms Verif.ConfigOverride.C101_accepted
#print axioms Verif.ConfigOverride.C101_fewshot
#print axioms Verif.ConfigOverride.C101_none_counterexample
#print axioms Verif.Attention.C102_attention
#print axioms Verif.Attention.C102_between
#print axioms Verif.Attention.C102_map_head_order
#print axioms Verif.Attention.C102_map_head_repeat
#print axioms Verif.Attention.C102_map_head_equal
#print axioms Verif.Attention.C102_pooling_order
#print axioms Verif.Attention.C102_first_counterexample
#print axioms Verif.Attention.C102_encoder_order
#print axioms Verif.Attention.C102_soft_order
#print axioms Verif.Attention.C102_text_order
#print axioms Verif.Attention.C102_position_counterexample
#print axioms Verif.AttackRun.C103_examples_and_reports
#print axioms Verif.AttackRun.C103_examples_written
#print axioms Verif.AttackRun.C103_same_report
#print axioms Verif.AttackRun.C103_state_file
#print axioms Verif.AttackRun.C103_paths_distinct
#print axioms Verif.AttackRun.C103_restore_from
#print axioms Verif.AttackRun.C103_empty_config_counterexample
#print axioms Verif.AttackRun.C103_zero_period
#print axioms Verif.Adafactor.C104_rate
#print axioms Verif.Adafactor.C104_offset_counterexample
#print axioms Verif.Adafactor.C104_average
#print axioms Verif.Adafactor.C104_sign
#print axioms Verif.Adafactor.C104_bounded
#print axioms Verif.Adafactor.C104_first
#print axioms Verif.Adafactor.C104_momentum
#print axioms Verif.Adafactor.C104_factored_means
#print axioms Verif.Adafactor.C104_factored_update
#print axioms Verif.Adafactor.C104_rank_one
#print axioms Verif.Adafactor.C104_axes
#print axioms Verif.Adafactor.C104_expert_axis
#print axioms Verif.Adafactor.C104_expert_axis_counterexample
#print axioms Verif.AttackLoss.C105_training_loss
#print axioms Verif.AttackLoss.C105_auxiliary
#print axioms Verif.AttackLoss.C105_loss_needed
#print axioms Verif.AttackLoss.C105_independent
#print axioms Verif.AttackLoss.C105_steepest
#print axioms Verif.AttackLoss.C105_increases
#print axioms Verif.AttackLoss.C105_linear_optimal
#print axioms Verif.AttackLoss.C105_auxiliary_counterexample
#print axioms Verif.AttackLoss.C105_deterministic
#print axioms Verif.BatchSpec.C106_agree
#print axioms Verif.BatchSpec.C106_batch_size
#print axioms Verif.BatchSpec.C106_errors
#print axioms Verif.BatchSpec.C106_others
#print axioms Verif.BatchSpec.C106_text_counterexample
#print axioms Verif.Ser.C107_round_trip
#print axioms Verif.Ser.C107_without_target
#print axioms Verif.Ser.C107_injective
#print axioms Verif.Ser.C107_serializes
#print axioms Verif.Ser.C107_file
#print axioms Verif.Ser.C107_multiple
#print axioms Verif.Ser.C107_refused
#print axioms Verif.Ser.C107_extra_keys_counterexample
#print axioms Verif.Ser.C107_shape_counterexample
#print axioms Verif.Ser.C107_reserved_key_counterexample
#print axioms Verif.OtRouting.C108_columns
#print axioms Verif.OtRouting.C108_nearest
#print axioms Verif.OtRouting.C108_layer
#print axioms Verif.OtRouting.C108_all_experts
#print axioms Verif.OtRouting.C108_errors
#print axioms Verif.OtRouting.C108_rows_counterexample
#print axioms Verif.OtRouting.C108_all_experts_counterexample
#print axioms Verif.MoeAxes.C109_arrays
#print axioms Verif.MoeAxes.C109_names
#print axioms Verif.MoeAxes.C109_aligned
#print axioms Verif.MoeAxes.C109_read
#print axioms Verif.MoeAxes.C109_total
#print axioms Verif.MoeAxes.C109_negative_counterexample
#print axioms Verif.Moe.C11_both_or_none
#print axioms Verif.Moe.C11_unknown_name
#print axioms Verif.Moe.C11_given_capacity
#print axioms Verif.Moe.C11_zero_capacity
#print axioms Verif.Moe.C11_capacity_factor
#print axioms Verif.Moe.C11_expert_choice_small_group_counterexample
#print axioms Verif.MeshLog.C110_table
#print axioms Verif.MeshLog.C110_total
#print axioms Verif.MeshLog.C110_errors
#print axioms Verif.NoNan.C111_value
#print axioms Verif.NoNan.C111_gradient
#print axioms Verif.NoNan.C111_finite
#print axioms Verif.NoNan.C111_derivative
#print axioms Verif.NoNan.C111_inner_where
#print axioms Verif.NoNan.C111_zero_counterexample
#print axioms Verif.RemovePool.C112_safe
#print axioms Verif.RemovePool.C112_removes
#print axioms Verif.RemovePool.C112_raises
#print axioms Verif.RemovePool.C112_returns
#print axioms Verif.RemovePool.C112_error_counterexample
#print axioms Verif.DirSync.C113_writes
#print axioms Verif.DirSync.C113_progress
#print axioms Verif.DirSync.C113_failure
#print axioms Verif.DirSync.C113_without_sync
#print axioms Verif.Summarizer.C114_none
#print axioms Verif.Summarizer.C114_list
#print axioms Verif.Summarizer.C114_dict
#print axioms Verif.Summarizer.C114_again
#print axioms Verif.Summarizer.C114_call
#print axioms Verif.Summarizer.C114_transforms
#print axioms Verif.Summarizer.C114_flat_counterexample
#print axioms Verif.Summarizer.C114_string_counterexample
#print axioms Verif.AttackModel.C115_module
#print axioms Verif.AttackModel.C115_same_as_training
#print axioms Verif.AttackModel.C115_conflict_counterexample
#print axioms Verif.LazyChunks.C116_copies
#print axioms Verif.LazyChunks.C116_contents
#print axioms Verif.LazyChunks.C116_without_copies
#print axioms Verif.Donation.C117_refines
#print axioms Verif.Donation.C117_deleted
#print axioms Verif.Donation.C117_shared_buffer
#print axioms Verif.Mapping.C118_linear
#print axioms Verif.Mapping.C118_buffers
#print axioms Verif.Mapping.C118_target_given_away
#print axioms Verif.Vmoe.C119_layer
#print axioms Verif.Vmoe.C119_model
#print axioms Verif.Vmoe.C119_batches
#print axioms Verif.Vmoe.C119_position_counterexample
#print axioms Verif.Ensemble.C12_gates_block_diagonal
#print axioms Verif.Ensemble.C12_no_shared_experts
#print axioms Verif.Ensemble.C12_non_interference
#print axioms Verif.Ensemble.C12_rejects
#print axioms Verif.Ensemble.C12_softmax_positive
#print axioms Verif.Ensemble.C12_zero_gate_leaks_counterexample
#print axioms Verif.Vmoe.C120_layer
#print axioms Verif.Vmoe.C120_model
#print axioms Verif.Vmoe.C120_padding_counterexample
#print axioms Verif.Spmd.C121_no_deadlock
#print axioms Verif.Spmd.C121_ends
#print axioms Verif.Spmd.C121_agree
#print axioms Verif.Spmd.C121_completed
#print axioms Verif.Spmd.C121_no_batches_counterexample
#print axioms Verif.Spmd.C121_clocks_counterexample
#print axioms Verif.EvalRun.C122_metrics
#print axioms Verif.EvalRun.C122_distribution
#print axioms Verif.EvalRun.C122_model
#print axioms Verif.EvalRun.C122_order_counterexample
#print axioms Verif.Progress.C123_report
#print axioms Verif.Progress.C123_report_none
#print axioms Verif.Progress.C123_errors
#print axioms Verif.Progress.C123_train
#print axioms Verif.Progress.C123_names_counterexample
#print axioms Verif.Vmoe.C124_layer
#print axioms Verif.Vmoe.C124_encoder
#print axioms Verif.Vmoe.C124_model
#print axioms Verif.Vmoe.C124_capacity
#print axioms Verif.Vmoe.C124_batches
#print axioms Verif.Vmoe.C124_no_moe
#print axioms Verif.Vmoe.C124_position_ignored
#print axioms Verif.Upcycling.C125_layer
#print axioms Verif.Upcycling.C125_fewer_experts
#print axioms Verif.Upcycling.C125_model
#print axioms Verif.Upcycling.C125_initialized
#print axioms Verif.Upcycling.C125_upcycled
#print axioms Verif.Relabel.C126_items_choose
#print axioms Verif.Relabel.C126_experts_choose
#print axioms Verif.Relabel.C126_model
#print axioms Verif.Relabel.C126_ties_counterexample
#print axioms Verif.BatchOrder.C127_layer
#print axioms Verif.BatchOrder.C127_model
#print axioms Verif.BatchOrder.C127_no_priority_counterexample
#print axioms Verif.AppRun.C128_same_mesh
#print axioms Verif.AppRun.C128_same_mesh_other
#print axioms Verif.AppRun.C128_different_hosts_counterexample
#print axioms Verif.AppRun.C128_files
#print axioms Verif.AppRun.C128_job
#print axioms Verif.AppRun.C128_killed
#print axioms Verif.AppRun.C128_no_mesh
#print axioms Verif.AppRun.C128_single_process
#print axioms Verif.AppRun.C128_profile
#print axioms Verif.Bfloat16.C129_same_routing
#print axioms Verif.Bfloat16.C129_error
#print axioms Verif.Bfloat16.C129_items
#print axioms Verif.Ensemble.C13_regroup_position
#print axioms Verif.Ensemble.C13_no_collision
#print axioms Verif.Ensemble.C13_round_trip
#print axioms Verif.Ensemble.C13_repeat_row
#print axioms Verif.Ensemble.C13_bad_group_size
#print axioms Verif.Moe.C130_capacity
#print axioms Verif.Moe.C130_places
#print axioms Verif.Moe.C130_items
#print axioms Verif.Moe.C130_block
#print axioms Verif.RoutingStability.C131_margin
#print axioms Verif.RoutingStability.C131_block
#print axioms Verif.RoutingStability.C131_gradient
#print axioms Verif.RoutingStability.C131_continuous
#print axioms Verif.RoutingStability.C131_items
#print axioms Verif.RoutingStability.C131_tie_counterexample
#print axioms Verif.Influence.C132_first_choice
#print axioms Verif.Influence.C132_number_first
#print axioms Verif.Influence.C132_influence
#print axioms Verif.PaperConfigs.C133_description
#print axioms Verif.PaperConfigs.C133_every
#print axioms Verif.PaperConfigs.C133_last
#print axioms Verif.PaperConfigs.C133_last_zero_counterexample
#print axioms Verif.PaperConfigs.C133_model
#print axioms Verif.PaperConfigs.C133_errors
#print axioms Verif.PaperConfigs.C133_accepts
#print axioms Verif.PaperConfigs.C133_attack
#print axioms Verif.PaperConfigs.C133_attack_epochs
#print axioms Verif.PaperConfigs.C133_epochs
#print axioms Verif.PaperConfigs.C133_optimizer
#print axioms Verif.PaperConfigs.C133_mixup
#print axioms Verif.PaperConfigs.C133_mixup_section
#print axioms Verif.PaperConfigs.C133_pretrain_mixup_counterexample
#print axioms Verif.SoftModel.C134_layer
#print axioms Verif.SoftModel.C134_model
#print axioms Verif.SoftModel.C134_layer_runs
#print axioms Verif.SoftModel.C134_runs
#print axioms Verif.SoftModel.C134_groups_counterexample
#print axioms Verif.SoftConfigs.C135_names
#print axioms Verif.SoftConfigs.C135_errors
#print axioms Verif.SoftConfigs.C135_tiny_counterexample
#print axioms Verif.SoftConfigs.C135_models
#print axioms Verif.SoftConfigs.C135_dense
#print axioms Verif.SoftConfigs.C135_groups
#print axioms Verif.SoftConfigs.C135_soft
#print axioms Verif.SoftConfigs.C135_items_accepts
#print axioms Verif.SoftConfigs.C135_items
#print axioms Verif.SoftConfigs.C135_items_independent
#print axioms Verif.SoftConfigs.C135_last_zero_counterexample
#print axioms Verif.RegexSub.C136_search
#print axioms Verif.RegexSub.C136_leftmost
#print axioms Verif.RegexSub.C136_anchored
#print axioms Verif.RegexSub.C136_not_found
#print axioms Verif.RegexSub.C136_once
#print axioms Verif.RegexSub.C136_unanchored_counterexample
#print axioms Verif.FineTune.C137_restored
#print axioms Verif.FineTune.C137_succeeds
#print axioms Verif.FineTune.C137_same_grid
#print axioms Verif.FineTune.C137_checkpoint
#print axioms Verif.Adam.C138_adam
#print axioms Verif.Adam.C138_bounded
#print axioms Verif.Adam.C138_defaults
#print axioms Verif.Adam.C138_moved
#print axioms Verif.Adam.C138_weights
#print axioms Verif.Adam.C138_first
#print axioms Verif.Adam.C138_gradient_scale
#print axioms Verif.DecayRules.C139_weight_decay
#print axioms Verif.DecayRules.C139_kernels
#print axioms Verif.DecayRules.C139_jft
#print axioms Verif.DecayRules.C139_soft
#print axioms Verif.DecayRules.C139_limits_counterexample
#print axioms Verif.Moe.C14_number_kept
#print axioms Verif.Moe.C14_enough_capacity
#print axioms Verif.Moe.C14_full_capacity
#print axioms Verif.ProcessText.C140_parse
#print axioms Verif.ProcessText.C140_builds
#print axioms Verif.ProcessText.C140_examples
#print axioms Verif.ProcessText.C140_missing_label
#print axioms Verif.ProcessText.C140_fewshot
#print axioms Verif.ProcessText.C140_unlabelled_counterexample
#print axioms Verif.OptimizerRecipes.C141_rates
#print axioms Verif.OptimizerRecipes.C141_steps
#print axioms Verif.OptimizerRecipes.C141_built
#print axioms Verif.OptimizerRecipes.C141_adam
#print axioms Verif.OptimizerRecipes.C141_fine_tuning
#print axioms Verif.OptimizerRecipes.C141_first
#print axioms Verif.OptimizerRecipes.C141_sum
#print axioms Verif.Layout.C142_pattern
#print axioms Verif.Layout.C142_layout
#print axioms Verif.Layout.C142_moments
#print axioms Verif.Layout.C142_parts
#print axioms Verif.Layout.C142_one_expert
#print axioms Verif.Layout.C142_whole
#print axioms Verif.Layout.C142_names
#print axioms Verif.Placement.C143_attack_mesh
#print axioms Verif.Placement.C143_experts
#print axioms Verif.Placement.C143_one_expert
#print axioms Verif.Placement.C143_few_devices
#print axioms Verif.Placement.C143_whole
#print axioms Verif.Splits.C144_complement
#print axioms Verif.Splits.C144_positions
#print axioms Verif.Splits.C144_percent
#print axioms Verif.Splits.C144_held_out
#print axioms Verif.Splits.C144_fewshot
#print axioms Verif.Splits.C144_readable
#print axioms Verif.Splits.C144_errors
#print axioms Verif.Splits.C144_malformed
#print axioms Verif.LoadNoise.C145_expected_load
#print axioms Verif.LoadNoise.C145_bounds
#print axioms Verif.LoadNoise.C145_unselected
#print axioms Verif.LoadNoise.C145_lower_bound
#print axioms Verif.LoadNoise.C145_selected_counterexample
#print axioms Verif.LoadNoise.C145_router
#print axioms Verif.LoadNoise.C146_order
#print axioms Verif.LoadNoise.C146_monotone
#print axioms Verif.LoadNoise.C146_total
#print axioms Verif.LoadNoise.C146_uniform
#print axioms Verif.LoadNoise.C146_balanced
#print axioms Verif.LoadNoise.C146_every_choice
#print axioms Verif.LoadNoise.C146_open
#print axioms Verif.LoadNoise.C146_small_noise
#print axioms Verif.LoadNoise.C146_large_noise
#print axioms Verif.LoadNoise.C146_router
#print axioms Verif.Aux.C147_gshard
#print axioms Verif.Aux.C147_importance
#print axioms Verif.Aux.C147_gshard_push
#print axioms Verif.Aux.C147_importance_push
#print axioms Verif.Aux.C147_no_shift
#print axioms Verif.Aux.C147_router
#print axioms Verif.LoadNoise.C147_load
#print axioms Verif.LoadNoise.C147_load_push
#print axioms Verif.LoadNoise.C147_load_no_shift
#print axioms Verif.LoadNoise.C148_overflow
#print axioms Verif.LoadNoise.C148_nothing_dropped
#print axioms Verif.LoadNoise.C148_balanced
#print axioms Verif.LoadNoise.C148_capacity
#print axioms Verif.LoadNoise.C148_certain
#print axioms Verif.LoadNoise.C148_router
#print axioms Verif.MoeBlock.C149_idle
#print axioms Verif.MoeBlock.C149_no_gradient
#print axioms Verif.MoeBlock.C149_gradient
#print axioms Verif.Adam.C149_adam
#print axioms Verif.Adam.C149_sgd
#print axioms Verif.Adam.C149_adam_moves
#print axioms Verif.Soft.C15_weights
#print axioms Verif.Soft.C15_slot_inputs_convex
#print axioms Verif.Soft.C15_outputs_convex
#print axioms Verif.Soft.C15_constant
#print axioms Verif.Soft.C15_permutation
#print axioms Verif.Soft.C15_scale_side
#print axioms Verif.Soft.C15_no_token_ignored
#print axioms Verif.LossFn.C150_softmax
#print axioms Verif.LossFn.C150_sigmoid
#print axioms Verif.LossFn.C150_convex
#print axioms Verif.LossFn.C150_minimum
#print axioms Verif.LossFn.C150_lipschitz
#print axioms Verif.Contrastive.C150_contrastive
#print axioms Verif.EnsembleStart.C151_kernel
#print axioms Verif.EnsembleStart.C151_gates
#print axioms Verif.EnsembleStart.C151_noise
#print axioms Verif.EnsembleStart.C151_noise_counterexample
#print axioms Verif.EnsembleStart.C151_eee_capacity
#print axioms Verif.EnsembleStart.C151_eee_layer
#print axioms Verif.RouterGradient.C152_token
#print axioms Verif.RouterGradient.C152_dropped
#print axioms Verif.RouterGradient.C152_single
#print axioms Verif.RouterGradient.C152_gate
#print axioms Verif.RouterGradient.C152_loss
#print axioms Verif.RunCapacity.C153_room
#print axioms Verif.RunCapacity.C153_accepts
#print axioms Verif.RunCapacity.C153_batches
#print axioms Verif.RunCapacity.C153_evaluation
#print axioms Verif.RunCapacity.C153_evaluation_counterexample
#print axioms Verif.TowerMetrics.C154_contrastive
#print axioms Verif.TowerMetrics.C154_classifier
#print axioms Verif.TowerMetrics.C154_reported
#print axioms Verif.TowerMetrics.C154_block
#print axioms Verif.TowerMetrics.C154_contrastive_counterexample
#print axioms Verif.TowerMetrics.C154_soft_configurations
#print axioms Verif.TowerMetrics.C154_step
#print axioms Verif.TowerMetrics.C154_step_same
#print axioms Verif.Contrastive.C155_loss
#print axioms Verif.Contrastive.C155_bias
#print axioms Verif.Contrastive.C155_best_bias
#print axioms Verif.Contrastive.C155_scale
#print axioms Verif.Contrastive.C155_embedding
#print axioms Verif.Contrastive.C155_length
#print axioms Verif.Contrastive.C155_start
#print axioms Verif.SoftRouter.C156_smooth
#print axioms Verif.SoftRouter.C156_expert
#print axioms Verif.SoftRouter.C156_no_idle_expert
#print axioms Verif.SoftRouter.C156_router
#print axioms Verif.InterruptedData.C157_usage
#print axioms Verif.InterruptedData.C157_short_processes
#print axioms Verif.InterruptedData.C157_never_seen_counterexample
#print axioms Verif.ExpertChoice.C158_token
#print axioms Verif.ExpertChoice.C158_ignored
#print axioms Verif.ExpertChoice.C158_no_idle_expert
#print axioms Verif.AttackRestore.C159_restore
#print axioms Verif.AttackRestore.C159_refused
#print axioms Verif.AttackRestore.C159_layout
#print axioms Verif.AttackRestore.C159_other_shapes_counterexample
#print axioms Verif.Aux.C16_closed_form
#print axioms Verif.Aux.C16_importance_loss
#print axioms Verif.Aux.C16_worst_case
#print axioms Verif.Aux.C16_load_loss
#print axioms Verif.Aux.C16_load_loss_value
#print axioms Verif.Aux.C16_gshard_value
#print axioms Verif.Aux.C16_gshard_loss
#print axioms Verif.Aux.C16_weighted_sum
#print axioms Verif.AttackConfig.C160_model
#print axioms Verif.AttackConfig.C160_room
#print axioms Verif.AttackConfig.C160_agree
#print axioms Verif.AttackConfig.C160_accepts
#print axioms Verif.AttackConfig.C160_batch
#print axioms Verif.AttackConfig.C160_groups_counterexample
#print axioms Verif.AttackConfig.C160_data
#print axioms Verif.OtRouting.C161_balanced
#print axioms Verif.OtRouting.C161_projection
#print axioms Verif.OtRouting.C161_unique
#print axioms Verif.OtRouting.C161_settles
#print axioms Verif.OtRouting.C161_equal_tokens_counterexample
#print axioms Verif.MicrostepGroups.C162_join
#print axioms Verif.MicrostepGroups.C162_reordered
#print axioms Verif.MicrostepGroups.C162_gradient
#print axioms Verif.MicrostepGroups.C162_single
#print axioms Verif.MicrostepGroups.C162_same
#print axioms Verif.MicrostepGroups.C162_groups
#print axioms Verif.MicrostepGroups.C162_groups_counterexample
#print axioms Verif.TotalLoss.C162_total
#print axioms Verif.ModelGradient.C163_differentiable
#print axioms Verif.ModelGradient.C163_descent
#print axioms Verif.ModelGradient.C163_microsteps
#print axioms Verif.ModelGradient.C163_tie_counterexample
#print axioms Verif.IdleDrift.C164_adam
#print axioms Verif.IdleDrift.C164_adam_usual
#print axioms Verif.IdleDrift.C164_sgd
#print axioms Verif.IdleDrift.C164_adafactor
#print axioms Verif.IdleDrift.C164_adafactor_factored
#print axioms Verif.ExchangeLayout.C165_layout
#print axioms Verif.ExchangeLayout.C165_volume
#print axioms Verif.ExchangeLayout.C165_configs
#print axioms Verif.ExchangeLayout.C165_microsteps
#print axioms Verif.ExchangeLayout.C165_asked
#print axioms Verif.SoftLoss.C166_differentiable
#print axioms Verif.SoftLoss.C166_images
#print axioms Verif.SoftLoss.C166_microsteps
#print axioms Verif.Downhill.C167_sgd_step
#print axioms Verif.Downhill.C167_adam_step
#print axioms Verif.Downhill.C167_sgd
#print axioms Verif.Downhill.C167_adam
#print axioms Verif.Downhill.C167_experts
#print axioms Verif.Downhill.C167_momentum_counterexample
#print axioms Verif.FewshotStep.C168_keys
#print axioms Verif.FewshotStep.C168_fresh
#print axioms Verif.FewshotStep.C168_batches
#print axioms Verif.FewshotStep.C168_soft
#print axioms Verif.FewshotStep.C168_groups_counterexample
#print axioms Verif.StepSummaries.C169_training
#print axioms Verif.StepSummaries.C169_reported
#print axioms Verif.StepSummaries.C169_names
#print axioms Verif.Ckpt.C17_split_partition
#print axioms Verif.Ckpt.C17_no_maximum
#print axioms Verif.EnsembleLoss.C170_loss
#print axioms Verif.EnsembleLoss.C170_gradient
#print axioms Verif.EnsembleLoss.C170_own
#print axioms Verif.EnsembleLoss.C170_evaluation
#print axioms Verif.EnsembleLoss.C170_no_moe
#print axioms Verif.AttackFiles.C171_complete
#print axioms Verif.AttackFiles.C171_crash
#print axioms Verif.AttackFiles.C171_cut_counterexample
#print axioms Verif.DataPipeline.C172_filter
#print axioms Verif.DataPipeline.C172_aligned
#print axioms Verif.Ckpt.C18_saved_exactly_once
#print axioms Verif.Ckpt.C19_round_trip
#print axioms Verif.Ckpt.C19_empty_array_counterexample
#print axioms Verif.Ckpt.C19_structure
#print axioms Verif.Ckpt.C20_reads_exactly_needed
#print axioms Verif.Ckpt.C20_intersection
#print axioms Verif.Ckpt.C21_least_loaded
#print axioms Verif.Ckpt.C21_balanced
#print axioms Verif.Ckpt.C21_partitioned_unbalanced_counterexample
#print axioms Verif.CkptFiles.C22_crash_atomic
#print axioms Verif.CkptFiles.C22_success
#print axioms Verif.CkptFiles.C22_missing_directory
#print axioms Verif.CkptFiles.C22_concurrent
#print axioms Verif.CkptFiles.C23_exact
#print axioms Verif.CkptFiles.C23_no_suffix
#print axioms Verif.CkptFiles.C23_raises_iff
#print axioms Verif.CkptFiles.C23_latest
#print axioms Verif.CkptFiles.C23_crash
#print axioms Verif.CkptFiles.C23_crash_single_files
#print axioms Verif.CkptFiles.C23_missing_shard_counterexample
#print axioms Verif.CkptFiles.C23_hidden_by_refused_save_counterexample
#print axioms Verif.CkptFiles.C24_round_trip
#print axioms Verif.CkptFiles.C24_injective
#print axioms Verif.CkptFiles.C24_unchanged_iff
#print axioms Verif.CkptFiles.C24_not_idempotent_counterexample
#print axioms Verif.CkptFiles.C25_parse
#print axioms Verif.CkptFiles.C25_exact
#print axioms Verif.CkptFiles.C25_unique
#print axioms Verif.Ser.C26_round_trip
#print axioms Verif.Ser.C26_serializes
#print axioms Verif.Ser.C26_injective
#print axioms Verif.Ser.C26_overflow
#print axioms Verif.Ser.C27_round_trip
#print axioms Verif.Ser.C27_piece_sizes
#print axioms Verif.Ser.C27_serializes
#print axioms Verif.Ser.C27_empty_array_counterexample
#print axioms Verif.Ckpt.C28_layout_independent
#print axioms Verif.Ckpt.C28_index_matches_files
#print axioms Verif.SafeZip.C29_zip
#print axioms Verif.SafeZip.C29_rows
#print axioms Verif.SafeZip.C29_map
#print axioms Verif.SafeZip.C29_no_iterables
#print axioms Verif.Regex.C30_union
#print axioms Verif.Regex.C30_arguments
#print axioms Verif.Regex.C30_unbalanced_counterexample
#print axioms Verif.ParseCall.C31_literals
#print axioms Verif.ParseCall.C31_accepts_iff
#print axioms Verif.ParseCall.C31_keywords
#print axioms Verif.ParseCall.C31_dotted
#print axioms Verif.ParseCall.C31_rejects
#print axioms Verif.ParseCall.C31_parenthesis_counterexample
#print axioms Verif.Multihost.C32_passes_iff
#print axioms Verif.Multihost.C32_same_name
#print axioms Verif.Multihost.C32_collision_counterexample
#print axioms Verif.DataPipeline.C33_padding
#print axioms Verif.DataPipeline.C33_masks
#print axioms Verif.DataPipeline.C33_filter_counterexample
#print axioms Verif.DataPipeline.C33_filter_drops_counterexample
#print axioms Verif.Evaluator.C34_batches
#print axioms Verif.Evaluator.C34_random_batches
#print axioms Verif.Evaluator.C34_metrics
#print axioms Verif.Evaluator.C34_batch_dependent_counterexample
#print axioms Verif.Prefetch.C35_same_elements
#print axioms Verif.Prefetch.C35_read_ahead
#print axioms Verif.Prefetch.C35_no_prefetch
#print axioms Verif.Prefetch.C35_error
#print axioms Verif.Prefetch.C35_error_counterexample
#print axioms Verif.Prefetch.C36_split
#print axioms Verif.Prefetch.C36_rejects
#print axioms Verif.Prefetch.C36_global
#print axioms Verif.Prefetch.C36_global_exists
#print axioms Verif.PpOps.C37_left_to_right
#print axioms Verif.PpOps.C37_rejects
#print axioms Verif.PpOps.C37_bar_in_argument_counterexample
#print axioms Verif.PpOps.C37_in_out
#print axioms Verif.PpOps.C37_key
#print axioms Verif.PpOps.C37_keep
#print axioms Verif.PpOps.C37_valid_kept
#print axioms Verif.PpOps.C37_ignore_no_labels
#print axioms Verif.PpOps.C38_value_range_affine
#print axioms Verif.PpOps.C38_value_range_bounds
#print axioms Verif.PpOps.C38_inverted_clip_counterexample
#print axioms Verif.PpOps.C38_crop_iff
#print axioms Verif.PpOps.C38_crop
#print axioms Verif.PpOps.C38_resize_small
#print axioms Verif.PpOps.C38_resize_small_ratio
#print axioms Verif.DataPipeline.C39_validation
#print axioms Verif.DataPipeline.C39_devices
#print axioms Verif.Partitioning.C40_default
#print axioms Verif.Partitioning.C40_tile
#print axioms Verif.Partitioning.C40_default_position
#print axioms Verif.Partitioning.C40_logical_mesh
#print axioms Verif.Partitioning.C40_exactly_once
#print axioms Verif.Partitioning.C40_rejects
#print axioms Verif.Partitioning.C40_accepts
#print axioms Verif.Partitioning.C41_contiguous
#print axioms Verif.Partitioning.C41_no_devices
#print axioms Verif.Partitioning.C41_all_processes
#print axioms Verif.Partitioning.C42_other
#print axioms Verif.Partitioning.C42_tpu
#print axioms Verif.Partitioning.C42_tpu_order
#print axioms Verif.Partitioning.C42_greedy_counterexample
#print axioms Verif.Partitioning.C42_auto_mesh
#print axioms Verif.Partitioning.C43_axis_resources
#print axioms Verif.Partitioning.C43_separator_counterexample
#print axioms Verif.Optimizer.C44_frozen
#print axioms Verif.Optimizer.C44_pattern_list
#print axioms Verif.Optimizer.C44_others_unchanged
#print axioms Verif.Optimizer.C44_arguments
#print axioms Verif.Optimizer.C45_weight_decay
#print axioms Verif.Optimizer.C45_scalar_decay
#print axioms Verif.Optimizer.C45_no_decay
#print axioms Verif.Optimizer.C45_params_required
#print axioms Verif.Optimizer.C45_gradient_scaling
#print axioms Verif.Optimizer.C45_order_counterexample
#print axioms Verif.Optimizer.C45_empty_dict_counterexample
#print axioms Verif.Optimizer.C46_global_norm
#print axioms Verif.Optimizer.C46_absolute
#print axioms Verif.Optimizer.C46_arguments
#print axioms Verif.Optimizer.C46_negative_counterexample
#print axioms Verif.Schedule.C47_polynomial
#print axioms Verif.Schedule.C47_polynomial_ends
#print axioms Verif.Schedule.C47_polynomial_bounds
#print axioms Verif.Schedule.C47_short_decay_counterexample
#print axioms Verif.Schedule.C47_cosine
#print axioms Verif.Schedule.C47_rsqrt_rejects
#print axioms Verif.Schedule.C47_rsqrt
#print axioms Verif.Schedule.C47_rsqrt_negative_counterexample
#print axioms Verif.Schedule.C47_exponential_constant
#print axioms Verif.Schedule.C47_exponential
#print axioms Verif.Schedule.C47_exponential_negative_begin
#print axioms Verif.Schedule.C47_create
#print axioms Verif.Schedule.C47_total_ignored
#print axioms Verif.Trainer.C48_disabled
#print axioms Verif.Trainer.C48_rejects
#print axioms Verif.Trainer.C48_microsteps
#print axioms Verif.Trainer.C48_every_example_once
#print axioms Verif.Trainer.C48_covers_devices
#print axioms Verif.Trainer.C48_mean
#print axioms Verif.Trainer.C48_batch_function_counterexample
#print axioms Verif.Trainer.C48_uneven_counterexample
#print axioms Verif.Mixup.C49_mixup
#print axioms Verif.Mixup.C49_batch
#print axioms Verif.Mixup.C49_keeps_common_values
#print axioms Verif.Mixup.C49_labels
#print axioms Verif.Mixup.C49_batch_sum
#print axioms Verif.Mixup.C49_rejects
#print axioms Verif.Mixup.C49_unknown_granularity
#print axioms Verif.Mixup.C49_disabled
#print axioms Verif.Mixup.C49_needs_generator
#print axioms Verif.Mixup.C49_generators
#print axioms Verif.Trainer.C50_accepts
#print axioms Verif.Trainer.C50_rejects
#print axioms Verif.Trainer.C50_steps
#print axioms Verif.Trainer.C50_epochs
#print axioms Verif.TrainLoop.C51_labels
#print axioms Verif.TrainLoop.C51_completed
#print axioms Verif.TrainLoop.C51_uninterrupted
#print axioms Verif.TrainLoop.C51_replay_counterexample
#print axioms Verif.TrainLoop.C51_early_end_counterexample
#print axioms Verif.TrainLoop.C51_beyond_counterexample
#print axioms Verif.Trainer.C52_reuse
#print axioms Verif.Trainer.C52_missing
#print axioms Verif.Summarizer.C53_names
#print axioms Verif.Summarizer.C53_index_of_name
#print axioms Verif.Summarizer.C53_limit
#print axioms Verif.Summarizer.C53_complete
#print axioms Verif.Summarizer.C53_reduced_shape
#print axioms Verif.Summarizer.C53_norm
#print axioms Verif.Summarizer.C53_unknown_op
#print axioms Verif.Summarizer.C53_collision_counterexample
#print axioms Verif.Summarizer.C53_operations
#print axioms Verif.Summarizer.C53_transform
#print axioms Verif.Mapping.C54_assignment
#print axioms Verif.Mapping.C54_strict_source
#print axioms Verif.Mapping.C54_strict_target
#print axioms Verif.Mapping.C54_sources_used
#print axioms Verif.Mapping.C54_twice_raises
#print axioms Verif.Mapping.C54_success
#print axioms Verif.Mapping.C55_stack_order
#print axioms Verif.NaturalSort.C55_all_names
#print axioms Verif.NaturalSort.C55_numeric_order
#print axioms Verif.NaturalSort.C55_leading_zeros
#print axioms Verif.NaturalSort.C55_comparable
#print axioms Verif.NaturalSort.C55_minus_counterexample
#print axioms Verif.NaturalSort.C55_point_counterexample
#print axioms Verif.InitRules.C56_tile_copies
#print axioms Verif.InitRules.C56_tile_total
#print axioms Verif.InitRules.C56_tile_experts
#print axioms Verif.InitRules.C56_reshape_entries
#print axioms Verif.InitRules.C56_reshape_shape
#print axioms Verif.InitRules.C56_squeeze
#print axioms Verif.InitRules.C56_stack
#print axioms Verif.InitRules.C56_stack_total
#print axioms Verif.Mapping.C56_target_shape
#print axioms Verif.Mapping.C56_no_broadcast
#print axioms Verif.InitRules.C57_accepted
#print axioms Verif.InitRules.C57_grid
#print axioms Verif.InitRules.C57_zoom
#print axioms Verif.InitRules.C57_zoom_total
#print axioms Verif.InitRules.C57_zoom_same
#print axioms Verif.Fewshot.C58_representation
#print axioms Verif.Fewshot.C58_subset
#print axioms Verif.Fewshot.C58_nested
#print axioms Verif.Fewshot.C58_all
#print axioms Verif.Fewshot.C58_results
#print axioms Verif.Fewshot.C58_no_classes
#print axioms Verif.Fewshot.C59_minimum
#print axioms Verif.Fewshot.C59_prediction
#print axioms Verif.Fewshot.C59_accuracy
#print axioms Verif.Fewshot.C59_order
#print axioms Verif.Fewshot.C59_shift
#print axioms Verif.EnsembleEval.C60_softmax_mean
#print axioms Verif.EnsembleEval.C60_sigmoid_mean
#print axioms Verif.EnsembleEval.C60_order
#print axioms Verif.EnsembleEval.C60_agree
#print axioms Verif.EnsembleEval.C60_shape
#print axioms Verif.EnsembleEval.C60_softmax_loss
#print axioms Verif.EnsembleEval.C60_sigmoid_loss
#print axioms Verif.EnsembleEval.C60_softmax_xent
#print axioms Verif.EnsembleEval.C60_prediction
#print axioms Verif.Attack.C61_bound
#print axioms Verif.Attack.C61_attained
#print axioms Verif.Attack.C61_total
#print axioms Verif.Attack.C61_keys
#print axioms Verif.Attack.C61_range_counterexample
#print axioms Verif.Attack.C62_totals
#print axioms Verif.Attack.C62_batching
#print axioms Verif.Attack.C62_bounds
#print axioms Verif.Attack.C62_report_bounds
#print axioms Verif.Attack.C62_report
#print axioms Verif.Attack.C62_unchanged
#print axioms Verif.Attack.C62_unrouted_counterexample
#print axioms Verif.Attack.C62_keys_reused_counterexample
#print axioms Verif.ExampleStorage.C63_complete
#print axioms Verif.ExampleStorage.C63_zero_period
#print axioms Verif.Contrastive.C64_no_input
#print axioms Verif.Contrastive.C64_embedding
#print axioms Verif.Contrastive.C64_logits
#print axioms Verif.Contrastive.C64_initial
#print axioms Verif.Contrastive.C64_loss
#print axioms Verif.Contrastive.C64_not_square
#print axioms Verif.Contrastive.C64_permutation
#print axioms Verif.Contrastive.C64_transpose
#print axioms Verif.Contrastive.C64_small_loss
#print axioms Verif.PpOps.C65_multi_hot
#print axioms Verif.PpOps.C65_out_of_range
#print axioms Verif.PpOps.C65_single
#print axioms Verif.Partitioning.C66_hardware_mesh
#print axioms Verif.Partitioning.C66_irregular_counterexample
#print axioms Verif.Partitioning.C66_collision_counterexample
#print axioms Verif.Partitioning.C67_logical_mesh
#print axioms Verif.Partitioning.C67_tile_contiguous
#print axioms Verif.Partitioning.C67_not_contiguous_counterexample
#print axioms Verif.Optimizer.C68_sgd
#print axioms Verif.TrainLoop.C69_lost_work
#print axioms Verif.Fewshot.C70_undominated
#print axioms Verif.Fewshot.C70_empty
#print axioms Verif.Fewshot.C70_tie_counterexample
#print axioms Verif.Moe.C71_dense_layer
#print axioms Verif.Moe.C71_dense_dispatch
#print axioms Verif.Moe.C71_dense_eq_full_top_k
#print axioms Verif.Moe.C71_default_dispatch
#print axioms Verif.Moe.C71_default_weights_layer
#print axioms Verif.Moe.C71_default_weights_negative_counterexample
#print axioms Verif.MoeBlock.C72_block_output
#print axioms Verif.MoeBlock.C72_block_errors
#print axioms Verif.MoeBlock.C72_group_local
#print axioms Verif.MoeBlock.C72_sequences_independent
#print axioms Verif.MoeBlock.C72_bounded
#print axioms Verif.MoeBlock.C72_metrics
#print axioms Verif.Encoder.C73_ensemble_encoder
#print axioms Verif.Encoder.C73_plain_encoder
#print axioms Verif.Encoder.C73_ids_as_set
#print axioms Verif.Encoder.C73_batch_size
#print axioms Verif.Encoder.C73_bad_ensemble_size
#print axioms Verif.Encoder.C73_no_other_errors
#print axioms Verif.OtRouting.C74_item_choice_layer
#print axioms Verif.OtRouting.C74_indices_rejected
#print axioms Verif.OtRouting.C74_expert_choice_layer
#print axioms Verif.OtRouting.C74_row_sparse_plan
#print axioms Verif.OtRouting.C74_row_sparse_layer
#print axioms Verif.OtRouting.C74_row_sparse_softmax_layer
#print axioms Verif.OtRouting.C74_column_sparse_plan
#print axioms Verif.OtRouting.C74_column_sparse_layer
#print axioms Verif.OtRouting.C74_capacity_factor_needed
#print axioms Verif.OtRouting.C74_column_sparse_total
#print axioms Verif.OtRouting.C74_max_op
#print axioms Verif.OtRouting.C74_metrics
#print axioms Verif.OtRouting.C74_zero_transport_counterexample
#print axioms Verif.OtRouting.C75_rows
#print axioms Verif.OtRouting.C75_imbalance_never_grows
#print axioms Verif.OtRouting.C75_weighted_sum
#print axioms Verif.OtRouting.C75_expert_bias_ignored
#print axioms Verif.OtRouting.C75_columns_counterexample
#print axioms Verif.OtRouting.C75_item_choice_layer
#print axioms Verif.OtRouting.C75_item_choice_metrics
#print axioms Verif.OtRouting.C75_expert_choice_layer
#print axioms Verif.EnsembleBlock.C76_members_are_plain_blocks
#print axioms Verif.EnsembleBlock.C76_same_capacity
#print axioms Verif.EnsembleBlock.C76_members_independent
#print axioms Verif.EnsembleBlock.C76_rejects
#print axioms Verif.EvalAction.C77_reports
#print axioms Verif.ExpertChoice.C78_block_output
#print axioms Verif.ExpertChoice.C78_balanced
#print axioms Verif.ExpertChoice.C78_block_errors
#print axioms Verif.ExpertChoice.C78_group_local
#print axioms Verif.ExpertChoice.C78_bounded
#print axioms Verif.Config.C79_router
#print axioms Verif.Config.C79_router_follows_layer
#print axioms Verif.Config.C79_ensemble_router
#print axioms Verif.Config.C79_encoder_mlps
#print axioms Verif.Config.C79_encoder_blocks
#print axioms Verif.Config.C79_flax_model
#print axioms Verif.Config.C79_tower
#print axioms Verif.Config.C79_split_rngs
#print axioms Verif.Vit.C80_forward
#print axioms Verif.Vit.C80_border
#print axioms Verif.Vit.C80_sincos_grid
#print axioms Verif.Vit.C80_sincos_injective
#print axioms Verif.Vit.C80_sincos_norm
#print axioms Verif.Vit.C80_position_kinds
#print axioms Verif.Vit.C80_position_emb_None
#print axioms Verif.Vit.C81_text
#print axioms Verif.TrainStep.C82_no_key_reused
#print axioms Verif.TrainStep.C82_init_keys_split_counterexample
#print axioms Verif.TrainStep.C83_train_step
#print axioms Verif.TrainStep.C83_no_microsteps
#print axioms Verif.InitVmoe.C84_initialize
#print axioms Verif.InitVmoe.C84_version
#print axioms Verif.InitVmoe.C84_too_many_values
#print axioms Verif.Hooks.C85_hooks
#print axioms Verif.Hooks.C85_first_and_last
#print axioms Verif.Hooks.C85_same_on_all_processes
#print axioms Verif.Hooks.C85_first_report_counterexample
#print axioms Verif.Hooks.C85_final_evaluation_lost_counterexample
#print axioms Verif.Hooks.C85_zero_every_steps
#print axioms Verif.Hooks.C85_cost
#print axioms Verif.Hooks.C85_clocks_disagree_counterexample
#print axioms Verif.Hooks.C85_without_big_vision_counterexample
#print axioms Verif.Hooks.C85_nothing_to_evaluate
#print axioms Verif.Hooks.C85_big_vision_hooks
#print axioms Verif.Partitioning.C86_logical_mesh
#print axioms Verif.Partitioning.C86_auto_mesh
#print axioms Verif.RulesParse.C87_accepts
#print axioms Verif.RulesParse.C87_rejects
#print axioms Verif.RulesParse.C87_result
#print axioms Verif.RulesParse.C87_reshape_default
#print axioms Verif.RulesParse.C87_no_replacement
#print axioms Verif.RulesParse.C87_none_transform_counterexample
#print axioms Verif.RulesParse.C87_empty_transform_counterexample
#print axioms Verif.Optimizer.C88_sgd
#print axioms Verif.RestorePool.C89_every_file_once
#print axioms Verif.RestorePool.C89_progress
#print axioms Verif.RestorePool.C89_one_per_task
#print axioms Verif.RestorePool.C89_bytes
#print axioms Verif.RestorePool.C89_no_maximum
#print axioms Verif.RestorePool.C89_maximum_counterexample
#print axioms Verif.Soft.C90_similarity
#print axioms Verif.Soft.C90_min
#print axioms Verif.Soft.C90_max
#print axioms Verif.Soft.C90_mean
#print axioms Verif.Soft.C90_probabilities
#print axioms Verif.Soft.C90_min_max_mean
#print axioms Verif.Soft.C90_weights
#print axioms Verif.Soft.C90_mu_max_counterexample
#print axioms Verif.Soft.C90_mean_counterexample
#print axioms Verif.Contrastive.C91_full_batch
#print axioms Verif.Contrastive.C91_microsteps
#print axioms Verif.Contrastive.C91_missing_pairs
#print axioms Verif.Contrastive.C91_loss_counterexample
#print axioms Verif.Contrastive.C91_rejects
#print axioms Verif.AttackRouting.C92_tokens
#print axioms Verif.AttackRouting.C92_items_are_tokens
#print axioms Verif.AttackRouting.C92_same_items
#print axioms Verif.AttackRouting.C92_uneven
#print axioms Verif.AttackRouting.C92_einsum
#print axioms Verif.AttackRouting.C92_indices
#print axioms Verif.AttackRouting.C92_expert_choice
#print axioms Verif.AttackRouting.C92_dispatchers_agree
#print axioms Verif.AttackRouting.C92_dropped_counterexample
#print axioms Verif.AttackRouting.C92_keys
#print axioms Verif.AttackRouting.C92_no_routers
#print axioms Verif.AttackRouting.C92_prediction
#print axioms Verif.FewshotAction.C93_reports
#print axioms Verif.FewshotAction.C93_repeat
#print axioms Verif.FewshotAction.C93_same_split
#print axioms Verif.FewshotAction.C93_evaluates
#print axioms Verif.FewshotAction.C93_datasets
#print axioms Verif.FewshotAction.C93_main_task_rejected
#print axioms Verif.ContrastiveEval.C94_apply
#print axioms Verif.ContrastiveEval.C94_zero_shot
#print axioms Verif.ContrastiveEval.C94_duration_counterexample
#print axioms Verif.ContrastiveEval.C94_retrieval
#print axioms Verif.LossFn.C95_names
#print axioms Verif.LossFn.C95_plain
#print axioms Verif.LossFn.C95_lower_bound
#print axioms Verif.LossFn.C95_ensemble_of_one
#print axioms Verif.LossFn.C95_ensemble_train
#print axioms Verif.LossFn.C95_wrong_arguments
#print axioms Verif.LossFn.C95_options
#print axioms Verif.DataShare.C96_shares
#print axioms Verif.DataShare.C96_evaluation
#print axioms Verif.DataShare.C96_builder_cache
#print axioms Verif.DataShare.C96_builder_cache_counterexample
#print axioms Verif.DataShare.C96_num_examples
#print axioms Verif.DataShare.C96_options
#print axioms Verif.DataShare.C96_directory
#print axioms Verif.TrainStream.C97_training
#print axioms Verif.TrainStream.C97_empty
#print axioms Verif.TrainStream.C97_few_examples
#print axioms Verif.TrainStream.C97_errors
#print axioms Verif.TrainStream.C97_refused
#print axioms Verif.TrainStream.C97_cached
#print axioms Verif.TrainStart.C98_methods
#print axioms Verif.TrainStart.C98_restart
#print axioms Verif.TrainStart.C98_scratch
#print axioms Verif.TrainStart.C98_finetune
#print axioms Verif.TrainStart.C98_finetune_ok
#print axioms Verif.TrainStart.C98_names
#print axioms Verif.TrainStart.C98_vit
#print axioms Verif.ImageOps.C99_central_crop
#print axioms Verif.ImageOps.C99_resize
#print axioms Verif.ImageOps.C99_resize_errors
#print axioms Verif.ImageOps.C99_decode_and_crop
#print axioms Verif.ImageOps.C99_train
#print axioms Verif.ImageOps.C99_evaluation
#print axioms Verif.ImageOps.C99_evaluation_crop
#print axioms Verif.ImageOps.C99_crop
#print axioms Verif.ImageOps.C99_flip
#print axioms Verif.ImageOps.C99_no_size_counterexample
