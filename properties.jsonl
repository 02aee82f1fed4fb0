{"id": "C01", "title": "Expert buffers are never shared or overfull (item-choice routing)", "statement": "When items choose experts, two different (item, choice) requests that both fit are never given the same slot of the same expert, and no expert ever receives more than `capacity` items in a group.", "quantifier": "every group size, number of experts, number of selected experts, capacity, gate matrix, with and without batch priority", "why_tests_cant": "The routing is a cumulative sum over a data dependent ordering; a collision only shows for particular gate patterns and the space of gate matrices is infinite.", "anchors": ["vmoe/moe.py:_get_top_experts_per_item_common", "vmoe/moe.py:_get_top_experts_per_item_einsum_dispatcher", "vmoe/moe.py:_get_top_experts_per_item_expert_indices_dispatcher"]}
{"id": "C02", "title": "Items are only sent to their own top-K experts", "statement": "Each item requests exactly `num_selected_experts` distinct experts; these are the ones with the largest gates of that item (no non-requested expert has a strictly larger gate, and on equal gates the lower expert index is requested first), listed from largest to smallest gate. Nothing else is ever dispatched for that item.", "quantifier": "every gate matrix (including ties), group size, number of experts, K not larger than the number of experts", "why_tests_cant": "Ties and the interaction with the batch-priority permutation have to be right for all gate values.", "anchors": ["vmoe/moe.py:_get_top_experts_per_item_common"]}
{"id": "C03", "title": "Slot assignment is exactly first-come-first-served by (choice rank, item order)", "statement": "The slot given to a request equals the number of requests of higher priority (all first choices before all second choices, and so on; within one rank, item order) that ask for the same expert. A request is dropped if and only if at least `capacity` such requests exist; hence slots of an expert are filled without holes.", "quantifier": "every gate matrix, K, capacity, without batch priority", "why_tests_cant": "Requires an exact counting argument for all inputs; off-by-one errors only matter on the capacity boundary.", "anchors": ["vmoe/moe.py:_get_top_experts_per_item_common"]}
{"id": "C04", "title": "Batch priority routing serves the most confident items first", "statement": "With `batch_priority=True` the priority within a choice rank is by decreasing largest gate of the item, equal values keeping the original item order. Consequently, if a request is kept, every request of the same rank for the same expert by an item with a strictly larger top gate is kept too; results are reported in the original item order.", "quantifier": "every gate matrix, K, capacity, with batch priority", "why_tests_cant": "The inverse permutation has to undo the sort for all permutations; a wrong inverse is invisible when the permutation is an involution (which small tests easily are).", "anchors": ["vmoe/moe.py:_get_top_experts_per_item_common"]}
{"id": "C05", "title": "Einsum and expert-indices dispatchers are interchangeable", "statement": "For the same gates, K, capacity and batch-priority flag, the `einsum` dispatcher and the `indices` dispatcher put the same data in every expert buffer slot (empty slots are zero) and combine any expert outputs into the same result.", "quantifier": "every gate matrix, data, expert outputs, group size, experts, K, capacity", "why_tests_cant": "Two very different implementations (one-hot einsums versus scatter/gather with out-of-range indices) must agree on all inputs, especially the dropped ones.", "anchors": ["vmoe/moe.py:EinsumDispatcher", "vmoe/moe.py:ExpertIndicesDispatcher", "vmoe/moe.py:_get_top_experts_per_item_einsum_dispatcher", "vmoe/moe.py:_get_top_experts_per_item_expert_indices_dispatcher", "vmoe/moe.py:_scatter_nd"]}
{"id": "C06", "title": "A sparse MoE layer computes the gated sum of the kept experts", "statement": "The output of the MoE layer for item s of group g is the sum over the experts that kept the item of gate(g,s,e) times expert e applied to that item; dropped items contribute nothing, and neither the other items nor the other groups influence it except through which requests were kept.", "quantifier": "every number of groups (divisible or not by the number of experts), group size, data, gates, capacity, every per-item expert function", "why_tests_cant": "The result depends on reshapes and transposes that mix groups and experts; only an argument for every shape shows each item meets the right expert and comes back to its place.", "anchors": ["vmoe/moe.py:sparse_moe_spmd", "vmoe/moe.py:EinsumDispatcher", "vmoe/moe.py:ExpertIndicesDispatcher", "vmoe/moe.py:_dispatch", "vmoe/moe.py:_receive"]}
{"id": "C07", "title": "Dispatch/receive exchange is lossless and routes to the right expert", "statement": "Row e of the exchanged array contains exactly the entries that were addressed to expert e, from every group and slot, each exactly once; receiving after dispatching gives back the original array. This holds both when the number of groups is divisible by the number of experts and when it is not.", "quantifier": "every number of groups, experts, capacity and content", "why_tests_cant": "A permutation bug can be invisible when some dimensions coincide or are one.", "anchors": ["vmoe/moe.py:_dispatch", "vmoe/moe.py:_receive"]}
{"id": "C08", "title": "Expert-choice routing: every expert takes its best items, exactly capacity many", "statement": "When experts choose items, every expert selects exactly `capacity` pairwise different items, in slots ordered by decreasing gate, and no unselected item of the group has a strictly larger gate for this expert. Combine weights are the gate for the selected (item, expert, slot) and zero elsewhere. A capacity larger than the group is an error.", "quantifier": "every gate matrix, group size, number of experts, capacity", "why_tests_cant": "Needs all gate patterns, including ties, and all sizes.", "anchors": ["vmoe/moe.py:get_top_items_per_expert_dispatcher", "vmoe/moe.py:_get_top_items_per_expert_einsum_dispatcher"]}
{"id": "C09", "title": "Expert-choice metrics report the real number of experts per item", "statement": "The reported minimum/maximum number of experts per item are the real extrema over the items of the number of experts that selected it, the total over items is experts times capacity, and each reported ratio is the fraction of items selected by at least that many experts (monotone in the threshold).", "quantifier": "every gate matrix, group size, number of experts, capacity", "why_tests_cant": "Statements about sums and extrema over arbitrary assignments.", "anchors": ["vmoe/moe.py:_get_top_items_per_expert_einsum_dispatcher"]}
{"id": "C10", "title": "Expert capacity computation", "statement": "`compute_capacity` raises unless the rounded ideal share is at least one; otherwise the result is a positive multiple of `multiple_of`, not smaller than the rounded share and smaller than the share plus `multiple_of`. With `ceil_or_round='ceil'` the total buffer space is at least tokens times capacity factor. Unknown rounding names raise.", "quantifier": "every token count, expert count, capacity factor, multiple and rounding mode", "why_tests_cant": "Arithmetic on boundaries and negative modulus for all values.", "anchors": ["vmoe/moe.py:compute_capacity"]}
{"id": "C11", "title": "Dispatcher factories validate their arguments", "statement": "Creating an item-choice or expert-choice dispatcher succeeds only if exactly one of capacity / capacity factor is given and the dispatcher name is known; the given capacity is used as is and a capacity factor goes through the capacity computation with the effective number of tokens (group size times K for item choice, group size for expert choice).", "quantifier": "every combination of the optional arguments", "why_tests_cant": "Combination of optional/falsy values (zero versus missing) over all inputs.", "anchors": ["vmoe/moe.py:get_top_experts_per_item_dispatcher", "vmoe/moe.py:get_top_items_per_expert_dispatcher"]}
{"id": "C12", "title": "Ensemble members never share experts", "statement": "With the ensemble router, if every ensemble member has at least K experts and the gates of an item's own block are positive, then every request of an item of member m goes to an expert of block m. So no expert receives items from two different members.", "quantifier": "every number of members, experts per member, group size, K, positive gates", "why_tests_cant": "Isolation has to hold for all gates; the layout (member index = position modulo ensemble size) has to match the block-diagonal gates for every shape.", "anchors": ["vmoe/nn/ensemble_routing.py:NoisyTopExpertsPerItemEnsembleRouter", "vmoe/nn/ensemble_routing.py:reshape_from_diag_blocks", "vmoe/nn/vit_moe_ensemble.py:MlpMoeWithNoisyTopExpertsPerItemEnsembleRouter", "vmoe/moe.py:_get_top_experts_per_item_common"]}
{"id": "C13", "title": "Ensemble token regrouping is lossless", "statement": "Regrouping tokens of a repeated batch into routing groups and back returns the original tensor; the token of image b, member m, position t lands at a group position congruent to m modulo the ensemble size and no two tokens land on the same place.", "quantifier": "every batch size, ensemble size, sequence length and group size that divides", "why_tests_cant": "Reshape/transpose layouts for all shapes.", "anchors": ["vmoe/nn/ensemble_routing.py:reshape_to_group_size_representation", "vmoe/nn/ensemble_routing.py:reshape_from_group_size_representation", "vmoe/nn/vit_moe_ensemble.py:EncoderMoeEnsemble"]}
{"id": "C14", "title": "Enough capacity means nothing is dropped", "statement": "If the capacity is at least the group size, no request is dropped, and if it is at least the number of requests that name an expert, that expert drops nothing; at most max(0, requests - capacity) requests per expert are dropped.", "quantifier": "every gate matrix, group size, experts, K", "why_tests_cant": "A counting bound for all assignments.", "anchors": ["vmoe/moe.py:_get_top_experts_per_item_common"]}
{"id": "C15", "title": "Soft MoE weights are convex combinations", "statement": "In the soft router every slot receives a convex combination of the tokens of its group and every token a convex combination of the slot outputs; hence if all tokens are equal every slot sees that token, and with identical constant experts the layer is constant.", "quantifier": "every logits matrix over the reals, group size, number of experts and slots", "why_tests_cant": "Statement over real-valued softmax for all logits.", "anchors": ["vmoe/projects/soft_moe/router.py:SoftRouter"]}
{"id": "C16", "title": "Auxiliary routing losses measure imbalance", "statement": "The importance loss is never negative, is zero exactly when all experts have the same total gate, does not change when all gates are scaled, and is at most number of experts minus one for non-negative gates. The total auxiliary loss only adds terms with positive weight.", "quantifier": "every non-negative gate tensor with positive total", "why_tests_cant": "Inequalities over all reals.", "anchors": ["vmoe/nn/routing.py:_importance_auxiliary_loss", "vmoe/nn/routing.py:_weighted_sum"]}
{"id": "C17", "title": "Chunk splitting is an exact partition with bounded chunks", "statement": "Splitting an array region for saving yields chunks that lie in the region, cover every element exactly once and each have at most the requested number of elements (when a positive maximum is given).", "quantifier": "every number of dimensions, start/stop bounds, maximum chunk size", "why_tests_cant": "The greedy search over divisors has to partition for all shapes, including prime and zero sizes.", "anchors": ["vmoe/checkpoints/partitioned.py:_split_slicend"]}
{"id": "C18", "title": "Every array region is saved exactly once by a process that holds it", "statement": "When saving with any number of processes, every distinct device region of every array is written to exactly one checkpoint shard, that shard belongs to a process that has the data locally, the writing process finds the data, and the internal 'should never happen' error is never raised. Every process has at least one shard file.", "quantifier": "every number of processes, shard files, arrays, shardings (replicated or partitioned over any set of processes), chunk size", "why_tests_cant": "Multi-process behaviour for arbitrary shardings cannot be enumerated; tests mock a single process.", "anchors": ["vmoe/checkpoints/partitioned.py:save_checkpoint", "vmoe/checkpoints/partitioned.py:_create_map_slicend_to_checkpoint_shard", "vmoe/checkpoints/partitioned.py:_create_map_filepath_to_data", "vmoe/checkpoints/partitioned.py:_update_lazy_array_chunks_with_leaf", "vmoe/checkpoints/partitioned.py:_find_smallest_ckpt_shard"]}
{"id": "C19", "title": "Save then restore returns the same arrays under any resharding", "statement": "Restoring a saved checkpoint yields, on every process and device, exactly the elements of the saved arrays in the region that device needs, whatever the sharding, process count, shard count and chunk size used when saving, and whatever the sharding used for restoring and the order in which shard files are read. A checkpoint is not restored into another number of arrays than was saved: that is a ValueError.", "quantifier": "every array contents and shape, save sharding, restore sharding, process counts, shard counts, chunk sizes, read schedule", "why_tests_cant": "Round trip over all pairs of shardings and all thread schedules.", "anchors": ["vmoe/checkpoints/partitioned.py:save_checkpoint", "vmoe/checkpoints/partitioned.py:restore_checkpoint", "vmoe/checkpoints/partitioned.py:_restore_local_buffers", "vmoe/checkpoints/partitioned.py:_intersect_slicend", "vmoe/checkpoints/partitioned.py:_find_ckpt_shards_to_restore"]}
{"id": "C20", "title": "Restore reads exactly the needed shard files", "statement": "A process reads a checkpoint shard file if and only if that file contains a chunk that overlaps (or equals) a region needed by one of its local devices.", "quantifier": "every index file and target sharding", "why_tests_cant": "For-all over shardings.", "anchors": ["vmoe/checkpoints/partitioned.py:_find_ckpt_shards_to_restore", "vmoe/checkpoints/partitioned.py:_intersect_slicend"]}
{"id": "C21", "title": "Checkpoint shards are balanced", "statement": "If every process can write to all shards in play (single process, or data replicated everywhere), the sizes in bytes of any two checkpoint shards differ by at most the size of the largest chunk; in general every chunk goes to a least loaded eligible shard.", "quantifier": "every sequence of chunks and number of shards", "why_tests_cant": "Invariant over the whole history of greedy assignments.", "anchors": ["vmoe/checkpoints/partitioned.py:_find_smallest_ckpt_shard", "vmoe/checkpoints/partitioned.py:_create_map_slicend_to_checkpoint_shard"]}
{"id": "C22", "title": "Saving a checkpoint file is atomic at every crash point", "statement": "If the process dies at any moment while saving a file, the final path holds either its previous content (or is absent, if it was) or the complete new content, never a truncated one, and other files are untouched; after a successful save the content is the new one and no temporary file is left. With overwrite disabled an existing file is never changed.", "quantifier": "every file system state, content, overwrite flag and crash point", "why_tests_cant": "Crash points cannot be enumerated with unit tests.", "anchors": ["vmoe/checkpoints/base.py:save_checkpoint"]}
{"id": "C23", "title": "Latest complete checkpoint detection", "statement": "The iteration over complete steps returns, in decreasing order and without repetition, exactly the steps such that every requested suffix has a final file and no temporary file for that step and suffix. A save of a step that is killed at any moment is reported as complete exactly if every requested suffix has at least one finished file and none in the middle of being written; every final file has its whole content. So with one file per suffix a save that died midway is never reported; with several shards per suffix it can be (shards not started yet are not noticed).", "quantifier": "every set of files in the directory, every set of suffixes, every crash point of a multi-file save", "why_tests_cant": "Arbitrary directory states and crash points.", "anchors": ["vmoe/checkpoints/base.py:iterate_complete_steps_for_prefix", "vmoe/checkpoints/base.py:find_latest_complete_checkpoint_for_prefix"]}
{"id": "C24", "title": "Shard suffix round trip", "statement": "Removing the shard suffix from a path to which a shard suffix was added gives back the original path; different (path, shard, total) triples give different paths; a path is left unchanged precisely when it has no shard suffix (so removing twice may remove two suffixes).", "quantifier": "every path and every shard number and shard count", "why_tests_cant": "Regular expression with a lazy prefix and optional groups over all strings.", "anchors": ["vmoe/checkpoints/base.py:add_shard_suffix", "vmoe/checkpoints/base.py:remove_shard_suffix"]}
{"id": "C25", "title": "Step and suffix are recovered from checkpoint paths", "statement": "For any prefix, step number, alphabetic suffix and optional shard suffix, parsing the composed file name gives back precisely that step and suffix.", "quantifier": "every prefix string, step, suffix and shard suffix", "why_tests_cant": "All strings; prefixes may themselves contain underscores, dots, digits.", "anchors": ["vmoe/checkpoints/base.py:CHECKPOINT_REGEX", "vmoe/checkpoints/base.py:iterate_complete_steps_for_prefix"]}
{"id": "C26", "title": "Checkpoint metadata survives serialization", "statement": "Slices, multi-dimensional slices, slice/array-index pairs, array shapes/dtypes and index records decode to equal values after being encoded to bytes (bytes in, bytes out), including absent bounds, negative numbers and the empty slice.", "quantifier": "every value whose integers fit 64 bits and whose sizes fit 32 bits", "why_tests_cant": "All values and nesting depths; byte-level format with several length classes.", "anchors": ["vmoe/checkpoints/serialization.py:_slice_to_bytes", "vmoe/checkpoints/serialization.py:_slice_nd_to_bytes", "vmoe/checkpoints/serialization.py:_slice_nd_array_to_bytes", "vmoe/checkpoints/serialization.py:_shaped_array_to_bytes", "vmoe/checkpoints/serialization.py:_index_info_to_bytes"]}
{"id": "C27", "title": "Large arrays survive chunked serialization", "statement": "Array chunks written to a shard file decode to the same array contents, region and order for each array, whatever the maximum message size; each stored piece has at most the maximum size (or one element).", "quantifier": "every array contents, chunk list, item size and maximum message size, for non-empty arrays", "why_tests_cant": "Sizes around the 1 GB boundary cannot be tested; all sizes needed.", "anchors": ["vmoe/checkpoints/serialization.py:_lazy_array_chunks_encode", "vmoe/checkpoints/serialization.py:_array_chunks_decode", "vmoe/checkpoints/types.py:LazyArrayChunks", "vmoe/checkpoints/types.py:ArrayChunks"]}
{"id": "C28", "title": "All processes agree on the checkpoint layout", "statement": "The assignment of regions to checkpoint shards does not depend on the order in which devices or device shards are enumerated, so independently computed layouts agree between processes.", "quantifier": "every permutation of the enumeration of device shards", "why_tests_cant": "All permutations; a disagreement silently loses data.", "anchors": ["vmoe/checkpoints/partitioned.py:_create_map_slicend_to_checkpoint_shard"]}
{"id": "C29", "title": "safe_zip / safe_map never silently truncate", "statement": "safe_zip yields the tuples of the i-th elements in order, and finishes normally if and only if all iterables have the same length; otherwise it yields exactly the common prefix and then raises. safe_map applies the function to exactly these tuples.", "quantifier": "every number of iterables, of any lengths", "why_tests_cant": "All length combinations.", "anchors": ["vmoe/utils.py:SafeZipIterator", "vmoe/utils.py:safe_zip", "vmoe/utils.py:safe_map"]}
{"id": "C30", "title": "Regex-list matcher is the union of its patterns", "statement": "A match function built from a list of regexes accepts a string if and only if one of the regexes is found in it; an absent or empty list accepts nothing.", "quantifier": "every list of (backreference free) patterns and string", "why_tests_cant": "All patterns: joining with '|' may change grouping.", "anchors": ["vmoe/utils.py:make_match_fn_from_regex_list"]}
{"id": "C31", "title": "Configuration call strings only evaluate literals", "statement": "parse_call resolves a plain or dotted name, or a call of one with literal positional/keyword arguments, into (callable, args, kwargs) preserving order and values, and rejects everything else with ValueError (TypeError for unhashable keys) before importing anything, so that no nested call is evaluated.", "quantifier": "every expression tree", "why_tests_cant": "All expressions of any depth.", "anchors": ["vmoe/utils.py:parse_call"]}
{"id": "C32", "title": "Cross-host barrier detects divergence", "statement": "sync_devices passes on a process if and only if the hash of its barrier name equals that of the main process; with all processes using the same name it passes everywhere.", "quantifier": "every number of processes and devices per process, all names", "why_tests_cant": "All process counts; overflow of the 32 bit sum.", "anchors": ["vmoe/multihost_utils.py:sync_devices"]}
{"id": "C33", "title": "Evaluation padding aligns all processes and loses no example", "statement": "After adding fake examples every process has the same number of examples, a multiple of its batch size and the least such covering its largest share, so dropping remainders drops nothing and all processes run the same number of batches.", "quantifier": "every distribution of examples over processes and batch size", "why_tests_cant": "All shares; a mismatch deadlocks a pod.", "anchors": ["vmoe/data/builder.py:_get_num_fake_examples", "vmoe/data/input_pipeline.py:get_dataset"]}
{"id": "C34", "title": "Evaluation metrics are those of the real examples", "statement": "The accumulated loss, correct-prediction and example counts after evaluating the padded, batched dataset equal the sums over the real examples, independent of the batch size, the number of processes and the number of fake examples. If the model uses random numbers, every batch is evaluated with its own keys, obtained by repeatedly splitting the initial ones.", "quantifier": "every dataset, batch size, per-example loss and prediction", "why_tests_cant": "Independence of batching for all sizes.", "anchors": ["vmoe/evaluate/evaluator.py:evaluate_step", "vmoe/evaluate/evaluator.py:evaluate_dataset", "vmoe/evaluate/evaluator.py:EvalState", "vmoe/data/input_pipeline.py:get_dataset"]}
{"id": "C35", "title": "Prefetching to device changes nothing but timing", "statement": "The prefetched iterator yields the same elements in the same order as the original one, for every buffer size including none, and never holds more than `size` elements read ahead; when the consumer stops after k elements at most k + size - 1 elements have been read.", "quantifier": "every iterator length, buffer size and consumer stopping point", "why_tests_cant": "All interleavings and lengths.", "anchors": ["vmoe/data/pjit_utils.py:prefetch_to_device"]}
{"id": "C36", "title": "Host-local batches are split over devices without loss", "statement": "Splitting a local batch over the local devices gives equal sized consecutive pieces whose concatenation is the batch, and is rejected when the batch does not divide; assembling the global batch places every local example of every process exactly once.", "quantifier": "every batch and number of devices and process layout", "why_tests_cant": "All sizes and layouts.", "anchors": ["vmoe/data/pjit_utils.py:put_to_devices"]}
{"id": "C37", "title": "Preprocessing pipelines compose left to right and keep the validity mask", "statement": "A processing string applies its operations from left to right; operations read their input key and write only their output key; `keep` never drops the validity mask and returns exactly the requested keys.", "quantifier": "every list of operations and feature dictionary", "why_tests_cant": "All pipelines.", "anchors": ["vmoe/data/input_pipeline.py:get_data_process_fn", "vmoe/data/pp_ops.py:keep", "vmoe/data/pp_ops.py:InKeyOutKey"]}
{"id": "C38", "title": "Value range and crop operations stay within bounds", "statement": "value_range maps the input interval affinely onto the output interval and, with clipping, never leaves it; central_crop always selects a window of the requested size inside the image, centred up to one pixel; resizing the smaller side gives the requested smaller side and keeps the larger at least as large.", "quantifier": "every pixel value, ranges, image and crop sizes", "why_tests_cant": "All sizes and values.", "anchors": ["vmoe/data/pp_ops.py:value_range", "vmoe/data/pp_ops.py:central_crop", "vmoe/data/pp_ops.py:resize_small"]}
{"id": "C39", "title": "Dataset batch size validation", "statement": "A dataset is only built if the global batch size is a multiple of the process count and of the device count; then every process gets batch/process_count examples per batch, splitting evenly on its devices.", "quantifier": "every batch size, process and device count", "why_tests_cant": "All values.", "anchors": ["vmoe/data/input_pipeline.py:get_dataset"]}
{"id": "C40", "title": "The logical mesh uses every device exactly once", "statement": "Both ways of building the logical mesh return an array with `num_partitions` rows that contains every hardware device exactly once, and inconsistent partition shapes raise.", "quantifier": "every hardware mesh shape, partition shape and local shape", "why_tests_cant": "Reshape/transpose of arbitrary rank for all shapes.", "anchors": ["vmoe/partitioning.py:get_logical_mesh_default", "vmoe/partitioning.py:get_logical_mesh_tile_by_process", "vmoe/partitioning.py:get_logical_mesh"]}
{"id": "C41", "title": "Contiguity check is exact", "statement": "process_has_contiguous_device_slice answers true exactly when the positions of the devices of the process in the mesh form a full rectangular block.", "quantifier": "every mesh and process", "why_tests_cant": "All placements.", "anchors": ["vmoe/partitioning.py:process_has_contiguous_device_slice"]}
{"id": "C42", "title": "Automatic mesh factorization is sound", "statement": "When the automatic partitioning succeeds the chosen partition shape divides the hardware mesh axis-wise and multiplies to the requested number of partitions; otherwise ValueError.", "quantifier": "every hardware mesh shape and number of partitions", "why_tests_cant": "All shapes.", "anchors": ["vmoe/partitioning.py:get_auto_logical_mesh_other", "vmoe/partitioning.py:get_auto_logical_mesh_tpu"]}
{"id": "C43", "title": "Parameter partitioning rules: first match wins, scalars are replicated", "statement": "Each leaf gets the partition spec of the first rule whose regex matches its path, provided it has more than one element; all others are replicated. The tree structure is unchanged.", "quantifier": "every parameter tree and rule list", "why_tests_cant": "All trees and rule lists.", "anchors": ["vmoe/partitioning.py:tree_axis_resources_from_regexes"]}
{"id": "C44", "title": "Frozen parameters never change", "statement": "Parameters that match the frozen pattern (or do not match the trainable pattern) keep their initial value for ever, for every sequence of gradients, base optimizer, weight decay, clipping and schedule; other parameters receive exactly the unfrozen update.", "quantifier": "every training history of any length", "why_tests_cant": "All histories.", "anchors": ["vmoe/train/optimizer.py:freeze_weights", "vmoe/train/optimizer.py:create_optimizer"]}
{"id": "C45", "title": "Weight decay and gradient scaling: first matching rule, right parameter", "statement": "Each parameter's update gets the decay (or scale) of the first rule whose regex matches its own name, times its own value, and parameters without match are unchanged; no decay configured is the identity.", "quantifier": "every parameter tree, rule list, updates", "why_tests_cant": "All trees; positional pairing bugs only show for special key orders.", "anchors": ["vmoe/train/optimizer.py:add_decayed_weights", "vmoe/train/optimizer.py:gradient_scaling"]}
{"id": "C46", "title": "Gradient clipping bounds the update", "statement": "With absolute clipping every component is within the bound; with global-norm clipping the global norm does not exceed the bound and the direction is unchanged; gradients within the bound are unchanged; configuring both raises.", "quantifier": "every gradient tree and bound", "why_tests_cant": "All real vectors.", "anchors": ["vmoe/train/optimizer.py:gradient_clipping"]}
{"id": "C47", "title": "Learning-rate schedules", "statement": "Warmup schedules start at zero, rise linearly to the peak exactly at the end of the warmup, are continuous there, never exceed the peak, and stay between end and peak values afterwards; the rsqrt schedule with cooldown ends at zero and is never negative up to decay_steps; the exponential schedule loses one factor of the rate for every transition_steps steps and never falls below the end value. decay_steps is the given value or, when not given, the total number of steps. An unknown schedule is refused.", "quantifier": "every step and schedule parameters", "why_tests_cant": "All steps and parameters.", "anchors": ["vmoe/train/schedule.py:warmup_polynomial_decay_schedule", "vmoe/train/schedule.py:big_vision_rsqrt_schedule", "vmoe/train/schedule.py:create_learning_rate_schedule"]}
{"id": "C48", "title": "Gradient accumulation equals the full batch gradient", "statement": "Accumulating over microsteps uses every example of the batch in exactly one microstep and, for losses that are means over examples, returns the same gradient and metrics as one pass over the whole batch.", "quantifier": "every batch size, number of microsteps that divides it, per-example gradient", "why_tests_cant": "All batch sizes and functions.", "anchors": ["vmoe/train/trainer.py:accumulate_gradients_and_metrics"]}
{"id": "C49", "title": "Mixup is a convex combination within each device", "statement": "Mixed images and labels use the same non-negative weights summing to one, the largest weight on the original example; only examples on the same device block are mixed; mixed label distributions still sum to one and the batch sum is preserved for batch-level weights.", "quantifier": "every batch, number of mixed examples, sampled weights", "why_tests_cant": "All weights and sizes.", "anchors": ["vmoe/train/trainer.py:mixup"]}
{"id": "C50", "title": "Training length from steps or epochs", "statement": "Exactly one of steps and epochs must be given; the number of steps is the least one covering epochs times dataset size, and the reported number of epochs is consistent.", "quantifier": "every combination of arguments", "why_tests_cant": "All values, including zero and missing.", "anchors": ["vmoe/train/trainer.py:get_train_steps_and_epochs"]}
{"id": "C51", "title": "Checkpoint labels equal the number of applied updates, across crashes", "statement": "In any history of training runs with crashes at arbitrary points and restarts from the latest checkpoint, the checkpoint labelled k holds a state on which exactly k updates have been applied, and a run that completes leaves a checkpoint labelled with the total number of steps.", "quantifier": "every crash/restart history, checkpoint schedule and data", "why_tests_cant": "All histories.", "anchors": ["vmoe/train/trainer.py:train_and_evaluate", "vmoe/train/trainer.py:restore_or_create_train_state"]}
{"id": "C52", "title": "Restored state is never overwritten by fresh initialization", "statement": "When creating missing parts of a train state, every leaf that already holds an array is returned unchanged, and precisely the leaves that are placeholders get initialized values.", "quantifier": "every partially restored state", "why_tests_cant": "All subsets of leaves.", "anchors": ["vmoe/train/trainer.py:create_or_reuse_train_state"]}
{"id": "C53", "title": "Summary names identify tensor entries", "statement": "The names generated for the entries of one summarized tensor are pairwise different and as many as the entries; tensors with more entries than the limit raise.", "quantifier": "every shape and limit", "why_tests_cant": "All shapes.", "anchors": ["vmoe/train/tree_summarizer.py:TreeSummarizer"]}
{"id": "C54", "title": "Mapped initialization assigns each target at most once and preserves the rest", "statement": "Mapping a source checkpoint onto a target: every source entry is handled by its first matching rule; a target array is assigned by at most one source unless all its sources are stacked (in the natural order of their names), otherwise an exception is raised; arrays that are not assigned keep their value; the result has the structure of the target; with strict flags success implies that all target arrays are assigned and all sources matched by a rule.", "quantifier": "every source/target dictionary and rule list", "why_tests_cant": "All dictionaries and rule lists.", "anchors": ["vmoe/initialization/mapping.py:map_state_dict", "vmoe/initialization/rules.py:Rules"]}
{"id": "C55", "title": "Stacked parameters are in natural order", "statement": "When several source parameters are stacked in a target, they are stacked in increasing numeric order of the numbers in their names (block_2 before block_10).", "quantifier": "every set of source names", "why_tests_cant": "All names, including signs and decimal points.", "anchors": ["vmoe/initialization/mapping.py:_natural_sort"]}
{"id": "C56", "title": "Initialization transformations have the advertised effect", "statement": "Tiling gives every new expert a copy of the source; reshape, squeeze, stack keep all elements; the assigned array has the shape and type of the target, and with raise_if_shape_mismatched (the default) a shape mismatch raises instead of silently broadcasting.", "quantifier": "every array and shape", "why_tests_cant": "All shapes.", "anchors": ["vmoe/initialization/rules.py:ExpandTileTransformation", "vmoe/initialization/rules.py:ReshapeTransformation", "vmoe/initialization/rules.py:SqueezeTransformation", "vmoe/initialization/rules.py:StackTransformation"]}
{"id": "C57", "title": "Position embedding zoom keeps class token and grid shape", "statement": "The number of tokens is accepted exactly if it is a square, or a square plus one (class token). The result has the target's shape: its grid is the zoomed grid of the source, and its class token, if the target has one, is the source's if the source has one and otherwise the target's.", "quantifier": "every number of tokens", "why_tests_cant": "All integers; integer square root corner cases.", "anchors": ["vmoe/initialization/rules.py:VitZoomTransformation._get_tok_and_grid_shape"]}
{"id": "C58", "title": "Few-shot subsets", "statement": "The few-shot train set contains, for each class, exactly min(shots, available) of the valid examples of that class, all different, and no example with a label out of range; the set for fewer shots is contained in the set for more shots with the same seed; with at least as many shots as examples the accuracy does not depend on the seed. The results have exactly one entry per pair of shots and regularization.", "quantifier": "every label vector, shot count and random permutation", "why_tests_cant": "All permutations and labels.", "anchors": ["vmoe/evaluate/fewshot.py:_compute_fewshot_metrics", "vmoe/evaluate/fewshot.py:FewShotPeriodicAction"]}
{"id": "C59", "title": "Few-shot linear regression solves the ridge problem", "statement": "For every positive regularization the weights computed from the cached eigendecomposition are the unique minimum of the regularized least squares objective of the standardized features, in both the wide and the tall formulation. So the accuracy does not depend on the eigendecomposition, on the order of the examples, or on a constant added to all features; it is a fraction of the test examples, predicted as the first class with the highest linear score.", "quantifier": "every feature/label matrix over the reals and positive regularization", "why_tests_cant": "Algebraic identity over all matrices.", "anchors": ["vmoe/evaluate/fewshot.py:_precompute_cache", "vmoe/evaluate/fewshot.py:_compute_fewshot_metrics"]}
{"id": "C60", "title": "Ensemble evaluation averages probabilities", "statement": "The ensemble prediction is the mean of the members' probabilities: class probabilities sum to one, are invariant under permuting the members of an example, and reduce to the single model when all members agree; the evaluation loss is the cross entropy of the mean probabilities and never exceeds the mean training loss of the members; the predicted class is the first with the highest mean probability.", "quantifier": "every logits tensor and ensemble size", "why_tests_cant": "Inequality over all reals.", "anchors": ["vmoe/evaluate/ensemble.py:_ensemble_log_mean", "vmoe/evaluate/ensemble.py:ensemble_softmax_xent_eval", "vmoe/evaluate/ensemble.py:ensemble_sigmoid_xent_eval", "vmoe/evaluate/ensemble.py:label_pred_ensemble_softmax"]}
{"id": "C61", "title": "Adversarial images stay within the allowed distance", "statement": "For any number of updates and any gradients, the attacked image differs from the original by at most max_epsilon in each component, and constant-sign gradients attain it. It is not clipped to the range of pixel values.", "quantifier": "every image, gradient sequence and number of updates", "why_tests_cant": "Invariant over all gradient sequences.", "anchors": ["vmoe/projects/adversarial_attacks/attacks.py:stateless_attack_pgd"]}
{"id": "C62", "title": "Attack statistics only count real examples and are bounded", "statement": "Numbers of correct predictions and of changes are sums over valid examples only and do not depend on the batching; the reported rates are bounded by one. An attack that changes nothing reports no change, except that a token which no expert serves is counted as a routing change.", "quantifier": "every sequence of batches", "why_tests_cant": "All sequences.", "anchors": ["vmoe/projects/adversarial_attacks/attacks.py:stateful_attack", "vmoe/projects/adversarial_attacks/attacks.py:AttackState", "vmoe/projects/adversarial_attacks/attacks.py:sum_intersection_over_union"]}
{"id": "C63", "title": "Stored examples are written completely and in order", "statement": "Whatever the (non-zero) transfer period and the calls before, after write() the file contains, for every name, exactly the rows stored with that name, each once, in the order stored; write() never fails and writes no file when nothing was stored.", "quantifier": "every sequence of stored batches and transfer period", "why_tests_cant": "All histories.", "anchors": ["vmoe/projects/adversarial_attacks/lib.py:ExampleStorage"]}
{"id": "C64", "title": "Contrastive embeddings are normalized and the loss is symmetric", "statement": "Embeddings have norm below one, so logits differ from the bias by less than the scale; logits are computed from exactly the embeddings returned for images alone and texts alone; the sigmoid loss is the sum of the pair losses, non-negative, invariant when images and texts are permuted together or exchanged, rejects non-square logits, and a loss below log 2 means that the image is matched to its own text.", "quantifier": "every embedding matrix over the reals", "why_tests_cant": "Real inequalities.", "anchors": ["vmoe/projects/contrastive/trainer.py:sigmoid_loss", "vmoe/projects/contrastive/models.py:TwoTower"]}
{"id": "C65", "title": "Label encodings", "statement": "The multi-hot encoding of a list of labels is `on` exactly at the labels and `off` elsewhere, no matter how often a label occurs; it rejects labels out of range, for which the one-hot encoding is all `off`; for one label both agree.", "quantifier": "every depth, on and off value, list of labels", "why_tests_cant": "All label lists with repetitions and out of range values.", "anchors": ["vmoe/data/pp_ops.py:onehot"]}
{"id": "C66", "title": "The hardware mesh holds every device at its coordinates", "statement": "When the coordinates of the devices fill a box without repetition, get_hardware_mesh_other/_tpu return an array of that shape with every device at its own coordinates. Irregular or colliding coordinates are not detected: they raise IndexError or silently lose devices.", "quantifier": "every list of devices and coordinates", "why_tests_cant": "All device layouts; tests use a few regular ones.", "anchors": ["vmoe/partitioning.py:get_hardware_mesh_other", "vmoe/partitioning.py:get_hardware_mesh_tpu", "vmoe/partitioning.py:get_device_coords_other"]}
{"id": "C67", "title": "Tiling by process makes the devices of every process contiguous", "statement": "get_logical_mesh_tile_by_process returns a mesh where the devices of every process form a contiguous slice, as its documentation says, when no axis of the hardware mesh has several partitions, several replicas and several devices per process; without that condition the documented claim is false. Under the same condition the mesh returned by get_logical_mesh has contiguous processes, too.", "quantifier": "every hardware mesh, partition shape and local shape", "why_tests_cant": "All shapes of any rank.", "anchors": ["vmoe/partitioning.py:get_logical_mesh_tile_by_process", "vmoe/partitioning.py:get_logical_mesh", "vmoe/partitioning.py:get_hardware_mesh_local_shape"]}
{"id": "C68", "title": "Plain SGD training follows the textbook update", "statement": "Creating the optimizer 'sgd' with a weight decay and a schedule, and applying any sequence of gradients shaped like the parameters, never fails; after n updates the step is n and the next update changes every parameter p to p - lr(n) * (g + decay * p).", "quantifier": "all parameter trees, gradient sequences, schedules, decays", "why_tests_cant": "Tests check one or two updates of one tree with fixed gradients.", "anchors": ["vmoe/train/optimizer.py:create_optimizer", "vmoe/train/train_state.py:TrainState.apply_gradients_and_compute_global_norms"]}
{"id": "C69", "title": "A crash loses a bounded number of updates", "statement": "With a checkpoint every `every_steps` steps, a training process killed at any moment (also while a checkpoint is being written in the background) is at most 2*every_steps updates ahead of the state that the next process restores.", "quantifier": "all histories of runs, crashes, background writes and deletions", "why_tests_cant": "Needs all interleavings of training, asynchronous checkpoint writes and crashes.", "anchors": ["vmoe/train/trainer.py:train_and_evaluate", "vmoe/train/trainer.py:create_checkpoint_manager", "vmoe/train/trainer.py:restore_or_create_train_state"]}
{"id": "C70", "title": "Choice of the few-shot regularization", "statement": "The regularization chosen for a number of shots is one of the given ones and no other has a higher accuracy in all data sets (with one data set it has the highest accuracy). Ties are ranked by position, so it may be worse in one data set and better in none.", "quantifier": "every table of accuracies and every valid argsort", "why_tests_cant": "All tables with ties; np.argsort is not stable.", "anchors": ["vmoe/evaluate/fewshot.py:_find_best_l2_reg"]}
{"id": "C71", "title": "Dense dispatcher and default dispatch weights", "statement": "A MoE layer with the dense dispatcher (no capacity, every token to every expert) gives exactly the gate-weighted sum of all experts, equal to top-K routing with K = number of experts and enough capacity. An einsum dispatcher without explicit dispatch weights dispatches a token to a slot exactly if its combine weight is positive, so the layer equals the one with explicit weights when gates are non-negative; with negative gates it differs.", "quantifier": "every number of groups, tokens, experts, every gates, parameters and inputs", "why_tests_cant": "The claims are identities of functions for all shapes and gate values.", "anchors": ["vmoe/moe.py:EinsumDispatcher", "vmoe/moe.py:sparse_moe_spmd", "vmoe/nn/routing.py:NoisyTopExpertsPerItemRouter"]}
{"id": "C72", "title": "MlpMoeBlock end to end", "statement": "For inputs of shape (B, T, H) the block splits the B*T tokens in row-major order into groups, and each token's output is the sum over its top-K experts that still had capacity of (softmax gate of the possibly noisy logits) * expert(token); the output has the shape of the input. A group size that does not divide the number of tokens raises TypeError (failed reshape). Outputs depend only on tokens (and noise) of the same group; with group size = T each sequence is independent of the rest of the batch; outputs are bounded by the largest expert output.", "quantifier": "every B, T, H, group size, router configuration, kernel, noise, expert functions", "why_tests_cant": "Composition of regrouping, routing, capacity and dispatch for all shapes and values.", "anchors": ["vmoe/nn/vit_moe.py:MlpMoeBlock", "vmoe/nn/routing.py:NoisyTopExpertsPerItemRouter", "vmoe/moe.py:sparse_moe_spmd"]}
{"id": "C73", "title": "Structure of the encoders with MoE layers", "statement": "Encoder block i uses a MoE layer exactly if i is in the list of MoE layers (duplicates, order and ids out of range have no effect); each block adds attention and then the MLP or MoE layer with residual connections. The metrics contain one entry per MoE block, under its own name, and auxiliary_loss, the sum of their auxiliary losses (zero without MoE blocks). The ensemble encoder repeats the batch exactly once, right before the first MoE block (never without MoE blocks), and with one member equals the plain encoder; a missing or non-positive ensemble size is a ValueError even without MoE blocks.", "quantifier": "every number of blocks, list of MoE ids, ensemble size, batch and layer functions", "why_tests_cant": "All lists of ids and numbers of layers.", "anchors": ["vmoe/nn/vit_moe.py:EncoderMoe", "vmoe/nn/vit_moe.py:EncoderBlock", "vmoe/nn/vit_moe_ensemble.py:EncoderMoeEnsemble"]}
{"id": "C74", "title": "Sparsity-constrained transport routers", "statement": "With softmax combine weights, a token's output is the sum over the experts selected by the transport plan (and not over capacity) weighted by the softmax gates; the indices dispatcher rejects this option with TypeError. Whatever the dual solver returns, a row-sparse plan gives each token a probability vector with at most num_selected_experts entries, all of them among its selected experts, and a column-sparse plan gives each expert exactly group_size / num_experts from at most capacity tokens, all of them selected; so without softmax combine weights no part of the plan is lost (item choice: if there is room). The maximum operator is the true maximum over k-sparse probability vectors and its returned gradient is a subgradient. Reported experts per item are between 1 and num_selected_experts.", "quantifier": "every logits, plan, dual variable, group size, numbers of experts and selected experts, capacity, expert functions", "why_tests_cant": "All real matrices and all possible (unconverged) results of the solver.", "anchors": ["vmoe/projects/sparsity_constrained_ot/ot_routing.py", "vmoe/projects/sparsity_constrained_ot/ksparse_projection_routing.py"]}
{"id": "C75", "title": "KL projection (Sinkhorn) routers", "statement": "After at least one iteration the Sinkhorn plan gives every token a probability distribution over the experts with positive entries, and the total mass is the group size; more iterations never make the bounds on the expert loads worse; adding a constant to the logits of an expert does not change the plan. With softmax combine weights, noise in the item-choice router changes only which experts are selected, never the weights; in the expert-choice router it changes both. The weighted sum of the auxiliary losses takes exactly the terms with positive weight, NaN included.", "quantifier": "every logits, noise, number of iterations, tokens and experts, weights", "why_tests_cant": "All real matrices and all numbers of iterations.", "anchors": ["vmoe/projects/sparsity_constrained_ot/kl_projection_routing.py", "vmoe/projects/sparsity_constrained_ot/ot_routing.py:_weighted_sum"]}
{"id": "C76", "title": "Ensemble MoE block equals independent blocks per member", "statement": "With ensemble_size M, E = M*n experts and group_size = s*M where s divides (images*tokens), MlpMoeWithNoisyTopExpertsPerItemEnsembleRouter applied to the repeated batch returns an output of shape (B*M, T, O) in which the rows of member m (b*M + m) are exactly the output of a plain MlpMoeBlock with n experts, group_size s, the gating parameters and noise of member m and the experts m*n..m*n+n-1, applied to the rows of member m alone (provided both compute the same capacity, which holds for a given capacity, or for a capacity factor up to float rounding). Hence changing inputs, noise, gating parameters or experts of other members never changes the predictions of a member. A missing or non-positive ensemble size, E or group_size not multiple of M, or more selected experts than experts per member raise ValueError; a group size that does not divide the tokens raises TypeError.", "quantifier": "for all batches, member parameters, noise, experts, capacities, priorities and dispatcher kinds", "why_tests_cant": "the equality involves reshapes, block-diagonal gates, tie breaking and capacity competition for every shape and every real input; tests only compare a few random shapes", "anchors": ["vmoe/nn/vit_moe_ensemble.py:MlpMoeWithNoisyTopExpertsPerItemEnsembleRouter", "vmoe/nn/ensemble_routing.py:NoisyTopExpertsPerItemEnsembleRouter", "vmoe/nn/vit_moe.py:MlpMoeBlock"]}
{"id": "C77", "title": "Reports of the periodic evaluation on several datasets", "statement": "EvaluateMultipleDatasets, called at any sequence of steps: each dataset is compiled exactly once (during the first call); each call writes exactly one report, at its own step, containing for every dataset the accuracy and loss averaged over all valid examples of that dataset with the parameters of that call, regardless of how many evaluations came before; keyword arguments that are not None are added to the report and win over computed values of the same name; nothing else is reported; afterwards every dataset is again at its beginning. A dataset without valid examples reports a value that is not finite instead of failing.", "quantifier": "for all sequences of calls, datasets (with distinct names), batchings, parameters and keyword arguments", "why_tests_cant": "the claim is about unbounded sequences of calls with iterators that keep state between calls and a cache; tests call the action once or twice", "anchors": ["vmoe/evaluate/evaluator.py:EvaluateMultipleDatasets"]}
{"id": "C78", "title": "Expert-choice MoE block end to end", "statement": "Calling MlpMoeBlock with router NoisyTopItemsPerExpertRouter on any batch: each token receives the sum, over the experts that have it among their `capacity` highest gates inside its group (ties to the earlier token), of gate times expert(token), where the gates are the softmax over experts of the gating logits plus noise of size noise_std/num_experts (none if deterministic); a token chosen by nobody receives zero; in every group every expert processes exactly `capacity` tokens; the auxiliary loss is 0 and the metrics are those of the token gates of the group; outputs depend only on the token's own group and are never amplified; with bfloat16 exactly inputs and outputs of experts are rounded. The call fails exactly for: a group size not dividing the tokens, missing options, bad capacity options, a dispatcher other than einsum, capacity above the group size, unknown options, no experts.", "quantifier": "all batch shapes, group sizes, numbers of experts, kernels, noise, expert functions, options", "why_tests_cant": "The unit tests fix one small shape and check shapes or metrics keys; the per-token value for every batch, tie pattern and option needs a proof.", "anchors": ["vmoe/nn/routing.py:NoisyTopItemsPerExpertRouter", "vmoe/nn/vit_moe.py:MlpMoeBlock", "vmoe/moe.py:get_top_items_per_expert_dispatcher"]}
{"id": "C79", "title": "Which option wins when modules are built from configuration", "statement": "Building routers, MLPs, encoder blocks, models and towers from configuration dictionaries: (a) MlpMoeBlock.create_router gives the router num_experts, dtype and name of the layer, `deterministic` of the router options else of the layer, and every other option from the router options, else from the call string, else the class default; num_experts or dtype among the router options, dtype or name in the call string, unknown, repeated or missing options are TypeErrors. (b) The ensemble layer does the same and always uses its own ensemble_size (ValueError if missing or not positive). (c) MLPs of MoE blocks take mlp_dim and dropout_rate from the `moe` options else from the encoder, always dtype/deterministic of the encoder, never `layers`; dense MLPs never see the `moe` options. (d) Every encoder block gets the options of the encoder (the ensemble encoder drops attention_qk_norm). (e) create_flax_model rejects options given twice and leaves a ConfigDict unchanged, but removes the name of a plain dict. (f) Tower options win over their call string. (g) split_rngs selects exactly the named generators.", "quantifier": "all option dictionaries, call strings, classes and defaults", "why_tests_cant": "Tests build a few configurations; silent precedence mistakes only show for the combinations not tried.", "anchors": ["vmoe/nn/vit_moe.py:MlpMoeBlock.create_router", "vmoe/nn/vit_moe.py:MlpMoeBlock.create_split_rngs", "vmoe/nn/vit_moe.py:EncoderMoe", "vmoe/nn/vit_moe_ensemble.py:MlpMoeWithNoisyTopExpertsPerItemEnsembleRouter.create_router", "vmoe/nn/vit_moe_ensemble.py:EncoderMoeEnsemble", "vmoe/utils.py:partialclass", "vmoe/train/trainer.py:create_flax_model", "vmoe/projects/contrastive/models.py:TwoTower"]}
{"id": "C80", "title": "Vision transformer: patches, class token, position embeddings and pooling", "statement": "VisionTransformerMoe turns every image into one token per complete patch, row by row; each token depends only on the pixels of its patch, and pixels beyond the last complete patch never influence the result. With classifier 'token' the class token comes first, otherwise there is none. The encoder gets the configured position_emb, except that 'sincos2d' always gets h and w of the grid of patches (whatever was configured), without changing the configuration. sincos2d is then accepted exactly if the hidden size is a multiple of 4 and at least 8; the token of the patch in row i and column j gets the embedding of (i, j), the class token gets none; different cells have different embeddings for every grid size and temperature, and all embeddings have the same norm. The output uses the first token ('token', '0'), the mean ('gap') or attention pooling ('map'), ValueError for other classifiers; without classes the representation is returned. position_emb 'learned' (default), 'none' and unknown names behave as documented.", "quantifier": "all images, patch sizes, hidden sizes, parameters, encoders, grid sizes and temperatures", "why_tests_cant": "Tests check shapes on a few sizes; injectivity of the embedding over all grids and independence of the border pixels are universal statements.", "anchors": ["vmoe/nn/vit_moe.py:VisionTransformerMoe", "vmoe/nn/vit_moe.py:EncoderMoe.add_position_emb"]}
{"id": "C81", "title": "Text transformer: embedding, pooling and head", "statement": "TextTransformer gives the encoder the embedded tokens of every text in their order and the configured position_emb (sincos2d is a ValueError before the encoder runs). From the encoder output it returns, per text, the last token ('last'), the first ('first'), the mean ('gap'), the maximum of every feature ('gmp') or the attention pooling ('map'); NotImplementedError for other values. With a positive number of classes the head is applied to this vector; with None or 0 the vector itself is returned.", "quantifier": "all texts, embedding tables, encoders, pooling types and numbers of classes", "why_tests_cant": "Tests run one or two configurations on random data and check shapes.", "anchors": ["vmoe/projects/contrastive/models.py:TextTransformer"]}
{"id": "C82", "title": "No random key is used twice in a training run", "statement": "Initialize a model with distinct names of random keys and train it with any microsteps, adversarial training and mixup. All keys used by the initialization, by each microstep, by each update of the attack and for the weights of mixup are different under ideal splitting; no key used in a step is derived from another one used in a step, and the keys kept in the state are not derived from any used key. The state keeps the same names of keys and counts the steps.", "quantifier": "for all models, optimizers, configurations of microsteps/attack/mixup, lists of extra key names, seeds and sequences of batches", "why_tests_cant": "Reuse of a key correlates random numbers silently: results remain plausible. Tests run one or two steps of one configuration and do not compare keys across steps, wrappers and microsteps.", "anchors": ["vmoe/train/trainer.py:train_step", "vmoe/train/trainer.py:wrap_train_step_with_adversarial_attack", "vmoe/train/trainer.py:wrap_train_step_with_mixup", "vmoe/utils.py:make_rngs", "vmoe/utils.py:tree_rngs_split", "vmoe/projects/adversarial_attacks/attacks.py:stateless_attack_pgd"]}
{"id": "C83", "title": "A train step applies the averaged gradient of main plus auxiliary loss, and reports consistent metrics", "statement": "With m microsteps (dividing the batch of each device), microstep j takes every m-th example starting from j, with keys of its own; its loss is the mean loss of these examples plus the mean auxiliary loss reported by the model. The parameters change by the update the optimizer computes from the average of the m gradients, the step advances by one, and new keys are kept. Reported metrics are averages over the microsteps, total_loss = main_loss + auxiliary_loss, and the global norms are those of the averaged gradients, of the updates and of the new parameters. Without microsteps (None or <= 0) the step is the one with m = 1.", "quantifier": "for all models, losses, optimizers, states, batch sizes, numbers of devices and microsteps", "why_tests_cant": "Tests check shapes or one numeric case with one optimizer; that accumulation, auxiliary losses, keys and metrics agree for every number of microsteps is a statement about all of them.", "anchors": ["vmoe/train/trainer.py:train_step", "vmoe/train/train_state.py:TrainState", "vmoe/train/trainer.py:accumulate_gradients_and_metrics"]}
{"id": "C84", "title": "Initialization from a checkpoint maps exactly the saved arrays", "statement": "Save a nested dict of sharded arrays from all processes, then initialize another tree from this checkpoint. Saving succeeds on all processes; restoring gives a tree with the same paths, and at each path the saved shape, type and values, whatever the number of shard files, limit of bytes, shardings of the saved and of the restored arrays, and number of devices. The initialized tree is the one obtained by applying the rules directly to the saved arrays. A checkpoint index with an unknown version is refused with ValueError; one without a version is only accepted if it has the structure of the target.", "quantifier": "for all trees, shardings, numbers of processes and shards, byte limits, rules and targets", "why_tests_cant": "Tests use one mesh and a mock of the restore; that the resharding between two arbitrary layouts does not alter or move any entry is a statement about all layouts.", "anchors": ["vmoe/initialization/initialization.py:initialize_from_vmoe", "vmoe/checkpoints/partitioned.py:save_checkpoint", "vmoe/checkpoints/partitioned.py:restore_checkpoint"]}
{"id": "C85", "title": "Periodic evaluations and reports run when configured, and see the right parameters", "statement": "In a training run from init_step, every evaluation hook (evaluation, few-shot, retrieval, zero-shot) runs exactly in the first and the last step, in the multiples of every_steps, in the given on_steps, and when more than every_secs passed since it last ran; at most once in a step, after the report of progress and the checkpoint of the step. It gets the parameters after exactly the updates of the steps so far and the training cost flops-per-device * step * devices. The hooks never make the training fail, and without every_secs all processes run the same evaluations.", "quantifier": "for all models, updates, configurations of the hooks, clocks, processes, numbers of steps and batches", "why_tests_cant": "Tests mock the hooks or run two or three steps; which of the triggers fires depends on the history of all previous calls and on the clock of every process.", "anchors": ["vmoe/train/trainer.py:create_evaluation_hook", "vmoe/train/trainer.py:create_fewshot_hook", "vmoe/train/trainer.py:create_progress_hook", "vmoe/train/trainer.py:make_train_cost_fn", "vmoe/train/trainer.py:train_and_evaluate", "vmoe/train/periodic_actions.py:ReportProgress", "vmoe/projects/contrastive/trainer.py:create_retrieval_hook", "vmoe/projects/contrastive/trainer.py:create_zeroshot_hook"]}
{"id": "C86", "title": "The automatic mesh on CPU and GPU", "statement": "With H processes that have D CPU/GPU devices each, get_auto_logical_mesh(n, devices) returns exactly if min(n, H*D) divides D, or is D*q with q dividing H, and raises ValueError otherwise. The layout is fixed: the partitions are first spread over the devices of a process, the device at each (expert, replica) position is given by a formula, the devices of every process form a contiguous slice, and neither the order of the list of devices nor the process that runs the function changes the result.", "quantifier": "every number of partitions, processes and devices per process, every order of the devices", "why_tests_cant": "Tests use fixed small meshes; agreement between processes cannot be observed in a single process.", "anchors": ["vmoe/partitioning.py:get_auto_logical_mesh", "vmoe/partitioning.py:get_auto_logical_mesh_other", "vmoe/partitioning.py:get_device_coords_other", "vmoe/partitioning.py:get_hardware_mesh_other", "vmoe/partitioning.py:get_logical_mesh"]}
{"id": "C87", "title": "Rules of the initialization config", "statement": "Rules.parse succeeds exactly if every rule is a Rule object, (regex, replacement) or (regex, replacement, transformation, args...) with one of the known transformations and its number and type of arguments; it keeps the order, objects stay themselves, a replacement that is None or '' without transformation drops the arrays, and otherwise the first wrong rule decides the exception (ValueError for fewer than two items or an unknown transformation, AssertionError for wrong arguments). When map_state_dict with these rules then succeeds, every target array either keeps its value because no source name is sent to its name, or is made from exactly one source as the rule says (copied, reshaped in row-major order, squeezed, tiled along new axes, zoomed), or is the stack of all sources sent to it, in natural order; the first rule whose regex is found in a name is the one used.", "quantifier": "every list of rules, every regular-expression library, all source and target trees, all arrays", "why_tests_cant": "The tests use single rules on a few arrays; the claim is about every list of rules and how parsing, first match and the transformation work together.", "anchors": ["vmoe/initialization/rules.py:Rules.parse", "vmoe/initialization/rules.py:Rules.find", "vmoe/initialization/rules.py:RegexRule", "vmoe/initialization/rules.py:ReshapeRule", "vmoe/initialization/rules.py:StackRule", "vmoe/initialization/mapping.py:map_state_dict"]}
{"id": "C88", "title": "SGD with momentum, clipping, decay and freezing is the documented update", "statement": "With the SGD optimizer and any momentum (Nesterov or not), gradient scaling rules, clipping, weight decay and frozen or trainable pattern accepted by create_optimizer, training with gradients of the shape of the parameters never fails and the step counts the updates. Update n scales each gradient by its first matching rule, clips the result, accumulates the momentum trace, adds the weight decay of the parameter's name, multiplies by minus the learning rate of step n and leaves exactly the frozen parameters unchanged; the momentum of a frozen parameter still advances.", "quantifier": "for all configurations with positive clipping bounds, parameter trees, numbers of updates and gradients", "why_tests_cant": "the order of the six transformations and the state of the momentum and of the step count interact over any number of updates; tests check a few updates of single transformations", "anchors": ["vmoe/train/optimizer.py:create_optimizer", "vmoe/train/optimizer.py:trace_momentum", "vmoe/train/train_state.py:TrainState"]}
{"id": "C89", "title": "Concurrent reading of checkpoint files", "statement": "Restoring a checkpoint with a thread pool reads every needed shard file exactly once whatever the threads do, never gets stuck, and at any time reads at most one file per thread and per task. With max_concurrent_bytes=m and files of equal size, the bytes read at the same time are at most 1.5*m plus one file; m itself is not a maximum, and with files of different sizes there is no bound by m. None or 0 means one file per task for up to four files per thread.", "quantifier": "all sets of files and sizes, numbers of threads, maxima, and all interleavings of the threads", "why_tests_cant": "the schedules of the threads and the sizes of the files are not controlled by tests; the tests restore two small files without a maximum", "anchors": ["vmoe/checkpoints/partitioned.py:_restore_checkpoint_from_index", "vmoe/checkpoints/partitioned.py:restore_checkpoint"]}
{"id": "C90", "title": "Metrics of the soft router", "statement": "For at least two items (slots), the reported combine (dispatch) weights similarity minimum and maximum are the minimum and maximum of the cosine similarity over the pairs of different items (slots) of the same group, both in [0, 1), and the reported mean is at most 1e-9 * length / (count - 1) below the mean over those pairs. The minimum of the similarities of mu is exact too; the reported maximum is max(0, maximum). The mean of the smallest weights is at most, that of the largest at least, one over the number of weights.", "quantifier": "all groups, items, experts, slots, logits, parameters mu", "why_tests_cant": "the tests of the router check shapes and a few weights, never the metrics; the masking of the diagonal depends on the sign of all similarities", "anchors": ["vmoe/projects/soft_moe/router.py:SoftRouter.get_metrics", "vmoe/projects/soft_moe/router.py:cosine_psim"]}
{"id": "C91", "title": "Contrastive loss with microsteps", "statement": "Without microsteps (None or at most zero) the loss of a contrastive train step is the mean over the images of the sum of the sigmoid losses of all pairs of an image and a text of the batch, and the gradient is its derivative. With m microsteps (batch divisible per device) the loss and the gradient are those of the pairs (x, y) with x % m = y % m only, plus the mean of the auxiliary losses of the microsteps: the losses of the other pairs, all positive, are left out, so that with m > 1 the reported main loss is smaller for every batch. Different numbers of images and texts are a ValueError. (For the models of the repository this last part is zero, see C154.)", "quantifier": "all batches, numbers of devices and microsteps, differentiable models, parameters and generators", "why_tests_cant": "the tests mock the accumulation or use one microstep; the set of pairs in the loss depends on the order in which the batch is cut into microsteps", "anchors": ["vmoe/projects/contrastive/trainer.py:train_step", "vmoe/projects/contrastive/trainer.py:sigmoid_loss", "vmoe/train/trainer.py:accumulate_gradients_and_metrics"]}
{"id": "C92", "title": "Experts and predictions seen by the attack statistics", "statement": "get_combine_weights returns one table per captured router, under its path and from its first call, and after the reshape row t of image b is that of the item of the MoE layer which token t of image b is. For positive gates the experts counted for a token are: with the einsum dispatcher (also within Bfloat16Dispatcher) those that serve it, with expert choice those that select it, with the indices dispatcher all selected ones, also those that drop it; both agree when nothing is dropped. The prediction is the first class with the largest logit and correct is its label. Any other dispatcher is a TypeError.", "quantifier": "all groups, items, experts, capacities, positive gates, batch sizes, nested collections", "why_tests_cant": "the test of the repository checks one small table per dispatcher; agreement of the dispatchers depends on what is dropped", "anchors": ["vmoe/projects/adversarial_attacks/restore.py:get_combine_weights", "vmoe/projects/adversarial_attacks/restore.py:compute_loss_predict_cw_fn"]}
{"id": "C93", "title": "Reports of the few-shot evaluation", "statement": "FewShotPeriodicAction: every call writes exactly one report, at its step and with its variables, over all batches of every task and repetition, no matter how many calls came before (data sets are reset; tasks may share data sets). For every task, repetition (named name or name-seed-i) and number of shots the report has the accuracy with the chosen regularization, the chosen regularization (a given one, not worse in all tasks than another given one), durations, and for the main task the mean accuracy over the repetitions; keyword arguments that are not None win; nothing else is reported. Random keys and the choice of examples depend on the seed, the repetition and, only if asked for, the step; otherwise repeating a call repeats the report. An unknown main task raises KeyError. A task with equal splits for training and testing fails, because both are one iterator.", "quantifier": "all tasks, splits, batches, shots, regularizations, numbers of repetitions, sequences of calls, keyword arguments", "why_tests_cant": "The tests run one call on mocked data sets with one repetition; they do not show that later calls see all data, that names never collide, or what happens with shared iterators.", "anchors": ["vmoe/evaluate/fewshot.py:FewShotPeriodicAction", "vmoe/evaluate/fewshot.py:_get_datasets", "vmoe/evaluate/fewshot.py:_compute_fewshot_metrics"]}
{"id": "C94", "title": "Reports of the zero-shot and retrieval evaluations", "statement": "The function given to the evaluators embeds a batch of images as images and a batch of texts as texts, in the place of its own kind, and raises ValueError for both or none. ZeroShotPeriodicAction reports for every task its own accuracy with the variables of the call; RetrievalPeriodicAction reports every metric of both directions under its own name and the duration; keyword arguments that are not None win and nothing else is reported; a missing direction raises KeyError. The reported duration of a zero-shot task is not its own: it includes all previous tasks.", "quantifier": "all tasks, evaluators, variables, clocks, keyword arguments", "why_tests_cant": "The tests mock the evaluator with one task; they compare names on fixed inputs and no durations.", "anchors": ["vmoe/projects/contrastive/evaluators.py:ZeroShotPeriodicAction", "vmoe/projects/contrastive/evaluators.py:RetrievalPeriodicAction", "vmoe/projects/contrastive/trainer.py:create_retrieval_hook", "vmoe/projects/contrastive/trainer.py:create_zeroshot_hook"]}
{"id": "C95", "title": "Losses of the configuration", "statement": "get_loss_fn accepts exactly the names softmax_xent, sigmoid_xent, ensemble_softmax_xent and ensemble_sigmoid_xent (ValueError otherwise). The plain losses return, per example, the cross-entropy of the labels with the softmax (sigmoid) probabilities, the same for training and evaluation, and predict the first class of highest probability; they are never below the entropy of the labels. With ensemble_size=1 the ensemble losses and predictions are the plain ones. With ensemble_size=E the training loss of row b*E+e is the plain loss of that row with label b. A missing or superfluous ensemble_size is a TypeError, but only when the loss is called.", "quantifier": "for all names, numbers of classes, logits, labels, ensemble sizes", "why_tests_cant": "The equalities and the entropy bound hold for all real logits and labels; tests compare a few arrays.", "anchors": ["vmoe/train/trainer.py:get_loss_fn", "vmoe/evaluate/ensemble.py:ensemble_softmax_xent_train", "vmoe/evaluate/ensemble.py:ensemble_sigmoid_xent_train"]}
{"id": "C96", "title": "Share of every process in a dataset", "statement": "With several processes, as_dataset gives them disjoint consecutive parts of the split that together are the whole split, whose sizes differ by at most one. An evaluation dataset without filter yields exactly ceil(num_examples / batch_size) batches in every process, so that collective evaluation steps cannot hang, and all processes together see every example of the split exactly once, everything else being fake examples. get_data_num_examples(config) succeeds whenever get_dataset does and counts the same split of the same dataset (before pre_filter_fn). Files are shuffled for training only; unknown options, shuffle_files and missing options are a TypeError. The TFDS builder returned for a name and a directory is the one made by the first call with these that did not fail. A name that contains from_directory: is read from the data directory, any other is built by its name.", "quantifier": "for all splits, numbers of processes and devices, batch sizes, processing functions, orders of parallel processing, configurations, sequences of builder calls", "why_tests_cant": "Tests run in one process with mocked counts; the exact cover of the split and the equal number of batches are statements over all processes and sizes.", "anchors": ["vmoe/data/builder.py:TfdsBuilder.as_dataset", "vmoe/data/builder.py:TfdsBuilder.get_num_fake_examples", "vmoe/data/builder.py:_get_tfds_builder", "vmoe/data/input_pipeline.py:get_dataset", "vmoe/data/input_pipeline.py:get_data_num_examples"]}
{"id": "C97", "title": "Batches of the training data", "statement": "get_dataset(variant='train') gives a process that has at least one example passing the filter batches forever: every batch has exactly batch_size / process_count elements, all processed examples of this process. Whatever the order of the files, the random choices of the shuffle buffer and the timing of the parallel calls, the examples are used equally often: in the first n batches an example is used at least once per complete pass over the data except for the shuffle_buffer + num_parallel_calls - 2 elements held in the buffers, and at most once per pass begun. An error is one of the processing function on an example of the process. A process without examples (fewer examples than processes) gets no batch. Batch sizes that are not a positive multiple of the numbers of processes and devices, and empty buffers, are refused. With cache='loaded' the order of the first pass is kept.", "quantifier": "for all datasets, filters, processing functions, batch and buffer sizes, orders of files, random choices and thread timings, numbers of batches", "why_tests_cant": "The stream is infinite and nondeterministic; tests look at a few batches of one run.", "anchors": ["vmoe/data/input_pipeline.py:get_dataset", "vmoe/data/builder.py:TfdsBuilder.as_dataset"]}
{"id": "C98", "title": "Where the train state of a run comes from", "statement": "restore_or_create_train_state continues from the latest checkpoint whenever there is one, whatever initialization is configured (which is then not read), so a preempted fine-tuning run is never reinitialized. Without checkpoint and without (or with empty) initialization_kwargs, every array of the state is the one of initialize_fn. Without checkpoint and with initialization_kwargs, every array of the state is either what the rules make of the arrays of the given checkpoint assigned to it, or, if no array is assigned to it, the one of initialize_fn, and no placeholder is left; errors of the initialization are not hidden. A missing name is a TypeError and an unknown one a ValueError. Arrays of a ViT checkpoint read as raw two-byte values are used as bfloat16, and no array of a raw type is used for the model. The configured name decides which kind of checkpoint is read.", "quantifier": "for all checkpoint managers, train states (nested dicts), checkpoints, rules, flags, initialization arguments", "why_tests_cant": "The claim is about every leaf of every state, and about the combination of three sources of values; tests look at one small state.", "anchors": ["vmoe/train/trainer.py:restore_or_create_train_state", "vmoe/train/trainer.py:initialize_train_state_from_checkpoint", "vmoe/train/trainer.py:create_or_reuse_train_state", "vmoe/initialization/initialization.py:initialize_from_vit"]}
{"id": "C99", "title": "Processed images always have the requested shape, type and range", "statement": "The process strings of the configurations never raise on a decodable colour image and always give a float32 image of shape (s, s, 3) with values in [vmin, vmax], the one-hot vector of the label, the mask if there was one and nothing else, whatever the image, the random box and the flip: `decode_jpeg_and_inception_crop(s)|flip_lr|value_range|onehot|keep`, `decode|resize(s)|...` and `decode|resize_small(r)|central_crop(s)|...` with s <= r (also with the rounding of the sizes in 32-bit floats). `resize` gives exactly the requested size, keeps type and channels, and rounds 8-bit values down by less than one; None, zeros and lists that do not have two elements raise. `decode_jpeg_and_inception_crop` is `decode` and then `inception_crop`. Without a size the crop is a window of the image with at least area_min percent of it. `flip_lr` gives the image or its mirror image. central_crop to [H, W] gives height H and width W, and the window is centred up to one pixel.", "quantifier": "For every encoded image, image size, box that the sampler may choose, flip, interpolation that stays in the range of the pixels, target size, range and number of classes.", "why_tests_cant": "Images have any size and the operations are random: tests run a few images with one seed, while a single image of another shape makes the batching of a long run fail.", "anchors": ["vmoe/data/pp_ops.py:decode_jpeg_and_inception_crop", "vmoe/data/pp_ops.py:inception_crop", "vmoe/data/pp_ops.py:resize", "vmoe/data/pp_ops.py:resize_small", "vmoe/data/pp_ops.py:central_crop", "vmoe/data/pp_ops.py:flip_lr", "vmoe/data/pp_ops.py:value_range"]}
{"id": "C100", "title": "The soft MoE layer: same output in every batch, for every order of the items", "statement": "A call of the soft router and the layer using it succeeds exactly when the number of slots is defined and equals that of the stored `mu`, and there is a `gating` key whenever noise is needed (`deterministic=False` and `noise_std > 0`). Its output for an item is the mean of the expert outputs over all slots, weighted by the softmax of scale times the cosine similarity (plus noise), each slot being the weighted mean of the items of the same group. So without noise the key is not used, the output of a group does not depend on the rest of the batch or on its size, and permuting the items of a group permutes its outputs. A given `num_slots` is used for every group size; otherwise the slots per expert are capacity_factor * items / experts rounded to the nearest integer, and less than one raises.", "quantifier": "For every number of groups, items, experts, slots and features, every parameter, scale, noise, expert function and input.", "why_tests_cant": "Tests compare a few random inputs of one size; independence of the batch and equivariance are claims about all inputs, batch sizes and permutations.", "anchors": ["vmoe/projects/soft_moe/router.py:SoftRouter.__call__", "vmoe/projects/soft_moe/router.py:SoftRouter.add_noise", "vmoe/moe.py:compute_capacity"]}
{"id": "C101", "title": "Overrides of the model configuration change exactly what they name", "statement": "override_base_config gives a configuration in which every value of the override is stored (converted to the type of the value it replaces), every other value is that of the base, and nothing else is there; without override it is the base. It is accepted exactly when, under every path that both have, both are nested configurations, or the base has None, or the override has a value of a compatible type or None. The few-shot evaluation uses the overrides of the evaluation and its own ones over them.", "quantifier": "For every nested configuration, override and type rule.", "why_tests_cant": "Tests check a few keys; that no other key of a nested configuration is changed, lost or added is a claim about all configurations and all paths.", "anchors": ["vmoe/train/trainer.py:override_base_config", "vmoe/train/trainer.py:create_evaluation_hook", "vmoe/train/trainer.py:create_fewshot_hook"]}
{"id": "C102", "title": "Attention, attention pooling, and the order of the tokens", "statement": "Each head of the attention gives a mean of the values of the tokens weighted by their share of the exponentials of the scores, so a point of their convex hull. Attention pooling (`MapHead`) does not depend on the order of the tokens, is unchanged if every token is repeated equally often, and on a sequence of equal tokens depends neither on the probe nor on queries and keys. Without position embedding the encoder treats the tokens as a set: permuting the tokens of every sequence permutes the encoded tokens in the same way, for any number of blocks, dense or with a MoE layer that has this property; the soft MoE layer without noise and with one group per sequence has it. So a text model without position embedding and with pooling `gap`, `gmp` or `map` only depends on the bag of words. Pooling `first`, and a learned position embedding, do depend on the order.", "quantifier": "all parameters, numbers of heads, blocks, tokens and sequences, all permutations of each sequence", "why_tests_cant": "Invariance under all permutations and for all parameters; a test only tries a few orders of one model.", "anchors": ["vmoe/nn/vit_moe.py:MapHead", "vmoe/nn/vit_moe.py:EncoderBlock", "vmoe/nn/vit_moe.py:EncoderMoe", "vmoe/projects/contrastive/models.py:TextTransformer", "vmoe/projects/soft_moe/router.py:SoftRouter"]}
{"id": "C103", "title": "Files and reports of an attack are about the same data", "statement": "run_pgd_attack with stored examples writes, for a dataset that is not empty, one file per process at <prefix>-<index>-of-<count>, and two processes never share a file. The arrays x_0, y and valid of the file are the images, labels and masks of the whole dataset in its order; the arrays l_0, l_m, y_0, y_m, cw_0/<router> and cw_m/<router> have a row for each. The reported losses, prediction changes and routing changes are those computed from the rows of the file, relative to the number of valid examples. They do not depend on whether examples are stored. Only process 0 writes pgd_state.npz. An empty store_examples dictionary stores nothing (unlike one with only defaults written out); another restore_from than checkpoint is a ValueError.", "quantifier": "all configurations, datasets (batches and masks), attacks, models, routers, numbers of processes", "why_tests_cant": "Tests run the attack on one small dataset with a mocked model; agreement of the file with the reports concerns every sequence of batches, transfer period and model.", "anchors": ["vmoe/projects/adversarial_attacks/lib.py:run_pgd_attack", "vmoe/projects/adversarial_attacks/lib.py:ExampleStorage", "vmoe/projects/adversarial_attacks/attacks.py:stateful_attack"]}
{"id": "C104", "title": "Adafactor keeps weighted means of squared gradients and bounded updates", "statement": "With scale_by_big_vision_adafactor and decay_offset 0, training never fails. The decay rate is 0 at the first step, never decreases, and stays at or below decay_rate_max. The average of squares of an array that is not factored is after n updates a weighted mean of all n squared gradients (plus eps), with weights that depend on n only and sum to one. Without momentum updates have the sign of the gradient; with or without, no entry exceeds 1/sqrt(1-decay_rate_max). Updates with momentum are exponential averages of those without. For a factored array the product of the two averages has the row and column means of the average that is not factored, and is used in its place; if the squares are a product the update is the same. An array is factored exactly if two axes have min_dim_size_to_factor entries, over the two largest axes, so never over the experts if there are fewer experts than that (with the default it can be). A positive decay_offset makes the first update of a new optimizer not a number.", "quantifier": "all decay rates, offsets, eps, momentum, array shapes, gradients and numbers of updates", "why_tests_cant": "The tests check that the optimizer can be created; statements about averages over any number of updates and the choice of axes for all shapes are not decided by examples.", "anchors": ["vmoe/train/optimizer.py:scale_by_big_vision_adafactor"]}
{"id": "C105", "title": "The attacked loss and the direction of the attack", "statement": "The loss that is attacked is, per example, the training loss of the same name (only the two plain losses exist, ensemble losses are a ValueError); `attack_auxiliary_loss` adds the mean auxiliary loss once and raises KeyError for models without one. Every update of the attack is the steepest allowed one to first order, a small enough attack increases the loss of the batch unless its gradient vanishes, and against a linear two-class model the attack is optimal: no image within `max_epsilon` has a larger loss. If logits do not depend on the other images and the auxiliary loss is not attacked, the attacked image does not depend on the batch it is in; with the auxiliary loss it does. The attacked model is always built with deterministic=True; configuring it is a TypeError.", "quantifier": "all losses, differentiable models, batches, images, numbers of updates, sizes of the attack", "why_tests_cant": "Optimality over all images in the ball and independence of all batches are universally quantified over reals.", "anchors": ["vmoe/projects/adversarial_attacks/restore.py:get_loss_fn", "vmoe/projects/adversarial_attacks/restore.py:get_loss_including_auxiliary_fn", "vmoe/projects/adversarial_attacks/restore.py:restore_from_config", "vmoe/projects/adversarial_attacks/attacks.py:stateless_attack_pgd"]}
{"id": "C106", "title": "Announced and delivered batch arrays", "statement": "`get_dataset_shape_dtype_struct` announces, for each feature of a dataset, the global array that `prefetch_to_device` delivers for it (the evaluator compiles its step for the announced arrays, the trainer initializes the model with them). For features of numbers or booleans the delivered array has the announced sizes, the announced type as JAX stores it and the announced sharding; its first dimension is the batch size of the configuration, it holds the rows of the batches of all processes, and every device holds the same number of them. A dataset is announced exactly if the mesh (the given one, otherwise the active one) has devices and every feature has a known first dimension; the model is initialized exactly if there also is a feature `image`. Ragged features and features of other types are announced but delivered as the local value of the process.", "quantifier": "all meshes, process counts, batch sizes, feature dicts, types and contents", "why_tests_cant": "Tests run in one process, where the local and the global shape are the same; a disagreement shows only as an error of a compiled function in a cluster.", "anchors": ["vmoe/data/pjit_utils.py:get_dataset_shape_dtype_struct", "vmoe/data/pjit_utils.py:prefetch_to_device", "vmoe/data/pjit_utils.py:put_to_devices", "vmoe/evaluate/evaluator.py:EvaluateMultipleDatasets", "vmoe/train/trainer.py:train_and_evaluate"]}
{"id": "C107", "title": "Saved and restored states", "statement": "A tree of dicts, lists, tuples and leaves (None, booleans, integers, strings, bytes, NumPy and JAX arrays of any size, scalars, index information) that `save_checkpoint` writes is what `restore_checkpoint` reads from the file, with a target that has the same keys (in any order) and lists of the same length: the result has the containers of the target and, at every path, the leaf of the saved tree, with JAX arrays as NumPy arrays; arrays larger than the maximum size of a piece are cut and put together again. Without a target lists and tuples come back as dicts with the keys `'0'`, `'1'`, .... Every tree within the limits of msgpack can be saved, also with arrays of more than 2^32 bytes. A save that is interrupted leaves a file from which the previous tree or the new tree is restored. A target with a key that the file does not have, or with a list of another length, is refused with ValueError; keys that only the file has are dropped and shapes are not compared. A dict with a reserved key is written but cannot be read.", "quantifier": "all trees without repeated or reserved keys, element sizes, piece sizes, targets, files and crash points", "why_tests_cant": "Tests save a few trees with small arrays; arrays above the piece size and the combination with the atomic write are not tried.", "anchors": ["vmoe/checkpoints/serialization.py:to_bytes", "vmoe/checkpoints/serialization.py:from_bytes", "vmoe/checkpoints/serialization.py:msgpack_serialize", "vmoe/checkpoints/serialization.py:msgpack_restore", "vmoe/checkpoints/base.py:save_checkpoint", "vmoe/checkpoints/base.py:restore_checkpoint", "vmoe/checkpoints/base.py:restore_multiple_checkpoints"]}
{"id": "C108", "title": "Router with quadratically regularized transport", "statement": "`SparseProjectionTransportTopItemsPerExpertRouter` computes a plan from the softmax gates in which, whatever the solver returned, all entries are non-negative, every expert gets exactly `num_tokens / num_experts` and the tokens give 1 on average. If the solver converged (every token gives 1) the plan is the transport plan nearest to the softmax gates, and the only one. Each expert takes the tokens with the largest entries of its column, as many as its capacity; the layer sums the expert outputs weighted by the softmax gates, or by the plan without softmax combine weights. With room for all tokens every token goes to all experts. There is no auxiliary loss. Inputs that have not three dimensions are a ValueError; otherwise the router works exactly if the dispatcher is `einsum` with a valid capacity of at most the number of tokens.", "quantifier": "all groups, numbers of tokens and experts, logits, dispatcher options and results of the solver", "why_tests_cant": "The test checks one small random input with a converged solver; the marginals for a solver that stopped early, and optimality among all plans, are not seen.", "anchors": ["vmoe/projects/sparsity_constrained_ot/sparse_projection_routing.py:SparseProjectionTransportTopItemsPerExpertRouter", "vmoe/projects/sparsity_constrained_ot/sparse_projection_routing.py:_get_squared_l2_ot_algorithm", "vmoe/projects/sparsity_constrained_ot/ot_routing.py:BaseOTNoisyTopItemsPerExpertRouter"]}
{"id": "C109", "title": "Names of the axes of expert variables", "statement": "sparse_moe_spmd_with_axes turns a module into a layer of E experts. For every collection in variable_axes with a non-negative axis and a name in partitioning_axis_names, each array p of the collection has the shape of one expert with a dimension of size E at that axis, and the metadata in \"<collection>_axes\" has the expert axis name at the same position, so that zip(names, shape) of the layer is zip(names, shape) of one expert with (expert name, E) inserted at the axis. Collections that are shared, and metadata of collections without variable axis, are unchanged. When the layer is applied, an expert sees of the metadata exactly the names of its own axes, and a layer with a different expert name refuses (ValueError). With axis -1 the names are wrong: the dimension is put last, the name second to last.", "quantifier": "for all variable_axes, axis names, collections, shapes and names of axes, and numbers of experts", "why_tests_cant": "a test checks one module with one collection and axis 0; whether names and dimensions agree for every axis, every collection and each order of wrappers needs an argument about all of them", "anchors": ["vmoe/moe.py:sparse_moe_spmd_with_axes", "vmoe/moe.py:sparse_moe_spmd"]}
{"id": "C110", "title": "The logged table of the device mesh", "statement": "log_logical_mesh of a mesh with one or two axes and at least one device, whose devices have coordinates of the same length, writes a title and a box: a border, one line per row of the mesh, and the same border; all lines of the box have the same length, however many digits the coordinates and process indices have. The numbers in line i, read from left to right, are for each device of row i of the mesh, in order, its get_device_coords and its process_index. An empty mesh raises ValueError, a TPU without core_on_chip or coords raises AssertionError, and a mesh with three or more axes has no table.", "quantifier": "for all meshes, platforms, coordinates and process indices", "why_tests_cant": "widths depend on the largest coordinate of each axis (9 and 10, 99 and 100, ...); a test checks small meshes of one platform", "anchors": ["vmoe/partitioning.py:log_logical_mesh", "vmoe/partitioning.py:get_device_coords", "vmoe/partitioning.py:get_device_coords_tpu"]}
{"id": "C111", "title": "Products without NaN", "statement": "utils.multiply_no_nan(x, y) is 0 wherever x is 0, also if y is infinite or NaN, and the floating point product x * y everywhere else (NaN in x is kept). Its gradient, as computed by reverse-mode differentiation, is 0 for both arguments wherever x is 0, whatever y and the incoming gradient are, and (g * y, g * x) elsewhere, which is the derivative for finite arguments. Without the two inner where the value would be the same but the gradient at 0 * inf would be NaN. At x = 0 with finite y != 0 the gradient 0 is not the derivative y of the function.", "quantifier": "for all floating point numbers x, y and g, including infinities and NaN", "why_tests_cant": "a test checks three pairs; the claim is about all pairs, and about the gradient program that the nested where produce", "anchors": ["vmoe/utils.py:multiply_no_nan", "vmoe/evaluate/ensemble.py:_multiply_no_nan"]}
{"id": "C112", "title": "Removing checkpoints", "statement": "remove_checkpoints(filepaths, match_fn) with any thread pool: at any time, and whatever the order in which the threads run, a file that is gone was in filepaths and match_fn is true of it. If every matching path exists and is given once, then the call returns without error and exactly the matching paths are gone. If a matching path does not exist, or is given twice, the call raises. The call always returns, after at most two steps per path. After an error other matching files may stay.", "quantifier": "for all lists of paths, match functions, files, numbers of threads and schedules of the threads", "why_tests_cant": "a test sees one schedule of the threads on three files; the claim is about all interleavings, and about what happens to the rest of a task after an error", "anchors": ["vmoe/checkpoints/base.py:remove_checkpoints"]}
{"id": "C113", "title": "Directories exist before files are written into them", "statement": "When several processes save a partitioned checkpoint with makedirs=True (_make_dir_sync), or make the checkpoint manager of a training run (create_checkpoint_manager), process 0 creates the directory and all processes meet before any of them writes. Whatever the order in which the processes run: no process raises, no process waits forever, every new file in the directory is one that a process has to write, and at the end all of them are written, if the directory may be created or exists. If process 0 cannot create it, no file is written, and the other processes wait at the meeting. Without the meeting a process may raise.", "quantifier": "for all numbers of processes, files of each process, initial directories and files, and interleavings", "why_tests_cant": "a test runs one process, where the meeting does nothing; the claim is about all interleavings of several processes", "anchors": ["vmoe/checkpoints/partitioned.py:_make_dir_sync", "vmoe/train/trainer.py:create_checkpoint_manager", "vmoe/multihost_utils.py:sync_devices"]}
{"id": "C114", "title": "Configuration of the array summarizer", "statement": "create_tree_summarizer(config) makes no summarizer exactly if config is empty (None, \"\", 0, [], {}). A list or tuple makes a summarizer with one rule per item, in order: a string or compiled pattern is a rule without transforms, a sequence (pattern, *transforms) a rule with these transforms; at most one value per array. A dict with \"rules\" means the same, and may set max_summary_values; other keys raise TypeError. Making a summarizer again from its own rules gives the same one. Calling it is the call of C53 with \"op\" over all axes, (op, axis) over one axis and (op, axes) over several. A flat list [\".*\", \"mean\"] is two patterns, not a pattern with an operation, and rules given as one string are its characters.", "quantifier": "for all configurations, patterns, transforms and arrays", "why_tests_cant": "a test tries a few forms of the configuration; that every form is read as documented, in order and without dropping rules, is a statement about all of them", "anchors": ["vmoe/train/trainer.py:create_tree_summarizer", "vmoe/train/tree_summarizer.py:TreeSummarizer.__post_init__", "vmoe/train/tree_summarizer.py:TreeSummarizer._transform"]}
{"id": "C115", "title": "The attacked model is the trained one, in deterministic mode", "statement": "When `restore_from_config` builds the module to attack from the model configuration of a training run: if the training run could build its model (`create_flax_model`), the attack builds a module of the same class with the same value of every field, with `deterministic=True`; only the module's `name` differs. Without a `name` it fails with AttributeError, and `deterministic` in the call string or in the configuration is an error.", "quantifier": "all model configurations (dictionaries), call strings, module classes, and rules for replacing a value of a ConfigDict", "why_tests_cant": "A test restores one or two configurations; that no configuration changes the architecture between training and attack is a statement about all of them.", "anchors": ["vmoe/projects/adversarial_attacks/restore.py:restore_from_config", "vmoe/train/trainer.py:create_flax_model"]}
{"id": "C116", "title": "Background saves write the values at the time of the call", "statement": "Before writing in the background, `save_checkpoint` (partitioned) replaces every array of the chunks to write by a NumPy copy: slices, order and shards are unchanged, every copy has the contents of its original, chunks that shared an array share its copy (one copy per different device array), nothing else changes, and the step cannot fail. So whatever is done with the device arrays afterwards (released, donated), the files hold the values at the time of the call.", "quantifier": "all memories, sets of chunks with any sharing of arrays, mixtures of device and NumPy arrays, allocators, and later changes of device arrays", "why_tests_cant": "Releasing a device buffer during an asynchronous write is a race; the replacement works with object identities, whose reuse a test cannot exclude.", "anchors": ["vmoe/checkpoints/partitioned.py:_replace_jax_with_numpy_in_lazy_array_chunks", "vmoe/checkpoints/partitioned.py:save_checkpoint"]}
{"id": "C117", "title": "Donated buffers are never used again", "statement": "The training step deletes the buffers of the state and of the batch it is given, and the evaluation step those of its state and batch. In spite of that, a training run with any number of steps, with hooks acting at any steps and with any evaluation data sets, never touches a deleted buffer, and what it writes (metrics, checkpoints, evaluations, first and last checkpoint) is exactly what the same loop without deletions writes.", "quantifier": "all numbers of steps, sets of steps at which hooks act, data sets and batches, step functions, initial states whose parts are different buffers", "why_tests_cant": "On CPU, where tests run, donation is ignored: a use after donation fails only on accelerators, and only at the steps where the hook in question acts.", "anchors": ["vmoe/train/trainer.py:train_and_evaluate", "vmoe/evaluate/evaluator.py:evaluate_dataset", "vmoe/evaluate/evaluator.py:make_eval_step_pjit", "vmoe/evaluate/evaluator.py:EvaluateMultipleDatasets", "vmoe/projects/contrastive/trainer.py:train_and_evaluate"]}
{"id": "C118", "title": "Initialization from a checkpoint donates every array at most once", "statement": "mapping.map_state_dict gives the arrays of its transformations to a compiled function that deletes their buffers (donate_argnums=(0,)). Of all arrays of the restored checkpoint and of the target, each is used at most once: either as one source of one transformation, or as the target of one zoom, or as an array that is returned as it is. So if the arrays are in different buffers, no buffer is donated twice, and none of the arrays returned for unmatched target keys has been deleted.", "quantifier": "all rules and flags, all flat checkpoints and targets (with concrete or abstract leaves) for which the mapping succeeds, and all assignments of buffers", "why_tests_cant": "On CPU donation is ignored, so tests never see a deleted buffer; the set of donated arrays depends on the rules, the order of the keys and the kind of the transformations.", "anchors": ["vmoe/initialization/mapping.py:_flat_state_dict_mapping_apply", "vmoe/initialization/mapping.py:map_state_dict", "vmoe/initialization/rules.py:ZoomRule", "vmoe/initialization/rules.py:StackTransformation"]}
{"id": "C119", "title": "The prediction for an image does not depend on its batch, if groups are images or nothing is dropped", "statement": "For VisionTransformerMoe with EncoderMoe and MlpMoeBlock (routers NoisyTopExpertsPerItemRouter or NoisyTopItemsPerExpertRouter) without noise and dropout: if the group size is the number of tokens per image, or if (item choice) the capacity is at least the group size, there is one function of a single image that gives its logits (or features) in every batch where the model runs, whatever the size of the batch, the position of the image and the other images. Without these conditions the same image can get different results at different positions.", "quantifier": "all parameters, images, batches and batch sizes, numbers of layers, MoE positions, classifiers, position embeddings and router options satisfying the condition", "why_tests_cant": "Independence quantifies over all companions of an image in a batch; tests use a few random batches and small layers.", "anchors": ["vmoe/nn/vit_moe.py:VisionTransformerMoe", "vmoe/nn/vit_moe.py:EncoderMoe", "vmoe/nn/vit_moe.py:MlpMoeBlock", "vmoe/nn/routing.py:NoisyTopExpertsPerItemRouter", "vmoe/nn/routing.py:NoisyTopItemsPerExpertRouter"]}
{"id": "C120", "title": "Padding at the end of a batch and the images before it", "statement": "For VisionTransformerMoe with NoisyTopExpertsPerItemRouter without noise: if every token selects one expert and batch_priority is off, the predictions for the first images of a batch do not depend on the images after them (such as the padding of the last batch of an evaluation), not even on their number. With batch_priority, or with two selected experts per token, the padding can change the predictions for the real images.", "quantifier": "all images and paddings, parameters, numbers of layers, group sizes, capacities and other options", "why_tests_cant": "The claim is about all contents of the padding and all routings; a test with a given padding rarely fills the buffers of the experts.", "anchors": ["vmoe/nn/vit_moe.py:VisionTransformerMoe", "vmoe/nn/routing.py:NoisyTopExpertsPerItemRouter", "vmoe/moe.py:get_top_experts_per_item_dispatcher", "vmoe/evaluate/evaluator.py:evaluate_dataset"]}
{"id": "C121", "title": "The processes of a training job never wait for each other forever", "statement": "In a training job with any number of processes that run at any speeds, from an empty directory or from the newest checkpoint, every process calls the same collective operations (barriers, train steps, computations of the evaluation hooks, saves) in the same order, in spite of the tests whether the first and the last checkpoint exist, which every process makes at another moment, while checkpoints are written in the background and old ones are deleted. At every moment some process can go on until all are at the end; every execution ends; at the end every train step has been called exactly once in order by all processes, no save is going on, and the checkpoint of the last step exists. This needs the same hooks in all processes (no every_secs, which is by the clock of each process) and enough batches in all of them: otherwise the job can hang.", "quantifier": "all numbers of processes, configurations, directories, interleavings of the processes and of background saves", "why_tests_cant": "A test with one or two processes sees one interleaving; the claim is about all of them, and a hang in a large job depends on timing.", "anchors": ["vmoe/train/trainer.py:train_and_evaluate", "vmoe/projects/contrastive/trainer.py:train_and_evaluate", "vmoe/multihost_utils.py:sync_devices", "vmoe/train/trainer.py:create_checkpoint_manager"]}
{"id": "C122", "title": "An evaluation does not depend on how it is distributed", "statement": "Evaluating a split gives the same number of examples, summed loss and summed correct predictions for any number of processes and devices, any order of the devices in the mesh, any admissible batch size, any order in which the parallel pipelines give the examples and any random keys, provided that the model treats each example on its own; each example of the split that counts contributes exactly once. A V-MoE vision transformer meets this when its router adds no noise and its groups do not mix images (or have room for all tokens); otherwise the metrics can depend on the undetermined order of the input pipeline.", "quantifier": "all splits, processing functions, models, clusters with equal numbers of devices per process, batch sizes that are multiples of the device count, schedules and keys", "why_tests_cant": "The tests run one process with a few devices and one batch size; equality over all clusters, batch sizes and schedules is a statement about pairs of runs of the whole pipeline.", "anchors": ["vmoe/evaluate/evaluator.py:evaluate_dataset", "vmoe/evaluate/evaluator.py:evaluate_step", "vmoe/data/input_pipeline.py:get_dataset", "vmoe/data/builder.py:TfdsBuilder.as_dataset", "vmoe/data/pjit_utils.py:prefetch_to_device"]}
{"id": "C123", "title": "What a progress report writes", "statement": "ReportProgress writes every metric, however deep it is nested, under its keys joined by '/', and the uptime_ entry of every timed part and host_memory_mb, and nothing else; if no two joined names are equal and no metric is named like one of the entries of the report itself, nothing is lost. In the training loop the metrics are below 'train/', so that metrics, costs, memory and times never hide each other. A metric that is not a number raises TypeError and nothing is written; without a writer nothing is written.", "quantifier": "all nested dicts of metrics, times of parts, memory measurements and costs", "why_tests_cant": "Collisions of joined names depend on the names of metrics, which come from the model and the configuration; a test has a few fixed names.", "anchors": ["vmoe/train/periodic_actions.py:ReportProgress", "vmoe/train/trainer.py:train_and_evaluate", "vmoe/train/trainer.py:make_train_cost_fn"]}
{"id": "C124", "title": "An ensemble model is a set of separate models", "statement": "VisionTransformerMoeEnsemble with ensemble_size M, M*n experts, groups of s*M tokens and at least one MoE layer predicts, in row b*M + m, exactly what a plain VisionTransformerMoe predicts for image b that has the routers and the noise of member m, the experts m*n to m*n+n-1, groups of s tokens, and all other parameters in common; it runs whenever these M plain models run (if both compute the same expert capacity). So without noise, and with groups that do not mix images (or have room for all tokens), the predictions of every member for an image do not depend on its batch. Without MoE layers there is one row per image. The option position_emb has no effect: the ensemble always uses learned position embeddings.", "quantifier": "all images, batches, parameters, noise, numbers of layers, members and experts, and options of the routers", "why_tests_cant": "The existing tests check shapes; that the composition of repeated batches, regrouped tokens, block diagonal gates and shared buffers equals separate models is a statement about all parameters and batches.", "anchors": ["vmoe/nn/vit_moe_ensemble.py:VisionTransformerMoeEnsemble", "vmoe/nn/vit_moe_ensemble.py:EncoderMoeEnsemble", "vmoe/nn/vit_moe_ensemble.py:MlpMoeWithNoisyTopExpertsPerItemEnsembleRouter", "vmoe/nn/vit_moe.py:VisionTransformerMoe"]}
{"id": "C125", "title": "A sparse model started from a dense one predicts the same only if all experts are selected", "statement": "Initialize a V-MoE with map_state_dict from the checkpoint of a dense ViT, with expand_tile rules (axis 0, E repetitions) for the MLPs of the MoE blocks, as in the example of mapping.py. Then the parameter of every expert has the shape and the values of the array of the dense MLP. If every token asks for all E experts (or the experts choose) and the capacity is at least the group size, without bfloat16, the sparse model makes exactly the predictions of the dense model, whatever the kernel and the noise of the routers. In general the output of each MoE layer is that of the dense MLP times a weight between 0 and 1 per token; if fewer than E experts are selected per token (the usual configuration) the weight is less than 1 for every token, so the layer differs from the dense MLP wherever that is not zero.", "quantifier": "for all checkpoints, rules, targets, router kernels, noise, images, numbers of experts, blocks and MoE positions", "why_tests_cant": "The tests of the initialization check shapes and values of single arrays; none runs a model before and after, and the equality of predictions is about all images and all router parameters.", "anchors": ["vmoe/initialization/mapping.py:map_state_dict", "vmoe/initialization/rules.py:ExpandTileRule", "vmoe/nn/vit_moe.py:MlpMoeBlock", "vmoe/nn/vit_moe.py:EncoderMoe", "vmoe/moe.py:sparse_moe_spmd"]}
{"id": "C126", "title": "The numbers of the experts do not matter", "statement": "If the experts of every MoE layer are put in another order, each layer in its own, together with their columns of the router kernel and of the routing noise, then the model (VisionTransformerMoe with MlpMoeBlock layers) gives the same predictions, the same metrics of every layer and the same total auxiliary loss, or the same error. With NoisyTopItemsPerExpertRouter this always holds; with NoisyTopExpertsPerItemRouter it holds if no token has the same gate for two experts of a layer. With equal gates it is false: the expert with the lower number is preferred.", "quantifier": "for all models, permutations of the experts of each layer, router options (capacity, batch priority, noise, bfloat16, dispatcher), images; for top-experts routing, all batches without equal gates", "why_tests_cant": "A test can permute the experts of one small layer; it cannot try all permutations, options and batches, nor show that only ties break the symmetry.", "anchors": ["vmoe/nn/vit_moe.py:MlpMoeBlock", "vmoe/nn/vit_moe.py:VisionTransformerMoe", "vmoe/nn/routing.py:NoisyTopExpertsPerItemRouter", "vmoe/nn/routing.py:NoisyTopItemsPerExpertRouter", "vmoe/moe.py:get_top_experts_per_item_dispatcher", "vmoe/moe.py:get_top_items_per_expert_dispatcher"]}
{"id": "C127", "title": "Batch priority makes the order of the images irrelevant", "statement": "If the images of a batch are put in another order that keeps groups of tokens together (any order if the whole batch is one group), then a model without routing noise gives every image the same prediction as before and has the same total auxiliary loss, provided the MoE layers use NoisyTopItemsPerExpertRouter or NoisyTopExpertsPerItemRouter with batch_priority=True, and no two tokens of a group tie. Without batch priority this is false even without ties: with little capacity, images that come later in the batch are dropped first.", "quantifier": "for all models, batch sizes, group sizes, capacities, rearrangements that keep groups together, images whose tokens do not tie", "why_tests_cant": "It is a statement about all rearrangements of all batches through all layers; a test compares a few orders of one batch, mostly with enough capacity, where nothing is dropped.", "anchors": ["vmoe/moe.py:get_top_experts_per_item_dispatcher", "vmoe/moe.py:get_top_items_per_expert_dispatcher", "vmoe/nn/vit_moe.py:MlpMoeBlock", "vmoe/nn/vit_moe.py:VisionTransformerMoe", "vmoe/nn/routing.py:NoisyTopExpertsPerItemRouter"]}
{"id": "C128", "title": "One mesh for all processes, one writer of metrics", "statement": "At the start of a program (`app.run(main)`) every process builds the logical mesh itself. Processes whose devices have the same arrangement (the same number of different coordinates on every axis; on CPU and GPU: the same number of devices) build the same mesh or raise the same error; with hosts of different sizes this can fail. `main` is called with that mesh, and not at all if there is none. The metric files in `workdir` contain exactly what `main` of process 0 wrote, every entry once and in the order of the writes, also if `main` raises; the exception is passed on. If the process is killed, they contain a prefix of it. Other processes only log. An action wrapped in `SingleProcessPeriodicAction` behaves as the action itself in its process and is never called in the others; the profiler runs in process 0, or everywhere with `all_processes`.", "quantifier": "all meshes, device arrangements, numbers of processes, programs (sequences of writes, flushes and background writes, ended by a return or an exception), and sequences of hook calls", "why_tests_cant": "Tests run in one process and mock the process index; the agreement of processes and the state of the files after a failure concern all interleavings of writes and flushes.", "anchors": ["vmoe/app.py:_main", "vmoe/partitioning.py:get_auto_logical_mesh", "vmoe/partitioning.py:get_hardware_mesh_local_shape", "vmoe/train/periodic_actions.py:SingleProcessPeriodicAction", "vmoe/train/trainer.py:create_profile_hook"]}
{"id": "C129", "title": "What bfloat16 dispatching changes", "statement": "Switching the option `bfloat16` of a dispatcher on does not change the routing: MlpMoeBlock fails or succeeds as before, with the same error or the same metrics and auxiliary losses, and every token is processed by the same experts with the same gates. Every entry of the output changes by at most eps*M + (1+eps)*L*eps*X, where eps is the relative error of the rounding (2^-8 for round-to-nearest with 8 binary digits), L a Lipschitz constant of the experts, X a bound for the entries of the token and M for the outputs of the experts on it; the number of experts, K and the capacity do not enter. This holds for items that choose experts and for experts that choose items.", "quantifier": "all batches, router kernels, noise, experts, configurations and rounding functions with a given relative error", "why_tests_cant": "A test compares the two settings on a few arrays with a tolerance that is found by trial.", "anchors": ["vmoe/moe.py:Bfloat16Dispatcher", "vmoe/nn/routing.py:NoisyTopExpertsPerItemRouter", "vmoe/nn/routing.py:NoisyTopItemsPerExpertRouter", "vmoe/nn/vit_moe.py:MlpMoeBlock"]}
{"id": "C130", "title": "More room never loses an assignment", "statement": "compute_capacity is monotone: with more tokens or a larger capacity factor it succeeds if it did before and the capacity is not smaller (ceil or round, with or without multiple_of). With a larger capacity and more selected experts per item, every item that had a place at an expert keeps that place with the same weight, in the einsum and the indices dispatcher, with and without batch priority; so do the items of an expert that chooses items. MlpMoeBlock keeps working, and the output of each token is a sum of the same terms gate * expert output as before plus further ones.", "quantifier": "all gates, numbers of tokens, items and experts, capacities, capacity factors, batches, kernels, noise and experts; monotone rounding of the numbers", "why_tests_cant": "Whether an assignment is lost depends on the order of all other assignments in the group; a test compares a few settings on a few arrays.", "anchors": ["vmoe/moe.py:compute_capacity", "vmoe/moe.py:get_top_experts_per_item_dispatcher", "vmoe/moe.py:_get_top_items_per_expert_einsum_dispatcher", "vmoe/nn/vit_moe.py:MlpMoeBlock"]}
{"id": "C131", "title": "Away from ties the routing is locally constant, so gradients are true gradients", "statement": "If any two gates of an item differ by at least 2d (and, with batch priority, so do the largest gates of any two items), then changing every gate by less than d changes no place in either dispatcher and no combine weight by d or more. MlpMoeBlock at parameters and inputs whose gates have no ties has, for all parameters of the router, parameters of the experts and inputs near them, the output sum of gate * expert output over the same experts; so its derivative is that of this sum, with the indices of top_k and argsort taken as constants as automatic differentiation does, and it is continuous if the experts are. The same holds for experts that choose items. At a tie the output can jump.", "quantifier": "all gates, margins, batches, router kernels, noise, experts, capacities and configurations", "why_tests_cant": "A finite-difference test looks at a few points and step sizes; that no neighbourhood without ties contains a change of the routing is a statement about all of them.", "anchors": ["vmoe/moe.py:_get_top_experts_per_item_common", "vmoe/moe.py:_get_top_items_per_expert_einsum_dispatcher", "vmoe/nn/vit_moe.py:MlpMoeBlock", "vmoe/nn/routing.py:NoisyTopExpertsPerItemRouter"]}
{"id": "C132", "title": "What the other tokens of a group can change for a token", "statement": "If two batches have the same token at some place, MlpMoeBlock gives it the same gates and requested experts in both, and its two outputs are sums of gate * expert output over subsets of these experts: other tokens can take away terms of the sum and have no other influence, so the outputs differ by at most the largest output of an expert. The first choice of an item is kept if fewer than capacity items come before it (earlier ones or, with batch priority, ones with larger top gates), whatever the other items request; so at least min(group size, capacity) items of every group are processed by their favourite expert.", "quantifier": "all pairs of batches with a common token, router kernels, noise, experts, configurations; all gates, capacities, K", "why_tests_cant": "The claim is about all possible other tokens of the group.", "anchors": ["vmoe/moe.py:_get_top_experts_per_item_common", "vmoe/nn/vit_moe.py:MlpMoeBlock", "vmoe/nn/routing.py:NoisyTopExpertsPerItemRouter"]}
{"id": "C133", "title": "A model described as \"ViT-B/16, E=8, K=2, Every 2, 300 Epochs\" is the model that gets configured", "statement": "get_vmoe_config(description, image_size, num_classes) succeeds exactly for strings of the form \"ViT-<v>/<patch>, E=<n>, K=<n>, Every|Last <n>, <n> Epochs\" with a known size v, a positive patch size, num_classes not 0 and a positive number after \"Every\"; the result has the hidden size, depth, MLP size and heads of that size of ViT (heads divide the hidden size), experts and selected experts as written, and the sparse layers are the layers i with n | i+1 (\"Every n\") or the last n layers with odd index (\"Last n\", n > 0). The sparse layer of such a configuration accepts a batch of sequences exactly if the number of images is a multiple of 8 and 1 <= K <= E. The configurations of the adversarial attack describe the same model, except for the auxiliary losses with at most two experts. get_num_epochs returns the number written in both projects. get_optimizer_config accepts exactly the six architectures that were trained. get_mixup_config gives a section that the training loop accepts.", "quantifier": "all strings, image sizes and numbers of classes; all batches, parameters and roundings of the capacity that keep positive numbers positive", "why_tests_cant": "There are infinitely many descriptions; the tests of the repository do not run the configuration files.", "anchors": ["vmoe/configs/vmoe_paper/common.py:get_vmoe_config", "vmoe/configs/vmoe_paper/common.py:get_num_epochs", "vmoe/configs/vmoe_paper/common.py:get_optimizer_config", "vmoe/configs/vmoe_paper/pretrain_imagenet21k.py:get_config", "vmoe/projects/adversarial_attacks/configs/common.py:get_vmoe_config", "vmoe/train/trainer.py:wrap_train_step_with_mixup"]}
{"id": "C134", "title": "With the soft router the prediction for an image does not depend on the other images of the batch", "statement": "If the MoE layers of VisionTransformerMoe have the SoftRouter, the groups are whole sequences (group_size = number of tokens of an image) and there is no noise (deterministic or noise_std <= 0), then there is one function of a single image that gives its prediction in every batch, of every size and at every position. Whether a layer runs depends on its parameters only, not on the batch, and a model whose parameters fit gives predictions for every batch. With groups over several images the prediction for an image depends on the other ones.", "quantifier": "all images, batches, depths, sparse layers, experts, parameters, position embeddings, classifiers", "why_tests_cant": "The claim is about all batches that contain an image; a test compares a few of them.", "anchors": ["vmoe/projects/soft_moe/router.py:SoftRouter", "vmoe/nn/vit_moe.py:VisionTransformerMoe", "vmoe/nn/vit_moe.py:MlpMoeBlock"]}
{"id": "C135", "title": "A name such as \"soft-s16\" gives that model of the Soft MoE paper, whose groups are single images", "statement": "get_config(model) of pretrain_jft4b.py and pretrain_laion.py returns exactly for names \"<type>-<letter><patch size>\" with type vit and a known size, or type ec or soft and one of the five pairs (S,16), (S,14), (B,16), (L,16), (H,14); other types or sizes give ValueError, other pairs KeyError. For a sparse model the hidden size, depth, MLP size and heads are those of its letter (heads divide the hidden size), the sparse layers are exactly the second half of the layers, there is one partition per expert, the text model has outputs of the size of the image model, and group_size is the number of tokens of one image. So with the soft router the prediction for an image is the same in all batches, also during training, and every batch gives predictions; with expert choice every batch is accepted (a layer accepts a batch iff there are fewer than two experts per token) and at evaluation predictions do not depend on the other images.", "quantifier": "all strings; all batches, parameters, experts and numbers of classes", "why_tests_cant": "The repository does not test these files, and the claims are about all names and all batches.", "anchors": ["vmoe/projects/soft_moe/configs/common.py:get_vit_config", "vmoe/projects/soft_moe/configs/common.py:get_vmoe_experts_choose_config", "vmoe/projects/soft_moe/configs/common.py:get_vmoe_soft_router_config", "vmoe/projects/soft_moe/configs/pretrain_jft4b.py:get_config", "vmoe/projects/soft_moe/configs/pretrain_laion.py:get_config"]}
{"id": "C136", "title": "Rules with anchored patterns rename a parameter exactly as written", "statement": "A rule of map_state_dict handles a name exactly if its regular expression is found somewhere in it (re.search), and the first place where it is found is the leftmost. A rule (\"^(...)$\", \"<prefix>\\1\") that is found in a name without line breaks gives exactly \"<prefix>\" + name, whatever is in the parentheses. A pattern that is found at one place only leaves what is before and behind this place as it is and puts the replacement between them, where \\n stands for the text that group n matched. A pattern that is not found leaves a name as it is. Without the anchors this is not so: \"(.*)\" is found twice in every name.", "quantifier": "all patterns of the modelled syntax, all names without line breaks, all prefixes without backslashes", "why_tests_cant": "Tests try a few patterns on a few names; the claim is about all patterns and names.", "anchors": ["vmoe/initialization/rules.py:Rules", "vmoe/initialization/rules.py:RegexRule"]}
{"id": "C137", "title": "Fine-tuning configurations restore everything but the head from a checkpoint, or fail", "statement": "The four fine-tuning configurations (V-MoE-B/16 on ILSVRC2012 and CIFAR-10, V-MoE-S/32, e3) initialize a model from a checkpoint so that: every parameter of the checkpoint whose name does not contain \"head\" (nor \"pre_logits/\" for S/32) has a parameter of this name under \"params/\" of the model, and gives its value: position embeddings are interpolated by vit_zoom, the entries of routers of e3 are reshaped in order, all others have the same shape and are copied up to the conversion of types; all other parameters of the model, such as the head, stay as they were. It succeeds exactly if every such parameter exists in the model and fits (square grids up to a class token, same number of entries, same shape). Position embeddings of the same shape are unchanged. This is so for whatever number of processes, shards and chunks the checkpoint was written with, and for whatever sharding it is read with.", "quantifier": "all checkpoints and models with names without line breaks; all shapes, types and values; all numbers of processes and shardings", "why_tests_cant": "The configurations are not tested with checkpoints; the claims are about all models and all ways of saving.", "anchors": ["vmoe/configs/vmoe_paper/vmoe_b16_imagenet21k_randaug_strong_ft_ilsvrc2012.py:get_config", "vmoe/configs/vmoe_paper/vmoe_b16_imagenet21k_randaug_strong_ft_cifar10.py:get_config", "vmoe/configs/vmoe_paper/vmoe_s32_last2_ilsvrc2012_randaug_light1_ft_ilsvrc2012.py:get_config", "vmoe/configs/eee_paper/eee_s32_last2_ilsvrc2012_ft_cifar100.py:get_config", "vmoe/initialization/initialization.py:initialize_from_vmoe", "vmoe/initialization/mapping.py:map_state_dict"]}
{"id": "C138", "title": "Training with Adam never fails, decays the weights separately, and takes bounded steps", "statement": "With create_optimizer(name=\"adam\", ...) and the train state, any sequence of fewer than 2^31 updates with gradients of the structure and shapes of the parameters succeeds. Step n subtracts from every parameter that is not frozen lr(n) times (m/(sqrt(v + eps_root) + eps) + w*p), where m and v are the exponentially weighted averages with total weight one of all the gradients so far (after gradient_scale and clipping) and of their squares, and w is the weight decay of the parameter; so the decay is not divided by sqrt(v). Frozen parameters keep their values. For 0 <= b1 <= b2 < 1 (as in the configurations) each entry changes at most by |lr|(sqrt((1-b1)/(1-b2)) + |w p|), for whatever gradients; so without decay an entry moves in total at most by sqrt((1-b1)/(1-b2)) times the sum of the learning rates, and with decay w > 0 and learning rates in [0, 1/w] it never exceeds max(|initial value|, sqrt((1-b1)/(1-b2))/w). In the first step the entries of the direction are g/(sqrt(g^2 + eps_root) + eps). With eps = 0 and no clipping gradient_scale with positive factors has no effect on the parameters.", "quantifier": "all parameter trees, sequences of gradients, schedules, decay rules, clipping options and patterns", "why_tests_cant": "Tests make a few updates of small trees; the closed form, the bound and success are about all sequences of gradients.", "anchors": ["vmoe/train/optimizer.py:create_optimizer", "vmoe/train/optimizer.py:add_decayed_weights", "vmoe/train/train_state.py:TrainState"]}
{"id": "C139", "title": "Which parameters the configurations decay, and how much", "statement": "With the weight decay of the configurations, the updates with decay are the updates without it plus rate(name) times the parameter, where: the rate of the V-MoE paper is 0.1 for all parameters (also biases); for ImageNet, ImageNet-21k and LAION it is 0.1 exactly for parameters with a component of the name, other than the first, that starts with \"kernel\", and 0 for all others; for JFT the same parameters have rate 3 if \"head/kernel\" occurs in the name and 0.03 otherwise; the additional rule for soft models changes only the scales of the routers from 0 to 0.03.", "quantifier": "all parameter trees with names without slashes, all updates and parameters", "why_tests_cant": "The regular expressions of the configurations are applied to all names of all models; tests do not compare the decay of parameters.", "anchors": ["vmoe/train/optimizer.py:add_decayed_weights", "vmoe/configs/vmoe_paper/common.py:get_optimizer_config", "vmoe/configs/vmoe_paper/pretrain_imagenet21k.py:get_optimizer_params", "vmoe/projects/soft_moe/configs/common.py:get_adam_config", "vmoe/projects/soft_moe/configs/pretrain_jft4b.py:get_config", "vmoe/projects/soft_moe/configs/pretrain_laion.py:get_config"]}
{"id": "C140", "title": "The processing strings of the configurations build the pipelines that they describe", "statement": "get_data_process_fn reads every call written as text (names, integers, strings in quotes, True/False/None, keywords, any number of spaces after commas) as the call that was written. Every processing string of the configurations is accepted for all sizes and numbers of classes (those with randaug only if RandAugment is installed), builds the named operations in order, and for every image that can be decoded and every example with its label or labels under the key of the string gives, without raising, exactly: a float32 image of the size in the string with values in [-1, 1], the vector with ones at the labels and zeros elsewhere with as many entries as classes, and the mask. An example without that key raises KeyError. ignore_no_labels makes the mask false exactly if it was false or there are no labels. The few-shot string keeps the label as it is.", "quantifier": "all sizes, numbers of classes, encoded images, random choices, labels and other entries of examples", "why_tests_cant": "The strings are only used when training or evaluating on the real datasets; tests run single operations on a few images.", "anchors": ["vmoe/utils.py:parse_call", "vmoe/data/input_pipeline.py:get_data_process_fn", "vmoe/data/pp_ops.py:InKeyOutKey", "vmoe/configs/vmoe_paper/pretrain_imagenet21k.py:get_config", "vmoe/configs/vmoe_paper/vmoe_b16_imagenet21k_randaug_strong_ft_ilsvrc2012.py:get_config", "vmoe/projects/soft_moe/configs/common.py:get_imagenet_config", "vmoe/configs/common_fewshot.py:get_fewshot"]}
{"id": "C141", "title": "Training with the optimizers of the configurations: rates, first update, bounded weights", "statement": "create_optimizer with the optimizer of a configuration (V-MoE paper, ImageNet-21k, light augmentation, JFT with or without soft router, LAION, the fine-tuning and attack configurations) works for every number of steps that is long enough for its schedule, and otherwise raises ValueError. The learning rate is zero for the first update, so it changes no parameter; it rises in equal steps to the peak of the configuration at the end of the warmup, and is positive and not above the peak for every later update. Training never fails, for whatever gradients. With Adam, an entry of a parameter with weight decay rate w never gets larger than max(its initial size, 10/w), and one without weight decay moves at most ten times the sum of the learning rates. With the fine-tuning configurations every entry stays within a hundred times the sum of the learning rates of its value in the checkpoint, hence within 100 * peak * (steps - 1).", "quantifier": "all configurations, numbers of steps, parameter trees, sequences of gradients", "why_tests_cant": "It is about all sequences of gradients over whole training runs.", "anchors": ["vmoe/train/optimizer.py:create_optimizer", "vmoe/train/schedule.py:create_learning_rate_schedule", "vmoe/configs/vmoe_paper/common.py:get_optimizer_config", "vmoe/projects/soft_moe/configs/common.py:get_optimizer_rsqrt_config", "vmoe/configs/vmoe_paper/vmoe_b16_imagenet21k_randaug_strong_ft_ilsvrc2012.py:get_config"]}
{"id": "C142", "title": "Layout of the train state over the devices with the rules of the configurations", "statement": "With the partition rule of the configurations (Moe/Mlp/.*, first dimension over the expert axis) the layout of any train state is found, with the structure of the state, and exactly the arrays with more than one entry below a module Mlp of a module whose name ends with Moe are divided. These are the parameters of the experts in every block; the router, the attention, the MLPs of dense blocks and of the head are whole on every device, and with the empty rule list of ViT everything is. The averages of the optimizer are laid out like their parameters, under whatever names they are kept, if none of these ends with Moe. If the size of the expert axis divides the number of experts every device has number / size whole experts and the parts add up to the array (one expert per device with the settings of the configurations); otherwise the array cannot be placed: ValueError.", "quantifier": "all train states, names, shapes and sizes of the expert axis", "why_tests_cant": "The rule is a regular expression on the names of all arrays of models of any depth, and tests use small trees with other rules.", "anchors": ["vmoe/partitioning.py:tree_axis_resources_from_regexes", "vmoe/train/trainer.py:restore_or_create_train_state", "vmoe/configs/vmoe_paper/pretrain_imagenet21k.py:get_config", "vmoe/projects/soft_moe/configs/pretrain_jft4b.py:get_config", "vmoe/nn/vit_moe.py:MlpMoeBlock"]}
{"id": "C143", "title": "Which device holds which expert", "statement": "With num_expert_partitions = num_experts, as in the configurations, and devices whose coordinates fill a box: the mesh that get_auto_logical_mesh returns has min(E, number of devices) rows, for E experts. If that divides E, every device holds E / rows whole consecutive experts of every parameter of the experts, and every expert is on exactly (devices / rows) devices. With at least as many devices as experts every device holds exactly one expert. With fewer CPUs or GPUs than experts the mesh is always made, with a row for each device, but the train state can only be placed on it if the number of devices divides E; otherwise ValueError. All other arrays, and all arrays of models without experts, are whole on every device. The attacks (create_mesh) use the same mesh as the training.", "quantifier": "all numbers of experts, devices, processes, platforms, parameters and shapes", "why_tests_cant": "Tests have a single device or fake meshes of a few sizes; the claim combines the mesh, the rules and the placement for all sizes.", "anchors": ["vmoe/partitioning.py:get_auto_logical_mesh", "vmoe/partitioning.py:tree_axis_resources_from_regexes", "vmoe/train/trainer.py:restore_or_create_train_state", "vmoe/projects/adversarial_attacks/restore.py:create_mesh", "vmoe/app.py:_main"]}
{"id": "C144", "title": "Held-out data of the configurations", "statement": "In every configuration, no process ever trains on an example that some process evaluates on: the variant train and every other variant of the same dataset have no example in common, whatever the number of examples, the rounding of percentages and the numbers of processes. name[:b] and name[b:] share the bound, so together they are the whole split name, for numbers and percentages, with or without a minus sign; numbers are positions (negative ones from the end), and name[:p%] holds p percent of the examples up to half an example. Every variant of every configuration can be read from a dataset that has the usual splits (train, validation, test, full), all processes together reading each of its examples once; the few-shot evaluation never tests on an example that it learned from; a malformed split or an unknown name is a ValueError.", "quantifier": "all datasets, sizes, bounds, roundings and numbers of processes; all configurations", "why_tests_cant": "The datasets are too large or proprietary for tests, and an overlap of training and evaluation data shows only as better results.", "anchors": ["vmoe/data/builder.py:TfdsBuilder", "vmoe/configs/vmoe_paper/pretrain_imagenet21k.py:get_config", "vmoe/configs/vmoe_paper/vmoe_b16_imagenet21k_randaug_strong_ft_cifar10.py:get_config", "vmoe/configs/eee_paper/eee_s32_last2_ilsvrc2012_ft_cifar100.py:get_config", "vmoe/projects/soft_moe/configs/common.py:get_imagenet_config", "vmoe/projects/soft_moe/configs/pretrain_jft4b.py:get_config", "vmoe/configs/common_fewshot.py:get_fewshot"]}
{"id": "C145", "title": "The load loss compares the expected loads of the experts under new noise", "statement": "With noise, the load loss of a group is the squared coefficient of variation over the experts of their expected loads: the load of an expert is the number of items whose clean logit plus a new draw of the normal noise, with the standard deviation that the router uses, exceeds the K-th largest noisy logit of the item. It is always defined, between 0 and E - 1. For an expert that is not selected for an item the probability used is exactly the probability that it is selected when only its own noise is drawn again; for a selected expert it is at most that probability.", "quantifier": "all logits, noise, standard deviations, numbers of items, experts and selected experts", "why_tests_cant": "Tests compare the loss with numbers computed by the same formula; that the formula is an expectation over all noise is a statement about a distribution.", "anchors": ["vmoe/nn/routing.py:NoisyTopExpertsPerItemRouter._load_auxiliary_loss", "vmoe/nn/routing.py:NoisyTopExpertsPerItemRouter._compute_gates_softmax_and_metrics"]}
{"id": "C146", "title": "With noise the router explores: every choice of experts is possible, equal logits are equally likely", "statement": "With noise of any positive standard deviation: every choice of K experts for each of the items of a group has positive probability, whatever the logits; so no expert is ever ruled out and, unless all are selected, none is certain. The probabilities of the experts of an item add up to K, experts with larger logits are at least as likely, and raising the logit of an expert does not make it less likely. When the logits of the items are equal (as with a kernel of zeros) each expert is asked for with probability K/E and all experts have the same expected load S*K/E. As the standard deviation goes to zero the choice becomes the deterministic one (logits without ties), and as it grows the probabilities tend to K/E. The standard deviation is noise_std / num_experts.", "quantifier": "all logits, standard deviations, numbers of items, experts and selected experts", "why_tests_cant": "A test draws finitely many samples of the noise; positivity, equality and limits of probabilities are statements about the distribution.", "anchors": ["vmoe/nn/routing.py:NoisyTopExpertsPerItemRouter._compute_gates_softmax_and_metrics", "vmoe/moe.py:get_top_experts_per_item_dispatcher"]}
{"id": "C147", "title": "The gradients of the balance losses push against the overloaded experts", "statement": "The gradients of the three losses in the logits are: GShard, where every item has a clear first choice, E/S * gate(s,e) * (share(e) - average share under the gates of s), where the shares of first choices act as constants (as the comment in the code says); importance, for all logits, 2E/S^2 * gate(s,e) * (importance(e) - average importance under the gates of s); load, where the noisy logits have no ties, through the normal density at the distance to the threshold, also moving the threshold. So to first order, raising any logit of a most loaded expert raises the loss and of a least loaded one lowers it (strictly, unless the loads are equal; for the load loss, other than for the expert at the threshold), and no loss changes when all logits of an item are shifted. For the router: the derivatives along a change of its kernel, the GShard loss from the noisy and the importance loss from the clean logits.", "quantifier": "all logits (without ties where stated), noise, directions, kernels, numbers of items and experts", "why_tests_cant": "Tests evaluate the losses at a few points; the sign of a derivative at every point, and that the hard counts contribute nothing to it, is a statement about all logits.", "anchors": ["vmoe/nn/routing.py:NoisyTopExpertsPerItemRouter._gshard_auxiliary_loss", "vmoe/nn/routing.py:NoisyTopExpertsPerItemRouter._importance_auxiliary_loss", "vmoe/nn/routing.py:NoisyTopExpertsPerItemRouter._load_auxiliary_loss"]}
{"id": "C148", "title": "How often requests are dropped under the routing noise", "statement": "Over the noise of the router, the number of items of a group that request an expert exceeds the capacity cap with probability at most exp(-2 (cap + 1 - L)^2 / S), L being the expected load of the expert and L <= cap + 1. So, with or without batch priority, anything in the group is dropped with probability at most the sum of these bounds over the experts. If the expected loads are equal, then a capacity factor c >= 1 drops anything with probability at most E exp(-2 S (K/E)^2 (c-1)^2), which vanishes exponentially in the group size. Conversely, at least S*K - E*cap requests are dropped for certain. The bounds hold for the gates computed by the router with noise.", "quantifier": "all logits, kernels, standard deviations, group sizes, experts, selected experts, capacities, capacity factors; probability over independent standard normal noise", "why_tests_cant": "A test draws a few keys of the noise; a bound of a tail probability, for all logits and sizes, cannot be sampled.", "anchors": ["vmoe/nn/routing.py:NoisyTopExpertsPerItemRouter", "vmoe/moe.py:get_top_experts_per_item_dispatcher", "vmoe/moe.py:compute_capacity"]}
{"id": "C149", "title": "An expert that keeps no token of a batch gets no gradient", "statement": "The outputs and metrics of the MoE block do not depend on the parameters of the experts that keep no token in any group of the batch; so whatever follows the block and whatever the loss is, the gradient in these parameters is exactly zero. The output of a token changes with the parameters of the experts that keep it, in proportion to its gates for them. An entry of the parameters whose gradient was zero in every step is only multiplied by 1 - lr(n) * weight_decay in each step, with Adam and with SGD with momentum, whatever the clipping and the scaling rules; without weight decay, or when it is frozen, it stays as it was. But it is not true that an idle expert stays as it was once it has been used: Adam keeps moving it by its momentum.", "quantifier": "all inputs, kernels, noise, expert networks and parameters, configurations of router and optimizer, numbers of steps, losses", "why_tests_cant": "A test sees the gradients of a few batches; that no path through dispatch, combine and metrics leads to the parameters of an idle expert is a statement about all of them, and so is the history of the optimizer.", "anchors": ["vmoe/nn/vit_moe.py:MlpMoeBlock", "vmoe/moe.py:sparse_moe_spmd", "vmoe/train/trainer.py:train_step", "vmoe/train/optimizer.py:create_optimizer"]}
{"id": "C150", "title": "The gradients of the training losses are predictions less labels", "statement": "The main loss of a batch (mean of the losses of its examples) has these gradients in the logits: with softmax_xent, (probability * total of the labels - label) / N, with sigmoid_xent, (probability - label) / N, with the contrastive loss, (probability that image and text belong together - 1 if they do) / B. The losses of labels lie above their tangents in the logits (convex), so logits whose probabilities equal the labels have the least loss of all; and changing all logits by at most d changes the loss by at most 2 d (softmax_xent, labels of total one) or C d (sigmoid_xent, labels between 0 and 1).", "quantifier": "all batches, logits, labels (also mixed ones), directions, numbers of classes and examples", "why_tests_cant": "Tests compare values of the losses at some logits; the derivative, convexity and the Lipschitz bound are statements about all logits.", "anchors": ["vmoe/train/trainer.py:get_loss_fn", "vmoe/train/trainer.py:train_step", "vmoe/projects/contrastive/trainer.py:sigmoid_loss", "vmoe/projects/contrastive/trainer.py:train_step"]}
{"id": "C151", "title": "An ensemble started from a model with one router splits its experts", "statement": "The rule \"reshape\" of the E³ fine-tuning configuration gives member m of the ensemble the columns m*n,...,m*n+n-1 of the router kernel of the checkpoint, which are those of its experts. So without noise, the gates of a member are the gates of the checkpoint model for the experts of the member, scaled to sum one, and rank them in the same order. With noise, its standard deviation is noise_std over the number of experts of the member. In the E³ configuration every expert has room for 816 tokens, as in a separate model with 4 experts and groups of 2176 tokens, and a layer accepts exactly the batches with a multiple of 128 images, giving each of the two members what a separate layer gives.", "quantifier": "all checkpoints, ensemble sizes, numbers of experts, tokens, noise; for the configuration all batches, parameters and roundings that keep small integers", "why_tests_cant": "Tests check that a reshape has the right shape. That each expert keeps its own router weights depends on the axis of the members in the parameters, on the row-major order and on the position of the experts of a member, for all sizes.", "anchors": ["vmoe/initialization/rules.py:ReshapeTransformation", "vmoe/nn/ensemble_routing.py:NoisyTopExpertsPerItemEnsembleRouter", "vmoe/configs/eee_paper/eee_s32_last2_ilsvrc2012_ft_cifar100.py:get_config", "vmoe/nn/vit_moe_ensemble.py:MlpMoeWithNoisyTopExpertsPerItemEnsembleRouter"]}
{"id": "C152", "title": "What a router learns from the outputs of its block", "statement": "Where the gates have no ties, the output of a token in a block of experts is differentiable in the kernel of the router, also with a dispatcher in bfloat16. The derivative in the logit of expert k is gate_k * (y_k - out) if k keeps the token and -gate_k * out if not, where y_k is the answer of the expert and out the output of the block. So a token that no expert keeps has no part in it. If one expert keeps the token, raising its logit scales the output up and raising any other logit scales it down: the router is trained also with one selected expert, as the softmax is over all experts and before the selection. For a differentiable loss the derivative in entry (h, k) of the kernel is the sum of these over the tokens, times feature h.", "quantifier": "all router configurations, groups, capacities, kernels without ties, noise, experts, roundings, inputs, losses and directions", "why_tests_cant": "Tests compare values, not derivatives. That the selection and the capacity leave the derivative well defined and equal to this formula is a statement about neighbourhoods and all groups, experts and capacities.", "anchors": ["vmoe/nn/routing.py:NoisyTopExpertsPerItemRouter", "vmoe/nn/vit_moe.py:MlpMoeBlock", "vmoe/moe.py:Bfloat16Dispatcher"]}
{"id": "C153", "title": "Room in the experts of the runs of the V-MoE paper, in training and in evaluation", "statement": "The five configurations of vmoe/configs/vmoe_paper give models with two of eight experts per token and groups of eight images. Their experts have room for 108, 416, 1732, 436 and 196 tokens of a group of 400, 1576, 4616, 1160 and 520. In the evaluation of the first one (vmoe_s32_last2_ilsvrc2012_randaug_light1) the overrides of the model change only the capacity factor, and every expert has room for the whole group: the prediction for an image does not depend on its batch. The other four evaluate with the capacity of the training, where the same image can get different results at two positions of a batch. All layers accept exactly the batches with a multiple of eight images, which the batches of all datasets are, also on each of up to 128 devices (powers of two).", "quantifier": "all parameters, images, batches, expert functions and monotone roundings that keep the integers below 2^24", "why_tests_cant": "A test of the configuration can only build it. That nothing is dropped, for all parameters and images, needs the capacity formula with rounding, the overrides, the group size and the routing together.", "anchors": ["vmoe/configs/vmoe_paper/vmoe_s32_last2_ilsvrc2012_randaug_light1.py:get_config", "vmoe/configs/vmoe_paper/pretrain_imagenet21k.py:get_config", "vmoe/configs/vmoe_paper/common.py:get_vmoe_config", "vmoe/train/trainer.py:create_evaluation_hook", "vmoe/moe.py:compute_capacity"]}
{"id": "C154", "title": "Which auxiliary losses are trained on", "statement": "The total loss of a step of a classifier (VisionTransformerMoe) is the mean of the losses of the examples plus the mean over the groups of the sum of the auxiliary losses of all MoE blocks, and `auxiliary_loss` reports the second part. The total loss of a step of a TwoTower model is the mean of the losses of the images only: the auxiliary losses of its encoders are reported in the dicts `img` and `txt`, and are never added, so that loss and gradients (with any number of microsteps) are the same for any auxiliary losses. With a router whose auxiliary losses are not zero, the experts of a contrastive model are not balanced by them; with the routers of the Soft MoE configurations (experts choose, soft) nothing is lost, their auxiliary losses are zero. Each reported entry, of a block or below `img` and `txt`, is the mean of the array that the model has at this path.", "quantifier": "all metrics of the encoders (dicts in dicts), numbers of blocks and groups, losses, parameters, batches, numbers of microsteps", "why_tests_cant": "the tests of the contrastive trainer use models without MoE layers or do not look at the total loss; the loss falls in training with and without the auxiliary part", "anchors": ["vmoe/train/trainer.py:train_step", "vmoe/projects/contrastive/trainer.py:train_step", "vmoe/projects/contrastive/models.py:TwoTower.__call__", "vmoe/nn/vit_moe.py:EncoderMoe.__call__"]}
{"id": "C155", "title": "What the parameters of a contrastive model learn from", "statement": "The main loss of a batch is the mean over its images of the losses of their pairs, with logits exp(s) * cosine + b of the vectors of the two encoders. Its gradient in the bias b is (expected number of pairs that belong together - B) / B, and a bias with which the expected number is B gives the least loss of all biases. Its gradient in s is exp(s) times the mean over the images of the cosines weighted by probability less label. Its derivative when the vector of an image moves is the sum over the texts of probability less label times the change of the cosine; along the vector itself it is at most 1e-8 * exp(s) / length, so nothing is learned about the lengths. At the start with scale 10 and bias -10 (pretrain_laion) every probability is below one half, whatever the encoders compute, and the loss is above log 2.", "quantifier": "all batches, vectors of the encoders (not zero for derivatives in them), scales, biases, directions", "why_tests_cant": "tests compare the loss on a few arrays; gradients as formulas, the best bias and the bound along the vector are statements for all real vectors", "anchors": ["vmoe/projects/contrastive/models.py:TwoTower.__call__", "vmoe/projects/contrastive/trainer.py:sigmoid_loss", "vmoe/projects/contrastive/trainer.py:train_step", "vmoe/projects/soft_moe/configs/pretrain_laion.py:get_config"]}
{"id": "C156", "title": "The soft MoE layer is smooth, and no expert of it is idle", "statement": "If what the experts compute is k times continuously differentiable in parameters and inputs, so is the output of the soft MoE layer in the parameters of the experts, the scale, the vectors of the slots and the items, everywhere (no ties as in C131). If what an expert computes changes, every item of every group changes by the changes in the slots of the expert weighted by their shares; a constant change (last bias) moves every item by a positive share of it, without noise at least exp(-2 |scale|) / number of experts, so no expert is ever without gradient (as in C149 it can be). The derivative in the logits of the router is: for every slot, share * (output of the slot - output of the item), and through the contents of the slots, share * (item - content of the slot).", "quantifier": "all parameters, inputs, noise, numbers of groups, items, experts, slots and features; all differentiable experts", "why_tests_cant": "differentiability everywhere, the formula of the gradient and the lower bound of the shares are statements about all real parameters and inputs", "anchors": ["vmoe/projects/soft_moe/router.py:SoftRouter.__call__", "vmoe/projects/soft_moe/router.py:normalize", "vmoe/moe.py:sparse_moe_spmd"]}
{"id": "C157", "title": "Which training data an interrupted training has used", "statement": "Whatever happens to the processes of a training (killed at any moment, started again, checkpoints deleted), the state of every checkpoint is the result of some processes, each of which used a training iterator from its beginning, in whole batches of processed examples. An example that occurs c times was used at most c times for every pass begun by one of these processes and, up to the two buffers, at least c times for every pass one of them completed; if none gets through the data, at most once per process. There is no guarantee for the training as a whole: killed after half a pass and started again, a training of one pass completes with a state that used half of the examples twice and never saw the others.", "quantifier": "all histories of crashes and restarts, all shufflings, data, batch sizes, buffers and checkpoint intervals", "why_tests_cant": "it is about all points at which a training can be killed and all shufflings", "anchors": ["vmoe/train/trainer.py:get_dataset_iterator", "vmoe/train/trainer.py:train_and_evaluate", "vmoe/data/input_pipeline.py:get_data_from_tfds"]}
{"id": "C158", "title": "What router and experts learn from when the experts choose their tokens", "statement": "In a block with NoisyTopItemsPerExpertRouter, if no other token of its group has the same gate for an expert, the output of a token is differentiable in the kernel of the router; the derivative in the logit of expert k is gate_k * (y_k - out) if k takes the token and -gate_k * out if not. A token that no expert takes has output zero and no part in the gradient. No expert is idle: if what an expert computes changes by a constant (its last bias), the outputs of exactly `capacity` tokens of every group change, each by its positive gate times the constant, whatever the router does (C149 shows that experts chosen by tokens can be idle).", "quantifier": "all configurations for which the block runs, kernels, noise, experts, roundings, inputs and directions", "why_tests_cant": "differentiability away from ties, and that no choice of parameters and inputs leaves an expert without work, are statements about all real parameters and inputs", "anchors": ["vmoe/nn/routing.py:NoisyTopItemsPerExpertRouter", "vmoe/moe.py:_get_top_items_per_expert_einsum_dispatcher", "vmoe/nn/vit_moe.py:MlpMoeBlock"]}
{"id": "C159", "title": "Restoring the parameters of a model to attack it", "statement": "restore_from_config restores the parameters from any checkpoint of a tree with the same names, however it was saved: under 'params' each parameter has the saved array, there are no other parameters and no other variables. Every variable gets the axis resources of the first rule of params_axis_resources that matches its path, so a parameter is laid out as in the train state with the same rules. A checkpoint with other or missing names is refused with ValueError, a model without parameters with KeyError. The shapes are not compared: a model whose parameter has another shape than in the checkpoint is restored silently with the array of the checkpoint, and variables outside of 'params' are missing from the result although they have axis resources.", "quantifier": "all trees, numbers of processes, shards, chunk sizes, shardings, rules, meshes and orders of reading", "why_tests_cant": "it is about all trees and ways to distribute them, on saving and on restoring", "anchors": ["vmoe/projects/adversarial_attacks/restore.py:restore_from_config", "vmoe/checkpoints/partitioned.py:_restore_checkpoint_from_index_v1", "vmoe/checkpoints/partitioned.py:_restore_checkpoint_from_index", "vmoe/partitioning.py:tree_axis_resources_from_regexes"]}
{"id": "C160", "title": "The attacked model and the evaluated model", "statement": "The attack configuration for ILSVRC2012 describes the model of the fine-tuning configuration whose checkpoint it restores, in all sizes, MoE layers, experts, capacity factor and loss weights, and its processing string gives the same image, labels and mask as the evaluation (or refuses the example with the same error). Its MoE layers accept all batches of multiples of four images. They route in groups of four images with 868 places per expert, the evaluation in groups of eight with 1732: where at most 866 tokens of every four images ask for the same expert, both give the same results. In general they do not: of eight equal images whose tokens ask for the same experts, the fifth one is processed in the attack, but not in the evaluation.", "quantifier": "all images, batches, parameters, functions of the experts and roundings", "why_tests_cant": "it relates two configurations through routing, for all inputs and parameters, at sizes that no test runs", "anchors": ["vmoe/projects/adversarial_attacks/configs/attack/ilsvrc2012.py:get_config", "vmoe/configs/vmoe_paper/vmoe_b16_imagenet21k_randaug_strong_ft_ilsvrc2012.py:get_vmoe_config", "vmoe/configs/vmoe_paper/common.py:get_vmoe_config", "vmoe/nn/vit_moe.py:MlpMoeBlock"]}
{"id": "C161", "title": "What the KL projection routers converge to", "statement": "With more Sinkhorn iterations the plan of the KL projection routers converges, for all logits, to the plan that the docstring describes: every row is a probability vector and every column sums to group_size / num_experts. It is the only plan of this kind nearest to the exponentials of the logits in Kullback-Leibler divergence, and equals any such plan that scales them by rows and columns, however it is found. The distance of the plan and of the expert loads shrinks by a factor with every iteration, which depends on the spread of the logits and the number of experts only; once the bound of the distance is below half the smallest difference of shares in the limit, more iterations change no request, no slot and no order of the tokens. A balanced plan does not balance the requests: tokens with equal logits share all experts equally and all ask for the experts with the smallest numbers, whatever their logits are.", "quantifier": "all logits, numbers of tokens, experts and iterations", "why_tests_cant": "a limit and a rate over all logits and numbers of iterations; optimality among all plans", "anchors": ["vmoe/projects/sparsity_constrained_ot/kl_projection_routing.py:_get_kl_projection_algorithm", "vmoe/projects/sparsity_constrained_ot/kl_projection_routing.py:KLProjectionNoisyTopExpertsPerItemRouter"]}
{"id": "C162", "title": "Microsteps of a model with MoE layers", "statement": "Training with `microsteps=m` splits the batch by position modulo m (accumulate_gradients_and_metrics), and every microstep builds its own routing groups. The gradient and the total loss that the step uses are exactly those of one step without microsteps over the batch in another order: the examples of microstep 0, then those of microstep 1, and so on, with the noise that the microsteps draw. The total loss is the mean over the examples of the loss of their predictions, plus for every MoE block the mean over the groups of its auxiliary loss; block i uses its own router, experts and noise. If the routers add no noise and the model runs on single images (groups within an image), the total loss of a batch is the mean over its examples, so microsteps change nothing. Otherwise they change what the step computes: with k images per group and m >= k, two images of a microstep are never in the same group of the batch, and a layer with little room keeps other images (counterexample).", "quantifier": "all models (weights, options, number and place of MoE layers, both routers), all noises, losses per example, batches, numbers of microsteps, and all differentiable parametrizations of the model", "why_tests_cant": "tests compare microsteps with a full step for one small dense model; the equality with the reordered batch, and its failure for the given order, are statements about all batches, groupings and weights", "anchors": ["vmoe/train/trainer.py:accumulate_gradients_and_metrics", "vmoe/train/trainer.py:train_step", "vmoe/nn/vit_moe.py:MlpMoeBlock.__call__", "vmoe/nn/vit_moe.py:EncoderMoe.__call__", "vmoe/nn/routing.py:NoisyTopExpertsPerItemRouter"]}
{"id": "C163", "title": "The training loss of a model with experts has a gradient", "statement": "The total loss that `train_step` differentiates (mean loss of the examples plus auxiliary losses of all MoE layers) is a differentiable function of all parameters of the model at every point where no MoE layer has tied gates (for the routers per item: no two equal gates of an item and, with batch priority, no two items with the same largest gate; for the routers per expert: no two equal gates at an expert), given that attention, normalization, MLPs, heads and the loss per example are differentiable and nothing is rounded to bfloat16. The choice of experts, the places in their buffers, the counts in the GShard loss and the thresholds of the load loss do not keep it from having a gradient; a small step against the gradient decreases the total loss of the batch with the same noise; with microsteps the accumulated gradient is the gradient of the loss over the reordered batch (C162). At a tie the loss can jump (counterexample).", "quantifier": "all models (number of layers, places of MoE layers, both routers, dispatchers, capacities, group sizes, loss weights, classifiers, position embeddings), all noises, batches and parametrizations, all points without ties", "why_tests_cant": "tests look at gradients at a few points and for single layers; existence of the derivative for all models and points without ties is a statement about limits", "anchors": ["vmoe/train/trainer.py:train_step", "vmoe/train/trainer.py:accumulate_gradients_and_metrics", "vmoe/nn/vit_moe.py:VisionTransformerMoe.__call__", "vmoe/nn/vit_moe.py:EncoderMoe.__call__", "vmoe/nn/routing.py:NoisyTopExpertsPerItemRouter", "vmoe/nn/routing.py:NoisyTopItemsPerExpertRouter"]}
{"id": "C164", "title": "How far an expert moves while it gets no tokens", "statement": "An expert that gets no tokens has zero gradients (C149), but the optimizers of `create_optimizer` can still move it. SGD with momentum m: after k such steps an entry is exactly its value times the product of the weight decay factors, minus its momentum from before times the sum of learning rate times m^(j+1) (Nesterov: m^(j+2)) times the later decay factors. Adam: it differs from the value that weight decay leaves by at most the sum of |learning rate| * sqrt((1-b1)/(1-b2)) * (b1/sqrt(b2))^(j+1); with b1 = 0.9 and b2 = 0.999 by at most 91 times the largest learning rate, however long the expert is idle and whatever the gradients were before. Adafactor: the updates of such an entry are momentum^(j+1) times its average from before, for arrays with and without factored averages. So only weight decay moves an idle expert far.", "quantifier": "all configurations of create_optimizer with SGD or Adam (clipping, decay rules, gradient scaling, frozen parameters, schedules), all parameter trees, all gradients before, all numbers of steps without gradients; all Adafactor options, states and shapes", "why_tests_cant": "a bound over all gradient histories and arbitrarily many steps", "anchors": ["vmoe/train/optimizer.py:create_optimizer", "vmoe/train/optimizer.py:scale_by_big_vision_adafactor", "vmoe/nn/vit_moe.py:MlpMoeBlock"]}
{"id": "C165", "title": "Which device works on which items, and who sends what to whom", "statement": "With the partition_spec of the configurations, (('expert', 'replica'),), a mesh of P rows and r columns, E experts (P divides E, and E = P or r = 1, as in the mesh of get_auto_logical_mesh for the configurations), and a number of groups that the number of devices divides: before the exchange every device has the same number of whole groups, and every entry is on exactly one device; after it every device has the same number of rows, and only of experts whose parameters it has (so no parameter of an expert is ever moved); every row comes from a device in the same column of the mesh, and every device sends exactly (groups per device) * (experts per device) * capacity slots to each device of its column; the outputs of the experts are not moved before they are sent back, and every slot goes back to the device it came from. With microsteps no image is moved to another device and every microstep has the same number of images of every device. Without a mesh or partition_spec no layout is asked for.", "quantifier": "all numbers of experts, groups, slots, rows and columns with these divisibilities, all item shapes, all entries, all pairs of devices; all device lists for the mesh", "why_tests_cant": "tests run on one device or on a fixed small mesh, and compare values; who holds and sends what is not visible in the values", "anchors": ["vmoe/moe.py:_dispatch", "vmoe/moe.py:_receive", "vmoe/moe.py:_convert_partition_spec", "vmoe/partitioning.py:with_sharding_constraint", "vmoe/train/trainer.py:accumulate_gradients_and_metrics", "vmoe/partitioning.py:get_auto_logical_mesh"]}
{"id": "C166", "title": "The loss of a model with the soft router has a gradient everywhere, and microsteps compute it exactly", "statement": "For a VisionTransformerMoe whose MoE layers have the SoftRouter, with layers and a loss that are differentiable in their parameters and inputs: if the total loss of a batch can be computed with some parameters, it can be computed with all, and it is differentiable at every point (also with noise, for any fixed draw), unlike with routers that select (C163), where ties have to be excepted. With groups that are whole sequences and without noise there is one prediction per image, the total loss is the mean of the losses of the predictions of the batch without any auxiliary term, and the gradient that accumulate_gradients_and_metrics returns with microsteps is the gradient of the total loss of the whole batch (not only of a reordered one with other groups, C162), with the value of that loss as the reported one.", "quantifier": "all models (number of layers, sparse layers, experts, slots, group size, classifier, position embedding), all parameters, batches, losses, noise; all numbers of devices and microsteps that divide the batch", "why_tests_cant": "differentiability at every point and equality of gradients for all batches are statements about real functions; tests compare a few values in floating point", "anchors": ["vmoe/projects/soft_moe/router.py:SoftRouter", "vmoe/train/trainer.py:train_step", "vmoe/train/trainer.py:accumulate_gradients_and_metrics", "vmoe/nn/vit_moe.py:VisionTransformerMoe"]}
{"id": "C167", "title": "A step of the optimizer lowers the loss of its batch", "statement": "Take parameters in a tree of arrays and the gradients of a loss that is differentiable there, in a tree of the same shape. Without weight decay, and with positive gradient scales and clipping bounds, the first update by train with the SGD of create_optimizer (with or without momentum, Nesterov momentum, scaling by rules, clipping by norm or value, frozen parameters) lowers the loss for every learning rate schedule whose first value is positive and small enough, unless all derivatives of the parameters that are not frozen are zero. Without momentum this holds for every later update too. The first update of Adam points in a direction of falling loss, and lowers the loss at small rates. For a VisionTransformerMoe with experts this holds with the total loss (with the auxiliary losses) of the batch, if no gates are tied. With momentum, later updates can raise the loss of their batch, at every learning rate.", "quantifier": "all trees of parameters, differentiable losses, options of the optimizer without weight decay, learning rate schedules that start below a bound; all models with experts, batches, noise without ties", "why_tests_cant": "the bound of the learning rate depends on the loss and the batch; that there is one for every loss, and that scaling, clipping and freezing never turn the step uphill, is not settled by examples", "anchors": ["vmoe/train/optimizer.py:create_optimizer", "vmoe/train/optimizer.py:gradient_clipping", "vmoe/train/optimizer.py:gradient_scaling", "vmoe/train/optimizer.py:freeze_weights", "vmoe/train/trainer.py:train_step"]}
{"id": "C168", "title": "Few-shot results do not depend on batches, padding or random keys of models that treat images separately", "statement": "_fewshot_step with _compute_representation uses for every batch, counted through the training and the test data, keys of its own: no key is used for two batches or two names, nor one that stays in the state. Padded examples never appear in the features. If the features of an image depend on the image only, then the few-shot accuracies are the same for all ways to put the same examples in batches, with whatever padding and seed of the model. Models with the soft router whose groups are whole sequences, without noise, are of this kind; with groups of more than one image they are not: a padded example can change the features of the others.", "quantifier": "all models, variables, data sets, batchings (also of different sizes), paddings, states with distinct keys, numbers of shots and regularizations", "why_tests_cant": "all ways to put examples in batches; the dependency on padded examples shows only in the values of features of other examples", "anchors": ["vmoe/evaluate/fewshot.py:_fewshot_step", "vmoe/evaluate/fewshot.py:_compute_representation", "vmoe/evaluate/fewshot.py:_compute_fewshot_metrics", "vmoe/utils.py:tree_rngs_split"]}
{"id": "C169", "title": "Summaries of arrays never change training, see the state after the update and the averaged gradient, and replace no loss", "statement": "train_step with a summarizer gives the same train state and uses the same random keys as without one. It fails exactly if a rule cannot be applied to an array that it names or gives more values than allowed. Rules see the step, parameters, optimizer state and random keys after the update, under the names <field>/<path>, and the gradient that was applied (averaged over the microsteps, at the parameters before the update) as params_grads/<path>, although these dicts are flattened twice. Every value of a rule is reported under its name (if it is the only value with this name), every other metric is reported as without summaries, and main_loss, auxiliary_loss, total_loss and the global norms are never replaced.", "quantifier": "all models, optimizers, batches, numbers of microsteps, rules, limits, and trees of parameters, optimizer states and gradients with keys without slashes", "why_tests_cant": "all rules and trees of arrays; that a metric is silently replaced by a summary of the same name shows only for particular names", "anchors": ["vmoe/train/trainer.py:train_step", "vmoe/projects/contrastive/trainer.py:train_step", "vmoe/train/tree_summarizer.py:TreeSummarizer"]}
{"id": "C170", "title": "Training an ensemble is training its members: its main loss is the mean of their losses, and each member gets its own gradient divided by their number", "statement": "If M plain models, with the routers and experts of the M members of an ensemble and everything else in common, run on a batch and have main losses v_1, ..., v_M with softmax_xent or sigmoid_xent, then the ensemble runs on the batch and its main loss with ensemble_softmax_xent or ensemble_sigmoid_xent and ensemble_size = M is the mean of the v_m. So along every curve of the parameters the derivative of its loss is the mean of the derivatives of the plain models; if only the routers and experts of one member move, it is the derivative of that plain model divided by M, whatever the other members are. At evaluation, with labels between 0 and 1, the loss of the ensemble for each example is at most the mean of the losses of the plain models. An ensemble of several members without MoE layers cannot be trained: the number of predictions is wrong and the loss raises an error. Labels and predictions of the members are matched although the predictions are interleaved.", "quantifier": "all numbers of members and experts, configurations of the encoder with at least one MoE layer, parameters, noise, batches and labels", "why_tests_cant": "a wrong pairing of repeated labels and interleaved predictions has the right shape, and is invisible if all labels or all members are equal; the statement is about all parameters and batches", "anchors": ["vmoe/train/trainer.py:train_step", "vmoe/train/trainer.py:get_loss_fn", "vmoe/evaluate/ensemble.py:ensemble_softmax_xent_train", "vmoe/evaluate/ensemble.py:ensemble_sigmoid_xent_train", "vmoe/nn/vit_moe_ensemble.py:VisionTransformerMoeEnsemble"]}
{"id": "C171", "title": "The processes of an attack write their files without disturbing each other; only a stopped process leaves a file cut short", "statement": "When the processes of run_pgd_attack write their files, in any interleaving of their file operations, no process fails for lack of a directory or file, also if the directories did not exist; a process that has finished has left all its examples in its own file, process 0 also the complete statistics, and no other file is changed. If processes are stopped at any moment, each of these files is as before or contains a beginning of its content. Unlike checkpoints (C22) these files are not replaced atomically: a stopped process can leave a part of the new file in the place of the complete file of an earlier run.", "quantifier": "all numbers of processes, working directories and prefixes, contents, earlier file systems, interleavings and moments of a crash", "why_tests_cant": "interleavings of processes and moments of a crash; an equal name of two processes or of the two kinds of files would show only with several processes", "anchors": ["vmoe/projects/adversarial_attacks/lib.py:savez_compressed", "vmoe/projects/adversarial_attacks/lib.py:run_pgd_attack", "vmoe/projects/adversarial_attacks/lib.py:ExampleStorage.write"]}
{"id": "C172", "title": "What a filter does to evaluation data: which examples are lost, and when the processes disagree on the number of batches", "statement": "With pre_filter_fn, get_dataset for a variant other than train computes the fake examples from the unfiltered counts. Let k be the number of batches per process without the filter. A process then gets k less the number of batches that the examples removed from its share would fill (rounded up). All batches are full; they hold the kept examples, then fake ones, and what does not fill a batch is dropped, fake examples first. So a process loses kept examples only if it has too few fake ones, always fewer than a batch, and exactly the stated number. Two processes get the same number of batches exactly if the examples removed from their shares fill the same number of batches.", "quantifier": "all filters, numbers of examples per process, batch sizes, processing functions and orders of the parallel map", "why_tests_cant": "tests use one process and few examples; the number of batches differs only for some numbers of removed examples per process", "anchors": ["vmoe/data/input_pipeline.py:get_dataset", "vmoe/data/builder.py:_get_num_fake_examples", "vmoe/data/builder.py:TfdsBuilder.get_num_fake_examples"]}
