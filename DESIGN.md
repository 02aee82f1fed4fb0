# Formal model of google-research/vmoe: design

Everything is Lean 4.33.0 (`/verif/lean`, Lake project `verif`).  The target is the
Python source under `/repo`, read as text; it was never executed.

## 1. Trusted base

* The Lean kernel, and the three standard axioms `propext`, `Classical.choice`,
  `Quot.sound`.  No axiom is added; there is no `sorry`, `native_decide`, `bv_decide`,
  `implemented_by` or `unsafe`.  `lean/Verif/Audit.lean` prints the axioms of the
  property theorems during the build.
* Mathlib for a few definitions (sorting, big operators, reals, matrices) and tactics.
* The correspondence between the Lean model and the Python source, which is by
  reading.  Every model definition cites file and lines, and states simplifications.
* External libraries are *specified*, not verified: JAX/NumPy array primitives
  (`reshape`, `swapaxes`, `top_k`, `argsort`, `cumsum`, `one_hot`, scatter/gather),
  `msgpack` (byte format per its public specification), gfile/`os` rename semantics,
  `re` for the regular expressions that are modelled, `flax.traverse_util`, optax
  combinators (both modelled from their source), orbax (by its contract).

## 2. Conventions

* Directory `lean/Verif/Model`: definitions that mirror the code, function by function.
  Directory `lean/Verif/Proofs`: helper lemmas.  Directory `lean/Verif/Props`: the
  property theorems, named `C<nn>_...`, each with an `example` which shows a
  concrete non-trivial case meeting the hypotheses.  Specification notions that are needed
  to state a property and are not part of the code live in `Verif/Spec`.
* Python exceptions are values: `Except PyErr α`, or an explicit outcome type.
* Arrays are shape + row-major list, or functions/nested lists where rank is fixed.
* Floating point is replaced by exact arithmetic in an arbitrary linearly ordered
  field (or `Rat`/`Real`).  NaN, infinities and rounding are out of scope unless a
  definition says otherwise; the affected claims say so.
* Pseudo-random numbers are universally quantified inputs.
* Where a property is false of the code, the negation is proved on a concrete witness
  (`..._counterexample`) together with the theorem that does hold, and the
  disagreement is recorded in section 4.
* `tools/gen.py` writes `MANIFEST.json`, `lean/Verif.lean` and `lean/Verif/Audit.lean`
  from the theorem names in `Verif/Props`; `tools/status.json` holds the statuses that
  are not `proved`.
* `seeded/LOG.jsonl` records the mutation testing of the theorems: an edit of a model
  definition in a scratch copy, the claim it breaks, the theorems that then fail.

## 3. What is modelled and how it is proved, per property

Model files are under `lean/Verif/Model`; the theorems of a property are listed in
`MANIFEST.json`.

| id | model | proof |
|----|-------|-------|
| C01, C03, C14 | `MoeRouting`, `MoeDispatch`: `_get_top_experts_per_item_common` on gate rows of any linearly ordered type: `top_k`, stable `argsort`, K-major flattening, one-hot cumulative sum, un-permutation | the cumulative sum counts the earlier requests (induction over the request list), which makes (expert, slot) injective and gives the drop condition |
| C02 | as above | `top_k` = prefix of a stable sort; uniqueness of the sorted order |
| C04 | as above with `batch_priority` | permutation lemmas for the sort; monotonicity of the counts |
| C05 | `EinsumDispatcher`, `ExpertIndicesDispatcher` over a semiring; scatter that ignores out-of-range indices | both are finite sums that collapse by C01 |
| C06, C08 | `sparse_moe_spmd`: dispatch, exchange, per-expert function, exchange back, combine | composition of C05 and C07; sorting lemmas for the expert choice |
| C07 | `_dispatch`/`_receive` as reshape/swapaxes on flat row-major arrays | index arithmetic for both branches |
| C09 | `MoeMetrics` | double counting, monotonicity |
| C10-C11 | `MoeCapacity` parts of `MoeFactory`: exact rationals, Python's `round` (half to even) | floor/ceil lemmas, case analysis |
| C12-C13 | `Ensemble`: block-diagonal gates, regrouping reshapes | C02 + index arithmetic (mixed radix) |
| C15 | `SoftMoe` over the reals | softmax sums to one; convex combinations |
| C16 | `AuxLoss` over the reals | variance algebra, Cauchy-Schwarz |
| C17-C21, C28 | `Partitioned`: chunk splitting, greedy assignment to shards, index and shard files of every process, restore | invariants over folds; round trip by a pointwise argument; canonical sorting for independence of the order |
| C22 | `SaveFile`: file system state machine, crash at any step, several writers | case analysis over prefixes of the operation list; invariant for interleavings |
| C23-C25 | `CkptPath`: the checkpoint regular expression as a matcher over character lists, listing of directories | list induction; unambiguity of the decomposition |
| C26-C27 | `Msgpack`, `Serialization`: bytes and extension types, chunked arrays | round trip by structural induction, with arbitrary following bytes |
| C29 | `SafeZip`: iterators as lists | induction |
| C30 | `Regex`: parser and backtracking matcher for a subset of `re` | language semantics of the joined pattern |
| C31 | `ParseCall`: AST datatype and the evaluation | structural induction |
| C32 | `Multihost` | algebra |
| C33, C39 | `DataPipeline` | integer arithmetic |
| C34 | `Evaluator` | sums over batches; permutation invariance |
| C35-C36 | `Prefetch` | coinduction replaced by induction over the number of `next` calls; index arithmetic |
| C37-C38, C65 | `PpOps` | induction over the operations; real/rational inequalities; `Float32` contract for one rounding |
| C40-C43, C66-C67 | `Partitioning`, `FlatDict`: meshes as n-d arrays, rule lookup, nested dicts | bijections of index spaces; induction on trees |
| C44-C46, C68 | `Optimizer`: optax transformations as state machines over nested dicts of real arrays | invariants over all histories of gradients |
| C47 | `Schedule` over the reals, all schedules of `create_learning_rate_schedule` | closed formulas and real inequalities |
| C48, C50, C52 | `Trainer` | sums over vector spaces; ceiling; induction on trees |
| C49 | `Mixup` on real n-d arrays | sums over rolled axes |
| C51, C69 | `TrainLoop`: transition system with kills at any point and background checkpoint writing | inductive invariants |
| C53 | `Summarizer` | injectivity of the index names; values of the operations over the set of reduced indices; chain of transformations and its name |
| C54-C57 | `Mapping`, `NaturalSort`, `InitRules` | invariants of the mapping loop; order of the sort keys; index arithmetic |
| C58-C59, C70 | `Fewshot`: subsets, ridge regression with matrices, choice of the regularization | matrix algebra from the contract of `eigh`; strict convexity; ranks |
| C60, C64 | `EnsembleEval`, `Contrastive` over the reals | Jensen's inequality; Cauchy-Schwarz |
| C71 | `MoeDispatch`, `MoeFactory`: dense dispatcher and default dispatch weights | sums over experts |
| C72 | `MoeBlock`: `MlpMoeBlock` with the noisy top-experts-per-item router, from (B, T, H) to (B, T, H) | composition of C01-C06, C10, C16 with the row-major numbering of the tokens |
| C73 | `Encoder`: blocks, plain and ensemble encoders; the layers are arbitrary functions | invariant of the loop over blocks |
| C74 | `OtRouting`: replaced combine weights, sparse plans from an arbitrary dual variable, routers and metrics; the projection onto the sparse simplex is an arbitrary function satisfying its contract (`Spec/Transport`, proved to be satisfiable) | one lemma for the layer with replaced weights; nonzero entries have small rank; expanding squares for the maximum |
| C75 | `OtRouting`: Sinkhorn iterations, gates of both routers, `_weighted_sum` | induction on the iterations; monotonicity of the two scalings |
| C76 | `EnsembleBlock`: the whole `MlpMoeWithNoisyTopExpertsPerItemEnsembleRouter` call without metrics | with block-diagonal positive gates, ranks, slots and kept items of a member are those of its own block (bijections); closed forms of the reshapes; then C72 |
| C77 | `EvalAction`: callback with cache, iterators and writer as state; `Evaluator` for the sums | closed form of the loop over datasets; keys of different datasets never clash; induction over the calls |
| C78 | `ExpertChoiceBlock`: router `NoisyTopItemsPerExpertRouter` inside `MlpMoeBlock`, metrics included | regrouping lemmas of C72, layer equation of C08, case analysis of the errors |
| C79 | `ModuleConfig`: keyword merging, dataclass constructors, `partialclass`, the builders that use them; `parse_call` is an arbitrary function here (C31 models it) | each builder equals the specification `Builds` for an explicit option function |
| C80 | `Vit`: convolution to patches, flattening, class token, `add_position_emb`, pooling and head over the reals; the encoder is an arbitrary function | index arithmetic of the grid; injectivity from the irrationality of pi |
| C81 | `Vit`: `TextTransformer` with all pooling types | case analysis, induction for the maximum |
| C82 | `TrainStep`: keys are paths of `split` from the seed; every use is logged; train step, attack and mixup wrappers, initialization and loop | invariant: used and kept keys are pairwise incomparable (antichain of paths), preserved by each wrapper; induction over microsteps, updates and batches |
| C83 | `TrainStep.trainStep` over real metrics with arbitrary model, optimizer and derivative | instance of C48 (`C48_microsteps`) with explicit keys for each microstep |
| C84 | `InitVmoe`: index files, sorted trees, saving all leaves, assembling arrays on devices of another sharding, `initialize_from_vmoe` with `Mapping` | C19 round trip for each leaf, every device region filled from the slices that meet it, tree induction for structure |
| C85 | `Hooks`: periodic actions as state machines, construction of the hooks, training loop with reports, checkpoints and evaluations | invariant of the state (previous run, last step); closed form of all events by induction over the steps |
| C86 | `Partitioning` (automatic mesh on CPU/GPU) | explicit position of each device through the reshape/transpose lemmas of C40; process blocks by division with remainder; the contiguity check then succeeds, so the local devices are never looked at |
| C87 | `RulesParse`: the rules of the config as values, their parsing, the mapping with them | case analysis against an independent table of the forms (`ReadsItems`, `Wrong`), induction over the list; the result of the mapping by composing with C54 and C56 |
| C88 | `Optimizer`: the whole chain of `create_optimizer` for SGD | each transformation as a relation between trees and states, composed; induction over the gradients with the states of the chain related to the momentum and the count (`SgdRun`) |
| C89 | `RestorePool`: tasks of the thread pool, the pool as a transition system | invariants over all executions (files read, being read, waiting are a permutation of the files; tasks of the threads are different tasks); arithmetic of the rounding |
| C90 | `SoftMetrics`: pairwise cosine similarity, masking of the diagonal, minimum, maximum and mean, over the reals | minima and maxima of finite families; Cauchy-Schwarz |
| C91 | `ContrastiveStep`: logits of a batch, mean sigmoid loss, its Fréchet derivative, accumulation | instance of C48; the pairs of a microstep are those with equal remainders; positivity of the left out losses |
| C92 | `AttackRouting`: weights of each token from the dispatchers, collection of routers, reshape to images, prediction | characterization of the slots (C03, C08); flattened dicts have the leaves; positions of row-major arrays |
| C93 | `FewShotPeriodicAction` callback, `_get_datasets` (`Model/FewshotAction`): a store of iterator objects shared through the cache, nested loops over repetitions and tasks, report, sequences of calls | Invariant over the loops (the store has the same iterators at their beginning), report compared with the independent `IsReport`; keys distinct by their last characters and by the last separator; repetition by equality of stores; concrete evaluation through C58 and C70; `C93_same_split` for equal splits |
| C94 | `ContrastiveEval`: `apply_fn` of the hooks, the two callbacks with the readings of the clock | Induction over the tasks; report compared with an independent `Reports` (own entries, keyword arguments win); durations as differences of the readings |
| C95 | `get_loss_fn` with its keyword arguments, on top of the model of C60 (`Model/LossFn`) | `C95_names`, `C95_plain` (value of the losses in terms of probabilities, prediction), `C95_lower_bound` (Gibbs inequality), `C95_ensemble_of_one` (equality of functions), `C95_ensemble_train`, `C95_wrong_arguments` |
| C96 | `tfds.even_splits`, sources of the processes, `_get_tfds_builder` with its cache, options of `get_dataset` and `get_data_num_examples` (`Model/DataShare`, on top of `DataPipeline`) | `C96_shares` (telescoping prefixes), `C96_evaluation` (from C33, permutation over all processes), `C96_builder_cache` (induction over the calls), `C96_num_examples`, `C96_options` (exact set of accepted configurations) Also `C96_directory` (`Props/DirectoryBuilder`). |
| C97 | `get_dataset` for `train`: filter, cache, repeat, shuffle buffer, parallel map, batch (`Model/TrainStream`); elements of the infinite dataset as a function of their number, files, random choices and thread timing as parameters | `C97_training` (outputs and buffer are a permutation of the inputs read, by induction; counts per epoch), `C97_empty`, `C97_few_examples`, `C97_errors`, `C97_refused`, `C97_cached` |
| C98 | `restore_or_create_train_state`, `initialize_train_state_from_checkpoint`, `fix_dtype` (`Model/TrainStart`), on top of the models of C52 and C54; the reading of checkpoints is a parameter (see C84) | `C98_restart`, `C98_scratch` and `C98_finetune` (leaf by leaf, from C52 and C54), `C98_finetune_ok`, `C98_names`, `C98_vit` (induction over the tree) Also `C98_methods` (`Props/StartMethods`). |
| C99 | Images as type, shape and pixels (`Model/ImageOps.lean`): `resize`, `inception_crop`, `decode_jpeg_and_inception_crop`, `flip_lr`, `resize_small`, `central_crop`, `value_range`, `onehot` on the values of a dict; decoder, sampler of boxes, flip and interpolation are parameters | The contracts of TensorFlow (boxes inside the image, interpolation inside the range of the pixels) are hypotheses, satisfied by the example; the pipelines are composed operation by operation, with C37 and C38 for the keys, the sizes of `resize_small` and the central window Also `C99_central_crop` (`Props/CentralCrop`). |
| C100 | `SoftRouter.__call__`, `add_noise` and the layer as functions that may raise (`Model/SoftRouter.lean`), with the number of slots from `compute_capacity` and the shape check of Flax parameters | Closed form of the layer (`C100_layer`) in terms of the cosine similarity, from which independence of the batch (`C100_batch`), equivariance (`C100_permutation`) and the conditions for success (`C100_runs`) follow; rounding of the slots (`C100_slots`) |
| C101 | `override_base_config` and how the trainer chains it (`Model/ConfigOverride.lean`); `ConfigDict.update` is external and modelled from its documentation, its rule for types is a parameter, field references are left out | Value under every path of the result (`C101_override`, by induction on the path), exact condition of success (`C101_accepted`), the chain of evaluation and few-shot overrides (`C101_fewshot`) |
| C102 | `MapHead`, the attention and normalizations of `EncoderBlock` written out, the encoder and the text transformer with them, the soft MoE layer with one group per sequence (`Model/Attention.lean`) | sums over permuted lists; `Commutes` (results permuted like the inputs) holds for each part of a block and is kept by composition, induction over the blocks; the soft layer by C100 (`Props/Attention.lean`) |
| C103 | `run_pgd_attack`: the storage, the loop over the batches, the files and the reports (`Model/AttackRun.lean`); attack, model and routers are parameters | the loop leaves a record for each batch, by induction over the batches; both the state (a sum over the records) and the arrays given to the storage (C63) are functions of the records, so the file determines the report. File names: the padded number has the value of the number. Counterexample for an empty `store_examples` |
| C104 | `scale_by_big_vision_adafactor` with `optax.scale_by_factored_rms`, `optax.ema` (from their documentation) for one array, over the reals (`Model/Adafactor.lean`) | induction over the updates: explicit weights; linearity of means for the factored averages; `np.argsort` is any function that sorts. Counterexamples for the experts axis with the default size and for `decay_offset` |
| C105 | `Model/AttackLoss.lean`: the loss functions of the attack, `stateless_attack_pgd` with the derivative (Fréchet, real numbers) of the mean loss for `jax.grad`, and the keyword arguments of the model. Values of `jax.grad` where the loss has no derivative are not modelled. | Derivative of a mean of functions of single images, sign of a positive multiple, induction over the updates (`C105_independent`); duality of the maximum norm (`C105_steepest`); slope of the loss along the update (`C105_increases`); derivative of the logistic loss and constant signs (`C105_linear_optimal`). |
| C106 | `Model/BatchSpec.lean`: `useMesh`, `structOf`, `announced`, `imageStruct`, `toGlobal` (with `globalArray` of `Model/Prefetch.lean`) | Case analysis on the spec, `C36_global` and `C36_global_exists` for the delivered rows, induction on the feature dict; the check of the batch size in `get_dataset` gives divisibility |
| C107 | `Model/StateFile.lean`: `toState`, `npConvert`, `chunkLeaves`, `toVal`, `serializeState`, `toBytes`, `fromVal`, `unchunkLeaves`, `restoreState`, `fromState`, `fromBytes`, `restoreCheckpoint`, `restoreMultiple` (with `Model/Msgpack.lean`, `Model/Serialization.lean`, `Model/SaveFile.lean`) | Mutual inductions on state dicts and trees, each step inverted by the next (`unpackb_pack`, `fromVal_toVal`, `unchunk_chunkLeaves`, `fromState_ok`); the file by `C22_success` and `C22_crash_atomic` |
| C108 | `Model/DenseTransport.lean`: `projectionTransport`, `densePlan`, `denseGates`, `denseRouter` (the simplex projection by its contract, the dual variable of the solver arbitrary) | Nearest points of the columns, summed over the experts: with equal row sums the dual variable cancels; strict convexity (midpoint) for uniqueness; layer from C08 and C74 |
| C109 | `sparse_moe_spmd_with_axes`: the copy of `variable_axes` with the metadata collections, the lifting of each collection by vmap (shapes), the chain of `_add_axis_to_metadata` wrappers (names), and what an expert reads back. `_add_axis_to_metadata` and `flax.core.lift.vmap` are external, modelled from their documentation: `list.insert` on the names, position of the new dimension | induction over the chain of wrappers: each metadata collection is changed by exactly one of them; alignment by induction over the position; totality under conditions on the collections |
| C110 | `get_device_coords(_tpu)`, `log_logical_mesh`: widths from the column maxima, right-justified numbers, joins, rows, borders. The logarithm is exact; the first two log lines (axis names and shape) are not modelled | lengths: every number fits the width of its column, equal lengths through the joins; contents: a reader of maximal digit runs, by induction over cells and rows |
| C111 | `multiply_no_nan` (and its copy in ensemble.py) as an expression over the two arguments, with its value over finite numbers, infinities and NaN, and the backward pass of JAX for `where` and `mul`. Finite values are exact, there is one zero, no overflow | case analysis on the test x != 0; derivatives in Mathlib |
| C112 | `remove_checkpoints`: the tasks of `ThreadPool.map` (as for C89), every thread takes tasks and removes files one after the other; an exception ends its task. `match_fn` is a pure function, other programs do not touch the files | invariants over all interleavings: the number of times a matching path is still to be processed, against its existence; a measure for termination |
| C113 | `_make_dir_sync`, the call of it when saving, and lines 143-146 of `create_checkpoint_manager`, as programs of the processes over a shared file system; `sync_devices` is a meeting of all processes (its sums are modelled in Multihost.lean). The options of the orbax manager are not modelled | an invariant with two phases (before and after the meeting) over all interleavings; the failing and the unsynchronised variants by the same method |
| C114 | `create_tree_summarizer`, `TreeSummarizer.__post_init__`, and the reading of transforms in `_transform`, over values of a configuration; `re.compile` is an arbitrary function that may raise | inversion of the reader against a separate relation of what rules mean; induction over rules and transforms for the call |
| C115 | `Model/AttackModel`: the module part of `restore_from_config` (parse_call, `ConfigDict.update`, `deterministic=True`) over the module constructor of `Model/ModuleConfig`; the assignment of an existing key of a ConfigDict is an arbitrary function | `C115_module` (all cases), `C115_same_as_training` (refinement of `create_flax_model`), `C115_conflict_counterexample` |
| C116 | `Model/LazyChunks`: memory of array objects by address, `id`-keyed dictionary, `np.asarray` as allocation of a fresh object, the two loops | `C116_copies` (invariant of the conversion loop), `C116_contents` (any later memory that keeps NumPy arrays), `C116_without_copies` (the copies are needed). The copy is taken not to share the device buffer. |
| C117 | `Model/Donation`: memory of device buffers with deletion, the two compiled steps with their `donate_argnums`, the loop of `train_and_evaluate` with its hooks and the loops of the evaluation | `C117_refines` (refinement of the loop on values, by induction over steps, data sets and batches), `C117_deleted` (the buffers are really gone), `C117_shared_buffer`. The checkpoint manager is assumed to copy the arrays before `save` returns; what the compiled functions compute is arbitrary. |
| C118 | `Model/MappingDonation`: arrays in the pytree of each transformation, donated arrays, kept arrays, on top of `Model/Mapping` | `C118_linear` (donated ++ kept is a `Subperm` of the leaves of the checkpoint and the target, from the characterization `Built` of the transformations), `C118_buffers`, `C118_target_given_away`. |
| C119 | `Model/VmoeModel`: the whole model composed of `Model/Vit`, `Model/Encoder`, `Model/MoeBlock` and `Model/ExpertChoiceBlock` | `C119_layer` (from the exact outputs C72, C78), `C119_model` (by induction over the blocks), `C119_batches`, `C119_position_counterexample`. |
| C120 | `Model/VmoeModel` (see C119) | `C120_layer` (slots only count earlier items if K = 1), `C120_model` (by induction over the blocks), `C120_padding_counterexample` (for K = 1 with batch priority and for K = 2 without). |
| C121 | `Model/Spmd`: each process as a program of collective operations, saves, waits and tests of the directory; small-step system of all processes, the directory and the background saves | Invariant: every process has done a prefix of one fixed list of resolved statements, the completed saves are a prefix of its saves; the answers of the tests are shown to be fixed; progress from the slowest process; decreasing measure |
| C122 | `Model/EvalRun`: shares of the split (C96), padded batches (C33), global arrays (C36) and `evaluate_dataset` (C34) in one run `evalRun` | `C122_metrics`: the run succeeds and its values are the sums over the split; `C122_distribution`: equal for two arbitrary set-ups; `C122_model`: for the whole V-MoE model of C119; `C122_order_counterexample`: with a MoE layer that mixes images, two schedules give different losses |
| C123 | `ReportProgress._apply_extra`, with flax `flatten_dict`, and the dict given to it in the training loop (`Model/Progress`). | `C123_report`, `C123_report_none`, `C123_train`, `C123_errors`, `C123_names_counterexample`: the leaves of the nested dict (`leafAt`, a lookup along a path) are exactly the paths of the flattened dict (mutual induction); assignment of equal names is described by the last one. |
| C124 | The whole ensemble model (`Model/EnsembleModel`), put together from `Model/Vit`, `Model/Encoder` and `Model/EnsembleBlock`; compared with the plain model of `Model/VmoeModel`. | `C124_layer`, `C124_encoder`, `C124_model`, `C124_capacity`, `C124_batches`, `C124_no_moe`, `C124_position_ignored`: invariant of the loop over the blocks that the batch of the ensemble is the interleaving of the batches of the members; `C76` for MoE layers, `C119` for independence of the batch. |
| C125 | `mapStateDict` (C54), `moeLayer`, `encoder`, `visionTransformer` (C119); `expertOf`: the slice of an array that an expert sees. | The gates of a token are positive and sum to 1 (softmax), so equal experts are scaled by the sum of the gates of the experts that take the token; all of them are taken if K = E and there is room, one is missing if K < E. Induction over the blocks replaces MoE layers by dense MLPs. The arrays come from `C54_assignment` and `C56_tile_experts`. |
| C126 | `moeLayer`, `encoder`, `visionTransformer` (Model/VmoeModel) with `renumber σ` of the parameters of each layer | preference ranks, slots, gates, losses and metrics of renumbered gates are those of the gates at `σ e` (`rank_renumber`, `kept_renumber`, `gatesAndMetrics_renumber`, `itemsMetrics_renumber`); `C126_items_choose`, `C126_experts_choose` by C72 and C78; `C126_model` by induction over the blocks; `C126_ties_counterexample` evaluates a layer with two equal gates |
| C127 | `moeLayer`, `encoder`, `visionTransformer` (Model/VmoeModel) on a batch and on the rearranged batch | the tokens of a group of the new batch are a permutation of a group of the old one (`group_moved`, `groups_moved`); slots with batch priority, item ranks and losses are invariant (`kept_moved`, `itemRank_moved`, `importance_moved`, `gshard_moved`); `C127_layer` by C72 and C78, `C127_model` by induction over the blocks; `C127_no_priority_counterexample` evaluates a layer without batch priority |
| C128 | `app._main` with the writer of clu and the mesh of every process (`Model/AppRun`, `Model/Partitioning`), `SingleProcessPeriodicAction`, `create_profile_hook`. | `C128_same_mesh` (the mesh depends on the process only through the extents of its devices), `C128_same_mesh_other`, `C128_files`, `C128_job`, `C128_killed` (invariant: files and waiting writes together are all writes), `C128_no_mesh`, `C128_single_process`, `C128_profile`, `C128_different_hosts_counterexample`. |
| C129 | The MoE blocks of C72 and C78, with `Bfloat16Dispatcher` (`castData`). | `C129_same_routing`, `C129_error`, `C129_items`; closed forms of C72 and C78 for both settings, gates are weights of sum 1, rounding before and after a Lipschitz function; `bf16_rounding` shows that rounding to 8 digits has relative error 2^-8. |
| C130 | The capacity of C10, the dispatchers of C01-C09 and the MoE block of C72. | `C130_capacity`, `C130_places`, `C130_items`, `C130_block`; monotonicity of rounding half to even; requests at position k come before those at later positions, so the place of an item depends only on earlier positions. |
| C131 | The dispatchers of C01-C09 and the MoE blocks of C72 and C78 as functions of router kernel, expert parameters and inputs. | `C131_margin`, `C131_block`, `C131_gradient`, `C131_continuous`, `C131_items`, `C131_tie_counterexample`; choice ranks, places and ranks of items depend only on the order of the gates, which is an open condition where there are no ties. |
| C132 | The dispatcher of C01-C04 and the MoE block of C72. | `C132_first_choice`, `C132_number_first`, `C132_influence`; the place of a first choice is at most the number of items that come before; items are totally ordered. |
| C133 | The regular expression and the functions of the two files `common.py`, the section `mixup` of the configurations and the parameters of `wrap_train_step_with_mixup`. | `C133_description`, `C133_every`, `C133_last`, `C133_model`, `C133_errors`, `C133_accepts`, `C133_attack`, `C133_epochs`, `C133_attack_epochs`, `C133_optimizer`, `C133_mixup`, `C133_mixup_section`, `C133_last_zero_counterexample`, `C133_pretrain_mixup_counterexample`; the regular expression is inverted piece by piece against a grammar; the layers are characterized by arithmetic of ranges and slices; C72 for the layer. |
| C134 | The whole model of C119 with the layer of C100 as its sparse layer. | `C134_layer`, `C134_model`, `C134_layer_runs`, `C134_runs`, `C134_groups_counterexample`; with groups that are sequences the layer acts on every sequence by itself (C100); the rest of the model does so for any such encoder (`Vmoe.visionTransformer_pointwise`). |
| C135 | The functions of the three configuration files that depend on the name of the model; `int` and `str.upper` are parameters. | `C135_names`, `C135_errors`, `C135_models`, `C135_dense`, `C135_groups`, `C135_soft`, `C135_items_accepts`, `C135_items`, `C135_items_independent`, `C135_tiny_counterexample`, `C135_last_zero_counterexample`; splitting at dashes by induction; case analysis over the tables; C134 for soft models, C78 and C119 for expert choice. |
| C136 | Backtracking search with groups and `Pattern.sub` (`Model/RegexSub.lean`), for the patterns of `Model/Regex.lean` without `?`. | `C136_search`, `C136_leftmost`, `C136_anchored`, `C136_once`, `C136_not_found`, `C136_unanchored_counterexample`; the search is sound and complete for the declarative `M` of C23 by induction over patterns; examples computed in the kernel. |
| C137 | The rules and flags of the four configurations, read by the parser of C87, searched and renamed by C136, applied by `map_state_dict` to the arrays of a checkpoint. | `C137_restored`, `C137_succeeds`, `C137_same_grid`, `C137_checkpoint`; the patterns are characterised by substrings and suffixes of names (C136); then C54, C56, C57, C87 and C84. |
| C138 | `optax.scale_by_adam` over the reals (`Model/Adam.lean`) as base of the chain of C45/C88. | `C138_adam`, `C138_bounded`, `C138_defaults`, `C138_moved`, `C138_weights`, `C138_first`, `C138_gradient_scale`; invariant over the list of gradients for the averages, Cauchy-Schwarz for the bound. |
| C139 | The `weight_decay` values of the configurations, compiled by the regular expressions of C136 (`Model/DecayRules.lean`). | `C139_weight_decay` (via C45), `C139_kernels`, `C139_jft`, `C139_soft`, `C139_limits_counterexample`; the patterns are characterised by substrings, and the substrings by components of names. |
| C140 | A parser for the text of calls, the binding of arguments to parameters, the table of functions of `pp_ops`, and the strings of the configurations as functions of sizes and numbers of classes (`Model/ProcessText.lean`, `Model/ProcessRecipes.lean`), on top of C37, C38, C65, C99. | `C140_parse` (round trip, by induction over the text with the state of the lexer), `C140_builds`, `C140_examples`, `C140_missing_label`, `C140_fewshot`, `C140_unlabelled_counterexample`. |
| C141 | The optimizers of the configurations as arguments of `create_optimizer` (`Model/OptimizerRecipes.lean`), on top of C47, C88, C138, C139. | `C141_rates`, `C141_steps`, `C141_built`, `C141_first`, `C141_adam`, `C141_fine_tuning`, `C141_sum`. |
| C142 | The rules of the configurations, compiled with the regular expressions of C136 and given to `tree_axis_resources_from_regexes`; the shape of the part on each device (`Model/Layout.lean`). | `C142_pattern` (the search on joined names is a statement about components, by induction on the path), `C142_layout`, `C142_moments`, `C142_parts`, `C142_one_expert`, `C142_whole`, `C142_names`. |
| C143 | The mesh of C42 and C86 with the number of partitions of the configurations, the layout of C142, and the slices on each device (`Model/Placement.lean`). | `C143_experts` (counting over the positions of the mesh), `C143_one_expert`, `C143_few_devices`, `C143_whole`, `C143_attack_mesh`. |
| C144 | The strings of the splits of all configurations, their syntax and positions as in TFDS, and the share of each process (C96) (`Model/Splits.lean`). | `C144_complement` (for every rounding), `C144_positions`, `C144_percent`, `C144_held_out`, `C144_fewshot`, `C144_readable`, `C144_errors`, `C144_malformed`. |
| C145 | The loss of C16 with the distribution function of the standard normal distribution of Mathlib, and the product measure of the noise (`Model/LoadNoise.lean`). | `C145_expected_load` (linearity of the expectation, marginals of the product), `C145_bounds`, `C145_unselected` (ties have probability zero), `C145_lower_bound`, `C145_router`. |
| C146 | The requests of the items (`Spec.Requests`, which the dispatchers were proved to serve) as events of the product measure of the noise of C145; the gates of `gatesAndMetrics`. | `C146_every_choice` (a product of half-lines), `C146_open`, `C146_order` (renumbering preserves the measure, ties are null), `C146_monotone`, `C146_total`, `C146_uniform`, `C146_balanced`, `C146_small_noise`, `C146_large_noise` (convergence of the indicators), `C146_router`. |
| C147 | The losses of C16 composed with the softmax, as real functions along a direction of the logits (or of the kernel of the router). | `C147_gshard`, `C147_importance`, `C147_load` (derivatives; the first choices and thresholds are locally constant; the derivative of the normal distribution function), `C147_gshard_push`, `C147_importance_push`, `C147_load_push` (signs), `C147_no_shift`, `C147_load_no_shift`, `C147_router`. |
| C148 | The kept requests of the specification of C01-C04 for the gates softmax(l + sigma w), `w` distributed as the independent standard normals of C145; Mathlib's inequality of Hoeffding. | `C148_overflow` (the requests of different items are independent, bounded variables), `C148_nothing_dropped` (union over the experts; a dropped request overflows its expert), `C148_balanced`, `C148_capacity` (with the capacity that the code computes from a capacity factor), `C148_certain` (counting), `C148_router`. |
| C149 | The MoE block of C72, the updates of C88 and C138. | `C149_idle` (equal results, also of failing calls), `C149_no_gradient` (derivative zero for any loss of the result), `C149_gradient`, `C149_adam`, `C149_sgd` (by induction on the steps), `C149_adam_moves` (the step after the last nonzero gradient). |
| C150 | The functions of `get_loss_fn` (C95) and the contrastive main loss (C91) as real functions of the logits. | `C150_softmax`, `C150_sigmoid`, `C150_contrastive` (derivatives along any direction), `C150_convex` (Jensen), `C150_minimum`, `C150_lipschitz` (from the tangents at both ends). |
| C151 | The rule `reshape` (C87), the parameters of the ensemble router by axis, its gates (C76), the MoE options of the E³ configuration. | `C151_kernel` (row-major positions), `C151_gates` (softmax over a part), `C151_noise`, `C151_eee_capacity`, `C151_eee_layer` (from C124, C72, C76); `C151_noise_counterexample`. |
| C152 | The block of experts (C72), the specification of kept tokens, routing that is locally constant (C131). | `C152_token` (local constancy, derivative of the softmax), `C152_dropped`, `C152_single`, `C152_gate`, `C152_loss` (chain rule). |
| C153 | The five configurations (description, image size, classes, capacity factor, overrides, batch size), `get_vmoe_config` (C133), `override_base_config` (C101), the MoE layer (C72, C119). | `C153_room`, `C153_accepts`, `C153_batches`, `C153_evaluation` (from C119); `C153_evaluation_counterexample` for the four other runs. |
| C154 | `stepMetrics` is the part of both train steps that makes the total loss from the nested dict of metrics; `encoderMetrics`, `twoTowerMetrics` are the metrics of the models. | Look-up in dicts after assignments and after the mean over trees; the contrastive step is that of C91 with the auxiliary loss found by the look-up. |
| C155 | `towerLoss`: `TwoTower` (C64) on what its encoders computed, then the main loss of the contrastive step (C91). | `C155_loss`; `C155_bias`, `C155_scale`, `C155_embedding` (chain rule, derivative of the cosine with the 1e-8), `C155_best_bias` (tangents), `C155_length`, `C155_start`. |
| C156 | The layer of C100 (`SoftRouter.layer`) and `Soft.softMoe`. | `C156_smooth` (`ContDiff` of sums, products, exponentials, roots of positive numbers), `C156_expert`, `C156_no_idle_expert` (bounded cosines bound the shares from below), `C156_router` (derivative of the softmax over items and over slots). |
| C157 | The process model of C51 with the training data of C97 as what an iterator can supply. | `C157_usage`, `C157_short_processes` (C51 and C97 combined, induction on the processes), `C157_never_seen_counterexample`. |
| C158 | The block of C78 (`ExpertChoice.mlpMoeBlock`). | `C158_token` (C78 and local constancy of the ranks of the token), `C158_ignored`, `C158_no_idle_expert` (exactly `capacity` ranks are below the capacity; bijection between tokens of a group and its positions). |
| C159 | The second half of `restore_from_config`: axis resources of the variables, comparison of structures, restoring into the structure of the target. | `C159_restore` (from C84 and C43; `from_state_dict` with a state of the same structure by induction on the tree), `C159_refused`, `C159_layout`, `C159_other_shapes_counterexample`. |
| C160 | The model, the processing string and the batch size of the attack configuration, beside those of the fine-tuning (C153, C140). | `C160_model` (the fields computed from the description), `C160_room`, `C160_accepts`, `C160_agree` (the slot of a request is below the number of requests of the group), `C160_data` (operations commute on the keys that are read), `C160_groups_counterexample`. |
| C161 | The Sinkhorn plans of C75, for all numbers of iterations. | `C161_balanced` (every iteration replaces the column factors by averages with weights bounded below, so their spread shrinks), `C161_projection` (geometric Cauchy sequence; the logarithm of the limit is orthogonal to differences of plans, and `x log(x/y) >= x - y`), `C161_unique`, `C161_settles` (with the margins of C131), `C161_equal_tokens_counterexample`. |
| C162 | `Model/ModelLoss`: the total loss of `train_step` with the whole model of C119; `accumulate` of C48 | `C162_join`: a model that runs on two batches runs on both together, the total loss is the weighted mean (group by group with C72 and C78, then through encoder and model); `C162_total`: the total loss is the mean loss of the examples plus the mean auxiliary losses of the blocks (with C73); `C162_reordered`, `C162_gradient` by induction over the microsteps; `C162_single`, `C162_same` without noise and with groups within images; `C162_groups` and `C162_groups_counterexample` for larger groups |
| C163 | `totalLoss` of `Model/ModelLoss` for a `Family`: fixed options, parts as functions of parameters in a normed space | `Proofs/ModelGradient`: near a point without ties the routing is constant (C131), so a layer is a fixed sum of gates times experts; the auxiliary losses by their closed forms (C16, C72) with constant first choices and thresholds; then induction over the blocks, embedding, pooling, head and loss. `C163_differentiable`, `C163_descent`, `C163_microsteps` (with C162), `C163_tie_counterexample` |
| C164 | the optimizer chains of C44/C138 and the Adafactor steps of C104, trained with gradients `grads ++ zs` whose last part is zero at an entry | `Props/IdleDrift`: induction over the idle steps with the state of SGD (`sgd_full_step`) and Adam (`adam_full_step`, the exponential averages of zeros shrink by b1 and b2, and Cauchy-Schwarz bounds the first average by the second). `C164_sgd` (exact), `C164_adam`, `C164_adam_usual`, `C164_adafactor`, `C164_adafactor_factored` |
| C165 | `Model/ExchangeLayout`: `convertPartitionSpec`, `withShardingConstraint`, the shapes and layouts asked for in `_dispatch`, `_receive` and with microsteps; slices of `Model/Placement`, exchange of `Model/MoeDispatch` | `Props/ExchangeLayout`: blocks as quotients of row numbers; the row number of (group, expert, slot) from the exchange (C07). `C165_layout`, `C165_volume`, `C165_configs` (mesh of C42/C143), `C165_microsteps`, `C165_asked` |
| C166 | `Model/SoftLoss`: the total loss as function of the parameters of a model with the soft router, with `Model/SoftModel` and the losses of `Model/ModelLoss` | `Props/SoftLoss`: layers by C156, loop over the blocks by induction with differentiable lists (C163), embedding and head as in C163; images by C134; microsteps by C48. `C166_differentiable`, `C166_images`, `C166_microsteps` |
| C167 | `Model/Optimizer` (the whole chain), `Model/ModelLoss` (total loss of a model with experts) | `Props/Downhill`: the first update from C88 and C138, entry by entry: against the sign of every derivative; then the derivative along the update is negative and C163 makes the total loss differentiable. `C167_sgd_step`, `C167_adam_step`, `C167_sgd`, `C167_adam`, `C167_experts`, `C167_momentum_counterexample` |
| C168 | `Model/FewshotStep`: the step with keys as in `Model/TrainStep` (paths of splits), in `Model/Fewshot` and `Model/FewshotAction` | `Props/FewshotStep`: induction over the batches with the path of the keys; batches by C58, models by C134. `C168_keys`, `C168_fresh`, `C168_batches`, `C168_soft`, `C168_groups_counterexample` |
| C169 | `Model/StepSummaries`: the whole train step of C83 with the summarizer of C53, `state_flat` and `metrics.update` | `Props/StepSummaries`: flattening the flattened parts gives the leaves of the nested dict (distinct names by splitting at slashes); C53 for the values; C83 for the step and the gradient. `C169_training`, `C169_reported`, `C169_names` |
| C170 | `Model/EnsembleLoss`: the whole ensemble model of C124 with all its parameters, and `jnp.mean(loss_fn(logits, labels))` with the losses of `get_loss_fn` (C95) | `Props/EnsembleLoss`: C124 interleaves the predictions, repeated labels are interleaved in the same way, so the list of losses is interleaved and its sum is the sum of the sums. `C170_loss`, `C170_gradient`, `C170_own`; the example computes the derivative for two members with one expert each |
| C171 | `Model/AttackFiles`: the operations of `savez_compressed` on the file system of C22, the calls of each process, any schedule | `Props/AttackFiles`: invariant for processes with operations without `rename`: what the remaining operations make of a file that only one process touches is constant; files and directories never vanish; names are distinct (C103, last characters). `C171_complete`, `C171_crash`, `C171_cut_counterexample` |
| C172 | `getEvalDataset` of C33 with a filter (`Model/DataPipeline`) | `Props/FilteredEval`: batches use the elements before the last multiple of the batch size (`batch_take`), arithmetic of the padding. `C172_filter`, `C172_aligned` |
| C61-C63 | `Attack`, `ExampleStorage` | induction over updates and batches |

## 4. Disagreements between code and documented or expected behaviour

Found while proving; the ones with a theorem are named `C.._..._counterexample`.

* C145: For a selected expert the threshold of the load loss contains the old noise of that expert, so the probability used is in general smaller than the probability of being selected again (`C145_selected_counterexample`). The comment in the code only says "above the threshold", which is what is proved.
* C143: When there are fewer devices than experts, get_auto_logical_mesh logs that it reduces the number of partitions and goes on, as if that would work; with 8 experts on 6 devices the mesh is made and the train state is then refused, because 6 does not divide 8 (example in `Props/Placement.lean`). The comment of the configurations, that at most one expert is on each device, holds only with at least as many devices as experts.
* C141: The first update of every configuration has learning rate zero, so a training of n steps applies n - 1 changes. With the linear schedules a training not longer than the warmup is accepted and never reaches the peak, whereas the cosine and inverse square root schedules refuse it. pretrain_imagenet21k.py says that gradients are only clipped for the H models but clips for all of them.
* C140: The V-MoE and adversarial-attack configurations evaluate on ImageNet-ReaL without `ignore_no_labels`: images without any label stay valid with a label vector of zeros, so every prediction for them is counted as wrong; the Soft MoE configuration masks them (`C140_unlabelled_counterexample`).
* C139: The vectors `mu` of soft routers are not decayed by any rule, and the scale of the router only with the configuration for JFT, not for LAION; `.*/kernel` does not match a kernel outside of any module (`C139_limits_counterexample`).
* C138: The factors of `gradient_scale` are not learning rates of parameters: with Adam, without clipping and with `eps = 0`, positive factors have no effect at all (`C138_gradient_scale`); the code warns that they are not equivalent.
* C136: A rule with the pattern `(.*)` renames each name twice: `head/bias` becomes `params/head/biasparams/` (`C136_unanchored_counterexample`). The configurations of the repository have anchors.
* C135: The size `Ti` of `get_vit_config` cannot be chosen by a name (`C135_tiny_counterexample`). `last_n=0` makes all layers sparse (`C135_last_zero_counterexample`).
* C134: "Soft MoE has no batch effects" needs groups that are whole images: with groups of several images every output depends on all of them (`C134_groups_counterexample`).
* C133: "Last 0" describes a model with every second layer sparse, not a dense one (`C133_last_zero_counterexample`: a slice `[-0:]`). The section `mixup` of vmoe/configs/vmoe_paper/pretrain_imagenet21k.py:74-76 has the key `mixup_size`, which `wrap_train_step_with_mixup` (vmoe/train/trainer.py:889-896) does not accept: the training stops with a TypeError (`C133_pretrain_mixup_counterexample`). `get_optimizer_config` raises KeyError for sizes that `get_vmoe_config` accepts, such as ViT-S/16 (`C133_optimizer`).
* C131: "the output is a continuous function of parameters and inputs" holds only where the gates have no ties (`C131_tie_counterexample`).
* C128: if the processes hold different numbers of devices, one process may build a mesh while another one stops with a `ValueError`, so that the job hangs (`C128_different_hosts_counterexample`).
* C127: without batch priority a MoE layer with little capacity treats images by their position in the batch (`C127_no_priority_counterexample`); documented behaviour of the option, stated so that the hypothesis is seen to be needed.
* C126: the symmetry is broken by equal gates: `jax.lax.top_k` prefers the lower index, so where items choose, a token with the same gate for two experts goes to the one with the lower number and the order of the experts changes the result (`C126_ties_counterexample`). This happens for every token if the kernel of a router is initialized with zeros and there is no noise.
* C125: the example of mapping.py (expand_tile with 32 experts) initializes the experts, but with fewer selected experts than experts the model does not compute what the dense model computes: the combine weights are not normalized over the selected experts, so every token is scaled by less than 1 (`C125_fewer_experts`). Recorded as a limit, not as a bug: no docstring promises equality.
* C124: `EncoderMoeEnsemble` ignores the option `position_emb` (it always adds learned embeddings), so the ensemble equals separate models only with learned embeddings (`C124_position_ignored`); it also drops `attention_qk_norm`.
* C123: two metrics with the same joined name, such as {'a': {'b': 1}, 'a/b': 2}, are written as one, and a metric that is named `host_memory_mb` is replaced by the memory (`C123_names_counterexample`). This cannot happen between metrics and other entries in the training loop (`C123_train`).
* C122: The order in which `map(..., deterministic=False)` gives the examples reaches the metrics of a model whose groups mix images and have little room (`C122_order_counterexample`): two evaluations of the same checkpoint can differ.
* C121: a process that gets no batches (fewer examples than processes, C97), or hooks with `every_secs`, make the processes call different operations and the job hangs (`C121_no_batches_counterexample`, `C121_clocks_counterexample`).
* C120: C120: with the usual options (K = 2 or batch priority), the padding of the last evaluation batch takes places in the buffers of the experts, so it can change the predictions for the real images (the mask only removes the padding from the metrics).
* C119: C119: with groups that span several images and limited capacity, the result for an image depends on its position in the batch and on the other images, also in deterministic mode.
* C115: an option given both in the call string and in the configuration stops training (TypeError), while the attack silently uses the value of the configuration.
* C114: C114: a flat list of a pattern and an operation is read as two patterns (`C114_flat_counterexample`), and a string as its characters (`C114_string_counterexample`).
* C112: C112: after a missing path, paths that match and exist may stay, because the rest of the task of that thread is dropped (`C112_error_counterexample`).
* C111: C111: at x = 0 and finite y != 0 the gradient of `multiply_no_nan` is 0, the derivative of the function is y (`C111_zero_counterexample`).
* C109: C109: with a negative axis the names do not fit: vmap counts from the end of the new shape, `list.insert` from the end of the old list (`C109_negative_counterexample`).
* C108: C108: the documentation says that the rows of the plan are probability vectors and that every token is sent to all experts. The first needs a converged solver (`C108_rows_counterexample`), the second room for all tokens (`C108_all_experts_counterexample`, `C108_all_experts`).
* C107: C107: keys of the file that the target does not have are dropped (`C107_extra_keys_counterexample`), the shape of an array is not compared with the target (`C107_shape_counterexample`), and a dict with a reserved key is written but not readable (`C107_reserved_key_counterexample`).
* C106: features of text and ragged features are announced as global arrays, but `_to_global` returns the local value: `C106_text_counterexample`.
* C105: with `attack_auxiliary_loss` the attacked image depends on the other images of the batch, even if the logits do not (`C105_auxiliary_counterexample`).
* C104: a positive `decay_offset`, recommended by the comment "for finetuning, one may set this to the starting
  step-number", makes the power in the first decay rate of a new optimizer infinite (`C104_offset_counterexample`); with the
  default `min_dim_size_to_factor` arrays can be factored over the experts (`C104_expert_axis_counterexample`), as the comment
  in the code warns.
* C11: the capacity of an expert-choice dispatcher that is computed with `multiple_of` can exceed the group size, which
  then is a `ValueError` of `top_k`.
* C12: a gate of the own block that is zero (softmax underflow) makes the request leak to another member.
* C19, C27: arrays without elements can be saved but not restored (`TypeError`).
* C21: shards are unbalanced when only one process holds the data.
* C23: completeness of a step looks at (step, suffix) pairs: when one of several shards of a suffix was not started, the step
  is still reported complete.  A save refused because the file exists (`overwrite=False`) leaves a temporary file, which
  hides the checkpoint.  A file without step that has the prefix raises `ValueError`; mixing files with and without suffix
  raises `TypeError`.
* C24: removing the shard suffix is not idempotent.
* C30: patterns that are not valid alone can change the meaning of the joined pattern; backreferences are renumbered.
* C31: a parenthesised module name is cut at a wrong place; unhashable keys raise `TypeError`; `set()` is accepted.
* C32: different names with the same CRC pass the barrier.
* C33: with a pre-filter or `ignore_errors` the padding is computed from the unfiltered counts, so processes can have
  different numbers of batches and real examples can be dropped.
* C34: models that mix the examples of a batch (for example sparse MoE layers with limited capacity) make the metrics depend
  on the batching and on the fake examples; without valid examples the result is 0/0; a NaN of a fake example is not masked.
* C35: a failing transfer loses the buffered elements.
* C37: `|` inside an argument splits the operation.
* C38: an inverted input range with clipping gives a constant.
* C42: the greedy factorization misses solutions (6 partitions on 4x3), and `num_partitions` is silently capped to the
  number of devices.
* C43: keys that contain `/` raise `ValueError`.
* C44, C45: empty dicts in the parameters raise `ValueError`; an empty list of trainable patterns trains everything; the
  decay pairs parameters and updates by position, so dicts with different orders get the wrong decay.
* C46: negative bounds are accepted.
* C47: rsqrt with cooldown is negative after `decay_steps`; a timescale of zero raises `ZeroDivisionError`; with
  `decay_steps <= warmup_steps` the polynomial schedule stays at the peak; the exponential schedule ignores the total number
  of steps.
* C48: functions of the whole batch (for example the contrastive loss) change with the microsteps; a batch that does not
  split evenly can pass the assertion and fails in `reshape`.
* C49: the check of the mixup shapes is bidirectional; the wrapped train step removes the generator from the caller's dict.
* C50: `train_steps=0` together with `train_epochs` is rejected.
* C51: the data is replayed from the beginning after a restart; if the data iterator ends early the last checkpoint is
  mislabelled and later progress is never saved; a restored step beyond `train_steps` mislabels too.
* C53: names of different arrays or rules can collide; values before the one that exceeds the limit are yielded.
* C54: a stack rule after another rule on the same target raises `AttributeError`; the axis of later stack rules is ignored.
* C55: `-` is read as a sign, so `layer-2` sorts before `layer-1`; a point makes the following digits a fraction.
* C56: a reshape rule with `()` means the shape of the target; without `raise_if_shape_mismatched` arrays are broadcast.
* C57: source and target need not agree about the class token (the first version of the claim said so and was false); an
  empty source raises `ZeroDivisionError`.
* C61: attacked images are not clipped to the range of pixels; `num_updates=0` raises `ZeroDivisionError`.
* C62: tokens without expert count as routing changes; the NaN of a fake example is not masked.
* C63: `transfer_every_steps=0` raises `ZeroDivisionError` after appending.
* C66: irregular coordinates raise `IndexError`, colliding ones lose devices.
* C67: the documented contiguity of `get_logical_mesh_tile_by_process` is false in general.
* C70: equal accuracies are ranked by position, so a regularization that is weakly worse can be chosen.
* C71: with negative gates the default dispatch weights of the einsum dispatcher change the layer.
* C74: with softmax combine weights, an expert to which the plan sends nothing can still be selected
  (`top_k` always returns `num_selected_experts` experts) and then contributes with its softmax gate
  (`C74_zero_transport_counterexample`). The sparse routers ignore `noise_std`.
* C74: the column-sparse router needs `capacity_factor`; a fixed `capacity` raises KeyError.
* C75: expert loads are only approximately balanced (`C75_columns_counterexample`), since rows are
  scaled last. In the item-choice router the combine weights are computed from the logits without
  noise although the variable is called `gates_softmax_noisy`.
* C72: the importance loss uses the gates without noise, the gshard loss the noisy ones.
* C85: progress is never reported in the first step, although trainer.py:257 says always (`ReportProgress` of clu does not
  report when the previous step is the same); the evaluation of the final parameters is lost if the process is killed after
  the last checkpoint and before the evaluation; with `every_secs` processes with different clocks evaluate in different
  steps; `every_steps = 0` fails after the first update; without Big Vision the evaluations are silently left out.
* C84: an index with an unknown version raises `ValueError`, so that the branch with `NotImplementedError` is unreachable;
  an index without version (format 1) needs a target with exactly the structure of the checkpoint, although the rules exist
  to map between different structures.
* C82: the keys given to the initialization of the model (except `params`) are also the ones that the first train step
  splits (`C82_init_keys_split_counterexample`): a key is used and split. In the evaluation of attacks, the keys used for
  the attacked images of a batch are used again for the next batch before the attack (`C62_keys_reused_counterexample`).
* C80: pixels beyond the last complete patch are ignored silently (`padding='VALID'`).  `position_emb=None`,
  the default of the encoder, is an AttributeError if written in the configuration of the vision or
  text transformer (`C80_position_emb_None`).  An unknown classifier is only found after the encoder ran.
* C78: rounding up to multiples of 4 (the default) can ask for more places than tokens: ValueError.
* C79: `deterministic` and `num_experts` in the call string of a router, `ensemble_size` in the options of
  an ensemble router, and `dtype`/`deterministic` in the `moe` options of an encoder are silently ignored.
  `create_flax_model` removes `name` from a plain dict, so that the dict works only once.
  `EncoderMoeEnsemble` drops `attention_qk_norm`.
* C103: `store_examples = {}` (an empty dictionary, all defaults) counts as false, so no examples are stored
  (`C103_empty_config_counterexample`).
* C102: the independence of the order needs the position embedding `none`: with a learned one the order matters also for a pooling over the tokens (`C102_position_counterexample`), and pooling `first` depends on the order (`C102_first_counterexample`).
* C101: a nested configuration cannot be overridden with `None`: this raises (`C101_none_counterexample`). The overrides of the evaluation also apply to the few-shot evaluation, where they cannot be removed but only replaced.
* C100: with a capacity factor the shape of `mu` depends on the number of items of a group, so the parameters for one image size are rejected for another (`C100_other_size_counterexample`); with `num_slots` they are accepted (`C100_given_slots`).
* C99: without a size (`None`, `0` or an empty list) `inception_crop` gives images of random sizes, which cannot be put in one batch (`C99_no_size_counterexample`). `resize` casts interpolated values back to 8 bits by rounding down, so the image is darker than the interpolated one by up to one level (`C99_resize`).
* C97: with fewer (passing) examples than processes, some processes have no training data and stop at the first step with
  `StopIteration`, while the others wait for them in the collective training step (`C97_empty`, `C97_few_examples`); nothing checks it.
* C96: the cache of the TFDS builders has the key (name, data_dir) only: a second configuration with another `manual_dir` or
  `try_gcs` silently gets the first builder (`C96_builder_cache_counterexample`). The number of examples used to compute the
  number of steps ignores `pre_filter_fn`, so with a filter an epoch is longer than a pass over the data.
* C95: `get_loss_fn` does not check its keyword arguments: a missing `ensemble_size`, or one given to a plain loss, only fails at the first call of the loss, and the prediction of a plain loss silently ignores it (`C95_wrong_arguments`).
* C94: `duration_secs` of a zero-shot task is measured since the beginning of the evaluation of all tasks, unlike in the
  few-shot and retrieval evaluations (`C94_duration_counterexample`).
* C93: a few-shot task with the same split for training and testing always raises `ValueError`: `_get_dataset` is cached, both
  splits are one iterator, and the test part is empty (`C93_same_split`).
* C92: `get_combine_weights` counts the experts that process a token only with the einsum dispatcher; with the indices
  dispatcher a token dropped by its expert is counted as routed to it (`C92_dropped_counterexample`), so the reported routing
  changes of the same model depend on the dispatcher.
* C91: microsteps are not only a trade of memory for time in contrastive training: the loss only compares images and texts of
  the same microstep, and is strictly smaller for every batch (`C91_loss_counterexample`, `C91_missing_pairs`).
* C90: the maximum similarity of `mu` is reported as zero when all similarities are negative (`C90_mu_max_counterexample`);
  the reported mean similarity of the weights can be negative although all similarities are positive
  (`C90_mean_counterexample`), because the similarity of a vector with itself is less than one. With one item or one slot
  the means divide by zero.
* C89: `max_concurrent_bytes` is documented as the maximum of the bytes read concurrently. It only sets the number of files
  per task: the maximum is exceeded by up to a half and one file for equal files, and without a bound for files of different
  sizes (`C89_maximum_counterexample`, `C89_bytes`).
* C87: the documentation of `Rules.parse` says that `None` or `''` as replacement discards the matched arrays. With a
  transformation this is false: `None` is accepted and raises TypeError when a name is matched, `''` renames
  (`C87_none_transform_counterexample`, `C87_empty_transform_counterexample`). The shape `()` of a reshape means the
  target's shape, additional arguments of a zoom are ignored, and a rule that is a string of two letters is accepted.
* Without theorem: `EncoderMoeEnsemble` ignores `position_emb` (always learned); the cache of dataset builders ignores `manual_dir` and `try_gcs`; the KL router uses the logits without
  noise.
* C151: the comment "This is divided by NUM_EXPERTS" at `noise_std` in the E³ configuration (8 experts) does not hold: the noise is divided by the 4 experts of a member (`C151_noise_counterexample`).
* C153: "Use higher capacity for evaluation" is in one of the five configurations of the V-MoE paper only. The four others evaluate with the capacity of the training, and eight equal images of a group can get different results (`C153_evaluation_counterexample`).
* C154: `train_step` of the contrastive trainer adds `metrics.get('auxiliary_loss', 0.0)`, but `TwoTower` returns the metrics of its
  encoders under `img` and `txt`, so the value is always the default 0.0 and the auxiliary losses of the encoders are never trained on
  (`C154_contrastive_counterexample`). True: `C154_contrastive`, `C154_step`; no configuration of the repository is affected
  (`C154_soft_configurations`).
* C157: `get_dataset_iterator` drops `last_seen_index` (vmoe/train/trainer.py:322-328), so a training that is killed and started again begins a new pass; examples can remain unused although the training makes enough steps for a full pass (`C157_never_seen_counterexample`; with a shuffling iterator the order of the second process is another one, but nothing excludes the examples already used).
* C159: `restore_checkpoint_partitioned` takes only names and shardings from its target, never its shapes or types (vmoe/checkpoints/partitioned.py:498-512), so `restore_from_config` returns parameters that do not fit the module without an error; and it only restores the collection `params` (a TODO in vmoe/projects/adversarial_attacks/restore.py:163), so the variables of models with others do not have the structure of the axis resources returned with them (`C159_other_shapes_counterexample`).
* C160: the attack configuration must describe the model of the checkpoint (vmoe/projects/adversarial_attacks/configs/attack/ilsvrc2012.py:58-59), but its group_size is of four images (line 77), that of the fine-tuning of eight (vmoe/configs/vmoe_paper/common.py:206-208).  Images can be processed by other experts, so predictions before the attack can differ from those of the evaluation (`C160_groups_counterexample`).  The comment in line 47 names another model (B/32, E=32).
* C161: the plan of the KL projection routers is to assign all experts the same number of tokens (vmoe/projects/sparsity_constrained_ot/kl_projection_routing.py:136-139), but the item-choice router takes the K largest shares of each token: tokens with equal logits have equal shares and all ask for the first K experts (`C161_equal_tokens_counterexample`).
* C162: the docstring of `accumulate_gradients_and_metrics` only says that gradients and metrics of chunks are averaged. For models with MoE layers whose groups span several images the result is not that of the full batch: the groups are others (`C162_groups_counterexample`).
* C167: with momentum an update is not always downhill for its own batch, at whatever learning rate (`C167_momentum_counterexample`): the momentum of earlier batches can outweigh the gradient. The theorems are about updates without momentum and the first update.
* C168: with groups of several images (also with padding in the batch) the few-shot features of an image depend on the other images of its batch (`C168_groups_counterexample`).
* C171: the files of an attack are written in place (vmoe/projects/adversarial_attacks/lib.py:94-95): a process that is stopped can leave a part of the new file where a complete file was (`C171_cut_counterexample`).
* C172: the general form of the deviation of C33: with a filter, processes with different numbers of removed examples can get
  different numbers of batches, and up to a batch less one of kept examples per process is not evaluated.

## 5. Simplifications

In addition to section 2; each definition says so in its comment.

* Checkpoints: float division in `_split_slicend` and in the chunk size is exact division; the shards of a JAX array are
  given by a contract (every process holds the shards of its devices, equal indices have equal data); trees are flat lists of
  leaves; file operations are atomic one by one; paths are strings without newlines and the glob prefix is literal; floats and
  utf-8 in msgpack are opaque bytes.
* Regular expressions: C30 has a parser for a subset of `re`, and the backtracking search is assumed complete; in partition
  rules, optimizer rules, the summarizer and the mapping the search is an arbitrary predicate.  `ast.parse` is not modelled.
* Iterators are lists.  Collectives are one sum.  The order of `tf.data` maps is an arbitrary permutation.  In the
  train variant of `get_dataset` the shuffle buffer and the parallel calls are buffers from which any element can come next;
  prefetching and `cache='batched'` are left out.  Image kernels of TensorFlow are not modelled.
* Meshes: `jax.make_array_from_single_device_arrays` by its contract.
* Nested trees are nested dicts; `to_state_dict`/`from_state_dict` for dicts only (C107: also lists and tuples; floats, complex
  numbers and other registered classes are left out).
* Optimizers: schedules and transformations are from the source of optax, over the reals; tensors are lists of entries
  without broadcasting; Adam and Adafactor are an arbitrary transformation that keeps the structure (they are modelled in C138 and C104).
* Training: the Orbax manager by its contract, several hosts as one process; gradients and metrics are real vector spaces;
  epochs are exact rationals; the Dirichlet samples are a parameter.
* Summaries: a generator is the yielded list and the exception; the mean of nothing is zero, not NaN.
* Initialization: `float` is a parameter and digits are ASCII in the natural sort; scipy's zoom, square roots, casts, type
  promotion and noise are parameters; shardings and warnings are not modelled (donation: C118); outputs of pjit have sorted keys.
* Attacks: the gradient is an arbitrary function, one key stands for a dict of keys.  Stored arrays are lists of rows.
* Ensembles and contrastive models: reals, `logsumexp` without the shift, no broadcast of single rows, encoders as parameters.
* Encoders: attention, normalization and MLP are arbitrary functions of one sequence; dropout is part of them (C102 writes attention and normalization out).
* Few-shot: `eigh`, `argsort` and permutations by contract; reals.

* C85: `clu.periodic_actions` is modelled from its source; times are rational numbers given by an arbitrary clock; the
  profiler, asynchronous callbacks and what an evaluation computes (C34, C58-C60, C77) are left out.
* C84: arrays are compared as functions of the index, so saved arrays have the default entry outside of their shape;
  a sharding is given by the regions of the devices of each process, for each leaf; the regular expressions that choose it
  are C43 and cannot influence the result; `from_state_dict` on nested dicts is the identity.
* C82, C83: keys are ideal (different derivations are different keys, and position `i` of `split` does not depend on the
  number of pieces); the order of entries in the dictionaries of keys is kept where JAX sorts them; summaries are left out;
  the derivative is an arbitrary functional; metrics are real numbers and a metric that is absent is zero.
* C80, C81: sequences are not empty where a first token or a mean is taken; token ids out of range of
  the embedding table are not modelled; temperatures are positive.
* C79: dataclass constructors of Flax modules without `parent`; option keys are strings.
* C78: sharding and precision options of the dispatcher are left out.
* C77: finite datasets; values of time measurements and the XLA cost estimates are left out; an
  exception inside an evaluation is not modelled.
* C76: the metrics of the ensemble router (one value per group and member) are left out; the
  equality of capacities is proved for a given capacity or exact arithmetic, since float rounding of
  `tokens * factor / experts` can differ (in Python floats with factor 1.1, 50
  requests for one expert give capacity 56, 150 requests for three experts give 55).
* C74, C75: the solver of the dual is an arbitrary function, Sinkhorn is the textbook iteration with
  uniform marginals started from ones, and real numbers replace floats (the library works in the log
  domain).
* C93: `hash` and the functions of `jax.random` are arbitrary functions; iterators are finite; the values of durations are
  not modelled; `seeds_per_step` is a natural number; nothing is said about the state after an exception.
* C92: tables without experts or tokens (the reshape with `-1` is ambiguous) are left out; the metrics and the second item
  returned by a router are left out.
* C91: the logit of an image and a text does not depend on the rest of the batch nor on the generators (no dropped tokens, no
  dropout); other metrics of the model than the auxiliary loss are left out.
* C89: `total_bytes / max_concurrent_bytes` is exact instead of in floating point; a task of the pool is a list of files
  read one after the other by one thread.
* C88: assumes that every pattern compiles (`re.error` of an invalid pattern is an error of `create_optimizer`).
* C87: values in rules are `None`, Booleans, integers, strings, tuples of integers and other true objects; compiled
  patterns given in a tuple are not modelled. Attributes of other types than the classes declare, sizes below -1 and negative
  repetitions make `mapRaw` fail before the mapping instead of when the rule is used.
* C121: the values that the collective operations exchange are left out, only who waits for whom is modelled; every operation over all
  devices waits for all processes; Orbax's asynchronous commit is by its contract (done when all processes have written). The operations
  of the initialization before the first checkpoint are left out.
* C122: one number of batches for all processes is read off the first one (the theorem shows that they are equal); sums are of real numbers,
  so the order of float additions does not show.
* C123: numbers are exact; `float` of anything that is not a number or an array of one element is a `TypeError`; the times of the parts are
  given.
* C124: metrics of the ensemble layers and dropout are left out; hidden size and sequence length are positive.
- C125: parameters other than the MLPs (attention, normalization, embeddings, head) are taken to be the same functions in both models; that they are copied is C54. The conversion of types is excluded (same types).
- C126: the noise of a layer is renumbered together with its experts; with the same PRNG key JAX would draw the same noise for
  the old and the new order, so for noisy routers the statement is about the noise that goes with each expert.
- C127: no noise; tokens that tie (for instance equal images, or the zero images of a padded batch) are excluded, since ties are
  broken by position. The total auxiliary loss is the sum over the layers of the mean over the groups.
* C128: the writers of clu are given by their contract (writes are kept in order until they reach the files, `flush` writes all of them, a
  writer with `just_logging` has no files); failures of the writer itself, logging, flags and the platform artifacts are left out.
* C129: exponents are not limited (no overflow, no subnormal numbers), and sums in the dispatchers and experts are exact.
* C130: the rounding of the capacity computation is any monotone function.
* C131: derivatives are those of real functions; the backward pass of JAX itself is not modelled.
* C133: the limit on the number of digits of `int` is not modelled; decimal constants are exact rational numbers.  The configurations are the values that the functions set, not the class `ConfigDict`.
* C134: real arithmetic; the cast to bfloat16 in the dispatcher is left out.
* C135: data, optimizer and reporting sections of the configurations are left out; `last_n` is a natural number; the share of tokens per expert is assumed to be represented exactly (the numbers of experts are powers of two).
* C136: patterns with `?` are refused (also lazy repeats and lookahead); an iteration of a repeat that matches nothing is not tried; replacements have `\digit` as the only escape.
* C137: names have no line breaks (`.` does not match them); the rounding of `vit_zoom` is C57's; the directory of the checkpoint is given.
* C138: real numbers without rounding (`mu_dtype` has no effect); a division by zero gives zero (with `eps = 0`); `nesterov` is not modelled; the body of `optax.scale_by_adam` is that of the library.
* C139: names of components have no slashes for the statements about components; the numbers are reals.
* C140: the parser accepts calls of a name with integers, strings without escapes, and `True`/`False`/`None`; other texts that Python accepts (dotted names, floats, lists, escapes, numbers with underscores) are refused, and reserved words are not refused as names. `copy`, `flatten`, `reshape` and `tokenize` are not in the table of functions. RandAugment is assumed to give 8-bit colour images of the same size.
* C141: the types of accumulators (`mu_dtype`, `accumulator_dtype`) are left out; the numbers are reals; at most 2^31 - 1 updates with Adam.
* C142: `NamedSharding` belongs to JAX; only the division of the dimensions by the sizes of the axes and its `ValueError` are modelled. The names in `C142_names` are those given in vit_moe.py.
* C143: as C142; the slices on the devices are those of `NamedSharding` for the two axes of the mesh; names of other axes are not refused.
* C144: the resolution of split strings belongs to TFDS and is modelled from its documentation (no `+`, no shards; percentages round exactly, not in floating point; reading an empty split is not an error). Datasets are compared by name: that imagenet2012_real has the images of the validation split of imagenet2012 is not in the model.
* C145: `jax.random.normal` and `norm.cdf` are the exact standard normal distribution, with independent real entries.
* C146: the same noise as in C145; the events are about what items ask for, before the capacity of the experts is applied.
* C147: derivatives of the exact real functions; the derivatives that JAX computes for `argmax`, `top_k` and `one_hot` (zero) are not modelled, but agree with the real derivatives at the points of the theorems.
* C148: the noise is independent standard normal (as in C145); pseudo-random bits are not modelled. The bounds are upper bounds, not the exact probabilities.
* C149: the gradient is the derivative of the exact real function; an entry of the stacked parameters of the experts is one entry of an array of the optimizer.
* C150: derivatives of the exact real functions; rounding in the losses is not modelled. The ensemble losses are covered only through C95 (rows of members with repeated labels).
* C151: the shape of the router kernel in the published checkpoint is not known here; the theorem is for one kernel with all experts in a row. `C151_eee_layer` assumes that the floating point numbers of the capacity computation hold integers below 2^24 exactly.
* C152: derivatives are those of real functions along lines through the kernel; what automatic differentiation computes agrees with them where they exist (assumed, as in C131). At ties nothing is claimed.
* C153: of the model configuration only the part with the capacity factor is a nested dictionary that is overridden, the rest is the structure of C133. The floating point numbers of the capacity computation are assumed to keep the order and the integers below 2^24 (`Rounding`).
* C154: metrics are arrays (lists of their entries) or dicts; the auxiliary losses of the blocks of an encoder are arrays with one entry
  per group, the same number of groups in every block.  The other metrics of a block are any dict.
* C155: real numbers; the derivative in the vector of an image is taken at vectors that are not zero (at zero the norm has no derivative and JAX gives NaN, not modelled).
* C156: real numbers; the rounding of the bfloat16 dispatcher is left out, as in C15.
* C157: as C51 and C97; one host, whose examples are those of its share of the data.
* C158: real numbers, as C78.
* C159: the regions of the devices are a function of the partition specs of the parameters (`NamedSharding` and the mesh); checkpoints without version are only modelled for equal structures; the module is built as in C115, its variables are given by their shapes.
* C160: `head_bias_init` and the dropout rate of the experts, which the attack configuration leaves at their defaults, have no effect on a restored, deterministic model and are not in the model.
* C161: the number of iterations is that really done by the library, in exact arithmetic; the L-BFGS solver (vmoe/projects/sparsity_constrained_ot/kl_projection_routing.py:142-146,162-166) is covered only if its result is a plan of the given form, which its tolerance does not ensure.
* C162: the loss of an example is any function of its logits and its label; dropout is left out. The mean of the auxiliary losses is taken per layer and then added (the code adds first; all layers have the same number of groups). Experts keep one set of parameters for all microsteps, as in the code.
* C163: differentiability of attention, normalization, MLPs, head and loss is a hypothesis (`Family.Smooth`); so a ReLU expert at its kink is not covered. The derivative is that of real arithmetic.
* C164: real arithmetic. For Adam fewer than 2^31 steps, and decay factors of absolute value at most one. For Adafactor the statement is about the updates of `scale_by_big_vision_adafactor`, before weight decay and learning rate.
* C165: that XLA places the data as the constraints ask is not modelled (`NamedSharding` of JAX is external, as in C143); the theorem is about the layouts that the code asks for. Divisibility of the groups by the devices is a hypothesis; otherwise XLA pads the blocks.
* C166: as in C156 and C163 over the reals; the rounding of `Bfloat16Dispatcher` is not part of `Model/SoftRouter`. Experts are assumed continuously differentiable.
* C167: over the reals; the tree of gradients is assumed to hold the partial derivatives (automatic differentiation is not modelled). The schedules with warmup of the configurations start at rate zero (C141_first), so their first update changes nothing.
* C168: random generators are ideal (different derivations give different keys, as in C82). Features are real vectors; `pjit` and the replication of the results are not part of it. That the evaluation of `C168_soft` uses the features (no classes) is its hypothesis.
* C169: `to_state_dict` of parameters, optimizer state and gradients is an arbitrary function to nested dicts of real arrays, random keys are arrays of an arbitrary encoding. The contrastive `train_step` has the same lines, the model has images and labels. Names of metrics of the model (other than the losses) can be equal to names of summaries only if they begin with a field of the train state.
* C170: the main loss only; the auxiliary losses and other metrics of the ensemble are not part of the model of C124. Derivatives are along arbitrary curves of parameters, with fixed noise.
* C171: paths are strings, making a directory does not fail, and one write of the buffer reaches the file in arbitrary pieces; the compression of numpy is not modelled (the content is an arbitrary list of bytes).
* C172: `ignore_errors` is not modelled; it drops examples before the filter and changes the counts in the same way. The theorems compare numbers of batches; what a process does that waits for another is not part of them.
* C19 (`C19_structure`): trees are lists of arrays, so only their numbers are compared; the code compares the tree structures and also refuses trees with equally many arrays under other names.

## 6. Not modelled

Neural network numerics (MLP kernels, initializers, floating point attention), XLA compilation and
sharding propagation, TensorFlow datasets and image kernels, logging/metrics writers,
orbax internals, the parts of the configuration files other than the models (C133, C135, C151, C153, C160), checkpoints
(C137), optimizers (C139, C141), processing strings (C140), splits (C144) and partitioning (C142, C143), the solvers of `projects/sparsity_constrained_ot`.
