import Verif.Model.MoeFactory
import Verif.Model.AuxLoss
import Verif.Model.SoftMoe

/-!
Model of vmoe/projects/sparsity_constrained_ot: routers that select with a transport plan instead of
softmax gates.  Everything is for one group of `S` tokens and `E` experts (the code uses `jax.vmap`
over the groups), over the real numbers.

External algorithms are given by their definition or contract: Sinkhorn iterations
(`ott.core.sinkhorn` with `lse_mode=False`: every iteration updates the scaling of the columns and
then the scaling of the rows), the projection onto the sparse simplex (`jaxopt.projection`), and the
numerical solver of the semi-dual problem, whose result is arbitrary.
-/

namespace Verif.OtRouting

open Verif Verif.Moe Verif.Aux Verif.Soft

section replace
variable {R : Type*} {S E C K : Nat}

/-- `_replace_combine_weights` for an `EinsumDispatcher` with dispatch weights
(vmoe/projects/sparsity_constrained_ot/ot_routing.py:93-102).  The dispatchers of vmoe/moe.py always
have dispatch weights, so line 96 is not reached. -/
def replaceCombineWeights [MulZeroOneClass R] (w : EinsumWeights R S E C)
    (replacingGates : Fin S → Fin E → R) : EinsumWeights R S E C where
  combineWeights := fun s e c => boolWeight R (w.dispatchWeights s e c) * replacingGates s e
  dispatchWeights := w.dispatchWeights

/-- `_replace_combine_weights` for the dispatchers of the item-choice factory
(vmoe/projects/sparsity_constrained_ot/ot_routing.py:83-106). -/
def replaceItemChoice [MulZeroOneClass R] (replacingGates : Fin S → Fin E → R) :
    ItemChoiceDispatcher R S E K → Except PyErr (ItemChoiceDispatcher R S E K)
  | .einsum cap w => .ok (.einsum cap (replaceCombineWeights w replacingGates))
  | .indices _ _ => .error .typeError

end replace

variable {S E : Nat}

/-- The `dispatcher` dictionary of a router (arguments of the factories, vmoe/moe.py:267-273 and
330-337); `none` is a missing key.  Sharding, precision and bfloat16 options are not modelled, and a
key with the value None is not distinguished from a missing key except for `multipleOf`. -/
structure DispatcherDict where
  name : String
  batchPriority : Bool
  capacity : Option Nat
  capacityFactor : Option ℚ
  ceilOrRound : Option String
  multipleOf : Option (Option Int)

/-- `BaseOTNoisyTopExpertsPerItemRouter._create_dispatcher`
(vmoe/projects/sparsity_constrained_ot/ot_routing.py:34-53). -/
noncomputable def createItemChoice (fl : ℚ → ℚ) (d : DispatcherDict) (K : Nat)
    (gatesDispatch : Fin S → Fin E → ℝ) (gatesCombine : Option (Fin S → Fin E → ℝ)) :
    Except PyErr (ItemChoiceDispatcher ℝ S E K) :=
  match getTopExpertsPerItemDispatcher fl gatesDispatch d.name K d.batchPriority d.capacity
      d.capacityFactor (d.ceilOrRound.getD "ceil") (d.multipleOf.getD (some 4)) with
  | .error err => .error err
  | .ok disp =>
    match gatesCombine with
    | none => .ok disp
    | some g => replaceItemChoice g disp

/-- `BaseOTNoisyTopItemsPerExpertRouter._create_dispatcher_and_metrics`, dispatcher part
(vmoe/projects/sparsity_constrained_ot/ot_routing.py:66-80). -/
noncomputable def createExpertChoice (fl : ℚ → ℚ) (d : DispatcherDict)
    (gatesDispatch : Fin S → Fin E → ℝ) (gatesCombine : Option (Fin S → Fin E → ℝ)) :
    Except PyErr (Σ cap : Nat, EinsumWeights ℝ S E cap) :=
  match getTopItemsPerExpertDispatcher fl gatesDispatch d.name d.capacity d.capacityFactor
      (d.ceilOrRound.getD "ceil") (d.multipleOf.getD (some 4)) with
  | .error err => .error err
  | .ok ⟨cap, w⟩ =>
    match gatesCombine with
    | none => .ok ⟨cap, w⟩
    | some g => .ok ⟨cap, replaceCombineWeights w g⟩

/-- `_weighted_sum` (vmoe/projects/sparsity_constrained_ot/ot_routing.py:109-114); `none` is NaN, which
every operation propagates. -/
noncomputable def weightedSum (args : List (ℝ × Option ℝ)) : Option ℝ :=
  (args.filter (fun a => 0 < a.1)).foldl
    (fun acc a => acc.bind (fun t => a.2.map (fun x => t + x * a.1))) (some 0)

/-! ### Sinkhorn plans -/

/-- One iteration: column scaling, then row scaling (`ott.core.sinkhorn`, called in
vmoe/projects/sparsity_constrained_ot/kl_projection_routing.py:150-157,240-247). -/
noncomputable def sinkhornStep (kernel : Fin S → Fin E → ℝ) (a : Fin S → ℝ) (b : Fin E → ℝ)
    (uv : (Fin S → ℝ) × (Fin E → ℝ)) : (Fin S → ℝ) × (Fin E → ℝ) :=
  let v := fun e => b e / ∑ s, kernel s e * uv.1 s
  let u := fun s => a s / ∑ e, kernel s e * v e
  (u, v)

/-- The scalings after `n` iterations, from scalings one
(vmoe/projects/sparsity_constrained_ot/kl_projection_routing.py:150-157). -/
noncomputable def sinkhornScalings (kernel : Fin S → Fin E → ℝ) (a : Fin S → ℝ) (b : Fin E → ℝ) :
    Nat → (Fin S → ℝ) × (Fin E → ℝ)
  | 0 => (fun _ => 1, fun _ => 1)
  | n + 1 => sinkhornStep kernel a b (sinkhornScalings kernel a b n)

/-- `get_plan` with Sinkhorn (vmoe/projects/sparsity_constrained_ot/kl_projection_routing.py:130-159,
227-249): cost `-sim_matrix`, `epsilon = 1`, row sums 1 and column sums `group_size / num_experts`.
The library runs iterations in blocks, so `n` is the number of iterations really performed. -/
noncomputable def klPlan (n : Nat) (sim : Fin S → Fin E → ℝ) : Fin S → Fin E → ℝ :=
  let kernel := fun s e => Real.exp (- (- sim s e) / 1)
  let uv := sinkhornScalings kernel (fun _ => 1) (fun _ => (S : ℝ) / E) n
  fun s e => uv.1 s * kernel s e * uv.2 e

/-- Attributes of `KLProjectionNoisyTopExpertsPerItemRouter` with Sinkhorn
(vmoe/projects/sparsity_constrained_ot/kl_projection_routing.py:53-56, ot_routing.py:30-31,
vmoe/nn/routing.py:45-53). -/
structure KlConfig where
  numSelected : Nat
  noiseStd : ℝ
  importanceLossWeight : ℝ
  loadLossWeight : ℝ
  deterministic : Bool
  iterations : Nat
  useSoftmaxCombineWeights : Bool
  dispatcher : DispatcherDict

/-- Metrics of one group (vmoe/projects/sparsity_constrained_ot/kl_projection_routing.py:97-101,
119-125). -/
structure KlMetrics where
  auxiliaryLoss : Option ℝ
  importanceLoss : ℝ
  loadLoss : Option ℝ

/-- `_compute_gates_softmax_and_metrics` of the item-choice router for one group, from the logits
(vmoe/projects/sparsity_constrained_ot/kl_projection_routing.py:70-126): plan, combine gates and
metrics.  `z` is the standard normal noise. -/
noncomputable def klItemGates (cdf : ℝ → ℝ) (cfg : KlConfig) (logits z : Fin S → Fin E → ℝ) :
    Except PyErr ((Fin S → Fin E → ℝ) × (Fin S → Fin E → ℝ) × KlMetrics) :=
  open Classical in
  if h : cfg.numSelected ≤ E ∧ 1 ≤ cfg.numSelected then
    let gatesSoftmax := fun s => softmax (logits s)
    let gatesPlan := klPlan cfg.iterations logits
    let importance := if cfg.importanceLossWeight = 0 then 0 else importanceLoss gatesSoftmax
    if cfg.deterministic ∨ cfg.noiseStd = 0 then
      .ok (gatesPlan, gatesSoftmax,
        { auxiliaryLoss := weightedSum [(cfg.importanceLossWeight, some importance)]
          importanceLoss := importance
          loadLoss := none })
    else
      let noiseStd := (1 / (E : ℝ)) * cfg.noiseStd
      let noisy := fun s e => logits s e + noiseStd * z s e
      let gatesSoftmaxNoisy := fun s => softmax (logits s)
      let gatesPlanNoisy := klPlan cfg.iterations noisy
      let load := if cfg.loadLossWeight = 0 then 0
        else loadLoss cdf logits noisy noiseStd cfg.numSelected h.2 h.1
      .ok (gatesPlanNoisy, gatesSoftmaxNoisy,
        { auxiliaryLoss := weightedSum
            [(cfg.importanceLossWeight, some importance), (cfg.loadLossWeight, some load)]
          importanceLoss := importance
          loadLoss := some load })
  else .error .valueError

/-- `KLProjectionNoisyTopExpertsPerItemRouter.__call__` for one group
(vmoe/projects/sparsity_constrained_ot/kl_projection_routing.py:59-67). -/
noncomputable def klItemRouter (fl : ℚ → ℚ) (cdf : ℝ → ℝ) (cfg : KlConfig)
    (logits z : Fin S → Fin E → ℝ) :
    Except PyErr (ItemChoiceDispatcher ℝ S E cfg.numSelected × KlMetrics) :=
  match klItemGates cdf cfg logits z with
  | .error err => .error err
  | .ok (plan, combine, metrics) =>
    match createItemChoice fl cfg.dispatcher cfg.numSelected plan
        (if cfg.useSoftmaxCombineWeights then some combine else none) with
    | .error err => .error err
    | .ok d => .ok (d, metrics)

/-- `KLProjectionNoisyTopItemsPerExpertRouter._compute_gates` for one group, from the logits
(vmoe/projects/sparsity_constrained_ot/kl_projection_routing.py:203-223): plan and combine gates. -/
noncomputable def klExpertGates (deterministic : Bool) (noiseStd : ℝ) (iterations : Nat)
    (logits z : Fin S → Fin E → ℝ) : (Fin S → Fin E → ℝ) × (Fin S → Fin E → ℝ) :=
  open Classical in
  if deterministic ∨ noiseStd = 0 then (klPlan iterations logits, fun s => softmax (logits s))
  else
    let noisy := fun s e => logits s e + (1 / (E : ℝ)) * noiseStd * z s e
    (klPlan iterations noisy, fun s => softmax (noisy s))

/-- `KLProjectionNoisyTopItemsPerExpertRouter.__call__` for one group, dispatcher part
(vmoe/projects/sparsity_constrained_ot/kl_projection_routing.py:190-200). -/
noncomputable def klExpertRouter (fl : ℚ → ℚ) (cfg : KlConfig) (logits z : Fin S → Fin E → ℝ) :
    Except PyErr (Σ cap : Nat, EinsumWeights ℝ S E cap) :=
  let g := klExpertGates cfg.deterministic cfg.noiseStd cfg.iterations logits z
  createExpertChoice fl cfg.dispatcher g.1 (if cfg.useSoftmaxCombineWeights then some g.2 else none)

/-! ### Sparsity-constrained plans -/

/-- The external functions used for sparse plans: `proj k x` is
`jaxopt.projection.projection_sparse_simplex(x, k)`
(vmoe/projects/sparsity_constrained_ot/ksparse_projection_routing.py:235), and `solve cost a b` is the
dual variable found by the solver (line 219, any vector: the solver need not converge). -/
structure Ext where
  proj : Nat → {n : Nat} → (Fin n → ℝ) → Fin n → ℝ
  solve : {m n : Nat} → (Fin m → Fin n → ℝ) → (Fin m → ℝ) → (Fin n → ℝ) → Fin m → ℝ

/-- `_max_l2_top_k` (vmoe/projects/sparsity_constrained_ot/ksparse_projection_routing.py:233-238). -/
noncomputable def maxL2TopK (ext : Ext) {n : Nat} (x : Fin n → ℝ) (k : Nat) (marginalB gamma : ℝ) : ℝ :=
  let scale := gamma * marginalB
  let p := ext.proj k (fun i => x i / scale)
  (∑ i, p i * x i) - 0.5 * scale * ∑ i, p i * (p i - 1)

/-- Gradient of `_max_l2_top_k` in its first argument: because of `stop_gradient` it is the projected
vector (vmoe/projects/sparsity_constrained_ot/ksparse_projection_routing.py:207,236-237). -/
noncomputable def maxGrad (ext : Ext) {n : Nat} (x : Fin n → ℝ) (k : Nat) (marginalB gamma : ℝ) :
    Fin n → ℝ :=
  ext.proj k (fun i => x i / (gamma * marginalB))

/-- `_regularized_transport_semi_dual` (jaxopt, called in
vmoe/projects/sparsity_constrained_ot/ksparse_projection_routing.py:219-226): with the dual variable
`alpha`, column `j` of the plan is the gradient of the maximum at `alpha - cost[:, j]`, times the
marginal of the column. -/
noncomputable def semiDualPlan (ext : Ext) {m n : Nat} (cost : Fin m → Fin n → ℝ) (a : Fin m → ℝ)
    (b : Fin n → ℝ) (k : Nat) : Fin m → Fin n → ℝ :=
  let alpha := ext.solve cost a b
  fun i j => maxGrad ext (fun i => alpha i - cost i j) k (b j) 1 i * b j

/-- `get_sparse_ot_plan` (vmoe/projects/sparsity_constrained_ot/ksparse_projection_routing.py:194-230). -/
noncomputable def sparsePlan (ext : Ext) (k : Nat) (rowSparse : Bool) (sim : Fin S → Fin E → ℝ) :
    Fin S → Fin E → ℝ :=
  let alongExperts : Fin S → ℝ := fun _ => 1
  let alongTokens : Fin E → ℝ := fun _ => (S : ℝ) / E
  if rowSparse then
    fun s e => semiDualPlan ext (fun e s => - sim s e) alongTokens alongExperts k e s
  else semiDualPlan ext (fun s e => - sim s e) alongExperts alongTokens k

/-- Metrics on the non-zero entries of the plan, for a non-empty group
(vmoe/projects/sparsity_constrained_ot/ksparse_projection_routing.py:81-88). -/
structure CountMetrics where
  itemsPerExpertMin : Nat
  itemsPerExpertMax : Nat
  itemsPerExpertAvg : ℝ
  expertsPerItemMin : Nat
  expertsPerItemMax : Nat
  expertsPerItemAvg : ℝ

/-- `jnp.count_nonzero` along an axis
(vmoe/projects/sparsity_constrained_ot/ksparse_projection_routing.py:81,85). -/
noncomputable def countNonzero {n : Nat} (x : Fin n → ℝ) : Nat :=
  (Finset.univ.filter (fun i => x i ≠ 0)).card

/-- The metrics of a plan
(vmoe/projects/sparsity_constrained_ot/ksparse_projection_routing.py:81-88). -/
noncomputable def countMetrics (hS : 0 < S) (hE : 0 < E) (plan : Fin S → Fin E → ℝ) : CountMetrics :=
  let items := fun e => countNonzero (fun s => plan s e)
  let experts := fun s => countNonzero (plan s)
  { itemsPerExpertMin := Finset.univ.inf' ⟨⟨0, hE⟩, Finset.mem_univ _⟩ items
    itemsPerExpertMax := Finset.univ.sup' ⟨⟨0, hE⟩, Finset.mem_univ _⟩ items
    itemsPerExpertAvg := mean (fun e => (items e : ℝ))
    expertsPerItemMin := Finset.univ.inf' ⟨⟨0, hS⟩, Finset.mem_univ _⟩ experts
    expertsPerItemMax := Finset.univ.sup' ⟨⟨0, hS⟩, Finset.mem_univ _⟩ experts
    expertsPerItemAvg := mean (fun s => (experts s : ℝ)) }

/-- `KSparseProjectionTransportTopExpertsPerItemRouter.__call__` for one group, from the logits,
without the metrics (vmoe/projects/sparsity_constrained_ot/ksparse_projection_routing.py:52-102). -/
noncomputable def sparseItemRouter (ext : Ext) (fl : ℚ → ℚ) (d : DispatcherDict) (K : Nat)
    (useSoftmax : Bool) (logits : Fin S → Fin E → ℝ) : Except PyErr (ItemChoiceDispatcher ℝ S E K) :=
  if K ≤ E ∧ 1 ≤ K then
    let gatesSoftmax := fun s => softmax (logits s)
    let gatesOt := sparsePlan ext K true gatesSoftmax
    createItemChoice fl d K gatesOt (if useSoftmax then some gatesSoftmax else none)
  else .error .valueError

/-- `nnz_k` of the expert-choice router
(vmoe/projects/sparsity_constrained_ot/ksparse_projection_routing.py:158-165):
`dispatcher["capacity_factor"]` raises KeyError if missing. -/
def sparseNnz (fl : ℚ → ℚ) (d : DispatcherDict) (S E : Nat) : Except PyErr Nat :=
  match d.capacityFactor with
  | none => .error .keyError
  | some f => (computeCapacity fl S E f (d.ceilOrRound.getD "ceil")
      (d.multipleOf.getD (some 4))).map Int.toNat

/-- `KSparseProjectionTransportTopItemsPerExpertRouter.__call__` for one group, from the logits,
dispatcher part (vmoe/projects/sparsity_constrained_ot/ksparse_projection_routing.py:122-175).  A
number of non-zeros above the group size raises ValueError (`top_k` in the projection). -/
noncomputable def sparseExpertRouter (ext : Ext) (fl : ℚ → ℚ) (d : DispatcherDict) (useSoftmax : Bool)
    (logits : Fin S → Fin E → ℝ) : Except PyErr (Σ cap : Nat, EinsumWeights ℝ S E cap) :=
  let gatesSoftmax := fun s => softmax (logits s)
  match sparseNnz fl d S E with
  | .error err => .error err
  | .ok nnz =>
    if S < nnz then .error .valueError
    else
      let gatesOt := sparsePlan ext nnz false gatesSoftmax
      createExpertChoice fl d gatesOt (if useSoftmax then some gatesSoftmax else none)

end Verif.OtRouting
