import Verif.Model.MoeFactory
import Verif.Model.AuxLoss
import Verif.Model.SoftMoe

/-!
Model of `MlpMoeBlock` (vmoe/nn/vit_moe.py:48-124) with the router `NoisyTopExpertsPerItemRouter`
(vmoe/nn/routing.py:31-131), over the real numbers.

Shapes: `B` sequences of `T` tokens with `H` features, groups of `S` tokens, `E` experts.  The
parameters of the gating layer and of the experts are arguments.  Random noise is an argument too
(the array returned by `jax.random.normal`), indexed by group, position in the group and expert.
-/

namespace Verif.MoeBlock

open Verif Verif.Moe Verif.Aux Verif.Soft

variable {B T H O E G S K : Nat} {M : Type*}

/-- The options of the `dispatcher` dictionary of the router: arguments of
`get_top_experts_per_item_dispatcher` (vmoe/moe.py:267-273), plus `bfloat16`
(vmoe/nn/routing.py:121-122).  Sharding and precision options are not modelled. -/
structure DispatcherConfig where
  name : String
  batchPriority : Bool
  capacity : Option Nat
  capacityFactor : Option ℚ
  ceilOrRound : String
  multipleOf : Option Int
  bfloat16 : Bool

/-- Attributes of `NoisyTopExpertsPerItemRouter` (vmoe/nn/routing.py:45-53); `num_experts` is the
parameter `E` of the model. -/
structure RouterConfig where
  numSelected : Nat
  noiseStd : ℝ
  gshardLossWeight : ℝ
  importanceLossWeight : ℝ
  loadLossWeight : ℝ
  dispatcher : DispatcherConfig
  deterministic : Bool

/-- `inputs.reshape(-1, self.group_size, inputs.shape[-1])` for inputs of shape (B, T, H), row-major
(vmoe/nn/vit_moe.py:107).  JAX raises TypeError if the size is not divisible.  Empty feature
dimensions (`H = 0`) are not modelled. -/
def regroup (x : Fin B → Fin T → M) (S : Nat) :
    Except PyErr (Fin (B * T / S) → Fin S → M) :=
  if h : 0 < S ∧ B * T % S = 0 then
    .ok (fun g s =>
      let i : Fin (B * T) := (rowMajor g s).cast (Nat.div_mul_cancel (Nat.dvd_of_mod_eq_zero h.2))
      x i.divNat i.modNat)
  else .error .typeError

/-- `outputs.reshape(*inputs_shape[:-1], outputs.shape[-1])` (vmoe/nn/vit_moe.py:123). -/
def ungroup (y : Fin (B * T / S) → Fin S → M) : Except PyErr (Fin B → Fin T → M) :=
  if h : 0 < S ∧ B * T % S = 0 then
    .ok (fun b t =>
      let i : Fin (B * T / S * S) :=
        (rowMajor b t).cast (Nat.div_mul_cancel (Nat.dvd_of_mod_eq_zero h.2)).symm
      y i.divNat i.modNat)
  else .error .typeError

/-- `nn.Dense(features=num_experts, use_bias=False)` (vmoe/nn/routing.py:73-74): the product with the
kernel of shape (H, E). -/
noncomputable def gateLogits (kernel : Fin H → Fin E → ℝ) (x : Fin G → Fin S → Fin H → ℝ) :
    Fin G → Fin S → Fin E → ℝ :=
  fun g s e => ∑ h, x g s h * kernel h e

/-- Metrics returned by the router, one value per group (vmoe/nn/routing.py:84-90,105-113). -/
structure Metrics (G : Nat) where
  auxiliaryLoss : Fin G → ℝ
  gshardLoss : Fin G → ℝ
  importanceLoss : Fin G → ℝ
  loadLoss : Option (Fin G → ℝ)

/-- `_compute_gates_softmax_and_metrics` (vmoe/nn/routing.py:63-114).  `z` is the standard normal
noise drawn with the `gating` PRNG and `cdf` is `jax.scipy.stats.norm.cdf`.  The rank of the inputs
(lines 65-66) is in their type.  A missing `gating` PRNG is not modelled. -/
noncomputable def gatesAndMetrics (cdf : ℝ → ℝ) (cfg : RouterConfig) (kernel : Fin H → Fin E → ℝ)
    (z : Nat → Nat → Nat → ℝ) (x : Fin G → Fin S → Fin H → ℝ) :
    Except PyErr ((Fin G → Fin S → Fin E → ℝ) × Metrics G) :=
  open Classical in
  if h : cfg.numSelected ≤ E ∧ 1 ≤ cfg.numSelected then
    let logits := gateLogits kernel x
    let gates := fun g s => softmax (logits g s)
    let importance := fun g => importanceLoss (gates g)
    have hE : 0 < E := Nat.lt_of_lt_of_le h.2 h.1
    if cfg.deterministic ∨ cfg.noiseStd = 0 then
      let gshard := fun g => gshardLoss hE (gates g)
      .ok (gates,
        { auxiliaryLoss := fun g => weightedSum
            [(cfg.gshardLossWeight, gshard g), (cfg.importanceLossWeight, importance g)]
          gshardLoss := gshard
          importanceLoss := importance
          loadLoss := none })
    else
      let noiseStd := (1 / (E : ℝ)) * cfg.noiseStd
      let noisy := fun (g : Fin G) (s : Fin S) (e : Fin E) => logits g s e + noiseStd * z g s e
      let gatesNoisy := fun g s => softmax (noisy g s)
      let load := fun g => loadLoss cdf (logits g) (noisy g) noiseStd cfg.numSelected h.2 h.1
      let gshard := fun g => gshardLoss hE (gatesNoisy g)
      .ok (gatesNoisy,
        { auxiliaryLoss := fun g => weightedSum
            [(cfg.gshardLossWeight, gshard g), (cfg.importanceLossWeight, importance g),
             (cfg.loadLossWeight, load g)]
          gshardLoss := gshard
          importanceLoss := importance
          loadLoss := some load })
  else .error .valueError

/-- The dispatcher of all groups: the arrays of `get_top_experts_per_item_dispatcher` with a leading
group axis, added by `jax.vmap` (vmoe/nn/routing.py:123-128). -/
inductive Dispatcher (G S E K : Nat) where
  | einsum (capacity : Nat) (w : Fin G → EinsumWeights ℝ S E capacity)
  | indices (capacity : Nat) (w : Fin G → IndicesWeights ℝ S K E capacity)

/-- `_create_dispatcher` without the bfloat16 wrapper (vmoe/nn/routing.py:117-128): `jax.vmap` of
`get_top_experts_per_item_dispatcher` over the groups.  The checks and the capacity depend only on
shapes and options, so they are done once (vmoe/moe.py:305-327). -/
noncomputable def createDispatcher (fl : ℚ → ℚ) (cfg : RouterConfig)
    (gates : Fin G → Fin S → Fin E → ℝ) : Except PyErr (Dispatcher G S E cfg.numSelected) :=
  let d := cfg.dispatcher
  match resolveCapacity fl (S * cfg.numSelected) E d.capacity d.capacityFactor d.ceilOrRound
      d.multipleOf with
  | .error err => .error err
  | .ok cap =>
    if d.name ≠ "einsum" ∧ d.name ≠ "indices" then .error .valueError
    else if h : 0 < cfg.numSelected ∧ cfg.numSelected ≤ E then
      if d.name = "einsum" then
        .ok (.einsum cap (fun g => topExpertsEinsum (gates g) _ h.1 h.2 cap d.batchPriority))
      else .ok (.indices cap (fun g => topExpertsIndices (gates g) _ h.1 h.2 cap d.batchPriority))
    else .error .valueError

/-- `_cast_to_bfloat16` applied entry by entry when the wrapper `Bfloat16Dispatcher` is used
(vmoe/moe.py:212-227,477-478; vmoe/nn/routing.py:129-130).  `bf` is the rounding; casting back to the
original type is exact. -/
def castData (bf : ℝ → ℝ) (useBf : Bool) {D : Nat} (v : Fin D → ℝ) : Fin D → ℝ :=
  if useBf then fun i => bf (v i) else v

/-- `sparse_moe_spmd` with the created dispatcher: dispatch, experts, combine (vmoe/moe.py:429-444,
vmoe/nn/vit_moe.py:110-120).  With `Bfloat16Dispatcher` the data is rounded before dispatching and
before combining (vmoe/moe.py:217-227); sums inside the dispatcher are exact.  `oob` is what a gather
out of range returns. -/
noncomputable def applyLayer {P : Type*} (bf : ℝ → ℝ) (useBf : Bool) (oob : Fin O → ℝ)
    (params : Fin E → P) (mlp : P → (Fin H → ℝ) → Fin O → ℝ) :
    Dispatcher G S E K → (Fin G → Fin S → Fin H → ℝ) → Fin G → Fin S → Fin O → ℝ
  | .einsum _ w, x =>
    sparseMoe (einsumDispatch w) (fun y => einsumCombine w (fun e i => castData bf useBf (y e i)))
      params mlp (fun g s => castData bf useBf (x g s))
  | .indices _ w, x =>
    sparseMoe (indicesDispatch w)
      (fun y => indicesCombine oob w (fun e i => castData bf useBf (y e i)))
      params mlp (fun g s => castData bf useBf (x g s))

/-- `MlpMoeBlock.__call__` (vmoe/nn/vit_moe.py:101-124) with `NoisyTopExpertsPerItemRouter`.  The
rank of the inputs (line 103) is in their type.  `mlp` is the expert acting on one token
(`MlpBlock`, vmoe/nn/vit_moe.py:38-45) without dropout. -/
noncomputable def mlpMoeBlock {P : Type*} (fl : ℚ → ℚ) (cdf bf : ℝ → ℝ) (cfg : RouterConfig)
    (groupSize : Nat) (kernel : Fin H → Fin E → ℝ) (z : Nat → Nat → Nat → ℝ) (oob : Fin O → ℝ)
    (params : Fin E → P) (mlp : P → (Fin H → ℝ) → Fin O → ℝ) (x : Fin B → Fin T → Fin H → ℝ) :
    Except PyErr ((Fin B → Fin T → Fin O → ℝ) × Metrics (B * T / groupSize)) :=
  match regroup x groupSize with
  | .error err => .error err
  | .ok xg =>
    match gatesAndMetrics cdf cfg kernel z xg with
    | .error err => .error err
    | .ok (gates, metrics) =>
      match createDispatcher fl cfg gates with
      | .error err => .error err
      | .ok d =>
        match ungroup (applyLayer bf cfg.dispatcher.bfloat16 oob params mlp d xg) with
        | .error err => .error err
        | .ok out => .ok (out, metrics)

end Verif.MoeBlock
