import Verif.Model.MoeBlock
import Verif.Model.MoeMetrics

/-!
Model of `MlpMoeBlock` (vmoe/nn/vit_moe.py:48-124) with the router `NoisyTopItemsPerExpertRouter`
(vmoe/nn/routing.py:186-244), over the real numbers.  Shapes and random noise as in
`Verif.Model.MoeBlock`.
-/

namespace Verif.ExpertChoice

open Verif Verif.Moe Verif.Soft Verif.MoeBlock

variable {B T H O E G S : Nat}

/-- The `dispatcher` dictionary: arguments of `get_top_items_per_expert_dispatcher`
(vmoe/moe.py:330-337) and `bfloat16` (vmoe/nn/routing.py:236); `none` is a missing key.  `otherKeys`
says that there are keys which `EinsumDispatcher` does not know, such as `batch_priority`
(vmoe/moe.py:128-146,678-680).  Sharding and precision options are not modelled. -/
structure ItemsDispatcher where
  name : String
  capacity : Option Nat
  capacityFactor : Option ℚ
  ceilOrRound : Option String
  multipleOf : Option (Option Int)
  bfloat16 : Option Bool
  otherKeys : Bool

/-- Attributes of `NoisyTopItemsPerExpertRouter` (vmoe/nn/routing.py:199-203). -/
structure RouterConfig where
  noiseStd : ℝ
  dispatcher : Option ItemsDispatcher
  deterministic : Bool

/-- `_compute_gates_softmax` (vmoe/nn/routing.py:213-229).  `z` is the standard normal noise drawn
with the `gating` PRNG.  The rank of the inputs (lines 214-215) is in their type. -/
noncomputable def computeGatesSoftmax (cfg : RouterConfig) (kernel : Fin H → Fin E → ℝ)
    (z : Nat → Nat → Nat → ℝ) (x : Fin G → Fin S → Fin H → ℝ) : Fin G → Fin S → Fin E → ℝ :=
  open Classical in
  let logits := gateLogits kernel x
  if cfg.deterministic ∨ cfg.noiseStd = 0 then fun g s => softmax (logits g s)
  else
    let noiseStd := (1 / (E : ℝ)) * cfg.noiseStd
    fun g s => softmax (fun e => logits g s e + noiseStd * z g s e)

/-- What the router returns: weights and metrics with a leading group axis, the flag for the
`Bfloat16Dispatcher` wrapper, and the auxiliary loss (vmoe/nn/routing.py:207-210,240-244). -/
structure RouterOutput (G S E : Nat) where
  capacity : Nat
  weights : Fin G → EinsumWeights ℝ S E capacity
  useBfloat16 : Bool
  metrics : Fin G → TopItemsMetrics ℝ
  auxiliaryLoss : ℝ

/-- `_create_dispatcher_and_metrics` and line 209 of `__call__` (vmoe/nn/routing.py:206-210,232-244):
`jax.vmap` of `get_top_items_per_expert_dispatcher` (vmoe/moe.py:330-385,655-694) over the groups.
The checks depend only on shapes and options, so they are done once.  Errors in order: no dictionary
means that `name` is missing (TypeError); capacity options; unknown name; `jax.lax.top_k` with more
items than there are (ValueError); unknown keys (TypeError, vmoe/moe.py:678-680); minimum of an empty
array (ValueError, lines 684-687). -/
noncomputable def createDispatcherAndMetrics (fl : ℚ → ℚ) (cfg : RouterConfig)
    (gates : Fin G → Fin S → Fin E → ℝ) : Except PyErr (RouterOutput G S E) :=
  match cfg.dispatcher with
  | none => .error .typeError
  | some d =>
    match resolveCapacity fl S E d.capacity d.capacityFactor (d.ceilOrRound.getD "ceil")
        (d.multipleOf.getD (some 4)) with
    | .error err => .error err
    | .ok cap =>
      if d.name ≠ "einsum" then .error .valueError
      else if hC : cap ≤ S then
        if d.otherKeys then .error .typeError
        else if h : 0 < cap ∧ 0 < E then
          .ok { capacity := cap
                weights := fun g => topItemsEinsum (gates g) cap hC
                useBfloat16 := d.bfloat16.getD false
                metrics := fun g => topItemsMetrics (gates g) cap hC h.1 h.2
                auxiliaryLoss := 0 }
        else .error .valueError
      else .error .valueError

/-- `MlpMoeBlock.__call__` (vmoe/nn/vit_moe.py:101-124) with `NoisyTopItemsPerExpertRouter`.  The
rank of the inputs (line 103) is in their type.  `mlp` is the expert acting on one token without
dropout; `bf` is the rounding to bfloat16 done by `Bfloat16Dispatcher` (vmoe/moe.py:212-227). -/
noncomputable def mlpMoeBlock {P : Type*} (fl : ℚ → ℚ) (bf : ℝ → ℝ) (cfg : RouterConfig)
    (groupSize : Nat) (kernel : Fin H → Fin E → ℝ) (z : Nat → Nat → Nat → ℝ)
    (params : Fin E → P) (mlp : P → (Fin H → ℝ) → Fin O → ℝ) (x : Fin B → Fin T → Fin H → ℝ) :
    Except PyErr ((Fin B → Fin T → Fin O → ℝ) × RouterOutput (B * T / groupSize) groupSize E) :=
  match regroup x groupSize with
  | .error err => .error err
  | .ok xg =>
    match createDispatcherAndMetrics fl cfg (computeGatesSoftmax cfg kernel z xg) with
    | .error err => .error err
    | .ok r =>
      let y := sparseMoe (einsumDispatch r.weights)
        (fun y => einsumCombine r.weights (fun e i => castData bf r.useBfloat16 (y e i)))
        params mlp (fun g s => castData bf r.useBfloat16 (xg g s))
      match ungroup y with
      | .error err => .error err
      | .ok out => .ok (out, r)

end Verif.ExpertChoice
