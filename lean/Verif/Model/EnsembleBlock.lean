import Verif.Model.MoeBlock
import Verif.Model.Ensemble
import Verif.Model.Encoder

/-!
Model of `MlpMoeWithNoisyTopExpertsPerItemEnsembleRouter` (vmoe/nn/vit_moe_ensemble.py:37-70) with the
router of vmoe/nn/ensemble_routing.py:71-134, over the real numbers.
-/

namespace Verif.EnsembleBlock

open Verif Verif.Moe Verif.MoeBlock Verif.Ensemble

variable {N T H O E : Nat}

/-- An array of rank 3 from its entries (the inputs and outputs of the experts,
vmoe/nn/vit_moe_ensemble.py:64-65). -/
noncomputable def ofFn {a b c : Nat} (f : Fin a → Fin b → Fin c → ℝ) : NdArray ℝ :=
  { shape := [a, b, c]
    get := fun idx => match idx with
      | [i, j, k] => if h : i < a ∧ j < b ∧ k < c then f ⟨i, h.1⟩ ⟨j, h.2.1⟩ ⟨k, h.2.2⟩ else 0
      | _ => 0 }

/-- The gates that the super class computes for one member, with its own slice `kernel m` of the
gating parameters (axis 1) and its own noise `z m` (vmoe/nn/ensemble_routing.py:125-134,
vmoe/nn/routing.py:63-114).  The error cases are in `ensembleGates`. -/
noncomputable def memberGates (cdf : ℝ → ℝ) (cfg : RouterConfig) (kernel : Nat → Nat → Nat → ℝ)
    (z : Nat → Nat → Nat → Nat → ℝ) : Inner ℝ ℝ :=
  fun G s H e m x g i j =>
    match gatesAndMetrics (E := e) cdf cfg (fun (h : Fin H) (j : Fin e) => kernel m h j) (z m) x with
    | .ok (gates, _) =>
      if h : g < G ∧ i < s ∧ j < e then gates ⟨g, h.1⟩ ⟨i, h.2.1⟩ ⟨j, h.2.2⟩ else 0
    | .error _ => 0

/-- `MlpMoeWithNoisyTopExpertsPerItemEnsembleRouter.__call__` (vmoe/nn/vit_moe_ensemble.py:59-70) with
`MlpMoeBlock.__call__` (vmoe/nn/vit_moe.py:101-124) and the ensemble router
(vmoe/nn/ensemble_routing.py:84-134), without the metrics.  `kernel` and `z` are the gating parameters
and noise of each member, `mlp` the expert acting on one token. -/
noncomputable def ensembleBlock {P : Type*} (fl : ℚ → ℚ) (cdf bf : ℝ → ℝ) (cfg : RouterConfig)
    (groupSize : Nat) (ensembleSize : Option Int) (kernel : Nat → Nat → Nat → ℝ)
    (z : Nat → Nat → Nat → Nat → ℝ) (oob : Fin O → ℝ) (params : Fin E → P)
    (mlp : P → (Fin H → ℝ) → Fin O → ℝ) (x : Fin N → Fin T → Fin H → ℝ) :
    Except PyErr (NdArray ℝ) := do
  let M ← Encoder.parseEnsembleSize ensembleSize
  let inputs ← reshapeTo (ofFn x) groupSize M
  -- MlpMoeBlock.__call__
  let inputs ← inputs.jreshape [none, some groupSize, some H]
  let G := inputs.shape.headD 0
  let gates ← ensembleGates (memberGates cdf cfg kernel z) E M cfg.numSelected inputs
  let d ← createDispatcher fl cfg (fun g : Fin G => groupGates gates groupSize E g)
  let outputs := applyLayer bf cfg.dispatcher.bfloat16 oob params mlp d
    (fun (g : Fin G) (s : Fin groupSize) (h : Fin H) => inputs.get [g, s, h])
  reshapeFrom (ofFn outputs) T M

end Verif.EnsembleBlock
