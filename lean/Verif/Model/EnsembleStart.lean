import Verif.Model.EnsembleModel
import Verif.Model.Mapping

/-!
The start of an ensemble from the checkpoint of a model with one router, and the configuration
vmoe/configs/eee_paper/eee_s32_last2_ilsvrc2012_ft_cifar100.py.
-/

namespace Verif.EnsembleStart

open Verif

/-- The kernel of `nn.Dense(features=num_experts, use_bias=False)` of a router that is not an ensemble, input dimension first
(vmoe/nn/routing.py:73-74). -/
def routerKernel (x : NdArray ℝ) : Nat → Nat → ℝ := fun h e => x.get [h, e]

/-- The kernels of the members in the array of the ensemble router: `variable_axes={'params': 1}` puts the member between the
two dimensions of the kernel (vmoe/nn/ensemble_routing.py:125-134). -/
def memberKernels (x : NdArray ℝ) : Nat → Nat → Nat → ℝ := fun m h j => x.get [h, m, j]

/-- `ENSEMBLE_SIZE` (vmoe/configs/eee_paper/eee_s32_last2_ilsvrc2012_ft_cifar100.py:47). -/
def eeeMembers : Nat := 2

/-- `NUM_EXPERTS` (vmoe/configs/eee_paper/eee_s32_last2_ilsvrc2012_ft_cifar100.py:40). -/
def eeeExperts : Nat := 8

/-- `NUM_TOKENS_PER_IMAGE` (vmoe/configs/eee_paper/eee_s32_last2_ilsvrc2012_ft_cifar100.py:37-38,49). -/
def eeeTokens : Nat := (128 / 32) ^ 2 + 1

/-- `GROUP_SIZE_PER_ENS_MEMBER` (vmoe/configs/eee_paper/eee_s32_last2_ilsvrc2012_ft_cifar100.py:35,49-51). -/
def eeeGroup : Nat := 1024 / 8 * eeeTokens

/-- `config.model.encoder.moe.router` (vmoe/configs/eee_paper/eee_s32_last2_ilsvrc2012_ft_cifar100.py:128-150) with the defaults of
vmoe/nn/routing.py:48 and vmoe/moe.py:269-271; `deterministic` is set by the trainer (training) and the evaluation. -/
noncomputable def eeeRouter (deterministic : Bool) : MoeBlock.RouterConfig where
  numSelected := 1
  noiseStd := 1
  gshardLossWeight := 0
  importanceLossWeight := 5 / 1000
  loadLossWeight := 5 / 1000
  dispatcher := ⟨"einsum", false, none, some (3 / 2), "ceil", some 4, true⟩
  deterministic := deterministic

/-- `config.model.encoder.moe` (vmoe/configs/eee_paper/eee_s32_last2_ilsvrc2012_ft_cifar100.py:121-127). -/
noncomputable def eeeConfig {c : Nat} {P : Type} (deterministic : Bool) (fl : ℚ → ℚ) (cdf bf : ℝ → ℝ) (oob : Fin c → ℝ)
    (mlp : P → (Fin c → ℝ) → Fin c → ℝ) : Vmoe.EnsembleConfig c P where
  fl := fl
  cdf := cdf
  bf := bf
  router := eeeRouter deterministic
  groupSize := eeeGroup * eeeMembers
  size := some eeeMembers
  oob := oob
  mlp := mlp

end Verif.EnsembleStart
