import Verif.Model.PaperConfigs
import Verif.Model.ConfigOverride
import Verif.Model.VmoeModel

/-!
The models of the runs in vmoe/configs/vmoe_paper, for training and for evaluation, as far as the room in their experts goes.
-/

namespace Verif.RunCapacity

open Verif Verif.FlatDict Verif.ConfigOverride Verif.PaperConfigs

/-- What a configuration in vmoe/configs/vmoe_paper says about its model: `description`, size of the images, `NUM_CLASSES`,
`capacity_factor` if it changes that of `get_vmoe_config`, `evaluate.model_overrides` and the batch size of all its datasets (for
example vmoe/configs/vmoe_paper/vmoe_s32_last2_ilsvrc2012_randaug_light1.py:48-49,78,90-91,134-138). -/
structure Run where
  description : String
  imageSize : Nat
  numClasses : Nat
  capacityFactor : Option ℚ
  overrides : Option (List (Key × Cfg ℚ))
  batchSize : Nat

/-- The nested configuration `encoder.moe.router.dispatcher.capacity_factor`
(vmoe/configs/vmoe_paper/vmoe_s32_last2_ilsvrc2012_randaug_light1.py:91). -/
def factorSection (f : ℚ) : List (Key × Cfg ℚ) :=
  [("encoder".toList, .dict [("moe".toList, .dict [("router".toList, .dict [("dispatcher".toList, .dict
    [("capacity_factor".toList, .leaf (some f))])])])])]

/-- vmoe/configs/vmoe_paper/vmoe_s32_last2_ilsvrc2012_randaug_light1.py:48-49,78,90-91,134-138. -/
def s32Light1 : Run := ⟨"ViT-S/32, E=8, K=2, Last 2, 300 Epochs", 224, 1000, none, some (factorSection 4), 8192⟩

/-- vmoe/configs/vmoe_paper/pretrain_imagenet21k.py:36,53,63,70,108-109,166. -/
def b16Pretrain : Run := ⟨"ViT-B/16, E=8, K=2, Every 2, 300 Epochs", 224, 21843, none, none, 4096⟩

/-- vmoe/configs/vmoe_paper/vmoe_b16_imagenet21k_randaug_strong_ft_ilsvrc2012.py:34-36,87,143-147. -/
def b16FtIlsvrc : Run := ⟨"ViT-B/16, E=8, K=2, Every 2, 300 Epochs", 384, 1000, some (3 / 2), none, 1024⟩

/-- vmoe/configs/vmoe_paper/vmoe_s32_last2_ilsvrc2012_randaug_light1_ft_ilsvrc2012.py:41-43,79,150-154. -/
def s32FtIlsvrc : Run := ⟨"ViT-S/32, E=8, K=2, Last 2, 300 Epochs", 384, 1000, some (3 / 2), none, 1024⟩

/-- vmoe/configs/vmoe_paper/vmoe_b16_imagenet21k_randaug_strong_ft_cifar10.py:33-35,72,128-132. -/
def b16FtCifar : Run := ⟨"ViT-B/16, E=8, K=2, Every 2, 300 Epochs", 128, 10, some (3 / 2), none, 1024⟩

/-- The runs of vmoe/configs/vmoe_paper, with the places cited above (and vmoe/configs/vmoe_paper/pretrain_imagenet21k.py:63). -/
def runs : List Run := [s32Light1, b16Pretrain, b16FtIlsvrc, s32FtIlsvrc, b16FtCifar]

/-- `config.model`: `get_vmoe_config` with the changed capacity factor
(vmoe/configs/vmoe_paper/vmoe_b16_imagenet21k_randaug_strong_ft_ilsvrc2012.py:143-147). -/
noncomputable def trainModel (r : Run) : Except PyErr VmoeConfig := do
  let c ← getVmoeConfig r.description.toList r.imageSize r.numClasses
  return { c with capacityFactor := r.capacityFactor.getD c.capacityFactor }

/-- `model_config.encoder.moe.router.dispatcher.capacity_factor` (vmoe/train/trainer.py:182-184, vmoe/moe.py:267-273). -/
def readFactor (items : List (Key × Cfg ℚ)) : Except PyErr (Option ℚ) :=
  let rec go : Cfg ℚ → List Key → Except PyErr (Option ℚ)
    | .leaf v, [] => .ok v
    | .dict _, [] => .error .typeError
    | .leaf _, _ :: _ => .error .typeError
    | .dict items, k :: p => match PyDict.get? items k with
      | some c => go c p
      | none => .error .keyError
  go (.dict items) ["encoder".toList, "moe".toList, "router".toList, "dispatcher".toList, "capacity_factor".toList]

/-- The model of the evaluation (vmoe/train/trainer.py:182-184).  Of the configuration only the part with the capacity factor is kept as
nested dictionaries; all values that are assigned are floats, so assigning them changes no type.  A factor of `None` is not
modelled further. -/
noncomputable def evalModel (r : Run) : Except PyErr VmoeConfig := do
  let c ← trainModel r
  let items ← overrideBaseConfig (fun _ v => some v) (factorSection c.capacityFactor) r.overrides
  match ← readFactor items with
  | some f => return { c with capacityFactor := f }
  | none => .error .typeError

/-- The MoE layers of a model (vmoe/nn/vit_moe.py:67-88, vmoe/configs/vmoe_paper/common.py:223-254). -/
noncomputable def layer {c : Nat} {P : Type} (v : VmoeConfig) (deterministic : Bool) (fl : ℚ → ℚ) (cdf bf : ℝ → ℝ) (oob : Fin c → ℝ)
    (mlp : P → (Fin c → ℝ) → Fin c → ℝ) : Vmoe.MoeConfig c P :=
  ⟨fl, cdf, bf, .topExperts (router v deterministic), v.groupSize, oob, mlp⟩

end Verif.RunCapacity
