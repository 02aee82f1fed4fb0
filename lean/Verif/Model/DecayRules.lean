import Verif.Model.Optimizer
import Verif.Model.RegexSub

/-! The weight decay of the configurations that train models from scratch. -/

namespace Verif.DecayRules

open Verif FlatDict Optimizer

/-- The configurations: the optimizer of the V-MoE paper, the one for ImageNet, ImageNet-21k and LAION, and the ones for JFT with
and without the soft router (vmoe/configs/vmoe_paper/common.py:136-169, vmoe/projects/soft_moe/configs/pretrain_jft4b.py:78-98). -/
inductive Recipe where
  | paper
  | kernels
  | jft
  | jftSoft
  deriving DecidableEq

/-- `config.optimizer.weight_decay` (vmoe/configs/vmoe_paper/common.py:150, vmoe/configs/vmoe_paper/pretrain_imagenet21k.py:191,
vmoe/configs/vmoe_paper/vmoe_s32_last2_ilsvrc2012_randaug_light1.py:128, vmoe/projects/soft_moe/configs/pretrain_laion.py:114,
vmoe/projects/soft_moe/configs/common.py:97-100, vmoe/projects/soft_moe/configs/pretrain_jft4b.py:96-98). -/
noncomputable def weightDecay : Recipe → WeightDecay
  | .paper => .scalar 0.1
  | .kernels => .rules [(".*/kernel".toList, 0.1)]
  | .jft => .rules [("head/kernel".toList, 3), (".*/kernel".toList, 0.03)]
  | .jftSoft => .rules [("head/kernel".toList, 3), (".*/kernel".toList, 0.03), (".*/Moe/Router/scale".toList, 0.03)]

/-- `re.compile` with its method `search` (vmoe/train/optimizer.py:58-61). -/
def compile (pattern : List Char) : Except PyErr (Key → Bool) :=
  match RegexSub.compileRule pattern with
  | .ok t => .ok (RegexSub.search t)
  | .error e => .error e

end Verif.DecayRules
