import Verif.Model.Adam
import Verif.Model.DecayRules

/-! The optimizers of the configurations. -/

namespace Verif.OptimizerRecipes

open Verif FlatDict Optimizer

/-- The models with a learning rate in the table (vmoe/configs/vmoe_paper/common.py:155-162). -/
inductive Size where
  | S32
  | B32
  | B16
  | L32
  | L16
  | H14
  deriving DecidableEq

/-- The peak of the learning rate (vmoe/configs/vmoe_paper/common.py:155-162, vmoe/configs/vmoe_paper/pretrain_imagenet21k.py:196-203). -/
noncomputable def Size.peak : Size → ℝ
  | .S32 => 1e-3
  | .B32 => 8e-4
  | .B16 => 8e-4
  | .L32 => 6e-4
  | .L16 => 4e-4
  | .H14 => 3e-4

/-- The configurations.

* `paper`: vmoe/configs/vmoe_paper/common.py:136-169;
* `imagenet21k`: vmoe/configs/vmoe_paper/pretrain_imagenet21k.py:176-209;
* `light`: vmoe/configs/vmoe_paper/vmoe_s32_last2_ilsvrc2012_randaug_light1.py:124-131;
* `jft`, with or without the soft router: vmoe/projects/soft_moe/configs/common.py:91-127,
  vmoe/projects/soft_moe/configs/pretrain_jft4b.py:78-98;
* `laion`: vmoe/projects/soft_moe/configs/pretrain_laion.py:113-116;
* `fineTuneB16`: vmoe/configs/vmoe_paper/vmoe_b16_imagenet21k_randaug_strong_ft_ilsvrc2012.py:107-118;
* `fineTuneS32`: vmoe/configs/vmoe_paper/vmoe_s32_last2_ilsvrc2012_randaug_light1_ft_ilsvrc2012.py:101-112;
* `fineTuneCifar10`: vmoe/configs/vmoe_paper/vmoe_b16_imagenet21k_randaug_strong_ft_cifar10.py:92-103;
* `fineTuneCifar100`: vmoe/configs/eee_paper/eee_s32_last2_ilsvrc2012_ft_cifar100.py:154-165;
* `attacked`: vmoe/projects/adversarial_attacks/configs/common.py:76-87. -/
inductive Recipe where
  | paper (size : Size)
  | imagenet21k (size : Size)
  | light
  | jft (soft : Bool)
  | laion
  | fineTuneB16
  | fineTuneS32
  | fineTuneCifar10
  | fineTuneCifar100
  | attacked
  deriving DecidableEq

/-- `name`, `b1`, `b2`, `momentum` (vmoe/configs/vmoe_paper/common.py:146-149, vmoe/projects/soft_moe/configs/common.py:93-96,
vmoe/configs/vmoe_paper/vmoe_b16_imagenet21k_randaug_strong_ft_ilsvrc2012.py:108-109).  The types of the accumulators are left out. -/
noncomputable def Recipe.base : Recipe → Base
  | .paper _ | .imagenet21k _ | .light | .jft _ | .laion => .other (Adam.scaleByAdam { b1 := 0.9, b2 := 0.999 })
  | .fineTuneB16 | .fineTuneS32 | .fineTuneCifar10 | .fineTuneCifar100 | .attacked => .sgd (some 0.9) false

/-- `learning_rate` (vmoe/configs/vmoe_paper/common.py:153-164, vmoe/configs/vmoe_paper/pretrain_imagenet21k.py:194-205,
vmoe/configs/vmoe_paper/vmoe_s32_last2_ilsvrc2012_randaug_light1.py:129, vmoe/projects/soft_moe/configs/common.py:121-126,
vmoe/projects/soft_moe/configs/pretrain_laion.py:115-116,
vmoe/configs/vmoe_paper/vmoe_b16_imagenet21k_randaug_strong_ft_ilsvrc2012.py:111-116,
vmoe/configs/vmoe_paper/vmoe_s32_last2_ilsvrc2012_randaug_light1_ft_ilsvrc2012.py:105-110,
vmoe/configs/vmoe_paper/vmoe_b16_imagenet21k_randaug_strong_ft_cifar10.py:96-101,
vmoe/configs/eee_paper/eee_s32_last2_ilsvrc2012_ft_cifar100.py:158-163, vmoe/projects/adversarial_attacks/configs/common.py:80-85). -/
noncomputable def Recipe.learningRate : Recipe → Schedule.Kind
  | .paper size | .imagenet21k size => .linear size.peak 1e-5 10000 none
  | .light => .linear 3e-3 1e-5 10000 none
  | .jft _ => .rsqrt 1e-3 10000 10000 50000 none
  | .laion => .rsqrt 1e-3 10000 20000 20000 none
  | .fineTuneB16 | .fineTuneS32 => .cosine 0.003 1e-5 1 500 none
  | .fineTuneCifar10 => .cosine 0.0015 1e-5 1 100 none
  | .fineTuneCifar100 => .cosine 0.005 1e-5 1 200 none
  | .attacked => .cosine 0.03 1e-5 1 500 none

/-- `gradient_clip.global_norm` (vmoe/configs/vmoe_paper/common.py:166-168, vmoe/configs/vmoe_paper/pretrain_imagenet21k.py:207-208,
vmoe/configs/vmoe_paper/vmoe_s32_last2_ilsvrc2012_randaug_light1.py:130, vmoe/projects/soft_moe/configs/common.py:101,
vmoe/configs/vmoe_paper/vmoe_b16_imagenet21k_randaug_strong_ft_ilsvrc2012.py:117 and the other fine-tuning configurations). -/
noncomputable def Recipe.globalNorm : Recipe → Option ℝ
  | .paper .H14 => some 10
  | .paper _ => none
  | .imagenet21k _ | .light | .jft _ | .laion => some 1
  | .fineTuneB16 | .fineTuneS32 | .fineTuneCifar10 | .fineTuneCifar100 | .attacked => some 10

/-- `weight_decay`: see `DecayRules.weightDecay`; none for fine-tuning (vmoe/configs/vmoe_paper/common.py:150,
vmoe/configs/vmoe_paper/pretrain_imagenet21k.py:191, vmoe/configs/vmoe_paper/vmoe_s32_last2_ilsvrc2012_randaug_light1.py:128,
vmoe/projects/soft_moe/configs/common.py:97-100, vmoe/projects/soft_moe/configs/pretrain_jft4b.py:96-98,
vmoe/projects/soft_moe/configs/pretrain_laion.py:114, vmoe/train/optimizer.py:95). -/
noncomputable def Recipe.weightDecay : Recipe → WeightDecay
  | .paper _ => DecayRules.weightDecay .paper
  | .imagenet21k _ | .light | .laion => DecayRules.weightDecay .kernels
  | .jft soft => DecayRules.weightDecay (if soft then .jftSoft else .jft)
  | .fineTuneB16 | .fineTuneS32 | .fineTuneCifar10 | .fineTuneCifar100 | .attacked => .none

/-- The arguments of `create_optimizer` (vmoe/train/trainer.py:354, vmoe/train/optimizer.py:90-100): nothing is frozen and no
gradients are scaled. -/
noncomputable def Recipe.config (r : Recipe) (totalSteps : Int) : Config where
  base := r.base
  totalSteps := totalSteps
  learningRate := r.learningRate
  clipGlobalNorm := r.globalNorm
  clipAbsolute := none
  weightDecay := r.weightDecay
  frozenPattern := .none
  trainablePattern := .none
  gradientScale := []

/-- `config.train_steps` (vmoe/configs/vmoe_paper/vmoe_b16_imagenet21k_randaug_strong_ft_ilsvrc2012.py:85,
vmoe/configs/vmoe_paper/vmoe_s32_last2_ilsvrc2012_randaug_light1_ft_ilsvrc2012.py:77,
vmoe/configs/vmoe_paper/vmoe_b16_imagenet21k_randaug_strong_ft_cifar10.py:70,
vmoe/configs/eee_paper/eee_s32_last2_ilsvrc2012_ft_cifar100.py:87, vmoe/projects/adversarial_attacks/configs/common.py:75,
vmoe/projects/soft_moe/configs/pretrain_laion.py:117, vmoe/projects/soft_moe/configs/pretrain_jft4b.py:101-104, which
depends on the size of the model); the other configurations give epochs. -/
def Recipe.trainSteps : Recipe → List Nat
  | .fineTuneB16 | .fineTuneS32 | .attacked => [10000]
  | .fineTuneCifar10 => [1000]
  | .fineTuneCifar100 => [2000]
  | .laion => [750000]
  | .jft _ => [2000000, 4000000]
  | .paper _ | .imagenet21k _ | .light => []

end Verif.OptimizerRecipes
