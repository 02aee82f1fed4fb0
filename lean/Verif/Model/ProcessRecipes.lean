import Verif.Model.ProcessText

/-!
The processing strings of the configurations.
-/

namespace Verif.ProcessText

open Verif PpOps

/-- The operations on the image in the configurations, with their sizes.

* `train s none`: vmoe/configs/vmoe_paper/vmoe_b16_imagenet21k_randaug_strong_ft_ilsvrc2012.py:49,
  vmoe/configs/vmoe_paper/vmoe_s32_last2_ilsvrc2012_randaug_light1_ft_ilsvrc2012.py:56,
  vmoe/projects/adversarial_attacks/configs/common.py:53, vmoe/projects/soft_moe/configs/pretrain_jft4b.py:66,
  vmoe/projects/soft_moe/configs/common.py:141;
* `train s (some (spaces, layers, magnitude))`: vmoe/configs/vmoe_paper/pretrain_imagenet21k.py:49-51,
  vmoe/configs/vmoe_paper/vmoe_s32_last2_ilsvrc2012_randaug_light1.py:100, vmoe/configs/vmoe_paper/common.py:184;
* `trainSmall s`: vmoe/configs/vmoe_paper/vmoe_b16_imagenet21k_randaug_strong_ft_cifar10.py:49,
  vmoe/configs/eee_paper/eee_s32_last2_ilsvrc2012_ft_cifar100.py:64;
* `resize s`: vmoe/configs/vmoe_paper/vmoe_b16_imagenet21k_randaug_strong_ft_ilsvrc2012.py:56,63,70,78 and others;
* `smallCrop hi lo`: vmoe/configs/vmoe_paper/pretrain_imagenet21k.py:60-62,
  vmoe/configs/vmoe_paper/vmoe_s32_last2_ilsvrc2012_randaug_light1.py:68,113, vmoe/projects/soft_moe/configs/common.py:142-143,
  vmoe/projects/soft_moe/configs/pretrain_jft4b.py:72;
* `resizeCrop r t`: vmoe/configs/common_fewshot.py:44-45. -/
inductive Images where
  | train (s : Nat) (randaug : Option (Nat × Nat × Nat))
  | trainSmall (s : Nat)
  | resize (s : Nat)
  | smallCrop (hi lo : Nat)
  | resizeCrop (r t : Nat)

/-- `get_randaug` (vmoe/configs/vmoe_paper/common.py:184), with integers in decimal notation, and `randaug(2,20)` without the space
(vmoe/configs/vmoe_paper/pretrain_imagenet21k.py:50). -/
def randaugText (a : Nat × Nat × Nat) : Str :=
  "randaug(".toList ++ Nat.toDigits 10 a.2.1 ++ ",".toList ++ List.replicate a.1 ' ' ++ Nat.toDigits 10 a.2.2 ++ ")".toList

/-- The text of the operations on the image: see `Images` (vmoe/configs/vmoe_paper/pretrain_imagenet21k.py:49-51,60-62,
vmoe/configs/vmoe_paper/vmoe_b16_imagenet21k_randaug_strong_ft_ilsvrc2012.py:49,56,
vmoe/configs/vmoe_paper/vmoe_b16_imagenet21k_randaug_strong_ft_cifar10.py:49, vmoe/configs/common_fewshot.py:44-45). -/
def Images.text : Images → Str
  | .train s randaug => "decode_jpeg_and_inception_crop(".toList ++ Nat.toDigits 10 s ++ ")|flip_lr".toList ++ match randaug with
    | some a => "|".toList ++ randaugText a
    | none => []
  | .trainSmall s => "decode|inception_crop(".toList ++ Nat.toDigits 10 s ++ ")|flip_lr".toList
  | .resize s => "decode|resize(".toList ++ Nat.toDigits 10 s ++ ")".toList
  | .smallCrop hi lo => "decode|resize_small(".toList ++ Nat.toDigits 10 hi ++ ")|central_crop(".toList ++ Nat.toDigits 10 lo ++ ")".toList
  | .resizeCrop r t => "decode|resize(".toList ++ Nat.toDigits 10 r ++ ")|central_crop(".toList ++ Nat.toDigits 10 t ++ ")".toList

/-- The other operations in the configurations: the label under `label`, the labels under `real_label` without and with a mask for
images without labels, and the labels under `labels`.

* `label`: vmoe/configs/vmoe_paper/vmoe_b16_imagenet21k_randaug_strong_ft_ilsvrc2012.py:44 and others;
* `realLabel`: vmoe/configs/vmoe_paper/vmoe_b16_imagenet21k_randaug_strong_ft_ilsvrc2012.py:70-72,
  vmoe/configs/vmoe_paper/vmoe_s32_last2_ilsvrc2012_randaug_light1.py:68-70,
  vmoe/projects/adversarial_attacks/configs/common.py:68-70;
* `maskedRealLabel`: vmoe/projects/soft_moe/configs/common.py:143;
* `labels`: vmoe/configs/vmoe_paper/pretrain_imagenet21k.py:44, vmoe/projects/soft_moe/configs/pretrain_jft4b.py:32. -/
inductive Labels where
  | label
  | realLabel
  | maskedRealLabel
  | labels
  deriving DecidableEq

/-- `value_range(-1,1)|onehot(...)|keep("image", "labels")` with the given key
(vmoe/configs/vmoe_paper/vmoe_b16_imagenet21k_randaug_strong_ft_ilsvrc2012.py:44,70-72,
vmoe/projects/soft_moe/configs/common.py:140). -/
def commonText (key : Str) (classes : Nat) : Str :=
  "value_range(-1,1)|onehot(".toList ++ Nat.toDigits 10 classes ++ ", inkey=\"".toList ++ key ++
    "\", outkey=\"labels\")|keep(\"image\", \"labels\")".toList

/-- The text of the other operations: see `Labels` (vmoe/configs/vmoe_paper/vmoe_b16_imagenet21k_randaug_strong_ft_ilsvrc2012.py:44,70-72,
vmoe/projects/soft_moe/configs/common.py:140-143, vmoe/configs/vmoe_paper/pretrain_imagenet21k.py:44). -/
def Labels.text (classes : Nat) : Labels → Str
  | .label => commonText "label".toList classes
  | .realLabel => commonText "real_label".toList classes
  | .maskedRealLabel => "ignore_no_labels(labels_key=\"real_label\")|".toList ++ commonText "real_label".toList classes
  | .labels => "value_range(-1,1)|onehot(".toList ++ Nat.toDigits 10 classes ++ ")|keep(\"image\", \"labels\")".toList

/-- A processing string of a configuration (vmoe/configs/vmoe_paper/vmoe_b16_imagenet21k_randaug_strong_ft_ilsvrc2012.py:49,56,63,78). -/
def processText (i : Images) (l : Labels) (classes : Nat) : Str := i.text ++ '|' :: l.text classes

/-- The processing string of the few-shot evaluation (vmoe/configs/common_fewshot.py:44-46). -/
def fewshotText (r t : Nat) : Str :=
  (Images.resizeCrop r t).text ++ "|value_range(-1, 1)|keep(\"image\", \"label\")".toList

end Verif.ProcessText
