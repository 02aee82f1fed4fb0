import Verif.Model.RegexSub
import Verif.Model.RulesParse
import Verif.Model.InitVmoe

/-!
How the fine-tuning configurations start from released checkpoints: their rules
(vmoe/configs/vmoe_paper/vmoe_b16_imagenet21k_randaug_strong_ft_ilsvrc2012.py:90-106,
vmoe/configs/vmoe_paper/vmoe_b16_imagenet21k_randaug_strong_ft_cifar10.py:75-91,
vmoe/configs/vmoe_paper/vmoe_s32_last2_ilsvrc2012_randaug_light1_ft_ilsvrc2012.py:82-100,
vmoe/configs/eee_paper/eee_s32_last2_ilsvrc2012_ft_cifar100.py:88-106), with the rules and patterns as they are modelled in
`RulesParse` and `RegexSub`.
-/

namespace Verif.FineTune

open Verif FlatDict Mapping RulesParse Regex

/-- A rule as a tuple of strings (vmoe/configs/vmoe_paper/vmoe_b16_imagenet21k_randaug_strong_ft_ilsvrc2012.py:94-99). -/
def rule (items : List String) : Raw Re := .items (items.map fun s => .str s.toList)

/-- The configurations: V-MoE-B/16 on two datasets with the same rules, V-MoE-S/32, and ensembles of experts
(vmoe/configs/vmoe_paper/vmoe_b16_imagenet21k_randaug_strong_ft_ilsvrc2012.py:90,
vmoe/configs/vmoe_paper/vmoe_b16_imagenet21k_randaug_strong_ft_cifar10.py:75,
vmoe/configs/vmoe_paper/vmoe_s32_last2_ilsvrc2012_randaug_light1_ft_ilsvrc2012.py:82,
vmoe/configs/eee_paper/eee_s32_last2_ilsvrc2012_ft_cifar100.py:88). -/
inductive Run where
  | b16Ilsvrc2012
  | b16Cifar10
  | s32
  | eee
  deriving DecidableEq

/-- `config.initialization.rules` (vmoe/configs/vmoe_paper/vmoe_b16_imagenet21k_randaug_strong_ft_ilsvrc2012.py:93-100,
vmoe/configs/vmoe_paper/vmoe_b16_imagenet21k_randaug_strong_ft_cifar10.py:78-85,
vmoe/configs/vmoe_paper/vmoe_s32_last2_ilsvrc2012_randaug_light1_ft_ilsvrc2012.py:86-94,
vmoe/configs/eee_paper/eee_s32_last2_ilsvrc2012_ft_cifar100.py:91-100). -/
def rules : Run → List (Raw Re)
  | .b16Ilsvrc2012 =>
    [rule ["head", ""],
     rule ["^(.*/pos_embedding)$", "params/\\1", "vit_zoom"],
     rule ["^(.*)$", "params/\\1"]]
  | .b16Cifar10 =>
    [rule ["head", ""],
     rule ["^(.*/pos_embedding)$", "params/\\1", "vit_zoom"],
     rule ["^(.*)$", "params/\\1"]]
  | .s32 =>
    [rule ["head", ""],
     rule ["pre_logits/.*", ""],
     rule ["^(.*/pos_embedding)$", "params/\\1", "vit_zoom"],
     rule ["^(.*)$", "params/\\1"]]
  | .eee =>
    [rule ["head", ""],
     rule ["^(.*/pos_embedding)$", "params/\\1", "vit_zoom"],
     rule ["^(.*/Moe/Router/dense/.*)$", "params/\\1", "reshape"],
     rule ["^(.*)$", "params/\\1"]]

/-- The flags of the configurations; the others have their default values
(vmoe/configs/vmoe_paper/vmoe_b16_imagenet21k_randaug_strong_ft_ilsvrc2012.py:103,
vmoe/configs/vmoe_paper/vmoe_b16_imagenet21k_randaug_strong_ft_cifar10.py:88,
vmoe/configs/vmoe_paper/vmoe_s32_last2_ilsvrc2012_randaug_light1_ft_ilsvrc2012.py:97,
vmoe/configs/eee_paper/eee_s32_last2_ilsvrc2012_ft_cifar100.py:103). -/
def flags : Flags := { raiseTarget := false }

/-- `pattern.sub(replacement, key)` where it does not raise (vmoe/initialization/rules.py:146); the name itself otherwise. -/
def subName (t : Re) (replacement key : Key) : Key :=
  match RegexSub.sub t replacement key with
  | .ok k => k
  | .error _ => key

variable {D α : Type}

/-- `map_state_dict` with the rules of a configuration, from the arrays of a checkpoint (vmoe/initialization/mapping.py:86-104). -/
def restore [DecidableEq D] (env : Env D α) (run : Run) (source target : List (Key × FlatDict.Tree (Arr D α))) :
    Except PyErr (FlatDict.Tree (Arr D α)) :=
  mapRaw env RegexSub.compileRule RegexSub.search subName (rules run) flags source target

/-- `initialize_from_vmoe` as the configurations call it (vmoe/train/trainer.py:426-433,526-528,
vmoe/initialization/initialization.py:205-267).  The rules are read after the arrays. -/
def start [DecidableEq D] (env : Env D α) (zero : α) (run : Run) (sh : InitVmoe.Sharding α)
    (files : List (Ckpt.ProcessOutput α)) (index : InitVmoe.IndexFile D)
    (target : List (Key × FlatDict.Tree (Arr D α))) : Except PyErr (FlatDict.Tree (Arr D α)) := do
  if index.version = none ∧ !InitVmoe.sameStructure target index.index then throw .valueError
  let ckpt ← InitVmoe.restoreTree zero sh files index
  restore env run ckpt target

end Verif.FineTune
