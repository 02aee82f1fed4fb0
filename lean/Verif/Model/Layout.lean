import Verif.Model.Partitioning
import Verif.Model.RegexSub

/-! The layout of the train state over the devices, with the rules of the configurations. -/

namespace Verif.Layout

open Verif FlatDict Partitioning

/-- `config.params_axis_resources` for models without and with experts (vmoe/projects/soft_moe/configs/pretrain_jft4b.py:108,111,
vmoe/projects/soft_moe/configs/pretrain_laion.py:164,167, vmoe/configs/vmoe_paper/pretrain_imagenet21k.py:81,
vmoe/configs/vmoe_paper/vmoe_s32_last2_ilsvrc2012_randaug_light1.py:87,
vmoe/configs/vmoe_paper/vmoe_b16_imagenet21k_randaug_strong_ft_ilsvrc2012.py:105,127,
vmoe/configs/vmoe_paper/vmoe_b16_imagenet21k_randaug_strong_ft_cifar10.py:90,112,
vmoe/configs/vmoe_paper/vmoe_s32_last2_ilsvrc2012_randaug_light1_ft_ilsvrc2012.py:99,121,
vmoe/configs/eee_paper/eee_s32_last2_ilsvrc2012_ft_cifar100.py:105,174,
vmoe/projects/adversarial_attacks/configs/attack/ilsvrc2012.py:96). -/
def axisResources (experts : Bool) : List (List Char × UnparsedSpec) :=
  if experts then [("Moe/Mlp/.*".toList, .tuple [.axis "expert".toList])] else []

/-- `tree_axis_resources_from_regexes` (vmoe/partitioning.py:359-421), with its patterns compiled (lines 397-399); `RegexSub` has
the syntax of patterns that is modelled. -/
def layout (tree : List (Key × FlatDict.Tree (List Nat))) (regexes : List (List Char × UnparsedSpec)) :
    Except PyErr (FlatDict.Tree (List SpecElem)) := do
  let compiled ← regexes.mapM fun rs => do
    let r ← RegexSub.compileRule rs.1
    return (r, rs.2)
  treeAxisResourcesFromRegexes RegexSub.search tree compiled

/-- The number of pieces of one dimension (vmoe/train/trainer.py:402): the sizes of the axes of the mesh. -/
def pieces (mesh : List Char → Nat) : SpecElem → Nat
  | .none => 1
  | .axis a => mesh a
  | .axes as => (as.map mesh).prod

/-- The shape of the part of an array on each device, `NamedSharding(mesh, spec).shard_shape(shape)` (vmoe/train/trainer.py:401-407):
the sharded dimensions must exist and be divisible. Simplified: JAX's own function is an external library; only the division of
the dimensions and its `ValueError` are kept. -/
def shardShape (mesh : List Char → Nat) : List SpecElem → List Nat → Except PyErr (List Nat)
  | [], shape => .ok shape
  | _ :: _, [] => .error .valueError
  | s :: spec, n :: shape =>
    if n % pieces mesh s = 0 then do
      let rest ← shardShape mesh spec shape
      return n / pieces mesh s :: rest
    else .error .valueError

end Verif.Layout
