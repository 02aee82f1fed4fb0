import Verif.Model.Placement
import Verif.Model.MoeDispatch

/-! The layouts over the devices that are asked for while items go to the experts and back (vmoe/moe.py:481-519). -/

namespace Verif.ExchangeLayout

open Verif Partitioning

/-- `_convert_partition_spec` (vmoe/moe.py:481-485). -/
def convertPartitionSpec : UnparsedSpec → Option (List SpecElem)
  | .none => none
  | .parsed e => some e
  | .str s => some [.axis s]
  | .tuple e => some e

/-- `with_sharding_constraint` (vmoe/partitioning.py:424-429): the layout that is asked for, if any; `meshEmpty` is
`physical_mesh.empty`. -/
def withShardingConstraint (meshEmpty : Bool) (spec : Option (List SpecElem)) : Option (List SpecElem) :=
  if meshEmpty || spec.isNone then none else spec

/-- The shapes and layouts in `_dispatch` (vmoe/moe.py:488-500): before the exchange (line 492) and after it (lines 498-499).
Simplified: that XLA moves the data as asked for is not modelled. -/
def dispatchConstraints (meshEmpty : Bool) (spec : UnparsedSpec) (G E C : Nat) (item : List Nat) :
    List (List Nat × Option (List SpecElem)) :=
  let s := withShardingConstraint meshEmpty (convertPartitionSpec spec)
  [(G :: E :: C :: item, s), (E * (G * C) :: item, s)]

/-- The shapes and layouts in `_receive` (vmoe/moe.py:503-519): before the exchange (lines 509-510) and after it (line 518).
Simplified as `dispatchConstraints`. -/
def receiveConstraints (meshEmpty : Bool) (spec : UnparsedSpec) (G E C : Nat) (item : List Nat) :
    List (List Nat × Option (List SpecElem)) :=
  let s := withShardingConstraint meshEmpty (convertPartitionSpec spec)
  [(E * G :: C :: item, s), (G :: E :: C :: item, s)]

/-- `partition_spec` of the dispatchers of the configurations (vmoe/configs/vmoe_paper/common.py:252,
vmoe/configs/vmoe_paper/pretrain_imagenet21k.py:169, vmoe/configs/eee_paper/eee_s32_last2_ilsvrc2012_ft_cifar100.py:146,
vmoe/projects/soft_moe/configs/common.py:238,260, vmoe/projects/adversarial_attacks/configs/attack/ilsvrc2012.py:87). -/
def dispatcherSpec : UnparsedSpec := .tuple [.axes ["expert".toList, "replica".toList]]

/-- The layout of the reshaped images and labels with microsteps (vmoe/train/trainer.py:104-108), of `batch` images of shape `rest`
each. -/
def microstepConstraint (batch microsteps : Nat) (rest : List Nat) : List Nat × List SpecElem :=
  (batch / microsteps :: microsteps :: rest, [.axes ["expert".toList, "replica".toList]])

end Verif.ExchangeLayout
