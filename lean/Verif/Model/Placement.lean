import Verif.Model.Layout

/-! The device that holds each expert: the mesh of the configurations and the blocks of the arrays on its devices. -/

namespace Verif.Placement

open Verif Partitioning Layout

variable {α : Type}

/-- `config.num_expert_partitions` for models without experts and with this number of experts
(vmoe/projects/soft_moe/configs/pretrain_jft4b.py:107,110, vmoe/projects/soft_moe/configs/pretrain_laion.py:163,166,
vmoe/configs/vmoe_paper/pretrain_imagenet21k.py:80, vmoe/configs/vmoe_paper/vmoe_s32_last2_ilsvrc2012_randaug_light1.py:86,
vmoe/configs/vmoe_paper/vmoe_b16_imagenet21k_randaug_strong_ft_ilsvrc2012.py:123,
vmoe/configs/vmoe_paper/vmoe_b16_imagenet21k_randaug_strong_ft_cifar10.py:108,
vmoe/configs/vmoe_paper/vmoe_s32_last2_ilsvrc2012_randaug_light1_ft_ilsvrc2012.py:117,
vmoe/configs/eee_paper/eee_s32_last2_ilsvrc2012_ft_cifar100.py:170, vmoe/projects/adversarial_attacks/configs/attack/ilsvrc2012.py:95). -/
def numExpertPartitions (numExperts : Option Nat) : Nat := numExperts.getD 1

/-- `create_mesh` (vmoe/projects/adversarial_attacks/restore.py:55-64); `devices` are `jax.devices()`, whose number is
`jax.device_count()`. -/
def createMesh (tpu : Bool) (proc : α → Nat) (coords : α → List Nat) (localCoords : List (List Nat)) (numExpertPartitions : Nat)
    (devices : List α) : Except PyErr (NdArray (Option α)) :=
  let n := if numExpertPartitions > devices.length then devices.length else numExpertPartitions
  getAutoLogicalMesh tpu proc coords localCoords n devices

/-- The entry of a list of numbers that belongs to an axis of `Mesh(devices, ('expert', 'replica'))` (vmoe/partitioning.py:270,306):
of the shape the size of the axis, of a position the coordinate.  Simplified: other names, which JAX refuses, have the entry 0. -/
def onAxis (l : List Nat) (name : List Char) : Nat :=
  if name = "expert".toList then l.getD 0 0 else if name = "replica".toList then l.getD 1 0 else 0

/-- Which block of a dimension is on the device at a position of the mesh (vmoe/train/trainer.py:402).  Simplified: this is
`NamedSharding` of JAX, an external library. -/
def blockIndex (shape pos : List Nat) : SpecElem → Nat
  | .none => 0
  | .axis a => onAxis pos a
  | .axes as => as.foldl (fun k a => k * onAxis shape a + onAxis pos a) 0

/-- The slices `start:stop` of an array on the device at a position of the mesh, `NamedSharding(mesh, spec).devices_indices_map`
(vmoe/train/trainer.py:401-407).  Simplified as `blockIndex`; only for arrays that can be placed, see `Layout.shardShape`. -/
def slices (shape pos : List Nat) : List SpecElem → List Nat → List (Nat × Nat)
  | [], dims => dims.map fun n => (0, n)
  | _ :: _, [] => []
  | s :: spec, n :: dims =>
    let size := n / pieces (onAxis shape) s
    (blockIndex shape pos s * size, (blockIndex shape pos s + 1) * size) :: slices shape pos spec dims

end Verif.Placement
