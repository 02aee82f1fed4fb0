import Verif.Model.InitVmoe
import Verif.Model.Partitioning

/-!
Restoring the parameters of a model to attack it (vmoe/projects/adversarial_attacks/restore.py:154-172), from a checkpoint
with the parameters (vmoe/checkpoints/partitioned.py:498-512).  The module is built as in `AttackModel`; here its variables
are given by their shapes (restore.py:152).
-/

namespace Verif.AttackRestore

open Verif FlatDict

variable {D α : Type}

/-- The name of the collection of the parameters (vmoe/projects/adversarial_attacks/restore.py:165,168). -/
def params : Key := "params".toList

/-- `tree[name]` of a dict of collections; KeyError if there is none (vmoe/projects/adversarial_attacks/restore.py:168).
A collection that is a leaf does not occur in FLAX; it is an AttributeError here. -/
def collection {V : Type} (tree : List (Key × FlatDict.Tree V)) (name : Key) : Except PyErr (List (Key × FlatDict.Tree V)) :=
  match PyDict.get? tree name with
  | none => .error .keyError
  | some (.leaf _) => .error .attributeError
  | some (.node l) => .ok l

/-- `_restore_checkpoint_from_index_v1` with a target tree (vmoe/checkpoints/partitioned.py:498-512, and the comparison of
the structures in 428-433).  `sh` are the shardings of the target's leaves, in the order of `tree_flatten`.  Checkpoints
without version go through another function (482-495), which is not modelled here: as in `InitVmoe.initializeFromVmoe` they
also need the structure of the target. -/
def restoreInto {V : Type} (zero : α) (sh : InitVmoe.Sharding α) (files : List (Ckpt.ProcessOutput α))
    (index : InitVmoe.IndexFile D) (target : List (Key × FlatDict.Tree V)) :
    Except PyErr (FlatDict.Tree (Mapping.Arr D α)) := do
  if !InitVmoe.sameStructure index.index target then throw .valueError
  let state ← InitVmoe.restoreTree zero sh files index
  Partitioning.fromStateDict (.node target) (.node state)

/-- The part of `restore_from_config` that finds the axis resources of the variables and restores the parameters
(vmoe/projects/adversarial_attacks/restore.py:154-169).  `sharding` gives the regions of the devices of the mesh for the
partition specs of the parameters (158-162).  The result: the axis resources of all variables, and the variables. -/
def restoreVariables {R : Type} (zero : α) (search : R → List Char → Bool)
    (sharding : List (List Partitioning.SpecElem) → InitVmoe.Sharding α)
    (regexes : List (R × Partitioning.UnparsedSpec)) (files : List (Ckpt.ProcessOutput α)) (index : InitVmoe.IndexFile D)
    (shapes : List (Key × FlatDict.Tree (List Nat))) :
    Except PyErr (FlatDict.Tree (List Partitioning.SpecElem) × List (Key × FlatDict.Tree (Mapping.Arr D α))) := do
  let resources ← Partitioning.treeAxisResourcesFromRegexes search shapes regexes
  let specs ← match resources with
    | .leaf _ => .error .attributeError
    | .node l => collection l params
  let target ← collection shapes params
  let restored ← restoreInto zero (sharding (InitVmoe.leaves specs)) files index target
  return (resources, [(params, restored)])

end Verif.AttackRestore
