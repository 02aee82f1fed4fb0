import Verif.Model.Mapping
import Verif.Model.Partitioned

/-!
Saving a tree of arrays, and initializing a model from such a checkpoint
(vmoe/checkpoints/partitioned.py:127-212,417-512, vmoe/initialization/initialization.py:205-267).  Trees are nested dicts;
JAX visits dicts by sorted key.  Shardings are given by the regions of the devices of each process for each array.
-/

namespace Verif.InitVmoe

open Verif FlatDict

variable {V W D α : Type}

mutual
/-- The tree with all dicts sorted by key, the order of `jax.tree_util` (used in vmoe/checkpoints/partitioned.py:165,428). -/
def sortTree : FlatDict.Tree V → FlatDict.Tree V
  | .leaf v => .leaf v
  | .node l => .node ((sortSub l).mergeSort fun a b => decide (a.1 ≤ b.1))
/-- The same for the values of a dict (used in vmoe/checkpoints/partitioned.py:165,428). -/
def sortSub : List (Key × FlatDict.Tree V) → List (Key × FlatDict.Tree V)
  | [] => []
  | (k, t) :: l => (k, sortTree t) :: sortSub l
end

mutual
/-- The leaves in the order of the dicts (used in vmoe/checkpoints/partitioned.py:165,428). -/
def leavesAt : FlatDict.Tree V → List V
  | .leaf v => [v]
  | .node l => leavesOf l
/-- The same for the items of a dict (used in vmoe/checkpoints/partitioned.py:165,428). -/
def leavesOf : List (Key × FlatDict.Tree V) → List V
  | [] => []
  | (_, t) :: l => leavesAt t ++ leavesOf l
end

mutual
/-- Puts values in the places of the leaves, in order; the values that remain (used in
vmoe/checkpoints/partitioned.py:250,478). -/
def fillAt : FlatDict.Tree V → List W → Except PyErr (FlatDict.Tree W × List W)
  | .leaf _, [] => .error .valueError
  | .leaf _, w :: ws => .ok (.leaf w, ws)
  | .node l, ws => do
    let (l, ws) ← fillOf l ws
    return (.node l, ws)
/-- The same for the items of a dict (used in vmoe/checkpoints/partitioned.py:250,478). -/
def fillOf : List (Key × FlatDict.Tree V) → List W → Except PyErr (List (Key × FlatDict.Tree W) × List W)
  | [], ws => .ok ([], ws)
  | (k, t) :: l, ws => do
    let (t, ws) ← fillAt t ws
    let (l, ws) ← fillOf l ws
    return ((k, t) :: l, ws)
end

/-- A dict sorted by key at all levels, the structure of `tree_flatten` (vmoe/checkpoints/partitioned.py:165,428). -/
def sortItems (l : List (Key × FlatDict.Tree V)) : List (Key × FlatDict.Tree V) :=
  (sortSub l).mergeSort fun a b => decide (a.1 ≤ b.1)

/-- The leaves of `tree_flatten` (vmoe/checkpoints/partitioned.py:165,428). -/
def leaves (l : List (Key × FlatDict.Tree V)) : List V := leavesOf (sortItems l)

/-- `struct.unflatten(values)` for the structure of the dict `l`; ValueError for a wrong number of values
(vmoe/checkpoints/partitioned.py:250,478). -/
def unflatten (l : List (Key × FlatDict.Tree V)) (values : List W) : Except PyErr (List (Key × FlatDict.Tree W)) := do
  let (l, rest) ← fillOf (sortItems l) values
  if rest.isEmpty then return l else throw .valueError

mutual
/-- Equality of structures (used in vmoe/initialization/initialization.py:245-246). -/
def sameAt : FlatDict.Tree V → FlatDict.Tree W → Bool
  | .leaf _, .leaf _ => true
  | .node l, .node m => sameOf l m
  | _, _ => false
/-- The same for the items of two dicts (used in vmoe/initialization/initialization.py:245-246). -/
def sameOf : List (Key × FlatDict.Tree V) → List (Key × FlatDict.Tree W) → Bool
  | [], [] => true
  | (k, t) :: l, (k', t') :: m => decide (k = k') && sameAt t t' && sameOf l m
  | _, _ => false
end

/-- `tree_structure(a) == tree_structure(b)` (vmoe/initialization/initialization.py:245-246). -/
def sameStructure (a : List (Key × FlatDict.Tree V)) (b : List (Key × FlatDict.Tree W)) : Bool :=
  sameOf (sortItems a) (sortItems b)

/-- An array that is saved, with its type (vmoe/checkpoints/partitioned.py:165-166). -/
structure Saved (D α : Type) where
  dtype : D
  array : Ckpt.Leaf α

/-- `IndexInfo` with the type of the array (vmoe/checkpoints/types.py:181-194). -/
structure IndexLeaf (D : Type) where
  dtype : D
  info : Ckpt.IndexInfo

/-- The content of the index file (vmoe/checkpoints/partitioned.py:248-254). -/
structure IndexFile (D : Type) where
  version : Option Key
  shardCount : Nat
  index : List (Key × FlatDict.Tree (IndexLeaf D))

/-- `Version.V1.value` (vmoe/checkpoints/partitioned.py:86). -/
def v1 : Key := "20220622".toList

/-- `save_checkpoint` of a tree on process `p` (vmoe/checkpoints/partitioned.py:127-212): the data files and, on process 0,
the index. -/
def saveTree (processCount p : Nat) (numShards maxChunkBytes : Option Nat) (tree : List (Key × FlatDict.Tree (Saved D α))) :
    Except PyErr (Ckpt.ProcessOutput α × Option (IndexFile D)) := do
  let l := leaves tree
  let out ← Ckpt.saveProcess processCount p numShards maxChunkBytes (l.map Saved.array)
  match out.index with
  | none => return (out, none)
  | some (n, infos) => do
    let index ← unflatten tree (List.zipWith IndexLeaf.mk (l.map Saved.dtype) infos)
    return (out, some ⟨some v1, n, index⟩)

/-- If a position is in a region (used in vmoe/checkpoints/partitioned.py:473-474). -/
def inRegion : Ckpt.SliceNd → List Nat → Bool
  | [], [] => true
  | s :: ss, i :: is => decide (Ckpt.Slice.start s ≤ i) && decide (i < Ckpt.Slice.stop s) && inRegion ss is
  | _, _ => false

/-- The array of `jax.make_array_from_callback` (vmoe/checkpoints/partitioned.py:473-474): at each position, what the first
device with this position holds. -/
def assemble (zero : α) (shape : List Nat) (parts : List (Ckpt.Buffer α)) : NdArray α :=
  ⟨shape, fun idx => match parts.find? fun b => inRegion b.slice idx with
    | some b => b.data (List.zipWith (fun i s => i - Ckpt.Slice.start s) idx b.slice)
    | none => zero⟩

/-- How arrays are restored: the number of processes, the regions of the devices of a process for a leaf of the given shape
(the result of `axis_resources_regexes` and the mesh, vmoe/initialization/initialization.py:251-258), and the order in
which the threads of a process treat the chunks (vmoe/checkpoints/partitioned.py:466-469). -/
structure Sharding (α : Type) where
  processes : Nat
  devices : Nat → Nat → List Nat → List Ckpt.JaxIndex
  order : Nat → List (Ckpt.Chunk α) → List (Ckpt.Chunk α)

/-- `_restore_checkpoint_from_index` on process `p` up to the creation of the arrays
(vmoe/checkpoints/partitioned.py:417-469). -/
def restoreProcess (zero : α) (sh : Sharding α) (files : List (Ckpt.ProcessOutput α)) (infos : List Ckpt.IndexInfo)
    (p : Nat) :
    Except PyErr (Ckpt.Buffers α) := do
  let targets := infos.mapIdx fun i info => sh.devices p i info.shape
  let contents ← (Ckpt.shardsToRestore targets infos).mapM (Ckpt.readFile files)
  Ckpt.restoreBuffers zero targets infos (sh.order p contents.flatten)

/-- `_make_jax_array` (vmoe/checkpoints/partitioned.py:471-477): all processes contribute the buffers of their devices. -/
def makeArray (zero : α) (sh : Sharding α) (bufs : List (Ckpt.Buffers α)) (i : Nat) (l : IndexLeaf D) :
    Except PyErr (Mapping.Arr D α) := do
  let parts ← (List.range sh.processes).mapM fun p =>
    (sh.devices p i l.info.shape).mapM fun d => Ckpt.bufferFor (bufs.getD p []) i d l.info.shape
  return ⟨l.dtype, assemble zero l.info.shape parts.flatten, false⟩

/-- `restore_checkpoint` (vmoe/checkpoints/partitioned.py:89-124,417-478) with shardings for all arrays of the index.  Old
checkpoints have no version. -/
def restoreTree (zero : α) (sh : Sharding α) (files : List (Ckpt.ProcessOutput α)) (index : IndexFile D) :
    Except PyErr (List (Key × FlatDict.Tree (Mapping.Arr D α))) := do
  if index.version ≠ none ∧ index.version ≠ some v1 then throw .valueError
  let l := leaves index.index
  let bufs ← (List.range sh.processes).mapM (restoreProcess zero sh files (l.map IndexLeaf.info))
  let arrays ← (l.zipIdx).mapM fun li => makeArray zero sh bufs li.2 li.1
  unflatten index.index arrays

/-- `initialize_from_vmoe` (vmoe/initialization/initialization.py:205-267). -/
def initializeFromVmoe [DecidableEq D] (env : Mapping.Env D α) (zero : α) (rules : List Mapping.Rule) (flags : Mapping.Flags)
    (sh : Sharding α) (files : List (Ckpt.ProcessOutput α)) (index : IndexFile D)
    (target : List (Key × FlatDict.Tree (Mapping.Arr D α))) : Except PyErr (FlatDict.Tree (Mapping.Arr D α)) := do
  if index.version = none ∧ !sameStructure target index.index then throw .valueError
  let ckpt ← restoreTree zero sh files index
  Mapping.mapStateDict env rules flags ckpt target

end Verif.InitVmoe
