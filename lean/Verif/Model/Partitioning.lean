import Verif.Model.NdArray
import Verif.Model.PyDict
import Verif.Model.FlatDict

/-!
vmoe/partitioning.py: hardware and logical meshes, and the partitioning rules of parameter trees.

Devices are an arbitrary type with a process index.  All sizes are natural numbers (negative sizes, which NumPy
treats specially, are not modelled), and products do not overflow.  The `Mesh` object is its array of devices.
-/

namespace Verif.Partitioning

open Verif

variable {α : Type}

/-- All indices of an array in row-major order, as `np.nonzero` visits them (vmoe/partitioning.py:100). -/
def allIndices (shape : List Nat) : List (List Nat) :=
  (List.range shape.prod).map (NdArray.unflatIndex shape)

/-- The smallest value of a row: `np.min(..., axis=1)` (vmoe/partitioning.py:104); raises on an empty row. -/
def rowMin : List Nat → Except PyErr Nat
  | [] => .error .valueError
  | x :: xs => .ok (xs.foldl min x)

/-- The largest value of a row: `np.max(..., axis=1)` (vmoe/partitioning.py:105); raises on an empty row. -/
def rowMax : List Nat → Except PyErr Nat
  | [] => .error .valueError
  | x :: xs => .ok (xs.foldl max x)

/-- `idx` lies in the slices `slice(i, j + 1)` of every axis (vmoe/partitioning.py:103-105). -/
def inSlices (lo hi idx : List Nat) : Bool :=
  (List.range idx.length).all fun a => lo.getD a 0 ≤ idx.getD a 0 && idx.getD a 0 < hi.getD a 0 + 1

/-- `process_has_contiguous_device_slice` (vmoe/partitioning.py:93-106) for arrays with at least one axis. -/
def processHasContiguousDeviceSlice (proc : α → Nat) (devices : NdArray α) (process : Nat) : Except PyErr Bool := do
  let isLocal := fun idx => proc (devices.get idx) == process
  let localIndices := (allIndices devices.shape).filter isLocal
  let rows := (List.range devices.shape.length).map fun a => localIndices.map fun idx => idx.getD a 0
  let lo ← rows.mapM rowMin
  let hi ← rows.mapM rowMax
  return ((allIndices devices.shape).filter (inSlices lo hi)).all isLocal

/-- `all(...)` over the processes, in the order of the list (vmoe/partitioning.py:112-114). -/
def allProcesses (proc : α → Nat) (devices : NdArray α) : List Nat → Except PyErr Bool
  | [] => .ok true
  | p :: ps => do
    let b ← processHasContiguousDeviceSlice proc devices p
    if b then allProcesses proc devices ps else return false

/-- `processes_have_contiguous_device_slices` (vmoe/partitioning.py:109-114).  The set of process indices is visited in
order of first occurrence. -/
def processesHaveContiguousDeviceSlices (proc : α → Nat) (devices : NdArray α) : Except PyErr Bool :=
  allProcesses proc devices ((allIndices devices.shape).map fun idx => proc (devices.get idx)).dedup

/-- `functools.reduce(lambda a, b: a + b, tuples)` (vmoe/partitioning.py:261,292); raises without tuples. -/
def reduceConcat : List (List Nat) → Except PyErr (List Nat)
  | [] => .error .typeError
  | ls => .ok ls.flatten

/-- `tuple(range(start, step * ndim, step))` for `start < step` (vmoe/partitioning.py:264-265,298-301). -/
def strided (start step ndim : Nat) : List Nat := (List.range ndim).map fun i => start + step * i

/-- `get_logical_mesh_default` (vmoe/partitioning.py:253-270). -/
def getLogicalMeshDefault (partitions replicas : List Nat) (hardwareMesh : NdArray α) :
    Except PyErr (NdArray α) := do
  let shape ← reduceConcat ((partitions.zip replicas).map fun pr => [pr.1, pr.2])
  let devices ← hardwareMesh.reshape (shape.map some)
  let ndim := hardwareMesh.shape.length
  let devices ← devices.transpose (strided 0 2 ndim ++ strided 1 2 ndim)
  devices.reshape [some partitions.prod, some replicas.prod]

/-- `fn` of `get_logical_mesh_tile_by_process` (vmoe/partitioning.py:282-291); `p % 0` raises. -/
def tileFn (p r l : Nat) : Except PyErr (List Nat) :=
  if l = 0 then .error .zeroDivisionError
  else if p % l = 0 then .ok [p / l, l, r, 1]
  else if r % l = 0 then .ok [1, p, r / l, l]
  else .error .valueError

/-- `get_logical_mesh_tile_by_process` (vmoe/partitioning.py:273-306). -/
def getLogicalMeshTileByProcess (partitions replicas : List Nat) (hardwareMesh : NdArray α)
    (localShape : List Nat) : Except PyErr (NdArray α) := do
  let tiles ← ((partitions.zip replicas).zip localShape).mapM fun prl => tileFn prl.1.1 prl.1.2 prl.2
  let shape ← reduceConcat tiles
  let devices ← hardwareMesh.reshape (shape.map some)
  let ndim := hardwareMesh.shape.length
  let devices ← devices.transpose
    (strided 0 4 ndim ++ strided 1 4 ndim ++ strided 2 4 ndim ++ strided 3 4 ndim)
  devices.reshape [some partitions.prod, some replicas.prod]

/-- `s // p` for one axis (vmoe/partitioning.py:238). -/
def floorDiv (s p : Nat) : Except PyErr Nat := if p = 0 then .error .zeroDivisionError else .ok (s / p)

/-- `get_hardware_mesh_local_shape` on the coordinates of the local devices (vmoe/partitioning.py:206-210): the number
of different coordinates on each axis. -/
def hardwareMeshLocalShape (coords : List (List Nat)) : List Nat :=
  match coords with
  | [] => []
  | c :: _ => (List.range c.length).map fun a => (coords.map fun x => x.getD a 0).dedup.length

/-- `get_logical_mesh` (vmoe/partitioning.py:233-250).  `localCoords` are the coordinates of `jax.local_devices()`.
The division by a zero partition happens before `zip` notices different lengths, if it comes first. -/
def getLogicalMesh (proc : α → Nat) (localCoords : List (List Nat)) (partitions : List Nat)
    (hardwareMesh : NdArray α) : Except PyErr (NdArray α) := do
  let replicas ← (partitions.zip hardwareMesh.shape).mapM fun ps => floorDiv ps.2 ps.1
  if partitions.length ≠ hardwareMesh.shape.length then .error .valueError else
  let replicas := replicas.reverse
  let partitions := partitions.reverse
  let hardwareMesh ← hardwareMesh.transpose (List.range hardwareMesh.shape.length).reverse
  let logicalMesh ← getLogicalMeshDefault partitions replicas hardwareMesh
  let contiguous ← processesHaveContiguousDeviceSlices proc logicalMesh
  if contiguous then return logicalMesh
  else getLogicalMeshTileByProcess partitions replicas hardwareMesh (hardwareMeshLocalShape localCoords).reverse

/-- The choice of the partition shape in `get_auto_logical_mesh_other` (vmoe/partitioning.py:139-150). -/
def autoPartitionsOther (numPartitions : Nat) (shape : List Nat) : Except PyErr (List Nat) :=
  match shape with
  | [sd, sh] => do
    let d := min numPartitions sd
    let q ← floorDiv numPartitions d
    let h := min q sh
    if d * h ≠ numPartitions ∨ sd % d ≠ 0 ∨ sh % h ≠ 0 then .error .valueError
    else return [d, h]
  | _ => .error .assertionError

/-- `get_auto_logical_mesh_other` (vmoe/partitioning.py:136-151).  A modulo by `h = 0` cannot happen when the sizes of
the mesh are positive, which is what is modelled. -/
def getAutoLogicalMeshOther (proc : α → Nat) (localCoords : List (List Nat)) (numPartitions : Nat)
    (hardwareMesh : NdArray α) : Except PyErr (NdArray α) := do
  let partitions ← autoPartitionsOther numPartitions hardwareMesh.shape
  getLogicalMesh proc localCoords partitions hardwareMesh

/-- The choice of the partition shape in `get_auto_logical_mesh_tpu` (vmoe/partitioning.py:157-180). -/
def autoPartitionsTpu (numPartitions : Nat) (shape : List Nat) : Except PyErr (List Nat) :=
  match shape with
  | [sc, sx, sy, sz] => do
    if sz = 1 then
      let z := 1
      let x := min numPartitions sx
      let q ← floorDiv numPartitions x
      let y := min q sy
      let q ← floorDiv numPartitions (x * y)
      let c := min q sc
      if c * x * y * z ≠ numPartitions ∨ sc % c ≠ 0 ∨ sx % x ≠ 0 ∨ sy % y ≠ 0 ∨ sz % z ≠ 0 then .error .valueError
      else return [c, x, y, z]
    else
      let z := min numPartitions sz
      let q ← floorDiv numPartitions z
      let y := min q sy
      let q ← floorDiv numPartitions (z * y)
      let x := min q sx
      let q ← floorDiv numPartitions (z * y * x)
      let c := min q sc
      if c * x * y * z ≠ numPartitions ∨ sc % c ≠ 0 ∨ sx % x ≠ 0 ∨ sy % y ≠ 0 ∨ sz % z ≠ 0 then .error .valueError
      else return [c, x, y, z]
  | _ => .error .assertionError

/-- `get_auto_logical_mesh_tpu` (vmoe/partitioning.py:154-181). -/
def getAutoLogicalMeshTpu (proc : α → Nat) (localCoords : List (List Nat)) (numPartitions : Nat)
    (hardwareMesh : NdArray α) : Except PyErr (NdArray α) := do
  let partitions ← autoPartitionsTpu numPartitions hardwareMesh.shape
  getLogicalMesh proc localCoords partitions hardwareMesh

/-- Comparison of tuples, as used by `sorted` (vmoe/partitioning.py:216,226). -/
def lexLt : List Nat → List Nat → Bool
  | [], [] => false
  | [], _ :: _ => true
  | _ :: _, [] => false
  | x :: xs, y :: ys => x < y || (x == y && lexLt xs ys)

/-- `sorted(keys)[-1]` (vmoe/partitioning.py:216,226): the largest tuple; raises without keys. -/
def lastSorted : List (List Nat) → Except PyErr (List Nat)
  | [] => .error .indexError
  | c :: cs => .ok (cs.foldl (fun m x => if lexLt m x then x else m) c)

/-- The assignments `mesh[coords] = device` (vmoe/partitioning.py:218-219,228-229); `IndexError` out of bounds. -/
def fillMesh (mesh : NdArray (Option α)) : List (List Nat × α) → Except PyErr (NdArray (Option α))
  | [] => .ok mesh
  | (c, device) :: rest =>
    if c.length = mesh.shape.length ∧ (List.range c.length).all (fun a => c.getD a 0 < mesh.shape.getD a 0) then
      fillMesh { mesh with get := fun idx => if idx = c then some device else mesh.get idx } rest
    else .error .indexError

/-- `get_hardware_mesh_other` and `get_hardware_mesh_tpu` (vmoe/partitioning.py:213-220, 223-230), for a function
giving the coordinates of a device: entries nobody assigned are `None`. -/
def getHardwareMesh (coords : α → List Nat) (devices : List α) : Except PyErr (NdArray (Option α)) := do
  let meshDict := PyDict.ofItems (devices.map fun d => (coords d, d))
  let last ← lastSorted (PyDict.keys meshDict)
  fillMesh { shape := last.map (· + 1), get := fun _ => none } meshDict

/-- `get_device_coords_other` (vmoe/partitioning.py:191-193) for a device with this id and process index. -/
def getDeviceCoordsOther (localDeviceCount id processIndex : Nat) : List Nat := [id % localDeviceCount, processIndex]

/-- The number of partitions is reduced to the number of devices (vmoe/partitioning.py:122-127). -/
def capPartitions (numPartitions numDevices : Nat) : Nat :=
  if numPartitions > numDevices then numDevices else numPartitions

/-- `get_auto_logical_mesh` (vmoe/partitioning.py:117-133).  `coords` is `get_device_coords` for the platform; entries of
the hardware mesh that no device has are `None`, and `None.process_index` raises `AttributeError` (in the code this
happens later, in the contiguity check). -/
def getAutoLogicalMesh (tpu : Bool) (proc : α → Nat) (coords : α → List Nat) (localCoords : List (List Nat))
    (numPartitions : Nat) (devices : List α) : Except PyErr (NdArray (Option α)) := do
  let n := capPartitions numPartitions devices.length
  let hardwareMesh ← getHardwareMesh coords devices
  if (allIndices hardwareMesh.shape).any (fun idx => (hardwareMesh.get idx).isNone) then .error .attributeError else
  let proc' := fun o : Option α => (o.map proc).getD 0
  if tpu then getAutoLogicalMeshTpu proc' localCoords n hardwareMesh
  else getAutoLogicalMeshOther proc' localCoords n hardwareMesh

/-- One element of a partition spec: `None`, a mesh axis or a tuple of mesh axes (vmoe/partitioning.py:83). -/
inductive SpecElem where
  | none
  | axis (name : List Char)
  | axes (names : List (List Char))
  deriving DecidableEq, Repr

/-- What is written in a config for one rule (vmoe/partitioning.py:83, 309-315). -/
inductive UnparsedSpec where
  | none
  | str (s : List Char)
  | tuple (elems : List SpecElem)
  | parsed (elems : List SpecElem)

/-- `parse_partition_spec` (vmoe/partitioning.py:309-315). -/
def parsePartitionSpec : UnparsedSpec → List SpecElem
  | .parsed e => e
  | .none => []
  | .str s => if s = [] then [] else [.axis s]
  | .tuple e => e

/-- The loop of `search_partition_spec` over the rules (vmoe/partitioning.py:404-407).  `search rule key` is
`regex.search(key)`; `size` is `np.prod(value.shape)`. -/
def searchRules {R : Type} (search : R → List Char → Bool) (key : List Char) (size : Nat) :
    List (R × List SpecElem) → List SpecElem
  | [] => []
  | (regex, spec) :: rest => if search regex key && decide (size > 1) then spec else searchRules search key size rest

open FlatDict in
/-- `search_partition_spec` (vmoe/partitioning.py:401-407).  Leaves are array shapes. -/
def searchPartitionSpec {R : Type} (search : R → List Char → Bool) (rules : List (R × List SpecElem))
    (key : List Char) : Flat (List Nat) → Flat (List SpecElem)
  | .empty => .empty
  | .leaf shape => .leaf (searchRules search key shape.prod rules)

open FlatDict in
mutual
/-- `flax.serialization.from_state_dict` for nested dicts (vmoe/partitioning.py:420): every key of the target must be
present; a leaf takes the state as it is. -/
def fromStateDict {V W : Type} : Tree V → Tree W → Except PyErr (Tree W)
  | .leaf _, s => .ok s
  | .node items, .node states => do
    let r ← fromStateItems items states
    return .node r
  | .node items, .leaf _ => if items.isEmpty then .ok (.node []) else .error .attributeError
/-- The items of one dict of the target (vmoe/partitioning.py:420). -/
def fromStateItems {V W : Type} : List (Key × Tree V) → PyDict Key (Tree W) → Except PyErr (List (Key × Tree W))
  | [], _ => .ok []
  | (k, t) :: l, states =>
    match PyDict.get? states k with
    | none => .error .valueError
    | some s => do
      let s' ← fromStateDict t s
      let rest ← fromStateItems l states
      return (k, s') :: rest
end

open FlatDict in
/-- `tree_axis_resources_from_regexes` for a nested dict of arrays (vmoe/partitioning.py:359-421). -/
def treeAxisResourcesFromRegexes {R : Type} (search : R → List Char → Bool) (tree : List (Key × Tree (List Nat)))
    (regexes : List (R × UnparsedSpec)) : Except PyErr (Tree (List SpecElem)) := do
  let rules := regexes.map fun rs => (rs.1, parsePartitionSpec rs.2)
  let flat := (flatten tree).map fun kv => (kv.1, searchPartitionSpec search rules kv.1 kv.2)
  let axisResources ← unflatten flat
  fromStateDict (.node tree) (.node axisResources)

end Verif.Partitioning
