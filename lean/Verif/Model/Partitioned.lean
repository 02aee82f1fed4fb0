import Verif.Model.PyErr
import Verif.Model.PyDict
import Verif.Model.NdArray
import Mathlib.Data.List.Sort
import Mathlib.Data.List.Lex
import Mathlib.Data.Prod.Lex

/-!
Model of sharded checkpoints: vmoe/checkpoints/partitioned.py and vmoe/checkpoints/types.py.

A multi-process run is modelled by running `saveProcess` for every process index; files are
identified by their shard number.  Reading and writing a file is the identity on its contents here
(the byte format is modelled in `Verif.Model.Msgpack`, file names in `Verif.Model.CkptPath`, crashes
in `Verif.Model.SaveFile`).
-/

namespace Verif.Ckpt

open Verif

/-- `types.Slice` with concrete bounds and no step: `(start, stop)`; comparisons are those of the
tuples (vmoe/checkpoints/types.py:31-83). -/
abbrev Slice := ℕ ×ₗ ℕ

/-- `s.start` (vmoe/checkpoints/types.py:52-54). -/
def Slice.start (s : Slice) : Nat := (ofLex s).1

/-- `s.stop` (vmoe/checkpoints/types.py:60-62). -/
def Slice.stop (s : Slice) : Nat := (ofLex s).2

/-- `Slice(start, stop)` (vmoe/checkpoints/types.py:34-42). -/
def Slice.mk (start stop : Nat) : Slice := toLex (start, stop)

/-- `types.SliceNd`: a tuple of slices, compared lexicographically
(vmoe/checkpoints/types.py:86-101). -/
abbrev SliceNd := List Slice

/-- `tuple(s.stop - s.start for s in slicend)` (vmoe/checkpoints/partitioned.py:328,554).  Stops are
never below starts. -/
def sliceShape (s : SliceNd) : List Nat := s.map (fun x => Slice.stop x - Slice.start x)

/-- `range(start, stop, step)` for a positive step (vmoe/checkpoints/partitioned.py:575). -/
def pyRange (start stop step : Nat) : List Nat :=
  (List.range ((stop - start + step - 1) / step)).map (fun j => start + j * step)

/-- Number of splits of one dimension (vmoe/checkpoints/partitioned.py:566-572). -/
def numSplits (size chunkItems maxItems : Nat) : Nat :=
  ((List.range' 2 8).filter (fun s => size % s = 0 ∧ chunkItems / s ≤ maxItems)).headD size

/-- The loop of `_split_slicend` over the dimensions (vmoe/checkpoints/partitioned.py:563-578).
`chunk_items /= splits` is a float division in Python; it is exact because `splits` divides it (and
as long as it is below 2^53), so `Nat` division is used. -/
def splitLoop (slicend : SliceNd) (maxItems : Nat) :
    List (Nat × Nat) → Nat → List SliceNd → List SliceNd
  | [], _, chunks => chunks
  | (i, size) :: rest, chunkItems, chunks =>
    if size = 1 then splitLoop slicend maxItems rest chunkItems chunks
    else
      let splits := numSplits size chunkItems maxItems
      let start := Slice.start (slicend.getD i (Slice.mk 0 0))
      let stop := Slice.stop (slicend.getD i (Slice.mk 0 0))
      let step := size / splits
      let chunks' := chunks.flatMap fun chunk =>
        (pyRange start stop step).map fun j => chunk.set i (Slice.mk j (j + step))
      let chunkItems' := chunkItems / splits
      if chunkItems' ≤ maxItems then chunks'
      else splitLoop slicend maxItems rest chunkItems' chunks'

/-- `sorted(enumerate(shape), key=lambda t: (t[1], t[0]))` (vmoe/checkpoints/partitioned.py:563). -/
def sortedDims (shape : List Nat) : List (Nat × Nat) :=
  (shape.zipIdx.map (fun p => (p.2, p.1))).insertionSort
    (fun a b => a.2 < b.2 ∨ (a.2 = b.2 ∧ a.1 ≤ b.1))

/-- `_split_slicend` (vmoe/checkpoints/partitioned.py:549-580). -/
def splitSlicend (slicend : SliceNd) (maxChunkItems : Option Nat) : List SliceNd :=
  let shape := sliceShape slicend
  let chunkItems := shape.prod
  let maxItems := maxChunkItems.getD 0
  if maxItems < 1 ∨ chunkItems ≤ maxItems then [slicend]
  else splitLoop slicend maxItems (sortedDims shape) chunkItems [slicend]

/-- A JAX device index: a tuple of `slice(start, stop)` where `None` bounds mean the whole axis
(used in vmoe/checkpoints/partitioned.py:223-224,277,340-341). -/
abbrev JaxIndex := List (Option Nat × Option Nat)

/-- A `jax.Shard`: the process of its device and its index
(used in vmoe/checkpoints/partitioned.py:276-278,605-616). -/
structure Shard where
  process : Nat
  index : JaxIndex
  deriving DecidableEq

/-- `_shard_index_to_slicend` (vmoe/checkpoints/partitioned.py:542-546).  `safe_zip` raises when
lengths differ; here indices always have the rank of the array (hypothesis of the theorems). -/
def shardIndexToSlicend (index : JaxIndex) (shape : List Nat) : SliceNd :=
  List.zipWith (fun s size => Slice.mk (s.1.getD 0) (s.2.getD size)) index shape

/-- A `jax.Array` leaf: its global value, its item size and the list `global_shards`
(used in vmoe/checkpoints/partitioned.py:187-195).  The data of a shard is the part of the global
value given by its index (JAX's contract). -/
structure Leaf (α : Type*) where
  value : NdArray α
  itemsize : Nat
  shards : List Shard

/-- The local data of a shard (`arr_shard.data`, vmoe/checkpoints/partitioned.py:618): element `l`
is the global element shifted by the starts of the index.  This is JAX's contract, not code of this
repository. -/
def shardData {α : Type*} (a : Leaf α) (s : Shard) : NdArray α :=
  { shape := List.zipWith (fun (i : Option Nat × Option Nat) n => i.2.getD n - i.1.getD 0)
      s.index a.value.shape
    get := fun l => a.value.get (List.zipWith (· + ·) l (s.index.map fun i => i.1.getD 0)) }

/-- First loop of `_create_map_slicend_to_array_shards`: groups the shards by region, regions in
order of first occurrence (vmoe/checkpoints/partitioned.py:275-278). -/
def groupShards (shape : List Nat) (shards : List Shard) : PyDict SliceNd (List Shard) :=
  shards.foldl (fun d s =>
    let k := shardIndexToSlicend s.index shape
    PyDict.set d k ((PyDict.get? d k).getD [] ++ [s])) []

/-- `max_chunk_items` (vmoe/checkpoints/partitioned.py:279-282).  The item size is positive for
every dtype with data. -/
def maxChunkItems (maxChunkBytes : Option Nat) (itemsize : Nat) : Option Nat :=
  match maxChunkBytes with
  | some b => if 1 ≤ b then some (max (b / itemsize) 1) else none
  | none => none

/-- `_create_map_slicend_to_array_shards` (vmoe/checkpoints/partitioned.py:259-289). -/
def mapSlicendToArrayShards {α : Type*} (a : Leaf α) (maxChunkBytes : Option Nat) :
    PyDict SliceNd (List Shard) :=
  let groups := groupShards a.value.shape a.shards
  let m := maxChunkItems maxChunkBytes a.itemsize
  PyDict.ofItems (groups.flatMap fun kv => (splitSlicend kv.1 m).map fun c => (c, kv.2))

/-- `_find_smallest_ckpt_shard` (vmoe/checkpoints/partitioned.py:348-359).  IndexError if no shard
is handled by one of the processes. -/
def findSmallestCkptShard (processCount : Nat) (bytes : List Nat) (processes : List Nat) :
    Except PyErr Nat :=
  let sorted := (bytes.zipIdx.map (fun p => (toLex (p.1, p.2) : ℕ ×ₗ ℕ))).insertionSort (· ≤ ·)
  match (sorted.map (fun p => (ofLex p).2)).filter (fun i => i % processCount ∈ processes) with
  | i :: _ => .ok i
  | [] => .error .indexError

/-- One iteration of the loop of `_create_map_slicend_to_checkpoint_shard`
(vmoe/checkpoints/partitioned.py:316-329).  The processes are `sorted(set(...))` in the code; only
membership matters, so the list is not sorted here. -/
def assignStep (processCount itemsize : Nat) (slicendToShards : PyDict SliceNd (List Shard))
    (st : List Nat × PyDict SliceNd Nat) (slicend : SliceNd) :
    Except PyErr (List Nat × PyDict SliceNd Nat) :=
  match PyDict.get? slicendToShards slicend with
  | none => .error .keyError
  | some shards =>
    match findSmallestCkptShard processCount st.1 (shards.map Shard.process) with
    | .error e => .error e
    | .ok k =>
      let size := (sliceShape slicend).prod * itemsize
      .ok (st.1.set k (st.1.getD k 0 + size), PyDict.set st.2 slicend k)

/-- `_create_map_slicend_to_checkpoint_shard` (vmoe/checkpoints/partitioned.py:292-330): returns the
updated bytes per shard and the map. -/
def mapSlicendToCkptShard (processCount itemsize : Nat)
    (slicendToShards : PyDict SliceNd (List Shard)) (bytes : List Nat) :
    Except PyErr (List Nat × PyDict SliceNd Nat) :=
  ((PyDict.keys slicendToShards).insertionSort (· ≤ ·)).foldlM
    (assignStep processCount itemsize slicendToShards) (bytes, [])

/-- `types.IndexInfo` without dtype (vmoe/checkpoints/types.py:181-194). -/
structure IndexInfo where
  shape : List Nat
  slices : List SliceNd
  shards : List Nat
  deriving DecidableEq

/-- `_make_index_info` (vmoe/checkpoints/partitioned.py:389-398). -/
def makeIndexInfo (m : PyDict SliceNd Nat) (shape : List Nat) : IndexInfo :=
  let slices := (PyDict.keys m).insertionSort (· ≤ ·)
  { shape := shape, slices := slices, shards := slices.map (fun s => (PyDict.get? m s).getD 0) }

/-- One chunk stored in a data file: leaf number, data, global slice
(`LazyArrayChunks`/`ArrayChunks`, vmoe/checkpoints/types.py:133-178).  The code groups chunks per
leaf inside a file; only the set of chunks matters. -/
structure Chunk (α : Type*) where
  leaf : Nat
  data : NdArray α
  slice : SliceNd

/-- `_global2local` followed by `SliceNd.chunk`: the data of a global slice taken from the data of a
shard (vmoe/checkpoints/partitioned.py:605-609, vmoe/checkpoints/types.py:99-101,174-178). -/
def chunkData {α : Type*} (a : Leaf α) (s : Shard) (global : SliceNd) : NdArray α :=
  let local_ := List.zipWith (fun (i : Option Nat × Option Nat) x =>
    Slice.mk (Slice.start x - i.1.getD 0) (Slice.stop x - i.1.getD 0)) s.index global
  { shape := sliceShape local_
    get := fun l => (shardData a s).get (List.zipWith (· + ·) l (local_.map Slice.start)) }

/-- `_update_lazy_array_chunks_with_leaf` (vmoe/checkpoints/partitioned.py:583-626): the chunks that
process `p` adds, each with its checkpoint shard. -/
def updateWithLeaf {α : Type*} (processCount p leaf : Nat) (a : Leaf α)
    (slicendToShards : PyDict SliceNd (List Shard)) (slicendToCkpt : PyDict SliceNd Nat) :
    Except PyErr (List (Nat × Chunk α)) :=
  (slicendToCkpt.filter (fun kv => kv.2 % processCount = p)).mapM fun kv =>
    match ((PyDict.get? slicendToShards kv.1).getD []).find? (fun s => s.process = p) with
    | some s => .ok (kv.2, { leaf := leaf, data := chunkData a s kv.1, slice := kv.1 })
    | none => .error .valueError

/-- Loop over the leaves in `save_checkpoint` (vmoe/checkpoints/partitioned.py:187-195), on process
`p`: bytes per shard, index leaves, chunks of this process. -/
def saveLoop {α : Type*} (processCount p : Nat) (maxChunkBytes : Option Nat) :
    List (Leaf α) → Nat → List Nat → Except PyErr (List Nat × List IndexInfo × List (Nat × Chunk α))
  | [], _, bytes => .ok (bytes, [], [])
  | a :: rest, i, bytes =>
    let toShards := mapSlicendToArrayShards a maxChunkBytes
    match mapSlicendToCkptShard processCount a.itemsize toShards bytes with
    | .error e => .error e
    | .ok (bytes', toCkpt) =>
      match updateWithLeaf processCount p i a toShards toCkpt with
      | .error e => .error e
      | .ok chunks =>
        match saveLoop processCount p maxChunkBytes rest (i + 1) bytes' with
        | .error e => .error e
        | .ok (b, infos, more) =>
          .ok (b, makeIndexInfo toCkpt a.value.shape :: infos, chunks ++ more)

/-- Number of shard files (vmoe/checkpoints/partitioned.py:171-177). -/
def effectiveNumShards (processCount : Nat) (numShards : Option Nat) : Nat :=
  match numShards with
  | none => processCount
  | some n => if n < processCount then processCount else n

/-- What one process writes: its data files (shard number and chunks), and on process 0 the index
(vmoe/checkpoints/partitioned.py:182-186,201-212,230-256). -/
structure ProcessOutput (α : Type*) where
  files : List (Nat × List (Chunk α))
  index : Option (Nat × List IndexInfo)

/-- `save_checkpoint` on process `p` of `processCount` (vmoe/checkpoints/partitioned.py:127-212).
Leaves are those of the flattened state dict, all `jax.Array`. -/
def saveProcess {α : Type*} (processCount p : Nat) (numShards : Option Nat)
    (maxChunkBytes : Option Nat) (leaves : List (Leaf α)) : Except PyErr (ProcessOutput α) :=
  let n := effectiveNumShards processCount numShards
  match saveLoop processCount p maxChunkBytes leaves 0 (List.replicate n 0) with
  | .error e => .error e
  | .ok (_, infos, chunks) =>
    .ok { files := ((List.range n).filter (fun k => k % processCount = p)).map fun k =>
            (k, (chunks.filter (fun c => c.1 = k)).map Prod.snd)
          index := if p = 0 then some (n, infos) else none }

/-! ### Restoring -/

/-- `base.restore_checkpoint(filepath, ArrayChunks())` for shard file `k`, when the directory holds the
files written by all the processes (vmoe/checkpoints/partitioned.py:525). -/
def readFile {α : Type*} (outs : List (ProcessOutput α)) (k : Nat) :
    Except PyErr (List (Chunk α)) :=
  match (outs.flatMap ProcessOutput.files).find? (fun f => f.1 = k) with
  | some f => .ok f.2
  | none => .error .fileNotFoundError

/-- `_intersect_slicend` (vmoe/checkpoints/partitioned.py:369-378) for slices with concrete bounds.
`safe_zip` raises for different lengths; here lengths agree. -/
def intersectSlicend : SliceNd → SliceNd → Option SliceNd
  | a :: as, b :: bs =>
    let start := max (Slice.start a) (Slice.start b)
    let stop := min (Slice.stop a) (Slice.stop b)
    if stop ≤ start then none
    else (intersectSlicend as bs).map (Slice.mk start stop :: ·)
  | _, _ => some []

/-- Truth value of `global_slice == ckpt_slice or _intersect_slicend(...)`: `None` and the empty
tuple are false (vmoe/checkpoints/partitioned.py:343-344,531-532). -/
def slicesMatch (g c : SliceNd) : Bool :=
  decide (g = c) || (match intersectSlicend g c with
    | some (_ :: _) => true
    | _ => false)

/-- `_find_ckpt_shards_to_restore` for one leaf; `devices` are the values of
`sharding.addressable_devices_indices_map(global_shape)` (vmoe/checkpoints/partitioned.py:333-345). -/
def findCkptShardsToRestore (devices : List JaxIndex) (info : IndexInfo) : List Nat :=
  devices.flatMap fun d =>
    ((info.slices.zip info.shards).filter
      (fun cs => slicesMatch (shardIndexToSlicend d info.shape) cs.1)).map Prod.snd

/-- The shard files read by a process: union over the leaves, as a set
(vmoe/checkpoints/partitioned.py:442-451).  Files are listed by increasing number here; the code's
order is that of a `frozenset`, and theorems hold for every order. -/
def shardsToRestore (targets : List (List JaxIndex)) (index : List IndexInfo) : List Nat :=
  (((targets.zip index).flatMap fun ti => findCkptShardsToRestore ti.1 ti.2).dedup).insertionSort
    (· ≤ ·)

/-- A local buffer: the region of a device shard and its current contents, indexed locally
(vmoe/checkpoints/partitioned.py:215-227). -/
structure Buffer (α : Type*) where
  slice : SliceNd
  data : List Nat → α

/-- `buffer[local_slice] = chunk[ckpt_slice]` (vmoe/checkpoints/partitioned.py:533-539): element `idx`
of the buffer is overwritten when it lies in the local intersection, by the chunk element at the same
global position. -/
def copyIntersection {α : Type*} (inter : SliceNd) (b : Buffer α) (c : Chunk α) : Buffer α :=
  let lo := List.zipWith (fun i g => Slice.start i - Slice.start g) inter b.slice
  let hi := List.zipWith (fun i g => Slice.stop i - Slice.start g) inter b.slice
  let clo := List.zipWith (fun i g => Slice.start i - Slice.start g) inter c.slice
  { b with data := fun idx =>
      if List.Forall₂ (· ≤ ·) lo idx ∧ List.Forall₂ (· < ·) idx hi then
        c.data.get (List.zipWith (· + ·) (List.zipWith (· - ·) idx lo) clo)
      else b.data idx }

/-- One chunk applied to one buffer (vmoe/checkpoints/partitioned.py:529-539).  When the slices are
equal but have an empty intersection (a region without elements), `safe_zip(None, ...)` raises
TypeError. -/
def applyChunk {α : Type*} (c : Chunk α) (b : Buffer α) : Except PyErr (Buffer α) :=
  if slicesMatch b.slice c.slice then
    match intersectSlicend b.slice c.slice with
    | none => .error .typeError
    | some inter => .ok (copyIntersection inter b c)
  else .ok b

/-- All the buffers of a process: per leaf, per distinct region
(vmoe/checkpoints/partitioned.py:436-439). -/
abbrev Buffers (α : Type*) := List (List (Buffer α))

/-- `_create_local_buffers` for one leaf (vmoe/checkpoints/partitioned.py:215-227): one zero buffer per
distinct region.  `sharding.shard_shape` is the shape of the region. -/
def createLocalBuffers {α : Type*} (zero : α) (devices : List JaxIndex) (shape : List Nat) :
    List (Buffer α) :=
  devices.foldl (fun out d =>
    let g := shardIndexToSlicend d shape
    if out.any (fun b => b.slice = g) then out
    else out ++ [{ slice := g, data := fun _ => zero }]) []

/-- Applies one chunk to all the buffers of its leaf (vmoe/checkpoints/partitioned.py:526-539).  A leaf
number out of range raises IndexError in Python. -/
def restoreChunk {α : Type*} (bufs : Buffers α) (c : Chunk α) : Except PyErr (Buffers α) :=
  match bufs[c.leaf]? with
  | none => .error .indexError
  | some bs =>
    match bs.mapM (applyChunk c) with
    | .error e => .error e
    | .ok bs' => .ok (bufs.set c.leaf bs')

/-- `_restore_checkpoint_from_index` on one process, up to the creation of JAX arrays
(vmoe/checkpoints/partitioned.py:417-469).  `targets` are the device indices of the local devices for
every leaf; `chunks` are the chunks of the files being read, in the order in which the threads process
them. -/
def restoreBuffers {α : Type*} (zero : α) (targets : List (List JaxIndex)) (index : List IndexInfo)
    (chunks : List (Chunk α)) : Except PyErr (Buffers α) :=
  if targets.length = index.length then
    chunks.foldlM restoreChunk
      (List.zipWith (fun d (i : IndexInfo) => createLocalBuffers zero d i.shape) targets index)
  else .error .valueError

/-- `cb` of `_make_jax_array`: the buffer handed to `jax.make_array_from_callback` for a device index
(vmoe/checkpoints/partitioned.py:471-475). -/
def bufferFor {α : Type*} (bufs : Buffers α) (leaf : Nat) (d : JaxIndex) (shape : List Nat) :
    Except PyErr (Buffer α) :=
  match (bufs.getD leaf []).find? (fun b => b.slice = shardIndexToSlicend d shape) with
  | some b => .ok b
  | none => .error .keyError

end Verif.Ckpt
