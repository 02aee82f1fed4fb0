import Verif.Model.Msgpack
import Verif.Model.PyStr
import Verif.Model.PyDict

/-!
Model of vmoe/checkpoints/serialization.py on the byte level: metadata objects and array chunks.
-/

namespace Verif.Ser

open Verif Msgpack PyStr

/-- `Slice` (vmoe/checkpoints/types.py:31-83). -/
structure PySlice where
  start : Option Int
  stop : Option Int
  step : Option Int
  deriving DecidableEq, Repr

/-- `SliceNd` (vmoe/checkpoints/types.py:86-101). -/
abbrev SliceNd := List PySlice

/-- `SliceNdArray`: shape and elements in C order (vmoe/checkpoints/types.py:104-125). -/
structure SliceNdArray where
  shape : List Nat
  items : List SliceNd
  deriving DecidableEq, Repr

/-- `jax.core.ShapedArray`; the dtype by its name (vmoe/checkpoints/serialization.py:162-172). -/
structure ShapedArray where
  shape : List Nat
  dtype : Bytes
  weakType : Bool
  deriving DecidableEq, Repr

/-- `IndexInfo` (vmoe/checkpoints/types.py:181-194). -/
structure IndexInfo where
  globalShape : ShapedArray
  globalSlices : List SliceNd
  shards : List Nat
  deriving DecidableEq, Repr

/-- An optional integer as a packed value (vmoe/checkpoints/serialization.py:176). -/
def optInt : Option Int → Val
  | none => .nil
  | some i => .int i

/-- Reads an optional integer (vmoe/checkpoints/serialization.py:181). -/
def asOptInt : Val → Except PyErr (Option Int)
  | .nil => .ok none
  | .int i => .ok (some i)
  | _ => .error .typeError

/-- Reads a non-negative integer (a dimension or a shard; vmoe/checkpoints/serialization.py:168,201,259). -/
def asNat : Val → Except PyErr Nat
  | .int i => if 0 ≤ i then .ok i.toNat else .error .valueError
  | _ => .error .typeError

/-- Reads bytes (vmoe/checkpoints/serialization.py:191,259). -/
def asBytes : Val → Except PyErr Bytes
  | .bin b => .ok b
  | _ => .error .typeError

/-- Reads a list (vmoe/checkpoints/serialization.py:191,201,259). -/
def asList : Val → Except PyErr (List Val)
  | .arr l => .ok l
  | _ => .error .typeError

/-- `_shaped_array_to_bytes` (vmoe/checkpoints/serialization.py:162-164). -/
def shapedArrayToBytes (x : ShapedArray) : Except PyErr Bytes :=
  pack (.arr [.arr (x.shape.map fun (n : Nat) => .int n), .str x.dtype, .bool x.weakType, .map []])

/-- `_shaped_array_from_bytes` (vmoe/checkpoints/serialization.py:167-172).  The dtype is found by its name
(`_dtype_from_name`), modelled as the name itself. -/
def shapedArrayFromBytes (data : Bytes) : Except PyErr ShapedArray := do
  match ← unpackb true data with
  | .arr [shape, .bin dtype, .bool weak, _] =>
    let l ← asList shape
    let dims ← l.mapM asNat
    return ⟨dims, dtype, weak⟩
  | _ => .error .valueError

/-- `_slice_to_bytes` (vmoe/checkpoints/serialization.py:175-177). -/
def sliceToBytes (x : PySlice) : Except PyErr Bytes :=
  pack (.arr [optInt x.start, optInt x.stop, optInt x.step])

/-- `_slice_from_bytes` (vmoe/checkpoints/serialization.py:180-182). -/
def sliceFromBytes (data : Bytes) : Except PyErr PySlice := do
  match ← unpackb true data with
  | .arr [a, b, c] =>
    let start ← asOptInt a
    let stop ← asOptInt b
    let step ← asOptInt c
    return ⟨start, stop, step⟩
  | _ => .error .valueError

/-- `_slice_nd_to_bytes` (vmoe/checkpoints/serialization.py:185-187). -/
def sliceNdToBytes (x : SliceNd) : Except PyErr Bytes := do
  let parts ← x.mapM sliceToBytes
  pack (.arr (parts.map .bin))

/-- `_slice_nd_from_bytes` (vmoe/checkpoints/serialization.py:190-192). -/
def sliceNdFromBytes (data : Bytes) : Except PyErr SliceNd := do
  let v ← unpackb true data
  let l ← asList v
  l.mapM fun w => do
    let b ← asBytes w
    sliceFromBytes b

/-- `_slice_nd_array_to_bytes` (vmoe/checkpoints/serialization.py:195-197). -/
def sliceNdArrayToBytes (x : SliceNdArray) : Except PyErr Bytes := do
  let parts ← x.items.mapM sliceNdToBytes
  pack (.arr [.arr (x.shape.map fun (n : Nat) => .int n), .arr (parts.map .bin)])

/-- `_slice_nd_array_from_bytes` (vmoe/checkpoints/serialization.py:200-206); `reshape` raises if the number of
elements differs. -/
def sliceNdArrayFromBytes (data : Bytes) : Except PyErr SliceNdArray := do
  match ← unpackb true data with
  | .arr [shape, parts] =>
    let l ← asList shape
    let dims ← l.mapM asNat
    let ps ← asList parts
    let items ← ps.mapM fun w => do
      let b ← asBytes w
      sliceNdFromBytes b
    if items.length = dims.prod then return ⟨dims, items⟩ else .error .valueError
  | _ => .error .valueError

/-- `_index_info_to_bytes` (vmoe/checkpoints/serialization.py:251-255). -/
def indexInfoToBytes (x : IndexInfo) : Except PyErr Bytes := do
  let g ← shapedArrayToBytes x.globalShape
  let parts ← x.globalSlices.mapM sliceNdToBytes
  pack (.arr [.bin g, .arr (parts.map .bin), .arr (x.shards.map fun (n : Nat) => .int n)])

/-- `_index_info_from_bytes` (vmoe/checkpoints/serialization.py:258-263). -/
def indexInfoFromBytes (data : Bytes) : Except PyErr IndexInfo := do
  match ← unpackb true data with
  | .arr [g, parts, shards] =>
    let gb ← asBytes g
    let gs ← shapedArrayFromBytes gb
    let ps ← asList parts
    let slices ← ps.mapM fun w => do
      let b ← asBytes w
      sliceNdFromBytes b
    let sl ← asList shards
    let shs ← sl.mapM asNat
    return ⟨gs, slices, shs⟩
  | _ => .error .valueError

/-- Metadata objects with their extension codes (vmoe/checkpoints/serialization.py:149-159). -/
inductive Meta where
  | shapedArray (x : ShapedArray)
  | slice (x : PySlice)
  | sliceNd (x : SliceNd)
  | sliceNdArray (x : SliceNdArray)
  | indexInfo (x : IndexInfo)
  deriving DecidableEq, Repr

/-- `_msgpack_ext_pack` on metadata objects (vmoe/checkpoints/serialization.py:271-284). -/
def extPack : Meta → Except PyErr Val
  | .shapedArray x => do return .ext 4 (← shapedArrayToBytes x)
  | .slice x => do return .ext 5 (← sliceToBytes x)
  | .sliceNd x => do return .ext 6 (← sliceNdToBytes x)
  | .sliceNdArray x => do return .ext 7 (← sliceNdArrayToBytes x)
  | .indexInfo x => do return .ext 8 (← indexInfoToBytes x)

/-- `_msgpack_ext_unpack` on metadata codes (vmoe/checkpoints/serialization.py:298-307). -/
def extUnpack (code : UInt8) (data : Bytes) : Except PyErr Meta :=
  if code = 4 then do return .shapedArray (← shapedArrayFromBytes data)
  else if code = 5 then do return .slice (← sliceFromBytes data)
  else if code = 6 then do return .sliceNd (← sliceNdFromBytes data)
  else if code = 7 then do return .sliceNdArray (← sliceNdArrayFromBytes data)
  else if code = 8 then do return .indexInfo (← indexInfoFromBytes data)
  else .error .typeError

/-- A metadata object as a whole message: `msgpack_serialize` (vmoe/checkpoints/serialization.py:115). -/
def serializeMeta (m : Meta) : Except PyErr Bytes := do
  let v ← extPack m
  pack v

/-- `msgpack_restore` of such a message (vmoe/checkpoints/serialization.py:88-92). -/
def restoreMeta (b : Bytes) : Except PyErr Meta := do
  match ← unpackb false b with
  | .ext code data => extUnpack code data
  | _ => .error .typeError

/-! ### Array chunks -/

/-- A numpy array: shape, dtype name and elements in C order, each with its bytes
(`np.ndarray`, vmoe/checkpoints/serialization.py:213-221). -/
structure NpArray where
  shape : List Nat
  dtype : Bytes
  elems : List Bytes
  deriving DecidableEq, Repr

/-- Cuts a list in pieces of `k` elements, the last one possibly shorter: the pieces `x[i:i+k]` for
`i` in `range(0, len(x), k)` (vmoe/checkpoints/serialization.py:217-220).  `k` is positive. -/
def pieces {α : Type} (k : Nat) (l : List α) : List (List α) :=
  if _h : l = [] ∨ k = 0 then [] else l.take k :: pieces k (l.drop k)
termination_by l.length
decreasing_by
  simp only [List.length_drop]
  have : l.length ≠ 0 := fun h0 => _h (.inl (List.length_eq_zero_iff.1 h0))
  omega

/-- `_ndarray_to_bytes` of flax (vmoe/checkpoints/serialization.py:137,286): shape, dtype name and the buffer. -/
def ndarrayToBytes (x : NpArray) : Except PyErr Bytes :=
  pack (.arr [.arr (x.shape.map fun (n : Nat) => .int n), .str x.dtype, .bin x.elems.flatten])

/-- `_ndarray_from_bytes` of flax (vmoe/checkpoints/serialization.py:138,309): `np.frombuffer` cuts the buffer in
items of the size of the dtype. -/
def ndarrayFromBytes (itemsize : Bytes → Nat) (data : Bytes) : Except PyErr NpArray := do
  match ← unpackb true data with
  | .arr [shape, .bin dtype, .bin buffer] =>
    let l ← asList shape
    let dims ← l.mapM asNat
    if buffer.length % itemsize dtype = 0 ∧ buffer.length / itemsize dtype = dims.prod then
      return ⟨dims, dtype, pieces (itemsize dtype) buffer⟩
    else .error .valueError
  | _ => .error .valueError

/-- `str(index)` as UTF-8 (vmoe/checkpoints/serialization.py:225). -/
def indexKey (n : Nat) : Bytes := (natStr n).map fun c => UInt8.ofNat c.toNat

/-- `int(key)` (vmoe/checkpoints/serialization.py:244). -/
def parseKey (k : Bytes) : Except PyErr Nat :=
  if k ≠ [] ∧ k.all (fun c => 48 ≤ c.toNat && c.toNat ≤ 57) then
    .ok (k.foldl (fun acc c => 10 * acc + (c.toNat - 48)) 0)
  else .error .valueError

/-- `_ARRAY_CHUNKS_MAGIC_KEY` (vmoe/checkpoints/serialization.py:146). -/
def magicKey : Bytes := "__msgpack_array_chunk_a87ca2__".toList.map fun c => UInt8.ofNat c.toNat

/-- Sub-chunks of a flattened chunk (vmoe/checkpoints/serialization.py:213-221).  The quotient is exact in the
model; the float division of the code agrees for sizes below 2^53. -/
def subchunks (maxSize itemsize : Nat) (x : NpArray) : List NpArray :=
  (pieces (max 1 (maxSize / itemsize)) x.elems).map fun p => ⟨[p.length], x.dtype, p⟩

/-- `_encode_chunk` (vmoe/checkpoints/serialization.py:213-221), with the arrays and the slice packed as extension
types (vmoe/checkpoints/serialization.py:277,286). -/
def encodeChunk (itemsize : Bytes → Nat) (maxSize : Nat) (p : NpArray × SliceNd) :
    Except PyErr Val := do
  let parts ← (subchunks maxSize (itemsize p.1.dtype) p.1).mapM ndarrayToBytes
  let s ← sliceNdToBytes p.2
  return .arr [.arr (parts.map (.ext 1)), .ext 6 s]

/-- `_lazy_array_chunks_encode` (vmoe/checkpoints/serialization.py:209-227).  The lazy chunks are given by what
`iter_chunks` returns for each index. -/
def encodeArrayChunks (itemsize : Bytes → Nat) (maxSize : Nat)
    (lazy : List (Nat × List (NpArray × SliceNd))) : Except PyErr Val := do
  let items ← lazy.mapM fun p => do
    let l ← p.2.mapM (encodeChunk itemsize maxSize)
    return (indexKey p.1, Val.arr l)
  return .map ((magicKey, .bool true) :: items)

/-- `msgpack_serialize` of array chunks (vmoe/checkpoints/serialization.py:115). -/
def serializeChunks (itemsize : Bytes → Nat) (maxSize : Nat)
    (lazy : List (Nat × List (NpArray × SliceNd))) : Except PyErr Bytes := do
  let v ← encodeArrayChunks itemsize maxSize lazy
  pack v

/-- `ArrayChunks` (vmoe/checkpoints/types.py:133-162). -/
structure ArrayChunks where
  chunks : PyDict Nat (List NpArray)
  globalSlices : PyDict Nat (List SliceNd)

/-- `ArrayChunks.add` (vmoe/checkpoints/types.py:150-152). -/
def ArrayChunks.add (a : ArrayChunks) (i : Nat) (c : NpArray) (s : SliceNd) : ArrayChunks :=
  ⟨a.chunks.set i ((a.chunks.get? i).getD [] ++ [c]),
    a.globalSlices.set i ((a.globalSlices.get? i).getD [] ++ [s])⟩

/-- `ArrayChunks.iter_chunks` (vmoe/checkpoints/types.py:157-162); `safe_zip` raises on different lengths. -/
def ArrayChunks.iterChunks (a : ArrayChunks) (i : Nat) : Except PyErr (List (NpArray × SliceNd)) :=
  match a.chunks.get? i, a.globalSlices.get? i with
  | some c, some s => if c.length = s.length then .ok (c.zip s) else .error .valueError
  | _, _ => .error .keyError

/-- `s.stop - s.start` (vmoe/checkpoints/serialization.py:236); `None` raises TypeError, a negative extent makes
`reshape` raise (except -1, not modelled: it cannot be written by the save code). -/
def extent (s : PySlice) : Except PyErr Nat :=
  match s.stop, s.start with
  | some b, some a => if a ≤ b then .ok (b - a).toNat else .error .valueError
  | _, _ => .error .typeError

/-- `np.concatenate` of one-dimensional arrays (vmoe/checkpoints/serialization.py:235); no arrays is a ValueError.
The dtype is the one of the first piece (all pieces have the same). -/
def concatenate : List NpArray → Except PyErr NpArray
  | [] => .error .valueError
  | x :: l => .ok ⟨[((x :: l).map fun y => y.elems.length).sum], x.dtype,
      ((x :: l).map NpArray.elems).flatten⟩

/-- An extension value holding an array (vmoe/checkpoints/serialization.py:308-309). -/
def asNdarray (itemsize : Bytes → Nat) : Val → Except PyErr NpArray
  | .ext code data => if code = 1 then ndarrayFromBytes itemsize data else .error .typeError
  | _ => .error .typeError

/-- An extension value holding a `SliceNd` (vmoe/checkpoints/serialization.py:302-303). -/
def asSliceNd : Val → Except PyErr SliceNd
  | .ext code data => if code = 6 then sliceNdFromBytes data else .error .typeError
  | _ => .error .typeError

/-- `_decode_chunk` (vmoe/checkpoints/serialization.py:233-237). -/
def decodeChunk (itemsize : Bytes → Nat) (v : Val) : Except PyErr (NpArray × SliceNd) := do
  match v with
  | .arr [subs, sl] =>
    let l ← asList subs
    let parts ← l.mapM (asNdarray itemsize)
    let s ← asSliceNd sl
    let flat ← concatenate parts
    let shape ← s.mapM extent
    if flat.elems.length = shape.prod then return (⟨shape, flat.dtype, flat.elems⟩, s)
    else .error .valueError
  | _ => .error .valueError

/-- `_array_chunks_decode` on a dict with the magic key (vmoe/checkpoints/serialization.py:239-248). -/
def decodeArrayChunks (itemsize : Bytes → Nat) (m : List (Bytes × Val)) : Except PyErr ArrayChunks :=
  m.foldlM (fun out (p : Bytes × Val) =>
    if p.1 = magicKey then .ok out
    else do
      let i ← parseKey p.1
      let l ← asList p.2
      let cs ← l.mapM (decodeChunk itemsize)
      return cs.foldl (fun o c => o.add i c.1 c.2) out) ⟨[], []⟩

/-- `msgpack_restore` of an array chunks file (vmoe/checkpoints/serialization.py:88-92,230-248). -/
def restoreChunks (itemsize : Bytes → Nat) (b : Bytes) : Except PyErr ArrayChunks := do
  match ← unpackb false b with
  | .map m =>
    (if m.any (fun p => p.1 = magicKey) then decodeArrayChunks itemsize m else .error .typeError)
  | _ => .error .typeError

end Verif.Ser
