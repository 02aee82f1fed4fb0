import Verif.Model.SaveFile
import Verif.Model.Serialization

/-!
Model of the files of a state: `to_bytes`, `from_bytes`, `msgpack_serialize` and `msgpack_restore`
(vmoe/checkpoints/serialization.py:58-129) on whole trees, with the functions of flax that they use, and `restore_checkpoint`
(vmoe/checkpoints/base.py:143-160).
-/

namespace Verif.Ser

open Verif Msgpack

/-- A leaf of a state (vmoe/checkpoints/serialization.py:266-290).  Arrays are NumPy arrays, or JAX arrays if `jax`.  Floats and complex
numbers of Python are not modelled, NumPy scalars are. -/
inductive Leaf where
  | none
  | bool (b : Bool)
  | int (i : Int)
  | str (s : Bytes)
  | bytes (b : Bytes)
  | array (jax : Bool) (x : NpArray)
  | scalar (x : NpArray)
  | info (m : Meta)
  | chunks (c : ArrayChunks)

/-- A state dict: nested dicts with strings as keys (vmoe/checkpoints/serialization.py:128). -/
inductive State where
  | leaf (l : Leaf)
  | dict (items : List (Bytes × State))

/-- The tree of a user: dicts, lists and tuples (vmoe/checkpoints/serialization.py:118-129).  Other classes that flax can convert to a state
dict are represented by the dict of their fields. -/
inductive Obj where
  | leaf (l : Leaf)
  | dict (items : List (Bytes × Obj))
  | seq (tuple : Bool) (items : List Obj)

mutual
/-- `flax.serialization.to_state_dict` (vmoe/checkpoints/serialization.py:54, 128): the items of lists and tuples get the keys `"0"`, `"1"`, ... -/
def toState : Obj → State
  | .leaf l => .leaf l
  | .dict l => .dict (toStateItems l)
  | .seq _ l => .dict (toStateSeq 0 l)
/-- The items of a dict (vmoe/checkpoints/serialization.py:128). -/
def toStateItems : List (Bytes × Obj) → List (Bytes × State)
  | [] => []
  | (k, x) :: l => (k, toState x) :: toStateItems l
/-- The items of a list from the index `i` on (vmoe/checkpoints/serialization.py:128). -/
def toStateSeq (i : Nat) : List Obj → List (Bytes × State)
  | [] => []
  | x :: l => (indexKey i, toState x) :: toStateSeq (i + 1) l
end

/-- `np.array` on a JAX array (vmoe/checkpoints/serialization.py:113). -/
def npLeaf : Leaf → Leaf
  | .array _ x => .array false x
  | l => l

mutual
/-- `_np_convert_in_place` of flax (vmoe/checkpoints/serialization.py:113, 139). -/
def npConvert : State → State
  | .leaf l => .leaf (npLeaf l)
  | .dict l => .dict (npConvertItems l)
/-- The items of a dict (vmoe/checkpoints/serialization.py:113). -/
def npConvertItems : List (Bytes × State) → List (Bytes × State)
  | [] => []
  | (k, s) :: l => (k, npConvert s) :: npConvertItems l
end

/-- A string of ASCII characters as its UTF-8 bytes (vmoe/checkpoints/serialization.py:115). -/
def ascii (s : String) : Bytes := s.toList.map fun c => UInt8.ofNat c.toNat

/-- The key that marks an array in pieces in flax (vmoe/checkpoints/serialization.py:135, 140-141). -/
def chunkedKey : Bytes := ascii "__msgpack_chunked_array__"

/-- `_tuple_to_dict` of flax (vmoe/checkpoints/serialization.py:135): items from the index `i` on. -/
def indexed (i : Nat) : List State → List (Bytes × State)
  | [] => []
  | x :: l => (indexKey i, x) :: indexed (i + 1) l

/-- `_chunk` of flax (vmoe/checkpoints/serialization.py:135): the array in flat pieces of at most `maxSize` bytes. -/
def chunkArray (itemsize : Bytes → Nat) (maxSize : Nat) (x : NpArray) : State :=
  .dict [(chunkedKey, .leaf (.bool true)),
    (ascii "shape", .dict (indexed 0 (x.shape.map fun n => .leaf (.int (n : Nat))))),
    (ascii "chunks", .dict (indexed 0 ((subchunks maxSize (itemsize x.dtype) x).map fun p => .leaf (.array false p))))]

mutual
/-- `_chunk_array_leaves_in_place` of flax (vmoe/checkpoints/serialization.py:114, 135): NumPy arrays of more than `MAX_CHUNK_SIZE` bytes are
replaced. -/
def chunkLeaves (itemsize : Bytes → Nat) (maxSize : Nat) : State → State
  | .leaf (.array false x) =>
    if maxSize < x.elems.length * itemsize x.dtype then chunkArray itemsize maxSize x else .leaf (.array false x)
  | .leaf l => .leaf l
  | .dict l => .dict (chunkItems itemsize maxSize l)
/-- The items of a dict (vmoe/checkpoints/serialization.py:114). -/
def chunkItems (itemsize : Bytes → Nat) (maxSize : Nat) : List (Bytes × State) → List (Bytes × State)
  | [] => []
  | (k, s) :: l => (k, chunkLeaves itemsize maxSize s) :: chunkItems itemsize maxSize l
end

/-- A leaf as msgpack writes it, with `_msgpack_ext_pack` (vmoe/checkpoints/serialization.py:115, 266-290).  `ArrayChunks`, which only reading
returns, is not a type that can be written. -/
def leafVal : Leaf → Except PyErr Val
  | .none => .ok .nil
  | .bool b => .ok (.bool b)
  | .int i => .ok (.int i)
  | .str s => .ok (.str s)
  | .bytes b => .ok (.bin b)
  | .array _ x => (ndarrayToBytes x).map (.ext 1)
  | .scalar x => (ndarrayToBytes x).map (.ext 3)
  | .info m => extPack m
  | .chunks _ => .error .typeError

mutual
/-- A state dict as msgpack writes it (vmoe/checkpoints/serialization.py:115). -/
def toVal : State → Except PyErr Val
  | .leaf l => leafVal l
  | .dict l => (toValItems l).map .map
/-- The items of a dict (vmoe/checkpoints/serialization.py:115). -/
def toValItems : List (Bytes × State) → Except PyErr (List (Bytes × Val))
  | [] => .ok []
  | (k, s) :: l => do
    let v ← toVal s
    let r ← toValItems l
    return (k, v) :: r
end

/-- `msgpack_serialize` (vmoe/checkpoints/serialization.py:96-115).  The trees are values here, so whether they are changed in place does not
matter. -/
def serializeState (itemsize : Bytes → Nat) (maxSize : Nat) (s : State) : Except PyErr Bytes := do
  let v ← toVal (chunkLeaves itemsize maxSize (npConvert s))
  pack v

/-- `to_bytes` (vmoe/checkpoints/serialization.py:118-129). -/
def toBytes (itemsize : Bytes → Nat) (maxSize : Nat) (x : Obj) : Except PyErr Bytes :=
  serializeState itemsize maxSize (toState x)

/-- `_msgpack_ext_unpack` (vmoe/checkpoints/serialization.py:293-313).  Complex numbers and unknown codes are not modelled and raise. -/
def extLeaf (itemsize : Bytes → Nat) (code : UInt8) (data : Bytes) : Except PyErr Leaf :=
  if code = 1 then (ndarrayFromBytes itemsize data).map (.array false)
  else if code = 3 then (ndarrayFromBytes itemsize data).map .scalar
  else (extUnpack code data).map .info

mutual
/-- What `msgpack.unpackb` makes of a value with the two hooks (vmoe/checkpoints/serialization.py:88-92): dicts with the magic key become
`ArrayChunks`.  Lists do not occur in a state dict and are refused. -/
def fromVal (itemsize : Bytes → Nat) : Val → Except PyErr State
  | .nil => .ok (.leaf .none)
  | .bool b => .ok (.leaf (.bool b))
  | .int i => .ok (.leaf (.int i))
  | .str s => .ok (.leaf (.str s))
  | .bin b => .ok (.leaf (.bytes b))
  | .arr _ => .error .typeError
  | .map m =>
    if magicKey ∈ m.map Prod.fst then (decodeArrayChunks itemsize m).map fun c => .leaf (.chunks c)
    else (fromValItems itemsize m).map .dict
  | .ext code data => (extLeaf itemsize code data).map .leaf
/-- The items of a dict (vmoe/checkpoints/serialization.py:88-92). -/
def fromValItems (itemsize : Bytes → Nat) : List (Bytes × Val) → Except PyErr (List (Bytes × State))
  | [] => .ok []
  | (k, v) :: l => do
    let s ← fromVal itemsize v
    let r ← fromValItems itemsize l
    return (k, s) :: r
end

/-- `dct[key]` on a dict (vmoe/checkpoints/serialization.py:93: in `_dict_to_tuple` and `_unchunk` of flax). -/
def lookup (k : Bytes) (l : List (Bytes × State)) : Except PyErr State :=
  match l.find? fun p => p.1 == k with
  | some p => .ok p.2
  | none => .error .keyError

/-- `_dict_to_tuple` of flax (vmoe/checkpoints/serialization.py:93, 140-141). -/
def dictToTuple : State → Except PyErr (List State)
  | .dict l => (List.range l.length).mapM fun i => lookup (indexKey i) l
  | .leaf _ => .error .typeError

/-- A size of a shape (vmoe/checkpoints/serialization.py:93). -/
def stateNat : State → Except PyErr Nat
  | .leaf (.int i) => if 0 ≤ i then .ok i.toNat else .error .valueError
  | _ => .error .typeError

/-- A piece of an array (vmoe/checkpoints/serialization.py:93). -/
def stateArray : State → Except PyErr NpArray
  | .leaf (.array _ x) => .ok x
  | _ => .error .typeError

/-- `_unchunk` of flax (vmoe/checkpoints/serialization.py:93, 140-141). -/
def unchunk (l : List (Bytes × State)) : Except PyErr State := do
  let sh ← lookup (ascii "shape") l
  let dims ← (← dictToTuple sh).mapM stateNat
  let cs ← lookup (ascii "chunks") l
  let parts ← (← dictToTuple cs).mapM stateArray
  let flat ← concatenate parts
  if flat.elems.length = dims.prod then return .leaf (.array false ⟨dims, flat.dtype, flat.elems⟩)
  else .error .valueError

mutual
/-- `_unchunk_array_leaves_in_place` of flax (vmoe/checkpoints/serialization.py:93, 140-141). -/
def unchunkLeaves : State → Except PyErr State
  | .leaf l => .ok (.leaf l)
  | .dict l =>
    if chunkedKey ∈ l.map Prod.fst then unchunk l else (unchunkItems l).map .dict
/-- The items of a dict (vmoe/checkpoints/serialization.py:93). -/
def unchunkItems : List (Bytes × State) → Except PyErr (List (Bytes × State))
  | [] => .ok []
  | (k, s) :: l => do
    let s ← unchunkLeaves s
    let r ← unchunkItems l
    return (k, s) :: r
end

/-- `msgpack_restore` (vmoe/checkpoints/serialization.py:75-93). -/
def restoreState (itemsize : Bytes → Nat) (b : Bytes) : Except PyErr State := do
  let v ← unpackb false b
  let s ← fromVal itemsize v
  unchunkLeaves s

mutual
/-- A state dict as a tree of dicts (vmoe/checkpoints/serialization.py:72). -/
def ofState : State → Obj
  | .leaf l => .leaf l
  | .dict l => .dict (ofStateItems l)
/-- The items of a dict (vmoe/checkpoints/serialization.py:72). -/
def ofStateItems : List (Bytes × State) → List (Bytes × Obj)
  | [] => []
  | (k, s) :: l => (k, ofState s) :: ofStateItems l
end

mutual
/-- `flax.serialization.from_state_dict(target, state)` (vmoe/checkpoints/serialization.py:53, 72).  A leaf of the target is replaced by whatever the
state has; a dict needs all its keys in the state, a list or tuple the same number of items.  If the state has a leaf in the place of a dict
or a list, the class of the error depends on the leaf; it is a `TypeError` here. -/
def fromState : Obj → State → Except PyErr Obj
  | .leaf _, s => .ok (ofState s)
  | .dict l, .dict m =>
    if l.all (fun p => p.1 ∈ m.map Prod.fst) then (fromStateItems l m).map .dict else .error .valueError
  | .dict _, .leaf _ => .error .typeError
  | .seq t l, .dict m =>
    if m.length = l.length then (fromStateSeq 0 l m).map (.seq t) else .error .valueError
  | .seq _ _, .leaf _ => .error .typeError
/-- The items of a dict, in the order of the target (vmoe/checkpoints/serialization.py:72). -/
def fromStateItems : List (Bytes × Obj) → List (Bytes × State) → Except PyErr (List (Bytes × Obj))
  | [], _ => .ok []
  | (k, x) :: l, m => do
    let s ← lookup k m
    let y ← fromState x s
    let r ← fromStateItems l m
    return (k, y) :: r
/-- The items of a list from the index `i` on (vmoe/checkpoints/serialization.py:72). -/
def fromStateSeq (i : Nat) : List Obj → List (Bytes × State) → Except PyErr (List Obj)
  | [], _ => .ok []
  | x :: l, m => do
    let s ← lookup (indexKey i) m
    let y ← fromState x s
    let r ← fromStateSeq (i + 1) l m
    return y :: r
end

/-- `from_bytes` (vmoe/checkpoints/serialization.py:58-72). -/
def fromBytes (itemsize : Bytes → Nat) (target : Obj) (b : Bytes) : Except PyErr Obj := do
  let s ← restoreState itemsize b
  fromState target s

/-- `restore_checkpoint` (vmoe/checkpoints/base.py:143-149). -/
def restoreCheckpoint (itemsize : Bytes → Nat) (fs : SaveFile.FS UInt8) (path : List Char) (target : Option Obj) :
    Except PyErr Obj :=
  match fs.files path with
  | none => .error .fileNotFoundError
  | some b =>
    match target with
    | none => (restoreState itemsize b).map ofState
    | some t => fromBytes itemsize t b

/-- `restore_multiple_checkpoints` (vmoe/checkpoints/base.py:152-160).  `thread_pool.map` keeps the order, and raises if one of the calls does. -/
def restoreMultiple (itemsize : Bytes → Nat) (fs : SaveFile.FS UInt8) (files : List (List Char × Option Obj)) :
    Except PyErr (List (List Char × Obj)) := do
  let trees ← files.mapM fun p => restoreCheckpoint itemsize fs p.1 p.2
  return (files.map Prod.fst).zip trees

end Verif.Ser
