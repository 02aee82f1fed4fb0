import Verif.Model.PyErr
import Mathlib.Tactic.TypeStar

/-!
The msgpack byte format, as written and read by `msgpack.packb` / `msgpack.unpackb` (the library used
in vmoe/checkpoints/serialization.py:51,88-92,115).  The library is not part of the repository; this
follows the msgpack specification and the choices of the Python packer (shortest representation,
unsigned formats for non-negative integers).
-/

namespace Verif.Msgpack

open Verif

/-- A byte string (`bytes`, vmoe/checkpoints/serialization.py:96). -/
abbrev Bytes := List UInt8

/-- Python values that the code packs (vmoe/checkpoints/serialization.py:164,177,187,197,255,266-290).
Strings are kept as their UTF-8 bytes, dict keys are strings, tuples and lists are not distinguished
(unpacking gives lists, vmoe/checkpoints/serialization.py:168,181).  Floats are not modelled (they only
occur for complex numbers and Python floats in a state dict). -/
inductive Val where
  | nil
  | bool (b : Bool)
  | int (i : Int)
  | str (s : Bytes)
  | bin (b : Bytes)
  | arr (l : List Val)
  | map (l : List (Bytes × Val))
  | ext (code : UInt8) (data : Bytes)

/-- `k` bytes of a number, most significant first (format used by vmoe/checkpoints/serialization.py:115). -/
def be : Nat → Nat → Bytes
  | 0, _ => []
  | k + 1, n => be k (n / 256) ++ [UInt8.ofNat n]

/-- Reads `k` bytes, most significant first (vmoe/checkpoints/serialization.py:88). -/
def unBe (b : Bytes) : Nat := b.foldl (fun acc x => 256 * acc + x.toNat) 0

/-- Splits off `k` bytes or fails (truncated input; vmoe/checkpoints/serialization.py:88). -/
def takeBytes (k : Nat) (b : Bytes) : Except PyErr (Bytes × Bytes) :=
  if k ≤ b.length then .ok (b.take k, b.drop k) else .error .valueError

/-- Header of an integer (vmoe/checkpoints/serialization.py:115,177,255). -/
def packInt (i : Int) : Except PyErr Bytes :=
  if i < -2 ^ 63 then .error .overflowError
  else if i < -2 ^ 31 then .ok (0xd3 :: be 8 (i + 2 ^ 64).toNat)
  else if i < -2 ^ 15 then .ok (0xd2 :: be 4 (i + 2 ^ 32).toNat)
  else if i < -2 ^ 7 then .ok (0xd1 :: be 2 (i + 2 ^ 16).toNat)
  else if i < -2 ^ 5 then .ok (0xd0 :: be 1 (i + 2 ^ 8).toNat)
  else if i < 0 then .ok (be 1 (i + 2 ^ 8).toNat)
  else if i < 2 ^ 7 then .ok (be 1 i.toNat)
  else if i < 2 ^ 8 then .ok (0xcc :: be 1 i.toNat)
  else if i < 2 ^ 16 then .ok (0xcd :: be 2 i.toNat)
  else if i < 2 ^ 32 then .ok (0xce :: be 4 i.toNat)
  else if i < 2 ^ 64 then .ok (0xcf :: be 8 i.toNat)
  else .error .overflowError

/-- Header of a string of `n` bytes (vmoe/checkpoints/serialization.py:115,164). -/
def packStrHeader (n : Nat) : Except PyErr Bytes :=
  if n < 32 then .ok (be 1 (0xa0 + n))
  else if n < 2 ^ 8 then .ok (0xd9 :: be 1 n)
  else if n < 2 ^ 16 then .ok (0xda :: be 2 n)
  else if n < 2 ^ 32 then .ok (0xdb :: be 4 n)
  else .error .valueError

/-- Header of a byte string (vmoe/checkpoints/serialization.py:187,197,255). -/
def packBinHeader (n : Nat) : Except PyErr Bytes :=
  if n < 2 ^ 8 then .ok (0xc4 :: be 1 n)
  else if n < 2 ^ 16 then .ok (0xc5 :: be 2 n)
  else if n < 2 ^ 32 then .ok (0xc6 :: be 4 n)
  else .error .valueError

/-- Header of a list or tuple (vmoe/checkpoints/serialization.py:177). -/
def packArrHeader (n : Nat) : Except PyErr Bytes :=
  if n < 16 then .ok (be 1 (0x90 + n))
  else if n < 2 ^ 16 then .ok (0xdc :: be 2 n)
  else if n < 2 ^ 32 then .ok (0xdd :: be 4 n)
  else .error .valueError

/-- Header of a dict (vmoe/checkpoints/serialization.py:115). -/
def packMapHeader (n : Nat) : Except PyErr Bytes :=
  if n < 16 then .ok (be 1 (0x80 + n))
  else if n < 2 ^ 16 then .ok (0xde :: be 2 n)
  else if n < 2 ^ 32 then .ok (0xdf :: be 4 n)
  else .error .valueError

/-- Header of an extension type without the code (vmoe/checkpoints/serialization.py:266-290). -/
def packExtHeader (n : Nat) : Except PyErr Bytes :=
  if n = 1 then .ok [0xd4]
  else if n = 2 then .ok [0xd5]
  else if n = 4 then .ok [0xd6]
  else if n = 8 then .ok [0xd7]
  else if n = 16 then .ok [0xd8]
  else if n < 2 ^ 8 then .ok (0xc7 :: be 1 n)
  else if n < 2 ^ 16 then .ok (0xc8 :: be 2 n)
  else if n < 2 ^ 32 then .ok (0xc9 :: be 4 n)
  else .error .valueError

/-- A string with its header (vmoe/checkpoints/serialization.py:115). -/
def packStr (s : Bytes) : Except PyErr Bytes := do
  let h ← packStrHeader s.length
  return h ++ s

mutual
/-- `msgpack.packb` (vmoe/checkpoints/serialization.py:115,164,177,187,197,255). -/
def pack : Val → Except PyErr Bytes
  | .nil => .ok [0xc0]
  | .bool b => .ok [if b then 0xc3 else 0xc2]
  | .int i => packInt i
  | .str s => packStr s
  | .bin b => do
    let h ← packBinHeader b.length
    return h ++ b
  | .arr l => do
    let h ← packArrHeader l.length
    let b ← packList l
    return h ++ b
  | .map l => do
    let h ← packMapHeader l.length
    let b ← packPairs l
    return h ++ b
  | .ext code data => do
    let h ← packExtHeader data.length
    return h ++ code :: data
/-- Items of a list, one after the other (vmoe/checkpoints/serialization.py:115). -/
def packList : List Val → Except PyErr Bytes
  | [] => .ok []
  | v :: l => do
    let a ← pack v
    let b ← packList l
    return a ++ b
/-- Items of a dict, key then value (vmoe/checkpoints/serialization.py:115). -/
def packPairs : List (Bytes × Val) → Except PyErr Bytes
  | [] => .ok []
  | (k, v) :: l => do
    let s ← packStr k
    let a ← pack v
    let b ← packPairs l
    return s ++ (a ++ b)
end

/-- Reads a `k`-byte length (vmoe/checkpoints/serialization.py:88). -/
def readNat (k : Nat) (b : Bytes) : Except PyErr (Nat × Bytes) := do
  let (x, r) ← takeBytes k b
  return (unBe x, r)

/-- Value of the string after its header; with `raw=True` strings become bytes
(vmoe/checkpoints/serialization.py:92,168). -/
def readStr (raw : Bool) (n : Nat) (b : Bytes) : Except PyErr (Val × Bytes) := do
  let (x, r) ← takeBytes n b
  return (if raw then .bin x else .str x, r)

/-- A byte string after its header (vmoe/checkpoints/serialization.py:191). -/
def readBin (n : Nat) (b : Bytes) : Except PyErr (Val × Bytes) := do
  let (x, r) ← takeBytes n b
  return (.bin x, r)

/-- Code and data of an extension value (vmoe/checkpoints/serialization.py:293). -/
def readExt (n : Nat) (b : Bytes) : Except PyErr (Val × Bytes) := do
  let (c, r) ← takeBytes 1 b
  let (x, r') ← takeBytes n r
  return (.ext (c.headD 0) x, r')

/-- Signed integer of `k` bytes (vmoe/checkpoints/serialization.py:181). -/
def readSigned (k : Nat) (b : Bytes) : Except PyErr (Val × Bytes) := do
  let (n, r) ← readNat k b
  return (.int (if n < 2 ^ (8 * k - 1) then (n : Int) else (n : Int) - 2 ^ (8 * k)), r)

/-- Unsigned integer of `k` bytes (vmoe/checkpoints/serialization.py:181). -/
def readUnsigned (k : Nat) (b : Bytes) : Except PyErr (Val × Bytes) := do
  let (n, r) ← readNat k b
  return (.int n, r)

mutual
/-- One value from the front of the bytes (vmoe/checkpoints/serialization.py:88,168,181,191,201,259).
`fuel` bounds the nesting; `unpackb` gives enough of it. -/
def unpack (raw : Bool) : Nat → Bytes → Except PyErr (Val × Bytes)
  | 0, _ => .error .valueError
  | _ + 1, [] => .error .valueError
  | fuel + 1, t :: b =>
    let t := t.toNat
    if t < 0x80 then .ok (.int t, b)
    else if t < 0x90 then unpackMap raw fuel (t - 0x80) b
    else if t < 0xa0 then unpackArr raw fuel (t - 0x90) b
    else if t < 0xc0 then readStr raw (t - 0xa0) b
    else if t = 0xc0 then .ok (.nil, b)
    else if t = 0xc2 then .ok (.bool false, b)
    else if t = 0xc3 then .ok (.bool true, b)
    else if t = 0xc4 then do let (n, r) ← readNat 1 b; readBin n r
    else if t = 0xc5 then do let (n, r) ← readNat 2 b; readBin n r
    else if t = 0xc6 then do let (n, r) ← readNat 4 b; readBin n r
    else if t = 0xc7 then do let (n, r) ← readNat 1 b; readExt n r
    else if t = 0xc8 then do let (n, r) ← readNat 2 b; readExt n r
    else if t = 0xc9 then do let (n, r) ← readNat 4 b; readExt n r
    else if t = 0xcc then readUnsigned 1 b
    else if t = 0xcd then readUnsigned 2 b
    else if t = 0xce then readUnsigned 4 b
    else if t = 0xcf then readUnsigned 8 b
    else if t = 0xd0 then readSigned 1 b
    else if t = 0xd1 then readSigned 2 b
    else if t = 0xd2 then readSigned 4 b
    else if t = 0xd3 then readSigned 8 b
    else if t = 0xd4 then readExt 1 b
    else if t = 0xd5 then readExt 2 b
    else if t = 0xd6 then readExt 4 b
    else if t = 0xd7 then readExt 8 b
    else if t = 0xd8 then readExt 16 b
    else if t = 0xd9 then do let (n, r) ← readNat 1 b; readStr raw n r
    else if t = 0xda then do let (n, r) ← readNat 2 b; readStr raw n r
    else if t = 0xdb then do let (n, r) ← readNat 4 b; readStr raw n r
    else if t = 0xdc then do let (n, r) ← readNat 2 b; unpackArr raw fuel n r
    else if t = 0xdd then do let (n, r) ← readNat 4 b; unpackArr raw fuel n r
    else if t = 0xde then do let (n, r) ← readNat 2 b; unpackMap raw fuel n r
    else if t = 0xdf then do let (n, r) ← readNat 4 b; unpackMap raw fuel n r
    else if 0xe0 ≤ t then .ok (.int ((t : Int) - 256), b)
    else .error .valueError
/-- The items of a list (vmoe/checkpoints/serialization.py:88). -/
def unpackItems (raw : Bool) : Nat → Nat → Bytes → Except PyErr (List Val × Bytes)
  | 0, _, _ => .error .valueError
  | _ + 1, 0, b => .ok ([], b)
  | fuel + 1, n + 1, b => do
    let (v, r) ← unpack raw fuel b
    let (l, r') ← unpackItems raw fuel n r
    return (v :: l, r')
/-- A list with its number of items known (vmoe/checkpoints/serialization.py:88). -/
def unpackArr (raw : Bool) : Nat → Nat → Bytes → Except PyErr (Val × Bytes)
  | 0, _, _ => .error .valueError
  | fuel + 1, n, b => do
    let (l, r) ← unpackItems raw fuel n b
    return (.arr l, r)
/-- The items of a dict; keys have to be strings (or bytes if raw) (vmoe/checkpoints/serialization.py:88). -/
def unpackPairs (raw : Bool) : Nat → Nat → Bytes → Except PyErr (List (Bytes × Val) × Bytes)
  | 0, _, _ => .error .valueError
  | _ + 1, 0, b => .ok ([], b)
  | fuel + 1, n + 1, b => do
    let (k, r) ← unpack raw fuel b
    let key ← match k with
      | .str s => Except.ok s
      | .bin s => Except.ok s
      | _ => Except.error PyErr.valueError
    let (v, r') ← unpack raw fuel r
    let (l, r'') ← unpackPairs raw fuel n r'
    return ((key, v) :: l, r'')
/-- A dict with its number of items known (vmoe/checkpoints/serialization.py:88). -/
def unpackMap (raw : Bool) : Nat → Nat → Bytes → Except PyErr (Val × Bytes)
  | 0, _, _ => .error .valueError
  | fuel + 1, n, b => do
    let (l, r) ← unpackPairs raw fuel n b
    return (.map l, r)
end

/-- `msgpack.unpackb`: the whole input has to be one value
(vmoe/checkpoints/serialization.py:88,168,181,191,201,259). -/
def unpackb (raw : Bool) (b : Bytes) : Except PyErr Val :=
  match unpack raw (3 * b.length + 3) b with
  | .ok (v, []) => .ok v
  | .ok (_, _ :: _) => .error .valueError
  | .error e => .error e

end Verif.Msgpack
