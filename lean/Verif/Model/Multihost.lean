import Verif.Model.PyErr
import Mathlib.Algebra.BigOperators.Group.List.Basic

/-!
Model of vmoe/multihost_utils.py.
-/

namespace Verif.Multihost

open Verif

/-- One bit of the CRC (`zlib.crc32`, vmoe/multihost_utils.py:35). -/
def crcBit (c : UInt32) : UInt32 := if c &&& 1 = 1 then (c >>> 1) ^^^ 0xEDB88320 else c >>> 1

/-- One byte of the CRC (vmoe/multihost_utils.py:35). -/
def crcByte (c : UInt32) (b : UInt8) : UInt32 :=
  (List.range 8).foldl (fun c _ => crcBit c) (c ^^^ b.toUInt32)

/-- `zlib.crc32` (vmoe/multihost_utils.py:35). -/
def crc32 (bytes : List UInt8) : UInt32 := (bytes.foldl crcByte 0xFFFFFFFF) ^^^ 0xFFFFFFFF

/-- What one process passes to `sync_devices`: its number of local devices, the encoded name and the
main process (vmoe/multihost_utils.py:30). -/
structure Call where
  devices : Nat
  name : List UInt8
  main : Nat

/-- The local values `x` of process `p` (vmoe/multihost_utils.py:35-38); without devices `x[0]` raises. -/
def localValues (p : Nat) (c : Call) : Except PyErr (List UInt32) :=
  let x := List.replicate c.devices (0 : UInt32)
  if p = c.main then
    if c.devices = 0 then .error .indexError else .ok (x.set 0 (crc32 c.name))
  else .ok x

/-- `psum` over the devices of all processes, modulo 2^32 (vmoe/multihost_utils.py:25-27,41). -/
def psum (xs : List (List UInt32)) : UInt32 := xs.flatten.foldl (· + ·) 0

/-- `sync_devices` called on all processes (vmoe/multihost_utils.py:30-44): the outcome of each process.
All processes reach the collective sum or none gets a result. -/
def syncDevices (calls : List Call) : Except PyErr (List (Except PyErr Unit)) := do
  let xs ← calls.zipIdx.mapM fun p => localValues p.2 p.1
  let s := psum xs
  return calls.map fun c =>
    if (List.replicate c.devices s).all (fun v => v = crc32 c.name) then .ok () else .error .valueError

end Verif.Multihost
