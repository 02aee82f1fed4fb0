import Verif.Model.PyErr

/-!
Model of `prefetch_to_device` and `put_to_devices` (vmoe/data/pjit_utils.py:54-136).
-/

namespace Verif.Prefetch

open Verif

/-- Where the generator is: not started, suspended at a `yield`, or finished
(vmoe/data/pjit_utils.py:104-120). -/
inductive Phase where
  | fresh
  | suspended
  | finished
  deriving DecidableEq

/-- State of the generator: the elements not yet read from `iterator`, the `queue`, the phase
(vmoe/data/pjit_utils.py:104-120). -/
structure St (α β : Type) where
  rest : List α
  queue : List β
  phase : Phase

variable {α β : Type}

/-- `enqueue(n)` (vmoe/data/pjit_utils.py:108-110): reads up to `n` elements; the transfer may raise. -/
def enqueue (f : α → Except PyErr β) : Nat → List α → List β → Option PyErr × List α × List β
  | 0, rest, q => (none, rest, q)
  | _ + 1, [], q => (none, [], q)
  | n + 1, x :: xs, q =>
    match f x with
    | .ok y => enqueue f n xs (q ++ [y])
    | .error e => (some e, xs, q)

/-- After `enqueue(n)`: the exception, or the test of `while queue` and `queue.popleft()`
(vmoe/data/pjit_utils.py:112-114). -/
def fillAndYield (f : α → Except PyErr β) (n : Nat) (s : St α β) : Except PyErr β × St α β :=
  match enqueue f n s.rest s.queue with
  | (some e, rest, q) => (.error e, ⟨rest, q, .finished⟩)
  | (none, rest, []) => (.error .stopIteration, ⟨rest, [], .finished⟩)
  | (none, rest, y :: q) => (.ok y, ⟨rest, y :: q |>.tail, .suspended⟩)

/-- `next()` on the generator (vmoe/data/pjit_utils.py:104-120).  `size` is `None` or an integer; `f` is
`tree_map(_to_global, ·)`. -/
def next (f : α → Except PyErr β) (size : Option Int) (s : St α β) : Except PyErr β × St α β :=
  match s.phase with
  | .finished => (.error .stopIteration, s)
  | ph =>
    if 0 < size.getD 0 then
      fillAndYield f (if ph = .fresh then (size.getD 0).toNat else 1) s
    else
      match s.rest with
      | [] => (.error .stopIteration, { s with phase := .finished })
      | x :: xs =>
        match f x with
        | .ok y => (.ok y, ⟨xs, s.queue, .suspended⟩)
        | .error e => (.error e, ⟨xs, s.queue, .finished⟩)

/-- The results of `k` calls of `next()` and the state after them (vmoe/data/pjit_utils.py:54-120). -/
def run (f : α → Except PyErr β) (size : Option Int) : Nat → St α β → List (Except PyErr β) × St α β
  | 0, s => ([], s)
  | k + 1, s =>
    let (r, s') := next f size s
    let (rs, s'') := run f size k s'
    (r :: rs, s'')

/-- `prefetch_to_device(iterator, size)` before the first `next()` (vmoe/data/pjit_utils.py:54-58). -/
def start (xs : List α) : St α β := ⟨xs, [], .fresh⟩

/-- `np.split(array, n, axis=0)` (vmoe/data/pjit_utils.py:128), an array being the list of its rows. -/
def npSplit (n : Nat) (rows : List α) : Except PyErr (List (List α)) :=
  if n = 0 then .error .zeroDivisionError
  else if rows.length % n ≠ 0 then .error .valueError
  else .ok ((List.range n).map fun i => (rows.drop (i * (rows.length / n))).take (rows.length / n))

/-- A device, with the index of its process (vmoe/data/pjit_utils.py:82). -/
structure Device where
  id : Nat
  process : Nat
  deriving DecidableEq

/-- `mesh.local_devices` in the process `p`: the devices of the flattened mesh that belong to `p`
(vmoe/data/pjit_utils.py:82). -/
def localDevices (mesh : List Device) (p : Nat) : List Device := mesh.filter fun d => d.process == p

/-- `put_to_devices` (vmoe/data/pjit_utils.py:123-136): the pieces with the device of each. -/
def putToDevices (rows : List α) (devices : List Device) : Except PyErr (List (List α × Device)) := do
  let pieces ← npSplit devices.length rows
  return pieces.zip devices

/-- The buffer of a device (vmoe/data/pjit_utils.py:101-102). -/
def bufferOf (bufs : List (List α × Device)) (d : Device) : List α :=
  match bufs.find? fun b => b.2 == d with
  | some b => b.1
  | none => []

/-- `put_to_devices` in the process `p` and the checks of `jax.make_array_from_single_device_arrays`: with the
global shape and the sharding of the first axis over all devices, every device must hold the same
number of rows (vmoe/data/pjit_utils.py:99-102). -/
def localBuffers (mesh : List Device) (processCount p : Nat) (rows : List α) :
    Except PyErr (List (List α × Device)) := do
  let bufs ← putToDevices rows (localDevices mesh p)
  let globalLen := rows.length * processCount
  if globalLen % mesh.length ≠ 0 ∨ ¬ bufs.all (fun b => b.1.length == globalLen / mesh.length) then
    .error .valueError
  else .ok bufs

/-- The rows of the global array: device after device in mesh order, each with the buffer that its process
put there (vmoe/data/pjit_utils.py:79-80, 99-102). -/
def globalArray (mesh : List Device) (processCount : Nat) (rows : Nat → List α) :
    Except PyErr (List α) := do
  let bufs ← (List.range processCount).mapM fun p => localBuffers mesh processCount p (rows p)
  return mesh.flatMap fun d => bufferOf ((bufs[d.process]?).getD []) d

end Verif.Prefetch
