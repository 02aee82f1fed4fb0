import Verif.Model.PyDict
import Verif.Model.PyErr
import Mathlib.Logic.Function.Basic

/-!
Model of vmoe/checkpoints/partitioned.py `_replace_jax_with_numpy_in_lazy_array_chunks` (lines 401-414) on a memory of
array objects: before the files are written in the background, `save_checkpoint` (line 200) replaces every reference to a
JAX array by a reference to a NumPy copy.
-/

namespace Verif.LazyChunks

open Verif PyDict

variable {α S : Type}

/-- An array object (vmoe/checkpoints/partitioned.py:196-199): on a device, or a NumPy array. -/
inductive Obj (α : Type) where
  | jax (a : α)
  | numpy (a : α)

/-- The live objects by address (`id`, vmoe/checkpoints/partitioned.py:408). -/
abbrev Mem (α : Type) := Nat → Option (Obj α)

/-- A chunk: array, local slice and global slice (vmoe/checkpoints/partitioned.py:407; types.py:165-178). -/
abbrev Chunk (S : Type) := Nat × S × S

/-- `ckpt_shard_to_lazy_array_chunks` (vmoe/checkpoints/partitioned.py:402): for every shard, the chunks of every array. -/
abbrev Chunks (S : Type) := PyDict Nat (PyDict Nat (List (Chunk S)))

/-- `np.asarray(arr)` (vmoe/checkpoints/partitioned.py:409): a new object, at an address that `alloc` chooses, for a JAX array;
a NumPy array is returned as it is.  Simplification: the copy does not share its buffer with the device. -/
def asarray (alloc : Mem α → Nat) (h : Mem α) (r : Nat) : Mem α × Nat :=
  match h r with
  | some (.jax a) => (Function.update h (alloc h) (some (.numpy a)), alloc h)
  | _ => (h, r)

/-- The dictionary from addresses to arrays (vmoe/checkpoints/partitioned.py:404-408). -/
def collect (c : Chunks S) : PyDict Nat Nat :=
  c.foldl (fun d lac => lac.2.foldl (fun d lst => lst.2.foldl (fun d x => set d x.1 x.1) d) d) []

/-- `np.asarray` on the values, one after the other (vmoe/checkpoints/partitioned.py:409). -/
def convert (alloc : Mem α → Nat) : Mem α → PyDict Nat Nat → Mem α × PyDict Nat Nat
  | h, [] => (h, [])
  | h, (k, r) :: rest =>
    let (h1, r') := asarray alloc h r
    let (h2, d) := convert alloc h1 rest
    (h2, (k, r') :: d)

/-- `tree_map` visits the keys of a dictionary in increasing order (vmoe/checkpoints/partitioned.py:409). -/
def sortKeys (d : PyDict Nat Nat) : PyDict Nat Nat := d.mergeSort (fun a b => decide (a.1 ≤ b.1))

/-- `(id_to_array[id(arr)], ls, gs)` (vmoe/checkpoints/partitioned.py:413). -/
def replaceChunk (d : PyDict Nat Nat) (x : Chunk S) : Except PyErr (Chunk S) :=
  match get? d x.1 with
  | none => .error .keyError
  | some r => .ok (r, x.2)

/-- The new list of one array (vmoe/checkpoints/partitioned.py:411-414). -/
def replaceList (d : PyDict Nat Nat) (lst : Nat × List (Chunk S)) : Except PyErr (Nat × List (Chunk S)) :=
  (lst.2.mapM (replaceChunk d)).map fun l => (lst.1, l)

/-- The chunks of one shard (vmoe/checkpoints/partitioned.py:410-414). -/
def replaceShard (d : PyDict Nat Nat) (lac : Nat × PyDict Nat (List (Chunk S))) :
    Except PyErr (Nat × PyDict Nat (List (Chunk S))) :=
  (lac.2.mapM (replaceList d)).map fun l => (lac.1, l)

/-- `_replace_jax_with_numpy_in_lazy_array_chunks` (vmoe/checkpoints/partitioned.py:401-414).  The arrays stay alive as long as
the lists refer to them, so their addresses are not used again. -/
def replaceJax (alloc : Mem α → Nat) (h : Mem α) (c : Chunks S) : Except PyErr (Mem α × Chunks S) :=
  let (h', d) := convert alloc h (sortKeys (collect c))
  (c.mapM (replaceShard d)).map fun c' => (h', c')

end Verif.LazyChunks
