import Verif.Model.Prefetch
import Verif.Model.PyDict
import Verif.Model.FlatDict

/-!
Model of `get_dataset_shape_dtype_struct` (vmoe/data/pjit_utils.py:31-51) and of the arrays that `prefetch_to_device` delivers for
the same features (vmoe/data/pjit_utils.py:76-102).
-/

namespace Verif.BatchSpec

open Verif Verif.FlatDict Verif.Prefetch

variable {D R : Type}

/-- A mesh: the names of its axes and its devices in flattened order (vmoe/data/pjit_utils.py:27).  The sizes of the axes are left
out, since the first axis of an array is split over all of them (vmoe/data/pjit_utils.py:39). -/
structure Mesh where
  axisNames : List Key
  devices : List Device
  deriving DecidableEq

/-- `mesh or pxla.thread_resources.env.physical_mesh` with the assertion after it (vmoe/data/pjit_utils.py:36-37, 76-77).  A mesh object
is always true as a condition, also if it is empty. -/
def useMesh (given : Option Mesh) (active : Mesh) : Except PyErr Mesh :=
  let mesh := given.getD active
  if mesh.devices = [] then .error .assertionError else .ok mesh

/-- `NamedSharding(mesh, PartitionSpec(mesh.axis_names,))` (vmoe/data/pjit_utils.py:39-40, 79-80): the mesh and, for each of the first
dimensions of an array, the axes that split it. -/
structure Sharding where
  mesh : Mesh
  pspec : List (List Key)
  deriving DecidableEq

/-- The sharding of the batch arrays (vmoe/data/pjit_utils.py:39-40, 79-80). -/
def batchSharding (mesh : Mesh) : Sharding := ⟨mesh, [mesh.axisNames]⟩

/-- A feature in `element_spec`: `tf.TensorSpec` or `tf.RaggedTensorSpec` (vmoe/data/pjit_utils.py:42-44).  A dimension of unknown
size is `None`; the rank is known. -/
structure LeafSpec (D : Type) where
  shape : List (Option Nat)
  dtype : D
  ragged : Bool

/-- `jax.ShapeDtypeStruct` (vmoe/data/pjit_utils.py:49). -/
structure Struct (D : Type) where
  shape : List (Option Nat)
  dtype : D
  sharding : Sharding

/-- `fn` (vmoe/data/pjit_utils.py:42-49).  `as_numpy_dtype` names the same type.  `shape[0]` of a scalar is an `IndexError`,
`None * jax.process_count()` a `TypeError`. -/
def structOf (mesh : Mesh) (processCount : Nat) (x : LeafSpec D) : Except PyErr (Struct D) :=
  match x.shape with
  | [] => .error .indexError
  | none :: _ => .error .typeError
  | some n :: r => .ok ⟨some (n * processCount) :: r, x.dtype, batchSharding mesh⟩

/-- `get_dataset_shape_dtype_struct` (vmoe/data/pjit_utils.py:31-51).  The elements of the datasets are flat dicts of features. -/
def announced (given : Option Mesh) (active : Mesh) (processCount : Nat) (spec : PyDict Key (LeafSpec D)) :
    Except PyErr (PyDict Key (Struct D)) := do
  let mesh ← useMesh given active
  spec.mapM fun kv => (structOf mesh processCount kv.2).map fun s => (kv.1, s)

/-- The array of the inputs of the model that the trainer initializes the parameters with (vmoe/train/trainer.py:707-715:
`datataset_element_shape_dtype['image']`). -/
def imageStruct (given : Option Mesh) (active : Mesh) (processCount : Nat) (spec : PyDict Key (LeafSpec D)) :
    Except PyErr (Struct D) := do
  let s ← announced given active processCount spec
  match PyDict.get? s "image".toList with
  | some x => .ok x
  | none => .error .keyError

/-- What a process reads from the dataset for a feature (vmoe/data/pjit_utils.py:84-98): a `tf.RaggedTensor`, or an array with its
shape, type and the list of its rows. -/
inductive Host (D R : Type) where
  | ragged (dtype : D)
  | array (shape : List Nat) (dtype : D) (rows : List R)

/-- The rows of a feature (vmoe/data/pjit_utils.py:99). -/
def Host.rows : Host D R → List R
  | .ragged _ => []
  | .array _ _ rows => rows

/-- The result of `_to_global`: the value of the process as it is, or a global array (vmoe/data/pjit_utils.py:84-102). -/
inductive Out (D R : Type) where
  | host (x : Host D R)
  | global (shape : List Nat) (dtype : D) (sharding : Sharding) (rows : List R)

/-- The types of the arrays: whether a type is a number or boolean (vmoe/data/pjit_utils.py:93), and the type that JAX stores it as
(vmoe/data/pjit_utils.py:131-134: `jax.device_put`; unless 64-bit types are enabled, `int64` becomes `int32`). -/
structure Types (D : Type) where
  numeric : D → Bool
  canon : D → D

/-- `_to_global` in the process `p` (vmoe/data/pjit_utils.py:84-102), `xs q` being the value of the feature in the process `q`.  Splitting a
scalar is an `IndexError`. -/
def toGlobal (ty : Types D) (mesh : Mesh) (processCount p : Nat) (xs : Nat → Host D R) : Except PyErr (Out D R) :=
  match xs p with
  | .ragged d => .ok (.host (.ragged d))
  | .array shape d rows =>
    if ty.numeric d then
      match shape with
      | [] => .error .indexError
      | n :: r => do
        let out ← globalArray mesh.devices processCount fun q => (xs q).rows
        return .global (n * processCount :: r) (ty.canon d) (batchSharding mesh) out
    else .ok (.host (.array shape d rows))

end Verif.BatchSpec
