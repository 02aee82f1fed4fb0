import Verif.Model.PyDict
import Verif.Model.PyErr
import Mathlib.Data.Real.Basic

/-!
Model of the evaluation input pipeline: `_get_num_fake_examples` (vmoe/data/builder.py:106-116),
`get_dataset` (vmoe/data/input_pipeline.py:55-151) for variants other than `train`, and `_compose_fns`
(vmoe/data/input_pipeline.py:184-193).
-/

namespace Verif.DataPipeline

open Verif

/-- The largest element, Python's `max` of a non-empty list (vmoe/data/builder.py:110). -/
def listMax (l : List Nat) : Nat := l.foldl max 0

/-- `_get_num_fake_examples` (vmoe/data/builder.py:106-116).  `%` is Python's modulo: the result has the sign
of the divisor, and dividing by zero raises. -/
def numFake (processIndex batchSize : Nat) (nums : List Nat) : Except PyErr Int :=
  match nums[processIndex]? with
  | none => .error .assertionError
  | some n =>
    if batchSize = 0 then .error .zeroDivisionError
    else .ok ((listMax nums : Int) - n + Int.fmod (-(listMax nums : Int)) batchSize)

/-- A tensor of a data element: whether its dtype is boolean, the shape, and the values in row-major order
(vmoe/data/input_pipeline.py:134-135).  Other dtypes are not distinguished, strings are not modelled. -/
structure Tensor where
  isBool : Bool
  shape : List Nat
  data : List ℝ

/-- A boolean scalar (vmoe/data/input_pipeline.py:124: the Python value `True`). -/
def Tensor.bool (b : Bool) : Tensor := ⟨true, [], [if b then 1 else 0]⟩

/-- `tf.TensorSpec`, as in `data.element_spec` (vmoe/data/input_pipeline.py:135).  Shapes are fully known. -/
structure TensorSpec where
  isBool : Bool
  shape : List Nat

/-- The spec of a tensor (vmoe/data/input_pipeline.py:135). -/
def Tensor.spec (t : Tensor) : TensorSpec := ⟨t.isBool, t.shape⟩

/-- `tf.zeros(spec.shape, spec.dtype)` (vmoe/data/input_pipeline.py:135). -/
def TensorSpec.zeros (s : TensorSpec) : Tensor := ⟨s.isBool, s.shape, List.replicate s.shape.prod 0⟩

/-- A data element, `Dict[str, Any]` (vmoe/data/input_pipeline.py:35). -/
abbrev Data := PyDict String Tensor

/-- `VALID_KEY` (vmoe/data/input_pipeline.py:32, vmoe/data/pp_ops.py:38). -/
def validKey : String := "__valid__"

/-- `_mask_fn` (vmoe/data/input_pipeline.py:123-124): `data | {VALID_KEY: data.get(VALID_KEY, True)}`. -/
def maskFn (d : Data) : Data := PyDict.set d validKey ((PyDict.get? d validKey).getD (Tensor.bool true))

/-- The element spec of the mapped dataset, key by key (vmoe/data/input_pipeline.py:135). -/
def elementSpec (d : Data) : PyDict String TensorSpec := d.map fun kv => (kv.1, kv.2.spec)

/-- The fake element (vmoe/data/input_pipeline.py:134-135). -/
def fakeElem (spec : PyDict String TensorSpec) : Data := spec.map fun kv => (kv.1, kv.2.zeros)

/-- `data.batch(b, drop_remainder=True)` (vmoe/data/input_pipeline.py:140).  A batch is the list of its
elements, rather than the dict of stacked tensors. -/
def batch {α : Type} (b : Nat) (l : List α) : List (List α) :=
  (List.range (l.length / b)).map fun i => (l.drop (i * b)).take b

/-- The check of the batch size and the batch size per process (vmoe/data/input_pipeline.py:102-107).  Process
and device counts are positive. -/
def batchSizePerProcess (batchSize processCount deviceCount : Nat) : Except PyErr Nat :=
  if batchSize % processCount ≠ 0 ∨ batchSize % deviceCount ≠ 0 then .error .valueError
  else .ok (batchSize / processCount)

/-- What a process knows of the dataset and of the cluster (vmoe/data/input_pipeline.py:96-108). -/
structure Source where
  processIndex : Nat
  processCount : Nat
  deviceCount : Nat
  /-- numbers of examples of each process, before any filtering (vmoe/data/builder.py:91-98) -/
  nums : List Nat
  /-- the examples that `builder.as_dataset()` gives to this process (vmoe/data/builder.py:78-89) -/
  examples : List Data

/-- Concatenates the fake examples (vmoe/data/input_pipeline.py:131-138). -/
def addFakes (numFakes : Int) (spec : PyDict String TensorSpec) (l : List Data) : List Data :=
  if 0 < numFakes then l ++ List.replicate numFakes.toNat (fakeElem spec) else l

/-- `get_dataset` for a variant other than `train` (vmoe/data/input_pipeline.py:55-151).  `process` is the
processing function, `spec` the element spec that TensorFlow infers for its result, and `sched` the order in
which the parallel `map` with `deterministic=False` gives the results.  Caching and prefetching of the host
pipeline are left out.  `data.batch(0)` is refused by TensorFlow, which the modulo in `numFake` precedes. -/
def getEvalDataset (src : Source) (batchSize : Nat) (preFilter : Option (Data → Bool))
    (process : Data → Except PyErr Data) (spec : PyDict String TensorSpec)
    (sched : List Data → List Data) : Except PyErr (List (List Data)) := do
  let b ← batchSizePerProcess batchSize src.processCount src.deviceCount
  let exs := match preFilter with
    | some p => src.examples.filter p
    | none => src.examples
  let mapped ← exs.mapM fun d => do return maskFn (← process d)
  let fakes ← numFake src.processIndex b src.nums
  return batch b (addFakes fakes spec (sched mapped))

end Verif.DataPipeline
