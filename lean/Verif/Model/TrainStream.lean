import Verif.Model.DataPipeline

/-!
`get_dataset` for the variant `train` (vmoe/data/input_pipeline.py:55-151): filter, cache, repeat forever, shuffle with a buffer,
parallel processing, batches.  A dataset that never ends is a function of the number of the element; the end of a dataset is the
exception `StopIteration` in the place of an element.  What is random or depends on the timing of threads is a parameter.
-/

namespace Verif.TrainStream

open Verif DataPipeline

variable {α : Type}

/-- The elements that wait in a buffer of size `size` before element `n` of the result is taken, when `size - 1` elements are
read in advance, then one more before each choice (vmoe/data/input_pipeline.py:117, 127-130). -/
def bufferState (size : Nat) (pick : Nat → Nat) (x : Nat → α) : Nat → List α
  | 0 => (List.range (size - 1)).map x
  | n + 1 => (bufferState size pick x n ++ [x (n + (size - 1))]).eraseIdx (pick n % size)

/-- A dataset that is read through a buffer from which any element can be taken next: `data.shuffle(size)`
(vmoe/data/input_pipeline.py:117), and the results of `size` parallel calls given in the order in which they finish, for
`deterministic=False` (vmoe/data/input_pipeline.py:127-130).  `pick n % size` is the position of the choice, which always
exists. -/
def buffered (size : Nat) (pick : Nat → Nat) (x : Nat → α) (n : Nat) : α :=
  (bufferState size pick x n ++ [x (n + (size - 1))]).getD (pick n % size) (x n)

/-- `data.repeat()` of a dataset of `num` examples, that gives the list `epoch e` the time number `e` it is read; without
examples it ends at once (vmoe/data/input_pipeline.py:115). -/
def repeated (num : Nat) (epoch : Nat → List α) (n : Nat) : Except PyErr α :=
  match (epoch (n / num))[n % num]? with
  | some d => .ok d
  | none => .error .stopIteration

/-- What the program does not determine (vmoe/data/input_pipeline.py:108-130): the order in which the files give the examples each
time they are read, the choices of the shuffling and the order in which parallel calls finish. -/
structure Choices where
  order : Nat → List Data → List Data
  shuffle : Nat → Nat
  finish : Nat → Nat

/-- `data.filter(pre_filter_fn)` (vmoe/data/input_pipeline.py:109). -/
def filterData (preFilter : Option (Data → Bool)) (l : List Data) : List Data :=
  match preFilter with
  | some p => l.filter p
  | none => l

/-- The examples of the epochs, with `data.cache()` always in the order of the first time
(vmoe/data/input_pipeline.py:108-112). -/
def epochs (src : Source) (preFilter : Option (Data → Bool)) (cacheLoaded : Bool) (ch : Choices) (e : Nat) : List Data :=
  filterData preFilter (ch.order (if cacheLoaded then 0 else e) src.examples)

/-- The processed examples, in the order in which they are put into batches (vmoe/data/input_pipeline.py:108-130). -/
def elements (src : Source) (preFilter : Option (Data → Bool)) (cacheLoaded : Bool) (process : Data → Except PyErr Data)
    (shuffleBuffer numParallelCalls : Nat) (ch : Choices) : Nat → Except PyErr Data :=
  let epoch := epochs src preFilter cacheLoaded ch
  let data := repeated (epoch 0).length epoch
  let data := buffered shuffleBuffer ch.shuffle data
  let data := fun n => do process (← data n)
  buffered numParallelCalls ch.finish data

/-- `get_dataset` for the variant `train` (vmoe/data/input_pipeline.py:55-151): the batches one after the other.  TensorFlow refuses
an empty shuffle buffer, zero parallel calls and batches of size zero, with an `InvalidArgumentError`, here a `ValueError`.
`cache='batched'` and prefetching are left out, they do not change the batches. -/
def getTrainDataset (src : Source) (batchSize : Nat) (preFilter : Option (Data → Bool)) (cacheLoaded : Bool)
    (process : Data → Except PyErr Data) (shuffleBuffer numParallelCalls : Nat) (ch : Choices) :
    Except PyErr (Nat → Except PyErr (List Data)) := do
  let b ← batchSizePerProcess batchSize src.processCount src.deviceCount
  if shuffleBuffer = 0 ∨ numParallelCalls = 0 ∨ b = 0 then .error .valueError
  else
    let data := elements src preFilter cacheLoaded process shuffleBuffer numParallelCalls ch
    return fun k => (List.range b).mapM fun i => data (k * b + i)

end Verif.TrainStream
