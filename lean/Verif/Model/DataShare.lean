import Verif.Model.DataPipeline

/-!
What each process reads of a dataset (vmoe/data/builder.py), and how the options of the configuration reach the dataset
builder (vmoe/data/input_pipeline.py:41-52, 96-101, 154-164).  A dataset split is the list of its examples; reading them
from files is not modelled.
-/

namespace Verif.DataShare

open Verif DataPipeline

/-- Python strings (vmoe/data/builder.py:65). -/
abbrev Key := List Char

/-- First and last position (exclusive) of sub-split `index` of `tfds.even_splits(split, count, drop_remainder=False)` for a
split of `n` examples (vmoe/data/builder.py:79, 94-95): all sub-splits have `n // count` examples, the first `n % count` ones
have one more. -/
def evenSplit (n count index : Nat) : Nat × Nat :=
  let per := n / count
  let start := per * index
  let stop := per * (index + 1)
  let unused := n % count
  if index < unused then (start + index, stop + index + 1) else (start + unused, stop + unused)

/-- The examples of `as_dataset` in process `index`: those of `tfds.split_for_jax_process` (vmoe/data/builder.py:78-89).
The order of the files may be shuffled, see `sched` in `getEvalDataset`.  `ignore_errors` is not modelled. -/
def asDataset {α : Type} (split : List α) (count index : Nat) : List α :=
  let r := evenSplit split.length count index
  (split.drop r.1).take (r.2 - r.1)

/-- The numbers of examples of all processes (vmoe/data/builder.py:91-96). -/
def numExamples (n count : Nat) : List Nat :=
  (List.range count).map fun i => (evenSplit n count i).2 - (evenSplit n count i).1

/-- What process `index` of `count` knows of a split (vmoe/data/input_pipeline.py:96-108, 132). -/
def sourceOf (split : List Data) (count deviceCount index : Nat) : Source :=
  ⟨index, count, deviceCount, numExamples split.length count, asDataset split count index⟩

/-- The arguments of `_get_tfds_builder` (vmoe/data/builder.py:122). -/
structure BuilderArgs where
  name : Key
  dataDir : Option Key
  manualDir : Option Key
  tryGcs : Bool

/-- The functions of TFDS used to build a dataset, with the state of the world left out: `builder_from_directory` and
`builder` followed by `download_and_prepare` (vmoe/data/builder.py:123-128). -/
structure Tfds (B : Type) where
  fromDirectory : Option Key → Except PyErr B
  build : Key → Option Key → Bool → Except PyErr B
  prepare : B → Option Key → Except PyErr B

/-- `s in t` for strings (vmoe/data/builder.py:123). -/
def contains (s : Key) : Key → Bool
  | [] => s.isEmpty
  | c :: t => s.isPrefixOf (c :: t) || contains s t

/-- The body of `_get_tfds_builder` (vmoe/data/builder.py:122-128). -/
def newBuilder {B : Type} (tfds : Tfds B) (a : BuilderArgs) : Except PyErr B :=
  if contains "from_directory:".toList a.name then tfds.fromDirectory a.dataDir
  else do
    let b ← tfds.build a.name a.dataDir a.tryGcs
    tfds.prepare b a.manualDir

/-- The cache of the builders (vmoe/data/builder.py:119-121). -/
abbrev Cache (B : Type) := PyDict (Key × Option Key) B

/-- `_get_tfds_builder` with its cache: `cachetools.cached` with the key of name and directory; an exception is not cached
(vmoe/data/builder.py:119-128). -/
def getTfdsBuilder {B : Type} (tfds : Tfds B) (cache : Cache B) (a : BuilderArgs) : Except PyErr B × Cache B :=
  match PyDict.get? cache (a.name, a.dataDir) with
  | some b => (.ok b, cache)
  | none => match newBuilder tfds a with
    | .error e => (.error e, cache)
    | .ok b => (.ok b, PyDict.set cache (a.name, a.dataDir) b)

/-- The results of a sequence of calls, from an empty cache (vmoe/data/builder.py:119-128). -/
def getTfdsBuilders {B : Type} (tfds : Tfds B) : Cache B → List BuilderArgs → List (Except PyErr B)
  | _, [] => []
  | cache, a :: l =>
    let r := getTfdsBuilder tfds cache a
    r.1 :: getTfdsBuilders tfds r.2 l

variable {V : Type}

/-- The fields of `TfdsBuilder` (vmoe/data/builder.py:65-72). -/
def builderFields : List Key :=
  ["name".toList, "split".toList, "data_dir".toList, "manual_dir".toList, "shuffle_files".toList, "shuffle_seed".toList,
    "try_gcs".toList, "ignore_errors".toList]

/-- `get_dataset_builder(**kwargs)`: a `TypeError` for an unknown field, or without name or split
(vmoe/data/builder.py:131-133); the result is the dict of the given fields. -/
def getDatasetBuilder (kwargs : PyDict Key V) : Except PyErr (PyDict Key V) :=
  if (PyDict.keys kwargs).any (fun k => k ∉ builderFields) then .error .typeError
  else if "name".toList ∉ PyDict.keys kwargs ∨ "split".toList ∉ PyDict.keys kwargs then .error .typeError
  else .ok kwargs

/-- The parameters of `get_dataset` (vmoe/data/input_pipeline.py:55-68). -/
def datasetParams : List Key :=
  ["variant".toList, "name".toList, "split".toList, "batch_size".toList, "process".toList, "cache".toList,
    "num_parallel_calls".toList, "pre_filter_fn".toList, "prefetch".toList, "shuffle_buffer".toList, "shuffle_seed".toList]

/-- Those without default (vmoe/data/input_pipeline.py:57-61). -/
def datasetRequired : List Key := ["name".toList, "split".toList, "batch_size".toList, "process".toList]

/-- The entries of a dict with the given keys (vmoe/data/input_pipeline.py:161). -/
def restrict (p : Key → Bool) (d : PyDict Key V) : PyDict Key V := d.filter fun kv => p kv.1

/-- The builder created by `get_datasets` for a variant, from its configuration as a dict
(vmoe/data/input_pipeline.py:45-51, 96-101): `prefetch_device` is removed, `variant` given twice or a missing argument is a
`TypeError`, and so is an additional builder argument `shuffle_files`. -/
def datasetBuilder (ofBool : Bool → V) (none_ : V) (variant : Key) (config : PyDict Key V) : Except PyErr (PyDict Key V) :=
  let config := restrict (fun k => k ≠ "prefetch_device".toList) config
  if "variant".toList ∈ PyDict.keys config then .error .typeError
  else match PyDict.get? config "name".toList, PyDict.get? config "split".toList with
  | some name, some split =>
    if datasetRequired.any (fun k => k ∉ PyDict.keys config) then .error .typeError
    else
      let extra := restrict (fun k => k ∉ datasetParams) config
      if "shuffle_files".toList ∈ PyDict.keys extra then .error .typeError
      else getDatasetBuilder
        ([("name".toList, name), ("split".toList, split), ("shuffle_files".toList, ofBool (variant = "train".toList)),
          ("shuffle_seed".toList, (PyDict.get? config "shuffle_seed".toList).getD none_)] ++ extra)
  | _, _ => .error .typeError

/-- `pipeline_keys` (vmoe/data/input_pipeline.py:158-160). -/
def pipelineKeys : List Key :=
  ["variant".toList, "batch_size".toList, "process".toList, "cache".toList, "num_parallel_calls".toList, "prefetch".toList,
    "prefetch_device".toList, "shuffle_buffer".toList, "pre_filter_fn".toList]

/-- The builder whose examples `get_data_num_examples` counts (vmoe/data/input_pipeline.py:154-163). -/
def countedBuilder (config : PyDict Key V) : Except PyErr (PyDict Key V) :=
  let kwargs := restrict (fun k => k ∉ pipelineKeys) config
  if "name".toList ∉ PyDict.keys kwargs then .error .typeError else getDatasetBuilder kwargs

end Verif.DataShare
