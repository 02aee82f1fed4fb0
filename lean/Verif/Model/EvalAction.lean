import Verif.Model.Evaluator
import Verif.Model.PyDict

/-!
Model of the callback of `EvaluateMultipleDatasets` (vmoe/evaluate/evaluator.py:61-223), called at
several steps of the training.
-/

namespace Verif.EvalAction

open Verif Verif.Evaluator

variable {X L R A : Type}

/-- A dataset iterator: the batches from its beginning, and the batches not yet read
(`clu.data.DatasetIterator`, whose `iter` is the object itself; vmoe/evaluate/evaluator.py:203,214).
Only finite datasets are modelled. -/
structure Dataset (X : Type) where
  contents : List (Batch X)
  remaining : List (Batch X)

/-- `dataset.reset()` (vmoe/evaluate/evaluator.py:214). -/
def Dataset.reset (d : Dataset X) : Dataset X := { d with remaining := d.contents }

/-- A reported value (vmoe/evaluate/evaluator.py:182-188,210-212).  `number none` is a float that is
not finite; the values of time measurements are not modelled. -/
inductive Value where
  | number (v : Option ℝ)
  | seconds

/-- Division of float32 arrays, which never raises (vmoe/evaluate/evaluator.py:210-211). -/
noncomputable def fdiv (a b : ℝ) : Option ℝ := open Classical in if b = 0 then none else some (a / b)

/-- One call of the action (vmoe/evaluate/evaluator.py:192): the step, the parameters and the other
keyword arguments, where `none` is None. -/
structure Call (A : Type) where
  step : Nat
  params : A
  kwargs : PyDict (List Char) (Option ℝ)

/-- What persists between calls: the iterators, the keys of the cache of compiled functions
(vmoe/evaluate/evaluator.py:169-170) and everything given to `metric_writer.write_scalars` so far. -/
structure State (X : Type) where
  datasets : PyDict (List Char) (Dataset X)
  compiled : List (List Char)
  writes : List (Nat × PyDict (List Char) Value)

/-- `f'{name}/{metric}'` (vmoe/evaluate/evaluator.py:182-188,210-212). -/
def key (name : List Char) (metric : String) : List Char := name ++ '/' :: metric.toList

/-- `compile_for_dataset` with its cache (vmoe/evaluate/evaluator.py:169-190): returns the cache and
the writes.  The flops and seconds of XLA are not modelled. -/
def compileForDataset (name : List Char) (step : Nat) (compiled : List (List Char))
    (writes : List (Nat × PyDict (List Char) Value)) :
    List (List Char) × List (Nat × PyDict (List Char) Value) :=
  if name ∈ compiled then (compiled, writes)
  else (compiled ++ [name], writes ++ [(step, [(key name "compile_secs", .seconds)])])

/-- The loop of `callback_fn` over `datasets.items()` (vmoe/evaluate/evaluator.py:195-214).  `rngs` is
`make_rngs(rng_keys, seed)`. -/
noncomputable def loop (F : Fns X L R) (rngs : R) (step : Nat) :
    PyDict (List Char) (Dataset X) → List (List Char) → List (Nat × PyDict (List Char) Value) →
    PyDict (List Char) Value →
    PyDict (List Char) (Dataset X) × List (List Char) × List (Nat × PyDict (List Char) Value) ×
      PyDict (List Char) Value
  | [], compiled, writes, metrics => ([], compiled, writes, metrics)
  | (name, d) :: rest, compiled, writes, metrics =>
    let (compiled, writes) := compileForDataset name step compiled writes
    let s := evaluateDataset F (initState rngs) d.remaining
    let metrics := PyDict.set metrics (key name "prec@1") (.number (fdiv s.sumCorrect s.num))
    let metrics := PyDict.set metrics (key name "loss") (.number (fdiv s.sumLoss s.num))
    let metrics := PyDict.set metrics (key name "duration_secs") .seconds
    let (ds, compiled, writes, metrics) := loop F rngs step rest compiled writes metrics
    ((name, d.reset) :: ds, compiled, writes, metrics)

/-- `{k: v for k, v in kwargs.items() if v is not None}` (vmoe/evaluate/evaluator.py:216). -/
def given (kwargs : PyDict (List Char) (Option ℝ)) : PyDict (List Char) Value :=
  kwargs.filterMap fun kv => kv.2.map fun v => (kv.1, Value.number (some v))

/-- `a | b` of dictionaries (vmoe/evaluate/evaluator.py:216). -/
def merge (a b : PyDict (List Char) Value) : PyDict (List Char) Value :=
  b.foldl (fun d kv => PyDict.set d kv.1 kv.2) a

/-- `callback_fn` (vmoe/evaluate/evaluator.py:192-217). -/
noncomputable def callback (F : A → Fns X L R) (rngs : R) (st : State X) (c : Call A) : State X :=
  let (ds, compiled, writes, metrics) := loop (F c.params) rngs c.step st.datasets st.compiled
    st.writes []
  { datasets := ds
    compiled := compiled
    writes := writes ++ [(c.step, merge metrics (given c.kwargs))] }

/-- A sequence of calls during training (the action runs at the triggering steps,
vmoe/evaluate/evaluator.py:64-68). -/
noncomputable def run (F : A → Fns X L R) (rngs : R) (st : State X) (calls : List (Call A)) : State X :=
  calls.foldl (callback F rngs) st

end Verif.EvalAction
