import Verif.Model.FlatDict
import Verif.Model.Hooks

/-!
The scalars of a progress report: `ReportProgress._apply_extra` (vmoe/train/periodic_actions.py:62-76) and its call in the training
loop (vmoe/train/trainer.py:825-827).  Numbers are exact.
-/

namespace Verif.Progress

open Verif FlatDict

/-- A metric (vmoe/train/periodic_actions.py:68): something that `float` converts, or an array of another size or another object. -/
inductive Leaf where
  | num (x : ℚ)
  | bad

/-- `float(v)` (vmoe/train/periodic_actions.py:68). -/
def toFloat : Leaf → Except PyErr ℚ
  | .num x => .ok x
  | .bad => .error .typeError

/-- A leaf of a flattened dict; empty dicts are left out (`flatten_dict` without `keep_empty_nodes`,
vmoe/train/periodic_actions.py:69). -/
def leafItem (p : List Key × Flat Leaf) : Option (List Key × Leaf) :=
  match p.2 with
  | .leaf v => some (p.1, v)
  | .empty => none

/-- `flatten_dict(scalar_metrics).items()` (vmoe/train/periodic_actions.py:69).  The paths are tuples, so no two are equal if the keys
of every dict are distinct. -/
def flattenDict (metrics : PyDict Key (Tree Leaf)) : List (List Key × Leaf) := (flattenItems [] metrics).filterMap leafItem

/-- One item of the dict comprehension (vmoe/train/periodic_actions.py:68). -/
def scalarItem (p : List Key × Leaf) : Except PyErr (Key × ℚ) := (toFloat p.2).map fun x => (join p.1, x)

/-- `{'/'.join(k): float(v) for k, v in ...}` (vmoe/train/periodic_actions.py:67-70). -/
def scalars (metrics : PyDict Key (Tree Leaf)) : Except PyErr (PyDict Key ℚ) :=
  ((flattenDict metrics).mapM scalarItem).map PyDict.ofItems

/-- `if memory_profiler: ...` (vmoe/train/periodic_actions.py:71-73); `none` if the module is not installed. -/
def addMemory (memory : Option ℚ) (d : PyDict Key ℚ) : PyDict Key ℚ :=
  match memory with
  | some x => PyDict.set d "host_memory_mb".toList x
  | none => d

/-- The loop over the times of the parts (vmoe/train/periodic_actions.py:74-75). -/
def addTimes (parts : PyDict Key ℚ) (d : PyDict Key ℚ) : PyDict Key ℚ :=
  parts.foldl (fun d p => PyDict.set d ("uptime_".toList ++ p.1) p.2) d

/-- `_apply_extra` (vmoe/train/periodic_actions.py:62-76): what is given to `write_scalars`, if there is a writer. -/
def applyExtra (writer : Bool) (memory : Option ℚ) (parts : PyDict Key ℚ) (metrics : Option (PyDict Key (Tree Leaf))) :
    Except PyErr (Option (PyDict Key ℚ)) :=
  if writer then (scalars (metrics.getD [])).map fun d => some (addTimes parts (addMemory memory d)) else .ok none

/-- `{f'train/{k}': v for k, v in metrics.items()}` (vmoe/train/trainer.py:826). -/
def trainItems (metrics : PyDict Key (Tree Leaf)) : PyDict Key (Tree Leaf) :=
  PyDict.ofItems (metrics.map fun p => ("train/".toList ++ p.1, p.2))

/-- `train_cost_fn(step) | {...}` (vmoe/train/trainer.py:825-827). -/
def trainMetrics (cost : PyDict Key ℚ) (metrics : PyDict Key (Tree Leaf)) : PyDict Key (Tree Leaf) :=
  (trainItems metrics).foldl (fun d p => PyDict.set d p.1 p.2) (cost.map fun p => (p.1, .leaf (.num p.2)))

end Verif.Progress
