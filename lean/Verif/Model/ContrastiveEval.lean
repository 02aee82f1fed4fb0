import Mathlib.Data.Real.Basic
import Verif.Model.PyErr
import Verif.Model.PyDict

/-!
Model of the evaluations of image-text models: the callbacks of `ZeroShotPeriodicAction` and `RetrievalPeriodicAction`
(vmoe/projects/contrastive/evaluators.py:40-181) and the function given to the evaluators of Big Vision
(vmoe/projects/contrastive/trainer.py:124-130,183-189).
-/

namespace Verif.ContrastiveEval

open Verif

/-- A Python string (e.g. vmoe/projects/contrastive/evaluators.py:96). -/
abbrev Key := List Char

variable {A I T Z : Type}

/-- `apply_fn` (vmoe/projects/contrastive/trainer.py:124-130,183-189).  `model` gives the embedding of images or texts; the
fields of the batch are missing or None as `none`. -/
def applyFn (model : A → Option I → Option T → Z) (vars : A) (image : Option I) (labels : Option T) :
    Except PyErr (Option Z × Option Z) :=
  if image.isNone = labels.isNone then .error .valueError
  else
    let z := model vars image labels
    if image.isNone then .ok (none, some z) else .ok (some z, none)

/-- `{k: v for k, v in kwargs.items() if v is not None}` (vmoe/projects/contrastive/evaluators.py:98,174). -/
def given (kwargs : PyDict Key (Option ℝ)) : PyDict Key ℝ := kwargs.filterMap fun kv => kv.2.map fun v => (kv.1, v)

/-- `a | b`, and `a.update(b)`, of dictionaries (vmoe/projects/contrastive/evaluators.py:98,164-171,174). -/
def merge (a b : PyDict Key ℝ) : PyDict Key ℝ := b.foldl (fun d kv => PyDict.set d kv.1 kv.2) a

/-- `f'{report_progress_name}/{task}/{metric}'` (vmoe/projects/contrastive/evaluators.py:96-97,165-173). -/
def key (rp task metric : Key) : Key := rp ++ '/' :: (task ++ '/' :: metric)

/-- The loop over the tasks (vmoe/projects/contrastive/evaluators.py:93-97).  `clock i` is the time read after the `i`-th task;
`t0` is the time before the loop. -/
def zeroShotLoop (rp : Key) (evaluate : Key → PyDict Key ℝ) (t0 : ℝ) (clock : Nat → ℝ) :
    Nat → List Key → PyDict Key ℝ → Except PyErr (PyDict Key ℝ)
  | _, [], metrics => .ok metrics
  | i, task :: tasks, metrics =>
    match PyDict.get? (evaluate task) "accuracy".toList with
    | none => .error .keyError
    | some acc =>
      let t1 := clock i
      let metrics := PyDict.set metrics (key rp task "accuracy".toList) acc
      let metrics := PyDict.set metrics (key rp task "duration_secs".toList) (t1 - t0)
      zeroShotLoop rp evaluate t0 clock (i + 1) tasks metrics

/-- `callback_fn` of `ZeroShotPeriodicAction` (vmoe/projects/contrastive/evaluators.py:89-99): the metrics that are written.
`tasks` are the keys of `evaluator.datasets`. -/
def zeroShot (rp : Key) (tasks : List Key) (evaluate : A → Key → PyDict Key ℝ) (t0 : ℝ) (clock : Nat → ℝ) (vars : A)
    (kwargs : PyDict Key (Option ℝ)) : Except PyErr (PyDict Key ℝ) := do
  let metrics ← zeroShotLoop rp (evaluate vars) t0 clock 0 tasks []
  .ok (merge metrics (given kwargs))

/-- `callback_fn` of `RetrievalPeriodicAction` (vmoe/projects/contrastive/evaluators.py:159-175): the metrics that are written.
The evaluator returns a dictionary for each direction. -/
def retrieval (rp task : Key) (evaluate : A → PyDict Key (PyDict Key ℝ)) (t0 t1 : ℝ) (vars : A)
    (kwargs : PyDict Key (Option ℝ)) : Except PyErr (PyDict Key ℝ) :=
  let bv := evaluate vars
  match PyDict.get? bv "txt2img".toList with
  | none => .error .keyError
  | some t2i =>
    let metrics := merge [] (PyDict.ofItems (t2i.map fun kv => (key rp task ("txt2img/".toList ++ kv.1), kv.2)))
    match PyDict.get? bv "img2txt".toList with
    | none => .error .keyError
    | some i2t =>
      let metrics := merge metrics (PyDict.ofItems (i2t.map fun kv => (key rp task ("img2txt/".toList ++ kv.1), kv.2)))
      let metrics := PyDict.set metrics (key rp task "duration_secs".toList) (t1 - t0)
      .ok (merge metrics (given kwargs))

end Verif.ContrastiveEval
