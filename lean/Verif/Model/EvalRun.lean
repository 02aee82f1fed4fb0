import Verif.Model.Evaluator
import Verif.Model.DataShare
import Verif.Model.Prefetch

/-!
One evaluation of a dataset split, from the examples to the accumulated values: every process reads its part of the split
and makes its batches (vmoe/data/input_pipeline.py:55-151), the batches of all processes become global arrays
(vmoe/data/pjit_utils.py:84-102), and these are evaluated one after another (vmoe/evaluate/evaluator.py:195-214).
-/

namespace Verif.EvalRun

open Verif DataPipeline

variable {L R : Type}

/-- The batches of all processes (vmoe/data/input_pipeline.py:55-151, vmoe/data/builder.py:78-96). -/
def localBatches (split : List Data) (mesh : List Prefetch.Device) (P batchSize : Nat) (process : Data → Except PyErr Data)
    (spec : PyDict String TensorSpec) (sched : Nat → List Data → List Data) : Except PyErr (List (List (List Data))) :=
  (List.range P).mapM fun p =>
    getEvalDataset (DataShare.sourceOf split P mesh.length p) batchSize none process spec (sched p)

/-- The `j`-th global batch (vmoe/data/pjit_utils.py:84-102): made of the `j`-th batches of all processes.  The examples are
rows; the arrays of the batch have the same rows. -/
def globalBatch (mesh : List Prefetch.Device) (P : Nat) (loc : List (List (List Data))) (j : Nat) : Except PyErr (List Data) :=
  Prefetch.globalArray mesh P fun p => (((loc[p]?).getD [])[j]?).getD []

/-- The evaluation of a split on a mesh with `P` processes (vmoe/evaluate/evaluator.py:195-208).  The first process decides
here how many batches there are; in the program each process decides for itself, and the theorems show that the numbers are
the same.  `F` has the model with its parameters. -/
def evalRun (F : Evaluator.Fns Tensor L R) (rngs : R) (split : List Data) (mesh : List Prefetch.Device) (P batchSize : Nat)
    (process : Data → Except PyErr Data) (spec : PyDict String TensorSpec) (sched : Nat → List Data → List Data) :
    Except PyErr (Evaluator.EvalState R) := do
  let loc ← localBatches split mesh P batchSize process spec sched
  let G ← (List.range ((loc[0]?).getD []).length).mapM (globalBatch mesh P loc)
  Evaluator.evaluateData F (Evaluator.initState rngs) G

end Verif.EvalRun
