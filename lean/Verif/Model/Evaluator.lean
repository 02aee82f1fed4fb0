import Verif.Model.DataPipeline
import Mathlib.Data.Real.Basic
import Mathlib.Algebra.BigOperators.Group.List.Basic

/-!
Model of `EvalState.update`, `evaluate_step` and `evaluate_dataset` (vmoe/evaluate/evaluator.py:46-258).
Arrays with a leading batch axis are lists over that axis; 32-bit floats are replaced by reals.
-/

namespace Verif.Evaluator

/-- `EvalState` (vmoe/evaluate/evaluator.py:46-51).  All keys of `rngs` together are one value. -/
structure EvalState (R : Type) where
  num : ℝ
  sumCorrect : ℝ
  sumLoss : ℝ
  rngs : R

/-- A batch (vmoe/evaluate/evaluator.py:234-236). -/
structure Batch (X : Type) where
  image : List X
  labels : List (List ℝ)
  valid : List ℝ

/-- What is given to `evaluate_step` besides the state and the batch (vmoe/evaluate/evaluator.py:240-249); the
parameters are part of `applyFn`, its second result (the metrics) is dropped.  `lossFn` gives the loss values
of each example, over all other axes.  `numClasses` is `labels.shape[1]`. -/
structure Fns (X L R : Type) where
  rngSplit : R → R × R
  applyFn : List X → R → List L
  lossFn : List L → List (List ℝ) → List (List ℝ)
  labelPredFn : List L → List Nat

variable {X L R : Type}

/-- `jax.nn.one_hot(i, n)` (vmoe/evaluate/evaluator.py:256). -/
def oneHot (i n : Nat) : List ℝ := (List.range n).map fun c => if c = i then 1 else 0

/-- `EvalState.update` (vmoe/evaluate/evaluator.py:53-58). -/
def EvalState.update (s : EvalState R) (num : ℝ) (correct : List (List ℝ)) (loss : List ℝ) (rngs : R) :
    EvalState R where
  num := s.num + num
  sumCorrect := s.sumCorrect + (correct.map List.sum).sum
  sumLoss := s.sumLoss + loss.sum
  rngs := rngs

/-- The masked loss (vmoe/evaluate/evaluator.py:254): `valid * jnp.sum(loss, axis=(1, ...))`. -/
def maskedLoss (valid : List ℝ) (loss : List (List ℝ)) : List ℝ :=
  List.zipWith (fun v l => v * l.sum) valid loss

/-- The correct predictions (vmoe/evaluate/evaluator.py:255-256): `valid[:, None] * labels * one_hot(pred, n)`. -/
def correctArray (valid : List ℝ) (labels : List (List ℝ)) (preds : List Nat) : List (List ℝ) :=
  List.zipWith (fun vl p => List.zipWith (fun x h => vl.1 * x * h) vl.2 (oneHot p vl.2.length))
    (valid.zip labels) preds

/-- `evaluate_step` (vmoe/evaluate/evaluator.py:240-258). -/
def evaluateStep (F : Fns X L R) (s : EvalState R) (b : Batch X) : EvalState R :=
  let (rngs, nextRngs) := F.rngSplit s.rngs
  let logits := F.applyFn b.image rngs
  let loss := maskedLoss b.valid (F.lossFn logits b.labels)
  let correct := correctArray b.valid b.labels (F.labelPredFn logits)
  s.update b.valid.sum correct loss nextRngs

/-- `evaluate_dataset` (vmoe/evaluate/evaluator.py:226-237). -/
def evaluateDataset (F : Fns X L R) (s : EvalState R) (batches : List (Batch X)) : EvalState R :=
  batches.foldl (evaluateStep F) s

/-- The batch of a list of examples, given as image, labels and validity
(vmoe/evaluate/evaluator.py:235-236). -/
def toBatch (l : List (X × List ℝ × ℝ)) : Batch X :=
  ⟨l.map fun e => e.1, l.map fun e => e.2.1, l.map fun e => e.2.2⟩

/-- `d[k]` (vmoe/evaluate/evaluator.py:235-236). -/
def getKey (d : DataPipeline.Data) (k : String) : Except PyErr DataPipeline.Tensor :=
  match PyDict.get? d k with
  | some t => .ok t
  | none => .error .keyError

/-- A validity mask must be a scalar per example to broadcast in `valid[:, None] * labels`
(vmoe/evaluate/evaluator.py:255). -/
def scalar (t : DataPipeline.Tensor) : Except PyErr ℝ :=
  match t.data with
  | [v] => .ok v
  | _ => .error .valueError

/-- `batch['image'], batch['labels'], batch[VALID_KEY]`, of one example of the batch
(vmoe/evaluate/evaluator.py:235-236).  The labels are a vector of class weights. -/
def readExample (d : DataPipeline.Data) : Except PyErr (DataPipeline.Tensor × List ℝ × ℝ) := do
  let image ← getKey d "image"
  let labels ← getKey d "labels"
  let valid ← getKey d DataPipeline.validKey
  let v ← scalar valid
  return (image, labels.data, v)

/-- `evaluate_dataset` on the batches of data elements (vmoe/evaluate/evaluator.py:226-237). -/
def evaluateData (F : Fns DataPipeline.Tensor L R) (s : EvalState R)
    (batches : List (List DataPipeline.Data)) : Except PyErr (EvalState R) := do
  let bs ← batches.mapM fun b => b.mapM readExample
  return evaluateDataset F s (bs.map toBatch)

/-- The state at the start of an evaluation (vmoe/evaluate/evaluator.py:161-167). -/
def initState (rngs : R) : EvalState R := ⟨0, 0, 0, rngs⟩

end Verif.Evaluator
