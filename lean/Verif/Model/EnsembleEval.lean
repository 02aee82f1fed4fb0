import Mathlib.Analysis.SpecialFunctions.Log.Basic
import Verif.Model.PyErr

/-!
Losses and predictions of ensembles (vmoe/evaluate/ensemble.py).  Numbers are reals: overflow, infinities and NaN are not
modelled, and `logsumexp` is written without the subtraction of the maximum.  A matrix is the list of its rows, a row is a
function of the class.
-/

namespace Verif.EnsembleEval

open Verif

variable {C : Nat}

/-- A row of logits or labels: the value of every class (vmoe/evaluate/ensemble.py:40). -/
abbrev Row (C : Nat) := Fin C → ℝ

/-- `_multiply_no_nan` (vmoe/evaluate/ensemble.py:25-30). -/
noncomputable def multiplyNoNan (x y : ℝ) : ℝ :=
  let safeX := if x ≠ 0 then x else 1
  let safeY := if x ≠ 0 then y else 1
  if x ≠ 0 then safeX * safeY else 0

/-- `jax.nn.log_softmax` over the last axis (used in vmoe/evaluate/ensemble.py:110). -/
noncomputable def logSoftmax (x : Row C) : Row C := fun c => x c - Real.log (∑ c, Real.exp (x c))

/-- `jax.nn.log_sigmoid`: `-softplus(-x)` (used in vmoe/evaluate/ensemble.py:128). -/
noncomputable def logSigmoid (x : Row C) : Row C := fun c => -Real.log (1 + Real.exp (-(x c)))

/-- `jnp.reshape(logits, (-1, ensemble_size, num_classes))` (vmoe/evaluate/ensemble.py:50); the result is the list of the
blocks of `ensembleSize` rows. -/
def reshape (rows : List (Row C)) (ensembleSize : Nat) : Except PyErr (List (List (Row C))) :=
  if ensembleSize = 0 then .error .zeroDivisionError
  else if rows.length % ensembleSize ≠ 0 then .error .typeError
  else .ok ((List.range (rows.length / ensembleSize)).map fun b => (rows.drop (b * ensembleSize)).take ensembleSize)

/-- `_ensemble_log_mean` (vmoe/evaluate/ensemble.py:33-53). -/
noncomputable def logMean (logits : List (Row C)) (ensembleSize : Nat) (logNormalization : Row C → Row C) :
    Except PyErr (List (Row C)) := do
  let logits ← reshape logits ensembleSize
  let logP := logits.map fun members => members.map logNormalization
  .ok (logP.map fun members c => Real.log ((members.map fun row => Real.exp (row c)).sum) - Real.log ensembleSize)

/-- Two matrices of the same number of rows (vmoe/evaluate/ensemble.py:73).  The broadcast of a single row is not
modelled. -/
def zipRows {α β γ : Type} (f : α → β → γ) (x : List α) (y : List β) : Except PyErr (List γ) :=
  if x.length = y.length then .ok (List.zipWith f x y) else .error .typeError

/-- `jnp.repeat(labels, ensemble_size, axis=0)` (vmoe/evaluate/ensemble.py:72, 92). -/
def repeatRows (labels : List (Row C)) (ensembleSize : Nat) : List (Row C) :=
  labels.flatMap fun row => List.replicate ensembleSize row

/-- `optax.softmax_cross_entropy` of a row: `-sum(labels * log_softmax(logits))` (used in
vmoe/evaluate/ensemble.py:73). -/
noncomputable def softmaxXent (logits labels : Row C) : ℝ := -∑ c, labels c * logSoftmax logits c

/-- `optax.sigmoid_binary_cross_entropy` of a row: `-labels * log_p - (1 - labels) * log_not_p` (used in
vmoe/evaluate/ensemble.py:93). -/
noncomputable def sigmoidXent (logits labels : Row C) : Row C := fun c =>
  -labels c * logSigmoid logits c - (1 - labels c) * logSigmoid (-logits) c

/-- `ensemble_softmax_xent_train` (vmoe/evaluate/ensemble.py:56-73). -/
noncomputable def softmaxTrain (logits labels : List (Row C)) (ensembleSize : Nat) : Except PyErr (List ℝ) :=
  zipRows softmaxXent logits (repeatRows labels ensembleSize)

/-- `ensemble_sigmoid_xent_train` (vmoe/evaluate/ensemble.py:76-94). -/
noncomputable def sigmoidTrain (logits labels : List (Row C)) (ensembleSize : Nat) : Except PyErr (List ℝ) :=
  zipRows (fun x y => ∑ c, sigmoidXent x y c) logits (repeatRows labels ensembleSize)

/-- `ensemble_softmax_xent_eval` (vmoe/evaluate/ensemble.py:97-112). -/
noncomputable def softmaxEval (logits labels : List (Row C)) (ensembleSize : Nat) : Except PyErr (List ℝ) := do
  let logP ← logMean logits ensembleSize logSoftmax
  zipRows (fun y p => -∑ c, multiplyNoNan (y c) (p c)) labels logP

/-- `ensemble_sigmoid_xent_eval` (vmoe/evaluate/ensemble.py:115-130). -/
noncomputable def sigmoidEval (logits labels : List (Row C)) (ensembleSize : Nat) : Except PyErr (List ℝ) := do
  let logP ← logMean logits ensembleSize logSigmoid
  let logNotP ← logMean (logits.map fun row => -row) ensembleSize logSigmoid
  let a ← zipRows (fun (y p : Row C) => y * p) labels logP
  let b ← zipRows (fun (y p : Row C) => (1 - y) * p) labels logNotP
  zipRows (fun s t => -∑ c, (s + t) c) a b

/-- `jnp.argmax` of a row: the first class with the largest value; `ValueError` without classes (used in
vmoe/evaluate/ensemble.py:145, 160). -/
noncomputable def argmax (row : Row C) : Option (Fin C) :=
  (List.finRange C).foldl (fun best c => match best with
    | none => some c
    | some b => if row b < row c then some c else some b) none

/-- `label_pred_ensemble_softmax` (vmoe/evaluate/ensemble.py:133-145). -/
noncomputable def softmaxPred (logits : List (Row C)) (ensembleSize : Nat) : Except PyErr (List (Fin C)) := do
  let logP ← logMean logits ensembleSize logSoftmax
  logP.mapM fun row => match argmax row with
    | some c => .ok c
    | none => .error .valueError

/-- `label_pred_ensemble_sigmoid` (vmoe/evaluate/ensemble.py:148-160). -/
noncomputable def sigmoidPred (logits : List (Row C)) (ensembleSize : Nat) : Except PyErr (List (Fin C)) := do
  let logP ← logMean logits ensembleSize logSigmoid
  logP.mapM fun row => match argmax row with
    | some c => .ok c
    | none => .error .valueError

end Verif.EnsembleEval
