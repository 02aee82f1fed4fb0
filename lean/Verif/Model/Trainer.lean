import Verif.Model.PyErr
import Verif.Model.Partitioning
import Mathlib.Algebra.Module.Basic
import Mathlib.Data.Real.Basic
import Mathlib.Algebra.Order.Round
import Mathlib.Data.Rat.Floor

/-!
Parts of vmoe/train/trainer.py: the length of the training and the accumulation of gradients.
-/

namespace Verif.Trainer

open Verif

/-- `not x` for an optional number (vmoe/train/trainer.py:92,488,494). -/
def falsy {α : Type} [Zero α] [DecidableEq α] : Option α → Bool
  | none => true
  | some x => decide (x = 0)

/-- `get_train_steps_and_epochs` (vmoe/train/trainer.py:480-497).  Floats are exact rationals; `int(np.ceil(x))` is the
ceiling.  The two divisions raise `ZeroDivisionError` for a zero divisor. -/
def getTrainStepsAndEpochs (trainBatchSize trainExamples : Int) (trainSteps : Option Int) (trainEpochs : Option ℚ) :
    Except PyErr (Int × ℚ) := do
  if falsy trainSteps && falsy trainEpochs then throw .valueError
  if trainSteps.isSome && trainEpochs.isSome then throw .valueError
  let steps ← (if falsy trainSteps then
      if trainBatchSize = 0 then throw .zeroDivisionError
      else pure ⌈trainEpochs.getD 0 * trainExamples / trainBatchSize⌉
    else pure (trainSteps.getD 0) : Except PyErr Int)
  if trainExamples = 0 then throw .zeroDivisionError
  return (steps, (steps : ℚ) * trainBatchSize / trainExamples)

/-- `x.reshape((-1, m) + x.shape[1:])` for an array given by the list of its examples
(vmoe/train/trainer.py:105-106). -/
def reshapeRows {α : Type} (m : Nat) (xs : List α) : Except PyErr (List (List α)) :=
  if m = 0 ∨ xs.length % m ≠ 0 then .error .typeError
  else .ok ((List.range (xs.length / m)).map fun r => (xs.drop (r * m)).take m)

/-- `jax.lax.dynamic_index_in_dim(x, i, axis=1, keepdims=False)` (vmoe/train/trainer.py:112-113,121-122); the index is
clamped to the last column. -/
def dynamicIndex {α : Type} (rows : List (List α)) (i : Nat) : List α :=
  rows.filterMap fun row => row[min i (row.length - 1)]?

/-- The type of `grad_and_metrics_fn(params, images, labels, rngs)` (vmoe/train/trainer.py:84-86): gradients, the next
generators and metrics.  Batches are lists of examples, gradients and metrics are vectors (trees of arrays, added and
scaled entry by entry). -/
abbrev GradFn (P I L R G M : Type) := P → List I → List L → R → Except PyErr (G × R × M)

section
variable {P I L R G M : Type} [AddCommGroup G] [Module ℝ G] [AddCommGroup M] [Module ℝ M]

/-- `accum_fn(i, state)` (vmoe/train/trainer.py:110-118). -/
def accumFn (fn : GradFn P I L R G M) (params : P) (images : List (List I)) (labels : List (List L))
    (state : G × R × M) (i : Nat) : Except PyErr (G × R × M) := do
  let (newGrad, nextRngs, newMetrics) ← fn params (dynamicIndex images i) (dynamicIndex labels i) state.2.1
  return (state.1 + newGrad, nextRngs, state.2.2 + newMetrics)

/-- `accumulate_gradients_and_metrics(fn, microsteps)` (vmoe/train/trainer.py:76-131) on a machine with `devices`
devices.  `jax.lax.fori_loop(1, microsteps, ...)` is a fold.  The sharding constraints are left out: they do not
change values. -/
noncomputable def accumulate (devices : Nat) (fn : GradFn P I L R G M) (microsteps : Option Int) : GradFn P I L R G M :=
  if falsy microsteps || decide (microsteps.getD 0 < 0) then fn
  else fun params images labels rngs => do
    let m := (microsteps.getD 0).toNat
    if images.length / devices % m ≠ 0 then throw .assertionError
    let imageRows ← reshapeRows m images
    let labelRows ← reshapeRows m labels
    let first ← fn params (dynamicIndex imageRows 0) (dynamicIndex labelRows 0) rngs
    let (grads, nextRngs, metrics) ← (List.range' 1 (m - 1)).foldlM (accumFn fn params imageRows labelRows) first
    return ((1 / (m : ℝ)) • grads, nextRngs, (1 / (m : ℝ)) • metrics)
end

/-- A leaf of a partially initialized train state (vmoe/train/trainer.py:281-282): an array with its sharding, or a
`jax.ShapeDtypeStruct` of which only the sharding matters here. -/
inductive Leaf (V S : Type) where
  | array (value : V) (sharding : S)
  | struct (sharding : S)
  deriving DecidableEq

/-- `out_axis_resources` (vmoe/train/trainer.py:296-299). -/
def outAxisResources {V S : Type} (flat : PyDict FlatDict.Key (FlatDict.Flat (Leaf V S))) : PyDict FlatDict.Key S :=
  flat.filterMap fun kv => match kv.2 with
    | .leaf (.struct s) => some (kv.1, s)
    | _ => none

/-- A value returned by the compiled initialization with the sharding requested for it (vmoe/train/trainer.py:311-313);
an empty node has no arrays. -/
def placed {V S : Type} (s : S) : FlatDict.Flat V → FlatDict.Flat (Leaf V S)
  | .leaf v => .leaf (.array v s)
  | .empty => .empty

/-- `create_or_reuse_train_state` (vmoe/train/trainer.py:272-319) for train states that are nested dicts; `fresh` is
the state returned by `initialize_fn`.  `pjit` raises `ValueError` if the keys of the output differ from the keys of
`out_shardings`; the keys of the output are among those by construction. -/
def createOrReuse {V S : Type} (state : List (FlatDict.Key × FlatDict.Tree (Leaf V S)))
    (fresh : List (FlatDict.Key × FlatDict.Tree V)) :
    Except PyErr (List (FlatDict.Key × FlatDict.Tree (Leaf V S))) := do
  let flat := FlatDict.flatten state
  let out := outAxisResources flat
  let init := (FlatDict.flatten fresh).filterMap fun kv => (PyDict.get? out kv.1).map fun s => (kv.1, placed s kv.2)
  if (PyDict.keys out).any fun k => (PyDict.get? init k).isNone then throw .valueError
  let flat' := init.foldl (fun d kv => PyDict.set d kv.1 kv.2) flat
  let tree ← FlatDict.unflatten flat'
  Partitioning.fromStateItems state tree

end Verif.Trainer
