import Verif.Model.PyErr

/-!
Device buffers in the training loop: `train_step_pjit` is compiled with `donate_argnums=(0, 1, 2)`
(vmoe/train/trainer.py:751-758) and the evaluation step with `donate_argnums=(0, 2, 3, 4)`
(vmoe/evaluate/evaluator.py:266-281), so these calls delete the buffers of their arguments, and reading a deleted buffer
raises RuntimeError.  The model follows the loop of `train_and_evaluate` (vmoe/train/trainer.py:787-838) and of the
evaluation (vmoe/evaluate/evaluator.py:192-217,226-237) on a memory of buffers.

Simplifications: the train state is two buffers, `params` and the rest; a checkpoint is read when `ckpt_manager.save`
is called (the manager copies the arrays to the host before it returns); on which steps hooks act is arbitrary.
-/

namespace Verif.Donation

open Verif

variable {V K : Type}

/-- Device memory: the buffers that are not deleted, and the first address never used (vmoe/train/trainer.py:757). -/
structure Mem (V : Type) where
  cells : Nat → Option V
  next : Nat

/-- A new buffer (e.g. an output of vmoe/train/trainer.py:823). -/
def alloc (m : Mem V) (v : V) : Mem V × Nat :=
  (⟨fun r => if r = m.next then some v else m.cells r, m.next + 1⟩, m.next)

/-- The deletion of donated buffers (vmoe/train/trainer.py:757, vmoe/evaluate/evaluator.py:280). -/
def delete (m : Mem V) (rs : List Nat) : Mem V := ⟨fun r => if r ∈ rs then none else m.cells r, m.next⟩

/-- Reading a buffer (e.g. vmoe/train/trainer.py:825,828): RuntimeError if it was deleted. -/
def read (m : Mem V) (r : Nat) : Except PyErr V :=
  match m.cells r with
  | some v => .ok v
  | none => .error .runtimeError

/-- References to the train state (vmoe/train/trainer.py:823). -/
structure State where
  params : Nat
  rest : Nat

/-- `train_step_pjit(train_state, images, labels)` (vmoe/train/trainer.py:751-758,823-824): all three arguments are donated;
donating a buffer twice is an error.  Returns the new state and the metrics. -/
def trainStepPjit (f : V → V → V → V → V × V × V) (m : Mem V) (s : State) (image labels : Nat) :
    Except PyErr (Mem V × State × Nat) :=
  if ¬ [s.params, s.rest, image, labels].Nodup then .error .runtimeError
  else do
    let p ← read m s.params
    let o ← read m s.rest
    let i ← read m image
    let l ← read m labels
    let m := delete m [s.params, s.rest, image, labels]
    let (m, p') := alloc m (f p o i l).1
    let (m, o') := alloc m (f p o i l).2.1
    let (m, metrics) := alloc m (f p o i l).2.2
    .ok (m, ⟨p', o'⟩, metrics)

/-- `eval_step_pjit(eval_state, params, images, labels, valid)` (vmoe/evaluate/evaluator.py:235-236,266-281): everything but
`params` is donated. -/
def evalStepPjit (g : V → V → V → V → V → V) (m : Mem V) (state params image labels valid : Nat) :
    Except PyErr (Mem V × Nat) :=
  if ¬ [state, params, image, labels, valid].Nodup then .error .runtimeError
  else do
    let s ← read m state
    let p ← read m params
    let i ← read m image
    let l ← read m labels
    let v ← read m valid
    let m := delete m [state, image, labels, valid]
    .ok (alloc m (g s p i l v))

/-- `evaluate_dataset` (vmoe/evaluate/evaluator.py:226-237): the batches arrive on the devices one by one. -/
def evaluateDataset (g : V → V → V → V → V → V) (params : Nat) :
    Mem V → Nat → List (V × V × V) → Except PyErr (Mem V × Nat)
  | m, state, [] => .ok (m, state)
  | m, state, b :: bs => do
    let (m, image) := alloc m b.1
    let (m, labels) := alloc m b.2.1
    let (m, valid) := alloc m b.2.2
    let (m, state) ← evalStepPjit g m state params image labels valid
    evaluateDataset g params m state bs

/-- What the hooks let out: what is written, and at which step (vmoe/train/trainer.py:825-831;
vmoe/evaluate/evaluator.py:205-214). -/
inductive Event (V K : Type) where
  | progress (step : Nat) (metrics : V)
  | checkpoint (step : Nat) (params rest : V)
  | evaluation (step : Nat) (name : K) (state : V)
  | fewshot (step : Nat) (params : V)

/-- The loop over the data sets of the evaluation (vmoe/evaluate/evaluator.py:195-214); `init` is the value of the state that
`make_eval_state_pjit(seed)` creates for every data set. -/
def evaluateAll (g : V → V → V → V → V → V) (init : V) (step params : Nat) :
    Mem V → List (K × List (V × V × V)) → Except PyErr (Mem V × List (Event V K))
  | m, [] => .ok (m, [])
  | m, d :: ds => do
    let (m, state) := alloc m init
    let (m, state) ← evaluateDataset g params m state d.2
    let v ← read m state
    let (m, events) ← evaluateAll g init step params m ds
    .ok (m, .evaluation step d.1 v :: events)

/-- Which hooks act at a step (vmoe/train/trainer.py:825-831). -/
structure Hooks where
  progress : Nat → Bool
  checkpoint : Nat → Bool
  evaluation : Nat → Bool
  fewshot : Nat → Bool

/-- `progress_hook` reads the metrics (vmoe/train/trainer.py:825-827). -/
def progressHook (hooks : Hooks) (m : Mem V) (step metrics : Nat) : Except PyErr (List (Event V K)) :=
  if hooks.progress step then do
    let v ← read m metrics
    .ok [.progress step v]
  else .ok []

/-- `_save_checkpoint` reads the whole state (vmoe/train/trainer.py:787-796,828). -/
def saveCheckpoint (m : Mem V) (step : Nat) (s : State) : Except PyErr (List (Event V K)) := do
  let p ← read m s.params
  let o ← read m s.rest
  .ok [.checkpoint step p o]

/-- The checkpoints inside of the loop (vmoe/train/trainer.py:828). -/
def checkpointHook (hooks : Hooks) (m : Mem V) (step : Nat) (s : State) : Except PyErr (List (Event V K)) :=
  if hooks.checkpoint step then saveCheckpoint m step s else .ok []

/-- `evaluation_hook` (vmoe/train/trainer.py:829). -/
def evaluationHook (hooks : Hooks) (g : V → V → V → V → V → V) (init : V) (datasets : List (K × List (V × V × V)))
    (m : Mem V) (step : Nat) (s : State) : Except PyErr (Mem V × List (Event V K)) :=
  if hooks.evaluation step then evaluateAll g init step s.params m datasets else .ok (m, [])

/-- `fewshot_hook` reads the parameters; its step donates nothing (vmoe/train/trainer.py:830-831,
vmoe/evaluate/fewshot.py:332-350). -/
def fewshotHook (hooks : Hooks) (m : Mem V) (step : Nat) (s : State) : Except PyErr (List (Event V K)) :=
  if hooks.fewshot step then do
    let p ← read m s.params
    .ok [.fewshot step p]
  else .ok []

/-- The functions that are compiled, the first state of an evaluation and its data sets (vmoe/train/trainer.py:751,770-781). -/
structure Fns (V K : Type) where
  train : V → V → V → V → V × V × V
  eval : V → V → V → V → V → V
  init : V
  datasets : List (K × List (V × V × V))

/-- The loop (vmoe/train/trainer.py:820-831) from the given step. -/
def loop (hooks : Hooks) (fns : Fns V K) : Nat → Mem V → State → List (V × V) →
    Except PyErr (Mem V × State × List (Event V K))
  | _, m, s, [] => .ok (m, s, [])
  | step, m, s, b :: bs => do
    let (m, image) := alloc m b.1
    let (m, labels) := alloc m b.2
    let (m, s, metrics) ← trainStepPjit fns.train m s image labels
    let e1 ← progressHook hooks m step metrics
    let e2 ← checkpointHook hooks m step s
    let (m, e3) ← evaluationHook hooks fns.eval fns.init fns.datasets m step s
    let e4 ← fewshotHook hooks m step s
    let (m, s, events) ← loop hooks fns (step + 1) m s bs
    .ok (m, s, e1 ++ e2 ++ e3 ++ e4 ++ events)

/-- A checkpoint outside of the loop, if it is needed (vmoe/train/trainer.py:797-799,833-836). -/
def saveIf (needed : Bool) (m : Mem V) (step : Nat) (s : State) : Except PyErr (List (Event V K)) :=
  if needed then saveCheckpoint m step s else .ok []

/-- From the first checkpoint to the last (vmoe/train/trainer.py:797-836).  `saveFirst` and `saveLast` say whether the two
checkpoints outside of the loop are written; the batches are those that the loop takes. -/
def run (hooks : Hooks) (fns : Fns V K) (saveFirst saveLast : Bool) (initStep trainSteps : Nat) (m : Mem V) (s : State)
    (batches : List (V × V)) : Except PyErr (List (Event V K)) := do
  let e0 ← saveIf saveFirst m initStep s
  let (m, s, events) ← loop hooks fns (initStep + 1) m s batches
  let e1 ← saveIf saveLast m trainSteps s
  .ok (e0 ++ events ++ e1)

end Verif.Donation
