import Verif.Model.PyErr
import Verif.Model.PyDict
import Mathlib.Data.Rat.Defs
import Mathlib.Algebra.Order.Ring.Unbundled.Rat

/-!
The hooks that run during training: progress reports and periodic evaluations (vmoe/train/trainer.py:168-260,539-553,760-830,
vmoe/train/periodic_actions.py:43-76, vmoe/projects/contrastive/trainer.py:67-211,330-407).

`clu.periodic_actions` is modelled from its source: `PeriodicAction.__call__` and the additional condition of
`ReportProgress`, which does not report in the step of the previous report.  `time.time()` is an arbitrary function.  Numbers
of steps and `every_steps` are not negative.  The profiler is left out.
-/

namespace Verif.Hooks

open Verif

/-- The arguments of a periodic action (vmoe/evaluate/evaluator.py:121-126, vmoe/train/periodic_actions.py:46-48). -/
structure Action where
  everySteps : Option Nat
  everySecs : Option ℚ
  onSteps : List Nat

/-- `_previous_step` and `_previous_time`, and `_last_step`, of `clu.periodic_actions.PeriodicAction`, whose constructor is
called in vmoe/evaluate/evaluator.py:121-126. -/
structure ActionState where
  previous : Option (Nat × ℚ)
  last : Nat

/-- A new action (vmoe/evaluate/evaluator.py:121-126). -/
def ActionState.new : ActionState := ⟨none, 0⟩

/-- `_init_and_check` of clu, called when a hook is called (vmoe/train/trainer.py:825-830). -/
def initAndCheck (a : Action) (st : ActionState) (step : Nat) (t : ℚ) : Except PyErr ActionState :=
  match st.previous with
  | none => .ok ⟨some (step, t), step⟩
  | some _ =>
    if a.everySteps.isSome ∧ step ≠ st.last + 1 then .error .valueError else .ok { st with last := step }

/-- `_should_trigger` of clu, called when a hook is called (vmoe/train/trainer.py:825-830). -/
def shouldTrigger (a : Action) (st : ActionState) (step : Nat) (t : ℚ) : Except PyErr Bool :=
  if a.everySteps = some 0 then .error .zeroDivisionError
  else if ∃ n ∈ a.everySteps, step % n = 0 then .ok true
  else if ∃ secs ∈ a.everySecs, ∃ p ∈ st.previous, t - p.2 > secs then .ok true
  else .ok (decide (step ∈ a.onSteps))

/-- Which hook it is: a callback, or `ReportProgress` with its `process_index`
(vmoe/train/periodic_actions.py:43-60). -/
inductive Kind where
  | callback
  | progress (process : Option Nat)

/-- `_should_trigger` of the hook (vmoe/train/periodic_actions.py:56-60). -/
def hookTrigger (kind : Kind) (process : Nat) (a : Action) (st : ActionState) (step : Nat) (t : ℚ) : Except PyErr Bool :=
  match kind with
  | .callback => shouldTrigger a st step t
  | .progress only =>
    if ∃ p ∈ only, process ≠ p then .ok false
    else if ∃ p ∈ st.previous, step = p.1 then .ok false
    else shouldTrigger a st step t

/-- `__call__` of the hook (vmoe/train/periodic_actions.py:50-54, vmoe/train/trainer.py:825-830). -/
def call (kind : Kind) (process : Nat) (a : Action) (st : ActionState) (step : Nat) (t : ℚ) :
    Except PyErr (Bool × ActionState) := do
  let st ← initAndCheck a st step t
  let b ← hookTrigger kind process a st step t
  return (b, if b then { st with previous := some (step, t) } else st)

/-- The options of a hook in the configuration of the training (vmoe/train/trainer.py:760-784). -/
structure HookConfig where
  everySteps : Option Nat
  everySecs : Option ℚ
  onSteps : List Nat

/-- The action of a hook, which always has the first and the last step (vmoe/train/trainer.py:185-187,219-221,256-258,
vmoe/projects/contrastive/trainer.py:87-89,119-120,178-179). -/
def create (c : HookConfig) (firstStep trainSteps : Nat) : Action :=
  ⟨c.everySteps, c.everySecs, c.onSteps ++ [firstStep, trainSteps]⟩

/-- The evaluation hooks in the order of the calls (vmoe/train/trainer.py:829-830): the few-shot evaluation is only there if it
has options (vmoe/train/trainer.py:214-215). -/
def trainerHooks (evaluate : HookConfig) (fewshot : Option HookConfig) : List (List Char × HookConfig) :=
  ("eval".toList, evaluate) :: (fewshot.map fun c => ("fewshot".toList, c)).toList

/-- The evaluation hooks of the contrastive training (vmoe/projects/contrastive/trainer.py:81-82,135-157,194-211,402-407): one for each
task of the retrieval; without Big Vision there are only the few-shot evaluations. -/
def contrastiveHooks (bigVision : Bool) (fewshot : Option HookConfig) (retrievalTasks : List (List Char))
    (retrieval : HookConfig) (zeroshotDatasets : List (List Char)) (zeroshot : HookConfig) :
    List (List Char × HookConfig) :=
  (fewshot.map fun c => ("fewshot".toList, c)).toList ++
    (if bigVision then retrievalTasks.map (fun task => ("retrieval/".toList ++ task, retrieval)) else []) ++
    (if bigVision ∧ zeroshotDatasets ≠ [] then [("zeroshot".toList, zeroshot)] else [])

/-- `get_flops_and_seconds_per_device` on one entry of the cost analysis (vmoe/utils.py:32-39). -/
def positive (x : Option ℚ) : Option ℚ := x.filter fun v => decide (¬ v ≤ 0)

/-- `make_train_cost_fn` (vmoe/train/trainer.py:539-553). -/
def trainCost (flops seconds : Option ℚ) (devices step : Nat) : PyDict (List Char) ℚ :=
  ((positive flops).map fun v : ℚ => ("flops".toList, v * step * devices)).toList ++
    ((positive seconds).map fun v : ℚ => ("device_seconds".toList, v * step * devices)).toList

variable {P B M : Type}

/-- What can be seen of the training: a report of progress, a checkpoint, a run of an evaluation
(vmoe/train/trainer.py:825-830). -/
inductive Event (P M : Type) where
  | report (step : Nat) (metrics : M) (cost : PyDict (List Char) ℚ)
  | save (step : Nat) (params : P)
  | run (hook : List Char) (step : Nat) (params : P) (cost : PyDict (List Char) ℚ)

/-- A training program: the train step, whether the checkpoint manager saves at a step, the cost of a step at each number of
steps, the process and the clock: the time at which hook `i` is called in a step; the progress hook is number 0
(vmoe/train/trainer.py:719-819). -/
structure Program (P B M : Type) where
  update : P → B → P × M
  saves : Nat → Bool
  cost : Nat → PyDict (List Char) ℚ
  process : Nat
  clock : Nat → Nat → ℚ
  progress : Action
  progressProcess : Option Nat
  hooks : List (List Char × Action)

/-- The calls of the evaluation hooks in one step (vmoe/train/trainer.py:829-830,
vmoe/projects/contrastive/trainer.py:402-407); `i` is the number of the first one. -/
def callHooks (pr : Program P B M) (step : Nat) (params : P) :
    Nat → List (List Char × Action) → List ActionState → Except PyErr (List (Event P M) × List ActionState)
  | i, (name, a) :: hooks, st :: sts => do
    let (b, st) ← call .callback pr.process a st step (pr.clock i step)
    let (evs, sts) ← callHooks pr step params (i + 1) hooks sts
    return ((if b then [.run name step params (pr.cost step)] else []) ++ evs, st :: sts)
  | _, _, _ => .ok ([], [])

/-- The training loop (vmoe/train/trainer.py:820-830) over `zip(range(step, ...), batches)`. -/
def loop (pr : Program P B M) : List Nat → List B → P → ActionState → List ActionState → Except PyErr (List (Event P M))
  | step :: steps, batch :: batches, params, st, sts => do
    let (params, metrics) := pr.update params batch
    let (b, st) ← call (.progress pr.progressProcess) pr.process pr.progress st step (pr.clock 0 step)
    let (evs, sts) ← callHooks pr step params 1 pr.hooks sts
    let rest ← loop pr steps batches params st sts
    return (if b then [.report step metrics (pr.cost step)] else []) ++
      (if pr.saves step then [.save step params] else []) ++ evs ++ rest
  | _, _, _, _, _ => .ok []

/-- The training from the state `params` at `init_step` (vmoe/train/trainer.py:731,760-830): the hooks are new. -/
def train (update : P → B → P × M) (saves : Nat → Bool) (cost : Nat → PyDict (List Char) ℚ) (process : Nat)
    (clock : Nat → Nat → ℚ) (progressProcess : Option Nat) (progress : HookConfig)
    (hooks : List (List Char × HookConfig)) (initStep trainSteps : Nat) (params : P) (batches : List B) :
    Except PyErr (List (Event P M)) :=
  loop { update, saves, cost, process, clock, progressProcess
         progress := create progress (initStep + 1) trainSteps
         hooks := hooks.map fun h => (h.1, create h.2 (initStep + 1) trainSteps) }
    ((List.range (trainSteps - initStep)).map (initStep + 1 + ·)) batches params .new (hooks.map fun _ => .new)

end Verif.Hooks
