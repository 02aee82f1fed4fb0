import Verif.Model.PyDict
import Mathlib.Logic.Relation
import Mathlib.Data.Nat.Basic

/-!
The training program as a process that can be killed at any moment and started again: restoring or creating the state,
the training loop and the checkpoints (vmoe/train/trainer.py:371-438,687-838).  The program of the contrastive project
(vmoe/projects/contrastive/trainer.py:266-414) has the same steps: restoring (lines 289-311), the first checkpoint (360-372), the loop
with its checkpoints (393-407) and the last checkpoint (408-412); it takes `batch['text']` instead of the labels (396-397) and its
periodic evaluations (402-407) do not change the state either.

Not modelled: evaluation, few-shot evaluation, profiling and progress reports (they do not change the state), several
hosts (the synchronized hosts act as one), failures other than being killed.  The checkpoint manager of Orbax is
modelled by its contract: a save waits for the previous one, is written in the background and appears atomically under
its label; old checkpoints except the newest one can be deleted at any time.
-/

namespace Verif.TrainLoop

open Verif

variable {P B : Type}

/-- A train state: the number of the step and everything else (vmoe/train/train_state.py:25-38,
where `step` is incremented). -/
structure TS (P : Type) where
  step : Nat
  params : P

/-- The parameters of the training (vmoe/train/trainer.py:687-731): total number of steps, `save_checkpoint.every_steps`
(vmoe/train/trainer.py:137,148), the initialized state (vmoe/train/trainer.py:437-438) and the effect of one train step
on the state (vmoe/train/trainer.py:823-824). -/
structure Config (P B : Type) where
  trainSteps : Nat
  every : Nat
  init : TS P
  update : P → B → P

/-- Where the program is (vmoe/train/trainer.py:797-838). -/
inductive Phase where
  /-- before the first checkpoint (vmoe/train/trainer.py:797) -/
  | first
  /-- at the head of the loop (vmoe/train/trainer.py:820) -/
  | loop
  /-- before `_save_checkpoint(step, ...)` in the loop (vmoe/train/trainer.py:828) -/
  | save
  /-- after the loop (vmoe/train/trainer.py:832) -/
  | final
  /-- waiting for the last checkpoint (vmoe/train/trainer.py:836) -/
  | last
  /-- `Training completed.` (vmoe/train/trainer.py:838) -/
  | done
  deriving DecidableEq

/-- A running process: the train state, the next value of the range of steps, the batches left in the iterator, and the
checkpoint being written in the background (vmoe/train/trainer.py:787-836). -/
structure Run (P B : Type) where
  state : TS P
  next : Nat
  iter : List B
  pending : Option (Nat × TS P)
  phase : Phase

/-- The checkpoints in `workdir/ckpt` by their label, and the process, if one is running
(vmoe/train/trainer.py:143,687). -/
structure Sys (P B : Type) where
  disk : PyDict Nat (TS P)
  run : Option (Run P B)

/-- `ckpt_manager.latest_step()` (vmoe/train/trainer.py:409). -/
def latestStep (disk : PyDict Nat (TS P)) : Option Nat := (PyDict.keys disk).max?

/-- `restore_or_create_train_state` (vmoe/train/trainer.py:409-438). -/
def restore (cfg : Config P B) (disk : PyDict Nat (TS P)) : TS P :=
  match latestStep disk with
  | none => cfg.init
  | some k => (PyDict.get? disk k).getD cfg.init

/-- Whether the manager writes a checkpoint that is not forced (contract of Orbax's `should_save`; called from
vmoe/train/trainer.py:790-796,828 with `save_interval_steps` of vmoe/train/trainer.py:148). -/
def shouldSave (every : Nat) (disk : PyDict Nat (TS P)) (pending : Option (Nat × TS P)) (step : Nat) : Prop :=
  step % every = 0 ∧ (∀ k ∈ PyDict.keys disk, k < step) ∧ ∀ k s, pending = some (k, s) → k < step

/-- One event.  `supply` are the sequences of batches that a new training iterator can produce; the index of the last
seen example is discarded (vmoe/train/trainer.py:327), so every iterator starts from the beginning. -/
inductive Step (cfg : Config P B) (supply : List B → Prop) : Sys P B → Sys P B → Prop
  /-- The program starts (vmoe/train/trainer.py:719-731). -/
  | start {disk bs} : supply bs →
      Step cfg supply ⟨disk, none⟩
        ⟨disk, some ⟨restore cfg disk, (restore cfg disk).step + 1, bs, none, .first⟩⟩
  /-- The first checkpoint (vmoe/train/trainer.py:797-799). -/
  | saveFirst {disk state next bs} : state.step = 0 → 0 ∉ PyDict.keys disk →
      Step cfg supply ⟨disk, some ⟨state, next, bs, none, .first⟩⟩
        ⟨disk, some ⟨state, next, bs, some (0, state), .loop⟩⟩
  /-- No first checkpoint (vmoe/train/trainer.py:797). -/
  | skipFirst {disk state next bs pending} : ¬ (state.step = 0 ∧ 0 ∉ PyDict.keys disk) →
      Step cfg supply ⟨disk, some ⟨state, next, bs, pending, .first⟩⟩
        ⟨disk, some ⟨state, next, bs, pending, .loop⟩⟩
  /-- One train step (vmoe/train/trainer.py:820-824). -/
  | train {disk state next b bs pending} : next ≤ cfg.trainSteps →
      Step cfg supply ⟨disk, some ⟨state, next, b :: bs, pending, .loop⟩⟩
        ⟨disk, some ⟨⟨state.step + 1, cfg.update state.params b⟩, next, bs, pending, .save⟩⟩
  /-- A checkpoint in the loop; it waits for the previous one (vmoe/train/trainer.py:828). -/
  | save {disk state next bs} : shouldSave cfg.every disk none next →
      Step cfg supply ⟨disk, some ⟨state, next, bs, none, .save⟩⟩
        ⟨disk, some ⟨state, next + 1, bs, some (next, state), .loop⟩⟩
  /-- No checkpoint in this step (vmoe/train/trainer.py:828). -/
  | skipSave {disk state next bs pending} : ¬ shouldSave cfg.every disk pending next →
      Step cfg supply ⟨disk, some ⟨state, next, bs, pending, .save⟩⟩
        ⟨disk, some ⟨state, next + 1, bs, pending, .loop⟩⟩
  /-- The loop ends: all steps done or no more batches (vmoe/train/trainer.py:820). -/
  | endLoop {disk state next bs pending} : cfg.trainSteps < next ∨ bs = [] →
      Step cfg supply ⟨disk, some ⟨state, next, bs, pending, .loop⟩⟩
        ⟨disk, some ⟨state, next, bs, pending, .final⟩⟩
  /-- The last checkpoint exists (vmoe/train/trainer.py:832-833). -/
  | finalExists {disk state next bs} : cfg.trainSteps ∈ PyDict.keys disk →
      Step cfg supply ⟨disk, some ⟨state, next, bs, none, .final⟩⟩
        ⟨disk, some ⟨state, next, bs, none, .done⟩⟩
  /-- The last checkpoint is written (vmoe/train/trainer.py:832-835). -/
  | finalSave {disk state next bs} : cfg.trainSteps ∉ PyDict.keys disk →
      Step cfg supply ⟨disk, some ⟨state, next, bs, none, .final⟩⟩
        ⟨disk, some ⟨state, next, bs, some (cfg.trainSteps, state), .last⟩⟩
  /-- The last checkpoint has been written (vmoe/train/trainer.py:836-838). -/
  | lastWait {disk state next bs} :
      Step cfg supply ⟨disk, some ⟨state, next, bs, none, .last⟩⟩
        ⟨disk, some ⟨state, next, bs, none, .done⟩⟩
  /-- The background writing of a checkpoint completes (contract of Orbax; vmoe/train/trainer.py:155-158). -/
  | commit {disk state next bs k s phase} :
      Step cfg supply ⟨disk, some ⟨state, next, bs, some (k, s), phase⟩⟩
        ⟨PyDict.set disk k s, some ⟨state, next, bs, none, phase⟩⟩
  /-- An old checkpoint is deleted, never the newest one (contract of `max_to_keep`; vmoe/train/trainer.py:149-150). -/
  | delete {disk run k} : (∃ k' ∈ PyDict.keys disk, k < k') →
      Step cfg supply ⟨disk, some run⟩ ⟨disk.filter (fun e => decide (e.1 ≠ k)), some run⟩
  /-- The process is killed, or exits after it is done (vmoe/train/trainer.py:687-838). -/
  | stop {disk run} : Step cfg supply ⟨disk, some run⟩ ⟨disk, none⟩

/-- The states that can be reached from an empty directory (vmoe/train/trainer.py:687). -/
def Reachable (cfg : Config P B) (supply : List B → Prop) (s : Sys P B) : Prop :=
  Relation.ReflTransGen (Step cfg supply) ⟨[], none⟩ s

end Verif.TrainLoop
