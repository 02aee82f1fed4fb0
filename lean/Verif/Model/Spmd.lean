import Verif.Model.PyErr

/-!
The processes of a training job with several hosts: the order in which every process calls the operations in which all
processes have to take part (vmoe/train/trainer.py:787-838, and in the same way
vmoe/projects/contrastive/trainer.py:355-414).  Each process is a program of such operations; the processes run at
different speeds and share the directory of the checkpoints.

Simplifications: the values that are computed are left out; a collective operation is finished in a process only when
all processes have called it, and never if they called another one in its place; the checkpoint manager of Orbax is
given by its contract: all processes take part in a save, the checkpoint is written in the background, appears when all
processes have called the save, and old checkpoints are deleted at that moment.  The operations that come before the first
checkpoint (restoring, initialization) are left out.
-/

namespace Verif.Spmd

/-- The names of the collective operations: barriers (vmoe/train/trainer.py:798,834,837), the train step
(vmoe/train/trainer.py:823-824), the computations of the hooks (vmoe/train/trainer.py:829-831), and saves
(vmoe/train/trainer.py:790-796). -/
inductive Name where
  | first
  | train (step : Nat)
  | hook (step i : Nat)
  | last
  | completed
  | save (step : Nat)
  deriving DecidableEq

/-- What a process does: a collective computation or barrier, `ckpt_manager.save(step, force=force)`
(vmoe/train/trainer.py:787-796), `ckpt_manager.wait_until_finished()` (vmoe/train/trainer.py:832,836). -/
inductive Act where
  | sync (name : Name)
  | save (step : Nat) (force : Bool)
  | wait

/-- A statement of the program: an action, or `if not gfile.exists('ckpt/<step>')` (vmoe/train/trainer.py:797,833). -/
inductive Instr where
  | act (a : Act)
  | ifMissing (step : Nat) (body : List Act)

/-- The training (vmoe/train/trainer.py:687-731): the step of the restored state, the number of steps, and
`save_checkpoint.every_steps`. -/
structure Cfg where
  init : Nat
  trainSteps : Nat
  every : Nat

/-- One iteration of the loop (vmoe/train/trainer.py:820-831); `hooks` is the number of collective computations of the
evaluations in this step. -/
def iteration (step hooks : Nat) : List Instr :=
  .act (.sync (.train step)) :: .act (.save step false) :: (List.range hooks).map fun i => .act (.sync (.hook step i))

/-- The loop over `zip(range(init_step + 1, train_steps + 1), tr_iter)` (vmoe/train/trainer.py:820-831) in a process whose
iterator gives the number `batches` of batches. -/
def loopPart (cfg : Cfg) (hooks : Nat → Nat) (batches : Nat) : List Instr :=
  (List.range (min (cfg.trainSteps - cfg.init) batches)).flatMap fun j =>
    iteration (cfg.init + 1 + j) (hooks (cfg.init + 1 + j))

/-- The first checkpoint (vmoe/train/trainer.py:797-799). -/
def firstPart (cfg : Cfg) : List Instr :=
  if cfg.init = 0 then [.ifMissing 0 [.sync .first, .save 0 true]] else []

/-- The last checkpoint and the end (vmoe/train/trainer.py:832-838). -/
def lastPart (cfg : Cfg) : List Instr :=
  [.act .wait, .ifMissing cfg.trainSteps [.sync .last, .save cfg.trainSteps true, .wait], .act (.sync .completed)]

/-- What a process does from the first checkpoint on (vmoe/train/trainer.py:797-838). -/
def program (cfg : Cfg) (hooks : Nat → Nat) (batches : Nat) : List Instr :=
  firstPart cfg ++ loopPart cfg hooks batches ++ lastPart cfg

/-- A process (vmoe/train/trainer.py:797-838): the rest of its program, whether it waits in the operation at its head, the
collective operations it has called so far, the save that goes on in the background, and the last step known to its
checkpoint manager. -/
structure Proc where
  prog : List Instr
  entered : Bool
  hist : List Name
  pending : Option Nat
  latest : Option Nat

/-- All processes, and the labels of the checkpoints in `workdir/ckpt` (vmoe/train/trainer.py:143,797,833). -/
structure Sys (n : Nat) where
  procs : Fin n → Proc
  disk : List Nat

/-- Whether the manager writes a checkpoint that is not forced (contract of Orbax; `save_interval_steps` of
vmoe/train/trainer.py:148). -/
def shouldSave (every : Nat) (latest : Option Nat) (step : Nat) : Prop :=
  step % every = 0 ∧ ∀ m, latest = some m → m < step

/-- The last operation that process `i` has called, `name`, has been called by all processes in the same place
(e.g. vmoe/multihost_utils.py:30-44). -/
def allCalled {n : Nat} (s : Sys n) (i : Fin n) (name : Name) : Prop :=
  ∀ j, (s.procs j).hist[(s.procs i).hist.length - 1]? = some name

/-- The system after process `i` has become `p` (a step of one process in vmoe/train/trainer.py:797-838). -/
def Sys.set {n : Nat} (s : Sys n) (i : Fin n) (p : Proc) : Sys n := ⟨fun j => if j = i then p else s.procs j, s.disk⟩

/-- One step of one process, or the end of a background save (vmoe/train/trainer.py:788-838). -/
inductive Step {n : Nat} (every : Nat) : Sys n → Sys n → Prop
  /-- A process calls a barrier or a collective computation (e.g. vmoe/train/trainer.py:798,823,829). -/
  | enterSync {s : Sys n} {i : Fin n} {name rest} : (s.procs i).prog = .act (.sync name) :: rest →
      (s.procs i).entered = false →
      Step every s (s.set i { s.procs i with entered := true, hist := (s.procs i).hist ++ [name] })
  /-- The call returns (e.g. vmoe/train/trainer.py:798,823,829). -/
  | leaveSync {s : Sys n} {i : Fin n} {name rest} : (s.procs i).prog = .act (.sync name) :: rest →
      (s.procs i).entered = true → allCalled s i name →
      Step every s (s.set i { s.procs i with prog := rest, entered := false })
  /-- `save` has nothing to do (vmoe/train/trainer.py:828). -/
  | skipSave {s : Sys n} {i : Fin n} {k rest} : (s.procs i).prog = .act (.save k false) :: rest →
      ¬ shouldSave every (s.procs i).latest k →
      Step every s (s.set i { s.procs i with prog := rest })
  /-- `save` is called and waits for the previous save of this process (vmoe/train/trainer.py:790-796). -/
  | enterSave {s : Sys n} {i : Fin n} {k force rest} : (s.procs i).prog = .act (.save k force) :: rest →
      (s.procs i).entered = false → force = true ∨ shouldSave every (s.procs i).latest k →
      (s.procs i).pending = none →
      Step every s (s.set i { s.procs i with entered := true, hist := (s.procs i).hist ++ [.save k] })
  /-- `save` returns and the checkpoint is written in the background (vmoe/train/trainer.py:790-796). -/
  | leaveSave {s : Sys n} {i : Fin n} {k force rest} : (s.procs i).prog = .act (.save k force) :: rest →
      (s.procs i).entered = true → allCalled s i (.save k) →
      Step every s (s.set i
        { s.procs i with prog := rest, entered := false, pending := some k, latest := some k })
  /-- `wait_until_finished` returns (vmoe/train/trainer.py:832,836). -/
  | wait {s : Sys n} {i : Fin n} {rest} : (s.procs i).prog = .act .wait :: rest → (s.procs i).pending = none →
      Step every s (s.set i { s.procs i with prog := rest })
  /-- The checkpoint exists (vmoe/train/trainer.py:797,833). -/
  | found {s : Sys n} {i : Fin n} {k body rest} : (s.procs i).prog = .ifMissing k body :: rest → k ∈ s.disk →
      Step every s (s.set i { s.procs i with prog := rest })
  /-- The checkpoint does not exist (vmoe/train/trainer.py:797-799,833-836). -/
  | missing {s : Sys n} {i : Fin n} {k body rest} : (s.procs i).prog = .ifMissing k body :: rest → k ∉ s.disk →
      Step every s (s.set i { s.procs i with prog := body.map .act ++ rest })
  /-- The save in the background is complete; other checkpoints may be deleted (`max_to_keep`,
  vmoe/train/trainer.py:149-150). -/
  | commit {s : Sys n} {k disk} : 0 < n → (∀ j, (s.procs j).pending = some k) → k ∈ disk → disk ⊆ k :: s.disk →
      Step every s ⟨fun j => { s.procs j with pending := none }, disk⟩

/-- A process at the start of its program, with the latest step of the directory in its manager
(vmoe/train/trainer.py:710-711,797). -/
def startProc (prog : List Instr) (disk : List Nat) : Proc := ⟨prog, false, [], none, disk.max?⟩

/-- The job before the first checkpoint (vmoe/train/trainer.py:797).  Every process has its own hooks and batches. -/
def start {n : Nat} (cfg : Cfg) (hooks : Fin n → Nat → Nat) (batches : Fin n → Nat) (disk : List Nat) : Sys n :=
  ⟨fun i => startProc (program cfg (hooks i) (batches i)) disk, disk⟩

end Verif.Spmd
