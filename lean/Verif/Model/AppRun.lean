import Verif.Model.Partitioning

/-!
The start of a program (vmoe/app.py:55-93), the writer of the metrics, and hooks that run in one process
(vmoe/train/periodic_actions.py:31-40, vmoe/train/trainer.py:244-250).

Simplifications: the writers of clu are given by their contract: all writes are logged; the writer of a process that is not `just_logging`
keeps them until they are written into the files of the directory, by `flush` or earlier in the background, in their order.  `main`
is seen as the list of its uses of the writer and its result.  Logging, flags and the artifacts of the platform are left out.
-/

namespace Verif.AppRun

open Verif Partitioning

variable {α W : Type}

/-- A writer of metrics (vmoe/app.py:84-85): what was logged, what waits to be written, and what is in the files of the directory. -/
structure Writer (W : Type) where
  justLogging : Bool
  log : List W
  waiting : List W
  files : List W

/-- `create_default_writer(logdir, just_logging=...)` (vmoe/app.py:84-85). -/
def createDefaultWriter (justLogging : Bool) : Writer W := ⟨justLogging, [], [], []⟩

/-- `writer.flush()`, called at the end of `ensure_flushes` (vmoe/app.py:90). -/
def flush (w : Writer W) : Writer W := { w with waiting := [], files := w.files ++ w.waiting }

/-- What happens with the writer while `main` runs (vmoe/app.py:92): a write (e.g. vmoe/train/trainer.py:808), a call of `flush`, or
the first waiting write reaches the files. -/
inductive Op (W : Type) where
  | write (x : W)
  | flush
  | background

/-- The effect on the writer (vmoe/app.py:84-85,92). -/
def Op.apply (w : Writer W) : Op W → Writer W
  | .write x => { w with log := w.log ++ [x], waiting := if w.justLogging then w.waiting else w.waiting ++ [x] }
  | .flush => AppRun.flush w
  | .background =>
    match w.waiting with
    | [] => w
    | x :: rest => { w with waiting := rest, files := w.files ++ [x] }

/-- The mesh of process `q` (vmoe/app.py:87-88): its local devices are those with its index (vmoe/partitioning.py:206-210). -/
def processMesh (tpu : Bool) (proc : α → Nat) (coords : α → List Nat) (numPartitions : Nat) (devices : List α) (q : Nat) :
    Except PyErr (NdArray (Option α)) :=
  getAutoLogicalMesh tpu proc coords ((devices.filter fun d => proc d = q).map coords) numPartitions devices

/-- `_main` in process `q` (vmoe/app.py:60-93), with the mesh or the error of line 87: `ensure_flushes` flushes if `main` raises, too. -/
def appMain (q : Nat) (mesh : Except PyErr (NdArray (Option α)))
    (main : NdArray (Option α) → List (Op W) × Except PyErr Unit) : Writer W × Except PyErr Unit :=
  let writer := createDefaultWriter (decide (q > 0))
  match mesh with
  | .error err => (writer, .error err)
  | .ok mesh => (flush ((main mesh).1.foldl Op.apply writer), (main mesh).2)

/-- `SingleProcessPeriodicAction.__call__` in process `q` (vmoe/train/periodic_actions.py:31-40).  `action` is the call of the given
action, a function of its state and its arguments. -/
def singleProcess {S A : Type} (action : S → A → Except PyErr (Bool × S)) (processIndex q : Nat) (st : S) (args : A) :
    Except PyErr (Bool × S) :=
  if q = processIndex then action st args else .ok (false, st)

/-- `create_profile_hook` (vmoe/train/trainer.py:244-250): the call of the hook in process `q`.  `all` is the option `all_processes`. -/
def profileHook {S A : Type} (profile profileAll : S → A → Except PyErr (Bool × S)) (all : Option Bool) (q : Nat) (st : S) (args : A) :
    Except PyErr (Bool × S) :=
  if all.getD false then profileAll st args else singleProcess profile 0 q st args

end Verif.AppRun
