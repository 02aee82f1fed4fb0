import Verif.Model.PyErr
import Verif.Model.PyStr

/-!
Model of the creation of directories by several processes: `_make_dir_sync` (vmoe/checkpoints/partitioned.py:381-386) and `create_checkpoint_manager`
(vmoe/train/trainer.py:134-165).
-/

namespace Verif.DirSync

open Verif

/-- Paths and names (vmoe/checkpoints/partitioned.py:381). -/
abbrev Str := List Char

/-- What a process does (vmoe/checkpoints/partitioned.py:381-386, 208-212; vmoe/train/trainer.py:144-146): `gfile.makedirs`, the same after
`not gfile.exists`, `sync_devices`, and writing a file into a directory. -/
inductive Act where
  | makedirs (dir : Str)
  | makedirsIfMissing (dir : Str)
  | sync (name : Str)
  | write (dir file : Str)

/-- The file system that all processes share, what every process still has to do, and the processes that raised
(vmoe/checkpoints/partitioned.py:381-386). -/
structure World where
  dirs : List Str
  files : List (Str × Str)
  progs : List (List Act)
  raised : List Nat

/-- `gfile.makedirs` (vmoe/checkpoints/partitioned.py:385): no error if the directory exists; `may` tells whether directories may be created. -/
def createDir (may : Bool) (dirs : List Str) (d : Str) : Except PyErr (List Str) :=
  if d ∈ dirs then .ok dirs else if may then .ok (d :: dirs) else .error .runtimeError

/-- The effect of an action of one process on directories and files (vmoe/checkpoints/partitioned.py:385, 208-212; vmoe/train/trainer.py:144-145).
A file cannot be written into a directory that does not exist.  `sync` is an action of all processes together. -/
def act (may : Bool) (dirs : List Str) (files : List (Str × Str)) : Act → Option (Except PyErr (List Str × List (Str × Str)))
  | .makedirs d => some ((createDir may dirs d).map fun dirs => (dirs, files))
  | .makedirsIfMissing d => some (if d ∈ dirs then .ok (dirs, files) else (createDir may dirs d).map fun dirs => (dirs, files))
  | .write d f => some (if d ∈ dirs then .ok (dirs, files ++ [(d, f)]) else .error .fileNotFoundError)
  | .sync _ => none

/-- A step (vmoe/checkpoints/partitioned.py:381-386): of one process, which stops if it raises, or of all processes that have arrived at a `sync_devices` of
the same name (vmoe/multihost_utils.py:30-44). -/
inductive Step (may : Bool) : World → World → Prop
  | one (i : Nat) (a : Act) (rest : List Act) (w : World) (dirs : List Str) (files : List (Str × Str)) : w.progs[i]? = some (a :: rest) →
      act may w.dirs w.files a = some (.ok (dirs, files)) → Step may w { w with dirs := dirs, files := files, progs := w.progs.set i rest }
  | raise (i : Nat) (a : Act) (rest : List Act) (w : World) (e : PyErr) : w.progs[i]? = some (a :: rest) →
      act may w.dirs w.files a = some (.error e) → Step may w { w with progs := w.progs.set i [], raised := w.raised ++ [i] }
  | all (name : Str) (w : World) : w.progs ≠ [] → (∀ p ∈ w.progs, ∃ rest, p = .sync name :: rest) →
      Step may w { w with progs := w.progs.map List.tail }

/-- `_make_dir_sync` of process `p` (vmoe/checkpoints/partitioned.py:381-386). -/
def makeDirSync (p : Nat) (workdir : Str) : List Act :=
  (if p = 0 then [.makedirs workdir] else []) ++ [.sync ("checkpoints:mkdir:".toList ++ workdir)]

/-- Saving with `makedirs=True` (vmoe/checkpoints/partitioned.py:206-212): every process writes its files afterwards.  The threads of a process write them
in any order; here it is that of the list. -/
def saveProgram (dir : Str) (files : Nat → List Str) (p : Nat) : List Act := makeDirSync p dir ++ (files p).map (Act.write dir)

/-- The directory of the checkpoints of a training run (vmoe/train/trainer.py:143). -/
def ckptDir (workdir : Str) : Str := PyStr.pathJoin workdir "ckpt".toList

/-- `create_checkpoint_manager` (vmoe/train/trainer.py:143-146), and what every process writes into the directory afterwards. -/
def managerProgram (workdir : Str) (files : Nat → List Str) (p : Nat) : List Act :=
  (if p = 0 then [.makedirsIfMissing (ckptDir workdir)] else []) ++ [.sync "create-ckpt-dir".toList] ++ (files p).map (Act.write (ckptDir workdir))

/-- The start of `n` processes (vmoe/checkpoints/partitioned.py:381-386). -/
def start (n : Nat) (program : Nat → List Act) (dirs : List Str) (files : List (Str × Str)) : World :=
  ⟨dirs, files, (List.range n).map program, []⟩

end Verif.DirSync
