import Verif.Model.SaveFile
import Verif.Model.AttackRun

/-!
The files of an attack: `savez_compressed` (vmoe/projects/adversarial_attacks/lib.py:86-95) and its two calls in `run_pgd_attack`
(vmoe/projects/adversarial_attacks/lib.py:208-218,233-235), by several processes that share a file system.
-/

namespace Verif.AttackFiles

open Verif SaveFile AttackRun

variable {β : Type}

/-- `savez_compressed` (vmoe/projects/adversarial_attacks/lib.py:86-95).  `pieces` is the content of the buffer, cut in whatever pieces
the writer sends to the file.  Simplification: making the directory does not fail (for a path without directory it is the
name of the empty directory). -/
def savezOps (path : List Char) (pieces : List (List β)) : List (Op β) :=
  .ensureDir (PyStr.dirname path) :: .create path :: pieces.map (.append path)

/-- What the processes write: the buffer with the `PGDState`, and the buffers with the examples of the processes, if they
store examples (vmoe/projects/adversarial_attacks/lib.py:208-218,233-235, vmoe/projects/adversarial_attacks/lib.py:69-76). -/
structure Contents (β : Type) where
  state : List (List β)
  examples : Nat → Option (List (List β))

/-- The file operations of process `index` (vmoe/projects/adversarial_attacks/lib.py:208-218,233-235). -/
def processOps (workdir filePrefix : List Char) (count : Nat) (c : Contents β) (index : Nat) : List (Op β) :=
  (if index = 0 then savezOps (PyStr.pathJoin workdir "pgd_state.npz".toList) c.state else []) ++
    match c.examples index with
    | some pieces => savezOps (examplesPath filePrefix index count) pieces
    | none => []

/-- The processes perform their operations in the order of a schedule; a crash is the end of the schedule, and a process that
is killed does not occur in the rest of it (vmoe/projects/adversarial_attacks/lib.py:208-235). -/
def run (workdir filePrefix : List Char) (count : Nat) (c : Contents β) (fs : FS β) (sched : List Nat) : FS β × (Nat → Thread β) :=
  sched.foldl stepThread (fs, fun i => ⟨processOps workdir filePrefix count c i, none⟩)

end Verif.AttackFiles
