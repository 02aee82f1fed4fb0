import Verif.Model.RestorePool

/-!
Model of `remove_checkpoints` (vmoe/checkpoints/base.py:125-136).
-/

namespace Verif.RemovePool

variable {F : Type} [DecidableEq F]

/-- The state of the thread pool (vmoe/checkpoints/base.py:135-136, inside multiprocessing.pool): the tasks not started, the paths left in the task of every
thread, the files that exist, and the paths whose removal raised NotFoundError. -/
structure Pool (F : Type) where
  queue : List (List F)
  threads : List (List F)
  files : List F
  errors : List F

/-- At the start no thread has a task; the tasks are those of `thread_pool.map` without `chunksize` (vmoe/checkpoints/base.py:136). -/
def Pool.start (threads : Nat) (filepaths files : List F) : Pool F :=
  ⟨RestorePool.getTasks (RestorePool.defaultChunksize filepaths.length threads) filepaths, List.replicate threads [], files, []⟩

/-- `gfile.remove(filepath)` (vmoe/checkpoints/base.py:133): the files without it. -/
def removeFile (files : List F) (f : F) : List F := files.filter (· ≠ f)

/-- A step of one of the threads (vmoe/checkpoints/base.py:131-136): a thread without work takes the first task of the queue; `remove` leaves a path
that does not match; it removes a file that matches and exists; for a path that matches and does not exist it raises, which ends the task
of the thread (but not of the others; inside multiprocessing.pool). -/
inductive Step (matchFn : F → Bool) : Pool F → Pool F → Prop
  | take (i : Nat) (b : List F) (q : List (List F)) (th : List (List F)) (fs e : List F) : th[i]? = some [] →
      Step matchFn ⟨b :: q, th, fs, e⟩ ⟨q, th.set i b, fs, e⟩
  | keep (i : Nat) (f : F) (rest : List F) (q : List (List F)) (th : List (List F)) (fs e : List F) : th[i]? = some (f :: rest) →
      matchFn f = false → Step matchFn ⟨q, th, fs, e⟩ ⟨q, th.set i rest, fs, e⟩
  | remove (i : Nat) (f : F) (rest : List F) (q : List (List F)) (th : List (List F)) (fs e : List F) : th[i]? = some (f :: rest) →
      matchFn f = true → f ∈ fs → Step matchFn ⟨q, th, fs, e⟩ ⟨q, th.set i rest, removeFile fs f, e⟩
  | fail (i : Nat) (f : F) (rest : List F) (q : List (List F)) (th : List (List F)) (fs e : List F) : th[i]? = some (f :: rest) →
      matchFn f = true → f ∉ fs → Step matchFn ⟨q, th, fs, e⟩ ⟨q, th.set i [], fs, e ++ [f]⟩

/-- `remove_checkpoints` returns when all tasks are done, and raises if one of them has raised (vmoe/checkpoints/base.py:136). -/
def Returns (s : Pool F) (raises : Bool) : Prop := s.queue = [] ∧ (∀ t ∈ s.threads, t = []) ∧ raises = !s.errors.isEmpty

end Verif.RemovePool
