import Verif.Model.MoeFactory

/-!
Reading the shard files of a checkpoint with a thread pool (vmoe/checkpoints/partitioned.py:452-469).
-/

namespace Verif.RestorePool

open Verif.Moe

/-- `num_ckpt_shards_per_thread` (vmoe/checkpoints/partitioned.py:455-463); the division is exact instead of in floating
point. -/
def filesPerTask (maxConcurrentBytes : Option Int) (sizes : List Nat) : Option Int :=
  match maxConcurrentBytes with
  | none => none
  | some m => if m = 0 then none else some (max (roundHalfEven ((sizes.sum : ℚ) / (m : ℚ))) 1)

/-- The size of the tasks of `thread_pool.map` without `chunksize`, from the number of items and of threads
(vmoe/checkpoints/partitioned.py:466-469, inside multiprocessing.pool). -/
def defaultChunksize (n threads : Nat) : Nat :=
  n / (threads * 4) + if n % (threads * 4) = 0 then 0 else 1

/-- The tasks of `thread_pool.map`: consecutive pieces (vmoe/checkpoints/partitioned.py:466-469, inside
multiprocessing.pool). -/
def getTasks {F : Type} (size : Nat) : List F → List (List F)
  | [] => []
  | f :: fs => if size = 0 then [] else (f :: fs.take (size - 1)) :: getTasks size (fs.drop (size - 1))
termination_by l => l.length
decreasing_by simp only [List.length_cons, List.length_drop]; omega

/-- The tasks of reading the files (vmoe/checkpoints/partitioned.py:452-469). -/
def restoreTasks {F : Type} (size : F → Nat) (threads : Nat) (maxConcurrentBytes : Option Int) (files : List F) :
    List (List F) :=
  match filesPerTask maxConcurrentBytes (files.map size) with
  | some c => getTasks c.toNat files
  | none => getTasks (defaultChunksize files.length threads) files

/-- The state of the thread pool: the tasks not started, the files left in the task of every thread (the first is being
read), the files already read (vmoe/checkpoints/partitioned.py:466-469, inside multiprocessing.pool). -/
structure Pool (F : Type) where
  queue : List (List F)
  threads : List (List F)
  done : List F

/-- At the start no thread has a task (vmoe/checkpoints/partitioned.py:466-469). -/
def Pool.start {F : Type} (threads : Nat) (tasks : List (List F)) : Pool F := ⟨tasks, List.replicate threads [], []⟩

/-- A step of one of the threads: a thread without work takes the first task of the queue, or a thread finishes the file
that it reads (vmoe/checkpoints/partitioned.py:466-469, inside multiprocessing.pool). -/
inductive Step {F : Type} : Pool F → Pool F → Prop
  | take (i : Nat) (b : List F) (q : List (List F)) (th : List (List F)) (d : List F) : th[i]? = some [] →
      Step ⟨b :: q, th, d⟩ ⟨q, th.set i b, d⟩
  | read (i : Nat) (f : F) (rest : List F) (q : List (List F)) (th : List (List F)) (d : List F) : th[i]? = some (f :: rest) →
      Step ⟨q, th, d⟩ ⟨q, th.set i rest, d ++ [f]⟩

/-- The files being read at the same time (vmoe/checkpoints/partitioned.py:466-469). -/
def Pool.reading {F : Type} (s : Pool F) : List F := s.threads.filterMap List.head?

end Verif.RestorePool
