import Verif.Model.CkptPath

/-!
Model of vmoe/checkpoints/base.py `save_checkpoint` and its asynchronous variants on a file system
whose operations are atomic one by one; a crash may happen between any two of them.
-/

namespace Verif.SaveFile

open Verif PyStr CkptPath

/-- Files (with their bytes) and existing directories (the state behind `gfile`,
vmoe/checkpoints/base.py:170-176).  Simplification: paths are compared as strings. -/
structure FS (β : Type) where
  files : List Char → Option (List β)
  dirs : List Char → Bool

variable {β : Type}

/-- Operations on the file system issued by `save_checkpoint` (vmoe/checkpoints/base.py:170-176). -/
inductive Op (β : Type) where
  /-- `if not gfile.exists(d): gfile.makedirs(d)` (parents are not modelled) -/
  | ensureDir (d : List Char)
  /-- `gfile.GFile(p, 'wb')`: creates or truncates -/
  | create (p : List Char)
  /-- part of `fp.write(...)` reaching the file -/
  | append (p : List Char) (bytes : List β)
  /-- `gfile.rename(src, dst, overwrite)`, atomic as in POSIX -/
  | rename (src dst : List Char) (overwrite : Bool)

/-- Effect of one operation (vmoe/checkpoints/base.py:170-176). -/
def exec (fs : FS β) : Op β → Except PyErr (FS β)
  | .ensureDir d => .ok { fs with dirs := fun e => e = d || fs.dirs e }
  | .create p =>
    if fs.dirs (dirname p) then
      .ok { fs with files := fun q => if q = p then some [] else fs.files q }
    else .error .fileNotFoundError
  | .append p bytes =>
    match fs.files p with
    | none => .error .fileNotFoundError
    | some old => .ok { fs with files := fun q => if q = p then some (old ++ bytes) else fs.files q }
  | .rename src dst overwrite =>
    match fs.files src with
    | none => .error .fileNotFoundError
    | some content =>
      if (fs.files dst).isSome && !overwrite then .error .alreadyExistsError
      else .ok { fs with files := fun q =>
        if q = dst then some content else if q = src then none else fs.files q }

/-- The operations of `save_checkpoint` (vmoe/checkpoints/base.py:163-177).  `pieces` is the serialized
tree, cut in whatever pieces the buffered writer sends to the file. -/
def saveOps (path : List Char) (pieces : List (List β)) (overwrite makedirs : Bool) : List (Op β) :=
  (if makedirs then [.ensureDir (dirname path)] else []) ++
    .create (tmpPath path) :: (pieces.map (.append (tmpPath path)) ++
      [.rename (tmpPath path) path overwrite])

/-- `save_checkpoint` without a crash (vmoe/checkpoints/base.py:163-177). -/
def saveCheckpoint (fs : FS β) (path : List Char) (pieces : List (List β))
    (overwrite makedirs : Bool) : Except PyErr (FS β) :=
  (saveOps path pieces overwrite makedirs).foldlM exec fs

/-- A thread of the pool: remaining operations, and the exception that ended it
(vmoe/checkpoints/base.py:180-205). -/
structure Thread (β : Type) where
  rem : List (Op β)
  err : Option PyErr

/-- Thread `i` performs its next operation (vmoe/checkpoints/base.py:191-205). -/
def stepThread {ι : Type} [DecidableEq ι] (st : FS β × (ι → Thread β)) (i : ι) :
    FS β × (ι → Thread β) :=
  match (st.2 i).rem with
  | [] => st
  | op :: rest =>
    match exec st.1 op with
    | .ok fs' => (fs', Function.update st.2 i ⟨rest, (st.2 i).err⟩)
    | .error e => (st.1, Function.update st.2 i ⟨[], some e⟩)

/-- One file to be saved (an item of `filepath_tree_map`, vmoe/checkpoints/base.py:195). -/
structure Job (β : Type) where
  path : List Char
  pieces : List (List β)

/-- `save_multiple_checkpoints_async` (vmoe/checkpoints/base.py:195-205), one thread per file, run under
a schedule.  A crash is the end of the schedule. -/
def saveMany {ι : Type} [DecidableEq ι] (fs : FS β) (jobs : ι → Job β) (overwrite makedirs : Bool)
    (sched : List ι) : FS β × (ι → Thread β) :=
  sched.foldl stepThread
    (fs, fun i => ⟨saveOps (jobs i).path (jobs i).pieces overwrite makedirs, none⟩)

end Verif.SaveFile
