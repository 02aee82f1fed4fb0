import Verif.Model.PyErr
import Verif.Model.PyStr
import Mathlib.Data.List.Sort
import Mathlib.Data.List.Lex
import Mathlib.Data.List.Dedup

/-!
Model of the path functions of vmoe/checkpoints/base.py: shard suffixes, the checkpoint regular
expression, and the search for complete steps in a directory listing.
-/

namespace Verif.CkptPath

open Verif PyStr

/-- `add_shard_suffix` (vmoe/checkpoints/base.py:48-49). -/
def addShardSuffix (filepath : List Char) (shard count : Nat) : List Char :=
  filepath ++ '-' :: (pad5 shard ++ ['-', 'o', 'f', '-'] ++ pad5 count)

/-- Groups 2, 3 and 4 of `CHECKPOINT_REGEX` (vmoe/checkpoints/base.py:32-33); `none` if the group did
not participate. -/
structure Groups where
  step : Option (List Char)
  suffix : Option (List Char)
  shard : Option (List Char)
  deriving DecidableEq, Repr

/-- Matches `(-[0-9]+-of-[0-9]+)?` against the whole string (vmoe/checkpoints/base.py:33). -/
def matchShard (r : List Char) : Option (Option (List Char)) :=
  match r with
  | [] => some none
  | '-' :: t =>
    let d1 := t.takeWhile isDigit
    match t.dropWhile isDigit with
    | '-' :: 'o' :: 'f' :: '-' :: u =>
      if d1 ≠ [] ∧ u ≠ [] ∧ u.all isDigit then some (some r) else none
    | _ => none
  | _ => none

/-- Matches `(\.[a-zA-Z]+)?(-[0-9]+-of-[0-9]+)?` against the whole string
(vmoe/checkpoints/base.py:33).  Every character class of the expression is disjoint from the
character that may follow, so greedy matching needs no backtracking. -/
def matchSuffix (r : List Char) : Option (Option (List Char) × Option (List Char)) :=
  match r with
  | '.' :: t =>
    let l := t.takeWhile isLetter
    if l = [] then none
    else (matchShard (t.dropWhile isLetter)).map fun s => (some ('.' :: l), s)
  | _ => (matchShard r).map fun s => (none, s)

/-- Matches groups 2 to 4 against the whole string (vmoe/checkpoints/base.py:33). -/
def matchGroups (r : List Char) : Option Groups :=
  match r with
  | '_' :: t =>
    let d := t.takeWhile isDigit
    if d = [] then none
    else (matchSuffix (t.dropWhile isDigit)).map fun p => ⟨some ('_' :: d), p.1, p.2⟩
  | _ => (matchSuffix r).map fun p => ⟨none, p.1, p.2⟩

/-- `CHECKPOINT_REGEX.fullmatch`: the lazy group `(.*?)` takes the shortest prefix (without newlines)
such that the rest matches (vmoe/checkpoints/base.py:32-33,98).  Returns groups 1 to 4. -/
def fullMatch : List Char → Option (List Char × Groups)
  | [] => (matchGroups []).map fun g => ([], g)
  | c :: s =>
    match matchGroups (c :: s) with
    | some g => some ([], g)
    | none => if c = '\n' then none else (fullMatch s).map fun p => (c :: p.1, p.2)

/-- `remove_shard_suffix`: replaces the match by groups 1 to 3 (vmoe/checkpoints/base.py:139-140).  On
strings without newlines the only match is the full one; strings with newlines are not modelled
(they are returned unchanged here and excluded in the theorems). -/
def removeShardSuffix (filepath : List Char) : List Char :=
  match fullMatch filepath with
  | some (p, g) => p ++ g.step.getD [] ++ g.suffix.getD []
  | none => filepath

/-- `_parse_step_and_suffix_or_error` (vmoe/checkpoints/base.py:97-106). -/
def parseStepAndSuffix (filepath : List Char) : Except PyErr (Nat × Option (List Char)) :=
  match fullMatch filepath with
  | none => .error .assertionError
  | some (_, g) =>
    match g.step with
    | none => .error .valueError
    | some s => .ok (parseNat (s.drop 1), g.suffix)

/-- Path of the temporary file of a checkpoint (vmoe/checkpoints/base.py:113,173). -/
def tmpPath (filepath : List Char) : List Char :=
  pathJoin (dirname filepath) (['.', 't', 'm', 'p', '.'] ++ basename filepath)

/-- `gfile.glob(prefix + '*')`: files that continue the prefix without a further `/`, in the order of the
listing (vmoe/checkpoints/base.py:110,115).  The prefix is taken literally (no wildcards in it). -/
def globPrefix (files : List (List Char)) (pre : List Char) : List (List Char) :=
  files.filter fun f => startsWith f pre && (f.drop pre.length).all (· ≠ '/')

/-- `sorted` of tuples `(step, suffix)`: compares steps, then suffixes; comparing `None` with a string
raises TypeError.  The pairs are distinct, so in a sorted order `(s, None)` would be next to some
`(s, str)` and the two have to be compared (vmoe/checkpoints/base.py:118-119). -/
def mixedSuffixes (l : List (Nat × Option (List Char))) : Bool :=
  l.any fun a => a.2.isNone && l.any fun b => a.1 = b.1 && b.2.isSome

/-- Order of `sorted` on pairs whose comparison does not raise (vmoe/checkpoints/base.py:118). -/
def pairLe (a b : Nat × Option (List Char)) : Prop :=
  a.1 < b.1 ∨ (a.1 = b.1 ∧ a.2.getD [] ≤ b.2.getD [])

/-- The comparison of `sorted` can be computed (vmoe/checkpoints/base.py:118). -/
instance : DecidableRel pairLe := fun a b => by unfold pairLe; infer_instance

/-- `itertools.groupby(..., lambda x: x[0])` (vmoe/checkpoints/base.py:117-120): maximal runs of equal
steps, with their suffixes. -/
def groupRuns : List (Nat × Option (List Char)) → List (Nat × List (Option (List Char)))
  | [] => []
  | (s, x) :: l =>
    match groupRuns l with
    | (s', xs) :: rest => if s = s' then (s, x :: xs) :: rest else (s, [x]) :: (s', xs) :: rest
    | [] => [(s, [x])]

/-- `iterate_complete_steps_for_prefix` (vmoe/checkpoints/base.py:69-122) on the files of a file
system; all the yielded steps, or the exception raised before the first one. -/
def iterateCompleteSteps (files : List (List Char)) (pre : List Char)
    (suffixes : Option (List (List Char))) (decreasing : Bool) : Except PyErr (List Nat) :=
  let required : List (Option (List Char)) :=
    match suffixes with
    | none => [none]
    | some [] => [none]
    | some l => l.map some
  match (globPrefix files pre).mapM parseStepAndSuffix with
  | .error e => .error e
  | .ok found =>
    let patternTmp := pathJoin (dirname pre) (['.', 't', 'm', 'p', '.'] ++ basename pre)
    match (globPrefix files patternTmp).mapM parseStepAndSuffix with
    | .error e => .error e
    | .ok incomplete =>
      let diff := (found.filter (fun p => p ∉ incomplete)).dedup
      if mixedSuffixes diff then .error .typeError
      else
        let sorted := if decreasing then diff.insertionSort (fun a b => pairLe b a)
          else diff.insertionSort pairLe
        .ok (((groupRuns sorted).filter fun g => required.all (fun x => x ∈ g.2)).map Prod.fst)

/-- `find_latest_complete_checkpoint_for_prefix` (vmoe/checkpoints/base.py:52-66). -/
def findLatest (files : List (List Char)) (pre : List Char)
    (suffixes : Option (List (List Char))) : Except PyErr (Option (List Char)) :=
  match iterateCompleteSteps files pre suffixes true with
  | .error e => .error e
  | .ok [] => .ok none
  | .ok (s :: _) => .ok (some (pre ++ '_' :: natStr s))

end Verif.CkptPath
