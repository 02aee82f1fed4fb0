import Mathlib.Tactic.TypeStar

/-!
Python dictionaries as association lists in insertion order (Python 3.7+), at most one entry per
key.
-/

namespace Verif

/-- A Python `dict` (used throughout /repo, e.g. vmoe/checkpoints/partitioned.py:275-287). -/
abbrev PyDict (κ ν : Type*) := List (κ × ν)

namespace PyDict

variable {κ ν : Type*} [DecidableEq κ]

/-- `d[k] = v`: replaces the value in place, or appends a new entry
(e.g. vmoe/checkpoints/partitioned.py:326). -/
def set : PyDict κ ν → κ → ν → PyDict κ ν
  | [], k, v => [(k, v)]
  | (k', v') :: d, k, v => if k' = k then (k, v) :: d else (k', v') :: set d k v

/-- `d.get(k)` (e.g. vmoe/checkpoints/types.py:158). -/
def get? : PyDict κ ν → κ → Option ν
  | [], _ => none
  | (k', v') :: d, k => if k' = k then some v' else get? d k

/-- `d.keys()` in iteration order (e.g. vmoe/checkpoints/partitioned.py:394). -/
def keys (d : PyDict κ ν) : List κ := d.map Prod.fst

/-- A dict comprehension `{k: v for k, v in items}`: later entries win
(vmoe/checkpoints/partitioned.py:284-287). -/
def ofItems (items : List (κ × ν)) : PyDict κ ν := items.foldl (fun d kv => set d kv.1 kv.2) []

end PyDict

end Verif
