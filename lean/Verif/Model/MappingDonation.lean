import Verif.Model.Mapping

/-!
Which arrays `_flat_state_dict_mapping_apply` gives away: the transformations are the argument of a function compiled with
`donate_argnums=(0,)` (vmoe/initialization/mapping.py:207-215), so the buffers of all arrays in them are deleted.
-/

namespace Verif.Mapping

open Verif FlatDict

variable {D α : Type}

/-- The arrays in a transformation, as a pytree (fields with `pytree_node=True`, vmoe/initialization/rules.py:235-293;
lines 209-223): the sources, and for the two kinds of zoom the array of the target, unless there is only its shape. -/
def Tx.arrays : Tx D α → List (Arr D α)
  | .single .zoom x t => if t.abstract then [x] else [x, t]
  | .single .vitZoom x t => if t.abstract then [x] else [x, t]
  | .single _ x _ => [x]
  | .stack _ xs _ => xs

/-- The arrays that are deleted by the call (vmoe/initialization/mapping.py:208-215). -/
def donated (txs : PyDict Key (Tx D α)) : List (Arr D α) := txs.flatMap fun kt => kt.2.arrays

/-- The array of an entry, if it is not an empty node (vmoe/initialization/mapping.py:148). -/
def Flat.array? : Flat (Arr D α) → Option (Arr D α)
  | .leaf x => some x
  | .empty => none

/-- The arrays of the target that are returned as they are (vmoe/initialization/mapping.py:179). -/
def keptArrays (txs : PyDict Key (Tx D α)) (target : PyDict Key (Flat (Arr D α))) : List (Arr D α) :=
  (target.filter fun kv => (PyDict.get? txs kv.1).isNone).filterMap fun kv => Flat.array? kv.2

end Verif.Mapping
