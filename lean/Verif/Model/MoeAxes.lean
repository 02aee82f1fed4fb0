import Verif.Model.PyDict
import Verif.Model.PyErr

/-!
Model of `sparse_moe_spmd_with_axes` (vmoe/moe.py:451-474): what it does with the variables of the experts and the names of their axes.
-/

namespace Verif.MoeAxes

open Verif

/-- Names of collections, variables and axes (vmoe/moe.py:456). -/
abbrev Key := List Char

/-- A variable (vmoe/moe.py:453-456): an array, of which only the shape matters here, or the metadata with the names of the axes of an array. -/
inductive Entry where
  | array (shape : List Nat)
  | axes (names : List Key)
deriving DecidableEq

/-- The variables by collection and name (vmoe/moe.py:453). -/
abbrev Vars := PyDict Key (PyDict Key Entry)

/-- A function on all values of a dict (`jax.tree_util.tree_map`, vmoe/moe.py:468-472). -/
def mapValues {κ α β : Type} (f : κ → α → Except PyErr β) : PyDict κ α → Except PyErr (PyDict κ β)
  | [] => .ok []
  | (k, x) :: d => do
    let y ← f k x
    let d' ← mapValues f d
    return (k, y) :: d'

/-- `list.insert(i, x)` (in `_add_axis_to_metadata` of flax, vmoe/moe.py:468-472): negative positions count from the end, positions outside of the
list are moved to its ends. -/
def pyInsert {α : Type} (l : List α) (i : Int) (x : α) : List α :=
  let j := if i < 0 then max (i + l.length) 0 else min i l.length
  l.insertIdx j.toNat x

/-- `list[i]` and `list.pop(i)` (in `_add_axis_to_metadata` of flax, vmoe/moe.py:468-472): the position, IndexError outside of the list. -/
def pyIndex {α : Type} (l : List α) (i : Int) : Except PyErr Nat :=
  if i < - l.length ∨ (l.length : Int) ≤ i then .error .indexError
  else .ok (if i < 0 then i + l.length else i).toNat

/-- The new dimension of `jax.vmap` (vmoe/moe.py:434-439): in the result it is at the position `axis`, where negative positions count from
the end of the new shape. -/
def vmapShape (experts : Nat) (axis : Int) (shape : List Nat) : Except PyErr (List Nat) :=
  let n : Int := shape.length + 1
  if axis < -n ∨ n ≤ axis then .error .valueError
  else .ok (shape.insertIdx (if axis < 0 then axis + n else axis).toNat experts)

/-- A collection under `flax.core.lift.vmap` (vmoe/moe.py:434-439): with an axis, each variable has one copy per expert along that axis; with `None`
all experts share the variables; a collection without entry in `variable_axes` cannot be used by the experts.  Metadata is not an array. -/
def expertCollection (experts : Nat) : Option (Option Int) → PyDict Key Entry → Except PyErr (PyDict Key Entry)
  | none, _ => .error .valueError
  | some none, vs => .ok vs
  | some (some a), vs => mapValues (fun _ e =>
      match e with
      | .array sh => (vmapShape experts a sh).map .array
      | .axes _ => .error .typeError) vs

/-- `f"{name}_axes"` (vmoe/moe.py:462, 472). -/
def axesCollection (name : Key) : Key := name ++ "_axes".toList

/-- `variable_axes` with an entry None for the metadata of each collection with a named axis (vmoe/moe.py:460-462). -/
def addAxes (variableAxes : PyDict Key (Option Int)) (names : PyDict Key Key) : PyDict Key (Option Int) :=
  names.foldl (fun d p => PyDict.set d (axesCollection p.1) none) variableAxes

/-- The arguments of one call of `_add_axis_to_metadata` (vmoe/moe.py:468-472). -/
structure Wrap where
  pos : Option Int
  name : Key
  col : Key

/-- The loop over the collections (vmoe/moe.py:466-472). -/
def wraps (axes : PyDict Key (Option Int)) (names : PyDict Key Key) : List Wrap :=
  axes.filterMap fun p => (PyDict.get? names p.1).map fun n => ⟨p.2, n, axesCollection p.1⟩

/-- `insert_fn` of `_add_axis_to_metadata` on one variable (vmoe/moe.py:468-472). -/
def insertEntry (w : Wrap) : Entry → Except PyErr Entry
  | .axes l =>
    match w.pos with
    | none => .error .typeError
    | some a => .ok (.axes (pyInsert l a w.name))
  | .array _ => .error .attributeError

/-- `remove_fn` of `_add_axis_to_metadata` on one variable (vmoe/moe.py:468-472): what an expert sees of stored metadata. -/
def removeEntry (w : Wrap) : Entry → Except PyErr Entry
  | .axes l =>
    match w.pos with
    | none => .error .typeError
    | some a =>
      match pyIndex l a with
      | .error e => .error e
      | .ok i => if l[i]? = some w.name then .ok (.axes (l.eraseIdx i)) else .error .valueError
  | .array _ => .error .attributeError

/-- `_add_axis_to_metadata` on the variables that the module creates (vmoe/moe.py:468-472). -/
def transOut (w : Wrap) (v : Vars) : Except PyErr Vars :=
  mapValues (fun c vs => if c = w.col then mapValues (fun _ e => insertEntry w e) vs else .ok vs) v

/-- `sparse_moe_spmd_with_axes` (vmoe/moe.py:451-474): the variables of the layer from the variables of one expert. -/
def spmdWithAxes (experts : Nat) (variableAxes : PyDict Key (Option Int)) (names : PyDict Key Key) (v : Vars) : Except PyErr Vars := do
  let axes := addAxes variableAxes names
  let v ← mapValues (fun c vs => expertCollection experts (PyDict.get? axes c) vs) v
  (wraps axes names).foldlM (fun v w => transOut w v) v

end Verif.MoeAxes
