import Verif.Model.PyDict
import Verif.Model.PyErr

/-!
Nested dicts and flax's `flatten_dict(..., keep_empty_nodes=True, sep='/')` and `unflatten_dict(..., sep='/')`,
modelled from the source of `flax.traverse_util`, as used in vmoe/partitioning.py:413-419,
vmoe/train/optimizer.py, vmoe/initialization/mapping.py and vmoe/train/tree_summarizer.py.
-/

namespace Verif.FlatDict

open Verif

/-- Dict keys (vmoe/partitioning.py:414). -/
abbrev Key := List Char

/-- A nested dict with leaves (vmoe/partitioning.py:414: the result of `to_state_dict`). -/
inductive Tree (V : Type) where
  | leaf (v : V)
  | node (items : List (Key × Tree V))

/-- A value of a flattened dict: a leaf or `flax.traverse_util.empty_node` (vmoe/partitioning.py:402). -/
inductive Flat (V : Type) where
  | leaf (v : V)
  | empty
  deriving DecidableEq

variable {V : Type}

/-- `sep.join(path)` (vmoe/partitioning.py:413-414). -/
def join : List Key → Key
  | [] => []
  | [k] => k
  | k :: k' :: ks => k ++ '/' :: join (k' :: ks)

/-- `path.split(sep)` (vmoe/partitioning.py:419). -/
def split : Key → List Key
  | [] => [[]]
  | c :: s =>
    if c = '/' then [] :: split s
    else match split s with
      | p :: ps => (c :: p) :: ps
      | [] => [[c]]

mutual
/-- `_flatten(xs, prefix)` of `flatten_dict` for a value below the root (vmoe/partitioning.py:413-414): the items in
the order they are inserted, with paths not yet joined. -/
def flattenAt : List Key → Tree V → List (List Key × Flat V)
  | pre, .leaf v => [(pre, .leaf v)]
  | pre, .node [] => [(pre, .empty)]
  | pre, .node (kt :: l) => flattenItems pre (kt :: l)
/-- The loop over the items of a dict (vmoe/partitioning.py:413-414). -/
def flattenItems : List Key → List (Key × Tree V) → List (List Key × Flat V)
  | _, [] => []
  | pre, (k, t) :: l => flattenAt (pre ++ [k]) t ++ flattenItems pre l
end

/-- `flatten_dict(items, keep_empty_nodes=True, sep='/')` (vmoe/partitioning.py:413-414). -/
def flatten (items : List (Key × Tree V)) : PyDict Key (Flat V) :=
  PyDict.ofItems ((flattenItems [] items).map fun pv => (join pv.1, pv.2))

/-- `{}` for the empty node, the leaf otherwise (vmoe/partitioning.py:419). -/
def Flat.toTree : Flat V → Tree V
  | .leaf v => .leaf v
  | .empty => .node []

/-- One item of `unflatten_dict` (vmoe/partitioning.py:419): follows the path from the dict `d`, making dicts that do
not exist yet.  `key in leaf` raises `TypeError`, as would an assignment to a leaf. -/
def insert : PyDict Key (Tree V) → List Key → Tree V → Except PyErr (PyDict Key (Tree V))
  | _, [], _ => .error .indexError
  | d, [k], v => .ok (PyDict.set d k v)
  | d, k :: k' :: ks, v =>
    match PyDict.get? d k with
    | none => do
      let sub ← insert [] (k' :: ks) v
      return PyDict.set d k (.node sub)
    | some (.node items) => do
      let sub ← insert items (k' :: ks) v
      return PyDict.set d k (.node sub)
    | some (.leaf _) => .error .typeError

/-- The loop of `unflatten_dict` (vmoe/partitioning.py:419). -/
def insertAll : PyDict Key (Tree V) → List (List Key × Flat V) → Except PyErr (PyDict Key (Tree V))
  | d, [] => .ok d
  | d, (p, v) :: l => do
    let d' ← insert d p v.toTree
    insertAll d' l

/-- `unflatten_dict(flat, sep='/')` (vmoe/partitioning.py:419). -/
def unflatten (flat : PyDict Key (Flat V)) : Except PyErr (PyDict Key (Tree V)) :=
  insertAll [] (flat.map fun kv => (split kv.1, kv.2))

end Verif.FlatDict
