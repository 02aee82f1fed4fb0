import Verif.Model.Mapping
import Verif.Model.Trainer

/-!
Where the train state of a run comes from: `restore_or_create_train_state` and `initialize_train_state_from_checkpoint`
(vmoe/train/trainer.py:371-438,500-536), and the reading of ViT checkpoints (vmoe/initialization/initialization.py:149-202).
Train states are nested dicts of arrays; shardings are left out.
-/

namespace Verif.TrainStart

open Verif FlatDict

variable {D α V W : Type}

mutual
/-- `jax.tree_util.tree_map(f, tree)` (vmoe/train/trainer.py:405-407). -/
def mapLeaves (f : V → W) : FlatDict.Tree V → FlatDict.Tree W
  | .leaf v => .leaf (f v)
  | .node l => .node (mapItems f l)
/-- The same for the items of a dict (vmoe/train/trainer.py:405-407). -/
def mapItems (f : V → W) : List (Key × FlatDict.Tree V) → List (Key × FlatDict.Tree W)
  | [] => []
  | (k, t) :: l => (k, mapLeaves f t) :: mapItems f l
end

mutual
/-- `jax.tree_util.tree_map(f, tree)` for a function that can raise (vmoe/initialization/initialization.py:187).  Items are visited
in the order of the dict, JAX sorts them; this only matters for which of several errors is raised. -/
def mapLeavesM (f : V → Except PyErr W) : FlatDict.Tree V → Except PyErr (FlatDict.Tree W)
  | .leaf v => (f v).map .leaf
  | .node l => (mapItemsM f l).map .node
/-- The same for the items of a dict (vmoe/initialization/initialization.py:187). -/
def mapItemsM (f : V → Except PyErr W) : List (Key × FlatDict.Tree V) → Except PyErr (List (Key × FlatDict.Tree W))
  | [] => .ok []
  | (k, t) :: l => do
    let t ← mapLeavesM f t
    let l ← mapItemsM f l
    return (k, t) :: l
end

/-- A nested dict of arrays: a train state or the content of a checkpoint (vmoe/train/trainer.py:371-379). -/
abbrev Arrays (D α : Type) := List (Key × FlatDict.Tree (Mapping.Arr D α))

/-- A partially initialized state, with arrays and `ShapeDtypeStruct`s (vmoe/train/trainer.py:429-433). -/
abbrev Partial (D α : Type) := List (Key × FlatDict.Tree (Trainer.Leaf (Mapping.Arr D α) Unit))

/-- The types of NumPy needed here (vmoe/initialization/initialization.py:181-186): the size of a void type, bfloat16, and the
reinterpretation of the bytes of an entry. -/
structure Numpy (D α : Type) where
  voidSize : D → Option Nat
  bfloat16 : D
  view : α → α

/-- `fix_dtype` (vmoe/initialization/initialization.py:181-186). -/
def fixDtype (np : Numpy D α) (x : Mapping.Arr D α) : Except PyErr (Mapping.Arr D α) :=
  match np.voidSize x.dtype with
  | some size =>
    if size = 2 then .ok ⟨np.bfloat16, ⟨x.value.shape, fun idx => np.view (x.value.get idx)⟩, x.abstract⟩ else .error .assertionError
  | none => .ok x

/-- The methods of initialization (vmoe/train/trainer.py:526-535). -/
inductive Method where
  | vmoe
  | vit
  | orbax
  deriving DecidableEq

/-- The method with a name (vmoe/train/trainer.py:526-536). -/
def methodOf (name : Key) : Except PyErr Method :=
  if name = "initialize_from_vmoe".toList then .ok .vmoe
  else if name = "initialize_from_vit".toList then .ok .vit
  else if name = "initialize_from_orbax".toList then .ok .orbax
  else .error .valueError

/-- What the initialization functions read (vmoe/initialization/initialization.py:68-267): the arrays of the checkpoint of the given
arguments, where the target can be needed, and the rules and flags among the arguments.  See C84 for V-MoE checkpoints. -/
structure Reader (D α V : Type) where
  read : Method → PyDict Key V → Arrays D α → Except PyErr (Arrays D α)
  options : PyDict Key V → Except PyErr (List Mapping.Rule × Mapping.Flags)

/-- The arrays given to `map_state_dict` (vmoe/initialization/initialization.py:145, 179-200, 262-267). -/
def source (np : Numpy D α) (reader : Reader D α V) (method : Method) (kwargs : PyDict Key V) (target : Arrays D α) :
    Except PyErr (Arrays D α) := do
  let ckpt ← reader.read method kwargs target
  match method with
  | .vit => mapItemsM (fixDtype np) ckpt
  | _ => return ckpt

/-- Calls one of the initialization functions (vmoe/initialization/initialization.py:68-267). -/
def initializeFrom [DecidableEq D] (env : Mapping.Env D α) (np : Numpy D α) (reader : Reader D α V) (method : Method)
    (kwargs : PyDict Key V) (target : Arrays D α) : Except PyErr (FlatDict.Tree (Mapping.Arr D α)) := do
  let (rules, flags) ← reader.options kwargs
  let ckpt ← source np reader method kwargs target
  Mapping.mapStateDict env rules flags ckpt target

/-- The arguments that `restore_or_create_train_state` gives itself (vmoe/train/trainer.py:431-433). -/
def ownArgs : List Key := ["train_state".toList, "mesh".toList, "thread_pool".toList]

/-- `initialize_train_state_from_checkpoint(train_state, mesh, thread_pool, **kwargs)` (vmoe/train/trainer.py:500-536).  `str` is the
string of a value, if it is one. -/
def initializeTrainState [DecidableEq D] (env : Mapping.Env D α) (np : Numpy D α) (reader : Reader D α V) (str : V → Option Key)
    (target : Arrays D α) (kwargs : PyDict Key V) : Except PyErr (FlatDict.Tree (Mapping.Arr D α)) :=
  if ownArgs.any fun k => k ∈ PyDict.keys kwargs then .error .typeError
  else match PyDict.get? kwargs "name".toList with
    | none => .error .typeError
    | some v => match str v with
      | none => .error .valueError
      | some name => do
        let method ← methodOf name
        if "target".toList ∈ PyDict.keys kwargs then throw .typeError
        initializeFrom env np reader method (kwargs.filter fun kv => kv.1 ≠ "name".toList) target

/-- A `jax.ShapeDtypeStruct` is still to be created (vmoe/train/trainer.py:297-298). -/
def toLeaf (x : Mapping.Arr D α) : Trainer.Leaf (Mapping.Arr D α) Unit := if x.abstract then .struct () else .array x ()

/-- `jax.eval_shape` of an array, as a `ShapeDtypeStruct` (vmoe/train/trainer.py:397, 405-407). -/
def shapeOf (x : Mapping.Arr D α) : Mapping.Arr D α := { x with abstract := true }

/-- The items of a dict (vmoe/train/trainer.py:293-295). -/
def items : FlatDict.Tree V → Except PyErr (List (Key × FlatDict.Tree V))
  | .node l => .ok l
  | .leaf _ => .error .typeError

/-- The checkpoint manager (vmoe/train/trainer.py:409-424): the latest step and the restored state with the index of the last seen
example. -/
structure Manager (D α : Type) where
  latest : Option Nat
  restore : Nat → Except PyErr (Partial D α × Int)

/-- `if initialization_kwargs:` (vmoe/train/trainer.py:426): neither `None` nor empty. -/
def given (kwargs : Option (PyDict Key V)) : Option (PyDict Key V) :=
  match kwargs with
  | some (kv :: l) => some (kv :: l)
  | _ => none

/-- The state to be completed (vmoe/train/trainer.py:426-433). -/
def partialState [DecidableEq D] (env : Mapping.Env D α) (np : Numpy D α) (reader : Reader D α V) (str : V → Option Key)
    (kwargs : Option (PyDict Key V)) (target : Arrays D α) : Except PyErr (Arrays D α) :=
  match given kwargs with
  | some kw => do items (← initializeTrainState env np reader str target kw)
  | none => .ok target

/-- `restore_or_create_train_state` (vmoe/train/trainer.py:371-438); `fresh` is the state made by `initialize_fn`. -/
def restoreOrCreate [DecidableEq D] (mgr : Manager D α) (env : Mapping.Env D α) (np : Numpy D α) (reader : Reader D α V)
    (str : V → Option Key) (fresh : Arrays D α) (kwargs : Option (PyDict Key V)) : Except PyErr (Partial D α × Option Int) :=
  match mgr.latest with
  | some step => (mgr.restore step).map fun r => (r.1, some r.2)
  | none => do
    let state ← partialState env np reader str kwargs (mapItems shapeOf fresh)
    let state ← Trainer.createOrReuse (mapItems toLeaf state) fresh
    return (state, none)

end Verif.TrainStart
