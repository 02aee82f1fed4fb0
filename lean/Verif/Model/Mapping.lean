import Verif.Model.InitRules
import Verif.Model.NaturalSort
import Verif.Model.Partitioning
import Verif.Model.Mixup

/-!
Mapping the arrays of a checkpoint onto the arrays of a model (vmoe/initialization/mapping.py:86-237 and the rules of
vmoe/initialization/rules.py).  Sources and targets are nested dicts of arrays.  Regular expressions, conversions between
types, `scipy.ndimage.zoom` and random numbers are parameters.  Shardings and warnings are
not modelled.
-/

namespace Verif.Mapping

open Verif FlatDict

/-- An array, or a `jax.ShapeDtypeStruct` if `abstract`; then its entries mean nothing
(vmoe/initialization/mapping.py:108-109, vmoe/initialization/rules.py:154-156). -/
structure Arr (D α : Type) where
  dtype : D
  value : NdArray α
  abstract : Bool := false

/-- What the code uses of other libraries (vmoe/initialization/rules.py:286-379, vmoe/initialization/mapping.py:193): the
common type of two arrays, the conversion of an entry to a type, `int(math.sqrt(n))`, `scipy.ndimage.zoom`, the new class
token with `n` entries, and `float` in the natural sort. -/
structure Env (D α : Type) where
  promote : D → D → D
  cast : D → α → α
  sqrt : Nat → Nat
  zoom : NdArray α → List Nat → NdArray α
  noise : Nat → NdArray α
  float : ℚ → ℚ

variable {D α : Type}

/-- The rules with one source for each target (vmoe/initialization/rules.py:141-223): `RegexRule`, `ExpandTileRule`,
`ReshapeRule`, `SqueezeRule`, `ZoomRule` and `VitZoomRule`. -/
inductive Single where
  | copy
  | expandTile (axes : List Int) (reps : List Nat)
  | reshape (shape : Option (List (Option Nat)))
  | squeeze (axis : Int)
  | zoom
  | vitZoom
  deriving DecidableEq

/-- The kinds of rules (vmoe/initialization/rules.py:123-223); `other` is an object of the class `Rule` itself. -/
inductive Kind where
  | drop
  | stack (axis : Int)
  | single (s : Single)
  | other
  deriving DecidableEq

/-- What a rule does with a name that it matches (vmoe/initialization/rules.py:123-223): `rename` is
`pattern.sub(replacement, key)`. -/
structure Action where
  rename : Key → Key
  kind : Kind

/-- A rule (vmoe/initialization/rules.py:123-223); `search` says if the pattern is found in a name. -/
structure Rule where
  search : Key → Bool
  action : Action

/-- `Rules.find` (vmoe/initialization/rules.py:45-49). -/
def find : List Rule → Key → Option Rule
  | [], _ => none
  | r :: rules, key => if r.search key then some r else find rules key

/-- `_IDENTITY_RULE` (vmoe/initialization/mapping.py:76-77). -/
def identity : Action := ⟨id, .single .copy⟩

/-- The transformations (vmoe/initialization/rules.py:226-381) with their target. -/
inductive Tx (D α : Type) where
  | single (s : Single) (source target : Arr D α)
  | stack (axis : Int) (sources : List (Arr D α)) (target : Arr D α)

/-- The array that a transformation is for: its `target_shape_dtype` (vmoe/initialization/rules.py:227). -/
def Tx.target : Tx D α → Arr D α
  | .single _ _ t => t
  | .stack _ _ t => t

/-- `x.astype(dtype)` (vmoe/initialization/mapping.py:193). -/
def astype [DecidableEq D] (env : Env D α) (dtype : D) (x : Arr D α) : Arr D α :=
  if x.dtype = dtype then x else ⟨dtype, ⟨x.value.shape, fun idx => env.cast dtype (x.value.get idx)⟩, false⟩

/-- `tx()` (vmoe/initialization/rules.py:238-379).  The class token of a target of another type makes the type of the result
the common one. -/
def Tx.call [DecidableEq D] (env : Env D α) : Tx D α → Except PyErr (Arr D α)
  | .single .copy x _ => .ok x
  | .single (.expandTile axes reps) x _ => (InitRules.expandTile x.value axes reps).map (⟨x.dtype, ·, false⟩)
  | .single (.reshape shape) x t =>
    -- An empty tuple is false, as `None`.
    let dims := match shape with
      | none => t.value.shape.map some
      | some [] => t.value.shape.map some
      | some s => s
    (InitRules.reshape x.value dims).map (⟨x.dtype, ·, false⟩)
  | .single (.squeeze axis) x _ => (InitRules.squeeze x.value axis).map (⟨x.dtype, ·, false⟩)
  | .single .zoom x t => (InitRules.zoomTo env.zoom x.value t.value.shape).map (⟨x.dtype, ·, false⟩)
  | .single .vitZoom x t => do
    let y ← InitRules.vitZoom env.sqrt env.zoom (env.noise (x.value.shape.getD 2 0)) x.value
      (if t.abstract then none else some t.value) t.value.shape
    let (sourceHasTok, _) ← InitRules.tokAndGrid env.sqrt (x.value.shape.getD 1 0) 0
    let (targetHasTok, _) ← InitRules.tokAndGrid env.sqrt (t.value.shape.getD 1 0) 0
    let y : Arr D α := ⟨x.dtype, y, false⟩
    return if targetHasTok && !sourceHasTok then astype env (env.promote x.dtype t.dtype) y else y
  | .stack _ [] _ => .error .valueError
  | .stack axis (x :: xs) _ =>
    let dtype := xs.foldl (fun d y => env.promote d y.dtype) x.dtype
    (InitRules.stack ((x :: xs).map fun y => (astype env dtype y).value) axis).map (⟨dtype, ·, false⟩)

/-- The flags of `map_state_dict` (vmoe/initialization/mapping.py:89-92). -/
structure Flags where
  raiseDtype : Bool := false
  raiseShape : Bool := true
  raiseSource : Bool := true
  raiseTarget : Bool := true

/-- `output[dst_key].append(src_value)` (vmoe/initialization/mapping.py:152, vmoe/initialization/rules.py:283-284); only
`StackTransformation` has this method. -/
def Tx.append : Tx D α → Arr D α → Except PyErr (Tx D α)
  | .stack axis xs t, x => .ok (.stack axis (xs ++ [x]) t)
  | .single _ _ _, _ => .error .attributeError

/-- The state of the loop of `_flat_state_dict_mapping_build`: `target_flat_used` and `output`
(vmoe/initialization/mapping.py:117-119). -/
structure State (D α : Type) where
  used : PyDict Key Bool
  output : PyDict Key (Tx D α)

/-- The rule that is used for a source name (vmoe/initialization/mapping.py:121-129). -/
def actionOf (rules : List Rule) (flags : Flags) (src : Key) : Except PyErr Action :=
  match find rules src with
  | some r => .ok r.action
  | none => if flags.raiseSource then .error .keyError else .ok identity

/-- Adds one source array to `output` (vmoe/initialization/mapping.py:150-158). -/
def addSource (kind : Kind) (dst : Key) (x t : Arr D α) (output : PyDict Key (Tx D α)) :
    Except PyErr (PyDict Key (Tx D α)) :=
  match kind with
  | .stack axis =>
    match PyDict.get? output dst with
    | some tx => do
      let tx ← tx.append x
      return PyDict.set output dst tx
    | none => .ok (PyDict.set output dst (.stack axis [x] t))
  | .single s => .ok (PyDict.set output dst (.single s x t))
  | _ => .error .typeError

/-- `isinstance(rule, StackRule)` (vmoe/initialization/mapping.py:138). -/
def Kind.isStack : Kind → Bool
  | .stack _ => true
  | _ => false

/-- One step of the loop for a rule that does not drop the source (vmoe/initialization/mapping.py:133-158). -/
def stepWith (source target : PyDict Key (Flat (Arr D α))) (action : Action) (src : Key) (st : State D α) :
    Except PyErr (State D α) :=
  let dst := action.rename src
  match PyDict.get? target dst with
  | none => .error .keyError
  | some tv =>
    if PyDict.get? st.used dst = some true ∧ action.kind.isStack = false then .error .valueError
    else match PyDict.get? source src, tv with
      | none, _ => .error .keyError
      | some .empty, .empty => .ok { st with used := PyDict.set st.used dst true }
      | some (.leaf x), .leaf t => do
        let output ← addSource action.kind dst x t st.output
        return ⟨PyDict.set st.used dst true, output⟩
      | _, _ => .error .valueError

/-- One step of the loop (vmoe/initialization/mapping.py:120-158). -/
def step (rules : List Rule) (flags : Flags) (source target : PyDict Key (Flat (Arr D α))) (st : State D α) (src : Key) :
    Except PyErr (State D α) := do
  let action ← actionOf rules flags src
  if action.kind = .drop then return st else stepWith source target action src st

/-- `_flat_state_dict_mapping_build` (vmoe/initialization/mapping.py:107-169). -/
def build (env : Env D α) (rules : List Rule) (flags : Flags) (source target : PyDict Key (Flat (Arr D α))) :
    Except PyErr (PyDict Key (Tx D α)) := do
  let st ← (NaturalSort.naturalSort env.float (PyDict.keys source)).foldlM (step rules flags source target)
    ⟨target.map fun kv => (kv.1, false), []⟩
  for kv in st.used do
    match PyDict.get? target kv.1 with
    | some (.leaf _) => if !kv.2 && flags.raiseTarget then throw .valueError
    | _ => pure ()
  return st.output

/-- `jnp.broadcast_to(x, shape)` (vmoe/initialization/mapping.py:203). -/
def broadcastTo (x : NdArray α) (shape : List Nat) : Except PyErr (NdArray α) :=
  if Mixup.broadcastShapes x.shape shape = .ok shape then .ok ⟨shape, fun idx => x.get (Mixup.broadcastIndex x.shape idx)⟩
  else .error .valueError

/-- One value of `fn` (vmoe/initialization/mapping.py:183-204). -/
def applyTx [DecidableEq D] (env : Env D α) (flags : Flags) (tx : Tx D α) : Except PyErr (Arr D α) := do
  let value ← tx.call env
  if value.dtype ≠ tx.target.dtype ∧ flags.raiseDtype then throw .valueError
  let value := astype env tx.target.dtype value
  if value.value.shape = tx.target.value.shape then return value
  else if flags.raiseShape then throw .valueError
  else
    let y ← broadcastTo value.value tx.target.value.shape
    return ⟨value.dtype, y, false⟩

/-- `_flat_state_dict_mapping_apply` (vmoe/initialization/mapping.py:172-218).  `pjit` gives dicts with sorted keys. -/
def apply [DecidableEq D] (env : Env D α) (flags : Flags) (txs : PyDict Key (Tx D α)) (target : PyDict Key (Flat (Arr D α))) :
    Except PyErr (PyDict Key (Flat (Arr D α))) := do
  let kept := target.filter fun kv => (PyDict.get? txs kv.1).isNone
  let output ← (txs.mergeSort fun a b => decide (a.1 ≤ b.1)).mapM fun kt => do
    let v ← applyTx env flags kt.2
    return (kt.1, Flat.leaf v)
  return output.foldl (fun d kv => PyDict.set d kv.1 kv.2) kept

/-- `map_state_dict` (vmoe/initialization/mapping.py:86-104). -/
def mapStateDict [DecidableEq D] (env : Env D α) (rules : List Rule) (flags : Flags) (source target : List (Key × FlatDict.Tree (Arr D α))) :
    Except PyErr (FlatDict.Tree (Arr D α)) := do
  let txs ← build env rules flags (flatten source) (flatten target)
  let output ← apply env flags txs (flatten target)
  let output ← unflatten output
  Partitioning.fromStateDict (.node target) (.node output)

end Verif.Mapping
