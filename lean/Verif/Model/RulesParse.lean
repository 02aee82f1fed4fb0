import Verif.Model.Mapping

/-!
`Rules.parse` (vmoe/initialization/rules.py:51-120): the rules of the config as objects of the classes of rules.  The
values in a rule are `None`, Booleans, integers, strings, tuples of integers and other objects that are true (floats that are
not zero, dicts with keys, ...); already compiled patterns are not modelled.  Regular expressions are parameters.
-/

namespace Verif.RulesParse

open Verif FlatDict Mapping

/-- The values in a rule of the config (vmoe/initialization/rules.py:33). -/
inductive Val where
  | none
  | bool (b : Bool)
  | int (i : Int)
  | str (s : Key)
  | tuple (l : List Int)
  | other
  deriving DecidableEq

/-- `bool(value)` (vmoe/initialization/rules.py:88,184). -/
def Val.truthy : Val → Bool
  | .none => false
  | .bool b => b
  | .int i => decide (i ≠ 0)
  | .str s => decide (s ≠ [])
  | .tuple l => decide (l ≠ [])
  | .other => true

/-- The integer, if `isinstance(value, int)` (vmoe/initialization/rules.py:100,105); Booleans are integers. -/
def Val.asInt : Val → Option Int
  | .int i => some i
  | .bool b => some (if b then 1 else 0)
  | _ => .none

/-- The classes of rules with their attributes, without the pattern (vmoe/initialization/rules.py:123-223); `base` is the class
`Rule` itself. -/
inductive Cls where
  | base
  | drop
  | regex (replacement : Val)
  | reshape (replacement shape : Val)
  | squeeze (replacement : Val) (axis : Int)
  | stack (replacement : Val) (axis : Int)
  | expandTile (replacement axis reps : Val)
  | vitZoom (replacement : Val)
  | zoom (replacement : Val)
  deriving DecidableEq

variable {P : Type}

/-- A rule object (vmoe/initialization/rules.py:123-125). -/
structure Parsed (P : Type) where
  pattern : P
  cls : Cls

/-- One of the rules that `Rules.parse` gets (vmoe/initialization/rules.py:33): an object, a sequence of values, or a string,
which is a sequence of its characters. -/
inductive Raw (P : Type) where
  | rule (r : Parsed P)
  | items (l : List Val)
  | text (s : Key)

/-- `re.compile(pattern)` (vmoe/initialization/rules.py:86). -/
def compileVal (compile : Key → Except PyErr P) : Val → Except PyErr P
  | .str s => compile s
  | _ => .error .typeError

/-- The class of a rule for its replacement and `transform` (vmoe/initialization/rules.py:87-118). -/
def clsOf (replacement : Val) : List Val → Except PyErr Cls
  | [] => if replacement.truthy then .ok (.regex replacement) else .ok .drop
  | t :: args =>
    if t = .str "reshape".toList then
      match args with
      | [] => .ok (.reshape replacement .none)
      | [shape] => .ok (.reshape replacement shape)
      | _ => .error .assertionError
    else if t = .str "squeeze".toList then
      match args with
      | [a] => match a.asInt with
        | some axis => .ok (.squeeze replacement axis)
        | .none => .error .assertionError
      | _ => .error .assertionError
    else if t = .str "stack".toList then
      match args with
      | [a] => match a.asInt with
        | some axis => .ok (.stack replacement axis)
        | .none => .error .assertionError
      | _ => .error .assertionError
    else if t = .str "expand_tile".toList then
      match args with
      | [axis, reps] => .ok (.expandTile replacement axis reps)
      | _ => .error .assertionError
    else if t = .str "vit_zoom".toList then .ok (.vitZoom replacement)
    else if t = .str "zoom".toList then .ok (.zoom replacement)
    else .error .valueError

/-- One sequence of values (vmoe/initialization/rules.py:85-119). -/
def parseItems (compile : Key → Except PyErr P) : List Val → Except PyErr (Parsed P)
  | pattern :: replacement :: transform => do
    let p ← compileVal compile pattern
    let c ← clsOf replacement transform
    return ⟨p, c⟩
  | _ => .error .valueError

/-- One step of the loop (vmoe/initialization/rules.py:81-119). -/
def parseOne (compile : Key → Except PyErr P) : Raw P → Except PyErr (Parsed P)
  | .rule r => .ok r
  | .items l => parseItems compile l
  | .text s => parseItems compile (s.map fun c => .str [c])

/-- `Rules.parse` (vmoe/initialization/rules.py:51-120). -/
def parse (compile : Key → Except PyErr P) (rules : List (Raw P)) : Except PyErr (List (Parsed P)) :=
  rules.mapM (parseOne compile)

/-- `rule.rename(key)` (vmoe/initialization/rules.py:131-132,145-146); `sub pattern replacement key`. -/
def rename (sub : P → Key → Key → Key) (r : Parsed P) (key : Key) : Except PyErr Key :=
  let go : Val → Except PyErr Key
    | .str s => .ok (sub r.pattern s key)
    | _ => .error .typeError
  match r.cls with
  | .base => .ok key
  | .drop => .ok key
  | .regex v => go v
  | .reshape v _ => go v
  | .squeeze v _ => go v
  | .stack v _ => go v
  | .expandTile v _ _ => go v
  | .vitZoom v => go v
  | .zoom v => go v

/-- An integer as the size of an axis: `-1` is any size (vmoe/initialization/rules.py:266); other negative numbers are not
modelled. -/
def dim (i : Int) : Option (Option Nat) :=
  if i = -1 then some .none else if 0 ≤ i then some (some i.toNat) else .none

/-- The shape of a `ReshapeRule` as it is used (vmoe/initialization/rules.py:184,266): an integer is a tuple of one, unless it
is zero; `none` if it is not a shape. -/
def shapeOf : Val → Option (Option (List (Option Nat)))
  | .none => some .none
  | .bool b => if b then some (some [some 1]) else some .none
  | .int i => if i = 0 then some .none else (dim i).map fun d => some [d]
  | .str s => if s = [] then some .none else .none
  | .tuple l => (l.mapM dim).map some
  | .other => .none

/-- The axis of an `ExpandTileRule` (vmoe/initialization/rules.py:249,253): an integer or a tuple. -/
def axesOf (v : Val) : Option (List Int) :=
  match v with
  | .tuple l => some l
  | _ => v.asInt.map fun i => [i]

/-- The repetitions of an `ExpandTileRule` (vmoe/initialization/rules.py:254): natural numbers; negative ones are not
modelled. -/
def repsOf (v : Val) : Option (List Nat) :=
  match axesOf v with
  | some l => l.mapM fun i => if 0 ≤ i then some i.toNat else .none
  | .none => .none

/-- A rule object as the mapping uses it (vmoe/initialization/rules.py:123-223); `none` if an attribute does not have the type
that its class declares. -/
def toRule (search : P → Key → Bool) (sub : P → Key → Key → Key) (r : Parsed P) : Option Rule :=
  let go : Val → Option Kind → Option Rule
    | .str s, some k => some ⟨search r.pattern, ⟨sub r.pattern s, k⟩⟩
    | _, _ => .none
  match r.cls with
  | .base => some ⟨search r.pattern, ⟨id, .other⟩⟩
  | .drop => some ⟨search r.pattern, ⟨id, .drop⟩⟩
  | .regex v => go v (some (.single .copy))
  | .reshape v s => go v ((shapeOf s).map fun s => .single (.reshape s))
  | .squeeze v a => go v (some (.single (.squeeze a)))
  | .stack v a => go v (some (.stack a))
  | .expandTile v a n =>
    match axesOf a, repsOf n with
    | some a, some n => go v (some (.single (.expandTile a n)))
    | _, _ => .none
  | .vitZoom v => go v (some (.single .vitZoom))
  | .zoom v => go v (some (.single .zoom))

/-- `map_state_dict` with the rules of the config (vmoe/initialization/mapping.py:86-104,114-115); `TypeError` for attributes of
other types stands for any exception. -/
def mapRaw {D α : Type} [DecidableEq D] (env : Env D α) (compile : Key → Except PyErr P) (search : P → Key → Bool)
    (sub : P → Key → Key → Key) (rules : List (Raw P)) (flags : Flags) (source target : List (Key × FlatDict.Tree (Arr D α))) :
    Except PyErr (FlatDict.Tree (Arr D α)) := do
  let parsed ← parse compile rules
  match parsed.mapM (toRule search sub) with
  | some rules => mapStateDict env rules flags source target
  | .none => throw .typeError

end Verif.RulesParse
