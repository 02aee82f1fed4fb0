import Verif.Model.PyDict
import Verif.Model.PyErr

/-!
Model of `parse_call` (vmoe/utils.py:59-109) on the syntax tree given by `ast.parse(string, mode='eval')`.
The parser itself is not modelled here (see `Model/ProcessText.lean`): the tree is an input, with the end offsets of names and attributes,
which the code uses to cut the module name out of the string.
-/

namespace Verif.ParseCall

open Verif

/-- Strings (vmoe/utils.py:59). -/
abbrev Str := List Char

/-- Constants in the syntax tree (vmoe/utils.py:82-85).  Floats, complex numbers and bytes are opaque. -/
inductive Const where
  | int (n : Int)
  | float (id : Nat)
  | complex (id : Nat)
  | str (s : Str)
  | bytes (id : Nat)
  | bool (b : Bool)
  | none
  | ellipsis
  deriving DecidableEq, Repr

/-- Expressions of the syntax tree (vmoe/utils.py:78-106).  A dict display without `**` has as many keys as
values; one with `**`, comprehensions, lambdas, subscripts, other operators etc. are `other`. -/
inductive Expr where
  | name (id : Str) (endCol : Nat)
  | attr (value : Expr) (attr : Str) (endCol : Nat)
  | call (func : Expr) (args : List Expr) (kws : List (Option Str × Expr))
  | const (c : Const)
  | tuple (l : List Expr)
  | list (l : List Expr)
  | set (l : List Expr)
  | dict (l : List (Expr × Expr))
  /-- `+e` (false) or `-e` (true) -/
  | sign (neg : Bool) (e : Expr)
  /-- `a + b` (false) or `a - b` (true) -/
  | addSub (sub : Bool) (a b : Expr)
  | starred (e : Expr)
  | other

/-- Python values of literals (vmoe/utils.py:82-85).  A sign or a sum of a real and an imaginary number is
kept unevaluated, sets and dicts are not deduplicated. -/
inductive Val where
  | const (c : Const)
  | signed (neg : Bool) (c : Const)
  | sum (sub : Bool) (a b : Val)
  | tuple (l : List Val)
  | list (l : List Val)
  | set (l : List Val)
  | dict (l : List (Val × Val))

/-- `type(node.value) in (int, float, complex)` in `ast.literal_eval` (vmoe/utils.py:82,84). -/
def Const.isNum : Const → Bool
  | .int _ | .float _ | .complex _ => true
  | _ => false

/-- `isinstance(right, complex)` (vmoe/utils.py:82,84). -/
def Const.isComplex : Const → Bool
  | .complex _ => true
  | _ => false

/-- `_convert_num` of `ast.literal_eval` (vmoe/utils.py:82,84). -/
def convertNum : Expr → Except PyErr Const
  | .const c => if c.isNum then .ok c else .error .valueError
  | _ => .error .valueError

/-- `_convert_signed_num` of `ast.literal_eval` (vmoe/utils.py:82,84): sign and number. -/
def convertSigned : Expr → Except PyErr (Option Bool × Const)
  | .sign neg e => do return (some neg, ← convertNum e)
  | e => do return (none, ← convertNum e)

/-- A signed number as a value (vmoe/utils.py:82,84). -/
def signedVal : Option Bool × Const → Val
  | (some neg, c) => .signed neg c
  | (none, c) => .const c

mutual
/-- Whether `hash(v)` works (vmoe/utils.py:82,84: keys of dicts and elements of sets). -/
def hashable : Val → Bool
  | .const _ | .signed _ _ | .sum _ _ _ => true
  | .tuple l => hashableAll l
  | .list _ | .set _ | .dict _ => false
/-- All of a list (vmoe/utils.py:82,84). -/
def hashableAll : List Val → Bool
  | [] => true
  | v :: l => hashable v && hashableAll l
end

mutual
/-- `ast.literal_eval(node)` (vmoe/utils.py:82-85). -/
def literalEval : Expr → Except PyErr Val
  | .const c => .ok (.const c)
  | .tuple l => do return .tuple (← literalList l)
  | .list l => do return .list (← literalList l)
  | .set l => do
    let vs ← literalList l
    if hashableAll vs then return .set vs else .error .typeError
  | .call (.name id _) [] [] => if id = ['s', 'e', 't'] then .ok (.set []) else .error .valueError
  | .dict l => do
    let vs ← literalPairs l
    if hashableAll (vs.map Prod.fst) then return .dict vs else .error .typeError
  | .addSub sub a b => do
    let (s, l) ← convertSigned a
    let r ← convertNum b
    if !l.isComplex && r.isComplex then return .sum sub (signedVal (s, l)) (.const r)
    else .error .valueError
  | .sign neg e => do return signedVal (some neg, ← convertNum e)
  | _ => .error .valueError
/-- `literal_eval` of the elements in order (vmoe/utils.py:82,84). -/
def literalList : List Expr → Except PyErr (List Val)
  | [] => .ok []
  | e :: l => do
    let v ← literalEval e
    let vs ← literalList l
    return v :: vs
/-- Keys and values of a dict display (vmoe/utils.py:82,84). -/
def literalPairs : List (Expr × Expr) → Except PyErr (List (Val × Val))
  | [] => .ok []
  | (k, v) :: l => do
    let a ← literalEval k
    let b ← literalEval v
    let r ← literalPairs l
    return (a, b) :: r
end

/-- The values of the keyword arguments in order (vmoe/utils.py:83-85). -/
def literalKws : List (Option Str × Expr) → Except PyErr (List (Option Str × Val))
  | [] => .ok []
  | (k, e) :: l => do
    let v ← literalEval e
    let vs ← literalKws l
    return (k, v) :: vs

/-- What `import_module` and `getattr` give (vmoe/utils.py:108-109). -/
structure Env (Mod Obj : Type) where
  modules : Str → Option Mod
  attrs : Mod → Str → Option Obj

/-- `end_col_offset` of a name or attribute (vmoe/utils.py:97); other nodes never get here with success. -/
def endCol : Expr → Nat
  | .name _ n => n
  | .attr _ _ n => n
  | _ => 0

/-- The `while` loop (vmoe/utils.py:101-104): a chain of attributes that ends with a name. -/
def isDotted : Expr → Bool
  | .name _ _ => true
  | .attr v _ _ => isDotted v
  | _ => false

/-- Lines 90-106: the module (default, or a name to import) and the name of the function
(vmoe/utils.py:90-106). -/
def target {Mod : Type} (string : Str) (default : Str ⊕ Mod) : Expr → Except PyErr ((Str ⊕ Mod) × Str)
  | .name id _ => .ok (default, id)
  | .attr v a _ => if isDotted v then .ok (.inl (string.take (endCol v)), a) else .error .valueError
  | _ => .error .valueError

/-- `import_module` if the module is a string (vmoe/utils.py:107-108). -/
def findModule {Mod Obj : Type} (env : Env Mod Obj) : Str ⊕ Mod → Except PyErr Mod
  | .inl s => match env.modules s with
    | some m => .ok m
    | none => .error .importError
  | .inr m => .ok m

/-- `getattr(module, name)` (vmoe/utils.py:109). -/
def getAttr {Mod Obj : Type} (env : Env Mod Obj) (m : Mod) (name : Str) : Except PyErr Obj :=
  match env.attrs m name with
  | some o => .ok o
  | none => .error .attributeError

/-- Positional and keyword arguments and the rest of the expression (vmoe/utils.py:79-89). -/
def splitCall : Expr → Except PyErr (List Val × PyDict (Option Str) Val × Expr)
  | .call f args kws => do
    let a ← literalList args
    let k ← literalKws kws
    return (a, PyDict.ofItems k, f)
  | e => .ok ([], [], e)

/-- `parse_call` (vmoe/utils.py:59-109). -/
def parseCall {Mod Obj : Type} (env : Env Mod Obj) (string : Str) (expr : Expr) (default : Str ⊕ Mod) :
    Except PyErr (Obj × List Val × PyDict (Option Str) Val) := do
  let (args, kwargs, f) ← splitCall expr
  let (ms, name) ← target string default f
  let m ← findModule env ms
  let o ← getAttr env m name
  return (o, args, kwargs)

end Verif.ParseCall
