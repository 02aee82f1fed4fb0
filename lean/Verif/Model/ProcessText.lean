import Verif.Model.ImageOps

/-!
From the text of a processing string to the operations on examples (vmoe/data/input_pipeline.py:166-181, vmoe/utils.py:59-109):
`ast.parse` for calls with integers, strings and names of constants as arguments, the binding of arguments to parameters, and the
functions of vmoe/data/pp_ops.py.  Other texts (dotted names, other literals, escapes in strings) and arguments of other types are
refused here with `notImplementedError`, also where Python accepts them.
-/

namespace Verif.ProcessText

open Verif PpOps ImageOps
open Verif.ParseCall hiding Str

/-- Tokens of a call (vmoe/utils.py:78). -/
inductive Tok where
  | name (s : Str) (endCol : Nat)
  | int (n : Nat)
  | str (s : Str)
  | lpar
  | rpar
  | comma
  | eq
  | minus
  deriving DecidableEq, Repr

/-- A token that is being read (vmoe/utils.py:78). -/
inductive Pending where
  | none
  | name (s : Str)
  | int (n : Nat)
  | str (quote : Char) (s : Str)

/-- The characters of names (vmoe/utils.py:78); only ASCII. -/
def isIdent (c : Char) : Bool := c.isAlphanum || c == '_'

/-- A character outside of names, numbers and strings (vmoe/utils.py:78): the tokens that it ends and the token that it begins.  A
space at the beginning of the text is an error. -/
def lexFresh (col : Nat) (c : Char) : Except PyErr (List Tok × Pending) :=
  if c = ' ' then if col = 0 then .error .syntaxError else .ok ([], .none)
  else if c = '(' then .ok ([.lpar], .none)
  else if c = ')' then .ok ([.rpar], .none)
  else if c = ',' then .ok ([.comma], .none)
  else if c = '=' then .ok ([.eq], .none)
  else if c = '-' then .ok ([.minus], .none)
  else if c = '"' ∨ c = '\'' then .ok ([], .str c [])
  else if c.isDigit then .ok ([], .int (c.toNat - 48))
  else if isIdent c then .ok ([], .name [c])
  else .error .notImplementedError

/-- One character (vmoe/utils.py:78). -/
def lexStep (col : Nat) (p : Pending) (c : Char) : Except PyErr (List Tok × Pending) :=
  match p with
  | .none => lexFresh col c
  | .name s => if isIdent c then .ok ([], .name (s ++ [c])) else do
    let r ← lexFresh col c
    return (.name s col :: r.1, r.2)
  | .int n =>
    if c.isDigit then if n = 0 then .error .notImplementedError else .ok ([], .int (10 * n + (c.toNat - 48)))
    else if isIdent c then .error .notImplementedError
    else do
      let r ← lexFresh col c
      return (.int n :: r.1, r.2)
  | .str q s =>
    if c = q then .ok ([.str s], .none)
    else if c = '\\' ∨ c = '\n' then .error .notImplementedError
    else .ok ([], .str q (s ++ [c]))

/-- The characters of a text: the tokens that end in it, and the token that is still being read (vmoe/utils.py:78). -/
def run (col : Nat) (p : Pending) : Str → Except PyErr (List Tok × Pending)
  | [] => .ok ([], p)
  | c :: s => do
    let r ← lexStep col p c
    let q ← run (col + 1) r.2 s
    return (r.1 ++ q.1, q.2)

/-- The token that ends with the text (vmoe/utils.py:78). -/
def finish (col : Nat) : Pending → Except PyErr (List Tok)
  | .none => .ok []
  | .name s => .ok [.name s col]
  | .int n => .ok [.int n]
  | .str _ _ => .error .syntaxError

/-- The tokens of a text (vmoe/utils.py:78). -/
def lex (s : Str) : Except PyErr (List Tok) := do
  let r ← run 0 .none s
  let ts ← finish s.length r.2
  return r.1 ++ ts

/-- The constant that a name stands for in an argument (vmoe/utils.py:78,82-85). -/
def constant (s : Str) : Except PyErr Expr :=
  if s = "True".toList then .ok (.const (.bool true))
  else if s = "False".toList then .ok (.const (.bool false))
  else if s = "None".toList then .ok (.const .none)
  else .error .notImplementedError

/-- The value of an argument and the tokens after it (vmoe/utils.py:78). -/
def parseValue : List Tok → Except PyErr (Expr × List Tok)
  | .int n :: ts => .ok (.const (.int n), ts)
  | .minus :: .int n :: ts => .ok (.sign true (.const (.int n)), ts)
  | .str s :: ts => .ok (.const (.str s), ts)
  | .name s _ :: ts => do
    let e ← constant s
    return (e, ts)
  | _ => .error .notImplementedError

/-- An argument: the keyword, if it has one, its value, and the tokens after it (vmoe/utils.py:78). -/
def parseArg : List Tok → Except PyErr (Option Str × Expr × List Tok)
  | .name k _ :: .eq :: ts => do
    let r ← parseValue ts
    return (some k, r.1, r.2)
  | ts => do
    let r ← parseValue ts
    return (none, r.1, r.2)

/-- The arguments up to the closing parenthesis, which must be the last token (vmoe/utils.py:78); at most `fuel` arguments.
Positional arguments do not follow keywords. -/
def parseArgs : Nat → Bool → List Tok → Except PyErr (List Expr × List (Option Str × Expr))
  | _, _, [.rpar] => .ok ([], [])
  | 0, _, _ => .error .syntaxError
  | fuel + 1, keyword, ts => do
    let a ← parseArg ts
    if keyword && a.1.isNone then .error .syntaxError else
    let rest ← match a.2.2 with
      | .comma :: ts => parseArgs fuel a.1.isSome ts
      | [.rpar] => .ok ([], [])
      | _ => .error .syntaxError
    match a.1 with
      | some k => return (rest.1, (some k, a.2.1) :: rest.2)
      | none => return (a.2.1 :: rest.1, rest.2)

/-- `ast.parse(string, mode='eval')` (vmoe/utils.py:78).  A keyword must not be repeated.  The reserved words of Python are not
refused as names. -/
def astParse (s : Str) : Except PyErr Expr := do
  let ts ← lex s
  match ts with
    | [.name f n] => return .name f n
    | .name f n :: .lpar :: ts => do
      let r ← parseArgs (ts.length + 1) false ts
      if (r.2.map Prod.fst).Nodup then return .call (.name f n) r.1 r.2 else .error .syntaxError
    | _ => .error .notImplementedError

/-- The functions of the module (vmoe/data/pp_ops.py:66-403); `copy`, `flatten`, `reshape` and `tokenize` are left out. -/
inductive Fn where
  | centralCrop
  | decode
  | decodeJpegAndInceptionCrop
  | flipLr
  | ignoreNoLabels
  | inceptionCrop
  | keep
  | onehot
  | randaug
  | resize
  | resizeSmall
  | valueRange
  deriving DecidableEq

/-- `getattr(vmoe.data.pp_ops, name)` (vmoe/utils.py:109, vmoe/data/pp_ops.py:66-403). -/
def attr (name : Str) : Option Fn :=
  if name = "central_crop".toList then some .centralCrop
  else if name = "decode".toList then some .decode
  else if name = "decode_jpeg_and_inception_crop".toList then some .decodeJpegAndInceptionCrop
  else if name = "flip_lr".toList then some .flipLr
  else if name = "ignore_no_labels".toList then some .ignoreNoLabels
  else if name = "inception_crop".toList then some .inceptionCrop
  else if name = "keep".toList then some .keep
  else if name = "onehot".toList then some .onehot
  else if name = "randaug".toList then some .randaug
  else if name = "resize".toList then some .resize
  else if name = "resize_small".toList then some .resizeSmall
  else if name = "value_range".toList then some .valueRange
  else none

/-- The modules for `parse_call`: none can be imported by name here (vmoe/utils.py:107-109). -/
def modules : ParseCall.Env Unit Fn := ⟨fun _ => none, fun _ => attr⟩

/-- The arguments of a call in the order of the parameters, `none` for those that have their default
(vmoe/data/input_pipeline.py:180): no more positional arguments than parameters, no unknown keywords, no parameter twice, and all
of the first `required` parameters. -/
def bindArgs (params : List String) (required : Nat) (args : List Val) (kws : PyDict (Option Str) Val) :
    Except PyErr (List (Option Val)) :=
  if params.length < args.length ∨
      kws.any (fun kv => !((params.drop args.length).map fun p => some p.toList).contains kv.1) then .error .typeError
  else
    let l := args.map some ++ (params.drop args.length).map fun p => PyDict.get? kws (some p.toList)
    if (l.take required).any Option.isNone then .error .typeError else .ok l

/-- An argument that is an integer (vmoe/data/pp_ops.py:101,220,249,311). -/
def toNat : Val → Except PyErr Nat
  | .const (.int (.ofNat n)) => .ok n
  | _ => .error .notImplementedError

/-- An argument that is a number (vmoe/data/pp_ops.py:111,403). -/
def toRat : Val → Except PyErr ℚ
  | .const (.int n) => .ok n
  | .signed neg (.int n) => .ok (if neg then -n else n)
  | _ => .error .notImplementedError

/-- An argument that is a size (vmoe/data/pp_ops.py:66,111,173,280). -/
def toSize : Val → Except PyErr Size
  | .const (.int (.ofNat n)) => .ok (.int n)
  | .const .none => .ok .none
  | _ => .error .notImplementedError

/-- An argument that is a string (vmoe/data/pp_ops.py:162,209,280). -/
def toStr : Val → Except PyErr String
  | .const (.str s) => .ok (String.ofList s)
  | _ => .error .notImplementedError

/-- An argument or its default (vmoe/data/pp_ops.py:101-403). -/
def orDefault {α : Type} (f : Val → Except PyErr α) (default : α) : Option (Option Val) → Except PyErr α
  | some (some v) => f v
  | _ => .ok default

/-- A required argument (vmoe/data/pp_ops.py:66-403). -/
def need {α : Type} (f : Val → Except PyErr α) : Option (Option Val) → Except PyErr α
  | some (some v) => f v
  | _ => .error .typeError

/-- The key of a keyword argument: a string or `None` (vmoe/data/pp_ops.py:53-54). -/
def toKey : Val → Except PyErr (Option String)
  | .const (.str s) => .ok (some (String.ofList s))
  | .const .none => .ok none
  | _ => .error .notImplementedError

/-- `get_ikok_pp_fn` (vmoe/data/pp_ops.py:51-62): takes `key`, `inkey` and `outkey` out of the keywords. -/
def withKeys {V : Type} (indefault outdefault : String)
    (get : List Val → PyDict (Option Str) Val → Except PyErr (V → Except PyErr V))
    (args : List Val) (kws : PyDict (Option Str) Val) : Except PyErr (Op V) := do
  let key ← orDefault toKey none (some (PyDict.get? kws (some "key".toList)))
  let inkey ← orDefault toStr indefault (some (PyDict.get? kws (some "inkey".toList)))
  let outkey ← orDefault toStr outdefault (some (PyDict.get? kws (some "outkey".toList)))
  let f ← get args (kws.filter fun kv =>
    !([some "key".toList, some "inkey".toList, some "outkey".toList] : List (Option Str)).contains kv.1)
  return ikok f key inkey outkey

/-- The functions of TensorFlow and of other packages, with their random choices made (vmoe/data/pp_ops.py:105,126-138,157,192-198,
273-274,304,332): the decoder for a number of channels, the interpolations of `tf.image.resize` and `resize_area`, the sampler of
boxes, the choice of `random_flip_left_right`, the rounding of floats, and RandAugment if it is installed. -/
structure World (B : Type) where
  decode : Nat → B → Except PyErr Image
  interpolation : String → Kernel
  area : Kernel
  sample : Sampler
  coin : Bool
  fl : ℚ → ℚ
  randaug : Option (Nat → Nat → Image → Except PyErr Image)

variable {B : Type}

/-- `tf.size` of a value (vmoe/data/pp_ops.py:166). -/
def valueSize : Value B → Nat
  | .image i => i.h * i.w * i.c
  | .labels ls => ls.length
  | .vec v => v.length
  | _ => 1

/-- The value of the mask as a boolean, and booleans as values (vmoe/data/pp_ops.py:165-167): vectors with one entry. -/
def truth : Value B → Bool
  | .vec v => v ≠ [0]
  | _ => true

/-- See `truth` (vmoe/data/pp_ops.py:165-167). -/
def ofBool (b : Bool) : Value B := .vec [if b then 1 else 0]

/-- The call of the function (vmoe/data/input_pipeline.py:180): for each, its signature with its defaults and what it does
(vmoe/data/pp_ops.py:65-87,100-107,110-145,152-159,162-169,172-206,209-216,219-245,248-276,279-307,310-334,402-433).  Boolean
arguments and `on`, `off`, `in_min`, `in_max` other than the defaults are refused. -/
def build (w : World B) : Fn → List Val → PyDict (Option Str) Val → Except PyErr (Op (Value B))
  | .centralCrop => withKeys "image" "image" fun args kws => do
    let a ← bindArgs ["crop_size"] 1 args kws
    let size ← need toSize a[0]?
    let _ ← size.tuple
    return onImage (centralCropOp size)
  | .decode => withKeys "image" "image" fun args kws => do
    let a ← bindArgs ["channels"] 0 args kws
    let channels ← orDefault toNat 3 a[0]?
    return onBytes (w.decode channels)
  | .decodeJpegAndInceptionCrop => withKeys "image" "image" fun args kws => do
    let a ← bindArgs ["resize_size", "area_min", "area_max"] 0 args kws
    let size ← orDefault toSize .none a[0]?
    let areaMin ← orDefault toRat 5 a[1]?
    let areaMax ← orDefault toRat 100 a[2]?
    return onBytes (decodeJpegAndInceptionCrop (w.decode 3) (w.interpolation "bilinear") w.sample size areaMin areaMax)
  | .flipLr => withKeys "image" "image" fun args kws => do
    let _ ← bindArgs [] 0 args kws
    return onImage fun i => .ok (flipLr w.coin i)
  | .ignoreNoLabels => fun args kws => do
    let a ← bindArgs ["labels_key", "valid_key"] 0 args kws
    let labelsKey ← orDefault toStr "labels" a[0]?
    let validKey ← orDefault toStr DataPipeline.validKey a[1]?
    return ignoreNoLabels truth valueSize ofBool labelsKey validKey
  | .inceptionCrop => withKeys "image" "image" fun args kws => do
    let a ← bindArgs ["resize_size", "area_min", "area_max", "resize_method"] 0 args kws
    let size ← orDefault toSize .none a[0]?
    let areaMin ← orDefault toRat 5 a[1]?
    let areaMax ← orDefault toRat 100 a[2]?
    let method ← orDefault toStr "bilinear" a[3]?
    return onImage (inceptionCrop (w.interpolation method) w.sample size areaMin areaMax)
  | .keep => fun args kws =>
    if kws.isEmpty then do
      let keys ← args.mapM toStr
      return PpOps.keep keys
    else .error .typeError
  | .onehot => withKeys "labels" "labels" fun args kws => do
    let a ← bindArgs ["depth", "multi", "on", "off"] 1 args kws
    let depth ← need toNat a[0]?
    if (a.drop 1).any Option.isSome then .error .notImplementedError else
    return onehotOp depth 1 0
  | .randaug => withKeys "image" "image" fun args kws => do
    let a ← bindArgs ["num_layers", "magnitude"] 0 args kws
    let layers ← orDefault toNat 2 a[0]?
    let magnitude ← orDefault toNat 10 a[1]?
    match w.randaug with
      | none => .error .notImplementedError
      | some f => return onImage (f layers magnitude)
  | .resize => withKeys "image" "image" fun args kws => do
    let a ← bindArgs ["resize_size", "resize_method"] 1 args kws
    let size ← need toSize a[0]?
    let _ ← size.tuple
    let method ← orDefault toStr "bilinear" a[1]?
    return onImage (resize (w.interpolation method) size)
  | .resizeSmall => withKeys "image" "image" fun args kws => do
    let a ← bindArgs ["smaller_size"] 1 args kws
    let smaller ← need toNat a[0]?
    return onImage (resizeSmallOp w.fl w.area smaller)
  | .valueRange => withKeys "image" "image" fun args kws => do
    let a ← bindArgs ["vmin", "vmax", "in_min", "in_max", "clip_values"] 2 args kws
    let vmin ← need toRat a[0]?
    let vmax ← need toRat a[1]?
    if (a.drop 2).any Option.isSome then .error .notImplementedError else
    return onImage fun i => .ok (valueRangeOp vmin vmax 0 255 false i)

/-- `get_data_process_fn` (vmoe/data/input_pipeline.py:166-181). -/
def getDataProcessFn (w : World B) (process : Str) : Except PyErr (Arg (Value B) → Except PyErr (PyDict String (Value B))) :=
  PpOps.getDataProcessFn (makeOp modules () astParse (build w)) process

end Verif.ProcessText
