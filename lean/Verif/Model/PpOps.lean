import Verif.Model.DataPipeline
import Verif.Model.ParseCall
import Mathlib.Data.Rat.Floor
import Mathlib.Algebra.Order.Round

/-!
Model of the processing strings (vmoe/data/input_pipeline.py:166-193) and of some operations
(vmoe/data/pp_ops.py).  Random operations, decoding, resizing kernels and tokenizers are not modelled.
-/

namespace Verif.PpOps

open Verif

/-- Characters (vmoe/data/input_pipeline.py:166). -/
abbrev Str := List Char

/-- `s.split('|')` (vmoe/data/input_pipeline.py:178). -/
def splitBar : Str → List Str
  | [] => [[]]
  | c :: s =>
    if c = '|' then [] :: splitBar s
    else match splitBar s with
      | p :: ps => (c :: p) :: ps
      | [] => [[c]]

/-- A Python object given to a processing function: a dict or something else
(vmoe/data/input_pipeline.py:186-188). -/
inductive Arg (V : Type) where
  | dict (d : PyDict String V)
  | other

/-- A processing operation (vmoe/data/pp_ops.py:17-18).  Operations may change the dict they are given in place;
here they return the changed dict. -/
abbrev Op (V : Type) := PyDict String V → Except PyErr (PyDict String V)

variable {V : Type}

/-- The loop in `_compose_fns` (vmoe/data/input_pipeline.py:189-191). -/
def applyAll : List (Op V) → PyDict String V → Except PyErr (PyDict String V)
  | [], d => .ok d
  | f :: fs, d => do
    let d' ← f d
    applyAll fs d'

/-- `_compose_fns` (vmoe/data/input_pipeline.py:184-193). -/
def composeFns (fns : List (Op V)) : Arg V → Except PyErr (PyDict String V)
  | .dict d => applyAll fns d
  | .other => .error .typeError

/-- `parse_call(op_str, pp_ops)` and the call of the function it gives (vmoe/data/input_pipeline.py:179-180).
`astParse` is `ast.parse`, `build` calls an object with arguments. -/
def makeOp {Mod Obj : Type} (env : ParseCall.Env Mod Obj) (ppOps : Mod)
    (astParse : Str → Except PyErr ParseCall.Expr)
    (build : Obj → List ParseCall.Val → PyDict (Option Str) ParseCall.Val → Except PyErr (Op V))
    (s : Str) : Except PyErr (Op V) := do
  let e ← astParse s
  let r ← ParseCall.parseCall env s e (.inr ppOps)
  build r.1 r.2.1 r.2.2

/-- `get_data_process_fn` (vmoe/data/input_pipeline.py:166-181), with `mk` for `makeOp`. -/
def getDataProcessFn (mk : Str → Except PyErr (Op V)) (s : Str) :
    Except PyErr (Arg V → Except PyErr (PyDict String V)) := do
  let ops ← (splitBar s).mapM mk
  return composeFns ops

/-- `key or default` (vmoe/data/pp_ops.py:57): `None` and the empty string are false. -/
def keyOr (key : Option String) (default : String) : String :=
  match key with
  | some k => if k = "" then default else k
  | none => default

/-- `data[k]` (vmoe/data/pp_ops.py:57,94). -/
def lookup (d : PyDict String V) (k : String) : Except PyErr V :=
  match PyDict.get? d k with
  | some v => .ok v
  | none => .error .keyError

/-- `_ikok_pp_fn` of `InKeyOutKey` (vmoe/data/pp_ops.py:56-58). -/
def ikok (f : V → Except PyErr V) (key : Option String) (inkey outkey : String) : Op V := fun d => do
  let x ← lookup d (keyOr key inkey)
  let y ← f x
  return PyDict.set d (keyOr key outkey) y

/-- `copy` (vmoe/data/pp_ops.py:90-97). -/
def copy (inkey outkey : String) : Op V := fun d => do
  let x ← lookup d inkey
  return PyDict.set d outkey x

/-- `keep` (vmoe/data/pp_ops.py:209-216). -/
def keep (keys : List String) : Op V := fun d =>
  .ok (d.filter fun kv => (keys ++ [DataPipeline.validKey]).contains kv.1)

/-- `ignore_no_labels` (vmoe/data/pp_ops.py:162-169).  `truth` is the cast to a boolean, `size` is `tf.size`, and
`ofBool` makes a boolean tensor. -/
def ignoreNoLabels (truth : V → Bool) (size : V → Nat) (ofBool : Bool → V) (labelsKey validKey : String) :
    Op V := fun d => do
  let labels ← lookup d labelsKey
  let valid := match PyDict.get? d validKey with
    | some v => truth v
    | none => true
  return PyDict.set d validKey (ofBool (valid && decide (0 < size labels)))

/-- `value_range` on one value (vmoe/data/pp_ops.py:422-431), in exact arithmetic.  `tf.clip_by_value(x, a, b)` is
`max(min(x, b), a)`.  With `in_min = in_max` the code divides by zero and gives infinities or NaN, while a
division by zero is zero here. -/
def valueRange (vmin vmax inMin inMax : ℚ) (clip : Bool) (x : ℚ) : ℚ :=
  let y := (x - inMin) / (inMax - inMin)
  let z := vmin + y * (vmax - vmin)
  if clip then max (min z vmax) vmin else z

/-- The window of `tf.image.crop_to_bounding_box` (vmoe/data/pp_ops.py:85): its checks, and offset and size. -/
def cropToBoundingBox (height width offY offX h w : Int) : Except PyErr (Int × Int × Int × Int) :=
  if 0 ≤ offX ∧ 0 ≤ offY ∧ 0 < w ∧ 0 < h ∧ w + offX ≤ width ∧ h + offY ≤ height then
    .ok (offY, offX, h, w)
  else .error .valueError

/-- `central_crop` (vmoe/data/pp_ops.py:65-87) on an image of `height` times `width` pixels: the window. -/
def centralCrop (cropH cropW height width : Int) : Except PyErr (Int × Int × Int × Int) :=
  let dy := Int.fdiv (height - cropH) 2
  let dx := Int.fdiv (width - cropW) 2
  cropToBoundingBox height width dy dx cropH cropW

/-- `tf.round`: to the nearest integer, halves to the even one (vmoe/data/pp_ops.py:329-330). -/
def roundHalfEven (x : ℚ) : Int :=
  if x - ⌊x⌋ < 1 / 2 then ⌊x⌋
  else if 1 / 2 < x - ⌊x⌋ then ⌊x⌋ + 1
  else if ⌊x⌋ % 2 = 0 then ⌊x⌋ else ⌊x⌋ + 1

/-- The new height and width in `resize_small` (vmoe/data/pp_ops.py:322-330), for a non-empty image.  `fl` rounds
an exact result to a 32-bit float. -/
def resizeSmall (fl : ℚ → ℚ) (smaller h w : Nat) : Int × Int :=
  let ratio := fl (fl smaller / fl ((min h w : Nat) : ℚ))
  (roundHalfEven (fl (fl h * ratio)), roundHalfEven (fl (fl w * ratio)))

/-- `tf.scatter_nd(label[:, None], ones, (depth,))` (vmoe/data/pp_ops.py:238-239): counts; indices out of range
raise (on a CPU). -/
def scatterCounts (labels : List Int) (depth : Nat) : Except PyErr (List ℚ) :=
  if labels.all fun l => 0 ≤ l ∧ l < depth then
    .ok ((List.range depth).map fun c : Nat => (labels.countP fun l => decide (l = (c : Int)) : ℚ))
  else .error .valueError

/-- `onehot` with `multi` of a vector of labels (vmoe/data/pp_ops.py:234-240). -/
def multiHot (depth : Nat) (on off : ℚ) (labels : List Int) : Except PyErr (List ℚ) := do
  let x ← scatterCounts labels depth
  return x.map fun v => max (min v 1) 0 * (on - off) + off

/-- `tf.one_hot` of one label (vmoe/data/pp_ops.py:242). -/
def oneHot (depth : Nat) (on off : ℚ) (label : Int) : List ℚ :=
  (List.range depth).map fun c : Nat => if (c : Int) = label then on else off

end Verif.PpOps
