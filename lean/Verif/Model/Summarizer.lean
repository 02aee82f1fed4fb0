import Verif.Model.NdArray
import Verif.Model.FlatDict
import Verif.Model.PyStr
import Mathlib.Analysis.Real.Sqrt

/-!
`TreeSummarizer` (vmoe/train/tree_summarizer.py).  Numbers are reals.  A generator is modelled by the values it yields and
the exception that ends it, if any.  Regular expressions are abstract: `search rule key` tells if the pattern of the rule
is found in the key.  The warnings about rules that were never matched are not modelled.
-/

namespace Verif.Summarizer

open Verif FlatDict

/-- `itertools.product(*tuple(range(s) for s in shape))` (vmoe/train/tree_summarizer.py:133). -/
def product : List Nat → List (List Nat)
  | [] => [[]]
  | d :: ds => (List.range d).flatMap fun i => (product ds).map (i :: ·)

/-- `sep.join(parts)` for a one-character separator (vmoe/train/tree_summarizer.py:134). -/
def joinWith (sep : Char) : List (List Char) → List Char
  | [] => []
  | [p] => p
  | p :: q :: ps => p ++ sep :: joinWith sep (q :: ps)

/-- `idx_s` (vmoe/train/tree_summarizer.py:134). -/
def indexStr (shape idx : List Nat) : List Char :=
  joinWith ',' (((List.zip idx shape).filter fun p => decide (1 < p.2)).map fun p => PyStr.natStr p.1)

/-- `'[' + idx_s + ']' if idx_s else ''` (vmoe/train/tree_summarizer.py:135). -/
def indexSuffix (shape idx : List Nat) : List Char :=
  if indexStr shape idx = [] then [] else '[' :: (indexStr shape idx ++ [']'])

/-- `_yield` (vmoe/train/tree_summarizer.py:131-136). -/
def yieldValues (pre : List Char) (value : NdArray ℝ) : List (List Char × ℝ) :=
  (product value.shape).map fun idx => (pre ++ indexSuffix value.shape idx, value.get idx)

/-- `str(a)` of an integer (vmoe/train/tree_summarizer.py:128). -/
def intStr (a : Int) : List Char := if a < 0 then '-' :: PyStr.natStr a.natAbs else PyStr.natStr a.natAbs

/-- `f'{axes}'` of a tuple of integers (vmoe/train/tree_summarizer.py:128). -/
def tupleStr : List Int → List Char
  | [] => ['(', ')']
  | [a] => '(' :: (intStr a ++ [',', ')'])
  | a :: b :: l => '(' :: (((b :: l).foldl (fun s c => s ++ ',' :: ' ' :: intStr c) (intStr a)) ++ [')'])

/-- An axis of an array with `ndim` axes; negative ones count from the end (the `axis` argument of the operations in
vmoe/train/tree_summarizer.py:36-44). -/
def resolveAxis (ndim : Nat) (a : Int) : Except PyErr Nat :=
  if 0 ≤ a ∧ a < ndim then .ok a.toNat
  else if a < 0 ∧ -(ndim : Int) ≤ a then .ok (a + ndim).toNat
  else .error .valueError

/-- The axes of an operation: all of them for `None` (vmoe/train/tree_summarizer.py:36-44); JAX raises if there are
duplicates. -/
def resolveAxes (ndim : Nat) : Option (List Int) → Except PyErr (List Nat)
  | none => .ok (List.range ndim)
  | some axes => do
    let l ← axes.mapM (resolveAxis ndim)
    if l.Nodup then return l else throw .valueError

/-- The shape of a reduction with `keepdims=True` (vmoe/train/tree_summarizer.py:36-44). -/
def keepShape (axes : List Nat) (shape : List Nat) : List Nat :=
  shape.mapIdx fun i d => if i ∈ axes then 1 else d

/-- The values which are reduced to the one at `idx` (vmoe/train/tree_summarizer.py:36-44). -/
def groupAt (axes : List Nat) (x : NdArray ℝ) (idx : List Nat) : List ℝ :=
  ((product x.shape).filter fun j =>
    decide (∀ a < x.shape.length, a ∉ axes → j.getD a 0 = idx.getD a 0)).map x.get

/-- `jnp.mean` of a list (vmoe/train/tree_summarizer.py:37); zero instead of NaN for an empty list. -/
noncomputable def meanOf (l : List ℝ) : ℝ := l.sum / l.length

/-- `_TRANSFORMATION[op]` on a list of values (vmoe/train/tree_summarizer.py:36-44); `none` if the operation is not
known. -/
noncomputable def opOf (op : List Char) : Option (List ℝ → ℝ) :=
  if op = "mean".toList then some meanOf
  else if op = "std".toList then some fun l => Real.sqrt (meanOf (l.map fun x => (x - meanOf l) ^ 2))
  else if op = "sum".toList then some List.sum
  else if op = "min".toList then some fun l => l.tail.foldl min (l.headD 0)
  else if op = "max".toList then some fun l => l.tail.foldl max (l.headD 0)
  else if op = "norm".toList then some fun l => Real.sqrt (l.map fun x => x ^ 2).sum
  else none

/-- One operation on an array (vmoe/train/tree_summarizer.py:125).  The minimum and the maximum of no values raise
`ValueError`. -/
noncomputable def applyOp (op : List Char) (axes : Option (List Int)) (x : NdArray ℝ) : Except PyErr (NdArray ℝ) :=
  match opOf op with
  | none => .error .valueError
  | some f => do
    let axes ← resolveAxes x.shape.length axes
    if (op = "min".toList ∨ op = "max".toList) ∧ ∃ a ∈ axes, x.shape.getD a 0 = 0 then throw .valueError
    return ⟨keepShape axes x.shape, fun idx => f (groupAt axes x idx)⟩

/-- `Transform` (vmoe/train/tree_summarizer.py:28); a single integer axis is the tuple of this integer. -/
structure Transform where
  op : List Char
  axes : Option (List Int)

/-- `_transform` (vmoe/train/tree_summarizer.py:109-129). -/
noncomputable def transform : List Char → NdArray ℝ → List Transform → Except PyErr (List Char × NdArray ℝ)
  | suffix, output, [] => .ok (suffix, output)
  | suffix, output, t :: ts => do
    let output ← applyOp t.op t.axes output
    transform (suffix ++ '_' :: t.op ++ (match t.axes with | none => [] | some axes => tupleStr axes)) output ts

/-- What a generator yields and the exception that ends it (vmoe/train/tree_summarizer.py:81). -/
abbrev Gen := List (List Char × ℝ) × Option PyErr

/-- `yield from` one generator and then go on (vmoe/train/tree_summarizer.py:86,106). -/
def Gen.andThen (a : Gen) (b : Gen) : Gen :=
  match a.2 with
  | none => (a.1 ++ b.1, b.2)
  | some e => (a.1, some e)

variable {R : Type}

/-- `_summarize` (vmoe/train/tree_summarizer.py:91-106). -/
noncomputable def summarize (search : R → List Char → Bool) (maxValues : Nat) (key : List Char) (value : NdArray ℝ) :
    List (R × List Transform) → Gen
  | [] => ([], none)
  | (r, ts) :: rules =>
    Gen.andThen
      (if search r key then
        match transform [] value ts with
        | .error e => ([], some e)
        | .ok (suffix, summary) =>
          if maxValues < summary.shape.prod then ([], some .valueError)
          else (yieldValues (key ++ suffix) summary, none)
      else ([], none))
      (summarize search maxValues key value rules)

/-- The loop over the arrays of `__call__` (vmoe/train/tree_summarizer.py:85-86). -/
noncomputable def summarizeAll (search : R → List Char → Bool) (maxValues : Nat) (rules : List (R × List Transform)) :
    List (List Char × NdArray ℝ) → Gen
  | [] => ([], none)
  | (key, value) :: l =>
    Gen.andThen (summarize search maxValues key value rules) (summarizeAll search maxValues rules l)

/-- `__call__` (vmoe/train/tree_summarizer.py:81-89) on a nested dict of arrays; empty dicts are not kept by
`flatten_dict`. -/
noncomputable def call (search : R → List Char → Bool) (maxValues : Nat) (rules : List (R × List Transform))
    (tree : List (Key × FlatDict.Tree (NdArray ℝ))) : Gen :=
  summarizeAll search maxValues rules ((flatten tree).filterMap fun kv =>
    match kv.2 with
    | .leaf v => some (kv.1, v)
    | .empty => none)

end Verif.Summarizer
