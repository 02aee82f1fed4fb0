import Verif.Model.Summarizer
import Verif.Model.PyDict

/-!
Model of `create_tree_summarizer` (vmoe/train/trainer.py:263-269), of the creation of a `TreeSummarizer` (vmoe/train/tree_summarizer.py:67-79) and of the
transforms of its rules as they are given (vmoe/train/tree_summarizer.py:109-129).
-/

namespace Verif.Summarizer

open Verif

/-- Values in a configuration (vmoe/train/trainer.py:263): None, strings, compiled patterns, integers, lists or tuples, dicts. -/
inductive Val (R : Type) where
  | none
  | str (s : List Char)
  | pat (r : R)
  | int (i : Int)
  | seq (items : List (Val R))
  | dict (items : List (List Char × Val R))

variable {R : Type}

/-- `bool(config)` (vmoe/train/trainer.py:264). -/
def Val.truthy : Val R → Bool
  | .none => false
  | .str s => !s.isEmpty
  | .pat _ => true
  | .int i => i != 0
  | .seq l => !l.isEmpty
  | .dict l => !l.isEmpty

/-- The items of `for rule in ...`, or of an unpacking (vmoe/train/tree_summarizer.py:73, 77): those of a sequence, the characters of a string, the keys of a
dict. -/
def Val.iter : Val R → Except PyErr (List (Val R))
  | .seq l => .ok l
  | .str s => .ok (s.map fun c => .str [c])
  | .dict l => .ok (l.map fun p => .str p.1)
  | _ => .error .typeError

/-- `re.compile(pattern)` (vmoe/train/tree_summarizer.py:75, 78); a compiled pattern is returned as it is. -/
def compilePat (compile : List Char → Except PyErr R) : Val R → Except PyErr R
  | .str p => compile p
  | .pat r => .ok r
  | _ => .error .typeError

/-- One rule in `__post_init__` (vmoe/train/tree_summarizer.py:74-78). -/
def compileRule (compile : List Char → Except PyErr R) : Val R → Except PyErr (R × List (Val R))
  | .str p => (compile p).map fun r => (r, [])
  | .pat r => .ok (r, [])
  | rule => do
    match ← rule.iter with
    | [] => .error .valueError
    | p :: transforms => do
      let r ← compilePat compile p
      return (r, transforms)

/-- A `TreeSummarizer` (vmoe/train/tree_summarizer.py:67-68). -/
structure TreeSummarizer (R : Type) where
  rules : List (R × List (Val R))
  maxSummaryValues : Int

/-- `TreeSummarizer(rules, max_summary_values)` with `__post_init__` (vmoe/train/tree_summarizer.py:67-79). -/
def mkSummarizer (compile : List Char → Except PyErr R) (rules : Val R) (maxSummaryValues : Int) : Except PyErr (TreeSummarizer R) := do
  let rules ← rules.iter
  let rules ← rules.mapM (compileRule compile)
  return ⟨rules, maxSummaryValues⟩

/-- The default of `max_summary_values` (vmoe/train/tree_summarizer.py:68). -/
def maxOf : Option (Val R) → Except PyErr Int
  | none => .ok 1
  | some (.int i) => .ok i
  | some _ => .error .typeError

/-- `TreeSummarizer(**config)` (vmoe/train/trainer.py:269): unknown arguments and missing rules raise.  A `max_summary_values` that is not an integer raises here
(in the code when it is compared, vmoe/train/tree_summarizer.py:100). -/
def fromKwargs (compile : List Char → Except PyErr R) (kw : PyDict (List Char) (Val R)) : Except PyErr (TreeSummarizer R) :=
  if kw.all (fun p => p.1 = "rules".toList ∨ p.1 = "max_summary_values".toList) then
    match PyDict.get? kw "rules".toList with
    | none => .error .typeError
    | some rules => do
      let m ← maxOf (PyDict.get? kw "max_summary_values".toList)
      mkSummarizer compile rules m
  else .error .typeError

/-- `create_tree_summarizer` (vmoe/train/trainer.py:263-269). -/
def createTreeSummarizer (compile : List Char → Except PyErr R) (config : Val R) : Except PyErr (Option (TreeSummarizer R)) :=
  if config.truthy = false then .ok none
  else
    match config with
    | .seq rules => (mkSummarizer compile (.seq rules) 1).map some
    | .dict kw => (fromKwargs compile kw).map some
    | _ => .error .typeError

/-- An integer axis (vmoe/train/tree_summarizer.py:120). -/
def axisOf : Val R → Except PyErr Int
  | .int i => .ok i
  | _ => .error .typeError

/-- `op` and `axes` of a transform (vmoe/train/tree_summarizer.py:115-120).  An operation that is not a string is not in `_TRANSFORMATION`, or not hashable;
both raise, here as ValueError. -/
def parseTransform : Val R → Except PyErr Transform
  | .str op => .ok ⟨op, none⟩
  | .seq [] => .error .indexError
  | .seq [_] => .error .indexError
  | .seq (op :: axes :: _) => do
    let axes ← match axes with
      | .int i => .ok [i]
      | .seq l => l.mapM axisOf
      | _ => .error .typeError
    match op with
    | .str op => .ok ⟨op, some axes⟩
    | _ => .error .valueError
  | _ => .error .typeError

/-- `_transform` on transforms as they are given (vmoe/train/tree_summarizer.py:109-129). -/
noncomputable def transformVals : List Char → NdArray ℝ → List (Val R) → Except PyErr (List Char × NdArray ℝ)
  | suffix, output, [] => .ok (suffix, output)
  | suffix, output, t :: ts => do
    let t ← parseTransform t
    let (suffix, output) ← transform suffix output [t]
    transformVals suffix output ts

/-- `_summarize` with rules as they are given (vmoe/train/tree_summarizer.py:91-106). -/
noncomputable def summarizeVals (search : R → List Char → Bool) (maxValues : Int) (key : List Char) (value : NdArray ℝ) :
    List (R × List (Val R)) → Gen
  | [] => ([], none)
  | (r, ts) :: rules =>
    Gen.andThen
      (if search r key then
        match transformVals [] value ts with
        | .error e => ([], some e)
        | .ok (suffix, summary) =>
          if (summary.shape.prod : Int) > maxValues then ([], some .valueError)
          else (yieldValues (key ++ suffix) summary, none)
      else ([], none))
      (summarizeVals search maxValues key value rules)

/-- `__call__` of a created summarizer (vmoe/train/tree_summarizer.py:81-86). -/
noncomputable def TreeSummarizer.call (search : R → List Char → Bool) (s : TreeSummarizer R) : List (List Char × NdArray ℝ) → Gen
  | [] => ([], none)
  | (key, value) :: l => Gen.andThen (summarizeVals search s.maxSummaryValues key value s.rules) (TreeSummarizer.call search s l)

end Verif.Summarizer
