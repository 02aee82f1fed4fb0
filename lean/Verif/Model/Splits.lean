import Verif.Model.DataShare
import Verif.Model.PyStr

/-!
The splits of the datasets of the configurations (vmoe/configs, vmoe/projects/*/configs): the strings given as `split` to
`TfdsBuilder` (vmoe/data/builder.py:54, 66), which TFDS resolves to positions of a named split (vmoe/data/builder.py:76, 79,
82-83).  Concatenations (`+`), shards and underscores in the numbers are left out of the syntax, no configuration uses them.
-/

namespace Verif.Splits

open Verif PyStr

/-- Python strings (vmoe/data/builder.py:66). -/
abbrev Str := List Char

/-- A parsed split: its name, the bounds of the slice and whether these are percentages (vmoe/data/builder.py:54). -/
structure Instruction where
  name : Str
  start : Option Int
  stop : Option Int
  percent : Bool
deriving DecidableEq

/-- The characters of the name of a split in TFDS, `[\w\-]` restricted to ASCII (vmoe/data/builder.py:54). -/
def isWord (c : Char) : Bool := isLetter c || isDigit c || c == '_' || c == '-'

/-- A number at the beginning of a string, and whether it is negative (vmoe/data/builder.py:54). -/
def takeNumber (s : Str) (negative : Bool) : Option (Int × Str) :=
  if s.takeWhile isDigit = [] then none
  else
    let n : Int := parseNat (s.takeWhile isDigit)
    some (if negative then -n else n, s.dropWhile isDigit)

/-- A number with an optional minus sign (vmoe/data/builder.py:54). -/
def takeSigned : Str → Option (Int × Str)
  | '-' :: t => takeNumber t true
  | t => takeNumber t false

/-- An optional bound of a slice: a number with an optional `%` (vmoe/data/builder.py:54). -/
def takeBound (s : Str) : (Option Int × Bool) × Str :=
  match takeSigned s with
  | none => ((none, false), s)
  | some (n, '%' :: t) => ((some n, true), t)
  | some (n, t) => ((some n, false), t)

/-- The split described by a string, a `ValueError` if TFDS does not recognize it (vmoe/data/builder.py:54, 76, 79). -/
def parseSplit (s : Str) : Except PyErr Instruction :=
  let name := s.takeWhile isWord
  if name = [] then .error .valueError
  else match s.dropWhile isWord with
    | [] => .ok ⟨name, none, none, false⟩
    | '[' :: t =>
      let a := takeBound t
      match a.2 with
      | ':' :: t =>
        let b := takeBound t
        if b.2 = [']'] then .ok ⟨name, a.1.1, b.1.1, a.1.2 || b.1.2⟩ else .error .valueError
      | _ => .error .valueError
    | _ => .error .valueError

/-- The default rounding of percentages in TFDS, to the closest position, ties to the even one; the code computes it in
floating point, here it is exact (vmoe/data/builder.py:76, 79). -/
def closest (p : Int) (n : Nat) : Int :=
  let q := p * n / 100
  let r := p * n % 100
  if 2 * r < 100 then q else if 100 < 2 * r then q + 1 else q + q % 2

/-- The position of a bound in a split of `n` examples: negative positions count from the end, and positions out of range are
moved to the end (vmoe/data/builder.py:76, 79). -/
def position (round : Int → Nat → Int) (percent : Bool) (n : Nat) (b : Int) : Nat :=
  let i := if percent then round b n else b
  let i := if i < 0 then max (n + i) 0 else i
  min i.toNat n

/-- The first and last position (exclusive) of a split of a dataset with `n` examples of this name
(vmoe/data/builder.py:76, 79). -/
def resolve (round : Int → Nat → Int) (n : Nat) (s : Instruction) : Nat × Nat :=
  (match s.start with | none => 0 | some b => position round s.percent n b,
    match s.stop with | none => n | some b => position round s.percent n b)

/-- The examples of a split of a dataset, whose named splits are given; a `ValueError` for an unknown name
(vmoe/data/builder.py:76, 78-86).  That TFDS does not read an empty split is not modelled. -/
def readSplit {α : Type} (round : Int → Nat → Int) (dataset : PyDict Str (List α)) (s : Str) : Except PyErr (List α) := do
  let i ← parseSplit s
  match PyDict.get? dataset i.name with
  | none => .error .valueError
  | some l =>
    let r := resolve round l.length i
    .ok ((l.drop r.1).take (r.2 - r.1))

/-- `TfdsBuilder.as_dataset` in a process: its part of the examples of the split (vmoe/data/builder.py:78-89). -/
def readShare {α : Type} (round : Int → Nat → Int) (dataset : PyDict Str (List α)) (s : Str) (count index : Nat) :
    Except PyErr (List α) := do
  let l ← readSplit round dataset s
  .ok (DataShare.asDataset l count index)

/-- A variant of the datasets of a configuration: the name of the variant, of the dataset, and the split
(vmoe/configs/vmoe_paper/common.py:83-95). -/
structure Variant where
  variant : Str
  dataset : Str
  split : Str

/-- Variants of a configuration (vmoe/configs/vmoe_paper/common.py:83-95). -/
def variants (l : List (String × String × String)) : List Variant :=
  l.map fun v => ⟨v.1.toList, v.2.1.toList, v.2.2.toList⟩

/-- The variants for ILSVRC2012 (vmoe/configs/vmoe_paper/vmoe_b16_imagenet21k_randaug_strong_ft_ilsvrc2012.py:46-80). -/
def ilsvrc2012 : List Variant := variants
  [("train", "imagenet2012", "train[:99%]"), ("val", "imagenet2012", "train[99%:]"), ("test", "imagenet2012", "validation"),
    ("test_real", "imagenet2012_real", "validation"), ("imagenet_v2", "imagenet_v2", "test")]

/-- The datasets of every configuration:
vmoe/configs/vmoe_paper/pretrain_imagenet21k.py:46-66,
vmoe/configs/vmoe_paper/vmoe_s32_last2_ilsvrc2012_randaug_light1.py:56-74,
vmoe/configs/vmoe_paper/vmoe_b16_imagenet21k_randaug_strong_ft_ilsvrc2012.py:46-80,
vmoe/configs/vmoe_paper/vmoe_s32_last2_ilsvrc2012_randaug_light1_ft_ilsvrc2012.py:53-72,
vmoe/configs/vmoe_paper/vmoe_b16_imagenet21k_randaug_strong_ft_cifar10.py:46-65,
vmoe/configs/eee_paper/eee_s32_last2_ilsvrc2012_ft_cifar100.py:61-80,
vmoe/projects/adversarial_attacks/configs/common.py:51-71,
vmoe/projects/soft_moe/configs/common.py:145-188 (`get_imagenet_config`, no other file uses it),
vmoe/projects/soft_moe/configs/pretrain_jft4b.py:62-74,
vmoe/projects/soft_moe/configs/pretrain_laion.py:68-77. -/
def configs : List (List Variant) :=
  [variants [("train", "imagenet21k", "full[102400:]"), ("val", "imagenet21k", "full[:102400]")],
    variants [("train", "imagenet2012", "train[:99%]"), ("val", "imagenet2012", "train[99%:]"),
      ("test", "imagenet2012", "validation"), ("imagenet_v2", "imagenet_v2", "test"),
      ("imagenet_real", "imagenet2012_real", "validation")],
    ilsvrc2012,
    ilsvrc2012,
    variants [("train", "cifar10", "train[:98%]"), ("val", "cifar10", "train[98%:]"), ("test", "cifar10", "test")],
    variants [("train", "cifar100", "train[:98%]"), ("val", "cifar100", "train[98%:]"), ("test", "cifar100", "test")],
    variants [("train", "imagenet2012", "train[:99%]"), ("val", "imagenet2012", "train[99%:]"),
      ("test", "imagenet2012", "validation"), ("test_real", "imagenet2012_real", "validation")],
    variants [("train", "imagenet2012", "train[:99%]"), ("val", "imagenet2012", "train[99%:]"),
      ("test", "imagenet2012", "validation"), ("v2", "imagenet_v2", "test"), ("real", "imagenet2012_real", "validation")],
    variants [("train", "jft4b", "full[16384:]"), ("val", "jft4b", "full[:16384]")],
    variants [("train", "laion400m", "full[16384:]")]]

/-- The datasets of the few-shot evaluation: key, name, split of the examples to learn from, and split to test on
(vmoe/configs/common_fewshot.py:31-41). -/
def fewshotDatasets : List (Str × Str × Str × Str) :=
  [("birds", "caltech_birds2011", "train", "test"), ("caltech", "caltech101", "train", "test"),
    ("cars", "cars196:2.1.0", "train", "test"), ("cifar100", "cifar100", "train", "test"),
    ("col_hist", "colorectal_histology", "train[:2000]", "train[2000:]"), ("dtd", "dtd", "train", "test"),
    ("imagenet", "imagenet2012_subset/10pct", "train", "validation"), ("pets", "oxford_iiit_pet", "train", "test"),
    ("uc_merced", "uc_merced", "train[:1000]", "train[1000:]")].map
    fun (d : String × String × String × String) => (d.1.toList, d.2.1.toList, d.2.2.1.toList, d.2.2.2.toList)

end Verif.Splits
