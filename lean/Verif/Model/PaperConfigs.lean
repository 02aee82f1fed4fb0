import Verif.Model.PyStr
import Verif.Model.PyErr
import Verif.Model.PyDict
import Verif.Model.VmoeModel

/-!
Configurations of the models of the V-MoE paper, made from a description such as
`ViT-B/16, E=8, K=2, Every 2, 300 Epochs` (vmoe/configs/vmoe_paper/common.py, pretrain_imagenet21k.py and
vmoe/projects/adversarial_attacks/configs/common.py).
-/

namespace Verif.PaperConfigs

open Verif Verif.PyStr

/-- The groups of `DESCRIPTIONS_REGEX` with the numbers converted (vmoe/configs/vmoe_paper/common.py:33-38,194-200).  `where`
is `Every` or `Last`. -/
structure Description where
  variant : Char
  patch : Nat
  numExperts : Nat
  k : Nat
  every : Bool
  whereNum : Nat
  epochs : Nat
deriving DecidableEq

/-- A literal part of a regular expression (vmoe/configs/vmoe_paper/common.py:34-38): what is left of the string. -/
def lit (p s : List Char) : Option (List Char) := if p.isPrefixOf s then some (s.drop p.length) else none

/-- `[0-9]+` and `int(...)` (vmoe/configs/vmoe_paper/common.py:34-38,196-198,200).  Python's limit on the number of digits
of `int` is not modelled. -/
def digits (s : List Char) : Option (Nat × List Char) :=
  if (s.takeWhile isDigit).isEmpty then none else some (parseNat (s.takeWhile isDigit), s.dropWhile isDigit)

/-- `$`: the end of the string, or before a newline at the end (vmoe/configs/vmoe_paper/common.py:38). -/
def atEnd (s : List Char) : Bool := s == [] || s == ['\n']

/-- `(?P<where>Every|Last) ` (vmoe/configs/vmoe_paper/common.py:37). -/
def whereGroup (s : List Char) : Option (Bool × List Char) :=
  match lit "Every ".toList s with
  | some s => some (true, s)
  | none => (lit "Last ".toList s).map fun s => (false, s)

/-- `re.match(DESCRIPTIONS_REGEX, description)` (vmoe/configs/vmoe_paper/common.py:33-38,130,138,190; the same expression is in
vmoe/configs/vmoe_paper/pretrain_imagenet21k.py:29-34). -/
def matchDescription (s : List Char) : Option Description := do
  match ← lit "ViT-".toList s with
  | [] => none
  | v :: s =>
    if v = '\n' then none
    else
      let s ← lit ['/'] s
      let (patch, s) ← digits s
      let s ← lit ", E=".toList s
      let (e, s) ← digits s
      let s ← lit ", K=".toList s
      let (k, s) ← digits s
      let s ← lit ", ".toList s
      let (every, s) ← whereGroup s
      let (n, s) ← digits s
      let s ← lit ", ".toList s
      let (epochs, s) ← digits s
      let s ← lit " Epochs".toList s
      if atEnd s then some ⟨v, patch, e, k, every, n, epochs⟩ else none

/-- `get_num_epochs` (vmoe/configs/vmoe_paper/common.py:129-133). -/
def getNumEpochs (s : List Char) : Except PyErr Nat :=
  match matchDescription s with
  | none => .error .valueError
  | some d => .ok d.epochs

/-- Python's `range(start, stop, step)` with a positive step and a start that is not negative
(vmoe/configs/vmoe_paper/common.py:229,232). -/
def pyRange (start stop step : Nat) : List Nat := (List.range ((stop - start + step - 1) / step)).map fun i => start + i * step

/-- `l[-n:]` for `n ≥ 0` (vmoe/configs/vmoe_paper/common.py:232): `-0` is `0`. -/
def lastSlice {α : Type} (l : List α) (n : Nat) : List α := if n = 0 then l else l.drop (l.length - n)

/-- The positions of the MoE layers (vmoe/configs/vmoe_paper/common.py:226-235): `range` raises if the step is zero. -/
def moeLayers (every : Bool) (n numLayers : Nat) : Except PyErr (List Nat) :=
  if every then if n = 0 then .error .valueError else .ok (pyRange (n - 1) numLayers n)
  else .ok (lastSlice (pyRange 1 numLayers 2) n)

/-- `['S', 'B', 'L', 'H'].index(variant)` (vmoe/configs/vmoe_paper/common.py:195). -/
def variantIdx (c : Char) : Except PyErr Nat :=
  if c = 'S' then .ok 0 else if c = 'B' then .ok 1 else if c = 'L' then .ok 2 else if c = 'H' then .ok 3 else .error .valueError

/-- The fields of the configuration which depend on the arguments, or that say how the model routes
(vmoe/configs/vmoe_paper/common.py:210-256). -/
structure VmoeConfig where
  patchSize : Nat
  numClasses : Nat
  hiddenSize : Nat
  numLayers : Nat
  mlpDim : Nat
  numHeads : Nat
  numExperts : Nat
  layers : List Nat
  groupSize : Nat
  numSelected : Nat
  importanceLossWeight : ℝ
  loadLossWeight : ℝ
  gshardLossWeight : ℝ
  capacityFactor : ℚ

/-- The float `1.05` (vmoe/configs/vmoe_paper/common.py:249). -/
def f105 : ℚ := 4728779608739021 / 4503599627370496

/-- `get_vmoe_config` (vmoe/configs/vmoe_paper/common.py:187-256).  `-math.log(num_classes)` raises for zero classes (line 217).
The loss weights `0.005` are given exactly.  `get_vmoe_params` of vmoe/configs/vmoe_paper/pretrain_imagenet21k.py:108-173 is the
same with a fixed number of classes (and other constants for the head). -/
noncomputable def getVmoeConfig (description : List Char) (imageSize numClasses : Nat) : Except PyErr VmoeConfig :=
  match matchDescription description with
  | none => .error .valueError
  | some d => do
    let i ← variantIdx d.variant
    if d.patch = 0 then .error .zeroDivisionError
    else
      let numPatches := imageSize / d.patch * (imageSize / d.patch) + 1
      if numClasses = 0 then .error .valueError
      else
        let numLayers := [8, 12, 24, 32].getD i 0
        let layers ← moeLayers d.every d.whereNum numLayers
        return { patchSize := d.patch
                 numClasses := numClasses
                 hiddenSize := [512, 768, 1024, 1280].getD i 0
                 numLayers := numLayers
                 mlpDim := [2048, 3072, 4096, 5120].getD i 0
                 numHeads := [8, 12, 16, 16].getD i 0
                 numExperts := d.numExperts
                 layers := layers
                 groupSize := 8 * numPatches
                 numSelected := d.k
                 importanceLossWeight := 5 / 1000
                 loadLossWeight := 5 / 1000
                 gshardLossWeight := 0
                 capacityFactor := f105 }

/-- `get_vmoe_config` of the adversarial attacks (vmoe/projects/adversarial_attacks/configs/common.py:121-138). -/
noncomputable def getAttackVmoeConfig (description : List Char) (numClasses imageSize : Nat) : Except PyErr VmoeConfig := do
  let c ← getVmoeConfig description imageSize numClasses
  if 2 < c.numExperts then
    return { c with importanceLossWeight := 5 / 1000, loadLossWeight := 5 / 1000, gshardLossWeight := 0 }
  else
    return { c with importanceLossWeight := 0, loadLossWeight := 0, gshardLossWeight := 1 / 100 }

/-- The router that `config.encoder.moe.router` describes (vmoe/configs/vmoe_paper/common.py:239-254); what is not in the
configuration has the default of vmoe/nn/routing.py:45-53 and vmoe/moe.py:267-273 (`ceil`, multiple of 4). -/
noncomputable def router (c : VmoeConfig) (deterministic : Bool) : MoeBlock.RouterConfig :=
  { numSelected := c.numSelected
    noiseStd := 1
    gshardLossWeight := c.gshardLossWeight
    importanceLossWeight := c.importanceLossWeight
    loadLossWeight := c.loadLossWeight
    dispatcher := ⟨"einsum", false, none, some c.capacityFactor, "ceil", some 4, true⟩
    deterministic := deterministic }

/-- What matters of `get_optimizer_config` (vmoe/configs/vmoe_paper/common.py:136-169): the peak of the learning rate (the
decimal number that is written) and whether gradients are clipped. -/
def getOptimizerConfig (description : List Char) : Except PyErr (ℚ × Option ℚ) :=
  match matchDescription description with
  | none => .error .valueError
  | some d => do
    let peak ← match d.variant, d.patch with
      | 'S', 32 => .ok (1 / 1000)
      | 'B', 32 => .ok (8 / 10000)
      | 'B', 16 => .ok (8 / 10000)
      | 'L', 32 => .ok (6 / 10000)
      | 'L', 16 => .ok (4 / 10000)
      | 'H', 14 => .ok (3 / 10000)
      | _, _ => .error .keyError
    return (peak, if d.variant = 'H' then some 10 else none)

/-- `get_mixup_concentration` (vmoe/configs/vmoe_paper/common.py:108-118), as the decimal number that is written. -/
def getMixupConcentration (aug : String) : Except PyErr ℚ :=
  match aug with
  | "light0" => .ok 0
  | "light1" => .ok (2 / 10)
  | "medium1" => .ok (2 / 10)
  | "medium2" => .ok (5 / 10)
  | "strong1" => .ok (5 / 10)
  | "strong2" => .ok (8 / 10)
  | "extreme1" => .ok (5 / 10)
  | "extreme2" => .ok (8 / 10)
  | _ => .error .keyError

/-- Values in a `mixup` section (vmoe/configs/vmoe_paper/common.py:121-126, vmoe/configs/vmoe_paper/pretrain_imagenet21k.py:74-76). -/
inductive Value where
  | num (q : ℚ)
  | str (s : String)
deriving DecidableEq

/-- `get_mixup_config` (vmoe/configs/vmoe_paper/common.py:121-126). -/
def getMixupConfig (aug : String) : Except PyErr (List (String × Value)) := do
  let c ← getMixupConcentration aug
  return [("granularity", .str "device"), ("size", .num 2), ("concentration", .num c)]

/-- `config.mixup` of vmoe/configs/vmoe_paper/pretrain_imagenet21k.py:74-76. -/
def pretrainMixup : List (String × Value) := [("concentration", .num (5 / 10)), ("mixup_size", .num 2)]

/-- The keyword arguments that `wrap_train_step_with_mixup` accepts (vmoe/train/trainer.py:889-896). -/
def mixupParameters : List String := ["concentration", "granularity", "size", "partition_spec"]

/-- The call in `train_and_evaluate` (vmoe/train/trainer.py:744-749): an empty section is skipped, a keyword that is not a
parameter, or that is also given explicitly (`partition_spec`), is a TypeError.  The result says which concentration, granularity
and size are used, with the defaults of vmoe/train/trainer.py:892-894. -/
def bindMixup (section_ : List (String × Value)) : Except PyErr (Option (Value × Value × Value)) :=
  if section_.isEmpty then .ok none
  else if section_.any (fun kv => !(mixupParameters.contains kv.1) || kv.1 == "partition_spec") then .error .typeError
  else .ok (some ((section_.lookup "concentration").getD (.str "None"), (section_.lookup "granularity").getD (.str "device"),
    (section_.lookup "size").getD (.num 2)))

/-- Drops a newline at the end of a string that is read from its end
(vmoe/projects/adversarial_attacks/configs/common.py:31). -/
def stripNewline : List Char → List Char
  | '\n' :: t => t
  | t => t

/-- `get_num_epochs` of the adversarial attacks: `re.match(r'.*, ([0-9]+) Epochs$', description)`
(vmoe/projects/adversarial_attacks/configs/common.py:30-35), read from the end: without the newline at the end, the string ends
with ` Epochs`, before it come the longest run of digits and `, `, and the rest has no newline. -/
def getNumEpochsAttack (s : List Char) : Except PyErr Nat :=
  match lit " Epochs".toList.reverse (stripNewline s.reverse) with
  | none => .error .valueError
  | some t =>
    if (t.takeWhile isDigit).isEmpty then .error .valueError
    else
      match lit ", ".toList.reverse (t.dropWhile isDigit) with
      | none => .error .valueError
      | some pre => if '\n' ∈ pre then .error .valueError else .ok (parseNat (t.takeWhile isDigit).reverse)

end Verif.PaperConfigs
