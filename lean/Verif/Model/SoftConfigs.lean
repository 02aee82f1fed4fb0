import Verif.Model.PaperConfigs
import Verif.Model.SoftModel

/-!
Configurations of the models of the Soft MoE paper, chosen by names such as `soft-s16` (vmoe/projects/soft_moe/configs/common.py,
pretrain_jft4b.py, pretrain_laion.py).
-/

namespace Verif.SoftConfigs

open Verif

/-- The functions of Python on strings that the configurations use: `int(s)` (`none` if it raises ValueError) and `c.upper()` of a
character (vmoe/projects/soft_moe/configs/pretrain_jft4b.py:57-58, pretrain_laion.py:55-56). -/
structure Builtins where
  int : List Char → Option Int
  upper : Char → List Char

/-- `router` in `config.encoder.moe` (vmoe/projects/soft_moe/configs/common.py:226-240,256-262); the options that are the same in
all configurations are in `itemsRouter` and `softRouter`. -/
inductive Router where
  | items (capacityFactor : ℚ)
  | soft (capacityFactor : Option ℚ) (numSlots : Option Nat)
deriving DecidableEq

/-- `config.encoder.moe` with MoE layers (vmoe/projects/soft_moe/configs/common.py:221-241,251-263). -/
structure Moe where
  layers : List Nat
  numExperts : Nat
  groupSize : Nat
  router : Router
deriving DecidableEq

/-- `config.model` (vmoe/projects/soft_moe/configs/common.py:195-211).  `moe` is `none` for `{'layers': ()}` (line 209). -/
structure ModelConfig where
  numClasses : Option Nat
  patchSize : Int
  hiddenSize : Nat
  classifier : List Char
  numLayers : Nat
  mlpDim : Nat
  numHeads : Nat
  moe : Option Moe
deriving DecidableEq

/-- `['Ti', 'S', 'B', 'L', 'H'].index(variant)` (vmoe/projects/soft_moe/configs/common.py:194). -/
def variantIdx (v : List Char) : Except PyErr Nat :=
  let i := (["Ti".toList, "S".toList, "B".toList, "L".toList, "H".toList]).idxOf v
  if i < 5 then .ok i else .error .valueError

/-- `get_vit_config` (vmoe/projects/soft_moe/configs/common.py:190-211).  The initial bias of the head is left out. -/
def getVitConfig (variant : List Char) (patchSize : Int) (numClasses : Option Nat) : Except PyErr ModelConfig := do
  let i ← variantIdx variant
  return {
    numClasses := numClasses
    patchSize := patchSize
    hiddenSize := [192, 384, 768, 1024, 1280].getD i 0
    classifier := "gap".toList
    numLayers := [12, 12, 12, 24, 32].getD i 0
    mlpDim := [768, 1536, 3072, 4096, 5120].getD i 0
    numHeads := [3, 6, 12, 16, 16].getD i 0
    moe := none }

/-- `(image_size // patch_size)**2` (vmoe/projects/soft_moe/configs/common.py:224,254). -/
def groupSize (imageSize : Nat) (patchSize : Int) : Except PyErr Nat :=
  if patchSize = 0 then .error .zeroDivisionError else .ok (Int.fdiv imageSize patchSize ^ 2).toNat

/-- What `get_vmoe_experts_choose_config` and `get_vmoe_soft_router_config` have in common
(vmoe/projects/soft_moe/configs/common.py:214-225,241-242,245-255,263-264).  `lastN ≥ 0`. -/
def withMoe (variant : List Char) (patchSize : Int) (numClasses : Option Nat) (imageSize numExperts lastN : Nat) (router : Router) :
    Except PyErr ModelConfig := do
  let config ← getVitConfig variant patchSize numClasses
  let g ← groupSize imageSize patchSize
  return { config with
    moe := some ⟨PaperConfigs.lastSlice (List.range config.numLayers) lastN, numExperts, g, router⟩ }

/-- `get_default_moe_num_experts_and_last_n` (vmoe/projects/soft_moe/configs/pretrain_jft4b.py:35-50, the same in
pretrain_laion.py:27-42). -/
def defaultExperts (variant : List Char) (patchSize : Int) : Except PyErr (Nat × Nat) := do
  let numExperts ←
    if (variant, patchSize) = ("S".toList, 16) then .ok 128
    else if (variant, patchSize) = ("S".toList, 14) then .ok 256
    else if (variant, patchSize) = ("B".toList, 16) then .ok 128
    else if (variant, patchSize) = ("L".toList, 16) then .ok 128
    else if (variant, patchSize) = ("H".toList, 14) then .ok 256
    else .error .keyError
  let lastN ←
    if variant = "S".toList then .ok 6
    else if variant = "B".toList then .ok 6
    else if variant = "L".toList then .ok 12
    else if variant = "H".toList then .ok 16
    else .error .keyError
  return (numExperts, lastN)

/-- `s.split('-')` (vmoe/projects/soft_moe/configs/pretrain_jft4b.py:56, pretrain_laion.py:54). -/
def splitDash : List Char → List (List Char)
  | [] => [[]]
  | c :: s =>
    if c = '-' then [] :: splitDash s
    else
      match splitDash s with
      | [] => [[c]]
      | p :: ps => (c :: p) :: ps

/-- Type of the model, patch size and variant (vmoe/projects/soft_moe/configs/pretrain_jft4b.py:56-58, pretrain_laion.py:54-56):
`int` fails first if the second part has no characters. -/
def parseModel (py : Builtins) (model : List Char) : Except PyErr (List Char × List Char × Int) :=
  match splitDash model with
  | [ty, backbone] =>
    match py.int backbone.tail with
    | none => .error .valueError
    | some p =>
      match backbone with
      | [] => .error .indexError
      | v :: _ => .ok (ty, py.upper v, p)
  | _ => .error .valueError

/-- The configuration of the image model by its type (vmoe/projects/soft_moe/configs/pretrain_jft4b.py:80-100 with images of size
224, pretrain_laion.py:126-143 with size 256 and no classes). -/
def imageModel (ty variant : List Char) (patchSize : Int) (numClasses : Option Nat) (imageSize : Nat) : Except PyErr ModelConfig :=
  if ty = "vit".toList then getVitConfig variant patchSize numClasses
  else if ty = "ec".toList then do
    let (e, n) ← defaultExperts variant patchSize
    withMoe variant patchSize numClasses imageSize e n (.items 1)
  else if ty = "soft".toList then do
    let (e, n) ← defaultExperts variant patchSize
    withMoe variant patchSize numClasses imageSize e n (.soft none (some 1))
  else .error .valueError

/-- What the two configurations set by the name of the model (vmoe/projects/soft_moe/configs/pretrain_jft4b.py:80-110,
pretrain_laion.py:117,126-166). -/
structure Config where
  image : ModelConfig
  trainSteps : Nat
  numExpertPartitions : Nat
  /-- Size of the output of the text model (vmoe/projects/soft_moe/configs/pretrain_laion.py:146-148). -/
  textClasses : Option Nat
deriving DecidableEq

/-- `num_expert_partitions` (vmoe/projects/soft_moe/configs/pretrain_jft4b.py:106-110, pretrain_laion.py:162-166): for `vit` one,
otherwise the number of experts. -/
def partitions (c : ModelConfig) : Nat :=
  match c.moe with
  | none => 1
  | some m => m.numExperts

/-- `get_config` of vmoe/projects/soft_moe/configs/pretrain_jft4b.py:53-127, with `NUM_CLASSES` of line 31.  Data, optimizer
and reporting are left out. -/
def getConfigJft (py : Builtins) (model : List Char) : Except PyErr Config := do
  let (ty, variant, p) ← parseModel py model
  let c ← imageModel ty variant p (some 29593) 224
  return ⟨c, if variant = "H".toList then 2000000 else 4000000, partitions c, none⟩

/-- `get_config` of vmoe/projects/soft_moe/configs/pretrain_laion.py:51-183. -/
def getConfigLaion (py : Builtins) (model : List Char) : Except PyErr Config := do
  let (ty, variant, p) ← parseModel py model
  let c ← imageModel ty variant p none 256
  return ⟨c, 750000, partitions c, some c.hiddenSize⟩

/-- The router `NoisyTopItemsPerExpertRouter` of a configuration (vmoe/projects/soft_moe/configs/common.py:226-240). -/
noncomputable def itemsRouter (capacityFactor : ℚ) (deterministic : Bool) : ExpertChoice.RouterConfig :=
  ⟨1, some ⟨"einsum", none, some capacityFactor, some "round", some (some 1), some true, false⟩, deterministic⟩

/-- The router `SoftRouter` of a configuration (vmoe/projects/soft_moe/configs/common.py:256-262); the noise has its default
(vmoe/projects/soft_moe/router.py:46). -/
noncomputable def softRouter (numExperts : Nat) (capacityFactor : Option ℚ) (numSlots : Option Nat) (deterministic : Bool) :
    SoftRouter.Config := ⟨numExperts, numSlots, capacityFactor, 0, deterministic⟩

end Verif.SoftConfigs
