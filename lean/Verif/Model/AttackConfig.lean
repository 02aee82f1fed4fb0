import Verif.Model.RunCapacity
import Verif.Model.ProcessRecipes

/-!
The configuration of the adversarial attack on the public V-MoE model
(vmoe/projects/adversarial_attacks/configs/attack/ilsvrc2012.py).
-/

namespace Verif.AttackConfig

open Verif Verif.PaperConfigs

/-- `config.model` (vmoe/projects/adversarial_attacks/configs/attack/ilsvrc2012.py:60-93), in the fields of `VmoeConfig`.  The other
values (einsum dispatcher, bfloat16, no batch priority, noise 1.0) are those of `PaperConfigs.router`; the loss weights `0.005` are given
exactly; `gshard_loss_weight` has its default. -/
noncomputable def attackModel : VmoeConfig :=
  { patchSize := 16
    numClasses := 1000
    hiddenSize := 768
    numLayers := 12
    mlpDim := 3072
    numHeads := 12
    numExperts := 8
    layers := [1, 3, 5, 7, 9, 11]
    groupSize := ((384 / 16) ^ 2 + 1) * 4
    numSelected := 2
    importanceLossWeight := 5 / 1000
    loadLossWeight := 5 / 1000
    gshardLossWeight := 0
    capacityFactor := 3 / 2 }

/-- `config.dataset.process` (vmoe/projects/adversarial_attacks/configs/attack/ilsvrc2012.py:36-37). -/
def attackText : List Char :=
  "decode|resize(384)|value_range(-1,1)|keep(\"image\", \"label\")|onehot(1000, inkey=\"label\", outkey=\"labels\")".toList

/-- `config.dataset.batch_size` (vmoe/projects/adversarial_attacks/configs/attack/ilsvrc2012.py:38). -/
def attackBatch : Nat := 1024

end Verif.AttackConfig
