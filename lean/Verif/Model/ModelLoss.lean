import Verif.Model.VmoeModel

/-!
The total loss of a batch as a function of the parameters of a `VisionTransformerMoe`: the function that `train_step`
differentiates (vmoe/train/trainer.py:658-667), with the model of `Model/VmoeModel`.
-/

namespace Verif.ModelLoss

open Verif Verif.Encoder Verif.Vit Verif.Vmoe

variable {ph pw D c r H W T E : Nat} {P L : Type}

/-- Auxiliary loss of one layer after `jnp.mean` (vmoe/train/trainer.py:664; vmoe/nn/routing.py:85,106,209).  The code adds the
arrays of the layers, with one value per group, and then takes the mean; here the means are added.  All layers have the same
number of groups, so this is the same. -/
noncomputable def meanAux : LayerMetrics → ℝ
  | .topExperts G m => (∑ g, m.auxiliaryLoss g) / G
  | .topItems _ _ _ r => r.auxiliaryLoss

/-- Options and parameters of a `VisionTransformerMoe` (vmoe/nn/vit_moe.py:311-333), without the noise of the routers. -/
structure Net (ph pw D c r T E : Nat) (P : Type) where
  params : Params ph pw D c r
  classifier : List Char
  numClasses : Option Nat
  positionEmb : Option (Option PosEmb)
  cfg : MoeConfig c P
  kernel : Nat → Fin c → Fin E → ℝ
  experts : Nat → Fin E → P
  blocks : Nat → BlockFns (Seq T c)
  dense : Nat → Seq T c → Seq T c
  post : Seq T c → Seq T c
  posParams : List (Vec c)
  numLayers : Nat
  moeLayers : List Int

/-- `state.apply_fn({'params': params}, images, rngs=rngs)` (vmoe/train/trainer.py:661); `z i` is the noise that the router of
block `i` draws. -/
noncomputable def Net.run (net : Net ph pw D c r T E P) (z : Nat → Nat → Nat → Nat → ℝ) (images : List (Image H W D)) :
    Except PyErr (Out r × PyDict (List Char) (Metric LayerMetrics ℝ)) :=
  visionTransformer net.params net.classifier net.numClasses net.positionEmb
    (encoder T net.cfg (fun i => ⟨net.kernel i, net.experts i, z i⟩) net.blocks net.dense meanAux net.post net.posParams
      net.numLayers net.moeLayers) images

/-- `loss_fn(logits, labels)`, one value per example (vmoe/train/trainer.py:663). -/
def losses (loss : List ℝ ⊕ Vec r → L → ℝ) : Out r → List L → List ℝ
  | .logits x, labels => List.zipWith (fun v => loss (.inl v)) x labels
  | .features x, labels => List.zipWith (fun v => loss (.inr v)) x labels

/-- `metrics.get('auxiliary_loss', 0.0)` (vmoe/train/trainer.py:665). -/
noncomputable def auxiliary (metrics : PyDict (List Char) (Metric LayerMetrics ℝ)) : ℝ :=
  match metrics.get? auxName with
  | some (.total a) => a
  | _ => 0

/-- The total loss of a batch of examples (vmoe/train/trainer.py:658-667). -/
noncomputable def totalLoss (net : Net ph pw D c r T E P) (loss : List ℝ ⊕ Vec r → L → ℝ) (z : Nat → Nat → Nat → Nat → ℝ)
    (batch : List (Image H W D × L)) : Except PyErr ℝ :=
  match net.run z (batch.map Prod.fst) with
  | .error err => .error err
  | .ok (out, metrics) =>
    let l := losses loss out (batch.map Prod.snd)
    .ok (l.sum / l.length + auxiliary metrics)

end Verif.ModelLoss
