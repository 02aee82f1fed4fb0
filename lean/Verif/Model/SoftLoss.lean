import Verif.Model.SoftModel
import Verif.Model.ModelLoss

/-!
The total loss of a batch as a function of the parameters of a `VisionTransformerMoe` with the soft router: the function that
`train_step` differentiates (vmoe/train/trainer.py:658-667), with the model of `Model/SoftModel`.
-/

namespace Verif.SoftLoss

open Verif Verif.Encoder Verif.Vit Verif.Vmoe

variable {ph pw D c r H W T : Nat} {P L : Type}

/-- Options and parameters of a `VisionTransformerMoe` (vmoe/nn/vit_moe.py:311-333) with the soft router, without the noise of the
routers. -/
structure Net (ph pw D c r T : Nat) (P : Type) where
  params : Params ph pw D c r
  classifier : List Char
  numClasses : Option Nat
  positionEmb : Option (Option PosEmb)
  cfg : SoftModel.Config c P
  mu : Nat → SoftRouter.Mu
  scale : Nat → ℝ
  experts : Nat → Fin cfg.router.numExperts → P
  blocks : Nat → BlockFns (Seq T c)
  dense : Nat → Seq T c → Seq T c
  post : Seq T c → Seq T c
  posParams : List (Vec c)
  numLayers : Nat
  moeLayers : List Int

/-- `state.apply_fn({'params': params}, images, rngs=rngs)` (vmoe/train/trainer.py:661); `rng i` is the noise of the router of
block `i` (vmoe/projects/soft_moe/router.py:104-110). -/
noncomputable def Net.run (net : Net ph pw D c r T P) (rng : Nat → Option SoftRouter.Normal) (images : List (Image H W D)) :
    Except PyErr (Out r × PyDict (List Char) (Metric ℝ ℝ)) :=
  visionTransformer net.params net.classifier net.numClasses net.positionEmb
    (SoftModel.encoder T net.cfg (fun i => ⟨net.mu i, net.scale i, net.experts i, rng i⟩) net.blocks net.dense net.post net.posParams
      net.numLayers net.moeLayers) images

/-- `metrics.get('auxiliary_loss', 0.0)` (vmoe/train/trainer.py:665). -/
noncomputable def auxiliary (metrics : PyDict (List Char) (Metric ℝ ℝ)) : ℝ :=
  match metrics.get? auxName with
  | some (.total a) => a
  | _ => 0

/-- The total loss of a batch of examples (vmoe/train/trainer.py:658-667). -/
noncomputable def totalLoss (net : Net ph pw D c r T P) (loss : List ℝ ⊕ Vec r → L → ℝ) (rng : Nat → Option SoftRouter.Normal)
    (batch : List (Image H W D × L)) : Except PyErr ℝ :=
  match net.run rng (batch.map Prod.fst) with
  | .error err => .error err
  | .ok (out, metrics) =>
    let l := ModelLoss.losses loss out (batch.map Prod.snd)
    .ok (l.sum / l.length + auxiliary metrics)

end Verif.SoftLoss
