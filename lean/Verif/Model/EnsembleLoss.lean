import Verif.Model.EnsembleModel
import Verif.Model.ModelLoss
import Verif.Model.LossFn

/-!
The main loss of a batch as `train_step` computes it (vmoe/train/trainer.py:660-663), for a whole model and a loss of
`get_loss_fn`; and the whole ensemble model with all its parameters.
-/

namespace Verif.EnsembleLoss

open Verif Verif.Encoder Verif.Vit Verif.Vmoe Verif.EnsembleEval

variable {ph pw D c r H W T E : Nat} {P : Type}

/-- The output of a model as a matrix with `C` columns (vmoe/train/trainer.py:661).  Simplification: the columns after the last one
of a row are zero; the models here have `C` classes. -/
noncomputable def logitRows (C : Nat) : Out r → List (Row C)
  | .logits x => x.map fun l c => l.getD c 0
  | .features x => x.map fun v c => if h : c.1 < r then v ⟨c.1, h⟩ else 0

/-- `jnp.mean(loss_fn(logits, labels))` with the training loss of `get_loss_fn(name, **kwargs)` (vmoe/train/trainer.py:661-663,
vmoe/train/trainer.py:441-477).  The mean of an empty batch is zero here, and not a number in the code. -/
noncomputable def mainLoss {C : Nat} {X : Type} (name : LossFn.Key) (kwargs : PyDict LossFn.Key Nat)
    (run : Except PyErr (Out r × X)) (labels : List (Row C)) : Except PyErr ℝ :=
  match LossFn.getLossFn (C := C) name kwargs with
  | .error err => .error err
  | .ok fns =>
    match run with
    | .error err => .error err
    | .ok (out, _) =>
      match fns.train (logitRows C out) labels with
      | .error err => .error err
      | .ok l => .ok (l.sum / l.length)

/-- Options and parameters of a `VisionTransformerMoeEnsemble`, with the noise of its routers (vmoe/nn/vit_moe_ensemble.py:80-132,
vmoe/nn/vit_moe.py:311-333). -/
structure EnsembleNet (ph pw D c r T E : Nat) (P : Type) where
  params : Params ph pw D c r
  classifier : List Char
  numClasses : Option Nat
  cfg : EnsembleConfig c P
  layers : Nat → EnsembleParams E P
  blocks : Nat → BlockFns (Seq T c)
  dense : Nat → Seq T c → Seq T c
  post : Seq T c → Seq T c
  posParams : List (Vec c)
  numLayers : Nat
  moeLayers : List Int

/-- `state.apply_fn({'params': params}, images, rngs=rngs)` of an ensemble (vmoe/train/trainer.py:661); the metrics are not modelled. -/
noncomputable def EnsembleNet.run (net : EnsembleNet ph pw D c r T E P) (images : List (Image H W D)) : Except PyErr (Out r × Unit) :=
  visionTransformer net.params net.classifier net.numClasses none
    (ensembleEncoder T net.cfg net.layers net.blocks net.dense net.post net.posParams net.numLayers net.moeLayers) images

end Verif.EnsembleLoss
