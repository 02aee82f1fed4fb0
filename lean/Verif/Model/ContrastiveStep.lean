import Verif.Model.Contrastive
import Verif.Model.Trainer
import Mathlib.Analysis.Calculus.FDeriv.Basic

/-!
The loss and the gradients of one step of the contrastive training (vmoe/projects/contrastive/trainer.py:226-251).  Batches are
lists of images and of texts; the logit of an image and a text is a function of the parameters and of the random generators.
-/

namespace Verif.Contrastive

open Verif Trainer

variable {P I T R : Type}

/-- The logits of a batch (vmoe/projects/contrastive/trainer.py:239-240). -/
noncomputable def logitArray (logit : I → T → ℝ) (images : List I) (texts : List T) : NdArray ℝ :=
  { shape := [images.length, texts.length]
    get := fun idx => match images[idx.getD 0 0]?, texts[idx.getD 1 0]? with
      | some a, some b => logit a b
      | _, _ => 0 }

/-- `jnp.mean(loss_fn(logits))` with `sigmoid_loss` (vmoe/projects/contrastive/trainer.py:242); the mean of no numbers is zero
here. -/
noncomputable def mainLoss (logit : I → T → ℝ) (images : List I) (texts : List T) : Except PyErr ℝ := do
  let loss ← sigmoidLoss (logitArray logit images texts)
  return (∑ i ∈ Finset.range images.length, loss.get [i]) / images.length

/-- `compute_grads_and_metrics` (vmoe/projects/contrastive/trainer.py:236-246): the derivative of the total loss, the next
generators, and the metrics `main_loss` and `total_loss`; `aux` is the auxiliary loss of the model, zero if it has none. -/
noncomputable def computeGradsAndMetrics [NormedAddCommGroup P] [NormedSpace ℝ P] (split : R → R × R)
    (logit : P → R → I → T → ℝ) (aux : P → R → List I → List T → ℝ) : GradFn P I T R (P →L[ℝ] ℝ) (ℝ × ℝ) :=
  fun params images texts rngs =>
    let r := (split rngs).1
    match mainLoss (logit params r) images texts with
    | .error e => .error e
    | .ok main =>
      let total := fun p => (match mainLoss (logit p r) images texts with | .ok x => x | .error _ => 0) + aux p r images texts
      .ok (fderiv ℝ total params, (split rngs).2, (main, main + aux params r images texts))

/-- The gradients and metrics of `train_step` (vmoe/projects/contrastive/trainer.py:248-251). -/
noncomputable def stepGradsAndMetrics [NormedAddCommGroup P] [NormedSpace ℝ P] (devices : Nat) (split : R → R × R)
    (logit : P → R → I → T → ℝ) (aux : P → R → List I → List T → ℝ) (microsteps : Option Int) :
    GradFn P I T R (P →L[ℝ] ℝ) (ℝ × ℝ) :=
  accumulate devices (computeGradsAndMetrics split logit aux) microsteps

end Verif.Contrastive
