import Verif.Model.ContrastiveStep

/-!
The loss of a batch as a function of the parameters of `TwoTower` and of what its encoders computed
(vmoe/projects/contrastive/models.py:138-186, vmoe/projects/contrastive/trainer.py:239-244).
-/

namespace Verif.Contrastive

open Verif

variable {B D : Nat}

/-- `jnp.mean(sigmoid_loss(logits))` of the logits that `TwoTower` computes for a batch of `B` images and texts
(vmoe/projects/contrastive/trainer.py:239-242, vmoe/projects/contrastive/models.py:138-186). -/
noncomputable def towerLoss (p : Params) (x y : Fin B → Fin D → ℝ) : Except PyErr ℝ :=
  match twoTower p (some x) (some y) with
  | .error e => .error e
  | .ok (.logits l) =>
    mainLoss (fun i k => if h : i < B ∧ k < B then l ⟨i, h.1⟩ ⟨k, h.2⟩ else 0) (List.range B) (List.range B)
  | .ok _ => .error .valueError

end Verif.Contrastive
