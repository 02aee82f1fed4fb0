import Mathlib.Analysis.SpecialFunctions.Log.Basic
import Mathlib.Analysis.Real.Sqrt
import Verif.Model.NdArray

/-!
The two-tower model and its loss (vmoe/projects/contrastive/models.py, trainer.py).  Numbers are reals; what the two encoders
compute is a parameter; both encoders give vectors of the same dimension and images and texts are matrices of vectors (no
further leading axes).
-/

namespace Verif.Contrastive

open Verif

variable {M N D : Nat}

/-- The parameters `s` and `b` (vmoe/projects/contrastive/models.py:174-183). -/
structure Params where
  s : ℝ
  b : Option ℝ

/-- Their initial values (vmoe/projects/contrastive/models.py:173-182), for positive `scale_init`. -/
noncomputable def initParams (scaleInit : ℝ) (biasInit : Option ℝ) : Params := { s := Real.log scaleInit, b := biasInit }

/-- `z /= norm(z) + 1e-8` (vmoe/projects/contrastive/models.py:149-150 and 156-157). -/
noncomputable def normalize (z : Fin D → ℝ) : Fin D → ℝ := fun d => z d / (Real.sqrt (∑ d, z d ^ 2) + 1e-8)

/-- What `TwoTower.__call__` returns, without the metrics (vmoe/projects/contrastive/models.py:161-186). -/
inductive Output (M N D : Nat) where
  | images (z : Fin M → Fin D → ℝ)
  | texts (z : Fin N → Fin D → ℝ)
  | logits (l : Fin M → Fin N → ℝ)

/-- `TwoTower.__call__` (vmoe/projects/contrastive/models.py:138-186); `images` and `texts` are what the encoders computed,
if they were given. -/
noncomputable def twoTower (p : Params) (images : Option (Fin M → Fin D → ℝ)) (texts : Option (Fin N → Fin D → ℝ)) :
    Except PyErr (Output M N D) :=
  let zimg := images.map fun z m => normalize (z m)
  let ztxt := texts.map fun z n => normalize (z n)
  match zimg, ztxt with
  | none, none => .error .valueError
  | none, some ztxt => .ok (.texts ztxt)
  | some zimg, none => .ok (.images zimg)
  | some zimg, some ztxt =>
    let logits := fun m n => ∑ d, zimg m d * ztxt n d
    let s := Real.exp p.s
    let logits := fun m n => logits m n * s
    match p.b with
    | none => .ok (.logits logits)
    | some b => .ok (.logits fun m n => logits m n + b)

/-- `jax.nn.log_sigmoid` (used in vmoe/projects/contrastive/trainer.py:221). -/
noncomputable def logSigmoid (x : ℝ) : ℝ := -Real.log (1 + Real.exp (-x))

/-- `2 * eye(n) - 1` (vmoe/projects/contrastive/trainer.py:220). -/
noncomputable def signs (i j : Nat) : ℝ := 2 * (if i = j then 1 else 0) - 1

/-- `sigmoid_loss` (vmoe/projects/contrastive/trainer.py:214-223). -/
noncomputable def sigmoidLoss (x : NdArray ℝ) : Except PyErr (NdArray ℝ) :=
  match x.shape.reverse with
  | n :: m :: _ =>
    if n ≠ m then .error .valueError
    else .ok
      { shape := x.shape.dropLast
        get := fun idx => -∑ k ∈ Finset.range n, logSigmoid (x.get (idx ++ [k]) * signs (idx.getLast?.getD 0) k) }
  | _ => .error .valueError

end Verif.Contrastive
