import Verif.Model.VmoeModel
import Verif.Model.SoftRouter

/-!
The whole model with the soft router: `VisionTransformerMoe` (vmoe/nn/vit_moe.py:311-383) whose MoE layers have the router
`SoftRouter` (vmoe/projects/soft_moe/router.py:41-110).
-/

namespace Verif.SoftModel

open Verif Verif.Encoder Verif.Vit

variable {T c : Nat} {P : Type}

/-- Everything of a MoE layer with the soft router that does not depend on the block (vmoe/nn/vit_moe.py:67-74,
vmoe/projects/soft_moe/router.py:41-53).  `eps` is what `normalize` adds (vmoe/projects/soft_moe/router.py:36-38). -/
structure Config (c : Nat) (P : Type) where
  fl : ℚ → ℚ
  eps : ℝ
  router : SoftRouter.Config
  groupSize : Nat
  mlp : P → (Fin c → ℝ) → Fin c → ℝ

/-- Parameters of a layer: those of the router (vmoe/projects/soft_moe/router.py:74,78) and of the experts
(vmoe/nn/vit_moe.py:110-120), and the noise of its router. -/
structure LayerParams (numExperts : Nat) (P : Type) where
  mu : SoftRouter.Mu
  scale : ℝ
  experts : Fin numExperts → P
  rng : Option SoftRouter.Normal

/-- `MlpMoeBlock.__call__` with the soft router on a batch (vmoe/nn/vit_moe.py:101-124).  Of the metrics only the auxiliary loss
is kept, which is zero (vmoe/projects/soft_moe/router.py:120). -/
noncomputable def moeLayer (cfg : Config c P) (p : LayerParams cfg.router.numExperts P) (x : List (Vmoe.Seq T c)) :
    Except PyErr (List (Vmoe.Seq T c) × ℝ) := do
  let groups ← MoeBlock.regroup x.get cfg.groupSize
  let outputs ← SoftRouter.layer cfg.fl cfg.eps cfg.router p.mu p.scale p.rng p.experts cfg.mlp groups
  let y ← MoeBlock.ungroup (B := x.length) (T := T) outputs
  return (List.ofFn y, 0)

/-- `EncoderMoe.__call__` (vmoe/nn/vit_moe.py:228-264) with the soft router, on sequences given as lists of `T` vectors; see
`Verif.Vmoe.encoder`. -/
noncomputable def encoder (T : Nat) (cfg : Config c P) (params : Nat → LayerParams cfg.router.numExperts P)
    (blocks : Nat → BlockFns (Vmoe.Seq T c)) (dense : Nat → Vmoe.Seq T c → Vmoe.Seq T c) (post : Vmoe.Seq T c → Vmoe.Seq T c)
    (pe : List (Vec c)) (numLayers : Nat) (moeLayers : List Int) (pos : Option (Option PosEmb)) (x : List (List (Vec c))) :
    Except PyErr (List (List (Vec c)) × PyDict (List Char) (Metric ℝ ℝ)) :=
  match encoderMoe ⟨blocks, dense, fun i => moeLayer cfg (params i)⟩ id (Vmoe.addPos pos pe) post numLayers moeLayers
      (x.map fun l t => l.getD t 0) with
  | .error err => .error err
  | .ok (y, m) => .ok (y.map List.ofFn, m)

end Verif.SoftModel
