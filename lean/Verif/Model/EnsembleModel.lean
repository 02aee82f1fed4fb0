import Verif.Model.VmoeModel
import Verif.Model.EnsembleBlock

/-!
The whole ensemble model: `VisionTransformerMoeEnsemble` (vmoe/nn/vit_moe_ensemble.py:127-132), that is `VisionTransformerMoe`
(`Model/Vit`) with `EncoderMoeEnsemble` (`Model/Encoder`) and `MlpMoeWithNoisyTopExpertsPerItemEnsembleRouter`
(`Model/EnsembleBlock`), without metrics and without dropout.
-/

namespace Verif.Vmoe

open Verif Verif.Encoder Verif.Vit

variable {T c E : Nat} {P : Type}

/-- Parameters of one MoE layer of the ensemble: the kernels of the routers of the members, with the member first (axis 1 of the
array, vmoe/nn/ensemble_routing.py:125-131), the parameters of all experts, and the noise of the members
(vmoe/nn/ensemble_routing.py:128). -/
structure EnsembleParams (E : Nat) (P : Type) where
  kernel : Nat → Nat → Nat → ℝ
  experts : Fin E → P
  z : Nat → Nat → Nat → Nat → ℝ

/-- Options of the MoE layers of the ensemble (vmoe/nn/vit_moe_ensemble.py:37-56,88-101, vmoe/nn/vit_moe.py:67-74); `size` is
`ensemble_size`. -/
structure EnsembleConfig (c : Nat) (P : Type) where
  fl : ℚ → ℚ
  cdf : ℝ → ℝ
  bf : ℝ → ℝ
  router : MoeBlock.RouterConfig
  groupSize : Nat
  size : Option Int
  oob : Fin c → ℝ
  mlp : P → (Fin c → ℝ) → Fin c → ℝ

/-- `MlpMoeWithNoisyTopExpertsPerItemEnsembleRouter.__call__` on a batch (vmoe/nn/vit_moe_ensemble.py:58-70). -/
noncomputable def ensembleLayer (cfg : EnsembleConfig c P) (p : EnsembleParams E P) (x : List (Seq T c)) :
    Except PyErr (List (Seq T c) × Unit) :=
  match EnsembleBlock.ensembleBlock cfg.fl cfg.cdf cfg.bf cfg.router cfg.groupSize cfg.size p.kernel p.z cfg.oob p.experts
      cfg.mlp x.get with
  | .error err => .error err
  | .ok out => .ok (List.ofFn fun (i : Fin (out.shape.headD 0)) t f => out.get [i.1, t.1, f.1], ())

/-- `EncoderMoeEnsemble.__call__` (vmoe/nn/vit_moe_ensemble.py:80-124) on sequences given as lists of `T` vectors.  It always adds the
learned position embedding (lines 83-85): the option `position_emb` is accepted and not used. -/
noncomputable def ensembleEncoder (T : Nat) (cfg : EnsembleConfig c P) (params : Nat → EnsembleParams E P)
    (blocks : Nat → BlockFns (Seq T c)) (dense : Nat → Seq T c → Seq T c) (post : Seq T c → Seq T c) (pe : List (Vec c))
    (numLayers : Nat) (moeLayers : List Int) (_pos : Option (Option PosEmb)) (x : List (List (Vec c))) :
    Except PyErr (List (List (Vec c)) × Unit) :=
  match encoderMoeEnsemble (A := ℝ) ⟨blocks, dense, fun i => ensembleLayer cfg (params i)⟩ (fun _ => 0) (addPos none pe) post numLayers
      moeLayers cfg.size (x.map fun l t => l.getD t 0) with
  | .error err => .error err
  | .ok (y, _) => .ok (y.map List.ofFn, ())

end Verif.Vmoe
