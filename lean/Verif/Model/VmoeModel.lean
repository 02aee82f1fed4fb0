import Verif.Model.Encoder
import Verif.Model.Vit
import Verif.Model.ExpertChoiceBlock

/-!
The whole model: `VisionTransformerMoe` (vmoe/nn/vit_moe.py:311-383) with `EncoderMoe` (lines 187-264) and `MlpMoeBlock`
(lines 48-124), put together from `Model/Vit`, `Model/Encoder`, `Model/MoeBlock` and `Model/ExpertChoiceBlock`.  Attention, layer
normalization and the MLPs are functions of one sequence or one token (no dropout); parameters are arguments.
-/

namespace Verif.Vmoe

open Verif Verif.Encoder Verif.Vit

variable {T c E : Nat} {P : Type}

/-- A sequence of `T` tokens with `c` features (vmoe/nn/vit_moe.py:229-230). -/
abbrev Seq (T c : Nat) := Fin T → Fin c → ℝ

/-- The two routers of vmoe/nn/routing.py with the options of their configuration (vmoe/nn/vit_moe.py:76-88,
vmoe/nn/routing.py:45-53,199-203). -/
inductive Router where
  | topExperts (cfg : MoeBlock.RouterConfig)
  | topItems (cfg : ExpertChoice.RouterConfig)

/-- What a MoE layer returns besides the array (vmoe/nn/vit_moe.py:108,124). -/
inductive LayerMetrics where
  | topExperts (G : Nat) (m : MoeBlock.Metrics G)
  | topItems (G S E : Nat) (r : ExpertChoice.RouterOutput G S E)

/-- Parameters of one MoE layer: kernel of the router and parameters of the experts (vmoe/nn/vit_moe.py:108-120,
vmoe/nn/routing.py:73-74), and its noise `z` of the `gating` PRNG (vmoe/nn/routing.py:93-96). -/
structure MoeParams (c E : Nat) (P : Type) where
  kernel : Fin c → Fin E → ℝ
  experts : Fin E → P
  z : Nat → Nat → Nat → ℝ

/-- Everything of a MoE layer that does not depend on the block: rounding, options, the expert (vmoe/nn/vit_moe.py:67-74).
`oob` is what a gather out of range returns. -/
structure MoeConfig (c : Nat) (P : Type) where
  fl : ℚ → ℚ
  cdf : ℝ → ℝ
  bf : ℝ → ℝ
  router : Router
  groupSize : Nat
  oob : Fin c → ℝ
  mlp : P → (Fin c → ℝ) → Fin c → ℝ

/-- `MlpMoeBlock.__call__` on a batch (vmoe/nn/vit_moe.py:101-124). -/
noncomputable def moeLayer (cfg : MoeConfig c P) (p : MoeParams c E P) (x : List (Seq T c)) :
    Except PyErr (List (Seq T c) × LayerMetrics) :=
  match cfg.router with
  | .topExperts r =>
    match MoeBlock.mlpMoeBlock cfg.fl cfg.cdf cfg.bf r cfg.groupSize p.kernel p.z cfg.oob p.experts cfg.mlp x.get with
    | .error err => .error err
    | .ok (y, m) => .ok (List.ofFn y, .topExperts _ m)
  | .topItems r =>
    match ExpertChoice.mlpMoeBlock cfg.fl cfg.bf r cfg.groupSize p.kernel p.z p.experts cfg.mlp x.get with
    | .error err => .error err
    | .ok (y, m) => .ok (List.ofFn y, .topItems _ _ _ m)

/-- `add_position_emb` on a sequence of `T` tokens (vmoe/nn/vit_moe.py:231,267-308). -/
noncomputable def addPos (pos : Option (Option PosEmb)) (pe : List (Vec c)) (v : Seq T c) : Except PyErr (Seq T c) :=
  match addPositionEmb (pos.getD none) pe (List.ofFn v) with
  | .error err => .error err
  | .ok l => .ok fun t => l.getD t 0

/-- `EncoderMoe.__call__` (vmoe/nn/vit_moe.py:228-264) on sequences given as lists of `T` vectors.  `blocks i` are the attention
and the normalization of block `i`, `dense i` its MLP if it is dense. -/
noncomputable def encoder (T : Nat) (cfg : MoeConfig c P) (params : Nat → MoeParams c E P) (blocks : Nat → BlockFns (Seq T c))
    (dense : Nat → Seq T c → Seq T c) (aux : LayerMetrics → ℝ) (post : Seq T c → Seq T c) (pe : List (Vec c)) (numLayers : Nat)
    (moeLayers : List Int) (pos : Option (Option PosEmb)) (x : List (List (Vec c))) :
    Except PyErr (List (List (Vec c)) × PyDict (List Char) (Metric LayerMetrics ℝ)) :=
  match encoderMoe ⟨blocks, dense, fun i => moeLayer cfg (params i)⟩ aux (addPos pos pe) post numLayers moeLayers
      (x.map fun l t => l.getD t 0) with
  | .error err => .error err
  | .ok (y, m) => .ok (y.map List.ofFn, m)

end Verif.Vmoe
