import Verif.Model.Encoder
import Verif.Model.SoftRouter
import Verif.Model.Vit

/-!
Model of `MapHead` (vmoe/nn/vit_moe.py:127-148) and of the attention of `EncoderBlock`
(vmoe/nn/vit_moe.py:161-175), with `nn.MultiHeadDotProductAttention` and `nn.LayerNorm` of flax
written out.

Numbers are reals instead of floats.  The layers are deterministic, so there is no dropout.  The
subtraction of the maximum in the softmax of jax does not change the values and is left out.
-/

namespace Verif.Attention

open Verif Verif.Vit

variable {c H K : Nat}

/-- `nn.LayerNorm` on one vector (vmoe/nn/vit_moe.py:145,164,177,260; flax): mean and variance of the
features, `eps = 1e-6` in flax. -/
noncomputable def layerNorm {n : Nat} (eps : ℝ) (scale bias : Fin n → ℝ) (x : Fin n → ℝ) : Fin n → ℝ :=
  let mean := (∑ i, x i) / n
  let var := (∑ i, x i ^ 2) / n - mean ^ 2
  fun i => (x i - mean) * (1 / Real.sqrt (var + eps) * scale i) + bias i

/-- Parameters of `nn.MultiHeadDotProductAttention` with `H` heads of `K` features
(vmoe/nn/vit_moe.py:139-144,165-173; flax): the projections of queries, keys, values and of the output, and
with `normalize_qk` the scales of the two normalizations. -/
structure Mha (c H K : Nat) where
  wq : Fin c → Fin H → Fin K → ℝ
  bq : Fin H → Fin K → ℝ
  wk : Fin c → Fin H → Fin K → ℝ
  bk : Fin H → Fin K → ℝ
  wv : Fin c → Fin H → Fin K → ℝ
  bv : Fin H → Fin K → ℝ
  qkScale : Option ((Fin K → ℝ) × (Fin K → ℝ)) := none
  wo : Fin H → Fin K → Fin c → ℝ
  bo : Vec c

/-- `nn.DenseGeneral` of flax from the features to the heads, at one head
(vmoe/nn/vit_moe.py:139-144,165-173). -/
noncomputable def project (w : Fin c → Fin H → Fin K → ℝ) (b : Fin H → Fin K → ℝ) (x : Vec c) (h : Fin H) :
    Fin K → ℝ :=
  fun j => (∑ i, x i * w i h j) + b h j

/-- The query of a head (vmoe/nn/vit_moe.py:139-144,165-173; flax): normalized with `normalize_qk`. -/
noncomputable def query (eps : ℝ) (p : Mha c H K) (h : Fin H) (x : Vec c) : Fin K → ℝ :=
  match p.qkScale with
  | none => project p.wq p.bq x h
  | some s => layerNorm eps s.1 (fun _ => 0) (project p.wq p.bq x h)

/-- The key of a head (vmoe/nn/vit_moe.py:139-144,165-173; flax): normalized with `normalize_qk`. -/
noncomputable def key (eps : ℝ) (p : Mha c H K) (h : Fin H) (x : Vec c) : Fin K → ℝ :=
  match p.qkScale with
  | none => project p.wk p.bk x h
  | some s => layerNorm eps s.2 (fun _ => 0) (project p.wk p.bk x h)

/-- The logit of a query and a token: the query is divided by the root of its size first
(vmoe/nn/vit_moe.py:139-144,165-173; `dot_product_attention_weights` of flax). -/
noncomputable def logit (eps : ℝ) (p : Mha c H K) (h : Fin H) (q t : Vec c) : ℝ :=
  ∑ j, query eps p h q j / Real.sqrt K * key eps p h t j

/-- The result of one head: the values of the tokens weighted by the softmax of the logits
(vmoe/nn/vit_moe.py:139-144,165-173; `dot_product_attention` of flax). -/
noncomputable def head (eps : ℝ) (p : Mha c H K) (h : Fin H) (q : Vec c) (x : List (Vec c)) : Fin K → ℝ :=
  let total := (x.map fun t => Real.exp (logit eps p h q t)).sum
  fun j => (x.map fun t => Real.exp (logit eps p h q t) / total * project p.wv p.bv t h j).sum

/-- `nn.MultiHeadDotProductAttention` for one query and the tokens of one sequence
(vmoe/nn/vit_moe.py:139-144,165-173). -/
noncomputable def mha (eps : ℝ) (p : Mha c H K) (q : Vec c) (x : List (Vec c)) : Vec c :=
  fun f => (∑ h, ∑ j, head eps p h q x j * p.wo h j f) + p.bo f

/-- Parameters of `MapHead` (vmoe/nn/vit_moe.py:129-147); the MLP has its parameters inside. -/
structure MapHead (c H K : Nat) where
  probe : Vec c
  attn : Mha c H K
  scale : Vec c
  bias : Vec c
  mlp : Vec c → Vec c

/-- `MapHead.__call__` on one sequence (vmoe/nn/vit_moe.py:133-148).  The probe is repeated for every
sequence, and the result has one token. -/
noncomputable def mapHead (eps : ℝ) (p : MapHead c H K) (x : List (Vec c)) : Vec c :=
  let a := mha eps p.attn p.probe x
  let y := p.mlp (layerNorm eps p.scale p.bias a)
  a + y

/-- A sequence of `m` tokens (vmoe/nn/vit_moe.py:162). -/
abbrev Seq (m c : Nat) := Fin m → Vec c

/-- Parameters of the attention part and of the second normalization of `EncoderBlock`
(vmoe/nn/vit_moe.py:164-173,177). -/
structure Block (c H K : Nat) where
  scale1 : Vec c
  bias1 : Vec c
  attn : Mha c H K
  scale2 : Vec c
  bias2 : Vec c

/-- The functions of `EncoderBlock`: every normalized token is the query of a self attention over the
normalized tokens (vmoe/nn/vit_moe.py:164-177). -/
noncomputable def blockFns (eps : ℝ) (m : Nat) (p : Block c H K) : Encoder.BlockFns (Seq m c) where
  attn x :=
    let y : Seq m c := fun i => layerNorm eps p.scale1 p.bias1 (x i)
    fun i => mha eps p.attn (y i) (List.ofFn y)
  norm x := fun i => layerNorm eps p.scale2 p.bias2 (x i)

/-- Parameters of the encoder: those of every block, the MLP of every block, which acts on every token,
the MoE layer of every block, and the last normalization (vmoe/nn/vit_moe.py:239-260). -/
structure Params (m c H K : Nat) (M : Type*) where
  block : Nat → Block c H K
  mlp : Nat → Vec c → Vec c
  moe : Nat → List (Seq m c) → Except PyErr (List (Seq m c) × M)
  scale : Vec c
  bias : Vec c

/-- The layers of the encoder (vmoe/nn/vit_moe.py:239-259). -/
noncomputable def layers {m : Nat} {M : Type*} (eps : ℝ) (p : Params m c H K M) :
    Encoder.Layers (Seq m c) M where
  fns b := blockFns eps m (p.block b)
  mlp b x := fun i => p.mlp b (x i)
  moe := p.moe

/-- `EncoderMoe.__call__` (vmoe/nn/vit_moe.py:228-264) on sequences of `m` tokens; `pre` adds the position
embedding. -/
noncomputable def encoder {m : Nat} {M A : Type*} [AddMonoid A] (eps : ℝ) (p : Params m c H K M) (aux : M → A)
    (pre : Seq m c → Except PyErr (Seq m c)) (numLayers : Nat) (moeLayers : List Int) (x : List (Seq m c)) :
    Except PyErr (List (Seq m c) × PyDict (List Char) (Encoder.Metric M A)) :=
  Encoder.encoderMoe (layers eps p) aux pre (fun y i => layerNorm eps p.scale p.bias (y i)) numLayers moeLayers x

/-- `MlpMoeBlock.__call__` with the soft router when the size of the groups is the length of the
sequences, so that the reshapes do nothing (vmoe/nn/vit_moe.py:101-124).  The metrics are left out. -/
noncomputable def softBlock {m : Nat} {P : Type} (fl : ℚ → ℚ) (eps : ℝ) (cfg : SoftRouter.Config)
    (mu : SoftRouter.Mu) (scale : ℝ) (rng : Option SoftRouter.Normal) (params : Fin cfg.numExperts → P)
    (f : P → Vec c → Vec c) (x : List (Seq m c)) : Except PyErr (List (Seq m c) × Unit) :=
  match SoftRouter.layer fl eps cfg mu scale rng params f (fun g : Fin x.length => x.get g) with
  | .error err => .error err
  | .ok y => .ok (List.ofFn y, ())

/-- The encoder as a function of arrays given by lists (vmoe/projects/contrastive/models.py:72-79): the
sequences have `m` tokens. -/
noncomputable def encoderLists {m : Nat} {M A : Type*} [AddMonoid A] (eps : ℝ) (p : Params m c H K M)
    (aux : M → A) (pre : Seq m c → Except PyErr (Seq m c)) (numLayers : Nat) (moeLayers : List Int)
    (x : List (List (Vec c))) :
    Except PyErr (List (List (Vec c)) × PyDict (List Char) (Encoder.Metric M A)) :=
  match encoder eps p aux pre numLayers moeLayers (x.map fun s (i : Fin m) => s.getD i 0) with
  | .error err => .error err
  | .ok (y, metrics) => .ok (y.map List.ofFn, metrics)

/-- `EncoderMoe.add_position_emb` on a sequence of `m` tokens (vmoe/nn/vit_moe.py:231,267-308). -/
noncomputable def positioned {m : Nat} (position_emb : Option (Option PosEmb)) (pe : List (Vec c)) (v : Seq m c) :
    Except PyErr (Seq m c) :=
  match addPositionEmb (position_emb.getD none) pe (List.ofFn v) with
  | .error err => .error err
  | .ok l => .ok fun i => l.getD i 0

/-- The encoder that `TextTransformer` creates from its options (vmoe/projects/contrastive/models.py:72-79). -/
noncomputable def textEncoder {m : Nat} {M A : Type*} [AddMonoid A] (eps : ℝ) (p : Params m c H K M)
    (pe : List (Vec c)) (aux : M → A) (numLayers : Nat) (moeLayers : List Int)
    (position_emb : Option (Option PosEmb)) (x : List (List (Vec c))) :
    Except PyErr (List (List (Vec c)) × PyDict (List Char) (Encoder.Metric M A)) :=
  encoderLists eps p aux (positioned position_emb pe) numLayers moeLayers x

end Verif.Attention
