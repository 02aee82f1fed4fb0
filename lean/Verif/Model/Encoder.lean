import Verif.Model.PyDict
import Verif.Model.PyErr
import Verif.Model.PyStr
import Mathlib.Algebra.BigOperators.Group.List.Defs

/-!
Model of `EncoderBlock`, `EncoderMoe` (vmoe/nn/vit_moe.py:151-264) and `EncoderMoeEnsemble`
(vmoe/nn/vit_moe_ensemble.py:73-124).

A batch is the list of its sequences; `V` is the type of one sequence (an array of shape
(tokens, hidden)).  Layer normalization, attention and dense MLP act on every sequence separately,
MoE layers on the whole batch.  The parameters of every layer are inside the functions.  Dropout is
part of `attn` and of the first function (`pre`).
-/

namespace Verif.Encoder

open Verif

variable {V M A : Type*}

/-- Functions of one encoder block (vmoe/nn/vit_moe.py:163-177): `attn` is the attention block applied
to the normalized sequence (lines 164-174), `norm` the second normalization (line 177). -/
structure BlockFns (V : Type*) where
  attn : V → V
  norm : V → V

/-- Attention part of `EncoderBlock.__call__` with its residual connection
(vmoe/nn/vit_moe.py:163-175). -/
def attention [Add V] (fns : BlockFns V) (x : List V) : List V := x.map (fun v => fns.attn v + v)

/-- `EncoderBlock.__call__` with a dense MLP, whose result is an array (vmoe/nn/vit_moe.py:161-180). -/
def denseBlock [Add V] (fns : BlockFns V) (mlp : V → V) (inputs : List V) : List V :=
  let x := attention fns inputs
  let y := (x.map fns.norm).map mlp
  List.zipWith (· + ·) x y

/-- `EncoderBlock.__call__` with a MoE layer, which returns an array and metrics
(vmoe/nn/vit_moe.py:161-178,181-183). -/
def moeBlock [Add V] (fns : BlockFns V) (moe : List V → Except PyErr (List V × M))
    (inputs : List V) : Except PyErr (List V × M) :=
  let x := attention fns inputs
  match moe (x.map fns.norm) with
  | .error err => .error err
  | .ok (y, metrics) => .ok (List.zipWith (· + ·) x y, metrics)

/-- Values of the metrics dictionary: metrics of a block, or the total auxiliary loss
(vmoe/nn/vit_moe.py:255,262). -/
inductive Metric (M A : Type*) where
  | block (m : M)
  | total (a : A)
  deriving DecidableEq

/-- `f'encoderblock_{block}'` (vmoe/nn/vit_moe.py:255-256). -/
def blockName (block : Nat) : List Char := "encoderblock_".toList ++ PyStr.natStr block

/-- `'auxiliary_loss'` (vmoe/nn/vit_moe.py:262). -/
def auxName : List Char := "auxiliary_loss".toList

/-- What the encoder needs: the functions of each block, the dense MLP and the MoE layer of each
block (created by the classes of vmoe/nn/vit_moe.py:239-250). -/
structure Layers (V M : Type*) where
  fns : Nat → BlockFns V
  mlp : Nat → V → V
  moe : Nat → List V → Except PyErr (List V × M)

/-- The loop over the blocks (vmoe/nn/vit_moe.py:252-259).  `block in moe_mlp_layers` compares
integers. -/
def loop [Add V] (layers : Layers V M) (moeLayers : List Int) :
    List Nat → List V → PyDict (List Char) M → Except PyErr (List V × PyDict (List Char) M)
  | [], x, metrics => .ok (x, metrics)
  | block :: rest, x, metrics =>
    if (block : Int) ∈ moeLayers then
      match moeBlock (layers.fns block) (layers.moe block) x with
      | .error err => .error err
      | .ok (x, m) => loop layers moeLayers rest x (metrics.set (blockName block) m)
    else loop layers moeLayers rest (denseBlock (layers.fns block) (layers.mlp block) x) metrics

/-- The metrics returned by the encoder: those of the blocks, then `metrics['auxiliary_loss']`, the
sum of the auxiliary losses (vmoe/nn/vit_moe.py:261-263).  The sum is evaluated before the entry is
added, so it only runs over the blocks. -/
def finalMetrics [AddMonoid A] (aux : M → A) (metrics : PyDict (List Char) M) :
    PyDict (List Char) (Metric M A) :=
  PyDict.set (metrics.map (fun kv => (kv.1, Metric.block kv.2))) auxName
    (.total ((metrics.map (fun kv => aux kv.2)).sum))

/-- `EncoderMoe.__call__` (vmoe/nn/vit_moe.py:228-264).  `pre` adds the position embedding and
applies dropout (lines 231-232), `post` is the last normalization (line 260). -/
def encoderMoe [Add V] [AddMonoid A] (layers : Layers V M) (aux : M → A)
    (pre : V → Except PyErr V) (post : V → V) (numLayers : Nat) (moeLayers : List Int)
    (inputs : List V) : Except PyErr (List V × PyDict (List Char) (Metric M A)) :=
  match inputs.mapM pre with
  | .error err => .error err
  | .ok x =>
    match loop layers moeLayers (List.range numLayers) x [] with
    | .error err => .error err
    | .ok (x, metrics) => .ok (x.map post, finalMetrics aux metrics)

/-- `_parse` (vmoe/nn/vit_moe_ensemble.py:31-34). -/
def parseEnsembleSize : Option Int → Except PyErr Nat
  | none => .error .valueError
  | some n => if n ≤ 0 then .error .valueError else .ok n.toNat

/-- `jnp.repeat(x, ensemble_size, axis=0)` (vmoe/nn/vit_moe_ensemble.py:113). -/
def repeatRows (n : Nat) (x : List V) : List V := x.flatMap (fun v => List.replicate n v)

/-- The loop over the blocks of `EncoderMoeEnsemble` (vmoe/nn/vit_moe_ensemble.py:108-119). -/
def loopEnsemble [Add V] (layers : Layers V M) (moeLayers : List Int) (ensembleSize : Nat) :
    List Nat → Bool → List V → PyDict (List Char) M →
      Except PyErr (List V × PyDict (List Char) M)
  | [], _, x, metrics => .ok (x, metrics)
  | block :: rest, isFirst, x, metrics =>
    if (block : Int) ∈ moeLayers then
      let x := if isFirst then repeatRows ensembleSize x else x
      match moeBlock (layers.fns block) (layers.moe block) x with
      | .error err => .error err
      | .ok (x, m) =>
        loopEnsemble layers moeLayers ensembleSize rest false x (metrics.set (blockName block) m)
    else
      loopEnsemble layers moeLayers ensembleSize rest isFirst
        (denseBlock (layers.fns block) (layers.mlp block) x) metrics

/-- `EncoderMoeEnsemble.__call__` (vmoe/nn/vit_moe_ensemble.py:80-124).  The ensemble size is checked
even when there are no MoE layers (line 91). -/
def encoderMoeEnsemble [Add V] [AddMonoid A] (layers : Layers V M) (aux : M → A)
    (pre : V → Except PyErr V) (post : V → V) (numLayers : Nat) (moeLayers : List Int)
    (ensembleSize : Option Int) (inputs : List V) :
    Except PyErr (List V × PyDict (List Char) (Metric M A)) :=
  match inputs.mapM pre with
  | .error err => .error err
  | .ok x =>
    match parseEnsembleSize ensembleSize with
    | .error err => .error err
    | .ok n =>
      match loopEnsemble layers moeLayers n (List.range numLayers) true x [] with
      | .error err => .error err
      | .ok (x, metrics) => .ok (x.map post, finalMetrics aux metrics)

end Verif.Encoder
