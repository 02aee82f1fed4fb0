import Verif.Model.NdArray
import Verif.Model.MoeRouting

/-!
Model of vmoe/nn/ensemble_routing.py and of the regrouping done by vmoe/nn/vit_moe_ensemble.py.
-/

namespace Verif.Ensemble

open Verif

universe u

variable {α R : Type u}

/-- `reshape_to_group_size_representation` (vmoe/nn/ensemble_routing.py:43-52). -/
def reshapeTo (x : NdArray α) (groupSize ensembleSize : Nat) : Except PyErr (NdArray α) :=
  match x.shape with
  | [batchWithRepeat, tokens, hidden] =>
    if ensembleSize = 0 then .error .zeroDivisionError
    else
      let batch := batchWithRepeat / ensembleSize
      do
        let x ← x.jreshape [some batch, some ensembleSize, some tokens, some hidden]
        let x ← x.transpose [0, 2, 1, 3]
        x.jreshape [none, some groupSize, some hidden]
  | _ => .error .valueError

/-- `reshape_from_group_size_representation` (vmoe/nn/ensemble_routing.py:55-63).  The code reads
`x.shape[2]`; arrays of rank other than 3 are not modelled beyond the error. -/
def reshapeFrom (x : NdArray α) (tokens ensembleSize : Nat) : Except PyErr (NdArray α) :=
  match x.shape with
  | [_, _, hidden] => do
    let x ← x.jreshape [none, some tokens, some ensembleSize, some hidden]
    let x ← x.transpose [0, 2, 1, 3]
    x.jreshape [none, some tokens, some hidden]
  | _ => .error .indexError

/-- `jnp.repeat(x, ensemble_size, axis=0)` (vmoe/nn/vit_moe_ensemble.py:113). -/
def repeatBatch (x : NdArray α) (ensembleSize : Nat) : NdArray α :=
  { shape := match x.shape with
      | n :: rest => n * ensembleSize :: rest
      | [] => []
    get := fun idx => match idx with
      | i :: rest => x.get (i / ensembleSize :: rest)
      | [] => x.get [] }

/-- `reshape_from_diag_blocks` (vmoe/nn/ensemble_routing.py:66-68): `block_diag` of the `M` blocks
of every group, shape (G, M, s, e) to (G, M * s, M * e). -/
def reshapeFromDiagBlocks [Zero R] (blocks : NdArray R) : Except PyErr (NdArray R) :=
  match blocks.shape with
  | [G, M, s, e] => .ok
      { shape := [G, M * s, M * e]
        get := fun idx => match idx with
          | [g, i, j] => if i / s = j / e then blocks.get [g, i / s, i % s, j % e] else 0
          | _ => 0 }
  | _ => .error .valueError

/-- What the router of one member computes for its tokens: gates of shape (G, S/M, E/M) from inputs
of shape (G, S/M, H).  The index `m` selects parameters and noise
(vmoe/nn/ensemble_routing.py:125-134, vmoe/nn/routing.py:63-114).  Universally quantified. -/
abbrev Inner (α R : Type u) := (G s H e m : Nat) → (Fin G → Fin s → Fin H → α) → Nat → Nat → Nat → R

/-- `_super_compute_gates_softmax_and_metrics`: `nn.vmap` over axis 2 of the inputs and of the
parameters, output axis 1 (vmoe/nn/ensemble_routing.py:125-134). -/
def vmapMembers (inner : Inner α R) (x : NdArray α) (G s M H e : Nat) : NdArray R :=
  { shape := [G, M, s, e]
    get := fun idx => match idx with
      | [g, m, i, j] => inner G s H e m (fun g i h => x.get [g, i, m, h]) g i j
      | _ => inner G s H e 0 (fun g i h => x.get [g, i, 0, h]) 0 0 0 }

/-- `NoisyTopExpertsPerItemEnsembleRouter._compute_gates_softmax_and_metrics`, gates part
(vmoe/nn/ensemble_routing.py:90-121), including the check `num_experts >= num_selected_experts >= 1`
done inside the super class for the experts of one member (vmoe/nn/routing.py:67-70). -/
def ensembleGates [Zero R] (inner : Inner α R) (numExperts ensembleSize numSelected : Nat)
    (inputs : NdArray α) : Except PyErr (NdArray R) :=
  match inputs.shape with
  | [G, S, H] =>
    if ensembleSize = 0 then .error .valueError
    else if numExperts % ensembleSize ≠ 0 then .error .valueError
    else if S % ensembleSize ≠ 0 then .error .valueError
    else do
      let x ← inputs.jreshape [some G, some (S / ensembleSize), some ensembleSize, some H]
      if numSelected < 1 ∨ numExperts / ensembleSize < numSelected then .error .valueError
      else do
        let gates := vmapMembers inner x G (S / ensembleSize) ensembleSize H (numExperts / ensembleSize)
        let gates ← reshapeFromDiagBlocks gates
        let gates ← gates.jreshape
          [some G, some ensembleSize, some (S / ensembleSize), some numExperts]
        let gates ← gates.transpose [0, 2, 1, 3]
        gates.jreshape [some G, some S, some numExperts]
  | _ => .error .valueError

/-- One group of the gates, as received by the routing algorithm through `jax.vmap`
(vmoe/nn/routing.py:123-128). -/
def groupGates (gates : NdArray R) (S E g : Nat) : Fin S → Fin E → R :=
  fun s e => gates.get [g, s, e]

end Verif.Ensemble
