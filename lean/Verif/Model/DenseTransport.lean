import Verif.Model.OtRouting

/-!
Model of vmoe/projects/sparsity_constrained_ot/sparse_projection_routing.py: expert choice with a plan of quadratically regularized transport.
One group of `S` tokens and `E` experts, over the real numbers, from the logits of the gating layer.
-/

namespace Verif.OtRouting

open Verif Verif.Moe Verif.Soft

variable {S E : Nat}

/-- The external functions (vmoe/projects/sparsity_constrained_ot/sparse_projection_routing.py:119-122: `jaxopt`'s
`projection_transport`): the projection onto the simplex, and the dual variable that the solver returns for a cost matrix and the marginals.  The
solver runs a fixed number of iterations and need not converge, so its result is arbitrary. -/
structure DenseExt where
  simplex : {n : Nat} → (Fin n → ℝ) → Fin n → ℝ
  solve : {m n : Nat} → (Fin m → Fin n → ℝ) → (Fin m → ℝ) → (Fin n → ℝ) → Fin m → ℝ

/-- `projection_transport` with the semi-dual formulation (jaxopt, called in
vmoe/projects/sparsity_constrained_ot/sparse_projection_routing.py:119-122): cost `-sim_matrix`, regularization 1; a column of the plan is the
projection of `(alpha - cost) / b` times `b`. -/
noncomputable def projectionTransport (ext : DenseExt) {m n : Nat} (sim : Fin m → Fin n → ℝ) (a : Fin m → ℝ) (b : Fin n → ℝ) : Fin m → Fin n → ℝ :=
  let cost := fun i j => - sim i j
  let alpha := ext.solve cost a b
  fun i j => ext.simplex (fun i => (alpha i - cost i j) / (1 * b j)) i * b j

/-- `_get_squared_l2_ot_algorithm` (vmoe/projects/sparsity_constrained_ot/sparse_projection_routing.py:98-124): the marginals are 1 for a token and
`num_tokens / num_experts` for an expert. -/
noncomputable def densePlan (ext : DenseExt) (sim : Fin S → Fin E → ℝ) : Fin S → Fin E → ℝ :=
  projectionTransport ext sim (fun _ => 1) (fun _ => (S : ℝ) / E)

/-- `_compute_gates` (vmoe/projects/sparsity_constrained_ot/sparse_projection_routing.py:68-81, 84-95): the plan and the softmax.  `ndim` is the
number of dimensions of the inputs. -/
noncomputable def denseGates (ext : DenseExt) (ndim : Nat) (logits : Fin S → Fin E → ℝ) :
    Except PyErr ((Fin S → Fin E → ℝ) × (Fin S → Fin E → ℝ)) :=
  if ndim ≠ 3 then .error .valueError
  else
    let gatesSoftmax := fun s => softmax (logits s)
    .ok (densePlan ext gatesSoftmax, gatesSoftmax)

/-- `SparseProjectionTransportTopItemsPerExpertRouter.__call__`
(vmoe/projects/sparsity_constrained_ot/sparse_projection_routing.py:55-65): the dispatcher and the auxiliary loss.  The other metrics are those of
the dispatcher (C09). -/
noncomputable def denseRouter (ext : DenseExt) (fl : ℚ → ℚ) (d : DispatcherDict) (useSoftmax : Bool) (ndim : Nat) (logits : Fin S → Fin E → ℝ) :
    Except PyErr ((Σ cap : Nat, EinsumWeights ℝ S E cap) × ℝ) :=
  match denseGates ext ndim logits with
  | .error err => .error err
  | .ok (gatesOt, gatesSoftmax) =>
    match createExpertChoice fl d gatesOt (if useSoftmax then some gatesSoftmax else none) with
    | .error err => .error err
    | .ok w => .ok (w, 0)

end Verif.OtRouting
