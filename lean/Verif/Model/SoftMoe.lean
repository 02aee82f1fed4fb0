import Verif.Model.MoeDispatch
import Mathlib.Analysis.Complex.Exponential
import Mathlib.Analysis.Real.Sqrt

/-!
Model of vmoe/projects/soft_moe/router.py over the real numbers (no rounding).  Shapes: `m` items per
group, `n` experts, `p` slots per expert, `d` features.
-/

namespace Verif.Soft

open Verif Verif.Moe

variable {m n p d : Nat}

/-- `jax.nn.softmax` over a finite axis (external function; vmoe/projects/soft_moe/router.py:94,96,
vmoe/nn/routing.py:80).  JAX subtracts the maximum first, which does not change the value. -/
noncomputable def softmax {ι : Type*} [Fintype ι] (x : ι → ℝ) (i : ι) : ℝ :=
  Real.exp (x i) / ∑ j, Real.exp (x j)

/-- `normalize` of one vector (vmoe/projects/soft_moe/router.py:36-38). -/
noncomputable def normalize (eps : ℝ) (x : Fin d → ℝ) : Fin d → ℝ :=
  fun i => x i * (1 / Real.sqrt ((∑ j, x j ^ 2) + eps))

/-- Router logits of one group (vmoe/projects/soft_moe/router.py:59,74-92).  `scaleInputs` says
whether the scale multiplies the inputs or `mu`; the code decides by comparing sizes
(line 79).  `noise` is the term added by `add_noise` (lines 104-110). -/
noncomputable def logits (eps scale : ℝ) (scaleInputs : Bool) (inputs : Fin m → Fin d → ℝ)
    (mu : Fin d → Fin n → Fin p → ℝ) (noise : Fin m → Fin n → Fin p → ℝ) :
    Fin m → Fin n → Fin p → ℝ :=
  let x := fun i => normalize eps (inputs i)
  let u := fun j k => normalize eps (fun i => mu i j k)
  let x' := if scaleInputs then fun i c => x i c * scale else x
  let u' := if scaleInputs then u else fun j k c => u j k c * scale
  fun i j k => (∑ c, x' i c * u' j k c) + noise i j k

/-- `jax.nn.softmax(logits, axis=1)`: over the items (vmoe/projects/soft_moe/router.py:94). -/
noncomputable def dispatchWeights (l : Fin m → Fin n → Fin p → ℝ) : Fin m → Fin n → Fin p → ℝ :=
  fun i j k => softmax (fun i' => l i' j k) i

/-- `jax.nn.softmax(logits, axis=(2, 3))`: over all slots (vmoe/projects/soft_moe/router.py:96). -/
noncomputable def combineWeights (l : Fin m → Fin n → Fin p → ℝ) : Fin m → Fin n → Fin p → ℝ :=
  fun i j k => softmax (fun q : Fin n × Fin p => l i q.1 q.2) (j, k)

variable {G : Nat} {V W : Type*} [AddCommGroup V] [Module ℝ V] [AddCommGroup W] [Module ℝ W]

/-- `EinsumDispatcher.dispatch` with the soft weights (vmoe/projects/soft_moe/router.py:97-99,
vmoe/moe.py:148-154).  The bfloat16 wrapper (line 100) only rounds and is not modelled. -/
noncomputable def dispatch (l : Fin G → Fin m → Fin n → Fin p → ℝ) (data : Fin G → Fin m → V) :
    Fin n → Fin (G * p) → V :=
  dispatchExchange (einsumDispatchBuf (fun g => dispatchWeights (l g)) data)

/-- `EinsumDispatcher.combine` with the soft weights (vmoe/projects/soft_moe/router.py:97-99,
vmoe/moe.py:156-161). -/
noncomputable def combine (l : Fin G → Fin m → Fin n → Fin p → ℝ) (data : Fin n → Fin (G * p) → W) :
    Fin G → Fin m → W :=
  let x := receiveExchange data
  fun g s => ∑ e, ∑ i, combineWeights (l g) s e i • x g e i

/-- The soft MoE layer: `sparse_moe_spmd` with the soft dispatcher (vmoe/moe.py:429-444). -/
noncomputable def softMoe {P : Type*} (l : Fin G → Fin m → Fin n → Fin p → ℝ) (params : Fin n → P)
    (f : P → V → W) (x : Fin G → Fin m → V) : Fin G → Fin m → W :=
  sparseMoe (C := p) (dispatch l) (combine l) params f x

end Verif.Soft
