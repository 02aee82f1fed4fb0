import Verif.Model.SoftMoe
import Mathlib.Order.ConditionallyCompleteLattice.Finset

/-!
Model of the metrics of the soft router (vmoe/projects/soft_moe/router.py:112-182) over the real numbers.  An array is a
function of the batch axes `β`, the axes `ι` of the vectors that are compared, and the contracted axes `κ`.
-/

namespace Verif.Soft

variable {β ι κ : Type} [Fintype β] [Fintype ι] [DecidableEq ι] [Fintype κ]

/-- `cosine_psim` (vmoe/projects/soft_moe/router.py:170-182). -/
noncomputable def cosinePsim (eps : ℝ) (x : β → ι → κ → ℝ) : β → ι → ι → ℝ :=
  let m := fun b i => 1 / Real.sqrt ((∑ k, x b i k ^ 2) + eps)
  let y := fun b i k => x b i k * m b i
  fun b i j => ∑ k, y b i k * y b j k

/-- `jnp.eye` (vmoe/projects/soft_moe/router.py:132,147,160), of the flat index of the axes `ι`. -/
def eye (i j : ι) : ℝ := if i = j then 1 else 0

/-- `cw_sim_masked` and the others (vmoe/projects/soft_moe/router.py:134-135,149-150,161-162); the maximum of an empty array,
an error in JAX, is zero. -/
noncomputable def masked (sim : β → ι → ι → ℝ) : β → ι → ι → ℝ :=
  let first := fun b i j => (1 - eye i j) * sim b i j
  fun b i j => first b i j + eye i j * ⨆ q : β × ι × ι, first q.1 q.2.1 q.2.2

/-- `..._similarity_min` (vmoe/projects/soft_moe/router.py:136,151,163). -/
noncomputable def similarityMin (eps : ℝ) (x : β → ι → κ → ℝ) : ℝ :=
  ⨅ q : β × ι × ι, masked (cosinePsim eps x) q.1 q.2.1 q.2.2

/-- `..._similarity_max` (vmoe/projects/soft_moe/router.py:137,152,164). -/
noncomputable def similarityMax (eps : ℝ) (x : β → ι → κ → ℝ) : ℝ :=
  ⨆ q : β × ι × ι, masked (cosinePsim eps x) q.1 q.2.1 q.2.2

/-- `..._similarity_mean` (vmoe/projects/soft_moe/router.py:139-140,154-155,165-166); there is one batch for `mu`. A division
by zero is zero here and not a number in JAX. -/
noncomputable def similarityMean (eps : ℝ) (x : β → ι → κ → ℝ) : ℝ :=
  ((∑ b, ∑ i, ∑ j, cosinePsim eps x b i j) - Fintype.card β * Fintype.card ι) /
    (Fintype.card β * Fintype.card ι * (Fintype.card ι - 1))

/-- `combine_weights_min_mean` and `dispatch_weights_min_mean`: the mean over `ι` of the minimum over `κ`
(vmoe/projects/soft_moe/router.py:121,123). -/
noncomputable def minMean (w : ι → κ → ℝ) : ℝ := (∑ i, ⨅ k, w i k) / Fintype.card ι

/-- `combine_weights_max_mean` and `dispatch_weights_max_mean` (vmoe/projects/soft_moe/router.py:122,124). -/
noncomputable def maxMean (w : ι → κ → ℝ) : ℝ := (∑ i, ⨆ k, w i k) / Fintype.card ι

variable {G m n p : Nat}

/-- The combine weights as vectors over the slots, one for every item (vmoe/projects/soft_moe/router.py:127-131). -/
noncomputable def combineVectors (l : Fin G → Fin m → Fin n → Fin p → ℝ) : Fin G → Fin m → Fin n × Fin p → ℝ :=
  fun g s q => combineWeights (l g) s q.1 q.2

/-- The dispatch weights as vectors over the items, one for every slot (vmoe/projects/soft_moe/router.py:142-146). -/
noncomputable def dispatchVectors (l : Fin G → Fin m → Fin n → Fin p → ℝ) : Fin G → Fin n × Fin p → Fin m → ℝ :=
  fun g q s => dispatchWeights (l g) s q.1 q.2

end Verif.Soft
