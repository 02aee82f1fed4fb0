import Verif.Model.Sorting
import Mathlib.Analysis.Real.Sqrt
import Mathlib.Algebra.BigOperators.Fin

/-!
Model of the auxiliary losses of vmoe/nn/routing.py over the real numbers, for one group (the code
uses `jax.vmap` over groups).
-/

namespace Verif.Aux

open Verif

variable {S E : Nat}

/-- `jnp.mean` over a finite axis (vmoe/nn/routing.py:138,155,181,183). -/
noncomputable def mean (x : Fin E → ℝ) : ℝ := (∑ e, x e) / E

/-- `jnp.std` (population standard deviation; vmoe/nn/routing.py:154,183). -/
noncomputable def std (x : Fin E → ℝ) : ℝ := Real.sqrt (mean (fun e => (x e - mean x) ^ 2))

/-- `_importance_auxiliary_loss` (vmoe/nn/routing.py:150-157). -/
noncomputable def importanceLoss (gates : Fin S → Fin E → ℝ) : ℝ :=
  let importance := fun e => ∑ s, gates s e
  (std importance / mean importance) ^ 2

/-- `_load_auxiliary_loss` (vmoe/nn/routing.py:159-183).  `cdf` is `jax.scipy.stats.norm.cdf`, left
arbitrary.  The threshold is read through `top_k` and a one-hot product as in the code. -/
noncomputable def loadLoss (cdf : ℝ → ℝ) (logits logitsNoisy : Fin S → Fin E → ℝ) (noiseStd : ℝ)
    (K : Nat) (h0 : 0 < K) (hK : K ≤ E) : ℝ :=
  let threshold := fun s => ∑ e, (if e = topKIdx (logitsNoisy s) K hK ⟨K - 1, by omega⟩ then 1 else 0) *
    logitsNoisy s e
  let p := fun s e => 1 - cdf ((threshold s - logits s e) / noiseStd)
  let pMean := fun e => mean (fun s => p s e)
  (std pMean / mean pMean) ^ 2

/-- `jnp.argmax(row)`: index of the first largest value (vmoe/nn/routing.py:141). -/
noncomputable def argmax (hE : 0 < E) (row : Fin E → ℝ) : Fin E := topKIdx row 1 hE 0

/-- `_gshard_auxiliary_loss` (vmoe/nn/routing.py:133-148). -/
noncomputable def gshardLoss (hE : 0 < E) (gates : Fin S → Fin E → ℝ) : ℝ :=
  let meanGates := fun e => mean (fun s => gates s e)
  let meanTop1 := fun e => mean (fun s => if argmax hE (gates s) = e then (1 : ℝ) else 0)
  mean (fun e => meanTop1 e * meanGates e) * E ^ 2

/-- `_weighted_sum` (vmoe/nn/routing.py:247-252): terms with weight zero or less are skipped. -/
noncomputable def weightedSum (args : List (ℝ × ℝ)) : ℝ :=
  ((args.filter (fun a => 0 < a.1)).map (fun a => a.2 * a.1)).sum

end Verif.Aux
