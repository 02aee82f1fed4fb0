import Verif.Model.MoeRouting
import Mathlib.Algebra.Order.Field.Rat

/-!
Model of the monitoring metrics of Top-Items-Per-Expert routing (vmoe/moe.py:681-694).
-/

namespace Verif.Moe

open Verif

variable {R : Type*} {S E C : Nat}

/-- `jnp.sum(dispatch_weights, axis=(1, 2), dtype=int32)` (vmoe/moe.py:682). -/
def numExpertsPerItem (dispatchWeights : Fin S → Fin E → Fin C → Bool) : Fin S → Nat :=
  fun s => ∑ e, ∑ i, if dispatchWeights s e i then 1 else 0

/-- Thresholds of the reported ratios: `[2**i for i in range(log2(E) + 1)] + [E]`
(vmoe/moe.py:689-690). -/
def ratioThresholds (E : Nat) : List Nat :=
  (List.range (Nat.log2 E + 1)).map (fun i => 2 ^ i) ++ [E]

/-- The metrics dictionary (vmoe/moe.py:683-692); `ratios` maps the threshold `t` in the key
`ratio_processed_items_by_at_least_{t}_experts` to its value. -/
structure TopItemsMetrics (R : Type*) where
  numExpertsPerItemMin : Nat
  numExpertsPerItemMax : Nat
  minSelectedGate : R
  maxSelectedGate : R
  ratios : List (Nat × ℚ)

/-- Metrics computed by `_get_top_items_per_expert_einsum_dispatcher` (vmoe/moe.py:681-692).
Non-empty group, experts and capacity are needed by `jnp.min`/`jnp.max`. -/
def topItemsMetrics [CommRing R] [LinearOrder R] (gates : Fin S → Fin E → R) (capacity : Nat)
    (hC : capacity ≤ S) (hC0 : 0 < capacity) (hE0 : 0 < E) : TopItemsMetrics R :=
  let w := topItemsEinsum gates capacity hC
  let n := numExpertsPerItem w.dispatchWeights
  let hS : (Finset.univ : Finset (Fin S)).Nonempty :=
    ⟨⟨0, Nat.lt_of_lt_of_le hC0 hC⟩, Finset.mem_univ _⟩
  let topItemsGates : Fin E × Fin capacity → R :=
    fun p => topKVal (fun s => gates s p.1) capacity hC p.2
  let hEC : (Finset.univ : Finset (Fin E × Fin capacity)).Nonempty :=
    ⟨(⟨0, hE0⟩, ⟨0, hC0⟩), Finset.mem_univ _⟩
  { numExpertsPerItemMin := Finset.univ.inf' hS n
    numExpertsPerItemMax := Finset.univ.sup' hS n
    minSelectedGate := Finset.univ.inf' hEC topItemsGates
    maxSelectedGate := Finset.univ.sup' hEC topItemsGates
    ratios := (ratioThresholds E).map
      (fun t => (t, ((Finset.univ.filter (fun s => t ≤ n s)).card : ℚ) / (S : ℚ))) }

end Verif.Moe
