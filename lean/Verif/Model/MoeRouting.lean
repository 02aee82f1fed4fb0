import Verif.Model.PyErr
import Verif.Model.Sorting
import Mathlib.Algebra.BigOperators.Group.Finset.Basic
import Mathlib.Algebra.BigOperators.Fin
import Mathlib.Algebra.Order.Ring.Defs
import Mathlib.Algebra.Module.Basic
import Mathlib.Data.Finset.Lattice.Fold

/-!
Model of the Top-Experts-Per-Item and Top-Items-Per-Expert routing of vmoe/moe.py.

Arrays of fixed rank are functions on `Fin` indices, so shapes are in the types.  The gate
values live in an arbitrary linearly ordered commutative ring `R` (floating point rounding
and NaN are not modelled).
-/

namespace Verif.Moe

open Verif

variable {R : Type*} {S K E C G : Nat}

/-- `jnp.swapaxes(x, 0, 1).ravel()` for `x` of shape (S, K): entry `k * S + s` is `x[s, k]`
(vmoe/moe.py:575). -/
def swapRavel {α : Type*} (x : Fin S → Fin K → α) : Fin (K * S) → α :=
  fun i => x i.modNat i.divNat

/-- Row-major position of `(k, s)` in an array of shape (K, S); used for
`x.reshape(-1, group_size)` (vmoe/moe.py:581,584). -/
def rowMajor (k : Fin K) (s : Fin S) : Fin (K * S) :=
  ⟨k.1 * S + s.1, by
    calc k.1 * S + s.1 < k.1 * S + S := by omega
      _ = (k.1 + 1) * S := by rw [Nat.add_mul, Nat.one_mul]
      _ ≤ K * S := Nat.mul_le_mul_right _ k.2⟩

/-- `jax.nn.one_hot(e, num_experts, dtype=int32)` for one in-range index (vmoe/moe.py:577). -/
def oneHot (e : Fin E) : Fin E → Int := fun j => if j = e then 1 else 0

/-- `jnp.cumsum(x, axis=0)`: inclusive prefix sums along the first axis (vmoe/moe.py:580). -/
def cumsum0 {N : Nat} (x : Fin N → Fin E → Int) : Fin N → Fin E → Int :=
  fun i e => ∑ j ∈ Finset.univ.filter (fun j => j ≤ i), x j e

/-- `jnp.cumsum(expert_one_hot, axis=0) * expert_one_hot - 1` (vmoe/moe.py:577-580). -/
def bufferFlat {N : Nat} (expertIdx : Fin N → Fin E) : Fin N → Fin E → Int :=
  fun i e => cumsum0 (fun j => oneHot (expertIdx j)) i e * oneHot (expertIdx i) e - 1

/-- Results of `_get_top_experts_per_item_common` (vmoe/moe.py:558-564). -/
structure Common (R : Type*) (S K E : Nat) where
  combineWeights : Fin S → Fin K → R
  expertIndex : Fin S → Fin K → Fin E
  bufferIndex : Fin S → Fin K → Fin E → Int

/-- Part of `_get_top_experts_per_item_common` after the optional sort: K-major flattening,
cumulative sum, and reshaping back to (S, K) and (S, K, E) (vmoe/moe.py:573-584). -/
def buffersOf (expertIdx : Fin S → Fin K → Fin E) :
    (Fin S → Fin K → Fin E) × (Fin S → Fin K → Fin E → Int) :=
  let flat := swapRavel expertIdx
  let buf := bufferFlat flat
  (fun s k => flat (rowMajor k s), fun s k e => buf (rowMajor k s) e)

/-- `_get_top_experts_per_item_common` (vmoe/moe.py:547-590).  `0 < K ≤ E` is what
`jax.lax.top_k` and `combine_weights[:, 0]` need. -/
def topExpertsCommon [CommRing R] [LinearOrder R] (gates : Fin S → Fin E → R) (K : Nat)
    (h0 : 0 < K) (hK : K ≤ E) (batchPriority : Bool) : Common R S K E :=
  let combineWeights := fun s => topKVal (gates s) K hK
  let expertIndex := fun s => topKIdx (gates s) K hK
  if batchPriority then
    let perm := argsort (fun s => - combineWeights s ⟨0, h0⟩)
    let r := buffersOf (fun s => expertIndex (perm s))
    let invPerm := argsort perm
    { combineWeights := combineWeights
      expertIndex := fun s => r.1 (invPerm s)
      bufferIndex := fun s => r.2 (invPerm s) }
  else
    let r := buffersOf expertIndex
    { combineWeights := combineWeights, expertIndex := r.1, bufferIndex := r.2 }

/-- `jnp.max` over a non-empty axis (vmoe/moe.py:612,646). -/
def maxOver {N : Nat} (h : 0 < N) (f : Fin N → Int) : Int :=
  Finset.univ.sup' ⟨⟨0, h⟩, Finset.mem_univ _⟩ f

/-- `jax.nn.one_hot(i, capacity, dtype=bool)`: out-of-range indices give all false
(vmoe/moe.py:613-615). -/
def oneHotBool (i : Int) (capacity : Nat) : Fin capacity → Bool := fun c => decide (i = (c : Int))

/-- The arrays stored in an `EinsumDispatcher` for one group (vmoe/moe.py:127-146). -/
structure EinsumWeights (R : Type*) (S E C : Nat) where
  combineWeights : Fin S → Fin E → Fin C → R
  dispatchWeights : Fin S → Fin E → Fin C → Bool

/-- `_get_top_experts_per_item_einsum_dispatcher` (vmoe/moe.py:593-623). -/
def topExpertsEinsum [CommRing R] [LinearOrder R] (gates : Fin S → Fin E → R) (K : Nat)
    (h0 : 0 < K) (hK : K ≤ E) (capacity : Nat) (batchPriority : Bool) :
    EinsumWeights R S E capacity :=
  let c := topExpertsCommon gates K h0 hK batchPriority
  let bufferIdx := fun s e => maxOver h0 (fun k => c.bufferIndex s k e)
  let dispatchWeights := fun s e => oneHotBool (bufferIdx s e) capacity
  { combineWeights := fun s e i => gates s e * (if dispatchWeights s e i then 1 else 0)
    dispatchWeights := dispatchWeights }

/-- The arrays stored in an `ExpertIndicesDispatcher` for one group; `indices[..., 0]` and
`indices[..., 1]` are the two components (vmoe/moe.py:164-188).  The static fields
`num_experts` and `capacity` are the parameters `E` and `C`. -/
structure IndicesWeights (R : Type*) (S K E C : Nat) where
  indices : Fin S → Fin K → Int × Int
  combineWeights : Fin S → Fin K → R

/-- `_get_top_experts_per_item_expert_indices_dispatcher` (vmoe/moe.py:626-652). -/
def topExpertsIndices [CommRing R] [LinearOrder R] (gates : Fin S → Fin E → R) (K : Nat)
    (h0 : 0 < K) (hK : K ≤ E) (capacity : Nat) (batchPriority : Bool) :
    IndicesWeights R S K E capacity :=
  let c := topExpertsCommon gates K h0 hK batchPriority
  let bufferIdx := fun s k => maxOver (Nat.lt_of_lt_of_le h0 hK) (fun e => c.bufferIndex s k e)
  { indices := fun s k => (((c.expertIndex s k : Nat) : Int), bufferIdx s k)
    combineWeights := c.combineWeights }

/-- `_get_top_items_per_expert_einsum_dispatcher`, dispatcher part (vmoe/moe.py:669-680).
`capacity ≤ S` is required by `jax.lax.top_k`. -/
def topItemsEinsum [CommRing R] [LinearOrder R] (gates : Fin S → Fin E → R) (capacity : Nat)
    (hC : capacity ≤ S) : EinsumWeights R S E capacity :=
  let topItemsIndex : Fin E → Fin capacity → Fin S :=
    fun e => topKIdx (fun s => gates s e) capacity hC
  let dispatchWeights := fun s e i => decide (topItemsIndex e i = s)
  { combineWeights := fun s e i => gates s e * (if dispatchWeights s e i then 1 else 0)
    dispatchWeights := dispatchWeights }

end Verif.Moe
