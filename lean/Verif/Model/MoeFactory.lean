import Verif.Model.MoeDispatch
import Mathlib.Data.Rat.Floor

/-!
Model of `compute_capacity` and of the dispatcher factories of vmoe/moe.py.
-/

namespace Verif.Moe

open Verif

/-- Python's `round(x)`: round half to even (used in vmoe/moe.py:240). -/
def roundHalfEven (q : ℚ) : Int :=
  let f := ⌊q⌋
  if q - f < 1 / 2 then f
  else if 1 / 2 < q - f then f + 1
  else if f % 2 = 0 then f else f + 1

/-- `compute_capacity` (vmoe/moe.py:230-257).  `fl` is the rounding of floating point results:
`fl = id` is exact arithmetic.  The final warning about the actual capacity factor
(lines 251-256) has no effect on the result; its division by `num_tokens` cannot fail because
zero tokens give capacity 0, which is rejected before. -/
def computeCapacity (fl : ℚ → ℚ) (numTokens numExperts : Nat) (capacityFactor : ℚ)
    (ceilOrRound : String) (multipleOf : Option Int) : Except PyErr Int :=
  if ceilOrRound ≠ "ceil" ∧ ceilOrRound ≠ "round" then .error .valueError
  else if numExperts = 0 then .error .zeroDivisionError
  else
    let share := fl (fl ((numTokens : ℚ) * capacityFactor) / (numExperts : ℚ))
    let capacity := if ceilOrRound = "ceil" then ⌈share⌉ else roundHalfEven share
    if capacity < 1 then .error .valueError
    else
      match multipleOf with
      | some m => if 0 < m then .ok (capacity + (-capacity) % m) else .ok capacity
      | none => .ok capacity

/-- Dispatchers returned by the item-choice factory for one group
(vmoe/moe.py:620-623,647-652). -/
inductive ItemChoiceDispatcher (R : Type*) (S E K : Nat) where
  /-- `EinsumDispatcher` (vmoe/moe.py:620-623). -/
  | einsum (capacity : Nat) (w : EinsumWeights R S E capacity)
  /-- `ExpertIndicesDispatcher` (vmoe/moe.py:647-652). -/
  | indices (capacity : Nat) (w : IndicesWeights R S K E capacity)

/-- Capacity resolution shared by both factories (vmoe/moe.py:305-318 and 364-377): exactly one
of `capacity` and `capacity_factor`; `if not capacity` also triggers for `capacity = 0`, and then
`num_tokens * None` raises TypeError.  Negative capacities are not modelled. -/
def resolveCapacity (fl : ℚ → ℚ) (numTokens numExperts : Nat) (capacity : Option Nat)
    (capacityFactor : Option ℚ) (ceilOrRound : String) (multipleOf : Option Int) :
    Except PyErr Nat :=
  if capacity.isNone = capacityFactor.isNone then .error .valueError
  else
    match capacity, capacityFactor with
    | some (c + 1), _ => .ok (c + 1)
    | _, some f => (computeCapacity fl numTokens numExperts f ceilOrRound multipleOf).map Int.toNat
    | _, none =>
      if ceilOrRound ≠ "ceil" ∧ ceilOrRound ≠ "round" then .error .valueError
      else .error .typeError

/-- `get_top_experts_per_item_dispatcher` (vmoe/moe.py:267-327).  `num_selected_experts` outside
`1..E` is reported as ValueError, which is what `jax.lax.top_k` raises for `K > E`; `K = 0` is not
modelled further. -/
def getTopExpertsPerItemDispatcher {R : Type*} [CommRing R] [LinearOrder R] {S E : Nat}
    (fl : ℚ → ℚ) (gates : Fin S → Fin E → R) (name : String) (K : Nat) (batchPriority : Bool)
    (capacity : Option Nat) (capacityFactor : Option ℚ) (ceilOrRound : String)
    (multipleOf : Option Int) : Except PyErr (ItemChoiceDispatcher R S E K) :=
  match resolveCapacity fl (S * K) E capacity capacityFactor ceilOrRound multipleOf with
  | .error err => .error err
  | .ok cap =>
    if name ≠ "einsum" ∧ name ≠ "indices" then .error .valueError
    else if h : 0 < K ∧ K ≤ E then
      if name = "einsum" then .ok (.einsum cap (topExpertsEinsum gates K h.1 h.2 cap batchPriority))
      else .ok (.indices cap (topExpertsIndices gates K h.1 h.2 cap batchPriority))
    else .error .valueError

/-- `get_top_items_per_expert_dispatcher` (vmoe/moe.py:330-385), dispatcher part: capacity together
with the weights.  `jax.lax.top_k` raises ValueError when the capacity exceeds the group size. -/
def getTopItemsPerExpertDispatcher {R : Type*} [CommRing R] [LinearOrder R] {S E : Nat}
    (fl : ℚ → ℚ) (gates : Fin S → Fin E → R) (name : String)
    (capacity : Option Nat) (capacityFactor : Option ℚ) (ceilOrRound : String)
    (multipleOf : Option Int) : Except PyErr (Σ cap : Nat, EinsumWeights R S E cap) :=
  match resolveCapacity fl S E capacity capacityFactor ceilOrRound multipleOf with
  | .error err => .error err
  | .ok cap =>
    if name ≠ "einsum" then .error .valueError
    else if h : cap ≤ S then .ok ⟨cap, topItemsEinsum gates cap h⟩
    else .error .valueError

end Verif.Moe
