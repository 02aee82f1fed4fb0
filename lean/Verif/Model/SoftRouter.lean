import Verif.Model.SoftMoe
import Verif.Model.MoeFactory

/-!
# Model of a call of the soft router and of the layer that uses it (vmoe/projects/soft_moe/router.py:41-110)

Over the real numbers, as in `Model/SoftMoe.lean`; only the number of slots is computed with rounding.
-/

namespace Verif.SoftRouter

open Verif Verif.Moe

variable {G m d : Nat}

/-- The fields of `SoftRouter` that matter for its result (vmoe/projects/soft_moe/router.py:41-53). -/
structure Config where
  numExperts : Nat
  numSlots : Option Nat
  capacityFactor : Option ℚ
  noiseStd : ℝ
  deterministic : Bool

/-- The parameter `mu` with its shape (vmoe/projects/soft_moe/router.py:74). -/
structure Mu where
  dim : Nat
  experts : Nat
  slots : Nat
  val : Nat → Nat → Nat → ℝ

/-- The number of slots (vmoe/projects/soft_moe/router.py:62-73): `num_tokens * None` raises TypeError, and the logged
capacity factor divides by the size of the group. -/
def numSlots (fl : ℚ → ℚ) (cfg : Config) (groupSize : Nat) : Except PyErr Nat :=
  match cfg.numSlots with
  | none =>
    match cfg.capacityFactor with
    | none => .error .typeError
    | some f => (computeCapacity fl groupSize cfg.numExperts f "round" (some 1)).map Int.toNat
  | some s => if groupSize = 0 then .error .zeroDivisionError else .ok s

/-- `self.param('mu', ...)` when the module is applied: Flax compares the shape of the stored array with the shape for
the initializer (vmoe/projects/soft_moe/router.py:74). -/
def getMu (mu : Mu) (dim experts slots : Nat) : Except PyErr (Fin dim → Fin experts → Fin slots → ℝ) :=
  if mu.dim = dim ∧ mu.experts = experts ∧ mu.slots = slots then .ok fun i j k => mu.val i j k
  else .error .valueError

/-- The standard normal values of `add_noise` (vmoe/projects/soft_moe/router.py:106-107) for the key `gating`: a
value for each group, item, expert and slot. -/
abbrev Normal := Nat → Nat → Nat → Nat → ℝ

open Classical in
/-- `add_noise` (vmoe/projects/soft_moe/router.py:104-110): the term added to the logits.  `make_rng` raises if there
is no key. -/
noncomputable def noise (cfg : Config) (rng : Option Normal) : Except PyErr Normal :=
  if cfg.deterministic = false ∧ 0 < cfg.noiseStd then
    match rng with
    | none => .error .valueError
    | some normal => .ok fun g i j k => cfg.noiseStd * normal g i j k
  else .ok fun _ _ _ _ => 0

/-- `SoftRouter.__call__` (vmoe/projects/soft_moe/router.py:56-102): the number of slots and the logits, from which
the dispatcher is made.  `inputs.size < mu.size` decides where the scale is applied. -/
noncomputable def call (fl : ℚ → ℚ) (eps : ℝ) (cfg : Config) (mu : Mu) (scale : ℝ) (rng : Option Normal)
    (inputs : Fin G → Fin m → Fin d → ℝ) :
    Except PyErr (Σ p, Fin G → Fin m → Fin cfg.numExperts → Fin p → ℝ) := do
  let p ← numSlots fl cfg m
  let mu' ← getMu mu d cfg.numExperts p
  let z ← noise cfg rng
  let scaleInputs := decide (G * m * d < d * cfg.numExperts * p)
  return ⟨p, fun g => Soft.logits eps scale scaleInputs (inputs g) mu' fun i j k => z g i j k⟩

variable {W P : Type} [AddCommGroup W] [Module ℝ W]

/-- The layer: the router, and the experts applied with its dispatcher (vmoe/nn/vit_moe.py:107-120). -/
noncomputable def layer (fl : ℚ → ℚ) (eps : ℝ) (cfg : Config) (mu : Mu) (scale : ℝ) (rng : Option Normal)
    (params : Fin cfg.numExperts → P) (f : P → (Fin d → ℝ) → W) (inputs : Fin G → Fin m → Fin d → ℝ) :
    Except PyErr (Fin G → Fin m → W) := do
  let r ← call fl eps cfg mu scale rng inputs
  return Soft.softMoe r.2 params f inputs

end Verif.SoftRouter
