import Verif.Model.Optimizer

/-!
`optax.scale_by_adam` as it is used by `create_optimizer` (vmoe/train/optimizer.py:113-114), modelled from its source.  Numbers are
reals: no rounding and no conversion to `mu_dtype`, and a division by zero gives zero.
-/

namespace Verif.Adam

open Verif FlatDict Partitioning Optimizer

/-- The arguments (vmoe/train/optimizer.py:113-114), with the defaults of optax. -/
structure Args where
  b1 : ℝ := 9 / 10
  b2 : ℝ := 999 / 1000
  eps : ℝ := 1 / 10 ^ 8
  epsRoot : ℝ := 0

/-- `ScaleByAdamState` (vmoe/train/optimizer.py:113-114). -/
structure State where
  count : Nat
  mu : Params
  nu : Params

/-- `safe_int32_increment` (vmoe/train/optimizer.py:113-114, inside optax). -/
def increment (n : Nat) : Nat := if n < 2 ^ 31 - 1 then n + 1 else 2 ^ 31 - 1

/-- The two arrays with `f` applied to the entries at the same position; used in `tree_map` (vmoe/train/optimizer.py:113-114,
inside optax). -/
def zipT (f : ℝ → ℝ → ℝ) (a b : Tensor) : Except PyErr Tensor :=
  if a.length = b.length then .ok (List.zipWith f a b) else .error .typeError

/-- The transformation (vmoe/train/optimizer.py:113-114): averages of the gradients and of their squares, both divided by what is
missing of the sum of the weights, and their quotient. -/
noncomputable def scaleByAdam (a : Args) : GT where
  State := State
  init p := .ok ⟨0, itemsMap (fun t => t.map fun _ => 0) p, itemsMap (fun t => t.map fun _ => 0) p⟩
  update u s _ := do
    let mu ← dictMap2 (zipT fun g m => (1 - a.b1) * g + a.b1 * m) u s.mu
    let nu ← dictMap2 (zipT fun g m => (1 - a.b2) * g ^ 2 + a.b2 * m) u s.nu
    let n := increment s.count
    let muHat := itemsMap (fun t => t.map (· / (1 - a.b1 ^ n))) mu
    let nuHat := itemsMap (fun t => t.map (· / (1 - a.b2 ^ n))) nu
    let u' ← dictMap2 (zipT fun m v => m / (Real.sqrt (v + a.epsRoot) + a.eps)) muHat nuHat
    return (u', ⟨n, mu, nu⟩)

end Verif.Adam
