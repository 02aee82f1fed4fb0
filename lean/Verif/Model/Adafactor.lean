import Mathlib.Analysis.SpecialFunctions.Pow.Real
import Mathlib.Algebra.BigOperators.Fin
import Verif.Model.PyErr

/-!
`scale_by_big_vision_adafactor` (vmoe/train/optimizer.py:238-286), with `optax.scale_by_factored_rms`, `optax.ema` and
`optax.chain` for one parameter array.  Numbers are reals: no rounding and no conversion to `momentum_dtype`.
-/

namespace Verif.Adafactor

open Verif

/-- The arguments (vmoe/train/optimizer.py:238-246). -/
structure Config where
  decayRate : ℝ := 8 / 10
  decayRateMax : ℝ := 999 / 1000
  decayOffset : Int := 0
  eps : ℝ := 1 / 10 ^ 30
  minDimSizeToFactor : Nat := 32
  momentum : ℝ := 9 / 10

/-- `_decay_rate_pow` applied to `count - step_offset` (vmoe/train/optimizer.py:272-275,277-283).  `none`: the power of a
number that is not positive is infinite or not a number (for a negative number and a whole `decay_rate` it is a number, this
is left out). -/
noncomputable def rate (cfg : Config) (count : Nat) : Option ℝ :=
  let t : Int := count - cfg.decayOffset + 1
  if t ≤ 0 then none else some (min cfg.decayRateMax (1 - (t : ℝ) ^ (-cfg.decayRate)))

/-- `_factored_dims` of `optax.scale_by_factored_rms`, called with `factored=True` (vmoe/train/optimizer.py:277-283): the
second largest and the largest axis; `argsort` is `np.argsort`. -/
def factoredDims (argsort : List Nat → List Nat) (minDim : Nat) (shape : List Nat) : Option (Nat × Nat) :=
  if shape.length < 2 then none
  else
    let order := argsort shape
    let d1 := order.getD (shape.length - 2) 0
    let d0 := order.getD (shape.length - 1) 0
    if shape.getD d1 0 < minDim then none else some (d1, d0)

/-- `optax.ema(momentum, debias=False)` or `optax.identity()` (vmoe/train/optimizer.py:284-285): the new average, which is
also the update. -/
noncomputable def momentumStep {ι : Type} (cfg : Config) (ema u : ι → ℝ) : ι → ℝ :=
  if cfg.momentum = 0 then u else fun i => (1 - cfg.momentum) * u i + cfg.momentum * ema i

/-- State of a parameter that is not factored; `ι` are the entries of the array (vmoe/train/optimizer.py:277-286). -/
structure Full (ι : Type) where
  count : Nat
  v : ι → ℝ
  ema : ι → ℝ

/-- The first state (vmoe/train/optimizer.py:277-286). -/
def Full.init (ι : Type) : Full ι := { count := 0, v := fun _ => 0, ema := fun _ => 0 }

/-- The rescaled gradient and the new average of squares, not factored (vmoe/train/optimizer.py:277-283). -/
noncomputable def rmsFull {ι : Type} (cfg : Config) (r : ℝ) (v g : ι → ℝ) : (ι → ℝ) × (ι → ℝ) :=
  let v' := fun i => r * v i + (1 - r) * (g i ^ 2 + cfg.eps)
  (fun i => g i * (Real.sqrt (v' i))⁻¹, v')

/-- One update, not factored (vmoe/train/optimizer.py:277-286): the update and the new state. -/
noncomputable def Full.step {ι : Type} (cfg : Config) (s : Full ι) (g : ι → ℝ) : Option ((ι → ℝ) × Full ι) :=
  match rate cfg s.count with
  | none => none
  | some r =>
    let u := rmsFull cfg r s.v g
    let o := momentumStep cfg s.ema u.1
    some (o, { count := s.count + 1, v := u.2, ema := o })

/-- Mean over an axis (vmoe/train/optimizer.py:277-283). -/
noncomputable def mean {n : Nat} (f : Fin n → ℝ) : ℝ := (∑ i, f i) / n

/-- State of a factored parameter: `R` and `C` are the sizes of the second largest and the largest axis, `κ` the indices of
the other axes (vmoe/train/optimizer.py:277-286). -/
structure Fact (κ : Type) (R C : Nat) where
  count : Nat
  row : κ → Fin R → ℝ
  col : κ → Fin C → ℝ
  ema : κ × Fin R × Fin C → ℝ

/-- The first state of a factored parameter (vmoe/train/optimizer.py:277-286). -/
def Fact.init (κ : Type) (R C : Nat) : Fact κ R C :=
  { count := 0, row := fun _ _ => 0, col := fun _ _ => 0, ema := fun _ => 0 }

/-- One update of a factored parameter (vmoe/train/optimizer.py:277-286). -/
noncomputable def Fact.step {κ : Type} {R C : Nat} (cfg : Config) (s : Fact κ R C) (g : κ × Fin R × Fin C → ℝ) :
    Option ((κ × Fin R × Fin C → ℝ) × Fact κ R C) :=
  match rate cfg s.count with
  | none => none
  | some r =>
    let row := fun k i => r * s.row k i + (1 - r) * mean fun j => g (k, i, j) ^ 2 + cfg.eps
    let col := fun k j => r * s.col k j + (1 - r) * mean fun i => g (k, i, j) ^ 2 + cfg.eps
    let u : κ × Fin R × Fin C → ℝ := fun p =>
      g p * (Real.sqrt (row p.1 p.2.1 / mean (row p.1)))⁻¹ * (Real.sqrt (col p.1 p.2.2))⁻¹
    let o := momentumStep cfg s.ema u
    some (o, { count := s.count + 1, row, col, ema := o })

/-- Updates for a sequence of gradients: all updates and the last state (vmoe/train/optimizer.py:286). -/
def runSteps {S G : Type} (step : S → G → Option (G × S)) : S → List G → Option (List G × S)
  | s, [] => some ([], s)
  | s, g :: gs =>
    match step s g with
    | none => none
    | some (o, s') =>
      match runSteps step s' gs with
      | none => none
      | some (os, s'') => some (o :: os, s'')

end Verif.Adafactor
