import Mathlib.Data.Real.Basic
import Mathlib.Data.Real.Sign

/-!
Model of `multiply_no_nan` (vmoe/utils.py:50-56, and the copy in vmoe/evaluate/ensemble.py:25-30) on one element, with infinities and NaN, and of its
gradient.
-/

namespace Verif.NoNan

/-- A floating point number (vmoe/utils.py:50): a finite value (exact, one zero), an infinity or NaN. -/
inductive Num where
  | fin (r : ℝ)
  | inf (neg : Bool)
  | nan

/-- `x != 0.` (vmoe/utils.py:53): true for NaN. -/
def Num.NeZero : Num → Prop
  | .fin r => r ≠ 0
  | _ => True

/-- The product of floating point numbers (`jax.lax.mul`, vmoe/utils.py:56). -/
noncomputable def Num.mul : Num → Num → Num
  | .nan, _ => .nan
  | _, .nan => .nan
  | .fin a, .fin b => .fin (a * b)
  | .fin a, .inf s => if a = 0 then .nan else .inf (xor s (decide (a < 0)))
  | .inf s, .fin a => if a = 0 then .nan else .inf (xor s (decide (a < 0)))
  | .inf s, .inf t => .inf (xor s t)

/-- The sum of floating point numbers (the sum of the contributions to a gradient, vmoe/utils.py:56). -/
noncomputable def Num.add : Num → Num → Num
  | .nan, _ => .nan
  | _, .nan => .nan
  | .fin a, .fin b => .fin (a + b)
  | .fin _, .inf s => .inf s
  | .inf s, .fin _ => .inf s
  | .inf s, .inf t => if s = t then .inf s else .nan

/-- The operations of `multiply_no_nan` (vmoe/utils.py:53-56): the two arguments, constants, `jnp.where(x_ok, a, b)` with `x_ok = x != 0.`, and products. -/
inductive Expr where
  | x
  | y
  | const (r : ℝ)
  | where_ (a b : Expr)
  | mul (a b : Expr)

open Classical in
/-- The value of an expression (vmoe/utils.py:53-56). -/
noncomputable def Expr.eval (x y : Num) : Expr → Num
  | .x => x
  | .y => y
  | .const r => .fin r
  | .where_ a b => if x.NeZero then a.eval x y else b.eval x y
  | .mul a b => (a.eval x y).mul (b.eval x y)

open Classical in
/-- The gradient that JAX computes for an expression (`jax.grad` of a caller of vmoe/utils.py:50-56), from the gradient `g` of its value, by going backwards:
`where` passes `g` to the branch taken and zero to the other one, a product multiplies `g` with the other factor, and contributions are added. -/
noncomputable def Expr.grad (x y : Num) (g : Num) : Expr → Num × Num
  | .x => (g, .fin 0)
  | .y => (.fin 0, g)
  | .const _ => (.fin 0, .fin 0)
  | .where_ a b =>
    let ga := a.grad x y (if x.NeZero then g else .fin 0)
    let gb := b.grad x y (if x.NeZero then .fin 0 else g)
    (ga.1.add gb.1, ga.2.add gb.2)
  | .mul a b =>
    let ga := a.grad x y (g.mul (b.eval x y))
    let gb := b.grad x y (g.mul (a.eval x y))
    (ga.1.add gb.1, ga.2.add gb.2)

/-- `multiply_no_nan` (vmoe/utils.py:50-56). -/
def multiplyNoNan : Expr :=
  let safeX := Expr.where_ .x (.const 1)
  let safeY := Expr.where_ .y (.const 1)
  Expr.where_ (.mul safeX safeY) (.const 0)

end Verif.NoNan
