import Verif.Model.NoNan
import Mathlib.Analysis.Calculus.Deriv.Mul

/-!
C111: products without NaN.
-/

namespace Verif.NoNan

theorem add_zero' (a : Num) : a.add (.fin 0) = a := by
  cases a <;> simp [Num.add]

theorem zero_add' (a : Num) : (Num.fin 0).add a = a := by
  cases a <;> simp [Num.add]

theorem neZero_iff (x : Num) : x.NeZero ↔ x ≠ .fin 0 := by
  cases x <;> simp [Num.NeZero]

/-- Zero times anything is zero, also an infinity or NaN; every other product is the usual one. -/
theorem C111_value (x y : Num) :
    (x = .fin 0 → multiplyNoNan.eval x y = .fin 0) ∧ (x ≠ .fin 0 → multiplyNoNan.eval x y = x.mul y) := by
  constructor
  · rintro rfl
    have : ¬ (Num.fin 0).NeZero := by simp [Num.NeZero]
    simp [multiplyNoNan, Expr.eval, this]
  · intro h
    have h' := (neZero_iff x).2 h
    simp [multiplyNoNan, Expr.eval, h']

/-- The gradient is safe: it is zero for both arguments if `x` is zero, whatever `y` and the gradient of the value are; otherwise it is that of the
product. -/
theorem C111_gradient (x y g : Num) :
    (x = .fin 0 → multiplyNoNan.grad x y g = (.fin 0, .fin 0)) ∧ (x ≠ .fin 0 → multiplyNoNan.grad x y g = (g.mul y, g.mul x)) := by
  constructor
  · rintro rfl
    have : ¬ (Num.fin 0).NeZero := by simp [Num.NeZero]
    simp [multiplyNoNan, Expr.grad, this, Num.add]
  · intro h
    have h' := (neZero_iff x).2 h
    simp [multiplyNoNan, Expr.grad, Expr.eval, h', add_zero', zero_add']

/-- For finite arguments the value is finite, and so are value and gradient whenever `x` is zero. -/
theorem C111_finite (a b : ℝ) (y g : Num) :
    multiplyNoNan.eval (.fin a) (.fin b) = .fin (a * b) ∧
    ∃ v gx gy, multiplyNoNan.eval (.fin 0) y = .fin v ∧ multiplyNoNan.grad (.fin 0) y g = (.fin gx, .fin gy) := by
  refine ⟨?_, 0, 0, 0, (C111_value _ y).1 rfl, (C111_gradient _ y g).1 rfl⟩
  by_cases h : a = 0
  · subst h
    rw [(C111_value (.fin 0) (.fin b)).1 rfl]
    simp
  · rw [(C111_value (.fin a) (.fin b)).2 (by simpa using h)]
    rfl

/-- For finite arguments with `x ≠ 0` the gradient is the derivative. -/
theorem C111_derivative (a b : ℝ) (h : a ≠ 0) :
    ∃ gx gy, multiplyNoNan.grad (.fin a) (.fin b) (.fin 1) = (.fin gx, .fin gy) ∧
      HasDerivAt (fun t => t * b) gx a ∧ HasDerivAt (fun t => a * t) gy b := by
  refine ⟨1 * b, 1 * a, (C111_gradient _ _ _).2 (by simpa using h), ?_, ?_⟩
  · exact (hasDerivAt_id a).mul_const b
  · have := (hasDerivAt_id b).const_mul a
    rw [one_mul]
    rw [mul_one] at this
    exact this

/-- With one `where` only, outside of the product, the value is the same but the gradient at zero times infinity is NaN: the two inner `where` are needed. -/
theorem C111_inner_where (s : Bool) (g : ℝ) :
    (∀ x y, (Expr.where_ (.mul .x .y) (.const 0)).eval x y = multiplyNoNan.eval x y) ∧
    ((Expr.where_ (.mul .x .y) (.const 0)).grad (.fin 0) (.inf s) (.fin g)).1 = .nan ∧
    (multiplyNoNan.grad (.fin 0) (.inf s) (.fin g)).1 = .fin 0 := by
  refine ⟨?_, ?_, ?_⟩
  · intro x y
    by_cases h : x.NeZero <;> simp [multiplyNoNan, Expr.eval, h]
  · have : ¬ (Num.fin 0).NeZero := by simp [Num.NeZero]
    simp [Expr.grad, Expr.eval, this, Num.mul, Num.add]
  · rw [(C111_gradient _ _ _).1 rfl]

/-- The safe gradient is not always the derivative: at `x = 0` with a finite `y ≠ 0` the function is `x * y`, of derivative `y`, and the gradient is 0. -/
theorem C111_zero_counterexample (b : ℝ) (hb : b ≠ 0) :
    (∀ a, multiplyNoNan.eval (.fin a) (.fin b) = .fin (a * b)) ∧ HasDerivAt (fun t => t * b) b 0 ∧
    (multiplyNoNan.grad (.fin 0) (.fin b) (.fin 1)).1 ≠ .fin b := by
  refine ⟨fun a => (C111_finite a b (.fin b) .nan).1, ?_, ?_⟩
  · have := (hasDerivAt_id (0 : ℝ)).mul_const b
    rwa [one_mul] at this
  · rw [(C111_gradient _ _ _).1 rfl]
    intro h
    injection h with h
    exact hb h.symm

/-- The arguments of the test: 0 * inf, 0 * nan, 2 * 3; and NaN is kept in the first argument. -/
example : multiplyNoNan.eval (.fin 0) (.inf false) = .fin 0 ∧ multiplyNoNan.eval (.fin 0) .nan = .fin 0 ∧
    multiplyNoNan.eval (.fin 2) (.fin 3) = .fin (2 * 3) ∧ multiplyNoNan.eval .nan (.fin 0) = .nan ∧
    multiplyNoNan.grad (.fin 2) (.fin 3) (.fin 1) = (.fin (1 * 3), .fin (1 * 2)) :=
  ⟨(C111_value _ _).1 rfl, (C111_value _ _).1 rfl, (C111_value _ _).2 (by simp), (C111_value _ _).2 (by simp), (C111_gradient _ _ _).2 (by simp)⟩

end Verif.NoNan
