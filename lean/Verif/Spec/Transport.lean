import Mathlib.Data.Real.Basic
import Mathlib.Algebra.BigOperators.Fin
import Mathlib.Algebra.Order.BigOperators.Group.Finset

/-!
Specification notions for transport plans, independent of the code.
-/

namespace Verif.Spec

/-- A probability vector with at most `k` entries that are not zero. -/
def SparseProb (k : Nat) {n : Nat} (p : Fin n → ℝ) : Prop :=
  (∀ i, 0 ≤ p i) ∧ ∑ i, p i = 1 ∧ (Finset.univ.filter (fun i => p i ≠ 0)).card ≤ k

/-- `p` is a nearest point to `x` (Euclidean distance) among the `k`-sparse probability vectors. -/
def NearestSparse (k : Nat) {n : Nat} (x p : Fin n → ℝ) : Prop :=
  SparseProb k p ∧ ∀ q, SparseProb k q → ∑ i, (p i - x i) ^ 2 ≤ ∑ i, (q i - x i) ^ 2

end Verif.Spec
