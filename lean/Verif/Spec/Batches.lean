import Mathlib.Data.Real.Basic
import Mathlib.Algebra.Module.Basic

/-! Specifications about batches of examples. -/

namespace Verif.BatchSpec

/-- The examples of a batch whose position is `i` modulo `m`. -/
def every {α : Type} (m i : Nat) (xs : List α) : List α :=
  (xs.zipIdx.filter fun p => decide (p.2 % m = i)).map Prod.fst

/-- The mean of `f` over a list. -/
noncomputable def mean {α G : Type} [AddCommGroup G] [Module ℝ G] (f : α → G) (xs : List α) : G :=
  (1 / (xs.length : ℝ)) • (xs.map f).sum

end Verif.BatchSpec
