import Verif.Model.NdArray
import Mathlib.Data.Real.Basic
import Mathlib.Algebra.BigOperators.Group.Finset.Basic

/-! Specifications for mixup. -/

namespace Verif.MixSpec

open Verif

/-- An array of this shape whose entries along the last axis are non-negative and sum to one. -/
def IsDirichlet (a : NdArray ℝ) (batch : List Nat) (size : Nat) : Prop :=
  a.shape = batch ++ [size] ∧ ∀ b, NdArray.Valid batch b →
    (∀ i < size, 0 ≤ a.get (b ++ [i])) ∧ ∑ i ∈ Finset.range size, a.get (b ++ [i]) = 1

/-- Non-negative weights that sum to one, in decreasing order. -/
structure IsWeights (w : Nat → ℝ) (size : Nat) : Prop where
  nonneg : ∀ i, 0 ≤ w i
  sum : ∑ i ∈ Finset.range size, w i = 1
  sorted : ∀ i j, i ≤ j → j < size → w j ≤ w i

end Verif.MixSpec
