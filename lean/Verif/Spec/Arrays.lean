import Verif.Model.NdArray

/-! Specifications for operations that change the shape of arrays. -/

namespace Verif.ArraySpec

open Verif

/-- All positions of an array with this shape; the last axis varies fastest. -/
def indices : List Nat → List (List Nat)
  | [] => [[]]
  | d :: ds => (List.range d).flatMap fun i => (indices ds).map (i :: ·)

/-- The entries of an array in the order of `indices`. -/
def entries {α : Type} (x : NdArray α) : List α := (indices x.shape).map x.get

/-- `i` is the axis that `a` stands for in an array with `ndim` axes; negative numbers count from the end. -/
def AxisIs (ndim : Nat) (a : Int) (i : Nat) : Prop := i < ndim ∧ ((i : Int) = a ∨ (i : Int) - ndim = a)

instance (ndim : Nat) (a : Int) (i : Nat) : Decidable (AxisIs ndim a i) := by unfold AxisIs; infer_instance

/-- `i` is one of the axes that `axes` stand for. -/
def IsAxis (ndim : Nat) (axes : List Int) (i : Nat) : Prop := ∃ a ∈ axes, AxisIs ndim a i

instance (ndim : Nat) (axes : List Int) (i : Nat) : Decidable (IsAxis ndim axes i) := by unfold IsAxis; infer_instance

/-- A list without the elements at the positions with `P`. -/
def without (P : Nat → Prop) [DecidablePred P] (l : List Nat) : List Nat :=
  (l.zipIdx.filter fun p => ¬ P p.2).map Prod.fst

end Verif.ArraySpec
