import Verif.Model.NdArray
import Verif.Model.FlatDict
import Mathlib.Data.Set.Function

/-! Specifications for device meshes and for trees with the same structure. -/

namespace Verif.MeshSpec

open Verif

/-- The positions of `mesh` and of `hw` are in one-to-one correspondence, and corresponding positions hold the same
device: `mesh` contains every device of `hw` exactly once. -/
def Arranges {α : Type} (mesh hw : NdArray α) : Prop :=
  ∃ φ : List Nat → List Nat,
    Set.BijOn φ {idx | NdArray.Valid mesh.shape idx} {idx | NdArray.Valid hw.shape idx} ∧
    ∀ idx, NdArray.Valid mesh.shape idx → mesh.get idx = hw.get (φ idx)

/-- The positions that satisfy `P` are exactly the positions of a rectangular block. -/
def IsBlock (shape : List Nat) (P : List Nat → Prop) : Prop :=
  ∃ lo hi : List Nat, lo.length = shape.length ∧ hi.length = shape.length ∧
    ∀ idx, NdArray.Valid shape idx →
      (P idx ↔ ∀ a < shape.length, lo.getD a 0 ≤ idx.getD a 0 ∧ idx.getD a 0 ≤ hi.getD a 0)

open FlatDict in
mutual
/-- Two trees have the same structure and their leaves are related by `R`, which may look at the path. -/
def TreeRel {V W : Type} (R : List Key → V → W → Prop) : List Key → Tree V → Tree W → Prop
  | p, .leaf v, .leaf w => R p v w
  | p, .node l, .node l' => ItemsRel R p l l'
  | _, _, _ => False
/-- The same for the items of a dict. -/
def ItemsRel {V W : Type} (R : List Key → V → W → Prop) : List Key → List (Key × Tree V) → List (Key × Tree W) → Prop
  | _, [], [] => True
  | p, (k, t) :: l, (k', t') :: l' => k = k' ∧ TreeRel R (p ++ [k]) t t' ∧ ItemsRel R p l l'
  | _, _, _ => False
end

end Verif.MeshSpec
