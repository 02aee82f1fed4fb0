import Verif.Model.FlatDict
import Mathlib.Data.Real.Basic

/-! Specifications about nested dicts: the leaf at a path, dicts without empty dicts inside. -/

namespace Verif.TreeSpec

open Verif

/-- The first value of a key in a list of items. -/
def lookup {T : Type} (k : List Char) : List (List Char × T) → Option T
  | [] => none
  | (k', t) :: l => if k' = k then some t else lookup k l

/-- The leaf of a tree at a path of keys. -/
def leafAt {V : Type} : List (List Char) → FlatDict.Tree V → Option V
  | [], .leaf v => some v
  | [], .node _ => none
  | _ :: _, .leaf _ => none
  | k :: ks, .node l => match lookup k l with
    | none => none
    | some t => leafAt ks t

/-- The leaf of a dict at a path of keys. -/
def leafOf {V : Type} (l : List (List Char × FlatDict.Tree V)) (path : List (List Char)) : Option V :=
  leafAt path (.node l)

mutual
/-- The tree is not an empty dict and contains none. -/
def NoEmpty {V : Type} : FlatDict.Tree V → Prop
  | .leaf _ => True
  | .node [] => False
  | .node (kt :: l) => NoEmptyItems (kt :: l)
/-- No value of the dict is or contains an empty dict. -/
def NoEmptyItems {V : Type} : List (List Char × FlatDict.Tree V) → Prop
  | [] => True
  | (_, t) :: l => NoEmpty t ∧ NoEmptyItems l
end

mutual
/-- The sum of the squares of all entries of a tree of tensors. -/
noncomputable def sumSquares : FlatDict.Tree (List ℝ) → ℝ
  | .leaf t => (t.map fun x => x ^ 2).sum
  | .node l => sumSquaresItems l
/-- The same for a dict. -/
noncomputable def sumSquaresItems : List (List Char × FlatDict.Tree (List ℝ)) → ℝ
  | [] => 0
  | (_, t) :: l => sumSquares t + sumSquaresItems l
end

end Verif.TreeSpec
