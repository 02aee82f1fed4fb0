import Mathlib.Data.List.Basic

/-! Names with numbers inside. -/

namespace Verif.NumberedNames

/-- A decimal digit. -/
def Digit (c : Char) : Prop := '0'.toNat ≤ c.toNat ∧ c.toNat ≤ '9'.toNat

/-- Digits written after `p` form a number of their own: `p` does not end with a digit, a sign or a point, and not with
an exponent mark after a number. -/
def NumberMayFollow (p : List Char) : Prop :=
  ∀ u c, p = u ++ [c] → ¬ Digit c ∧ c ≠ '+' ∧ c ≠ '-' ∧ c ≠ '.' ∧
    ((c = 'e' ∨ c = 'E') → ∀ v d, u = v ++ [d] → ¬ Digit d ∧ d ≠ '.')

/-- A number written before `q` ends there. -/
def NumberEndsBefore (q : List Char) : Prop :=
  ∀ c v, q = c :: v → ¬ Digit c ∧ c ≠ '.' ∧ c ≠ 'e' ∧ c ≠ 'E'

/-- `a` is before `b` wherever they are in the list. -/
def Before {α : Type} (l : List α) (a b : α) : Prop :=
  ∀ (i j : Nat) (hi : i < l.length) (hj : j < l.length), l[i] = a → l[j] = b → i < j

end Verif.NumberedNames
