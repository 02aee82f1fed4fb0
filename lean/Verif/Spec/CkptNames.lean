import Mathlib.Data.List.Basic

/-!
What a checkpoint file name is, stated as a grammar (independent of the matcher of the model):
`<prefix>_<step><suffix><shard>`.
-/

namespace Verif.CkptNames

/-- A decimal digit. -/
def Digit (c : Char) : Prop := '0' ≤ c ∧ c ≤ '9'

/-- An ASCII letter. -/
def Letter (c : Char) : Prop := ('a' ≤ c ∧ c ≤ 'z') ∨ ('A' ≤ c ∧ c ≤ 'Z')

/-- A non-empty string of digits. -/
def Digits (s : List Char) : Prop := s ≠ [] ∧ ∀ c ∈ s, Digit c

/-- The number written by a string of digits, most significant first. -/
def value : List Char → Nat
  | [] => 0
  | c :: s => (c.toNat - '0'.toNat) * 10 ^ s.length + value s

/-- `_<digits>` -/
def StepStr (s : List Char) : Prop := ∃ d, Digits d ∧ s = '_' :: d

/-- `.<letters>` -/
def SuffixStr (s : List Char) : Prop := ∃ l, l ≠ [] ∧ (∀ c ∈ l, Letter c) ∧ s = '.' :: l

/-- `-<digits>-of-<digits>` -/
def ShardStr (s : List Char) : Prop :=
  ∃ d e, Digits d ∧ Digits e ∧ s = '-' :: (d ++ '-' :: 'o' :: 'f' :: '-' :: e)

/-- The file `f` belongs to step `n` and suffix `x` of some prefix. -/
def Names (f : List Char) (n : Nat) (x : Option (List Char)) : Prop :=
  ∃ p d sh, Digits d ∧ value d = n ∧ (∀ y, x = some y → SuffixStr y) ∧ (sh = [] ∨ ShardStr sh) ∧
    f = p ++ ('_' :: d ++ (x.getD [] ++ sh))

/-- `f` is `pre` followed by a string without `/` (what the shell pattern `pre*` matches). -/
def Extends (f pre : List Char) : Prop := ∃ t, '/' ∉ t ∧ f = pre ++ t

/-- The last component of the path starts with `.tmp.`. -/
def TmpName (f : List Char) : Prop :=
  ∃ d b, '/' ∉ b ∧ (d = [] ∨ ∃ e, d = e ++ ['/']) ∧ f = d ++ (['.', 't', 'm', 'p', '.'] ++ b)

/-- The last component of the path exists and is not a hidden file. -/
def VisibleName (f : List Char) : Prop :=
  ∃ d c b, c ≠ '.' ∧ '/' ∉ c :: b ∧ (d = [] ∨ ∃ e, d = e ++ ['/']) ∧ f = d ++ c :: b

end Verif.CkptNames
