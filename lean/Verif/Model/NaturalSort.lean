import Verif.Model.PyStr
import Mathlib.Data.Sum.Order
import Mathlib.Data.List.Lex
import Mathlib.Data.Char
import Mathlib.Data.Rat.Defs
import Mathlib.Algebra.Order.Field.Rat
import Mathlib.Algebra.Order.Ring.Rat
import Mathlib.Tactic.Linarith

/-!
The natural sort of names (vmoe/initialization/mapping.py:78-79,221-230).  `float` is a parameter `fl` on the exact value of
the number; only the digits 0-9 are considered, while `\d` also matches other Unicode digits.
-/

namespace Verif.NaturalSort

open Verif PyStr

/-- `[-+]?` (vmoe/initialization/mapping.py:79). -/
def takeSign : List Char → Int × List Char
  | '-' :: s => (-1, s)
  | '+' :: s => (1, s)
  | s => (1, s)

/-- `(?:\d+(?:\.\d*)?|\.\d+)` (vmoe/initialization/mapping.py:79): the value and the rest of the string. -/
def mantissa (s : List Char) : Option (ℚ × List Char) :=
  if s.takeWhile isDigit = [] then
    match s with
    | '.' :: r =>
      if r.takeWhile isDigit = [] then none
      else some ((parseNat (r.takeWhile isDigit) : ℚ) / 10 ^ (r.takeWhile isDigit).length, r.dropWhile isDigit)
    | _ => none
  else
    match s.dropWhile isDigit with
    | '.' :: r =>
      some ((parseNat (s.takeWhile isDigit) : ℚ) + (parseNat (r.takeWhile isDigit) : ℚ) / 10 ^ (r.takeWhile isDigit).length,
        r.dropWhile isDigit)
    | r => some ((parseNat (s.takeWhile isDigit) : ℚ), r)

/-- `(?:[eE][-+]?\d+)?` (vmoe/initialization/mapping.py:79): the factor and the rest of the string. -/
def exponent : List Char → ℚ × List Char
  | [] => (1, [])
  | c :: s =>
    if c = 'e' ∨ c = 'E' then
      if (takeSign s).2.takeWhile isDigit = [] then (1, c :: s)
      else ((10 : ℚ) ^ ((takeSign s).1 * parseNat ((takeSign s).2.takeWhile isDigit)), (takeSign s).2.dropWhile isDigit)
    else (1, c :: s)

/-- A match of `_SIGNED_FLOAT_RE` at the start of a string: its value and the rest of the string
(vmoe/initialization/mapping.py:78-79). -/
def matchNum (s : List Char) : Option (ℚ × List Char) :=
  match mantissa (takeSign s).2 with
  | none => none
  | some (m, r) => some ((takeSign s).1 * m * (exponent r).1, (exponent r).2)

theorem takeSign_length (s : List Char) : (takeSign s).2.length ≤ s.length := by
  unfold takeSign
  split <;> simp

theorem mantissa_length {s r : List Char} {q : ℚ} (h : mantissa s = some (q, r)) : r.length < s.length := by
  unfold mantissa at h
  split at h
  · split at h
    · split at h
      · cases h
      · cases h
        have := (List.dropWhile_sublist (l := by assumption) isDigit).length_le
        simp only [List.length_cons]
        omega
    · cases h
  · rename_i hne
    have hpos : 0 < (s.takeWhile isDigit).length := List.length_pos_iff.2 hne
    have hsum : (s.takeWhile isDigit).length + (s.dropWhile isDigit).length = s.length := by
      rw [← List.length_append, List.takeWhile_append_dropWhile]
    split at h
    · rename_i r' hr
      cases h
      have := (List.dropWhile_sublist (l := r') isDigit).length_le
      rw [hr, List.length_cons] at hsum
      omega
    · cases h
      omega

theorem exponent_length (s : List Char) : (exponent s).2.length ≤ s.length := by
  unfold exponent
  split
  · simp
  · rename_i c s
    split
    · split
      · simp
      · have h1 := (List.dropWhile_sublist (l := (takeSign s).2) isDigit).length_le
        have h2 := takeSign_length s
        simp only [List.length_cons]
        omega
    · simp

theorem matchNum_length {s r : List Char} {q : ℚ} (h : matchNum s = some (q, r)) : r.length < s.length := by
  unfold matchNum at h
  split at h
  · cases h
  · rename_i m r' hm
    cases h
    have h1 := mantissa_length hm
    have h2 := takeSign_length s
    have h3 := exponent_length r'
    omega

/-- An element of a sort key: a string or a number (vmoe/initialization/mapping.py:223-229). -/
abbrev Token := Lex (List Char ⊕ ℚ)

/-- A string in a sort key (vmoe/initialization/mapping.py:227). -/
def text (s : List Char) : Token := toLex (Sum.inl s)

/-- A number in a sort key (vmoe/initialization/mapping.py:225). -/
def num (q : ℚ) : Token := toLex (Sum.inr q)

/-- `split_keys` (vmoe/initialization/mapping.py:223-229) with the text `acc` before `s`.  The texts between the matches
contain no digit, so `maybe_num` leaves exactly these as they are. -/
def splitKeys (fl : ℚ → ℚ) (acc : List Char) (s : List Char) : List Token :=
  match s with
  | [] => [text acc]
  | c :: s =>
    match h : matchNum (c :: s) with
    | none => splitKeys fl (acc ++ [c]) s
    | some (q, r) =>
      have : r.length < (c :: s).length := matchNum_length h
      text acc :: num (fl q) :: splitKeys fl [] r
termination_by s.length

/-- `_natural_sort(names)` (vmoe/initialization/mapping.py:221-230); Python's sort is stable.  Strings compare by code
point and lists lexicographically; a string is never compared with a number, because they are at even and odd places. -/
def naturalSort (fl : ℚ → ℚ) (names : List (List Char)) : List (List Char) :=
  names.mergeSort fun a b => decide (splitKeys fl [] a ≤ splitKeys fl [] b)

end Verif.NaturalSort
