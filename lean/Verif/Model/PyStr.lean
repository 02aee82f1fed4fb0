import Mathlib.Data.Nat.Digits.Defs
import Mathlib.Tactic.TypeStar

/-!
Python strings as lists of characters, decimal formatting and parsing, and `os.path` (POSIX).
-/

namespace Verif.PyStr

/-- Character of a decimal digit (`str(int)`, e.g. vmoe/checkpoints/base.py:65). -/
def digitChar (d : Nat) : Char := Char.ofNat (48 + d)

/-- Value of a decimal digit (`int(str)`, vmoe/checkpoints/base.py:104). -/
def charDigit (c : Char) : Nat := c.toNat - 48

/-- `[0-9]` (vmoe/checkpoints/base.py:33). -/
def isDigit (c : Char) : Bool := 48 ≤ c.toNat && c.toNat ≤ 57

/-- `[a-zA-Z]` (vmoe/checkpoints/base.py:33). -/
def isLetter (c : Char) : Bool :=
  (97 ≤ c.toNat && c.toNat ≤ 122) || (65 ≤ c.toNat && c.toNat ≤ 90)

/-- `str(n)` for a non-negative integer (vmoe/checkpoints/base.py:65). -/
def natStr (n : Nat) : List Char :=
  if n = 0 then ['0'] else ((Nat.digits 10 n).reverse).map digitChar

/-- `f'{n:05d}'` (vmoe/checkpoints/base.py:49). -/
def pad5 (n : Nat) : List Char :=
  List.replicate (5 - (natStr n).length) '0' ++ natStr n

/-- `int(s)` for a string of digits (vmoe/checkpoints/base.py:104). -/
def parseNat (s : List Char) : Nat := s.foldl (fun acc c => 10 * acc + charDigit c) 0

/-- `s.startswith(p)` (glob with a literal prefix, vmoe/checkpoints/base.py:110). -/
def startsWith (s p : List Char) : Bool := p.isPrefixOf s

/-- Characters after the last `/` (`os.path.basename` of the POSIX implementation, used in
vmoe/checkpoints/base.py:113,173). -/
def basename (p : List Char) : List Char := (p.reverse.takeWhile (· ≠ '/')).reverse

/-- `os.path.dirname` (POSIX): everything up to the last `/`, without trailing slashes unless it only
consists of slashes (used in vmoe/checkpoints/base.py:112,169). -/
def dirname (p : List Char) : List Char :=
  let head := (p.reverse.dropWhile (· ≠ '/')).reverse
  if head.all (· = '/') then head else (head.reverse.dropWhile (· = '/')).reverse

/-- `os.path.join(a, b)` (POSIX; used in vmoe/checkpoints/base.py:113,173). -/
def pathJoin (a b : List Char) : List Char :=
  if b.head? = some '/' then b
  else if a = [] ∨ a.getLast? = some '/' then a ++ b
  else a ++ '/' :: b

end Verif.PyStr
