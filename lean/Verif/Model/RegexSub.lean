import Verif.Model.Regex
import Verif.Model.FlatDict

/-!
How rules find and rename names: `pattern.search(key)` and `pattern.sub(replacement, key)`
(vmoe/initialization/rules.py:47,146), with the part of the `re` module that they use: a matcher that tries the ways to match in
their order and records the groups.  Patterns with a question mark are refused here, so that all groups count and all repeats are
greedy.  A repeat does not go on after matching an empty text, where `re` may still record groups.
-/

namespace Verif.RegexSub

open Verif Regex FlatDict

/-- `re.compile` for the rules (vmoe/initialization/rules.py:86,129). -/
def compileRule (pattern : Key) : Except PyErr Re :=
  if '?' ∈ pattern then .error .notImplementedError else compile pattern

/-- The number of groups of a pattern (used in vmoe/initialization/rules.py:146). -/
def groups : Re → Nat
  | .seq a b => groups a + groups b
  | .alt a b => groups a + groups b
  | .star a => groups a
  | .plus a => groups a
  | .opt a => groups a
  | .group a => groups a + 1
  | _ => 0

/-- The start and the end of what each group matched (used in vmoe/initialization/rules.py:146). -/
abbrev Groups := Nat → Option (Nat × Nat)

/-- The group `g` has matched from `i` to `j` (used in vmoe/initialization/rules.py:146). -/
def record (c : Groups) (g i j : Nat) : Groups := fun k => if k = g then some (i, j) else c k

/-- Repeats as often as possible, at most `fuel` times (used in vmoe/initialization/rules.py:47,146). -/
def repeats (step : Nat → Groups → List (Nat × Groups)) : Nat → Nat → Groups → List (Nat × Groups)
  | 0, i, c => [(i, c)]
  | fuel + 1, i, c =>
    ((step i c).filter fun jc => decide (i < jc.1)).flatMap (fun jc => repeats step fuel jc.1 jc.2) ++ [(i, c)]

/-- The ends of the matches that start at `i`, in the order in which `re` tries them; the groups of the pattern have the numbers
from `g` (used in vmoe/initialization/rules.py:47,146). -/
def ends (s : List Char) : Re → Nat → Nat → Groups → List (Nat × Groups)
  | .empty, _, i, c => if i ≤ s.length then [(i, c)] else []
  | .char x, _, i, c => if s[i]? = some x then [(i + 1, c)] else []
  | .any, _, i, c => match s[i]? with
    | some x => if x = '\n' then [] else [(i + 1, c)]
    | none => []
  | .bol, _, i, c => if i = 0 then [(i, c)] else []
  | .eol, _, i, c => if i = s.length ∨ (i + 1 = s.length ∧ s[i]? = some '\n') then [(i, c)] else []
  | .esc n x, _, i, c => match s[i]? with
    | some y => if xor n (escMatch x y) then [(i + 1, c)] else []
    | none => []
  | .cls n rs es, _, i, c => match s[i]? with
    | some y => if clsMatch n rs es y then [(i + 1, c)] else []
    | none => []
  | .seq a b, g, i, c => (ends s a g i c).flatMap fun jc => ends s b (g + groups a) jc.1 jc.2
  | .alt a b, g, i, c => ends s a g i c ++ ends s b (g + groups a) i c
  | .star a, g, i, c => if i ≤ s.length then repeats (ends s a g) (s.length - i) i c else []
  | .plus a, g, i, c => (ends s a g i c).flatMap fun jc => repeats (ends s a g) (s.length - jc.1) jc.1 jc.2
  | .opt a, g, i, c => if i ≤ s.length then ends s a g i c ++ [(i, c)] else []
  | .group a, g, i, c => (ends s a (g + 1) i c).map fun jc => (jc.1, record jc.2 g i jc.1)

/-- The match at `i`, if there is one: its end and the groups; not an empty one if `advance` (used in
vmoe/initialization/rules.py:47,146). -/
def matchAt (t : Re) (s : List Char) (advance : Bool) (i : Nat) : Option (Nat × Groups) :=
  ((ends s t 1 i fun _ => none).filter fun jc => !advance || decide (jc.1 ≠ i)).head?

/-- The first position from `i` on with a match, `n` positions from the end; its start, its end and the groups (used in
vmoe/initialization/rules.py:47,146). -/
def findFrom (t : Re) (s : List Char) : Nat → Bool → Nat → Option (Nat × Nat × Groups)
  | n, advance, i =>
    match matchAt t s advance i with
    | some (j, c) => some (i, j, c)
    | none => match n with
      | 0 => none
      | n + 1 => findFrom t s n false (i + 1)

/-- `pattern.search(key) is not None` (vmoe/initialization/rules.py:47). -/
def search (t : Re) (s : Key) : Bool := (findFrom t s s.length false 0).isSome

/-- A part of a replacement: a character or the text of a group (used in vmoe/initialization/rules.py:146). -/
inductive Part where
  | char (c : Char)
  | group (n : Nat)
  deriving DecidableEq, Repr

/-- The parts of a replacement (used in vmoe/initialization/rules.py:146).  A backslash and one digit other than 0 is a group; a
group that the pattern does not have is an error; other uses of backslashes are refused. -/
def template (n : Nat) : List Char → Except PyErr (List Part)
  | [] => .ok []
  | [c] => if c = '\\' then .error .valueError else .ok [.char c]
  | c :: d :: s =>
    if c = '\\' then
      if d.isDigit = false ∨ d = '0' ∨ (s.headD 'x').isDigit then .error .notImplementedError
      else if n < d.toNat - 48 then .error .valueError
      else do
        let r ← template n s
        return .group (d.toNat - 48) :: r
    else do
      let r ← template n (d :: s)
      return .char c :: r

/-- The text of a part; nothing for a group that did not match (used in vmoe/initialization/rules.py:146). -/
def expand (s : List Char) (c : Groups) : Part → List Char
  | .char x => [x]
  | .group n => match c n with
    | some (i, j) => (s.drop i).take (j - i)
    | none => []

/-- Replaces the matches from `i` on (used in vmoe/initialization/rules.py:146).  After an empty match the next one at the same
place is not empty. -/
def replaceFrom (t : Re) (parts : List Part) (s : List Char) : Nat → Bool → Nat → List Char
  | 0, _, i => s.drop i
  | fuel + 1, advance, i =>
    match findFrom t s (s.length - i) advance i with
    | none => s.drop i
    | some (b, e, c) => (s.drop i).take (b - i) ++ parts.flatMap (expand s c) ++ replaceFrom t parts s fuel (b == e) e

/-- `pattern.sub(replacement, key)` (vmoe/initialization/rules.py:146). -/
def sub (t : Re) (replacement s : Key) : Except PyErr Key := do
  let parts ← template (groups t) replacement
  return replaceFrom t parts s (2 * s.length + 2) false 0

end Verif.RegexSub
