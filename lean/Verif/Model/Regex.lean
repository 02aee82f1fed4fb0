import Verif.Model.PyErr

/-!
Model of `make_match_fn_from_regex_list` (vmoe/utils.py:176-189), with the part of the `re` module it
uses: a parser of pattern texts and the meaning of a pattern.

Supported syntax: characters, `.`, `^`, `$`, escapes of punctuation and of d, D, w, W, s, S, character
classes, `*`, `+`, `?` and their lazy variants, groups `(…)` and `(?:…)`, alternatives.  Everything else
(backreferences, `{m,n}`, flags, look-around, possessive repeats) is refused by the model's parser.
The lazy variants match the same texts.
-/

namespace Verif.Regex

open Verif

/-- A parsed pattern (vmoe/utils.py:184). -/
inductive Re where
  | empty
  | char (c : Char)
  | any
  | bol
  | eol
  /-- d, w or s, and whether negated -/
  | esc (neg : Bool) (c : Char)
  /-- a class: negated, ranges, escapes -/
  | cls (neg : Bool) (ranges : List (Char × Char)) (escs : List (Bool × Char))
  | seq (a b : Re)
  | alt (a b : Re)
  | star (a : Re)
  | plus (a : Re)
  | opt (a : Re)
  | group (a : Re)
  deriving DecidableEq, Repr

/-- What follows a backslash outside a class: d, D, w, W, s, S are classes, other letters and digits are
outside the model, everything else is itself (vmoe/utils.py:184). -/
def escape (c : Char) : Except PyErr Re :=
  if c = 'd' ∨ c = 'w' ∨ c = 's' then .ok (.esc false c)
  else if c = 'D' ∨ c = 'W' ∨ c = 'S' then .ok (.esc true c.toLower)
  else if c.isAlphanum then .error .notImplementedError
  else .ok (.char c)

/-- The items of a class up to its `]`; `first` says that a `]` is still a character
(vmoe/utils.py:184). -/
def parseItems : Nat → Bool → List Char →
    Except PyErr (List (Char × Char) × List (Bool × Char) × List Char)
  | 0, _, _ => .error .valueError
  | _ + 1, _, [] => .error .valueError
  | fuel + 1, first, c :: s =>
    if c = ']' ∧ first = false then .ok ([], [], s)
    else if c = '\\' then
      match s with
      | [] => .error .valueError
      | d :: s' =>
        match escape d with
        | .error e => .error e
        | .ok (.esc n x) => do
          let (rs, es, r) ← parseItems fuel false s'
          return (rs, (n, x) :: es, r)
        | .ok _ => do
          let (rs, es, r) ← parseItems fuel false s'
          return ((d, d) :: rs, es, r)
    else
      match s with
      | '-' :: d :: s' =>
        if d = ']' then do
          let (rs, es, r) ← parseItems fuel false s
          return ((c, c) :: rs, es, r)
        else if d = '\\' then .error .notImplementedError
        else if d < c then .error .valueError
        else do
          let (rs, es, r) ← parseItems fuel false s'
          return ((c, d) :: rs, es, r)
      | _ => do
        let (rs, es, r) ← parseItems fuel false s
        return ((c, c) :: rs, es, r)

/-- A repeat after an atom, with its lazy mark; a second repeat is refused (vmoe/utils.py:184). -/
def parseRepeat (a : Re) : List Char → Except PyErr (Re × List Char)
  | [] => .ok (a, [])
  | c :: s =>
    if c = '*' ∨ c = '+' ∨ c = '?' then
      let t := if c = '*' then .star a else if c = '+' then .plus a else .opt a
      match s with
      | [] => .ok (t, [])
      | d :: s' =>
        if d = '?' then
          match s' with
          | [] => .ok (t, [])
          | e :: s'' => if e = '*' ∨ e = '+' ∨ e = '?' then .error .valueError else .ok (t, e :: s'')
        else if d = '*' ∨ d = '+' then .error .valueError
        else .ok (t, d :: s')
    else if c = '{' then .error .notImplementedError
    else .ok (a, c :: s)

mutual
/-- Alternatives (vmoe/utils.py:184). -/
def parseAlt : Nat → List Char → Except PyErr (Re × List Char)
  | 0, _ => .error .valueError
  | fuel + 1, s => do
    let (a, r) ← parseSeq fuel s
    match r with
    | '|' :: r' => do
      let (b, r'') ← parseAlt fuel r'
      return (.alt a b, r'')
    | _ => .ok (a, r)
/-- Atoms one after the other (vmoe/utils.py:184). -/
def parseSeq : Nat → List Char → Except PyErr (Re × List Char)
  | 0, _ => .error .valueError
  | fuel + 1, s =>
    match s with
    | [] => .ok (.empty, [])
    | c :: s' =>
      if c = '|' ∨ c = ')' then .ok (.empty, c :: s')
      else do
        let (a, r) ← parseAtom fuel c s'
        let (a', r') ← parseRepeat a r
        let (b, r'') ← parseSeq fuel r'
        return (.seq a' b, r'')
/-- One atom starting with the given character (vmoe/utils.py:184). -/
def parseAtom : Nat → Char → List Char → Except PyErr (Re × List Char)
  | 0, _, _ => .error .valueError
  | fuel + 1, c, s =>
    if c = '(' then
      match s with
      | [] => .error .valueError
      | d :: s' =>
        if d = '?' then
          match s' with
          | [] => .error .valueError
          | e :: s'' =>
            if e = ':' then do
              let (a, r) ← parseAlt fuel s''
              match r with
              | ')' :: r' => .ok (.group a, r')
              | _ => .error .valueError
            else .error .notImplementedError
        else do
          let (a, r) ← parseAlt fuel (d :: s')
          match r with
          | ')' :: r' => .ok (.group a, r')
          | _ => .error .valueError
    else if c = '[' then
      match s with
      | [] => .error .valueError
      | d :: s' =>
        if d = '^' then do
          let (rs, es, r) ← parseItems fuel true s'
          return (.cls true rs es, r)
        else do
          let (rs, es, r) ← parseItems fuel true (d :: s')
          return (.cls false rs es, r)
    else if c = '\\' then
      match s with
      | [] => .error .valueError
      | d :: s' => do
        let a ← escape d
        return (a, s')
    else if c = '.' then .ok (.any, s)
    else if c = '^' then .ok (.bol, s)
    else if c = '$' then .ok (.eol, s)
    else if c = '*' ∨ c = '+' ∨ c = '?' then .error .valueError
    else if c = '{' then .error .notImplementedError
    else .ok (.char c, s)
end

/-- `re.compile` (vmoe/utils.py:184); an unbalanced `)` is an error. -/
def compile (s : List Char) : Except PyErr Re :=
  match parseAlt (3 * s.length + 3) s with
  | .ok (t, []) => .ok t
  | .ok _ => .error .valueError
  | .error e => .error e

/-- d, w and s on one character; ASCII only (vmoe/utils.py:188). -/
def escMatch (c x : Char) : Bool :=
  if c = 'd' then x.isDigit
  else if c = 'w' then x.isAlphanum || x == '_'
  else x == ' ' || x == '\t' || x == '\n' || x == '\r'

/-- A class on one character (vmoe/utils.py:188). -/
def clsMatch (neg : Bool) (rs : List (Char × Char)) (es : List (Bool × Char)) (x : Char) : Bool :=
  xor neg (rs.any (fun r => r.1 ≤ x && x ≤ r.2) || es.any (fun e => xor e.1 (escMatch e.2 x)))

/-- `M s t i j`: the pattern `t` can match the text `s` from position `i` to `j`
(vmoe/utils.py:188; the matcher of `re` finds a match whenever one exists). -/
inductive M (s : List Char) : Re → Nat → Nat → Prop where
  | empty (i : Nat) : i ≤ s.length → M s .empty i i
  | char (c : Char) (i : Nat) : s[i]? = some c → M s (.char c) i (i + 1)
  | any (c : Char) (i : Nat) : s[i]? = some c → c ≠ '\n' → M s .any i (i + 1)
  | bol : M s .bol 0 0
  | eol : M s .eol s.length s.length
  | eol' (i : Nat) : i + 1 = s.length → s[i]? = some '\n' → M s .eol i i
  | esc (n : Bool) (c x : Char) (i : Nat) : s[i]? = some x → xor n (escMatch c x) = true →
      M s (.esc n c) i (i + 1)
  | cls (n : Bool) (rs : List (Char × Char)) (es : List (Bool × Char)) (x : Char) (i : Nat) :
      s[i]? = some x → clsMatch n rs es x = true → M s (.cls n rs es) i (i + 1)
  | seq (a b : Re) (i j k : Nat) : M s a i j → M s b j k → M s (.seq a b) i k
  | left (a b : Re) (i j : Nat) : M s a i j → M s (.alt a b) i j
  | right (a b : Re) (i j : Nat) : M s b i j → M s (.alt a b) i j
  | star0 (a : Re) (i : Nat) : i ≤ s.length → M s (.star a) i i
  | star1 (a : Re) (i j k : Nat) : M s a i j → M s (.star a) j k → M s (.star a) i k
  | plus (a : Re) (i j k : Nat) : M s a i j → M s (.star a) j k → M s (.plus a) i k
  | opt0 (a : Re) (i : Nat) : i ≤ s.length → M s (.opt a) i i
  | opt1 (a : Re) (i j : Nat) : M s a i j → M s (.opt a) i j
  | group (a : Re) (i j : Nat) : M s a i j → M s (.group a) i j

/-- `joined_regex.search(string) is not None` (vmoe/utils.py:188). -/
def Search (t : Re) (s : List Char) : Prop := ∃ i j, M s t i j

/-- `'|'.join([f'(?:{r})' for r in regexes])` (vmoe/utils.py:185). -/
def joinGroups : List (List Char) → List Char
  | [] => []
  | [r] => '(' :: '?' :: ':' :: (r ++ [')'])
  | r :: r' :: l => '(' :: '?' :: ':' :: (r ++ ')' :: '|' :: joinGroups (r' :: l))

/-- The joined pattern text (vmoe/utils.py:184-185). -/
def joined (regexes : List (List Char)) : List Char :=
  '(' :: '?' :: ':' :: (joinGroups regexes ++ [')'])

/-- The argument of `make_match_fn_from_regex_list` (vmoe/utils.py:176-183): None, a string or a list. -/
inductive Arg where
  | none
  | str (s : List Char)
  | list (l : List (List Char))

/-- `make_match_fn_from_regex_list` (vmoe/utils.py:176-189): nothing, or the compiled pattern used by
`search`. -/
def makeMatchFn : Arg → Except PyErr (Option Re)
  | .none => .ok none
  | .str s => if s = [] then .ok none else do return some (← compile (joined [s]))
  | .list l => if l = [] then .ok none else do return some (← compile (joined l))

end Verif.Regex
