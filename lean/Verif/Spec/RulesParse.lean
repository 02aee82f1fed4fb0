import Verif.Model.RulesParse

/-! The documented forms of the rules of a config.  Only the data types of the model are used. -/

namespace Verif.RulesParseSpec

open Verif FlatDict RulesParse

variable {P : Type}

/-- The values that are false in Python. -/
def Falsy (v : Val) : Prop := v = .none ∨ v = .bool false ∨ v = .int 0 ∨ v = .str [] ∨ v = .tuple []

/-- The value is the integer `i`; Booleans are integers. -/
def IsInt (v : Val) (i : Int) : Prop := v = .int i ∨ (v = .bool true ∧ i = 1) ∨ (v = .bool false ∧ i = 0)

/-- `(regex, replacement, transformation, arguments...)` is a rule. -/
inductive ReadsItems (compile : Key → Except PyErr P) : List Val → Parsed P → Prop
  | rename {pat p v} : compile pat = .ok p → ¬ Falsy v → ReadsItems compile [.str pat, v] ⟨p, .regex v⟩
  | drop {pat p v} : compile pat = .ok p → Falsy v → ReadsItems compile [.str pat, v] ⟨p, .drop⟩
  | reshape {pat p v} : compile pat = .ok p →
      ReadsItems compile [.str pat, v, .str "reshape".toList] ⟨p, .reshape v .none⟩
  | reshapeTo {pat p v s} : compile pat = .ok p →
      ReadsItems compile [.str pat, v, .str "reshape".toList, s] ⟨p, .reshape v s⟩
  | squeeze {pat p v a i} : compile pat = .ok p → IsInt a i →
      ReadsItems compile [.str pat, v, .str "squeeze".toList, a] ⟨p, .squeeze v i⟩
  | stack {pat p v a i} : compile pat = .ok p → IsInt a i →
      ReadsItems compile [.str pat, v, .str "stack".toList, a] ⟨p, .stack v i⟩
  | expandTile {pat p v a n} : compile pat = .ok p →
      ReadsItems compile [.str pat, v, .str "expand_tile".toList, a, n] ⟨p, .expandTile v a n⟩
  | vitZoom {pat p v args} : compile pat = .ok p →
      ReadsItems compile (.str pat :: v :: .str "vit_zoom".toList :: args) ⟨p, .vitZoom v⟩
  | zoom {pat p v args} : compile pat = .ok p →
      ReadsItems compile (.str pat :: v :: .str "zoom".toList :: args) ⟨p, .zoom v⟩

/-- The values in a rule that is not an object; a string is the sequence of its characters. -/
inductive HasItems : Raw P → List Val → Prop
  | items {l} : HasItems (.items l) l
  | text {s} : HasItems (.text s) (s.map fun c => .str [c])

/-- A rule of the config is this rule: objects are themselves. -/
def Reads (compile : Key → Except PyErr P) (raw : Raw P) (r : Parsed P) : Prop :=
  raw = .rule r ∨ ∃ l, HasItems raw l ∧ ReadsItems compile l r

/-- The names of the transformations. -/
def names : List Key :=
  ["reshape".toList, "squeeze".toList, "stack".toList, "expand_tile".toList, "vit_zoom".toList, "zoom".toList]

/-- A sequence of values that is not a rule, and the exception. -/
inductive Wrong (compile : Key → Except PyErr P) : List Val → PyErr → Prop
  | short {l} : l.length < 2 → Wrong compile l .valueError
  | noText {v l} : l ≠ [] → (∀ s, v ≠ .str s) → Wrong compile (v :: l) .typeError
  | noRegex {pat l e} : l ≠ [] → compile pat = .error e → Wrong compile (.str pat :: l) e
  | unknown {pat p v t args} : compile pat = .ok p → (∀ n ∈ names, t ≠ .str n) →
      Wrong compile (.str pat :: v :: t :: args) .valueError
  | reshape {pat p v args} : compile pat = .ok p → 1 < args.length →
      Wrong compile (.str pat :: v :: .str "reshape".toList :: args) .assertionError
  | squeeze {pat p v args} : compile pat = .ok p → (∀ a i, args = [a] → ¬ IsInt a i) →
      Wrong compile (.str pat :: v :: .str "squeeze".toList :: args) .assertionError
  | stack {pat p v args} : compile pat = .ok p → (∀ a i, args = [a] → ¬ IsInt a i) →
      Wrong compile (.str pat :: v :: .str "stack".toList :: args) .assertionError
  | expandTile {pat p v args} : compile pat = .ok p → args.length ≠ 2 →
      Wrong compile (.str pat :: v :: .str "expand_tile".toList :: args) .assertionError

/-- The first rule of the config whose pattern is found in a name is the rule `r`. -/
def Takes (compile : Key → Except PyErr P) (search : P → Key → Bool) (raws : List (Raw P)) (name : Key) (r : Parsed P) : Prop :=
  ∃ before raw after, raws = before ++ raw :: after ∧ Reads compile raw r ∧ search r.pattern name = true ∧
    ∀ raw' ∈ before, ∀ r', Reads compile raw' r' → search r'.pattern name = false

/-- The replacement of a rule is this string. -/
def Replaces (c : Cls) (s : Key) : Prop :=
  c = .regex (.str s) ∨ (∃ a, c = .reshape (.str s) a) ∨ (∃ a, c = .squeeze (.str s) a) ∨ (∃ a, c = .stack (.str s) a) ∨
  (∃ a n, c = .expandTile (.str s) a n) ∨ c = .vitZoom (.str s) ∨ c = .zoom (.str s)

/-- A name of the source is sent to the name `dst` by the rule `r`: the pattern is replaced by the replacement. -/
def Sends (compile : Key → Except PyErr P) (search : P → Key → Bool) (sub : P → Key → Key → Key) (raws : List (Raw P))
    (name dst : Key) (r : Parsed P) : Prop :=
  Takes compile search raws name r ∧
    ((∃ s, Replaces r.cls s ∧ sub r.pattern s name = dst) ∨ (r.cls = .base ∧ name = dst))

end Verif.RulesParseSpec
