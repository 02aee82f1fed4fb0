import Verif.Model.ParseCall

/-!
Specification of the strings `parse_call` accepts: dotted names and literals.
-/

namespace Verif.ParseCall

/-- Values that cannot change: numbers, strings, tuples of such values. -/
inductive Imm : Val → Prop where
  | const (c : Const) : Imm (.const c)
  | signed (n : Bool) (c : Const) : Imm (.signed n c)
  | sum (s : Bool) (a b : Val) : Imm (.sum s a b)
  | tuple (l : List Val) : (∀ v ∈ l, Imm v) → Imm (.tuple l)

/-- Real or imaginary number constants. -/
def Number (c : Const) : Prop := (∃ n, c = .int n) ∨ (∃ i, c = .float i) ∨ ∃ i, c = .complex i

/-- Real number constants. -/
def RealNumber (c : Const) : Prop := (∃ n, c = .int n) ∨ ∃ i, c = .float i

mutual
/-- `Lit e v`: the expression is a literal with this value. -/
inductive Lit : Expr → Val → Prop where
  | const (c : Const) : Lit (.const c) (.const c)
  | tuple (l : List Expr) (vs : List Val) : LitAll l vs → Lit (.tuple l) (.tuple vs)
  | list (l : List Expr) (vs : List Val) : LitAll l vs → Lit (.list l) (.list vs)
  | set (l : List Expr) (vs : List Val) : LitAll l vs → (∀ v ∈ vs, Imm v) → Lit (.set l) (.set vs)
  | emptySet (n : Nat) : Lit (.call (.name ['s', 'e', 't'] n) [] []) (.set [])
  | dict (l : List (Expr × Expr)) (vs : List (Val × Val)) : LitPairs l vs → (∀ v ∈ vs, Imm v.1) →
      Lit (.dict l) (.dict vs)
  | signed (n : Bool) (c : Const) : Number c → Lit (.sign n (.const c)) (.signed n c)
  | sum (s : Bool) (a : Const) (i : Nat) : RealNumber a →
      Lit (.addSub s (.const a) (.const (.complex i))) (.sum s (.const a) (.const (.complex i)))
  | signedSum (s n : Bool) (a : Const) (i : Nat) : RealNumber a →
      Lit (.addSub s (.sign n (.const a)) (.const (.complex i)))
        (.sum s (.signed n a) (.const (.complex i)))
/-- Element by element. -/
inductive LitAll : List Expr → List Val → Prop where
  | nil : LitAll [] []
  | cons (e : Expr) (v : Val) (l : List Expr) (vs : List Val) : Lit e v → LitAll l vs →
      LitAll (e :: l) (v :: vs)
/-- Keys and values. -/
inductive LitPairs : List (Expr × Expr) → List (Val × Val) → Prop where
  | nil : LitPairs [] []
  | cons (k e : Expr) (a v : Val) (l : List (Expr × Expr)) (vs : List (Val × Val)) : Lit k a → Lit e v →
      LitPairs l vs → LitPairs ((k, e) :: l) ((a, v) :: vs)
end

/-- A dotted name: an expression made of attributes of a name. -/
inductive Dotted : Expr → Prop where
  | name (id : Str) (n : Nat) : Dotted (.name id n)
  | attr (v : Expr) (a : Str) (n : Nat) : Dotted v → Dotted (.attr v a n)

/-- The text of a dotted name. -/
def dottedText (first : Str) (rest : List Str) : Str := rest.foldl (fun t p => t ++ '.' :: p) first

/-- The tree of this text at the beginning of a string, with the offsets of its parts. -/
def dottedExpr (first : Str) (rest : List Str) : Expr :=
  rest.foldl (fun e p => .attr e p (endCol e + 1 + p.length)) (.name first first.length)

end Verif.ParseCall
