import Verif.Model.ParseCall

/-!
Spec: calls written as text, as in the processing strings of the configurations.
-/

namespace Verif.ProcessText.Spec

open Verif.ParseCall

/-- Spec: values of arguments: integers, negative integers, strings in quotes, and constants with a name. -/
inductive Literal where
  | nat (n : Nat)
  | neg (n : Nat)
  | str (quote : Char) (s : Str)
  | true
  | false
  | none

/-- Spec: the text of a value. -/
def Literal.text : Literal → Str
  | .nat n => Nat.toDigits 10 n
  | .neg n => '-' :: Nat.toDigits 10 n
  | .str q s => q :: (s ++ [q])
  | .true => "True".toList
  | .false => "False".toList
  | .none => "None".toList

/-- Spec: the value in the syntax tree. -/
def Literal.expr : Literal → Expr
  | .nat n => .const (.int n)
  | .neg n => .sign Bool.true (.const (.int n))
  | .str _ s => .const (.str s)
  | .true => .const (.bool Bool.true)
  | .false => .const (.bool Bool.false)
  | .none => .const .none

/-- Spec: an argument: the number of spaces before it, its keyword if it has one, and its value. -/
structure Argument where
  spaces : Nat
  keyword : Option Str
  value : Literal

/-- Spec: the text of an argument. -/
def Argument.text (a : Argument) : Str :=
  List.replicate a.spaces ' ' ++ (match a.keyword with
    | some k => k ++ ['=']
    | none => []) ++ a.value.text

/-- Spec: the text of the arguments, with commas between them, and the closing parenthesis. -/
def argumentsText : List Argument → Str
  | [] => [')']
  | [a] => a.text ++ [')']
  | a :: l => a.text ++ ',' :: argumentsText l

/-- Spec: a name of a function, with or without arguments in parentheses. -/
structure CallText where
  name : Str
  arguments : Option (List Argument)

/-- Spec: the text of a call. -/
def CallText.text (c : CallText) : Str :=
  c.name ++ match c.arguments with
    | some l => '(' :: argumentsText l
    | none => []

/-- Spec: the positional arguments. -/
def positional (l : List Argument) : List Expr :=
  l.filterMap fun a => if a.keyword.isNone then some a.value.expr else none

/-- Spec: the keyword arguments. -/
def keywords (l : List Argument) : List (Option Str × Expr) :=
  l.filterMap fun a => a.keyword.map fun k => (some k, a.value.expr)

/-- Spec: the syntax tree of a call. -/
def CallText.expr (c : CallText) : Expr :=
  match c.arguments with
  | some l => .call (.name c.name c.name.length) (positional l) (keywords l)
  | none => .name c.name c.name.length

/-- Spec: letters, digits and underscores, the first one not a digit. -/
def IsName (s : Str) : Prop :=
  ∃ c t, s = c :: t ∧ (c.isAlpha ∨ c = '_') ∧ ∀ x ∈ t, x.isAlphanum ∨ x = '_'

/-- Spec: strings are in single or double quotes, and have no escapes, line breaks or quotes of the same kind. -/
def Literal.Ok : Literal → Prop
  | .str q s => (q = '"' ∨ q = '\'') ∧ q ∉ s ∧ '\\' ∉ s ∧ '\n' ∉ s
  | _ => True

/-- Spec: a call as it may be written: names are names, positional arguments come before keywords, and no keyword is repeated. -/
structure CallText.Ok (c : CallText) : Prop where
  name : IsName c.name
  values : ∀ l, c.arguments = some l → ∀ a ∈ l, a.value.Ok ∧ ∀ k, a.keyword = some k → IsName k
  order : ∀ l, c.arguments = some l → l.Pairwise fun a b => a.keyword.isSome → b.keyword.isSome
  nodup : ∀ l, c.arguments = some l → (l.filterMap Argument.keyword).Nodup

end Verif.ProcessText.Spec
