import Mathlib.Data.Real.Basic

/-! The value that a list of rules gives to a name. -/

namespace Verif.RulesSpec

/-- `v` is the value of the first rule whose pattern matches the name, or the default value if none does. -/
def FirstRule {P V : Type} (matchesName : P → List Char → Bool) (rules : List (P × V)) (default : V) (name : List Char)
    (v : V) : Prop :=
  (∃ pre pattern post, rules = pre ++ (pattern, v) :: post ∧ matchesName pattern name = true ∧
    ∀ q ∈ pre, matchesName q.1 name = false) ∨
  ((∀ r ∈ rules, matchesName r.1 name = false) ∧ v = default)

end Verif.RulesSpec
