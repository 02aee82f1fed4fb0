import Verif.Model.Mapping

/-! Which rule is used for which name.  Only the data types of the model are used. -/

namespace Verif.MappingSpec

open Verif FlatDict Mapping

/-- `r` is the first rule whose pattern is found in the name. -/
def FirstMatch (rules : List Rule) (name : Key) (r : Rule) : Prop :=
  ∃ before after, rules = before ++ r :: after ∧ r.search name = true ∧ ∀ r' ∈ before, r'.search name = false

/-- What is done with a name: the first rule that matches says it; if no rule matches, the array is copied to the same
name. -/
def HandledBy (rules : List Rule) (name : Key) (a : Action) : Prop :=
  (∃ r, FirstMatch rules name r ∧ a = r.action) ∨
  ((∀ r ∈ rules, r.search name = false) ∧ a = { rename := fun k => k, kind := .single .copy })

/-- The source `name` is used, by the action `a`, for the target `dst`. -/
def GoesTo (rules : List Rule) (name dst : Key) (a : Action) : Prop :=
  HandledBy rules name a ∧ a.kind ≠ .drop ∧ a.rename name = dst

end Verif.MappingSpec
