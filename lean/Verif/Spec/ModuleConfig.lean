import Verif.Model.ModuleConfig

/-!
Specification of building an object of a class from options: `opt k` is the value given for option
`k`.  Independent of dictionaries and of how the options were collected.
-/

namespace Verif.Config

open Verif PyDict

variable {V : Type}

/-- Names of the fields of a class. -/
def Cls.names (c : Cls V) : List Str := c.fields.map Prod.fst

/-- The positional argument for the field `k`, if there is one. -/
def positional (c : Cls V) (args : List V) (k : Str) : Option V :=
  (c.names.idxOf? k).bind (fun i => args[i]?)

/-- Final value of a field: positional argument, else option, else default. -/
def finalValue (c : Cls V) (args : List V) (opt : Str → Option V) (f : Str × Option V) : Option V :=
  (positional c args f.1).or ((opt f.1).or f.2)

/-- The class accepts the arguments: not too many positional ones, every option is a field without
positional argument (or `name`), every field has a value. -/
def Accepted (c : Cls V) (args : List V) (opt : Str → Option V) : Prop :=
  args.length ≤ c.fields.length ∧
  (∀ k, (opt k).isSome → k ∉ c.names.take args.length ∧ (k ∈ c.names ∨ k = "name".toList)) ∧
  ∀ f ∈ c.fields, (finalValue c args opt f).isSome

/-- `res` is what building an object of class `c` must give: the final values of all fields and the
name if the arguments are accepted, otherwise TypeError. -/
def Builds (none_ : V) (c : Cls V) (args : List V) (opt : Str → Option V)
    (res : Except PyErr (PyDict Str V)) : Prop :=
  (Accepted c args opt → ∃ attrs, res = .ok attrs ∧
    (∀ f ∈ c.fields, get? attrs f.1 = finalValue c args opt f) ∧
    get? attrs "name".toList = some ((opt "name".toList).getD none_)) ∧
  (¬ Accepted c args opt → res = .error .typeError)

/-- The same when the class is returned, too. -/
def BuildsCls (none_ : V) (c : Cls V) (args : List V) (opt : Str → Option V)
    (res : Except PyErr (Cls V × PyDict Str V)) : Prop :=
  Builds none_ c args opt (res.map Prod.snd) ∧ ∀ r, res = .ok r → r.1 = c

/-- Class definitions: different fields, and `name` is not one of them. -/
def Cls.Wf (c : Cls V) : Prop := c.names.Nodup ∧ "name".toList ∉ c.names

end Verif.Config
