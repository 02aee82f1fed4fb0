import Verif.Model.PyErr
import Verif.Model.PyDict
import Verif.Model.FlatDict

/-!
# Model of the overrides of the model configuration (vmoe/train/trainer.py:170-241,637-645)

`ml_collections.ConfigDict` is an external class; its `update` is modelled from its documentation: nested
configurations are updated recursively, values are assigned with a check of their type.  Field references are
resolved before (vmoe/train/trainer.py:641) and are not modelled.
-/

namespace Verif.ConfigOverride

open Verif FlatDict

variable {V : Type}

/-- A configuration (vmoe/train/trainer.py:637-640): a value, where `none` is `None`, or a `ConfigDict`. -/
inductive Cfg (V : Type) where
  | leaf (v : Option V)
  | dict (items : List (Key × Cfg V))

/- `ConfigDict.update` (vmoe/train/trainer.py:644): a new key is added; a nested configuration is updated, and it can
only be updated with a mapping; any other value is assigned.  `conv old new` is the value stored when a value `new` is
assigned to a field with a value `old`, or `none` if the types do not agree (`ConfigDict.__setitem__`); `None` may be
assigned to any field, and any value to a field that is `None`. -/
mutual
/-- `ConfigDict.update` for one key, given the value in the base, if any (vmoe/train/trainer.py:644). -/
def updateValue (conv : V → V → Option V) : Option (Cfg V) → Cfg V → Except PyErr (Cfg V)
  | some (.dict b), .dict o => do return .dict (← updateItems conv b o)
  | some (.dict _), .leaf _ => .error .attributeError
  | some (.leaf (some _)), .dict _ => .error .typeError
  | some (.leaf (some _)), .leaf none => .ok (.leaf none)
  | some (.leaf (some u)), .leaf (some v) =>
    match conv u v with
    | some w => .ok (.leaf (some w))
    | none => .error .typeError
  | some (.leaf none), v => .ok v
  | none, v => .ok v

/-- `ConfigDict.update` (vmoe/train/trainer.py:644): the items of the override, in order. -/
def updateItems (conv : V → V → Option V) : List (Key × Cfg V) → List (Key × Cfg V) →
    Except PyErr (List (Key × Cfg V))
  | b, [] => .ok b
  | b, (k, v) :: rest => do
    let w ← updateValue conv (PyDict.get? b k) v
    updateItems conv (PyDict.set b k w) rest
end

/-- `override_base_config` (vmoe/train/trainer.py:637-645): `if override` is false for `None` and for an empty
configuration. -/
def overrideBaseConfig (conv : V → V → Option V) (base : List (Key × Cfg V)) :
    Option (List (Key × Cfg V)) → Except PyErr (List (Key × Cfg V))
  | some (o :: os) => updateItems conv base (o :: os)
  | some [] => .ok base
  | none => .ok base

/-- The configurations of the models of the evaluation and of the few-shot evaluation
(vmoe/train/trainer.py:182,212,766-784): the overrides of the few-shot evaluation are applied to the configuration of
the evaluation. -/
def evalConfigs (conv : V → V → Option V) (model : List (Key × Cfg V))
    (evaluate fewshot : Option (List (Key × Cfg V))) :
    Except PyErr (List (Key × Cfg V) × List (Key × Cfg V)) := do
  let e ← overrideBaseConfig conv model evaluate
  let f ← overrideBaseConfig conv e fewshot
  return (e, f)

end Verif.ConfigOverride
