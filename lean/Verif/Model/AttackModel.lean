import Verif.Model.ModuleConfig

/-!
The module that an attack builds from the configuration of a trained model: `restore_from_config`
(vmoe/projects/adversarial_attacks/restore.py:126-137).  The training run builds it with
`create_flax_model` (`Config.createFlaxModel`).

Not modelled here: the shapes of the variables, their shardings and the reading of the checkpoint
(restore.py:138-170).
-/

namespace Verif.AttackModel

open Verif PyDict Config

variable {V : Type}

/-- One item of `ConfigDict.update` (vmoe/projects/adversarial_attacks/restore.py:135): a new key is added; for a key that is
present `combine old new` says what happens (replaced, merged if both are dictionaries, or TypeError for another type). -/
def assign (combine : V → V → Except PyErr V) (d : PyDict Str V) (k : Str) (v : V) : Except PyErr (PyDict Str V) :=
  match get? d k with
  | none => .ok (set d k v)
  | some old => (combine old v).map (set d k)

/-- `kwargs.update(model_config)` (vmoe/projects/adversarial_attacks/restore.py:134-135): the items in order. -/
def configUpdate (combine : V → V → Except PyErr V) : PyDict Str V → PyDict Str V → Except PyErr (PyDict Str V)
  | d, [] => .ok d
  | d, (k, v) :: rest =>
    match assign combine d k v with
    | .error err => .error err
    | .ok d' => configUpdate combine d' rest

/-- The module of `restore_from_config` (vmoe/projects/adversarial_attacks/restore.py:131-136).  `config.model` keeps its
`name`, which is thus given to the module, too; a configuration without it is an AttributeError.  `true_` is True. -/
def restoreModule (env : Env V) (true_ : V) (combine : V → V → Except PyErr V) (config : PyDict Str V) :
    Except PyErr (Cls V × PyDict Str V) :=
  match get? config "name".toList with
  | none => .error .attributeError
  | some name =>
    match env.parse name with
    | .error err => .error err
    | .ok call =>
      match configUpdate combine call.kwargs config with
      | .error err => .error err
      | .ok kw =>
        match kwMerge kw [("deterministic".toList, true_)] with
        | .error err => .error err
        | .ok kw => (construct env.none_ call.cls call.args kw).map (fun a => (call.cls, a))

end Verif.AttackModel
