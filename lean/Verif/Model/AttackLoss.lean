import Mathlib.Analysis.Calculus.FDeriv.Basic
import Mathlib.Analysis.Normed.Group.Constructions
import Verif.Model.Attack
import Verif.Model.ConfigOverride
import Verif.Model.LossFn

/-!
The loss that is attacked and the attack with its gradient (vmoe/projects/adversarial_attacks/restore.py:97-140,170,
attacks.py:132-174).  Numbers are real.  `jax.grad` is the derivative of the loss; where the loss has no derivative, the value of
`jax.grad` is not modelled.
-/

namespace Verif.AttackLoss

open Verif EnsembleEval

/-- Python strings (vmoe/projects/adversarial_attacks/restore.py:97). -/
abbrev Key := List Char

/-- The metrics of the model, arrays of numbers (vmoe/projects/adversarial_attacks/restore.py:117). -/
abbrev Metrics := PyDict Key (List ℝ)

variable {C B : Nat} {ι R V : Type}

/-- `get_loss_fn` (vmoe/projects/adversarial_attacks/restore.py:97-109).  As in `Model/LossFn.lean`, the options of the losses of
optax are not modelled: every keyword argument is a `TypeError` when the loss is called. -/
noncomputable def getLossFn (name : Key) (kwargs : PyDict Key Nat) :
    Except PyErr (List (Row C) → List (Row C) → Except PyErr (List ℝ)) :=
  if name = "softmax_xent".toList then .ok fun x y => LossFn.partialPlain kwargs (LossFn.softmaxCrossEntropy x y)
  else if name = "sigmoid_xent".toList then .ok fun x y => LossFn.partialPlain kwargs (LossFn.defaultSigmoidXent x y)
  else .error .valueError

/-- `jnp.mean` of an array that is not empty (vmoe/projects/adversarial_attacks/restore.py:120, attacks.py:161). -/
noncomputable def mean (l : List ℝ) : ℝ := l.sum / l.length

/-- `fn` of `get_loss_including_auxiliary_fn` (vmoe/projects/adversarial_attacks/restore.py:117-121). -/
noncomputable def withAuxiliary (attackAux : Bool) (lossFn : List (Row C) → List (Row C) → Except PyErr (List ℝ))
    (logits labels : List (Row C)) (metrics : Metrics) : Except PyErr (List ℝ) :=
  match lossFn logits labels with
  | .error e => .error e
  | .ok loss =>
    if attackAux then
      match PyDict.get? metrics "auxiliary_loss".toList with
      | none => .error .keyError
      | some aux => .ok (loss.map fun l => l + mean aux)
    else .ok loss

/-- `config.loss` (vmoe/projects/adversarial_attacks/restore.py:170): the name, the option `attack_auxiliary_loss` and further
options. -/
structure LossConfig where
  name : Option Key
  attackAuxiliaryLoss : Option Bool := none
  options : PyDict Key Nat := []

/-- `get_loss_including_auxiliary_fn(**config.get('loss'))` (vmoe/projects/adversarial_attacks/restore.py:112-123,170): without
`loss`, or without the name, a `TypeError`. -/
noncomputable def lossFromConfig (config : Option LossConfig) :
    Except PyErr (List (Row C) → List (Row C) → Metrics → Except PyErr (List ℝ)) :=
  match config with
  | none => .error .typeError
  | some c =>
    match c.name with
    | none => .error .typeError
    | some name =>
      match getLossFn name c.options with
      | .error e => .error e
      | .ok f => .ok (withAuxiliary (c.attackAuxiliaryLoss.getD false) f)

/-- The model (vmoe/projects/adversarial_attacks/attacks.py:160, lib.py:153-155): `B` images, whose entries are indexed by `ι`, and
the random keys give rows of logits and metrics. -/
abbrev Apply (C B : Nat) (ι R : Type) := (Fin B × ι → ℝ) → Option R → List (Row C) × Metrics

/-- The loss of `compute_loss_grads` (vmoe/projects/adversarial_attacks/attacks.py:158-162); 0 where it raises, which only depends
on the shapes and is found in `attack`. -/
noncomputable def batchLoss (apply : Apply C B ι R) (lossFn : List (Row C) → List (Row C) → Metrics → Except PyErr (List ℝ))
    (labels : List (Row C)) (rng : Option R) (x : Fin B × ι → ℝ) : ℝ :=
  match lossFn (apply x rng).1 labels (apply x rng).2 with
  | .ok loss => mean loss
  | .error _ => 0

/-- `compute_loss_grads` (vmoe/projects/adversarial_attacks/attacks.py:158-162). -/
noncomputable def lossGrad [Fintype ι] [DecidableEq ι] (apply : Apply C B ι R)
    (lossFn : List (Row C) → List (Row C) → Metrics → Except PyErr (List ℝ)) (labels : List (Row C)) (x : Fin B × ι → ℝ)
    (rng : Option R) : Fin B × ι → ℝ :=
  fun p => fderiv ℝ (batchLoss apply lossFn labels rng) x (Pi.single p 1)

/-- `stateless_attack_pgd` (vmoe/projects/adversarial_attacks/attacks.py:132-174).  Errors of the loss are raised when the first
update is traced. -/
noncomputable def attack [Fintype ι] [DecidableEq ι] (split : R → Nat → List R) (maxEpsilon : ℝ) (numUpdates : Nat)
    (apply : Apply C B ι R) (lossFn : List (Row C) → List (Row C) → Metrics → Except PyErr (List ℝ)) (labels : List (Row C))
    (images : Fin B × ι → ℝ) (rng : Option R) : Except PyErr ((Fin B × ι → ℝ) × Option R) :=
  if numUpdates = 0 then .error .zeroDivisionError
  else
    let first := apply images (rng.bind fun r => (split r (numUpdates + 1))[0]?)
    match lossFn first.1 labels first.2 with
    | .error e => .error e
    | .ok _ => Attack.pgd split maxEpsilon numUpdates (lossGrad apply lossFn labels) images rng

/-- The arguments of the model (vmoe/projects/adversarial_attacks/restore.py:131-136): those in the call string, updated with the
configuration, and `deterministic=True`; the same argument twice is a `TypeError`. -/
def modelKwargs (conv : V → V → Option V) (true_ : V) (parsed config : List (FlatDict.Key × ConfigOverride.Cfg V)) :
    Except PyErr (List (FlatDict.Key × ConfigOverride.Cfg V)) := do
  let kwargs ← ConfigOverride.updateItems conv parsed config
  if "deterministic".toList ∈ PyDict.keys kwargs then .error .typeError
  else .ok (kwargs ++ [("deterministic".toList, .leaf (some true_))])

end Verif.AttackLoss
