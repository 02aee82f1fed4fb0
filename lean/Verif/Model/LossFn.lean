import Verif.Model.EnsembleEval
import Verif.Model.PyDict

/-!
`get_loss_fn` (vmoe/train/trainer.py:441-477): the training loss, the evaluation loss and the prediction of a configured
name.  The keyword arguments are a dict of integers.  The options of the losses of optax themselves (such as `axis`) are
not modelled: the only keyword argument that some loss accepts is `ensemble_size`.
-/

namespace Verif.LossFn

open Verif EnsembleEval

/-- Python strings (vmoe/train/trainer.py:441). -/
abbrev Key := List Char

variable {C : Nat}

/-- The three functions returned (vmoe/train/trainer.py:475). -/
structure LossFns (C : Nat) where
  train : List (Row C) → List (Row C) → Except PyErr (List ℝ)
  eval : List (Row C) → List (Row C) → Except PyErr (List ℝ)
  pred : List (Row C) → Except PyErr (List (Fin C))

/-- `default_sigmoid_xent` (vmoe/train/trainer.py:443-446). -/
noncomputable def defaultSigmoidXent (logits labels : List (Row C)) : Except PyErr (List ℝ) :=
  zipRows (fun x y => ∑ c, sigmoidXent x y c) logits labels

/-- `optax.softmax_cross_entropy` of a batch (vmoe/train/trainer.py:451-452). -/
noncomputable def softmaxCrossEntropy (logits labels : List (Row C)) : Except PyErr (List ℝ) :=
  zipRows softmaxXent logits labels

/-- `default_label_pred_fn` (vmoe/train/trainer.py:448). -/
noncomputable def defaultLabelPred (logits : List (Row C)) : Except PyErr (List (Fin C)) :=
  logits.mapM fun row => match argmax row with
    | some c => .ok c
    | none => .error .valueError

/-- A call of a function without further parameters through `functools.partial(fn, **kwargs)`: a `TypeError` when there
are keyword arguments (vmoe/train/trainer.py:470-471). -/
def partialPlain {α : Type} (kwargs : PyDict Key Nat) (f : Except PyErr α) : Except PyErr α :=
  if kwargs = [] then f else .error .typeError

/-- A call of a function with the further parameter `ensemble_size` through `functools.partial(fn, **kwargs)`: a
`TypeError` when it is missing or another argument is given (vmoe/train/trainer.py:470-474). -/
def partialEnsemble {α : Type} (kwargs : PyDict Key Nat) (f : Nat → Except PyErr α) : Except PyErr α :=
  match kwargs with
  | [(k, n)] => if k = "ensemble_size".toList then f n else .error .typeError
  | _ => .error .typeError

/-- `get_loss_fn` (vmoe/train/trainer.py:441-477). -/
noncomputable def getLossFn (name : Key) (kwargs : PyDict Key Nat) : Except PyErr (LossFns C) :=
  if name = "softmax_xent".toList then
    .ok ⟨fun x y => partialPlain kwargs (softmaxCrossEntropy x y), fun x y => partialPlain kwargs (softmaxCrossEntropy x y),
      defaultLabelPred⟩
  else if name = "sigmoid_xent".toList then
    .ok ⟨fun x y => partialPlain kwargs (defaultSigmoidXent x y), fun x y => partialPlain kwargs (defaultSigmoidXent x y),
      defaultLabelPred⟩
  else if name = "ensemble_softmax_xent".toList then
    .ok ⟨fun x y => partialEnsemble kwargs (softmaxTrain x y), fun x y => partialEnsemble kwargs (softmaxEval x y),
      fun x => partialEnsemble kwargs (softmaxPred x)⟩
  else if name = "ensemble_sigmoid_xent".toList then
    .ok ⟨fun x y => partialEnsemble kwargs (sigmoidTrain x y), fun x y => partialEnsemble kwargs (sigmoidEval x y),
      fun x => partialEnsemble kwargs (sigmoidPred x)⟩
  else .error .valueError

end Verif.LossFn
