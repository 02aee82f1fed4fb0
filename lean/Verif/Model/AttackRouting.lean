import Verif.Model.FlatDict
import Verif.Model.MoeBlock
import Verif.Model.EnsembleEval

/-!
The predictions and the experts of each token used in the statistics of an attack
(vmoe/projects/adversarial_attacks/restore.py:38-94).  Numbers are real.
-/

namespace Verif.AttackRouting

open Verif Moe FlatDict

variable {G S K E C : Nat}

/-- The first thing a router returns (vmoe/projects/adversarial_attacks/restore.py:75-91). -/
inductive RouterDispatcher where
  | einsum (G S E C : Nat) (w : Fin G → EinsumWeights ℝ S E C)
  | indices (G S K E C : Nat) (w : Fin G → IndicesWeights ℝ S K E C)
  | bfloat16 (d : RouterDispatcher)
  | other

/-- `jnp.sum(combine_weights, axis=3)` (vmoe/projects/adversarial_attacks/restore.py:79-81). -/
noncomputable def einsumWeights (w : Fin G → EinsumWeights ℝ S E C) : Fin G → Fin S → Fin E → ℝ :=
  fun g s e => ∑ i, (w g).combineWeights s e i

/-- The product with the one-hot experts and the sum over the choices
(vmoe/projects/adversarial_attacks/restore.py:83-89). -/
noncomputable def indicesWeights (w : Fin G → IndicesWeights ℝ S K E C) : Fin G → Fin S → Fin E → ℝ :=
  fun g s e => ∑ k, (if ((w g).indices s k).1 = ((e : Nat) : Int) then 1 else 0) * (w g).combineWeights s k

/-- `combine_weights.reshape(-1, combine_weights.shape[-1])` (vmoe/projects/adversarial_attacks/restore.py:93): a row for each
token. -/
noncomputable def rowsOf (x : Fin G → Fin S → Fin E → ℝ) : List (List ℝ) :=
  List.ofFn fun i : Fin (G * S) => List.ofFn (x i.divNat i.modNat)

/-- The dispatcher in a `Bfloat16Dispatcher` (vmoe/projects/adversarial_attacks/restore.py:76-77). -/
def unwrap : RouterDispatcher → RouterDispatcher
  | .bfloat16 d => d
  | d => d

/-- The body of the loop of `get_combine_weights` for one router (vmoe/projects/adversarial_attacks/restore.py:75-93). -/
noncomputable def layerRows (d : RouterDispatcher) : Except PyErr (List (List ℝ)) :=
  match unwrap d with
  | .einsum _ _ _ _ w => .ok (rowsOf (einsumWeights w))
  | .indices _ _ _ _ _ w => .ok (rowsOf (indicesWeights w))
  | _ => .error .typeError

/-- `get_combine_weights` (vmoe/projects/adversarial_attacks/restore.py:67-94).  The values of the collection are what each
router returned, call by call; empty dicts are left out of the flattened dict. -/
noncomputable def getCombineWeights (intermediates : Option (List (Key × FlatDict.Tree (List RouterDispatcher)))) :
    Except PyErr (PyDict Key (List (List ℝ))) :=
  match intermediates with
  | none => .ok []
  | some items => ((flatten items).filterMap fun kv => match kv.2 with | .leaf v => some (kv.1, v) | .empty => none).mapM fun kv =>
      match kv.2 with
      | [] => .error .indexError
      | d :: _ => match layerRows d with
        | .error e => .error e
        | .ok rows => .ok (kv.1, rows)

/-- `m.reshape(batch_size, -1, m.shape[1])` (vmoe/projects/adversarial_attacks/restore.py:50-51); routers without experts or
tokens are not modelled. -/
def perImage (batchSize : Nat) (rows : List (List ℝ)) : Except PyErr (List (List (List ℝ))) :=
  if batchSize = 0 ∨ rows.length % batchSize ≠ 0 then .error .typeError
  else .ok ((List.range batchSize).map fun b => (rows.drop (b * (rows.length / batchSize))).take (rows.length / batchSize))

/-- `pred` and `correct` of an example (vmoe/projects/adversarial_attacks/restore.py:45-46). -/
noncomputable def predCorrect {n : Nat} (logits y : Fin n → ℝ) : Except PyErr (Fin n × ℝ) :=
  match EnsembleEval.argmax logits with
  | none => .error .valueError
  | some pred => .ok (pred, ∑ c, (if c = pred then 1 else 0) * y c)

end Verif.AttackRouting
