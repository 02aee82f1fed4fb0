import Verif.Model.ContrastiveStep
import Verif.Model.Encoder
import Verif.Model.SoftConfigs

/-!
The metrics of the models and how the two train steps make the total loss out of them (vmoe/nn/vit_moe.py:252-264,
vmoe/projects/contrastive/models.py:144-186, vmoe/train/trainer.py:661-666, vmoe/projects/contrastive/trainer.py:239-245).
Numbers are reals.
-/

namespace Verif.TowerMetrics

open Verif

/-- Names of metrics (vmoe/projects/contrastive/models.py:151). -/
abbrev Key := List Char

/-- Metrics: an array with its entries, or a dict (vmoe/projects/contrastive/models.py:144,151,159,178). -/
inductive Metric where
  | array (entries : List ℝ)
  | dict (items : List (Key × Metric))

/-- A dict of metrics (vmoe/projects/contrastive/models.py:144). -/
abbrev Metrics := PyDict Key Metric

/-- `jnp.mean` of all entries of an array, zero for no entries (vmoe/projects/contrastive/trainer.py:242-243). -/
noncomputable def mean (x : List ℝ) : ℝ := x.sum / x.length

mutual
/-- `jax.tree_util.tree_map(jnp.mean, metrics)` (vmoe/train/trainer.py:664, vmoe/projects/contrastive/trainer.py:243): dicts in
dicts are entered. -/
noncomputable def treeMean : Metric → Metric
  | .array x => .array [mean x]
  | .dict items => .dict (itemsMean items)

/-- The same for the entries of a dict (vmoe/train/trainer.py:664, vmoe/projects/contrastive/trainer.py:243). -/
noncomputable def itemsMean : List (Key × Metric) → List (Key × Metric)
  | [] => []
  | (k, m) :: rest => (k, treeMean m) :: itemsMean rest
end

/-- The metrics of a MoE block, with the auxiliary loss of every group of tokens (vmoe/nn/vit_moe.py:108,124,255,
vmoe/nn/routing.py:81-90). -/
structure Block (G : Nat) where
  aux : Fin G → ℝ
  others : Metrics

/-- The metrics of a block as a dict (vmoe/nn/routing.py:84-90). -/
noncomputable def Block.metric {G : Nat} (b : Block G) : Metric :=
  .dict (PyDict.set b.others Encoder.auxName (.array (List.ofFn b.aux)))

/-- The metrics of an encoder with the metrics of its MoE blocks (vmoe/nn/vit_moe.py:252-264): those of the blocks by name and the
sum of their auxiliary losses. -/
noncomputable def encoderMetrics {G : Nat} (blocks : PyDict Key (Block G)) : Metrics :=
  (Encoder.finalMetrics Block.aux blocks).map fun kv => (kv.1, match kv.2 with
    | .block b => b.metric
    | .total a => .array (List.ofFn a))

/-- The metrics of `TwoTower` (vmoe/projects/contrastive/models.py:144-186), with the metrics of the encoder of images and of the
encoder of texts, if they are given, and the parameter `s`. -/
noncomputable def twoTowerMetrics (img txt : Option Metrics) (s : ℝ) : Metrics :=
  let metrics : Metrics := []
  let metrics := match img with | none => metrics | some m => PyDict.set metrics "img".toList (.dict m)
  let metrics := match txt with | none => metrics | some m => PyDict.set metrics "txt".toList (.dict m)
  match img, txt with
  | some _, some _ => PyDict.set metrics "scale".toList (.array [Real.exp s])
  | _, _ => metrics

/-- `metrics.get('auxiliary_loss', 0.0)` after the means (vmoe/train/trainer.py:665, vmoe/projects/contrastive/trainer.py:244), as
a number; adding a dict to a number is a TypeError. -/
noncomputable def auxiliaryLoss (metrics : Metrics) : Except PyErr ℝ :=
  match PyDict.get? metrics "auxiliary_loss".toList with
  | none => .ok 0
  | some (.array x) => .ok (mean x)
  | some (.dict _) => .error .typeError

/-- The metrics and the total loss of a step (vmoe/train/trainer.py:662-666 and vmoe/projects/contrastive/trainer.py:241-245, the
same lines), for the metrics of the model and the losses of the examples. -/
noncomputable def stepMetrics (metrics : Metrics) (losses : List ℝ) : Except PyErr (Metrics × ℝ) :=
  let metrics := PyDict.set metrics "main_loss".toList (.array losses)
  let metrics : Metrics := itemsMean metrics
  match auxiliaryLoss metrics with
  | .error e => .error e
  | .ok aux =>
    let total := mean losses + aux
    .ok (PyDict.set metrics "total_loss".toList (.array [total]), total)

/-- The auxiliary losses of the routers of the Soft MoE configurations, for every group (vmoe/nn/routing.py:209 and
vmoe/projects/soft_moe/router.py:120). -/
def routerAux : SoftConfigs.Router → ℝ
  | .items _ => 0
  | .soft _ _ => 0

end Verif.TowerMetrics
