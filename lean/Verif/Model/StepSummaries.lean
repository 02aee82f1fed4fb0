import Verif.Model.TrainStep
import Verif.Model.Summarizer

/-!
`train_step` with summaries of arrays (vmoe/train/trainer.py:648-684; the same in vmoe/projects/contrastive/trainer.py:226-263): the
summarizer gets the flattened train state after the update, and the flattened gradients under the name `params_grads`.
-/

namespace Verif.StepSummaries

open Verif TrainStep Summarizer

/-- The arrays in the parts of a train state as nested dicts, as `to_state_dict` gives them (vmoe/train/trainer.py:679-681); a
random key is an array. -/
structure Encoding (P O G : Type) where
  params : P → List (FlatDict.Key × FlatDict.Tree (NdArray ℝ))
  opt : O → List (FlatDict.Key × FlatDict.Tree (NdArray ℝ))
  rng : TrainStep.Key → NdArray ℝ
  grads : G → List (FlatDict.Key × FlatDict.Tree (NdArray ℝ))

/-- A `TreeSummarizer` (vmoe/train/tree_summarizer.py:67-68) with the search of its patterns. -/
structure Summaries (R : Type) where
  search : R → List Char → Bool
  maxValues : Nat
  rules : List (R × List Transform)

variable {P O I L Y G R : Type}

/-- `flax.serialization.to_state_dict(state)` (vmoe/train/trainer.py:680): the fields of the train state that are nodes. -/
noncomputable def stateDict (enc : Encoding P O G) (state : State P O) : List (FlatDict.Key × FlatDict.Tree (NdArray ℝ)) :=
  [("step".toList, .leaf ⟨[], fun _ => (state.step : ℝ)⟩),
   ("params".toList, .node (enc.params state.params)),
   ("opt_state".toList, .node (enc.opt state.opt)),
   ("rngs".toList, .node (state.rngs.map fun e => (e.1, .leaf (enc.rng e.2))))]

/-- `flatten_dict(items, sep='/')` without empty nodes, as items of a dict again (vmoe/train/trainer.py:679-681). -/
def flatLeaves {V : Type} (items : List (FlatDict.Key × FlatDict.Tree V)) : PyDict FlatDict.Key (FlatDict.Tree V) :=
  (FlatDict.flatten items).filterMap fun kv =>
    match kv.2 with
    | .leaf v => some (kv.1, .leaf v)
    | .empty => none

/-- `state_flat` (vmoe/train/trainer.py:679-681). -/
noncomputable def stateFlat (enc : Encoding P O G) (state : State P O) (grads : G) :
    PyDict FlatDict.Key (FlatDict.Tree (NdArray ℝ)) :=
  PyDict.set (flatLeaves (stateDict enc state)) "params_grads".toList (.node (flatLeaves (enc.grads grads)))

/-- `metrics.update(pairs)` (vmoe/train/trainer.py:682): later pairs win. -/
def updateMetrics (metrics : List Char → ℝ) : List (List Char × ℝ) → List Char → ℝ
  | [] => metrics
  | (name, v) :: l => updateMetrics (fun k => if k = name then v else metrics k) l

variable [AddCommGroup G] [Module ℝ G]

/-- `train_step` (vmoe/train/trainer.py:648-684) with `apply_gradients_and_compute_global_norms`
(vmoe/train/train_state.py:29-44) and summaries. -/
noncomputable def trainStep (env : Env P O I L Y G) (enc : Encoding P O G) (summarizer : Option (Summaries R)) (devices : Nat)
    (microsteps : Option Int) : StepFn P O I L :=
  fun state images labels log => do
    let (grads, (nextRngs, log), metrics) ←
      Trainer.accumulate devices (compute env) microsteps state.params images labels (state.rngs, log)
    let (updates, opt) := env.update grads state.opt state.params
    let params := env.applyUpdates state.params updates
    let state : State P O := ⟨state.step + 1, params, opt, nextRngs⟩
    let metrics : List Char → ℝ := fun k =>
      if k = normName "params" then env.normParams params
      else if k = normName "updates" then env.norm updates
      else if k = normName "grads" then env.norm grads
      else metrics k
    match summarizer with
    | none => return (state, metrics, log)
    | some s =>
      match call s.search s.maxValues s.rules (stateFlat enc state grads) with
      | (_, some e) => throw e
      | (pairs, none) => return (state, updateMetrics metrics pairs, log)

end Verif.StepSummaries
