import Verif.Model.PyDict
import Verif.Model.Trainer
import Mathlib.Algebra.Module.Pi

/-!
Model of the train step with its random keys: `make_rngs`, `tree_rngs_split` (vmoe/utils.py:43-47,168-173), the
initialization of the train state (vmoe/train/trainer.py:354-366), `train_step` (vmoe/train/trainer.py:648-684), and the
wrappers for adversarial training and mixup (vmoe/train/trainer.py:841-886,889-968).

A random key is the way it was derived: the seed, and the positions in the successive calls of `jax.random.split`.  In
other words, generators are ideal: different derivations give different keys.  Position `i` of `split(key, n)` does not
depend on `n`.  The log collects the dictionaries of keys that are used to draw random numbers.
-/

namespace Verif.TrainStep

open Verif

/-- The path of a key from `jax.random.PRNGKey(seed)` (vmoe/utils.py:46). -/
abbrev Key := List Nat

/-- A dictionary of keys by name (vmoe/utils.py:43). -/
abbrev Rngs := PyDict (List Char) Key

/-- The dictionaries of keys used so far (by the model, vmoe/train/trainer.py:661, by mixup, vmoe/train/trainer.py:954,
and by the attack, vmoe/projects/adversarial_attacks/attacks.py:155-156); ghost state, no variable of the code. -/
abbrev Log := List Rngs

/-- `jax.random.split(rng, n)[i]` (vmoe/utils.py:46,171-172). -/
def child (k : Key) (i : Nat) : Key := k ++ [i]

/-- `dict(zip(names, keys))` where the keys are numbered from `i` (vmoe/utils.py:46-47). -/
def numbered (seed : Nat) : Nat → List (List Char) → List (List Char × Key)
  | _, [] => []
  | i, n :: ns => (n, child [seed] i) :: numbered seed (i + 1) ns

/-- `make_rngs` (vmoe/utils.py:43-47). -/
def makeRngs (names : List (List Char)) (seed : Nat) : Rngs := PyDict.ofItems (numbered seed 0 names)

/-- Tree `i` of the result of `tree_rngs_split` (vmoe/utils.py:170-173; also
vmoe/projects/adversarial_attacks/attacks.py:155-156,165-166,172-173).  The order of the entries is kept, in JAX they are
sorted. -/
def slice (rngs : Rngs) (i : Nat) : Rngs := rngs.map fun e => (e.1, child e.2 i)

/-- `rngs.pop(name)` (vmoe/train/trainer.py:364,939). -/
def remove (rngs : Rngs) (name : List Char) : Rngs := rngs.filter fun e => decide (e.1 ≠ name)

/-- `TrainState`; `step`, parameters, state of the optimizer and keys (vmoe/train/train_state.py:25-27). -/
structure State (P O : Type) where
  step : Nat
  params : P
  opt : O
  rngs : Rngs

/-- What the train step uses: the model (`apply_fn` returns logits and metrics, a metric that is not there is zero), the
loss of every example, the derivative `jax.grad`, the optimizer, `optax.apply_updates` and `optax.global_norm`
(vmoe/train/trainer.py:658-675, vmoe/train/train_state.py:29-43). -/
structure Env (P O I L Y G : Type) where
  apply : P → List I → Rngs → Y × (List Char → List ℝ)
  loss : Y → List L → List ℝ
  grad : (P → ℝ) → P → G
  update : G → O → P → G × O
  applyUpdates : P → G → P
  norm : G → ℝ
  normParams : P → ℝ

variable {P O I L Y G : Type}

/-- `jnp.mean` of all entries; zero for an array without entries (vmoe/train/trainer.py:663-664). -/
noncomputable def mean (x : List ℝ) : ℝ := x.sum / x.length

/-- `metrics` in `compute_grads_and_metrics` (vmoe/train/trainer.py:661-666).  `main_loss` and `total_loss` replace
metrics of the model with these names. -/
noncomputable def metricsOf (env : Env P O I L Y G) (params : P) (images : List I) (labels : List L) (rngs : Rngs) :
    List Char → ℝ :=
  let out := env.apply params images rngs
  let m : List Char → ℝ := fun k => if k = "main_loss".toList then mean (env.loss out.1 labels) else mean (out.2 k)
  let total := m "main_loss".toList + m "auxiliary_loss".toList
  fun k => if k = "total_loss".toList then total else m k

/-- `compute_grads_and_metrics` (vmoe/train/trainer.py:658-667).  The keys used are added to the log. -/
noncomputable def compute (env : Env P O I L Y G) : Trainer.GradFn P I L (Rngs × Log) G (List Char → ℝ) :=
  fun params images labels st =>
    let rngs := slice st.1 0
    let nextRngs := slice st.1 1
    .ok (env.grad (fun p => metricsOf env p images labels rngs "total_loss".toList) params,
      (nextRngs, st.2 ++ [rngs]), metricsOf env params images labels rngs)

/-- The name of a norm in the metrics (vmoe/train/trainer.py:675, vmoe/train/train_state.py:39-43). -/
def normName (which : String) : List Char := "global_norm/".toList ++ which.toList

/-- A train step: state, images, labels and log to state, metrics and log (vmoe/train/train_state.py:50-51). -/
abbrev StepFn (P O I L : Type) :=
  State P O → List I → List L → Log → Except PyErr (State P O × (List Char → ℝ) × Log)

variable [AddCommGroup G] [Module ℝ G]

/-- `train_step` (vmoe/train/trainer.py:648-684) with `apply_gradients_and_compute_global_norms`
(vmoe/train/train_state.py:29-44), without summaries. -/
noncomputable def trainStep (env : Env P O I L Y G) (devices : Nat) (microsteps : Option Int) : StepFn P O I L :=
  fun state images labels log => do
    let (grads, (nextRngs, log), metrics) ←
      Trainer.accumulate devices (compute env) microsteps state.params images labels (state.rngs, log)
    let (updates, opt) := env.update grads state.opt state.params
    let params := env.applyUpdates state.params updates
    return (⟨state.step + 1, params, opt, nextRngs⟩,
      fun k =>
        if k = normName "params" then env.normParams params
        else if k = normName "updates" then env.norm updates
        else if k = normName "grads" then env.norm grads
        else metrics k,
      log)

/-- The updates of the adversarial attack (vmoe/projects/adversarial_attacks/attacks.py:164-171): update `i` uses slice
`i` of the keys. -/
def attackLoop (update : List I → Rngs → List I) (rngs : Rngs) :
    Nat → List I → Log → List I × Log
  | 0, images, log => (images, log)
  | n + 1, images, log =>
    let r := attackLoop update rngs n images log
    (update r.1 (slice rngs n), r.2 ++ [slice rngs n])

/-- `wrap_train_step_with_adversarial_attack` (vmoe/train/trainer.py:841-886) with `stateless_attack_pgd`
(vmoe/projects/adversarial_attacks/attacks.py:132-174).  `update` changes the images with the gradient for the parameters
and keys given.  `enabled` is the condition on the size of the change (vmoe/train/trainer.py:862). -/
def wrapAttack (enabled : Bool) (numUpdates : Int) (update : P → List L → List I → Rngs → List I)
    (step : StepFn P O I L) : StepFn P O I L :=
  if numUpdates ≤ 0 ∨ ¬ enabled then step
  else fun state images labels log =>
    let n := numUpdates.toNat
    let r := attackLoop (update state.params labels) state.rngs n images log
    step { state with rngs := slice state.rngs n } r.1 labels r.2

/-- The name of the key for mixup (vmoe/train/trainer.py:933,939). -/
def mixupName : List Char := "mixup".toList

/-- `wrap_train_step_with_mixup` (vmoe/train/trainer.py:889-968); `mix key` mixes images and labels with weights drawn with
the key. -/
def wrapMixup (enabled : Bool) (mix : Key → List I → List L → Except PyErr (List I × List L))
    (step : StepFn P O I L) : StepFn P O I L :=
  if ¬ enabled then step
  else fun state images labels log =>
    match PyDict.get? state.rngs mixupName with
    | none => .error .valueError
    | some key => do
      let (images, labels) ← mix (child key 0) images labels
      let (state, metrics, log) ← step { state with rngs := remove state.rngs mixupName } images labels
        (log ++ [[(mixupName, child key 0)]])
      return ({ state with rngs := PyDict.set state.rngs mixupName (child key 1) }, metrics, log)

/-- Configuration of the train step (vmoe/train/trainer.py:734-749). -/
structure Config (P I L : Type) where
  devices : Nat
  microsteps : Option Int
  attack : Bool
  numUpdates : Int
  attackUpdate : P → List L → List I → Rngs → List I
  mixup : Bool
  mix : Key → List I → List L → Except PyErr (List I × List L)

/-- `train_step_fn` (vmoe/train/trainer.py:734-749). -/
noncomputable def stepFn (env : Env P O I L Y G) (cfg : Config P I L) : StepFn P O I L :=
  wrapMixup cfg.mixup cfg.mix
    (wrapAttack cfg.attack cfg.numUpdates cfg.attackUpdate (trainStep env cfg.devices cfg.microsteps))

/-- The steps of the training loop (vmoe/train/trainer.py:820-824) on the given batches. -/
noncomputable def run (env : Env P O I L Y G) (cfg : Config P I L) :
    State P O → List (List I × List L) → Log → Except PyErr (State P O × Log)
  | state, [], log => .ok (state, log)
  | state, b :: bs, log => do
    let (state, _, log) ← stepFn env cfg state b.1 b.2 log
    run env cfg state bs log

/-- The name of the key of the parameters (vmoe/train/trainer.py:355,364). -/
def paramsName : List Char := "params".toList

/-- `initialize` (vmoe/train/trainer.py:355-366): the model is initialized with all the keys, and the state keeps them
except `params`. -/
def initState (init : Rngs → P × O) (extra : List (List Char)) (seed : Nat) : State P O × Log :=
  let rngs := makeRngs (paramsName :: extra) seed
  (⟨0, (init rngs).1, (init rngs).2, remove rngs paramsName⟩, [rngs])

end Verif.TrainStep
