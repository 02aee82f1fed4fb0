import Verif.Model.Partitioning
import Verif.Model.Regex
import Verif.Model.Schedule
import Mathlib.Analysis.Real.Sqrt

/-!
Model of vmoe/train/optimizer.py and of `TrainState.apply_gradients_and_compute_global_norms`
(vmoe/train/train_state.py:29-44).

Trees are nested dicts whose leaves are tensors.  A tensor is the list of its entries over the real numbers; of its
shape only the number of entries is kept, and arithmetic on tensors with different numbers of entries raises
`TypeError` (JAX would broadcast some of them).  Adam and Adafactor are not modelled here (see Model/Adam.lean, Model/Adafactor.lean): any gradient transformation can
stand for the base optimizer.  The parts of optax used here are modelled from its source.
-/

namespace Verif.Optimizer

open Verif FlatDict Partitioning

/-- An array leaf (vmoe/train/optimizer.py:74-77): its entries. -/
abbrev Tensor := List ℝ

/-- The items of a nested dict of tensors (vmoe/train/optimizer.py:74-77): params, gradients and updates. -/
abbrev Params := List (Key × FlatDict.Tree Tensor)

/-- `a + b` of two arrays of the same shape (vmoe/train/optimizer.py:79). -/
noncomputable def addT (a b : Tensor) : Except PyErr Tensor :=
  if a.length = b.length then .ok (List.zipWith (· + ·) a b) else .error .typeError

/-- `c * a` (vmoe/train/optimizer.py:79). -/
noncomputable def scaleT (c : ℝ) (a : Tensor) : Tensor := a.map (c * ·)

/-- The entry of a leaf of a flattened dict; empty dicts are dropped (vmoe/train/optimizer.py:74-77). -/
def leafEntry {V : Type} (pv : List Key × Flat V) : Option (Key × V) :=
  match pv.2 with
  | .leaf v => some (join pv.1, v)
  | .empty => none

/-- `flatten_dict(to_state_dict(tree), sep='/')`, without `keep_empty_nodes` (vmoe/train/optimizer.py:74-77). -/
def flattenLeaves {V : Type} (items : List (Key × FlatDict.Tree V)) : PyDict Key V :=
  PyDict.ofItems ((flattenItems [] items).filterMap leafEntry)

/-- `from_state_dict(target, unflatten_dict(flat, sep='/'))` (vmoe/train/optimizer.py:83-84). -/
def rebuild {V W : Type} (target : List (Key × FlatDict.Tree V)) (flat : PyDict Key W) : Except PyErr (List (Key × FlatDict.Tree W)) := do
  let d ← unflatten (flat.map fun kv => (kv.1, Flat.leaf kv.2))
  fromStateItems target d

mutual
/-- `jax.tree_util.tree_map(f, t, t')` on two nested dicts (vmoe/train/train_state.py:32): keys must agree, values are
matched by key. -/
def treeMap2 {V W X : Type} (f : V → W → Except PyErr X) : FlatDict.Tree V → FlatDict.Tree W → Except PyErr (FlatDict.Tree X)
  | .leaf v, .leaf w => do return .leaf (← f v w)
  | .node l, .node l' => if l.length ≠ l'.length then .error .valueError else do return .node (← itemsMap2 f l l')
  | .leaf _, .node _ => .error .valueError
  | .node _, .leaf _ => .error .valueError
/-- The items of a dict in `tree_map` (vmoe/train/train_state.py:32). -/
def itemsMap2 {V W X : Type} (f : V → W → Except PyErr X) :
    List (Key × FlatDict.Tree V) → List (Key × FlatDict.Tree W) → Except PyErr (List (Key × FlatDict.Tree X))
  | [], _ => .ok []
  | (k, t) :: l, l' =>
    match PyDict.get? l' k with
    | none => .error .valueError
    | some t' => do
      let x ← treeMap2 f t t'
      let r ← itemsMap2 f l l'
      return (k, x) :: r
end

mutual
/-- `jax.tree_util.tree_map(f, t)` (vmoe/train/optimizer.py:188-190, inside optax). -/
def treeMap {V W : Type} (f : V → W) : FlatDict.Tree V → FlatDict.Tree W
  | .leaf v => .leaf (f v)
  | .node l => .node (itemsMap f l)
/-- The items of a dict in `tree_map` (vmoe/train/optimizer.py:188-190, inside optax). -/
def itemsMap {V W : Type} (f : V → W) : List (Key × FlatDict.Tree V) → List (Key × FlatDict.Tree W)
  | [] => []
  | (k, t) :: l => (k, treeMap f t) :: itemsMap f l
end

/-- `tree_map` on two dicts (vmoe/train/train_state.py:32). -/
def dictMap2 {V W X : Type} (f : V → W → Except PyErr X) (l : List (Key × FlatDict.Tree V)) (l' : List (Key × FlatDict.Tree W)) :
    Except PyErr (List (Key × FlatDict.Tree X)) :=
  if l.length ≠ l'.length then .error .valueError else itemsMap2 f l l'

/-- `optax.GradientTransformation` (vmoe/train/optimizer.py:87). -/
structure GT where
  State : Type
  init : Params → Except PyErr State
  update : Params → State → Option Params → Except PyErr (Params × State)

/-- `optax.identity()` (vmoe/train/optimizer.py:56). -/
def identity : GT where
  State := Unit
  init _ := .ok ()
  update u s _ := .ok (u, s)

/-- One after the other, as in `optax.chain` (vmoe/train/optimizer.py:139). -/
def GT.seq (a b : GT) : GT where
  State := a.State × b.State
  init p := do
    let s ← a.init p
    let s' ← b.init p
    return (s, s')
  update u s p := do
    let (u', s1) ← a.update u s.1 p
    let (u'', s2) ← b.update u' s.2 p
    return (u'', (s1, s2))

/-- `optax.chain(*ops)` (vmoe/train/optimizer.py:139). -/
def chain : List GT → GT
  | [] => identity
  | g :: gs => g.seq (chain gs)

/-- `re.compile` of the patterns of a list of rules; `compile` gives the `search` method
(vmoe/train/optimizer.py:58 and 213). -/
def compileRules (compile : List Char → Except PyErr (Key → Bool)) :
    List (List Char × ℝ) → Except PyErr (List ((Key → Bool) × ℝ))
  | [] => .ok []
  | (r, v) :: l => do
    let s ← compile r
    let rest ← compileRules compile l
    return (s, v) :: rest

/-- The loop of `weight_decay_fn` and `scale_fn` (vmoe/train/optimizer.py:59-63 and 215-219). -/
def firstMatch (default : ℝ) : List ((Key → Bool) × ℝ) → Key → ℝ
  | [], _ => default
  | (search, v) :: l, key => if search key then v else firstMatch default l key

/-- The argument `weight_decay` (vmoe/train/optimizer.py:29). -/
inductive WeightDecay where
  | none
  | scalar (x : ℝ)
  | rules (l : List (List Char × ℝ))

/-- `dict(safe_map(lambda k, g, p: (k, g + weight_decay_fn(k) * p), ...))`: items of the updates and values of the params
by position; different lengths raise `SafeZipIteratorError` (vmoe/train/optimizer.py:78-82). -/
noncomputable def decayLoop (decay : Key → ℝ) : List (Key × Tensor) → List Tensor → Except PyErr (List (Key × Tensor))
  | [], [] => .ok []
  | (k, g) :: us, p :: ps => do
    let x ← addT g (scaleT (decay k) p)
    let rest ← decayLoop decay us ps
    return (k, x) :: rest
  | _, _ => .error .runtimeError

/-- `update_fn` of `add_decayed_weights` (vmoe/train/optimizer.py:71-85). -/
noncomputable def decayUpdate (decay : Key → ℝ) (updates : Params) (params : Option Params) : Except PyErr Params :=
  match params with
  | none => .error .valueError
  | some params => do
    let items ← decayLoop decay (flattenLeaves updates) ((flattenLeaves params).map Prod.snd)
    rebuild updates (PyDict.ofItems items)

/-- The transformation of `add_decayed_weights` (vmoe/train/optimizer.py:68-87). -/
noncomputable def decayGT (decay : Key → ℝ) : GT where
  State := Unit
  init _ := .ok ()
  update u s p := do return (← decayUpdate decay u p, s)

open Classical in
/-- `add_decayed_weights` (vmoe/train/optimizer.py:32-87). -/
noncomputable def addDecayedWeights (compile : List Char → Except PyErr (Key → Bool)) : WeightDecay → Except PyErr GT
  | .none => .ok identity
  | .scalar x => if x = 0 then .ok identity else .ok (decayGT fun _ => x)
  | .rules l =>
    if l = [] then .ok identity
    else match compileRules compile l with
      | .error e => .error e
      | .ok rules => .ok (decayGT (firstMatch 0 rules))

/-- `update_fn` of `gradient_scaling` (vmoe/train/optimizer.py:224-233). -/
noncomputable def scalingUpdate (scale : Key → ℝ) (updates : Params) : Except PyErr Params :=
  rebuild updates (PyDict.ofItems ((flattenLeaves updates).map fun kv => (kv.1, scaleT (scale kv.1) kv.2)))

/-- The transformation of `gradient_scaling` (vmoe/train/optimizer.py:221-235). -/
noncomputable def scalingGT (scale : Key → ℝ) : GT where
  State := Unit
  init _ := .ok ()
  update u s _ := do return (← scalingUpdate scale u, s)

/-- `gradient_scaling` (vmoe/train/optimizer.py:194-235); `None` is the empty list. -/
noncomputable def gradientScaling (compile : List Char → Except PyErr (Key → Bool)) (scales : List (List Char × ℝ)) :
    Except PyErr GT :=
  if scales.isEmpty then .ok identity
  else match compileRules compile scales with
    | .error e => .error e
    | .ok rules => .ok (scalingGT (firstMatch 1 rules))

/-- The leaves of a tree (vmoe/train/train_state.py:40: inside `optax.global_norm`). -/
def leaves {V : Type} (items : List (Key × FlatDict.Tree V)) : List V :=
  (flattenItems [] items).filterMap fun pv => (leafEntry pv).map Prod.snd

/-- `optax.global_norm` (vmoe/train/train_state.py:40-42 and vmoe/train/optimizer.py:188). -/
noncomputable def globalNorm (u : Params) : ℝ :=
  Real.sqrt ((leaves u).map fun t => (t.map fun x => x * x).sum).sum

open Classical in
/-- `optax.clip_by_global_norm(max_norm)` (vmoe/train/optimizer.py:188). -/
noncomputable def clipByGlobalNorm (maxNorm : ℝ) : GT where
  State := Unit
  init _ := .ok ()
  update u s _ :=
    let norm := globalNorm u
    .ok (itemsMap (fun t => if norm < maxNorm then t else t.map fun x => x / norm * maxNorm) u, s)

/-- `optax.clip(max_delta)`: `jnp.clip(g, -max_delta, max_delta)` (vmoe/train/optimizer.py:190). -/
noncomputable def clip (maxDelta : ℝ) : GT where
  State := Unit
  init _ := .ok ()
  update u s _ := .ok (itemsMap (fun t => t.map fun x => min (max x (-maxDelta)) maxDelta) u, s)

open Classical in
/-- `if x` for an optional float (vmoe/train/optimizer.py:182). -/
noncomputable def truthy : Option ℝ → Option ℝ
  | none => none
  | some x => if x = 0 then none else some x

/-- `gradient_clipping` (vmoe/train/optimizer.py:178-191). -/
noncomputable def gradientClipping (globalNorm absoluteValue : Option ℝ) : Except PyErr GT :=
  match truthy globalNorm, truthy absoluteValue with
  | some _, some _ => .error .valueError
  | some g, none => .ok (clipByGlobalNorm g)
  | none, some a => .ok (clip a)
  | none, none => .ok identity

/-- `frozen_fn` (vmoe/train/optimizer.py:165-173). -/
def frozenFn (search : Key → Bool) (searchTrue searchFalse : Bool) (params : Params) :
    Except PyErr (List (Key × FlatDict.Tree Bool)) :=
  rebuild params ((flattenLeaves params).map fun kv => (kv.1, if search kv.1 then searchTrue else searchFalse))

/-- `optax.masked(optax.set_to_zero(), frozen_fn)` (vmoe/train/optimizer.py:175): the mask is computed from the updates,
and must have the structure of the params when these are given. -/
noncomputable def maskedSetToZero (search : Key → Bool) (searchTrue searchFalse : Bool) : GT where
  State := Unit
  init p := do
    let _ ← frozenFn search searchTrue searchFalse p
    return ()
  update u s p := do
    let mask ← frozenFn search searchTrue searchFalse u
    let _ ← (match p with
      | none => Except.ok ([] : List (Key × FlatDict.Tree Unit))
      | some p => dictMap2 (fun _ _ => .ok ()) mask p)
    let out ← dictMap2 (fun (m : Bool) (t : Tensor) => .ok (if m then t.map fun _ => 0 else t)) mask u
    return (out, s)

/-- `not pattern` (vmoe/train/optimizer.py:148). -/
def falsy : Regex.Arg → Bool
  | .none => true
  | .str s => s.isEmpty
  | .list l => l.isEmpty

/-- The text of the pattern (vmoe/train/optimizer.py:160-162). -/
def patternText : Regex.Arg → List Char
  | .none => []
  | .str s => s
  | .list l => Regex.joinGroups l

/-- `freeze_weights` (vmoe/train/optimizer.py:142-175). -/
noncomputable def freezeWeights (compile : List Char → Except PyErr (Key → Bool)) (frozen trainable : Regex.Arg) :
    Except PyErr GT :=
  if falsy trainable && falsy frozen then .ok identity
  else if !falsy trainable && falsy frozen then
    match compile (patternText trainable) with
    | .error e => .error e
    | .ok search => .ok (maskedSetToZero search false true)
  else if !falsy frozen && falsy trainable then
    match compile (patternText frozen) with
    | .error e => .error e
    | .ok search => .ok (maskedSetToZero search true false)
  else .error .valueError

/-- `optax.trace(decay, nesterov)` (vmoe/train/optimizer.py:289-290). -/
noncomputable def trace (decay : ℝ) (nesterov : Bool) : GT where
  State := Params
  init p := .ok (itemsMap (fun t => t.map fun _ => 0) p)
  update u s _ := do
    let s' ← dictMap2 (fun g t => addT g (scaleT decay t)) u s
    let u' ← if nesterov then dictMap2 (fun g t => addT g (scaleT decay t)) u s' else .ok s'
    return (u', s')

/-- `trace_momentum` (vmoe/train/optimizer.py:289-290). -/
noncomputable def traceMomentum (momentum : Option ℝ) (nesterov : Bool) : GT :=
  match truthy momentum with
  | some d => trace d nesterov
  | none => identity

/-- `inject_hyperparams` of `optax.scale(-learning_rate)` with a schedule (vmoe/train/optimizer.py:131-134): the state
counts the updates. -/
noncomputable def scaleByLearningRate (lr : Schedule.Sched) : GT where
  State := Nat
  init _ := .ok 0
  update u n _ := .ok (itemsMap (scaleT (-(lr n))) u, n + 1)

/-- The base optimizer (vmoe/train/optimizer.py:113-121); `other` stands for Adam and Adafactor, or any other
transformation. -/
inductive Base where
  | sgd (momentum : Option ℝ) (nesterov : Bool)
  | other (g : GT)
  | unknown

/-- The arguments of `create_optimizer` (vmoe/train/optimizer.py:90-100). -/
structure Config where
  base : Base
  totalSteps : Int
  learningRate : Schedule.Kind
  clipGlobalNorm : Option ℝ
  clipAbsolute : Option ℝ
  weightDecay : WeightDecay
  frozenPattern : Regex.Arg
  trainablePattern : Regex.Arg
  gradientScale : List (List Char × ℝ)

/-- The base optimizer of the chain (vmoe/train/optimizer.py:113-121). -/
noncomputable def baseGT : Base → Except PyErr GT
  | .sgd m n => .ok (traceMomentum m n)
  | .other g => .ok g
  | .unknown => .error .valueError

/-- The learning rate transformation of the chain (vmoe/train/optimizer.py:125-134). -/
noncomputable def learningRateGT (kind : Schedule.Kind) (totalSteps : Int) : Except PyErr GT :=
  match Schedule.createLearningRateSchedule kind totalSteps with
  | .error e => .error e
  | .ok lr => .ok (scaleByLearningRate lr)

/-- `create_optimizer` (vmoe/train/optimizer.py:90-139). -/
noncomputable def createOptimizer (compile : List Char → Except PyErr (Key → Bool)) (c : Config) : Except PyErr GT := do
  let scaling ← gradientScaling compile c.gradientScale
  let clipping ← gradientClipping c.clipGlobalNorm c.clipAbsolute
  let base ← baseGT c.base
  let decay ← addDecayedWeights compile c.weightDecay
  let lr ← learningRateGT c.learningRate c.totalSteps
  let freeze ← freezeWeights compile c.frozenPattern c.trainablePattern
  return chain [scaling, clipping, base, decay, lr, freeze]

/-- A train state (vmoe/train/train_state.py:25-27), without the rngs. -/
structure TrainState (opt : GT) where
  step : Nat
  params : Params
  optState : opt.State

/-- `apply_gradients_and_compute_global_norms` (vmoe/train/train_state.py:29-44), without the norms. -/
noncomputable def applyGradients {opt : GT} (state : TrainState opt) (grads : Params) :
    Except PyErr (TrainState opt) := do
  let (updates, optState) ← opt.update grads state.optState (some state.params)
  let params ← dictMap2 addT state.params updates
  return ⟨state.step + 1, params, optState⟩

/-- One update after the other (vmoe/train/trainer.py:673, called in the training loop). -/
noncomputable def train {opt : GT} : TrainState opt → List Params → Except PyErr (TrainState opt)
  | s, [] => .ok s
  | s, g :: gs => do
    let s' ← applyGradients s g
    train s' gs

end Verif.Optimizer
