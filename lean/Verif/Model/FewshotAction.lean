import Verif.Model.Fewshot
import Verif.Model.EvalAction
import Verif.Model.Summarizer

/-!
Model of the callback of `FewShotPeriodicAction` (vmoe/evaluate/fewshot.py:52-224), called at several
steps of the training, and of the creation of its data sets (vmoe/evaluate/fewshot.py:310-329).
-/

namespace Verif.FewshotAction

open Verif Verif.Fewshot Verif.EvalAction

/-- A Python string (e.g. vmoe/evaluate/fewshot.py:180). -/
abbrev Key := List Char

variable {A β K : Type} {D : Nat}

/-- A data set iterator: the batches from its beginning, and those not yet read
(`clu.data.DatasetIterator`; vmoe/evaluate/fewshot.py:183,189-190).  Prefetching to devices yields the same
batches (property C35) and is not repeated here. -/
structure Iter (β : Type) where
  contents : List β
  remaining : List β

/-- What identifies an iterator object: the name of the data set and the split, because `_get_dataset`
is cached (vmoe/evaluate/fewshot.py:316-319). -/
abbrev Id := Key × Key

/-- All iterator objects (vmoe/evaluate/fewshot.py:316-319). -/
abbrev Store (β : Type) := PyDict Id (Iter β)

/-- A value of `datasets_info` (vmoe/evaluate/fewshot.py:326-327). -/
structure Info where
  train : Id
  test : Id
  numClasses : Nat

/-- One call of the cached `_get_dataset` (vmoe/evaluate/fewshot.py:316-319); `load` gives the batches. -/
def getDataset (load : Key → Key → Except PyErr (List β)) (store : Store β) (name split : Key) :
    Except PyErr (Store β) :=
  match PyDict.get? store (name, split) with
  | some _ => .ok store
  | none => do
    let batches ← load name split
    .ok (PyDict.set store (name, split) ⟨batches, batches⟩)

/-- `_get_datasets` (vmoe/evaluate/fewshot.py:310-329).  `classes` is the number of classes according to TFDS. -/
def getDatasets (load : Key → Key → Except PyErr (List β)) (classes : Key → Except PyErr Nat)
    (datasets : PyDict Key (Key × Key × Key)) : Except PyErr (Store β × PyDict Key Info) :=
  datasets.foldlM (fun (store, infos) (key, name, tr, te) => do
    let store ← getDataset load store name tr
    let store ← getDataset load store name te
    let n ← classes name
    .ok (store, PyDict.set infos key ⟨(name, tr), (name, te), n⟩)) ([], [])

/-- The functions of `jax.random` and Python's `hash` of a tuple of integers, as far as they are used
(vmoe/evaluate/fewshot.py:156-160,174-175). -/
structure Lib (K : Type) where
  prngKey : Int → K
  foldIn : K → Nat → K
  split : K → Nat → List K
  hash : List Int → Int

/-- The arguments of the action (vmoe/evaluate/fewshot.py:57-75).  `seeds_per_step` is a natural number. -/
structure Config where
  shots : List Int
  l2Regs : List ℝ
  rngKeys : List Key
  seed : Int
  seedFoldInStep : Bool
  seedsPerStep : Nat
  mainTask : Option (Key × Int)
  mainTaskPrefix : Key
  reportProgressName : Key

/-- `make_fewshot_state_pjit` (vmoe/evaluate/fewshot.py:154-164). -/
def makeState (lib : Lib K) (cfg : Config) (subSeed step : Nat) : PyDict Key K :=
  if cfg.rngKeys.isEmpty then []
  else
    let rng := lib.prngKey cfg.seed
    let rng := lib.foldIn rng subSeed
    let rng := if cfg.seedFoldInStep then lib.foldIn rng step else rng
    PyDict.ofItems (List.zip cfg.rngKeys (lib.split rng cfg.rngKeys.length))

/-- `permute_seed % 2**31` (vmoe/evaluate/fewshot.py:174-175,184). -/
def permuteSeed (lib : Lib K) (cfg : Config) (subSeed step : Nat) : Nat :=
  (lib.hash (if cfg.seedFoldInStep then [cfg.seed, step, subSeed] else [cfg.seed, subSeed]) % 2 ^ 31).toNat

/-- `_compute_fewshot_metrics` (vmoe/evaluate/fewshot.py:227-257) with its calls of `_compute_representation`. -/
noncomputable def computeFewshotMetrics (eigh : EighFn) (perm : Nat → Nat → List Nat → List Nat)
    (fn : A → PyDict Key K → β → PyDict Key K × List ((Fin D → ℝ) × Int × Bool)) (cfg : Config)
    (numClasses : Nat) (state : PyDict Key K) (vars : A) (tr te : List β) (seed : Nat) :
    Except PyErr (PyDict (Int × ℝ) ℝ) := do
  let (state, train) ← computeRepresentation (fn vars) state tr
  let (_, test) ← computeRepresentation (fn vars) state te
  fewshotMetrics eigh (perm seed) cfg.shots cfg.l2Regs numClasses train test

/-- The type of `computeFewshotMetrics` with its first arguments given: classes, state, variables, batches for
training, batches for testing, seed (vmoe/evaluate/fewshot.py:181-184). -/
abbrev EvalFn (A β K : Type) :=
  Nat → PyDict Key K → A → List β → List β → Nat → Except PyErr (PyDict (Int × ℝ) ℝ)

/-- Reads an iterator to its end (vmoe/evaluate/fewshot.py:269). -/
def drain (store : Store β) (id : Id) : List β × Store β :=
  match PyDict.get? store id with
  | some it => (it.remaining, PyDict.set store id ⟨it.contents, []⟩)
  | none => ([], store)

/-- `reset()` of an iterator (vmoe/evaluate/fewshot.py:189-190). -/
def reset (store : Store β) (id : Id) : Store β :=
  match PyDict.get? store id with
  | some it => PyDict.set store id ⟨it.contents, it.contents⟩
  | none => store

/-- `name if seeds_per_step == 1 else f'{name}-seed-{sub_seed}'` (vmoe/evaluate/fewshot.py:180). -/
def seedName (cfg : Config) (name : Key) (subSeed : Nat) : Key :=
  if cfg.seedsPerStep = 1 then name else name ++ "-seed-".toList ++ PyStr.natStr subSeed

/-- `f'{prefix}/{name}/{shot}shot'` (vmoe/evaluate/fewshot.py:201,215). -/
def shotKey (pre name : Key) (shot : Int) : Key :=
  pre ++ '/' :: (name ++ '/' :: (Summarizer.intStr shot ++ "shot".toList))

/-- `f'{report_progress_name}/{shot}shot_best_l2'` (vmoe/evaluate/fewshot.py:197). -/
def bestKey (pre : Key) (shot : Int) : Key := pre ++ '/' :: (Summarizer.intStr shot ++ "shot_best_l2".toList)

/-- `f'{report_progress_name}/{name}/duration_secs'` (vmoe/evaluate/fewshot.py:187). -/
def secsKey (pre name : Key) : Key := pre ++ '/' :: (name ++ "/duration_secs".toList)

/-- One call of the action (vmoe/evaluate/fewshot.py:166). -/
structure Call (A : Type) where
  step : Nat
  vars : A
  kwargs : PyDict Key (Option ℝ)

/-- What persists between calls: the iterators, everything given to `metric_writer.write_scalars`, and
`last_metrics` (vmoe/evaluate/fewshot.py:113,217-218). -/
structure State (β : Type) where
  store : Store β
  writes : List (Nat × PyDict Key Value)
  lastMetrics : Option (PyDict Key Value)

/-- Results per data set, as `all_results` (vmoe/evaluate/fewshot.py:168-169). -/
abbrev Results := PyDict Key (PyDict (Int × ℝ) ℝ)

/-- The body of the inner loop, for one data set (vmoe/evaluate/fewshot.py:177-190). -/
def evalOne (lib : Lib K) (cfg : Config) (eval : EvalFn A β K) (c : Call A) (subSeed : Nat)
    (acc : Store β × Results × PyDict Key Value) (ni : Key × Info) :
    Except PyErr (Store β × Results × PyDict Key Value) := do
  let (store, all, metrics) := acc
  let state := makeState lib cfg subSeed c.step
  let name := seedName cfg ni.1 subSeed
  let (tr, store) := drain store ni.2.train
  let (te, store) := drain store ni.2.test
  let res ← eval ni.2.numClasses state c.vars tr te (permuteSeed lib cfg subSeed c.step)
  let all := PyDict.set all name res
  let metrics := PyDict.set metrics (secsKey cfg.reportProgressName name) .seconds
  .ok (reset (reset store ni.2.train) ni.2.test, all, metrics)

/-- The two loops (vmoe/evaluate/fewshot.py:172-190). -/
def evalAll (lib : Lib K) (cfg : Config) (eval : EvalFn A β K) (c : Call A) (infos : PyDict Key Info)
    (store : Store β) : Except PyErr (Store β × Results × PyDict Key Value) :=
  (List.range cfg.seedsPerStep).foldlM (fun acc subSeed =>
    infos.foldlM (evalOne lib cfg eval c subSeed) acc) (store, [], [])

/-- `all_results[name][shot, best_l2[shot]]` (vmoe/evaluate/fewshot.py:202,209,212). -/
noncomputable def lookup (all : Results) (best : PyDict Int ℝ) (name : Key) (shot : Int) : Except PyErr ℝ :=
  match PyDict.get? all name with
  | none => .error .keyError
  | some res => match PyDict.get? best shot with
    | none => .error .keyError
    | some l2 => match PyDict.get? res (shot, l2) with
      | none => .error .keyError
      | some a => .ok a

/-- The accuracy of the main task (vmoe/evaluate/fewshot.py:207-214).  Without seeds this divides the integer 0
by 0. -/
noncomputable def mainAccuracy (cfg : Config) (all : Results) (best : PyDict Int ℝ) (name : Key) (shot : Int) :
    Except PyErr ℝ :=
  if cfg.seedsPerStep = 1 then lookup all best name shot
  else do
    let total ← (List.range cfg.seedsPerStep).foldlM (fun s subSeed => do
      let a ← lookup all best (name ++ "-seed-".toList ++ PyStr.natStr subSeed) shot
      .ok (s + a)) (0 : ℝ)
    if cfg.seedsPerStep = 0 then .error .zeroDivisionError else .ok (total / cfg.seedsPerStep)

/-- The metric of the main task (vmoe/evaluate/fewshot.py:206-215). -/
noncomputable def addMainTask (cfg : Config) (all : Results) (best : PyDict Int ℝ) (metrics : PyDict Key Value) :
    Except PyErr (PyDict Key Value) :=
  match cfg.mainTask with
  | none => .ok metrics
  | some (name, shot) => do
    let accuracy ← mainAccuracy cfg all best name shot
    .ok (PyDict.set metrics (shotKey cfg.mainTaskPrefix name shot) (.number (some accuracy)))

/-- `callback_fn` (vmoe/evaluate/fewshot.py:166-218).  An exception ends the run.  The measured seconds are not
modelled. -/
noncomputable def callback (lib : Lib K) (argsort : List ℝ → List Nat) (cfg : Config) (eval : EvalFn A β K)
    (infos : PyDict Key Info) (st : State β) (c : Call A) : Except PyErr (State β) := do
  let rp := cfg.reportProgressName
  let (store, all, metrics) ← evalAll lib cfg eval c infos st.store
  let metrics := PyDict.set metrics (rp ++ "/duration_secs".toList) .seconds
  let best ← findBestL2 argsort all cfg.shots cfg.l2Regs
  let metrics := merge metrics (PyDict.ofItems (best.map fun sl => (bestKey rp sl.1, .number (some sl.2))))
  let items ← ((PyDict.keys all).flatMap fun name => cfg.shots.map fun shot => (name, shot)).mapM fun ns => do
    let a ← lookup all best ns.1 ns.2
    .ok (shotKey rp ns.1 ns.2, Value.number (some a))
  let metrics := merge metrics (PyDict.ofItems items)
  let metrics ← addMainTask cfg all best metrics
  let metrics := merge metrics (given c.kwargs)
  .ok ⟨store, st.writes ++ [(c.step, metrics)], some metrics⟩

/-- A sequence of calls during training (vmoe/evaluate/fewshot.py:132-138). -/
noncomputable def run (lib : Lib K) (argsort : List ℝ → List Nat) (cfg : Config) (eval : EvalFn A β K)
    (infos : PyDict Key Info) (st : State β) (calls : List (Call A)) : Except PyErr (State β) :=
  calls.foldlM (callback lib argsort cfg eval infos) st

end Verif.FewshotAction
