import Verif.Model.Attack
import Verif.Model.ExampleStorage
import Verif.Model.PyStr

/-!
`run_pgd_attack` (vmoe/projects/adversarial_attacks/lib.py:98-235): the loop over the dataset, the stored examples and the
files.  The attack and the model are functions, as in `Model/Attack.lean`.  The arrays of a batch can be read by the process
(with several processes `np.asarray` of an array of all processes raises).
-/

namespace Verif.AttackRun

open Verif

/-- Names of arrays and files (vmoe/projects/adversarial_attacks/lib.py:63,128). -/
abbrev Key := List Char

/-- `config.store_examples`, a dictionary with two optional keys (vmoe/projects/adversarial_attacks/lib.py:48,124-130).
Other keys are a TypeError of `ExampleStorage` and are left out. -/
structure StoreConfig where
  filePrefix : Option Key := none
  transferEverySteps : Option Int := none

/-- The part of the configuration used here (vmoe/projects/adversarial_attacks/lib.py:113,124,225). -/
structure Config where
  restoreFrom : Option Key
  storeExamples : Option StoreConfig
  numUpdates : Nat

/-- `f'{n:03d}'` (vmoe/projects/adversarial_attacks/lib.py:128). -/
def pad3 (n : Nat) : List Char := List.replicate (3 - (PyStr.natStr n).length) '0' ++ PyStr.natStr n

/-- `examples_filepath` (vmoe/projects/adversarial_attacks/lib.py:128). -/
def examplesPath (filePrefix : Key) (index count : Nat) : Key :=
  filePrefix ++ "-".toList ++ pad3 index ++ "-of-".toList ++ pad3 count

/-- Rows of the arrays that are stored (vmoe/projects/adversarial_attacks/lib.py:201-205). -/
inductive Cell (I L : Type) where
  | image (x : I)
  | label (y : L)
  | pred (y : Int)
  | loss (l : ℝ)
  | valid (b : Bool)
  | weights (w : List (List ℝ))

/-- The file and the storage, or `None` (vmoe/projects/adversarial_attacks/lib.py:124-132): a dictionary without entries
counts as false. -/
def makeStorage {Row : Type} (cfg : Config) (workdir : Key) (index count : Nat) :
    Option (Key × ExampleStorage.Storage Row) :=
  match cfg.storeExamples with
  | none => none
  | some ⟨none, none⟩ => none
  | some s =>
    let filePrefix := s.filePrefix.getD (PyStr.pathJoin workdir "examples".toList)
    some (examplesPath filePrefix index count, ExampleStorage.create (s.transferEverySteps.getD 1))

variable {X R I L : Type}

/-- The arguments of `store` for a batch (vmoe/projects/adversarial_attacks/lib.py:197-205): `image` and `label` are the two
parts of an example; `o0` and `om` are masked. -/
def arrays (image : X → I) (label : X → L) (routers : List Key) (x xm : List X) (valid : List Bool)
    (o0 om : List (Attack.Out Key)) : PyDict Key (List (Cell I L)) :=
  [("x_0".toList, x.map fun e => .image (image e)), ("y_0".toList, o0.map fun o => .pred o.pred),
    ("l_0".toList, o0.map fun o => .loss o.loss), ("x_m".toList, xm.map fun e => .image (image e)),
    ("y_m".toList, om.map fun o => .pred o.pred), ("l_m".toList, om.map fun o => .loss o.loss),
    ("y".toList, x.map fun e => .label (label e)), ("valid".toList, valid.map .valid)] ++
  ((routers.map fun k => ("cw_0/".toList ++ k, o0.map fun o => .weights (o.cw k))) ++
    routers.map fun k => ("cw_m/".toList ++ k, om.map fun o => .weights (o.cw k)))

/-- What `stateful_attack` returns besides the state, as arguments of `store`
(vmoe/projects/adversarial_attacks/attacks.py:107-115,129, lib.py:198-205). -/
noncomputable def batchArrays (image : X → I) (label : X → L) (routers : List Key)
    (attack : List X → R → List X × R) (compute : List X → R → List (Attack.Out Key)) (rng : R) (x : List X)
    (valid : List Bool) : PyDict Key (List (Cell I L)) :=
  let xm := attack x rng
  arrays image label routers x xm.1 valid (List.zipWith Attack.maskOut valid (compute x rng))
    (List.zipWith Attack.maskOut valid (compute xm.1 xm.2))

/-- `if example_storage: example_storage.store(...)` (vmoe/projects/adversarial_attacks/lib.py:200-205). -/
def storeBatch {Row : Type} (storage : Option (Key × ExampleStorage.Storage Row)) (step : Nat)
    (arr : PyDict Key (List Row)) : Except PyErr (Option (Key × ExampleStorage.Storage Row)) :=
  match storage with
  | none => .ok none
  | some (path, st) =>
    match ExampleStorage.store st step arr with
    | (st, none) => .ok (some (path, st))
    | (_, some e) => .error e

/-- The loop over the batches (vmoe/projects/adversarial_attacks/lib.py:193-205). -/
noncomputable def loop (image : X → I) (label : X → L) (routers : List Key) (attack : List X → R → List X × R)
    (compute : List X → R → List (Attack.Out Key)) :
    Nat → List (List X × List Bool) → Attack.State Key × R → Option (Key × ExampleStorage.Storage (Cell I L)) →
      Except PyErr ((Attack.State Key × R) × Option (Key × ExampleStorage.Storage (Cell I L)))
  | _, [], s, storage => .ok (s, storage)
  | step, b :: rest, s, storage =>
    match Attack.statefulAttack attack compute s b.1 (some b.2) with
    | .error e => .error e
    | .ok s' =>
      match storeBatch storage step (batchArrays image label routers attack compute s.2 b.1 b.2) with
      | .error e => .error e
      | .ok storage => loop image label routers attack compute (step + 1) rest s' storage

/-- What the run leaves behind: `pgd_state.npz` if it is written, the scalars at step 0 and at step `num_updates`, and the file
with the examples (vmoe/projects/adversarial_attacks/lib.py:208-235). -/
structure Result (I L : Type) where
  state : Option (Key × Attack.State Key)
  reportStep : Nat
  report : Attack.Report Key
  examples : Option (Key × PyDict Key (List (Cell I L)))

/-- `example_storage.write()` (vmoe/projects/adversarial_attacks/lib.py:232-235). -/
def writeExamples {Row : Type} (storage : Option (Key × ExampleStorage.Storage Row)) :
    Except PyErr (Option (Key × PyDict Key (List Row))) :=
  match storage with
  | none => .ok none
  | some (path, st) =>
    match ExampleStorage.write st with
    | .error e => .error e
    | .ok st => .ok (st.file.map fun f => (path, f))

/-- `run_pgd_attack` (vmoe/projects/adversarial_attacks/lib.py:98-235) in process `index` of `count`.  The restored model
determines `routers`, `attack` and `compute`. -/
noncomputable def run (cfg : Config) (workdir : Key) (index count : Nat) (image : X → I) (label : X → L)
    (routers : List Key) (attack : List X → R → List X × R) (compute : List X → R → List (Attack.Out Key)) (rng : R)
    (batches : List (List X × List Bool)) : Except PyErr (Result I L) :=
  if cfg.restoreFrom ≠ some "checkpoint".toList then .error .valueError
  else
    match loop image label routers attack compute 1 batches (Attack.State.create, rng)
        (makeStorage cfg workdir index count) with
    | .error e => .error e
    | .ok (s, storage) =>
      match writeExamples storage with
      | .error e => .error e
      | .ok examples => .ok {
          state := if index = 0 then some (PyStr.pathJoin workdir "pgd_state.npz".toList, s.1) else none
          reportStep := cfg.numUpdates
          report := Attack.report s.1
          examples }

end Verif.AttackRun
