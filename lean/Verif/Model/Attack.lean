import Mathlib.Analysis.Real.Sqrt
import Mathlib.Data.Sign.Basic
import Verif.Model.PyErr

/-!
Adversarial attacks (vmoe/projects/adversarial_attacks/attacks.py, restore.py).  Numbers are real.
-/

namespace Verif.Attack

open Verif

/-! ### The attack on a batch of images -/

/-- `update` in `stateless_attack_pgd` (vmoe/projects/adversarial_attacks/attacks.py:164-169).  An array of images is a
function on its entries.  `grad x rng` is the gradient of the loss (attacks.py:158-162), which is any function. -/
noncomputable def pgdUpdate {ι R : Type} (delta : ℝ) (grad : (ι → ℝ) → Option R → ι → ℝ) (rngs : Option (List R)) (i : Nat)
    (x : ι → ℝ) : ι → ℝ :=
  fun p => x p + delta * SignType.sign (grad x (rngs.bind (·[i]?)) p)

/-- `jax.lax.fori_loop(0, n, update, images)` (vmoe/projects/adversarial_attacks/attacks.py:171). -/
noncomputable def pgdLoop {ι R : Type} (delta : ℝ) (grad : (ι → ℝ) → Option R → ι → ℝ) (rngs : Option (List R)) (x : ι → ℝ) :
    Nat → ι → ℝ
  | 0 => x
  | n + 1 => pgdUpdate delta grad rngs n (pgdLoop delta grad rngs x n)

/-- `stateless_attack_pgd` (vmoe/projects/adversarial_attacks/attacks.py:132-174).  `split rng n` is `jax.random.split`.
A dictionary of keys is one key here. -/
noncomputable def pgd {ι R : Type} (split : R → Nat → List R) (maxEpsilon : ℝ) (numUpdates : Nat)
    (grad : (ι → ℝ) → Option R → ι → ℝ) (images : ι → ℝ) (rng : Option R) : Except PyErr ((ι → ℝ) × Option R) :=
  if numUpdates = 0 then .error .zeroDivisionError
  else
    let delta := maxEpsilon / numUpdates
    let rngs := rng.map fun r => split r (numUpdates + 1)
    .ok (pgdLoop delta grad rngs images numUpdates, rngs.bind (·.getLast?))

/-! ### Statistics -/

/-- What is known of an example before or after the attack: the loss, the prediction, whether it is correct, and for each
router (of type `K`) and token the combine weights of the experts
(vmoe/projects/adversarial_attacks/restore.py:38-52). -/
structure Out (K : Type) where
  loss : ℝ
  pred : Int
  correct : ℝ
  cw : K → List (List ℝ)

variable {K : Type}

/-- `mask` for an example (vmoe/projects/adversarial_attacks/attacks.py:97-105): everything is multiplied by 0 or 1. -/
def maskOut (valid : Bool) (o : Out K) : Out K :=
  { loss := o.loss * (if valid then 1 else 0), pred := o.pred * (if valid then 1 else 0),
    correct := o.correct * (if valid then 1 else 0),
    cw := fun k => (o.cw k).map fun t => t.map fun w => w * (if valid then 1 else 0) }

/-- The intersection over union of the experts used for one token
(vmoe/projects/adversarial_attacks/attacks.py:183-188). -/
noncomputable def tokenIou (a b : List ℝ) : ℝ :=
  let a := a.map fun w => if w > 0 then (1 : ℝ) else 0
  let b := b.map fun w => if w > 0 then (1 : ℝ) else 0
  let inter := (List.zipWith (· * ·) a b).sum
  let union := (List.zipWith (· + ·) a b).sum - inter
  if union > 0 then inter / union else 0

/-- `sum_intersection_over_union` (vmoe/projects/adversarial_attacks/attacks.py:177-191); `a` and `b` are lists of examples,
which are lists of tokens.  That all examples have the same number of tokens and experts is not checked. -/
noncomputable def sumIou (a b : List (List (List ℝ))) : ℝ :=
  let numTokens := ((a.head?.map List.length).getD 0 : Nat)
  (List.zipWith (fun x y => (List.zipWith tokenIou x y).sum) a b).sum / numTokens

/-- `AttackState` (vmoe/projects/adversarial_attacks/attacks.py:23-47), without the `rngs` and `max_updates`. -/
structure State (K : Type) where
  numImages : Int
  numChanges : Int
  numCorrect : ℝ × ℝ
  sumLoss : ℝ × ℝ
  sumIou : K → ℝ

/-- `AttackState.create` (vmoe/projects/adversarial_attacks/attacks.py:49-62). -/
def State.create : State K :=
  { numImages := 0, numChanges := 0, numCorrect := (0, 0), sumLoss := (0, 0), sumIou := fun _ => 0 }

/-- `AttackState.update` (vmoe/projects/adversarial_attacks/attacks.py:64-69). -/
def State.add (a b : State K) : State K :=
  { numImages := a.numImages + b.numImages, numChanges := a.numChanges + b.numChanges,
    numCorrect := (a.numCorrect.1 + b.numCorrect.1, a.numCorrect.2 + b.numCorrect.2),
    sumLoss := (a.sumLoss.1 + b.sumLoss.1, a.sumLoss.2 + b.sumLoss.2), sumIou := fun k => a.sumIou k + b.sumIou k }

/-- The numbers added to the state for a batch (vmoe/projects/adversarial_attacks/attacks.py:113-125); `o0` and `om` are what
is computed before and after the attack, already masked. -/
noncomputable def batchStats (valid : Option (List Bool)) (o0 om : List (Out K)) : State K :=
  { numImages := match valid with
      | none => o0.length
      | some v => (v.map fun b => if b then (1 : Int) else 0).sum
    numChanges := (List.zipWith (fun a b : Out K => if b.pred ≠ a.pred then (1 : Int) else 0) o0 om).sum
    numCorrect := ((o0.map (·.correct)).sum, (om.map (·.correct)).sum)
    sumLoss := ((o0.map (·.loss)).sum, (om.map (·.loss)).sum)
    sumIou := fun k => Attack.sumIou (o0.map (·.cw k)) (om.map (·.cw k)) }

/-- `stateful_attack` (vmoe/projects/adversarial_attacks/attacks.py:72-129) for a batch of examples of type `X` (images and
labels) with the state `R` of the random numbers.  `attack` is `stateless_attack_fn` and `compute` is
`compute_loss_predict_correct_cw_fn`, which computes something for each example of the batch.  Only the new state is
returned. -/
noncomputable def statefulAttack {X R : Type} (attack : List X → R → List X × R) (compute : List X → R → List (Out K))
    (s : State K × R) (x : List X) (valid : Option (List Bool)) : Except PyErr (State K × R) :=
  let xm := attack x s.2
  let o0 := compute x s.2
  let om := compute xm.1 xm.2
  match valid with
  | none => .ok (s.1.add (batchStats none o0 om), xm.2)
  | some v =>
    if v.length ≠ o0.length ∨ v.length ≠ om.length then .error .assertionError
    else .ok (s.1.add (batchStats valid (List.zipWith maskOut v o0) (List.zipWith maskOut v om)), xm.2)

/-- The loop over the batches (vmoe/projects/adversarial_attacks/lib.py:191-199). -/
noncomputable def runAttack {X R : Type} (attack : List X → R → List X × R) (compute : List X → R → List (Out K)) (rng : R)
    (batches : List (List X × Option (List Bool))) : Except PyErr (State K × R) :=
  batches.foldlM (fun s b => statefulAttack attack compute s b.1 b.2) (State.create, rng)

/-- The scalars that are written for the statistics after the attack (vmoe/projects/adversarial_attacks/lib.py:219-231):
the error and loss before, the error, loss, prediction changes and routing changes after the attack. -/
structure Report (K : Type) where
  error0 : ℝ
  loss0 : ℝ
  errorM : ℝ
  lossM : ℝ
  predictionChanges : ℝ
  routingChanges : K → ℝ

/-- `run_pgd_attack` (vmoe/projects/adversarial_attacks/lib.py:219-231). -/
noncomputable def report (s : State K) : Report K :=
  { error0 := 1 - s.numCorrect.1 / s.numImages, loss0 := s.sumLoss.1 / s.numImages,
    errorM := 1 - s.numCorrect.2 / s.numImages, lossM := s.sumLoss.2 / s.numImages,
    predictionChanges := s.numChanges / s.numImages, routingChanges := fun k => 1 - s.sumIou k / s.numImages }

end Verif.Attack
