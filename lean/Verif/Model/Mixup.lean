import Verif.Model.NdArray
import Verif.Model.PyDict
import Mathlib.Data.Real.Basic

/-!
Mixup (vmoe/train/trainer.py:556-634,889-968).  Numbers are reals.  The samples of the Dirichlet distribution are a
parameter.
-/

namespace Verif.Mixup

open Verif

/-- `jnp.broadcast_shapes` of two shapes given in reverse (vmoe/train/trainer.py:596); `none` for an error. -/
def broadcastRev : List Nat → List Nat → Option (List Nat)
  | [], ys => some ys
  | xs, [] => some xs
  | x :: xs, y :: ys =>
    if x = y ∨ y = 1 then (broadcastRev xs ys).map (x :: ·)
    else if x = 1 then (broadcastRev xs ys).map (y :: ·)
    else none

/-- `jnp.broadcast_shapes(a, b)` (vmoe/train/trainer.py:596). -/
def broadcastShapes (a b : List Nat) : Except PyErr (List Nat) :=
  match broadcastRev a.reverse b.reverse with
  | some s => .ok s.reverse
  | none => .error .valueError

/-- The position of an array of shape `shape` that is used for position `idx` of the result of a broadcast operation
(NumPy's rule; vmoe/train/trainer.py:632). -/
def broadcastIndex (shape idx : List Nat) : List Nat :=
  List.zipWith (fun d i => if d = 1 then 0 else i) shape (idx.drop (idx.length - shape.length))

/-- A binary operation with broadcasting, as `*` and `+` (vmoe/train/trainer.py:632). -/
def binop (op : ℝ → ℝ → ℝ) (a b : NdArray ℝ) : Except PyErr (NdArray ℝ) := do
  let shape ← broadcastShapes a.shape b.shape
  return ⟨shape, fun idx => op (a.get (broadcastIndex a.shape idx)) (b.get (broadcastIndex b.shape idx))⟩

/-- `jnp.roll(x, -i, axis=axis)` (vmoe/train/trainer.py:632). -/
def rollBack (x : NdArray ℝ) (i axis : Nat) : Except PyErr (NdArray ℝ) :=
  if axis < x.shape.length then
    .ok ⟨x.shape, fun idx => x.get (idx.set axis ((idx.getD axis 0 + i) % x.shape.getD axis 0))⟩
  else .error .valueError

/-- `-jnp.sort(-alpha, axis=-1)` for one list (vmoe/train/trainer.py:626). -/
noncomputable def sortDesc (l : List ℝ) : List ℝ :=
  ((l.map fun x => -x).mergeSort fun a b => decide (a ≤ b)).map fun x => -x

/-- `-jnp.sort(-alpha, axis=-1)` (vmoe/train/trainer.py:626). -/
noncomputable def sortLast (alpha : NdArray ℝ) : NdArray ℝ :=
  ⟨alpha.shape, fun idx =>
    (sortDesc ((List.range (alpha.shape.getLastD 0)).map fun j => alpha.get (idx.dropLast ++ [j]))).getD
      (idx.getLastD 0) 0⟩

/-- `jnp.moveaxis(alpha, -1, 0)` (vmoe/train/trainer.py:628). -/
def moveLastFirst (alpha : NdArray ℝ) : NdArray ℝ :=
  ⟨alpha.shape.getLastD 0 :: alpha.shape.dropLast, fun idx => alpha.get (idx.tail ++ [idx.headD 0])⟩

/-- `a[i]` (vmoe/train/trainer.py:632). -/
def item (a : NdArray ℝ) (i : Nat) : NdArray ℝ := ⟨a.shape.tail, fun idx => a.get (i :: idx)⟩

/-- `x.reshape(dims)` of JAX, which raises `TypeError` (vmoe/train/trainer.py:631,943-944,956-957). -/
def jreshape (x : NdArray ℝ) (dims : List (Option Nat)) : Except PyErr (NdArray ℝ) :=
  match x.reshape dims with
  | .ok y => .ok y
  | .error _ => .error .typeError

/-- `mix(x)` (vmoe/train/trainer.py:630-632); Python's `sum` of nothing is the number zero. -/
def mix (alpha : NdArray ℝ) (batchNdim size rollAxis : Nat) (x : NdArray ℝ) : Except PyErr (NdArray ℝ) := do
  let a ← jreshape alpha ((alpha.shape ++ List.replicate (x.shape.length - batchNdim) 1).map some)
  let terms ← (List.range size).mapM fun i => do
    let rolled ← rollBack x i rollAxis
    binop (· * ·) (item a i) rolled
  match terms with
  | [] => return ⟨[], fun _ => 0⟩
  | t :: ts => ts.foldlM (binop (· + ·)) t

/-- `mixup(rng, tree, concentration=..., shape=..., roll_axis=...)` (vmoe/train/trainer.py:556-634) for the list of the
leaves of the tree; `sample shape` is the sample of the Dirichlet distribution. -/
noncomputable def mixup (sample : List Nat → NdArray ℝ) (arrays : List (NdArray ℝ)) (concentration : ℝ) (shape : List Nat)
    (rollAxis : Int) : Except PyErr (List (NdArray ℝ)) := do
  if shape.length < 2 then throw .valueError
  let batchNdim := shape.length - 1
  arrays.forM fun x => do
    let _ ← broadcastShapes (x.shape.take batchNdim) shape.dropLast
    if x.shape.take batchNdim ≠ ((arrays.head?.map NdArray.shape).getD []).take batchNdim then throw .valueError
  if ¬ (0 ≤ rollAxis ∧ rollAxis < batchNdim) then throw .valueError
  if concentration ≤ 0 then throw .valueError
  let alpha := moveLastFirst (sortLast (sample shape))
  arrays.mapM (mix alpha batchNdim (shape.getLastD 0) rollAxis.toNat)

/-- `granularity` (vmoe/train/trainer.py:945-952). -/
inductive Granularity where
  | batch | device | example | other
  deriving DecidableEq

/-- The shape of the Dirichlet samples (vmoe/train/trainer.py:945-952) for images of shape `shape`. -/
def weightShape (granularity : Granularity) (shape : List Nat) (size : Nat) : Except PyErr (List Nat) :=
  match granularity with
  | .batch => .ok [1, 1, size]
  | .device => .ok [shape.getD 0 0, 1, size]
  | .example => .ok (shape.take 2 ++ [size])
  | .other => .error .valueError

/-- The body of the wrapped train step up to the call (vmoe/train/trainer.py:943-957) on `devices` devices. -/
noncomputable def mixBatch (sample : List Nat → NdArray ℝ) (devices : Nat) (concentration : ℝ) (granularity : Granularity)
    (size : Nat) (images labels : NdArray ℝ) : Except PyErr (NdArray ℝ × NdArray ℝ) := do
  let images ← jreshape images (some devices :: none :: images.shape.tail.map some)
  let labels ← jreshape labels (some devices :: none :: labels.shape.tail.map some)
  let shape ← weightShape granularity images.shape size
  match ← mixup sample [images, labels] concentration shape 1 with
  | [images, labels] => do
    let images ← jreshape images (none :: (images.shape.drop 2).map some)
    let labels ← jreshape labels (none :: (labels.shape.drop 2).map some)
    return (images, labels)
  | _ => throw .valueError

/-- `wrap_train_step_with_mixup(train_step_fn, ...)` (vmoe/train/trainer.py:889-968).  `rngs` are the generators in the
state, `split` is `jax.random.split`, `sample` draws from the Dirichlet distribution; the rest of the state is in `S`.
When `rngs` is not frozen the code also removes the key from the dict of the caller's state, which is not modelled. -/
noncomputable def wrapMixup {R S O : Type} (split : R → R × R) (sample : R → List Nat → NdArray ℝ) (devices : Nat)
    (concentration : Option ℝ) (granularity : Granularity) (size : Nat)
    (trainStep : PyDict (List Char) R → S → NdArray ℝ → NdArray ℝ → Except PyErr (PyDict (List Char) R × S × O)) :
    PyDict (List Char) R → S → NdArray ℝ → NdArray ℝ → Except PyErr (PyDict (List Char) R × S × O) :=
  match concentration with
  | none => trainStep
  | some c =>
    if c = 0 then trainStep
    else fun rngs state images labels =>
      match PyDict.get? rngs "mixup".toList with
      | none => .error .valueError
      | some rng => do
        let (images, labels) ← mixBatch (sample (split rng).1) devices c granularity size images labels
        let (rngs, state, out) ← trainStep (rngs.filter fun e => decide (e.1 ≠ "mixup".toList)) state images labels
        return (PyDict.set rngs "mixup".toList (split rng).2, state, out)

end Verif.Mixup
