import Verif.Model.PyErr
import Mathlib.Algebra.BigOperators.Group.List.Basic
import Mathlib.Algebra.Group.Nat.Defs

/-!
n-dimensional arrays with NumPy's row-major `reshape` and `transpose`.

These are external functions of NumPy/JAX; the definitions fix their documented behaviour.  An
array is a shape and a function from index lists; only values at valid indices are meaningful and
equality of arrays (`NdArray.Same`) only looks at those.
-/

namespace Verif

/-- An n-d array (`np.ndarray`/`jnp.ndarray`; used e.g. in vmoe/nn/ensemble_routing.py:43-63). -/
structure NdArray (α : Type*) where
  shape : List Nat
  get : List Nat → α

namespace NdArray

variable {α β : Type*}

/-- `idx` is a valid index of an array with this shape (NumPy indexing, e.g. vmoe/partitioning.py:350). -/
def Valid (shape idx : List Nat) : Prop := List.Forall₂ (fun i d => i < d) idx shape

/-- Two arrays are equal: same shape and same values (as `np.testing.assert_array_equal`, e.g.
vmoe/projects/adversarial_attacks/attacks_test.py:85; used in statements only). -/
def Same (a b : NdArray α) : Prop := a.shape = b.shape ∧ ∀ idx, Valid a.shape idx → a.get idx = b.get idx

/-- Row-major (C order) position of an index, as used by `reshape`
(vmoe/nn/ensemble_routing.py:49-51). -/
def flatIndex : List Nat → List Nat → Nat
  | _ :: ds, i :: is => i * ds.prod + flatIndex ds is
  | _, _ => 0

/-- Inverse of `flatIndex`, as used by `reshape` (vmoe/nn/ensemble_routing.py:49-51). -/
def unflatIndex : List Nat → Nat → List Nat
  | [], _ => []
  | _ :: ds, n => n / ds.prod :: unflatIndex ds (n % ds.prod)

/-- Product of the known dimensions of a requested shape; `none` stands for `-1`
(`np.reshape` as called in vmoe/nn/ensemble_routing.py:49-62). -/
def knownProd (dims : List (Option Nat)) : Nat := (dims.map (fun d => d.getD 1)).prod

/-- Resolves the `-1` of a requested shape for `size` elements.  Errors as in NumPy: more than
one `-1`, or sizes that do not match (vmoe/nn/ensemble_routing.py:49-62). -/
def resolveShape (size : Nat) (dims : List (Option Nat)) : Except PyErr (List Nat) :=
  match dims.count none with
  | 0 => if knownProd dims = size then .ok (dims.map (fun d => d.getD 1)) else .error .valueError
  | 1 =>
    if knownProd dims = 0 then .error .valueError
    else if size % knownProd dims = 0 then
      .ok (dims.map (fun d => d.getD (size / knownProd dims)))
    else .error .valueError
  | _ => .error .valueError

/-- `x.reshape(dims)` (vmoe/nn/ensemble_routing.py:49,51,60,62). -/
def reshape (x : NdArray α) (dims : List (Option Nat)) : Except PyErr (NdArray α) :=
  (resolveShape x.shape.prod dims).map fun shape =>
    { shape := shape, get := fun idx => x.get (unflatIndex x.shape (flatIndex shape idx)) }

/-- `x.reshape(dims)` of a JAX array, which raises TypeError where NumPy raises ValueError
(vmoe/nn/ensemble_routing.py:49,51,60,62). -/
def jreshape (x : NdArray α) (dims : List (Option Nat)) : Except PyErr (NdArray α) :=
  match x.reshape dims with
  | .ok y => .ok y
  | .error _ => .error .typeError

/-- `x.transpose(perm)`: axis `i` of the result is axis `perm[i]` of `x`
(vmoe/nn/ensemble_routing.py:50,61).  Raises unless `perm` is a permutation of the axes. -/
def transpose (x : NdArray α) (perm : List Nat) : Except PyErr (NdArray α) :=
  if perm.length = x.shape.length ∧ ∀ a < x.shape.length, a ∈ perm then
    .ok { shape := perm.map (fun a => x.shape.getD a 0)
          get := fun idx => x.get ((List.range x.shape.length).map fun a => idx.getD (perm.idxOf a) 0) }
  else .error .valueError

end NdArray

end Verif
