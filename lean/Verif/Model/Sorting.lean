import Mathlib.Data.List.Sort
import Mathlib.Data.List.FinRange
import Mathlib.Data.Fintype.Basic
import Mathlib.Order.OrderDual

/-!
Array primitives of JAX used by the routing code: `jnp.argsort` and `jax.lax.top_k`.
These are external functions; the definitions below fix their documented behaviour
(stable ascending sort; largest values first and, for equal values, lower index first).
NaN is not modelled.
-/

namespace Verif

/-- Index `i` comes no later than `j` when sorting by `key` with a stable sort
(`jnp.argsort`, used in vmoe/moe.py:571,587). -/
def lexLE {n : Nat} {κ : Type*} [LinearOrder κ] (key : Fin n → κ) (i j : Fin n) : Prop :=
  key i < key j ∨ (key i = key j ∧ i ≤ j)

/-- The comparison can be computed (`jnp.argsort`, used in vmoe/moe.py:571,587). -/
instance {n : Nat} {κ : Type*} [LinearOrder κ] (key : Fin n → κ) :
    DecidableRel (lexLE key) := fun i j => by unfold lexLE; infer_instance

/-- The indices `0..n-1` listed by increasing key, equal keys in index order
(`jnp.argsort`, used in vmoe/moe.py:571,587). -/
def sortedIdx {n : Nat} {κ : Type*} [LinearOrder κ] (key : Fin n → κ) : List (Fin n) :=
  (List.finRange n).insertionSort (lexLE key)

theorem length_sortedIdx {n : Nat} {κ : Type*} [LinearOrder κ] (key : Fin n → κ) :
    (sortedIdx key).length = n := by
  simp [sortedIdx, List.length_insertionSort]

/-- `jnp.argsort(key)` as an array of `n` indices (vmoe/moe.py:571,587). -/
def argsort {n : Nat} {κ : Type*} [LinearOrder κ] (key : Fin n → κ) : Fin n → Fin n :=
  fun i => (sortedIdx key).get (i.cast (length_sortedIdx key).symm)

/-- `jax.lax.top_k(row, k)` on one row: indices (vmoe/moe.py:567,671).  `k ≤ n` is required
by JAX, which raises otherwise; callers model the error. -/
def topKIdx {n : Nat} {κ : Type*} [LinearOrder κ] (row : Fin n → κ) (k : Nat) (hk : k ≤ n) :
    Fin k → Fin n :=
  fun i => (sortedIdx (fun j => OrderDual.toDual (row j))).get
    ((i.castLE hk).cast (length_sortedIdx _).symm)

/-- `jax.lax.top_k(row, k)` on one row: values (vmoe/moe.py:567,671). -/
def topKVal {n : Nat} {κ : Type*} [LinearOrder κ] (row : Fin n → κ) (k : Nat) (hk : k ≤ n) :
    Fin k → κ :=
  fun i => row (topKIdx row k hk i)

end Verif
