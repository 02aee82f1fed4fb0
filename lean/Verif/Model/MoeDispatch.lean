import Verif.Model.MoeRouting

/-!
Model of the dispatchers of vmoe/moe.py and of the sparse MoE layer.

The trailing item dimensions `...` of the Python arrays are collapsed into an arbitrary module
`M` over the ring of weights `R` (an array of any shape with pointwise operations is one).
Sharding constraints (`with_sharding_constraint`) only affect placement; they are in `Model/ExchangeLayout`.
-/

namespace Verif.Moe

variable {R M N : Type*} {S K E C G a b c d : Nat}

/-- Row-major flattening of a rank 3 array (`reshape(-1)`, vmoe/moe.py:494,498,509). -/
def flat3 (x : Fin a → Fin b → Fin c → M) : Fin (a * b * c) → M :=
  fun i => x i.divNat.divNat i.divNat.modNat i.modNat

/-- Row-major flattening of a rank 4 array (vmoe/moe.py:498,514). -/
def flat4 (x : Fin a → Fin b → Fin c → Fin d → M) : Fin (a * b * c * d) → M :=
  fun i => x i.divNat.divNat.divNat i.divNat.divNat.modNat i.divNat.modNat i.modNat

/-- Reading a flat array as rank 2 (vmoe/moe.py:500). -/
def unflat2 (x : Fin (a * b) → M) : Fin a → Fin b → M :=
  fun i j => x (rowMajor i j)

/-- Reading a flat array as rank 3 (vmoe/moe.py:514,516). -/
def unflat3 (x : Fin (a * b * c) → M) : Fin a → Fin b → Fin c → M :=
  fun i j k => x (rowMajor (rowMajor i j) k)

/-- Reading a flat array as rank 4 (vmoe/moe.py:494,512). -/
def unflat4 (x : Fin (a * b * c * d) → M) : Fin a → Fin b → Fin c → Fin d → M :=
  fun i j k l => x (rowMajor (rowMajor (rowMajor i j) k) l)

theorem size_dispatch_split (h : G % E = 0) : E * (G / E) * E * C = G * E * C := by
  have : E * (G / E) = G := Nat.mul_div_cancel' (Nat.dvd_of_mod_eq_zero h)
  rw [this]

theorem size_rows : E * (G * C) = E * G * C := (Nat.mul_assoc _ _ _).symm

theorem size_rows_split (h : G % E = 0) : E * (G * C) = E * (G / E) * E * C := by
  rw [size_dispatch_split h, ← Nat.mul_assoc, Nat.mul_comm E G]

/-- `_dispatch` (vmoe/moe.py:488-500): (G, E, C, ...) to (E, G * C, ...). -/
def dispatchExchange (data : Fin G → Fin E → Fin C → M) : Fin E → Fin (G * C) → M :=
  if h : G % E = 0 then
    -- data.reshape(num_experts, -1, num_experts, capacity)
    let x : Fin E → Fin (G / E) → Fin E → Fin C → M :=
      unflat4 (fun i => flat3 data (i.cast (size_dispatch_split h)))
    -- jnp.swapaxes(data, 0, 2)
    let y : Fin E → Fin (G / E) → Fin E → Fin C → M := fun i j k l => x k j i l
    -- data.reshape(-1).reshape(num_experts, num_groups * capacity)
    unflat2 (fun i => flat4 y (i.cast (size_rows_split h)))
  else
    -- jnp.swapaxes(data, 0, 1)
    let y : Fin E → Fin G → Fin C → M := fun e g l => data g e l
    unflat2 (fun i => flat3 y (i.cast size_rows))

/-- Row-major flattening of a rank 2 array (vmoe/moe.py:509). -/
def flat2 (x : Fin a → Fin b → M) : Fin (a * b) → M := fun i => x i.divNat i.modNat

/-- `_receive` (vmoe/moe.py:503-519): (E, G * C, ...) to (G, E, C, ...).  The model takes the
number of columns as `G * C`, so that `num_groups_time_capacity // num_groups` (line 508) is
`C`; this is always the case for the output of `_dispatch` when `G > 0`. -/
def receiveExchange (data : Fin E → Fin (G * C) → M) : Fin G → Fin E → Fin C → M :=
  if h : G % E = 0 then
    let x : Fin E → Fin (G / E) → Fin E → Fin C → M :=
      unflat4 (fun i => flat2 data (i.cast (size_rows_split h).symm))
    let y : Fin E → Fin (G / E) → Fin E → Fin C → M := fun i j k l => x k j i l
    unflat3 (fun i => flat4 y (i.cast (size_dispatch_split h).symm))
  else
    let x : Fin E → Fin G → Fin C → M :=
      unflat3 (fun i => flat2 data (i.cast size_rows.symm))
    fun g e l => x e g l

section einsum
variable [Semiring R] [AddCommMonoid M] [Module R M]

/-- Boolean dispatch weights enter the einsum as 0 / 1 (vmoe/moe.py:152). -/
def boolWeight (R : Type*) [Zero R] [One R] (w : Bool) : R := if w then 1 else 0

/-- `jnp.einsum("GSEC,GS...->GEC...", dispatch_weights, data)` (vmoe/moe.py:152). -/
def einsumDispatchBuf (w : Fin G → Fin S → Fin E → Fin C → R) (data : Fin G → Fin S → M) :
    Fin G → Fin E → Fin C → M :=
  fun g e i => ∑ s, w g s e i • data g s

/-- `EinsumDispatcher.dispatch` with explicit boolean dispatch weights (vmoe/moe.py:148-154). -/
def einsumDispatch (w : Fin G → EinsumWeights R S E C) (data : Fin G → Fin S → M) :
    Fin E → Fin (G * C) → M :=
  dispatchExchange
    (einsumDispatchBuf (fun g s e i => boolWeight R ((w g).dispatchWeights s e i)) data)

/-- `EinsumDispatcher.combine` (vmoe/moe.py:156-161). -/
def einsumCombine (w : Fin G → EinsumWeights R S E C) (data : Fin E → Fin (G * C) → M) :
    Fin G → Fin S → M :=
  let x := receiveExchange data
  fun g s => ∑ e, ∑ i, (w g).combineWeights s e i • x g e i

/-- `EinsumDispatcher.dispatch` when `dispatch_weights` is None: `combine_weights > 0`
(vmoe/moe.py:149-151). -/
def einsumDispatchDefault [LinearOrder R] (cw : Fin G → Fin S → Fin E → Fin C → R)
    (data : Fin G → Fin S → M) : Fin E → Fin (G * C) → M :=
  dispatchExchange
    (einsumDispatchBuf (fun g s e i => boolWeight R (decide (0 < cw g s e i))) data)

/-- `_scatter_nd` with two index columns (vmoe/moe.py:522-544): additive, and indices out of
range are ignored.  Negative indices do not occur here and are also ignored (JAX wraps them). -/
def scatter2 {B : Nat} (indices : Fin B → Int × Int) (updates : Fin B → M) :
    Fin E → Fin C → M :=
  fun e i => ∑ u ∈ Finset.univ.filter
    (fun u => indices u = (((e : Nat) : Int), ((i : Nat) : Int))), updates u

/-- `ExpertIndicesDispatcher.dispatch` (vmoe/moe.py:190-197).  `jnp.repeat(data, K, axis=1)` puts
`data[s]` at positions `s*K .. s*K+K-1`, and `indices.reshape(G, -1, 2)` puts `indices[s, k]` at
`s*K+k`. -/
def indicesDispatch (w : Fin G → IndicesWeights R S K E C) (data : Fin G → Fin S → M) :
    Fin E → Fin (G * C) → M :=
  dispatchExchange (fun g => scatter2
    (fun u : Fin (S * K) => (w g).indices u.divNat u.modNat)
    (fun u : Fin (S * K) => data g u.divNat))

/-- `x[i0, i1]` (vmoe/moe.py:202).  What JAX returns for an index out of range (clamped or
fill value) is left open: `oob` is an arbitrary value. -/
def gather2 (oob : M) (x : Fin E → Fin C → M) (i : Int × Int) : M :=
  if h : (0 ≤ i.1 ∧ i.1.toNat < E) ∧ (0 ≤ i.2 ∧ i.2.toNat < C) then
    x ⟨i.1.toNat, h.1.2⟩ ⟨i.2.toNat, h.2.2⟩
  else oob

/-- `ExpertIndicesDispatcher.combine` (vmoe/moe.py:199-209). -/
def indicesCombine (oob : M) (w : Fin G → IndicesWeights R S K E C)
    (data : Fin E → Fin (G * C) → M) : Fin G → Fin S → M :=
  let x := receiveExchange data
  fun g s => ∑ k,
    let i := (w g).indices s k
    let mask : Bool := decide (i.1 < (E : Int)) && decide (i.2 < (C : Int))
    (w g).combineWeights s k • (boolWeight R mask • gather2 oob (x g) i)

/-- `DenseEinsumDispatcher.dispatch` (vmoe/moe.py:113-117): all dispatch weights are one and the
capacity is the group size. -/
def denseDispatch (R : Type*) [Semiring R] [Module R M] (E : Nat) (data : Fin G → Fin S → M) :
    Fin E → Fin (G * S) → M :=
  dispatchExchange (fun g _ s => (1 : R) • data g s)

/-- `DenseEinsumDispatcher.combine` (vmoe/moe.py:119-124). -/
def denseCombine (cw : Fin G → Fin S → Fin E → R) (data : Fin E → Fin (G * S) → M) :
    Fin G → Fin S → M :=
  let x := receiveExchange data
  fun g s => ∑ e, cw g s e • x g e s

end einsum

/-- Expert part of `sparse_moe_spmd`: `vmap` of the expert function over the leading axis, with
parameters of expert `e` (vmoe/moe.py:434-439).  The expert function is applied item by item,
which is how MLP experts act on the (G * C, ...) batch they receive. -/
def applyExperts {P : Type*} (params : Fin E → P) (f : P → M → N)
    (x : Fin E → Fin (G * C) → M) : Fin E → Fin (G * C) → N :=
  fun e i => f (params e) (x e i)

/-- `sparse_moe_spmd`: dispatch, apply experts, combine (vmoe/moe.py:429-444), for one input and
one output array. -/
def sparseMoe {P : Type*} (dispatch : (Fin G → Fin S → M) → Fin E → Fin (G * C) → M)
    (combine : (Fin E → Fin (G * C) → N) → Fin G → Fin S → N)
    (params : Fin E → P) (f : P → M → N) (inputs : Fin G → Fin S → M) : Fin G → Fin S → N :=
  combine (applyExperts params f (dispatch inputs))

end Verif.Moe
