import Verif.Model.Partitioned

/-!
Specification vocabulary for checkpoint regions: which positions of an array a region covers.
-/

namespace Verif.Ckpt.Spec

open Verif Verif.Ckpt

/-- Position `idx` lies in region `s`: same rank and `start ≤ idx < stop` along every axis. -/
def InSlice (s : SliceNd) (idx : List Nat) : Prop :=
  List.Forall₂ (fun (x : Slice) i => (ofLex x).1 ≤ i ∧ i < (ofLex x).2) s idx

instance (s : SliceNd) (idx : List Nat) : Decidable (InSlice s idx) := by
  unfold InSlice; infer_instance

/-- Number of positions of a region. -/
def items (s : SliceNd) : Nat := (s.map fun x => (ofLex x).2 - (ofLex x).1).prod

/-- Every bound satisfies `start ≤ stop`. -/
def Ordered (s : SliceNd) : Prop := ∀ x ∈ s, (ofLex x).1 ≤ (ofLex x).2

/-- `c` is a sub-region of `s`, with the same number of axes. -/
def SubRegion (c s : SliceNd) : Prop :=
  List.Forall₂ (fun (x y : Slice) => (ofLex y).1 ≤ (ofLex x).1 ∧ (ofLex x).2 ≤ (ofLex y).2) c s

/-- Position `idx` lies in the part of an array of this shape selected by a JAX device index (`None`
bounds mean the whole axis). -/
def InIndex : JaxIndex → List Nat → List Nat → Prop
  | [], [], [] => True
  | (a, b) :: d, n :: shape, i :: idx => a.getD 0 ≤ i ∧ i < b.getD n ∧ InIndex d shape idx
  | _, _, _ => False

/-- `idx` is a position of an array of this shape. -/
def ValidIdx (shape idx : List Nat) : Prop := List.Forall₂ (fun i n => i < n) idx shape

/-- A local position `l` of a device index, as a position of the whole array. -/
def globalPos (d : JaxIndex) (l : List Nat) : List Nat :=
  List.zipWith (fun i (b : Option Nat × Option Nat) => b.1.getD 0 + i) l d

/-- What JAX guarantees about the device shards of an array with `P` processes: every position is in
some shard, two shards are the same region or have no position in common, every shard holds some
position and belongs to one of the processes.  (Arrays without elements are excluded by `nonempty`.) -/
structure LeafOk {α : Type*} (P : Nat) (a : Leaf α) : Prop where
  cover : ∀ idx, ValidIdx a.value.shape idx →
    ∃ s ∈ a.shards, InIndex s.index a.value.shape idx
  disjoint : ∀ s ∈ a.shards, ∀ t ∈ a.shards, ∀ idx, InIndex s.index a.value.shape idx →
    InIndex t.index a.value.shape idx →
    ∀ idx', InIndex s.index a.value.shape idx' ↔ InIndex t.index a.value.shape idx'
  nonempty : ∀ s ∈ a.shards, ∃ idx, InIndex s.index a.value.shape idx
  process : ∀ s ∈ a.shards, s.process < P

/-- The view of an array on another process: same array, device shards enumerated in any order. -/
structure SameArray {α : Type*} (a b : Leaf α) : Prop where
  value : a.value = b.value
  itemsize : a.itemsize = b.itemsize
  shards : a.shards.Perm b.shards

end Verif.Ckpt.Spec
