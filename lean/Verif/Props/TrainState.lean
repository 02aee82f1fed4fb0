import Verif.Proofs.TrainState

/-! Property C52: creating the missing parts of a train state. -/

namespace Verif.Trainer

open Verif Verif.FlatDict Verif.TreeSpec Verif.MeshSpec Verif.Partitioning

variable {V S : Type}

/-- C52: if every missing leaf has a value in the newly initialized state, the result has the structure of the given
state; a leaf that already holds an array is returned unchanged, whatever the new state contains; a missing leaf gets
the new value at the same path, with the sharding that was asked for. -/
theorem C52_reuse (state : List (Key × FlatDict.Tree (Leaf V S))) (fresh : List (Key × FlatDict.Tree V))
    (hs : ItemsOk state) (hf : ItemsOk fresh)
    (hcover : ∀ path s, leafOf state path = some (.struct s) → ∃ v, leafOf fresh path = some v) :
    ∃ r, createOrReuse state fresh = .ok r ∧ ItemsRel (fun _ _ _ => True) [] state r ∧
      (∀ path v s, leafOf state path = some (.array v s) → leafOf r path = some (.array v s)) ∧
      (∀ path s, leafOf state path = some (.struct s) →
        ∃ v, leafOf fresh path = some v ∧ leafOf r path = some (.array v s)) ∧
      (∀ path, leafOf state path = none → leafOf r path = none) := by
  refine ⟨mapItems (reuse fresh) [] state, createOrReuse_eq state fresh hs hf hcover,
    mapItems_rel _ _ (fun _ _ => trivial) [] state, ?_, ?_, ?_⟩
  · intro path v s h
    rw [Optimizer.leafOf_map, h]; rfl
  · intro path s h
    obtain ⟨v, hv⟩ := hcover path s h
    refine ⟨v, hv, ?_⟩
    rw [Optimizer.leafOf_map, h]
    simp [reuse, hv]
  · intro path h
    rw [Optimizer.leafOf_map, h]; rfl

/-- C52: a missing leaf for which the newly initialized state has no entry is an error, never a silently missing
value. -/
theorem C52_missing (state : List (Key × FlatDict.Tree (Leaf V S))) (fresh : List (Key × FlatDict.Tree V))
    (hs : ItemsOk state) (hf : ItemsOk fresh) (hn : NoEmptyItems fresh) (path : List Key) (s : S)
    (h : leafOf state path = some (.struct s)) (hno : leafOf fresh path = none) :
    createOrReuse state fresh = .error .valueError := by
  unfold createOrReuse
  simp only []
  have hp : (path, Flat.leaf (Leaf.struct s)) ∈ flattenItems [] state := (mem_flattenItems state hs path _).2 h
  have hg := get?_flatten_of_mem state hs hp
  have hout : PyDict.get? (outAxisResources (flatten state)) (join path) = some s := by
    rw [get?_out state hs, hg]; rfl
  have hfresh : PyDict.get? (flatten fresh) (join path) = none := by
    cases hc : PyDict.get? (flatten fresh) (join path) with
    | none => rfl
    | some fv =>
      exfalso
      have hmem := (PyDict.get?_eq_some _ (flatten_keys_nodup fresh hf) _ _).1 hc
      rw [flatten_eq fresh hf] at hmem
      obtain ⟨⟨q, fv'⟩, hq, he⟩ := List.mem_map.1 hmem
      simp only [Prod.mk.injEq] at he
      obtain ⟨he, rfl⟩ := he
      obtain ⟨v, hv⟩ := Optimizer.flattenItems_leaves fresh hn [] _ hq
      simp only at hv
      subst hv
      have : leafOf fresh path = some v :=
        (get?_flatten_leaf fresh hf path (flattenItems_paths state _ hp) (flattenItems_sep state hs _ hp) v).1 hc
      rw [hno] at this
      simp at this
  rw [if_pos]
  · rfl
  · rw [List.any_eq_true]
    refine ⟨join path, ?_, ?_⟩
    · by_contra hcon
      rw [(PyDict.get?_eq_none _ _).2 hcon] at hout
      simp at hout
    · rw [get?_init state fresh hf, hfresh]; rfl

/-- A case that meets the hypotheses: restored parameters, a new head and no optimizer state. -/
example : createOrReuse (V := Nat) (S := Nat)
    [("params".toList, .node [("body".toList, .leaf (.array 7 0)), ("head".toList, .leaf (.struct 1))]),
      ("opt".toList, .node [])]
    [("params".toList, .node [("body".toList, .leaf 100), ("head".toList, .leaf 101)]), ("opt".toList, .node [])]
    = .ok [("params".toList, .node [("body".toList, .leaf (.array 7 0)), ("head".toList, .leaf (.array 101 1))]),
      ("opt".toList, .node [])] := by rfl

end Verif.Trainer
