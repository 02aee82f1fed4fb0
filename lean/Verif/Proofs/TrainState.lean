import Verif.Model.Trainer
import Verif.Proofs.FlatLeaf

/-! Helper lemmas about creating the missing parts of a train state. -/

namespace Verif.Trainer

open Verif Verif.FlatDict Verif.TreeSpec Verif.MeshSpec Verif.Partitioning

variable {V S : Type}

/-- What a leaf becomes. -/
def reuse (fresh : List (Key × FlatDict.Tree V)) (path : List Key) : Leaf V S → Leaf V S
  | .array v s => .array v s
  | .struct s => match leafOf fresh path with
    | some v => .array v s
    | none => .struct s

/-- `out_axis_resources` at a key. -/
theorem get?_out (state : List (Key × FlatDict.Tree (Leaf V S))) (hs : ItemsOk state) (k : Key) :
    PyDict.get? (outAxisResources (flatten state)) k = (PyDict.get? (flatten state) k).bind fun fv => match fv with
      | .leaf (.struct s) => some s
      | _ => none := by
  have := get?_filterMap (fun (_ : Key) (fv : Flat (Leaf V S)) => match fv with
      | .leaf (.struct s) => some s
      | _ => none) (flatten state) (flatten_keys_nodup state hs) k
  rw [← this]
  congr 1
  unfold outAxisResources
  congr 1
  funext kv
  obtain ⟨k, fv⟩ := kv
  rcases fv with (_ | _) | _ <;> rfl

theorem keys_out_sub (state : List (Key × FlatDict.Tree (Leaf V S))) (hs : ItemsOk state) {k : Key}
    (h : k ∈ PyDict.keys (outAxisResources (flatten state))) :
    ∃ p s, (p, Flat.leaf (Leaf.struct s)) ∈ flattenItems [] state ∧ k = join p ∧
      PyDict.get? (outAxisResources (flatten state)) k = some s := by
  unfold outAxisResources at h
  obtain ⟨⟨k', s⟩, hks, rfl⟩ := List.mem_map.1 h
  obtain ⟨⟨k, fv⟩, hkv, he⟩ := List.mem_filterMap.1 hks
  have hfv : fv = .leaf (.struct s) ∧ k = k' := by
    rcases fv with (_ | s') | _ <;> simp at he
    exact ⟨by rw [he.2], he.1⟩
  obtain ⟨rfl, rfl⟩ := hfv
  have hmem := hkv
  rw [flatten_eq state hs] at hkv
  obtain ⟨⟨p, fv⟩, hp, he⟩ := List.mem_map.1 hkv
  simp only [Prod.mk.injEq] at he
  obtain ⟨rfl, rfl⟩ := he
  refine ⟨p, s, hp, rfl, ?_⟩
  rw [get?_out state hs, get?_flatten_of_mem state hs hp]
  rfl

/-- The initialized values at a key. -/
theorem get?_init (state : List (Key × FlatDict.Tree (Leaf V S))) (fresh : List (Key × FlatDict.Tree V))
    (hf : ItemsOk fresh) (k : Key) :
    PyDict.get? ((flatten fresh).filterMap fun kv =>
        (PyDict.get? (outAxisResources (flatten state)) kv.1).map fun s => (kv.1, placed s kv.2)) k
      = (PyDict.get? (flatten fresh) k).bind fun fv =>
        (PyDict.get? (outAxisResources (flatten state)) k).map fun s => placed s fv := by
  have := get?_filterMap (fun (k : Key) (fv : Flat V) =>
    (PyDict.get? (outAxisResources (flatten state)) k).map fun s => placed s fv) (flatten fresh)
    (flatten_keys_nodup fresh hf) k
  rw [← this]
  congr 2
  funext kv
  rw [Option.map_map]
  rfl

/-- The result of `create_or_reuse_train_state`. -/
theorem createOrReuse_eq (state : List (Key × FlatDict.Tree (Leaf V S))) (fresh : List (Key × FlatDict.Tree V))
    (hs : ItemsOk state) (hf : ItemsOk fresh)
    (hcover : ∀ path s, leafOf state path = some (.struct s) → ∃ v, leafOf fresh path = some v) :
    createOrReuse state fresh = .ok (mapItems (reuse fresh) [] state) := by
  unfold createOrReuse
  simp only []
  have hcov : ∀ p s, (p, Flat.leaf (Leaf.struct s)) ∈ flattenItems [] state → ∃ v, leafOf fresh p = some v ∧
      PyDict.get? (flatten fresh) (join p) = some (.leaf v) := by
    intro p s hp
    have hl : leafOf state p = some (.struct s) := (mem_flattenItems state hs p _).1 hp
    obtain ⟨v, hv⟩ := hcover p s hl
    exact ⟨v, hv, (get?_flatten_leaf fresh hf p (flattenItems_paths state _ hp) (flattenItems_sep state hs _ hp) v).2 hv⟩
  have hno : ¬ ((PyDict.keys (outAxisResources (flatten state))).any fun k =>
      (PyDict.get? ((flatten fresh).filterMap fun kv =>
        (PyDict.get? (outAxisResources (flatten state)) kv.1).map fun s => (kv.1, placed s kv.2)) k).isNone) = true := by
    rw [List.any_eq_true]
    rintro ⟨k, hk, hn⟩
    obtain ⟨p, s, hp, rfl, hg⟩ := keys_out_sub state hs hk
    obtain ⟨v, _, hv⟩ := hcov p s hp
    rw [get?_init state fresh hf, hv, hg] at hn
    simp at hn
  rw [if_neg hno]
  change (unflatten (List.foldl (fun (d : PyDict Key (Flat (Leaf V S))) (kv : Key × Flat (Leaf V S)) =>
    PyDict.set d kv.1 kv.2) (flatten state) _) >>= _) = _
  have hflat : List.foldl (fun d kv => PyDict.set d kv.1 kv.2) (flatten state) ((flatten fresh).filterMap fun kv =>
      (PyDict.get? (outAxisResources (flatten state)) kv.1).map fun s => (kv.1, placed s kv.2))
      = flatten (mapItems (reuse fresh) [] state) := by
    rw [foldl_set_map _ _ (flatten_keys_nodup state hs)]
    · rw [flatten_eq _ (mapItems_ok _ [] state hs), flattenItems_map]
      conv_lhs => rw [flatten_eq state hs]
      rw [List.map_map, List.map_map]
      apply List.map_congr_left
      rintro ⟨p, fv⟩ hp
      simp only [Function.comp, Prod.mk.injEq, true_and]
      rw [← flatten_eq state hs, get?_init state fresh hf, get?_out state hs, get?_flatten_of_mem state hs hp]
      rcases fv with (⟨v, s⟩ | s) | _
      · simp [mapFlat, reuse]
      · obtain ⟨v, hv1, hv2⟩ := hcov p s hp
        rw [hv2]
        simp [mapFlat, reuse, hv1, placed]
      · simp [mapFlat]
    · have h1 := keys_filterMap_sublist (fun (k : Key) (fv : Flat V) =>
        (PyDict.get? (outAxisResources (flatten state)) k).map fun s => placed s fv) (flatten fresh)
      have h2 := h1.nodup (flatten_keys_nodup fresh hf)
      simpa [PyDict.keys, Option.map_map, Function.comp_def] using h2
    · intro k hk
      obtain ⟨⟨k', w⟩, hkw, rfl⟩ := List.mem_map.1 hk
      obtain ⟨⟨k, fv⟩, hkv, he⟩ := List.mem_filterMap.1 hkw
      simp only [Option.map_eq_some_iff] at he
      obtain ⟨s, hs', he⟩ := he
      simp only [Prod.mk.injEq] at he
      obtain ⟨rfl, rfl⟩ := he
      rw [get?_out state hs] at hs'
      obtain ⟨fv', h1, _⟩ := Option.bind_eq_some_iff.1 hs'
      by_contra hcon
      have h1' := h1
      rw [(PyDict.get?_eq_none _ _).2 hcon] at h1'
      simp at h1'
  rw [hflat, unflatten_flatten _ (mapItems_ok _ [] state hs)]
  change fromStateItems state (mapItems (reuse fresh) [] state) = _
  have := fromStateItems_map (reuse fresh) [] state [] hs (by simp [PyDict.keys])
  rwa [List.nil_append] at this

end Verif.Trainer
