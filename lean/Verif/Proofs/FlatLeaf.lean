import Verif.Proofs.Optimizer

/-! The entries of a flattened dict are the leaves of the nested dict. -/

namespace Verif.FlatDict

open Verif Verif.TreeSpec

variable {V W : Type}

theorem lookup_none {T : Type} {k : Key} {l : List (Key × T)} (h : k ∉ PyDict.keys l) : lookup k l = none := by
  induction l with
  | nil => rfl
  | cons kt l ih =>
    obtain ⟨k', t⟩ := kt
    simp only [PyDict.keys, List.map_cons, List.mem_cons, not_or] at h
    rw [lookup, if_neg (Ne.symm h.1)]
    exact ih h.2

mutual
theorem mem_flattenAt (t : FlatDict.Tree V) (ht : t.Ok) (path : List Key) (v : V) :
    (path, Flat.leaf v) ∈ flattenAt [] t ↔ leafAt path t = some v := by
  match t with
  | .leaf w =>
    rw [flattenAt]
    cases path with
    | nil => simp [leafAt, eq_comm]
    | cons k ks => simp [leafAt]
  | .node [] =>
    rw [flattenAt]
    cases path with
    | nil => simp [leafAt]
    | cons k ks => simp [leafAt, lookup]
  | .node (kt :: l) =>
    rw [flattenAt]
    exact mem_flattenItems (kt :: l) (by simpa [Tree.Ok] using ht) path v
theorem mem_flattenItems (l : List (Key × FlatDict.Tree V)) (hl : ItemsOk l) (path : List Key) (v : V) :
    (path, Flat.leaf v) ∈ flattenItems [] l ↔ leafAt path (.node l) = some v := by
  match l with
  | [] =>
    cases path with
    | nil => simp [leafAt, flattenItems]
    | cons k ks => simp [leafAt, lookup, flattenItems]
  | (k, t) :: l =>
    rw [ItemsOk] at hl
    obtain ⟨h1, h2, h3, h4⟩ := hl
    have ih1 := fun ks => mem_flattenAt t h3 ks v
    have ih2 := mem_flattenItems l h4 path v
    rw [flattenItems, List.mem_append, List.nil_append, flattenAt_prefix [k] t, ih2]
    cases path with
    | nil => simp [leafAt]
    | cons k' ks =>
      have e : (k' :: ks, Flat.leaf v) ∈ (flattenAt [] t).map (fun pv => ([k] ++ pv.1, pv.2)) ↔
          k = k' ∧ (ks, Flat.leaf v) ∈ flattenAt [] t := by
        simp only [List.mem_map, Prod.mk.injEq, List.singleton_append, List.cons.injEq, Prod.exists]
        constructor
        · rintro ⟨a, b, hm, ⟨rfl, rfl⟩, rfl⟩; exact ⟨rfl, hm⟩
        · rintro ⟨rfl, hm⟩; exact ⟨ks, _, hm, ⟨rfl, rfl⟩, rfl⟩
      rw [e, ih1]
      by_cases hk : k = k'
      · subst hk
        have h0 : lookup k l = none := lookup_none h2
        simp [leafAt, lookup, h0]
      · simp [leafAt, lookup, hk]
end

/-- An entry of the flattened dict. -/
theorem get?_flatten_of_mem (l : List (Key × FlatDict.Tree V)) (hl : ItemsOk l) {p : List Key} {fv : Flat V}
    (h : (p, fv) ∈ flattenItems [] l) : PyDict.get? (flatten l) (join p) = some fv := by
  have hk : (PyDict.keys (flatten l)).Nodup := by
    rw [flatten_eq l hl]
    exact Optimizer.keys_flat_nodup l hl
  rw [PyDict.get?_eq_some _ hk, flatten_eq l hl]
  exact List.mem_map.2 ⟨(p, fv), h, rfl⟩

theorem flatten_keys_nodup (l : List (Key × FlatDict.Tree V)) (hl : ItemsOk l) : (PyDict.keys (flatten l)).Nodup := by
  rw [flatten_eq l hl]
  exact Optimizer.keys_flat_nodup l hl

/-- The entry of the flattened dict at a path is the leaf of the nested dict at this path. -/
theorem get?_flatten_leaf (l : List (Key × FlatDict.Tree V)) (hl : ItemsOk l) (p : List Key) (hne : p ≠ [])
    (hp : ∀ k ∈ p, '/' ∉ k) (v : V) : PyDict.get? (flatten l) (join p) = some (.leaf v) ↔ leafOf l p = some v := by
  rw [PyDict.get?_eq_some _ (flatten_keys_nodup l hl)]
  unfold leafOf
  rw [← mem_flattenItems l hl, flatten_eq l hl]
  constructor
  · intro h
    obtain ⟨⟨q, fv⟩, hq, he⟩ := List.mem_map.1 h
    simp only [Prod.mk.injEq] at he
    have : p = q := by
      rw [← split_join p hne hp, ← split_join q (flattenItems_paths l _ hq) (flattenItems_sep l hl _ hq), he.1]
    rw [this, ← he.2]
    exact hq
  · intro h
    exact List.mem_map.2 ⟨_, h, rfl⟩

theorem get?_filterMap {κ ν μ : Type} [DecidableEq κ] (g : κ → ν → Option μ) (d : PyDict κ ν) (hd : (PyDict.keys d).Nodup)
    (k : κ) : PyDict.get? (d.filterMap fun kv => (g kv.1 kv.2).map fun w => (kv.1, w)) k
      = (PyDict.get? d k).bind (g k) := by
  induction d with
  | nil => simp [PyDict.get?]
  | cons e d ih =>
    obtain ⟨k0, v0⟩ := e
    simp only [PyDict.keys, List.map_cons, List.nodup_cons] at hd
    have ih := ih hd.2
    by_cases hk : k0 = k
    · subst hk
      have h0 : PyDict.get? d k0 = none := (PyDict.get?_eq_none _ _).2 hd.1
      rw [h0] at ih
      simp only [PyDict.get?, if_true, Option.bind_some, Option.bind_none] at ih ⊢
      cases hg : g k0 v0 with
      | none => simpa [List.filterMap_cons, hg] using ih
      | some w => simp [hg, PyDict.get?]
    · simp only [PyDict.get?, if_neg hk]
      cases hg : g k0 v0 with
      | none => simpa [List.filterMap_cons, hg] using ih
      | some w => simpa [List.filterMap_cons, hg, PyDict.get?, hk] using ih

theorem keys_filterMap_sublist {κ ν μ : Type} (g : κ → ν → Option μ) (d : PyDict κ ν) :
    (PyDict.keys (d.filterMap fun kv => (g kv.1 kv.2).map fun w => (kv.1, w))).Sublist (PyDict.keys d) := by
  induction d with
  | nil => simp [PyDict.keys]
  | cons e d ih =>
    obtain ⟨k0, v0⟩ := e
    simp only [PyDict.keys] at ih ⊢
    cases hg : g k0 v0 with
    | none => simpa [List.filterMap_cons, hg] using ih.cons _
    | some w => simpa [List.filterMap_cons, hg] using ih

/-- Overwriting existing entries. -/
theorem foldl_set_map {κ ν : Type} [DecidableEq κ] (new : List (κ × ν)) : ∀ (d : PyDict κ ν), (PyDict.keys d).Nodup →
    (new.map Prod.fst).Nodup → (∀ k ∈ new.map Prod.fst, k ∈ PyDict.keys d) →
    new.foldl (fun d kv => PyDict.set d kv.1 kv.2) d
      = d.map fun kv => (kv.1, (PyDict.get? new kv.1).getD kv.2) := by
  have set_eq : ∀ (d : PyDict κ ν) (k : κ) (v : ν), (PyDict.keys d).Nodup → k ∈ PyDict.keys d →
      PyDict.set d k v = d.map fun kv => (kv.1, if k = kv.1 then v else kv.2) := by
    intro d k v
    induction d with
    | nil => intro _ h; simp [PyDict.keys] at h
    | cons e d ih =>
      obtain ⟨k0, v0⟩ := e
      intro hd hk
      simp only [PyDict.keys, List.map_cons, List.nodup_cons, List.mem_cons] at hd hk
      rw [PyDict.set]
      by_cases h0 : k0 = k
      · subst h0
        rw [if_pos rfl]
        simp only [List.map_cons, if_true]
        congr 1
        symm
        rw [List.map_congr_left (g := id) (by
          rintro ⟨a, b⟩ hab
          have : a ≠ k0 := fun e => hd.1 (e ▸ List.mem_map.2 ⟨_, hab, rfl⟩)
          simp [Ne.symm this])]
        simp
      · rw [if_neg h0, ih hd.2 (hk.resolve_left (Ne.symm h0))]
        simp [Ne.symm h0]
  induction new with
  | nil => intro d _ _ _; simp [PyDict.get?]
  | cons e new ih =>
    obtain ⟨k, v⟩ := e
    intro d hd hn hk
    simp only [List.map_cons, List.nodup_cons, List.mem_cons, forall_eq_or_imp] at hn hk
    have hkeys : PyDict.keys (PyDict.set d k v) = PyDict.keys d := by rw [PyDict.keys_set, if_pos hk.1]
    rw [List.foldl_cons, ih _ (by rw [hkeys]; exact hd) hn.2 (by rw [hkeys]; exact hk.2), set_eq d k v hd hk.1,
      List.map_map]
    apply List.map_congr_left
    rintro ⟨a, b⟩ _
    simp only [Function.comp, PyDict.get?]
    by_cases h0 : k = a
    · subst h0
      have : PyDict.get? new k = none := (PyDict.get?_eq_none _ _).2 hn.1
      simp [this]
    · simp [h0]

end Verif.FlatDict
