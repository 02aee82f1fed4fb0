import Verif.Model.Optimizer
import Verif.Spec.Mesh
import Verif.Spec.Trees
import Verif.Proofs.HardwareMesh
import Verif.Proofs.ExceptLemmas

/-! Lemmas about trees of tensors. -/

namespace Verif.Optimizer

open Verif FlatDict Partitioning MeshSpec TreeSpec

variable {V W X : Type}

mutual
theorem treeMap_eq (f : V → W) (p : List Key) (t : FlatDict.Tree V) : treeMap f t = mapTree (fun _ => f) p t := by
  match t with
  | .leaf v => simp [treeMap, mapTree]
  | .node l => rw [treeMap, mapTree, itemsMap_eq f p l]
theorem itemsMap_eq (f : V → W) (p : List Key) (l : List (Key × FlatDict.Tree V)) :
    itemsMap f l = mapItems (fun _ => f) p l := by
  match l with
  | [] => simp [itemsMap, mapItems]
  | (k, t) :: l => rw [itemsMap, mapItems, treeMap_eq f (p ++ [k]) t, itemsMap_eq f p l]
end

mutual
theorem mapTree_comp (f : List Key → W → X) (g : List Key → V → W) (p : List Key) (t : FlatDict.Tree V) :
    mapTree f p (mapTree g p t) = mapTree (fun q v => f q (g q v)) p t := by
  match t with
  | .leaf v => simp [mapTree]
  | .node l => rw [mapTree, mapTree, mapTree, mapItems_comp f g p l]
theorem mapItems_comp (f : List Key → W → X) (g : List Key → V → W) (p : List Key) (l : List (Key × FlatDict.Tree V)) :
    mapItems f p (mapItems g p l) = mapItems (fun q v => f q (g q v)) p l := by
  match l with
  | [] => simp [mapItems]
  | (k, t) :: l => rw [mapItems, mapItems, mapItems, mapTree_comp f g (p ++ [k]) t, mapItems_comp f g p l]
end

mutual
theorem mapTree_id (p : List Key) (t : FlatDict.Tree V) : mapTree (fun _ v => v) p t = t := by
  match t with
  | .leaf v => simp [mapTree]
  | .node l => rw [mapTree, mapItems_id p l]
theorem mapItems_id (p : List Key) (l : List (Key × FlatDict.Tree V)) : mapItems (fun _ v => v) p l = l := by
  match l with
  | [] => simp [mapItems]
  | (k, t) :: l => rw [mapItems, mapTree_id (p ++ [k]) t, mapItems_id p l]
end

mutual
theorem mapTree_ok_iff (f : List Key → V → W) (p : List Key) (t : FlatDict.Tree V) :
    (mapTree f p t).Ok ↔ t.Ok := by
  match t with
  | .leaf v => simp [mapTree, Tree.Ok]
  | .node l =>
    rw [mapTree, Tree.Ok, Tree.Ok]
    exact mapItems_ok_iff f p l
theorem mapItems_ok_iff (f : List Key → V → W) (p : List Key) (l : List (Key × FlatDict.Tree V)) :
    ItemsOk (mapItems f p l) ↔ ItemsOk l := by
  match l with
  | [] => simp [mapItems, ItemsOk]
  | (k, t) :: l =>
    rw [mapItems, ItemsOk, ItemsOk, mapItems_keys, mapTree_ok_iff f (p ++ [k]) t, mapItems_ok_iff f p l]
end

mutual
theorem noEmpty_map (f : List Key → V → W) (p : List Key) (t : FlatDict.Tree V) :
    NoEmpty (mapTree f p t) ↔ NoEmpty t := by
  match t with
  | .leaf v => simp [mapTree, NoEmpty]
  | .node [] => simp [mapTree, mapItems, NoEmpty]
  | .node ((k, t) :: l) =>
    have h1 := noEmpty_map f (p ++ [k]) t
    have h2 := noEmptyItems_map f p l
    rw [mapTree, mapItems, NoEmpty, NoEmpty, NoEmptyItems, NoEmptyItems, h1, h2]
theorem noEmptyItems_map (f : List Key → V → W) (p : List Key) (l : List (Key × FlatDict.Tree V)) :
    NoEmptyItems (mapItems f p l) ↔ NoEmptyItems l := by
  match l with
  | [] => simp [mapItems, NoEmptyItems]
  | (k, t) :: l =>
    rw [mapItems, NoEmptyItems, NoEmptyItems, noEmpty_map f (p ++ [k]) t, noEmptyItems_map f p l]
end

mutual
theorem exists_pair (R : V → W → Prop) (p : List Key) (t : FlatDict.Tree V) (t' : FlatDict.Tree W)
    (h : TreeRel (fun _ => R) p t t') :
    ∃ x : FlatDict.Tree {vw : V × W // R vw.1 vw.2},
      t = mapTree (fun _ x => x.1.1) p x ∧ t' = mapTree (fun _ x => x.1.2) p x := by
  match t, t' with
  | .leaf v, .leaf w =>
    rw [TreeRel] at h
    exact ⟨.leaf ⟨(v, w), h⟩, by simp [mapTree], by simp [mapTree]⟩
  | .node l, .node l' =>
    rw [TreeRel] at h
    obtain ⟨x, h1, h2⟩ := exists_pair_items R p l l' h
    exact ⟨.node x, by rw [mapTree, h1], by rw [mapTree, h2]⟩
  | .leaf v, .node l' => simp [TreeRel] at h
  | .node l, .leaf w => simp [TreeRel] at h
theorem exists_pair_items (R : V → W → Prop) (p : List Key) (l : List (Key × FlatDict.Tree V))
    (l' : List (Key × FlatDict.Tree W)) (h : ItemsRel (fun _ => R) p l l') :
    ∃ x : List (Key × FlatDict.Tree {vw : V × W // R vw.1 vw.2}),
      l = mapItems (fun _ x => x.1.1) p x ∧ l' = mapItems (fun _ x => x.1.2) p x := by
  match l, l' with
  | [], [] => exact ⟨[], by simp [mapItems], by simp [mapItems]⟩
  | (k, t) :: l, (k', t') :: l' =>
    rw [ItemsRel] at h
    obtain ⟨rfl, h1, h2⟩ := h
    obtain ⟨x, e1, e2⟩ := exists_pair R (p ++ [k]) t t' h1
    obtain ⟨y, e3, e4⟩ := exists_pair_items R p l l' h2
    exact ⟨(k, x) :: y, by rw [mapItems, ← e1, ← e3], by rw [mapItems, ← e2, ← e4]⟩
  | [], _ :: _ => simp [ItemsRel] at h
  | _ :: _, [] => simp [ItemsRel] at h
end

mutual
theorem pair_rel (R : W → X → Prop) (a : List Key → V → W) (b : List Key → V → X) (p : List Key) (t : FlatDict.Tree V)
    (h : ∀ q v, R (a q v) (b q v)) : TreeRel (fun _ => R) p (mapTree a p t) (mapTree b p t) := by
  match t with
  | .leaf v => rw [mapTree, mapTree, TreeRel]; exact h p v
  | .node l => rw [mapTree, mapTree, TreeRel]; exact pair_rel_items R a b p l h
theorem pair_rel_items (R : W → X → Prop) (a : List Key → V → W) (b : List Key → V → X) (p : List Key)
    (l : List (Key × FlatDict.Tree V)) (h : ∀ q v, R (a q v) (b q v)) :
    ItemsRel (fun _ => R) p (mapItems a p l) (mapItems b p l) := by
  match l with
  | [] => simp [mapItems, ItemsRel]
  | (k, t) :: l =>
    rw [mapItems, mapItems, ItemsRel]
    exact ⟨rfl, pair_rel R a b (p ++ [k]) t h, pair_rel_items R a b p l h⟩
end

theorem mapItems_length (f : List Key → V → W) (p : List Key) (l : List (Key × FlatDict.Tree V)) :
    (mapItems f p l).length = l.length := by
  induction l with
  | nil => simp [mapItems]
  | cons kt l ih =>
    obtain ⟨k, t⟩ := kt
    rw [mapItems, List.length_cons, List.length_cons, ih]

theorem get?_append_cons (pre : List (Key × FlatDict.Tree W)) (k : Key)
    (t : FlatDict.Tree W) (l : List (Key × FlatDict.Tree W)) (h : k ∉ PyDict.keys pre) :
    PyDict.get? (pre ++ (k, t) :: l) k = some t := by
  induction pre with
  | nil => simp [PyDict.get?]
  | cons kv pre ih =>
    obtain ⟨k', v'⟩ := kv
    simp only [PyDict.keys, List.map_cons, List.mem_cons, not_or] at h
    rw [List.cons_append, PyDict.get?]
    rw [if_neg (fun e => h.1 e.symm)]
    exact ih h.2

mutual
theorem treeMap2_map (f : W → X → Except PyErr Z) (a : List Key → V → W) (b : List Key → V → X) (c : List Key → V → Z)
    (h : ∀ q v, f (a q v) (b q v) = .ok (c q v)) (p : List Key) (t : FlatDict.Tree V) (ht : t.Ok) :
    treeMap2 f (mapTree a p t) (mapTree b p t) = .ok (mapTree c p t) := by
  match t with
  | .leaf v =>
    rw [mapTree, mapTree, mapTree, treeMap2, h]
    rfl
  | .node l =>
    rw [mapTree, mapTree, mapTree, treeMap2, mapItems_length, mapItems_length, if_neg (by simp)]
    have := itemsMap2_map f a b c h p l (by simpa [Tree.Ok] using ht) [] (by simp [PyDict.keys])
    rw [List.nil_append] at this
    rw [this]
    rfl
theorem itemsMap2_map (f : W → X → Except PyErr Z) (a : List Key → V → W) (b : List Key → V → X)
    (c : List Key → V → Z) (h : ∀ q v, f (a q v) (b q v) = .ok (c q v)) (p : List Key)
    (l : List (Key × FlatDict.Tree V)) (hl : ItemsOk l) (pre : List (Key × FlatDict.Tree X))
    (hpre : ∀ k ∈ PyDict.keys l, k ∉ PyDict.keys pre) :
    itemsMap2 f (mapItems a p l) (pre ++ mapItems b p l) = .ok (mapItems c p l) := by
  match l with
  | [] => simp [mapItems, itemsMap2]
  | (k, t) :: l =>
    rw [ItemsOk] at hl
    obtain ⟨_, hk, ht, hl⟩ := hl
    rw [mapItems, mapItems, mapItems, itemsMap2, get?_append_cons pre k _ _ (hpre k (by simp [PyDict.keys]))]
    simp only []
    rw [treeMap2_map f a b c h (p ++ [k]) t ht]
    change (itemsMap2 f (mapItems a p l) (pre ++ (k, mapTree b (p ++ [k]) t) :: mapItems b p l) >>= _) = _
    have e : pre ++ (k, mapTree b (p ++ [k]) t) :: mapItems b p l =
        (pre ++ [(k, mapTree b (p ++ [k]) t)]) ++ mapItems b p l := by simp
    rw [e, itemsMap2_map f a b c h p l hl _ (by
      intro k' hk' hm
      simp only [PyDict.keys, List.map_append, List.map_cons, List.map_nil, List.mem_append, List.mem_singleton] at hm
      rcases hm with hm | hm
      · exact hpre k' (by simp only [PyDict.keys, List.map_cons, List.mem_cons]; exact Or.inr hk') hm
      · exact hk (hm ▸ hk'))]
    rfl
end

theorem dictMap2_map (f : W → X → Except PyErr Z) (a : List Key → V → W) (b : List Key → V → X) (c : List Key → V → Z)
    (h : ∀ q v, f (a q v) (b q v) = .ok (c q v)) (p : List Key) (l : List (Key × FlatDict.Tree V)) (hl : ItemsOk l) :
    dictMap2 f (mapItems a p l) (mapItems b p l) = .ok (mapItems c p l) := by
  unfold dictMap2
  rw [mapItems_length, mapItems_length, if_neg (by simp)]
  exact itemsMap2_map f a b c h p l hl [] (by simp [PyDict.keys])

mutual
theorem flattenAt_leaves (t : FlatDict.Tree V) (h : NoEmpty t) (p : List Key) :
    ∀ pv ∈ flattenAt p t, ∃ v, pv.2 = .leaf v := by
  match t with
  | .leaf v => simp [flattenAt]
  | .node [] => simp [NoEmpty] at h
  | .node (kt :: l) =>
    rw [flattenAt]
    rw [NoEmpty] at h
    exact flattenItems_leaves (kt :: l) h p
theorem flattenItems_leaves (l : List (Key × FlatDict.Tree V)) (h : NoEmptyItems l) (p : List Key) :
    ∀ pv ∈ flattenItems p l, ∃ v, pv.2 = .leaf v := by
  match l with
  | [] => simp [flattenItems]
  | (k, t) :: l =>
    rw [NoEmptyItems] at h
    intro pv hpv
    rw [flattenItems, List.mem_append] at hpv
    rcases hpv with hpv | hpv
    · exact flattenAt_leaves t h.1 (p ++ [k]) pv hpv
    · exact flattenItems_leaves l h.2 p pv hpv
end

theorem leafEntry_filterMap (L : List (List Key × Flat V)) (h : ∀ pv ∈ L, ∃ v, pv.2 = .leaf v) :
    (L.filterMap leafEntry).map (fun kv => (kv.1, Flat.leaf kv.2)) = L.map fun pv => (join pv.1, pv.2) := by
  induction L with
  | nil => rfl
  | cons pv L ih =>
    obtain ⟨p, fv⟩ := pv
    obtain ⟨v, hv⟩ := h (p, fv) (by simp)
    simp only at hv
    subst hv
    have : leafEntry (p, Flat.leaf v) = some (join p, v) := rfl
    rw [List.filterMap_cons, this]
    simp only [List.map_cons]
    rw [ih (fun pv hpv => h pv (by simp [hpv]))]

theorem keys_flat_nodup (l : List (Key × FlatDict.Tree V)) (hl : ItemsOk l) :
    (((flattenItems [] l).map fun pv => (join pv.1, pv.2)).map Prod.fst).Nodup := by
  have := flattenItems_nodup l hl
  rw [List.map_map]
  have e : (Prod.fst ∘ fun pv : List Key × Flat V => (join pv.1, pv.2)) = join ∘ Prod.fst := rfl
  rw [e, ← List.map_map]
  apply List.Nodup.map_on _ this
  intro a ha b hb hab
  obtain ⟨pa, hpa, rfl⟩ := List.mem_map.1 ha
  obtain ⟨pb, hpb, rfl⟩ := List.mem_map.1 hb
  rw [← split_join pa.1 (flattenItems_paths l pa hpa) (flattenItems_sep l hl pa hpa),
    ← split_join pb.1 (flattenItems_paths l pb hpb) (flattenItems_sep l hl pb hpb), hab]

/-- The flattened dict without empty dicts. -/
theorem flattenLeaves_eq (l : List (Key × FlatDict.Tree V)) (hl : ItemsOk l) (hn : NoEmptyItems l) :
    flattenLeaves l = (flattenItems [] l).filterMap leafEntry ∧ (PyDict.keys (flattenLeaves l)).Nodup := by
  have e := leafEntry_filterMap (flattenItems [] l) (flattenItems_leaves l hn [])
  have hk : (((flattenItems [] l).filterMap leafEntry).map Prod.fst).Nodup := by
    have := keys_flat_nodup l hl
    rw [← e, List.map_map] at this
    exact this
  have h1 : flattenLeaves l = (flattenItems [] l).filterMap leafEntry := by
    unfold flattenLeaves
    exact PyDict.ofItems_of_nodup _ hk
  exact ⟨h1, by rw [h1]; exact hk⟩

theorem flattenLeaves_map (f : List Key → V → W) (l : List (Key × FlatDict.Tree V)) (hl : ItemsOk l)
    (hn : NoEmptyItems l) :
    flattenLeaves (mapItems f [] l) =
      (flattenItems [] l).filterMap fun pv => (leafEntry pv).map fun kv => (kv.1, f pv.1 kv.2) := by
  rw [(flattenLeaves_eq _ ((mapItems_ok_iff f [] l).2 hl) ((noEmptyItems_map f [] l).2 hn)).1, flattenItems_map,
    List.filterMap_map]
  congr 1
  funext pv
  obtain ⟨p, fv⟩ := pv
  cases fv <;> rfl

mutual
theorem fromState_shape (g : List Key → V → W) (p : List Key) (t : FlatDict.Tree V) (s : FlatDict.Tree X) :
    fromStateDict (mapTree g p t) s = fromStateDict t s := by
  match t, s with
  | .leaf v, s => rw [mapTree, fromStateDict, fromStateDict]
  | .node l, .node states =>
    rw [mapTree, fromStateDict, fromStateDict, fromStateItems_shape g p l states]
  | .node l, .leaf x =>
    rw [mapTree, fromStateDict, fromStateDict]
    cases l with
    | nil => simp [mapItems]
    | cons kt l => obtain ⟨k, t⟩ := kt; simp [mapItems]
theorem fromStateItems_shape (g : List Key → V → W) (p : List Key) (l : List (Key × FlatDict.Tree V))
    (s : List (Key × FlatDict.Tree X)) : fromStateItems (mapItems g p l) s = fromStateItems l s := by
  match l with
  | [] => simp [mapItems, fromStateItems]
  | (k, t) :: l =>
    rw [mapItems, fromStateItems, fromStateItems]
    cases PyDict.get? s k with
    | none => rfl
    | some x =>
      simp only []
      rw [fromState_shape g (p ++ [k]) t x, fromStateItems_shape g p l s]
end

/-- Rebuilding a tree from the flattened values of a tree of the same structure. -/
theorem rebuild_map (g : List Key → V → W) (f : List Key → V → X) (l : List (Key × FlatDict.Tree V)) (hl : ItemsOk l)
    (hn : NoEmptyItems l) (flat : PyDict Key X) (hflat : flat = flattenLeaves (mapItems f [] l)) :
    rebuild (mapItems g [] l) flat = .ok (mapItems f [] l) := by
  subst hflat
  have hl' := (mapItems_ok_iff f [] l).2 hl
  have hn' := (noEmptyItems_map f [] l).2 hn
  unfold rebuild
  have e : ((flattenLeaves (mapItems f [] l)).map fun kv => (kv.1, Flat.leaf kv.2)) = flatten (mapItems f [] l) := by
    rw [(flattenLeaves_eq _ hl' hn').1, leafEntry_filterMap _ (flattenItems_leaves _ hn' []), flatten_eq _ hl']
  rw [e, unflatten_flatten _ hl']
  change fromStateItems (mapItems g [] l) (mapItems f [] l) = _
  rw [fromStateItems_shape]
  have := fromStateItems_map f [] l [] hl (by simp [PyDict.keys])
  rwa [List.nil_append] at this

theorem lookup_mapItems (f : List Key → V → W) (p : List Key) (l : List (Key × FlatDict.Tree V)) (k : Key) :
    lookup k (mapItems f p l) = (lookup k l).map (mapTree f (p ++ [k])) := by
  induction l with
  | nil => simp [mapItems, lookup]
  | cons kt l ih =>
    obtain ⟨k', t⟩ := kt
    rw [mapItems, lookup, lookup, ih]
    split
    · rename_i h
      subst h
      rfl
    · rfl

theorem leafAt_map (f : List Key → V → W) (path : List Key) :
    ∀ (p : List Key) (t : FlatDict.Tree V), leafAt path (mapTree f p t) = (leafAt path t).map (f (p ++ path)) := by
  induction path with
  | nil =>
    intro p t
    cases t <;> simp [mapTree, leafAt]
  | cons k ks ih =>
    intro p t
    cases t with
    | leaf v => simp [mapTree, leafAt]
    | node l =>
      rw [mapTree, leafAt, leafAt, lookup_mapItems]
      cases lookup k l with
      | none => rfl
      | some t =>
        simp only [Option.map_some]
        rw [ih (p ++ [k]) t]
        simp

theorem leafOf_map (f : List Key → V → W) (l : List (Key × FlatDict.Tree V)) (path : List Key) :
    leafOf (mapItems f [] l) path = (leafOf l path).map (f path) := by
  have := leafAt_map f path [] (.node l)
  rw [mapTree, List.nil_append] at this
  exact this

/-- Same keys in the same order and leaves of the same size. -/
def SameShape (u p : Params) : Prop := ItemsRel (fun _ (a b : Tensor) => a.length = b.length) [] u p

/-- The paths and values of the leaves. -/
def leafPaths (l : List (Key × FlatDict.Tree V)) : List (List Key × V) :=
  (flattenItems [] l).filterMap fun pv => (leafEntry pv).map fun kv => (pv.1, kv.2)

theorem flattenLeaves_paths (f : List Key → V → W) (l : List (Key × FlatDict.Tree V)) (hl : ItemsOk l)
    (hn : NoEmptyItems l) :
    flattenLeaves (mapItems f [] l) = (leafPaths l).map fun pv => (join pv.1, f pv.1 pv.2) := by
  rw [flattenLeaves_map f l hl hn, leafPaths, List.map_filterMap]
  congr 1
  funext pv
  obtain ⟨p, fv⟩ := pv
  cases fv <;> rfl

mutual
theorem TreeRel.trans {R : V → V → Prop} (hR : ∀ a b c, R a b → R b c → R a c) (p : List Key)
    (t t' t'' : FlatDict.Tree V) (h : TreeRel (fun _ => R) p t t') (h' : TreeRel (fun _ => R) p t' t'') :
    TreeRel (fun _ => R) p t t'' := by
  match t, t', t'' with
  | .leaf a, .leaf b, .leaf c =>
    rw [TreeRel] at h h' ⊢
    exact hR a b c h h'
  | .node a, .node b, .node c =>
    rw [TreeRel] at h h' ⊢
    exact ItemsRel.trans hR p a b c h h'
  | .leaf a, .node b, _ => simp [TreeRel] at h
  | .node a, .leaf b, _ => simp [TreeRel] at h
  | _, .leaf a, .node b => simp [TreeRel] at h'
  | _, .node a, .leaf b => simp [TreeRel] at h'
theorem ItemsRel.trans {R : V → V → Prop} (hR : ∀ a b c, R a b → R b c → R a c) (p : List Key)
    (l l' l'' : List (Key × FlatDict.Tree V)) (h : ItemsRel (fun _ => R) p l l')
    (h' : ItemsRel (fun _ => R) p l' l'') : ItemsRel (fun _ => R) p l l'' := by
  match l, l', l'' with
  | [], [], [] => simp [ItemsRel]
  | (k, a) :: l, (k', b) :: l', (k'', c) :: l'' =>
    rw [ItemsRel] at h h' ⊢
    obtain ⟨rfl, h1, h2⟩ := h
    obtain ⟨rfl, h3, h4⟩ := h'
    exact ⟨rfl, TreeRel.trans hR _ a b c h1 h3, ItemsRel.trans hR p l l' l'' h2 h4⟩
  | [], _ :: _, _ => simp [ItemsRel] at h
  | _ :: _, [], _ => simp [ItemsRel] at h
  | _, [], _ :: _ => simp [ItemsRel] at h'
  | _, _ :: _, [] => simp [ItemsRel] at h'
end

theorem SameShape.trans {u p q : Params} (h : SameShape u p) (h' : SameShape p q) : SameShape u q :=
  ItemsRel.trans (R := fun a b : Tensor => a.length = b.length) (fun _ _ _ => Eq.trans) [] u p q h h'

theorem SameShape.map (f : List Key → Tensor → Tensor) (hf : ∀ q t, (f q t).length = t.length) (u : Params) :
    SameShape u (mapItems f [] u) := by
  have := pair_rel_items (fun a b : Tensor => a.length = b.length) (fun _ v => v) f [] u
    (fun q v => (hf q v).symm)
  rwa [mapItems_id] at this

theorem SameShape.refl (u : Params) : SameShape u u := by
  have := SameShape.map (fun _ v => v) (fun _ _ => rfl) u
  rwa [mapItems_id] at this

theorem SameShape.symm {u p : Params} (h : SameShape u p) : SameShape p u := by
  obtain ⟨x, rfl, rfl⟩ := exists_pair_items _ [] u p h
  exact pair_rel_items (fun a b : Tensor => a.length = b.length) (fun _ x => x.1.2) (fun _ x => x.1.1) [] x
    (fun _ x => x.2.symm)

theorem SameShape.ok {u p : Params} (h : SameShape u p) (hu : ItemsOk u) : ItemsOk p := by
  obtain ⟨x, rfl, rfl⟩ := exists_pair_items _ [] u p h
  exact (mapItems_ok_iff _ _ _).2 ((mapItems_ok_iff _ _ _).1 hu)

theorem SameShape.noEmpty {u p : Params} (h : SameShape u p) (hu : NoEmptyItems u) : NoEmptyItems p := by
  obtain ⟨x, rfl, rfl⟩ := exists_pair_items _ [] u p h
  exact (noEmptyItems_map _ _ _).2 ((noEmptyItems_map _ _ _).1 hu)

theorem decayLoop_ok (decay : Key → ℝ) {T : Type} (L : List T) (k : T → Key) (u p : T → Tensor)
    (h : ∀ x, (u x).length = (p x).length) :
    decayLoop decay (L.map fun x => (k x, u x)) (L.map p) =
      .ok (L.map fun x => (k x, List.zipWith (· + ·) (u x) (scaleT (decay (k x)) (p x)))) := by
  induction L with
  | nil => rfl
  | cons x L ih =>
    simp only [List.map_cons]
    rw [decayLoop, ih]
    have : addT (u x) (scaleT (decay (k x)) (p x)) = .ok (List.zipWith (· + ·) (u x) (scaleT (decay (k x)) (p x))) := by
      unfold addT
      rw [if_pos (by simp [scaleT, h])]
    rw [this]
    rfl


/-- What weight decay computes for trees of the same shape. -/
theorem decayUpdate_ok (decay : Key → ℝ) (x : List (Key × FlatDict.Tree {ab : Tensor × Tensor // ab.1.length = ab.2.length}))
    (hx : ItemsOk x) (hn : NoEmptyItems x) :
    decayUpdate decay (mapItems (fun _ x => x.1.1) [] x) (some (mapItems (fun _ x => x.1.2) [] x)) =
      .ok (mapItems (fun q x => List.zipWith (· + ·) x.1.1 (scaleT (decay (join q)) x.1.2)) [] x) := by
  unfold decayUpdate
  simp only []
  have e1 := flattenLeaves_paths (fun _ x => x.1.1) x hx hn
  have e2 := flattenLeaves_paths (fun _ x => x.1.2) x hx hn
  have e3 := flattenLeaves_paths
    (fun q x => List.zipWith (· + ·) x.1.1 (scaleT (decay (join q)) x.1.2)) x hx hn
  rw [e1, e2, List.map_map]
  have := decayLoop_ok decay (leafPaths x) (fun pv => join pv.1) (fun pv => pv.2.1.1) (fun pv => pv.2.1.2)
    (fun pv => pv.2.2)
  have e4 : (leafPaths x).map (Prod.snd ∘ fun pv => (join pv.1, pv.2.1.2)) = (leafPaths x).map fun pv => pv.2.1.2 := rfl
  rw [e4, this]
  change rebuild _ (PyDict.ofItems _) = _
  apply rebuild_map _ _ x hx hn
  rw [e3]
  apply PyDict.ofItems_of_nodup
  rw [← e3]
  exact (flattenLeaves_eq _ ((mapItems_ok_iff _ [] x).2 hx) ((noEmptyItems_map _ [] x).2 hn)).2

theorem scalingUpdate_ok (scale : Key → ℝ) (u : Params) (hu : ItemsOk u) (hn : NoEmptyItems u) :
    scalingUpdate scale u = .ok (mapItems (fun q t => scaleT (scale (join q)) t) [] u) := by
  unfold scalingUpdate
  have e1 := flattenLeaves_paths (fun _ t => t) u hu hn
  have e3 := flattenLeaves_paths (fun q t => scaleT (scale (join q)) t) u hu hn
  rw [mapItems_id] at e1
  have := rebuild_map (fun _ t => t) (fun q t => scaleT (scale (join q)) t) u hu hn
    (PyDict.ofItems ((flattenLeaves u).map fun kv => (kv.1, scaleT (scale kv.1) kv.2))) ?_
  · rwa [mapItems_id] at this
  · rw [e1, List.map_map, e3]
    apply PyDict.ofItems_of_nodup
    exact (congrArg (fun d => (PyDict.keys d).Nodup) e3).mp
      (flattenLeaves_eq _ ((mapItems_ok_iff _ [] u).2 hu) ((noEmptyItems_map _ [] u).2 hn)).2

theorem frozenFn_ok (search : Key → Bool) (st sf : Bool) (u : Params) (hu : ItemsOk u) (hn : NoEmptyItems u) :
    frozenFn search st sf u = .ok (mapItems (fun q _ => if search (join q) then st else sf) [] u) := by
  unfold frozenFn
  have e1 := flattenLeaves_paths (fun _ t => t) u hu hn
  have e3 := flattenLeaves_paths (fun q _ => if search (join q) then st else sf) u hu hn
  rw [mapItems_id] at e1
  have := rebuild_map (fun _ t => t) (fun q _ => if search (join q) then st else sf) u hu hn
    ((flattenLeaves u).map fun kv => (kv.1, if search kv.1 then st else sf)) ?_
  · rwa [mapItems_id] at this
  · rw [e1, List.map_map, e3]
    rfl

/-- The updates with the frozen leaves set to zero. -/
noncomputable def zeroed (frozen : Key → Bool) (u : Params) : Params :=
  mapItems (fun q t => if frozen (join q) then t.map (fun _ => 0) else t) [] u

theorem masked_ok (search : Key → Bool) (st sf : Bool) (u p : Params) (hu : ItemsOk u) (hn : NoEmptyItems u)
    (h : SameShape u p) :
    (maskedSetToZero search st sf).update u () (some p) =
      .ok (zeroed (fun key => if search key then st else sf) u, ()) := by
  change (frozenFn search st sf u >>= _) = _
  rw [frozenFn_ok search st sf u hu hn]
  obtain ⟨x, rfl, rfl⟩ := exists_pair_items _ [] u p h
  have hx := (mapItems_ok_iff _ _ _).1 hu
  rw [mapItems_comp]
  change (dictMap2 _ _ _ >>= _) = _
  rw [dictMap2_map (fun _ _ => .ok ()) _ _ (fun _ _ => ()) (fun _ _ => rfl) [] x hx]
  change (dictMap2 _ _ _ >>= _) = _
  rw [dictMap2_map _ _ _ (fun q x => if (if search (join q) then st else sf) = true then x.1.1.map (fun _ => 0) else x.1.1)
    (fun _ _ => rfl) [] x hx]
  unfold zeroed
  rw [mapItems_comp]
  rfl

/-- A transformation that keeps the structure of the updates. -/
def Preserves (g : GT) : Prop :=
  ∀ (u p : Params) (s : g.State) (u' : Params) (s' : g.State), ItemsOk u → NoEmptyItems u → SameShape u p →
    g.update u s (some p) = .ok (u', s') → SameShape u u'

theorem preserves_identity : Preserves identity := by
  intro u p s u' s' _ _ _ h
  injection h with h
  injection h with h1 h2
  subst h1
  exact .refl u

theorem Preserves.seq {a b : GT} (ha : Preserves a) (hb : Preserves b) : Preserves (a.seq b) := by
  intro u p s u' s' hu hn hs h
  obtain ⟨⟨v, s1⟩, h1, h⟩ := ebind h
  obtain ⟨⟨w, s2⟩, h2, h⟩ := ebind h
  injection h with h
  injection h with h3 h4
  subst h3
  have e1 := ha u p s.1 v s1 hu hn hs h1
  exact e1.trans (hb v p s.2 _ s2 (e1.ok hu) (e1.noEmpty hn) (e1.symm.trans hs) h2)

theorem preserves_decay (decay : Key → ℝ) : Preserves (decayGT decay) := by
  intro u p s u' s' hu hn hs h
  obtain ⟨x, rfl, rfl⟩ := exists_pair_items _ [] u p hs
  have hx := (mapItems_ok_iff _ _ _).1 hu
  have hxn := (noEmptyItems_map _ _ _).1 hn
  obtain ⟨v, h1, h⟩ := ebind h
  rw [decayUpdate_ok decay x hx hxn] at h1
  injection h1 with h1
  injection h with h
  injection h with h2 h3
  subst h2
  subst h1
  exact pair_rel_items (fun a b : Tensor => a.length = b.length) _ _ [] x (fun q x => by
    simp [scaleT, x.2])

theorem preserves_scaling (scale : Key → ℝ) : Preserves (scalingGT scale) := by
  intro u p s u' s' hu hn hs h
  obtain ⟨v, h1, h⟩ := ebind h
  rw [scalingUpdate_ok scale u hu hn] at h1
  injection h1 with h1
  injection h with h
  injection h with h2 h3
  subst h2
  subst h1
  exact SameShape.map _ (fun q t => by simp [scaleT]) u

theorem SameShape.itemsMap (f : Tensor → Tensor) (hf : ∀ t, (f t).length = t.length) (u : Params) :
    SameShape u (itemsMap f u) := by
  rw [itemsMap_eq f []]
  exact SameShape.map _ (fun _ t => hf t) u

theorem preserves_clipNorm (m : ℝ) : Preserves (clipByGlobalNorm m) := by
  intro u p s u' s' hu hn hs h
  injection h with h
  injection h with h1 h2
  subst h1
  apply SameShape.itemsMap
  intro t
  split <;> simp

theorem preserves_clip (m : ℝ) : Preserves (clip m) := by
  intro u p s u' s' hu hn hs h
  injection h with h
  injection h with h1 h2
  subst h1
  exact SameShape.itemsMap _ (fun t => by simp) u

theorem preserves_lr (lr : Schedule.Sched) : Preserves (scaleByLearningRate lr) := by
  intro u p s u' s' hu hn hs h
  injection h with h
  injection h with h1 h2
  subst h1
  exact SameShape.itemsMap _ (fun t => by simp [scaleT]) u

mutual
theorem treeMap2_rel (f : V → W → Except PyErr X) (R : V → X → Prop) (hf : ∀ v w x, f v w = .ok x → R v x) (p : List Key)
    (t : FlatDict.Tree V) (t' : FlatDict.Tree W) (r : FlatDict.Tree X) (h : treeMap2 f t t' = .ok r) :
    TreeRel (fun _ => R) p t r := by
  match t, t' with
  | .leaf v, .leaf w =>
    rw [treeMap2] at h
    obtain ⟨x, h1, h⟩ := ebind h
    injection h with h
    subst h
    rw [TreeRel]
    exact hf v w x h1
  | .node l, .node l' =>
    rw [treeMap2] at h
    split at h
    · cases h
    · obtain ⟨x, h1, h⟩ := ebind h
      injection h with h
      subst h
      rw [TreeRel]
      exact itemsMap2_rel f R hf p l l' x h1
  | .leaf v, .node l' => simp [treeMap2] at h
  | .node l, .leaf w => simp [treeMap2] at h
theorem itemsMap2_rel (f : V → W → Except PyErr X) (R : V → X → Prop) (hf : ∀ v w x, f v w = .ok x → R v x)
    (p : List Key) (l : List (Key × FlatDict.Tree V)) (l' : List (Key × FlatDict.Tree W))
    (r : List (Key × FlatDict.Tree X)) (h : itemsMap2 f l l' = .ok r) : ItemsRel (fun _ => R) p l r := by
  match l with
  | [] =>
    rw [itemsMap2] at h
    injection h with h
    subst h
    simp [ItemsRel]
  | (k, t) :: l =>
    rw [itemsMap2] at h
    cases hg : PyDict.get? l' k with
    | none =>
      rw [hg] at h
      cases h
    | some t' =>
      rw [hg] at h
      obtain ⟨x, h1, h⟩ := ebind h
      obtain ⟨y, h2, h⟩ := ebind h
      injection h with h
      subst h
      rw [ItemsRel]
      exact ⟨rfl, treeMap2_rel f R hf (p ++ [k]) t t' x h1, itemsMap2_rel f R hf p l l' y h2⟩
end

theorem addT_length {a b c : Tensor} (h : addT a b = .ok c) : a.length = c.length := by
  unfold addT at h
  split at h
  · rename_i he
    injection h with h
    subst h
    simp [he]
  · cases h

theorem dictMap2_shape {u v r : Params} (f : Tensor → Tensor → Except PyErr Tensor)
    (hf : ∀ a b c, f a b = .ok c → a.length = c.length) (h : dictMap2 f u v = .ok r) : SameShape u r := by
  unfold dictMap2 at h
  split at h
  · cases h
  · exact itemsMap2_rel f (fun a b : Tensor => a.length = b.length) hf [] u v r h

theorem preserves_trace (d : ℝ) (nesterov : Bool) : Preserves (trace d nesterov) := by
  intro u p s u' s' _ _ _ h
  obtain ⟨v, h1, h⟩ := ebind h
  have hadd : ∀ a b c : Tensor, addT a (scaleT d b) = .ok c → a.length = c.length := fun a b c h => addT_length h
  cases nesterov with
  | true =>
    simp only [if_true] at h
    obtain ⟨w, h2, h⟩ := ebind h
    injection h with h
    injection h with h3 h4
    subst h3
    exact dictMap2_shape _ hadd h2
  | false =>
    simp only [Bool.false_eq_true, if_false] at h
    injection h with h
    injection h with h3 h4
    subst h3
    exact dictMap2_shape _ hadd h1

theorem compileRules_ok (compile : List Char → Except PyErr (Key → Bool)) (search : List Char → Key → Bool)
    (l : List (List Char × ℝ)) (h : ∀ r ∈ l, compile r.1 = .ok (search r.1)) :
    compileRules compile l = .ok (l.map fun r => (search r.1, r.2)) := by
  induction l with
  | nil => rfl
  | cons r l ih =>
    obtain ⟨r, v⟩ := r
    rw [compileRules, h (r, v) (by simp), ih (fun r hr => h r (by simp [hr]))]
    rfl

theorem preserves_gradientScaling {compile : List Char → Except PyErr (Key → Bool)} {l : List (List Char × ℝ)} {g : GT}
    (h : gradientScaling compile l = .ok g) : Preserves g := by
  unfold gradientScaling at h
  split at h
  · injection h with h
    subst h
    exact preserves_identity
  · split at h
    · cases h
    · injection h with h
      subst h
      exact preserves_scaling _

theorem preserves_gradientClipping {a b : Option ℝ} {g : GT} (h : gradientClipping a b = .ok g) : Preserves g := by
  unfold gradientClipping at h
  split at h
  · cases h
  · injection h with h
    subst h
    exact preserves_clipNorm _
  · injection h with h
    subst h
    exact preserves_clip _
  · injection h with h
    subst h
    exact preserves_identity

theorem preserves_addDecayedWeights {compile : List Char → Except PyErr (Key → Bool)} {w : WeightDecay} {g : GT}
    (h : addDecayedWeights compile w = .ok g) : Preserves g := by
  unfold addDecayedWeights at h
  split at h
  · injection h with h
    subst h
    exact preserves_identity
  · split at h <;> injection h with h <;> subst h
    · exact preserves_identity
    · exact preserves_decay _
  · split at h
    · injection h with h
      subst h
      exact preserves_identity
    · split at h
      · cases h
      · injection h with h
        subst h
        exact preserves_decay _

theorem preserves_learningRate {k : Schedule.Kind} {n : Int} {g : GT} (h : learningRateGT k n = .ok g) : Preserves g := by
  unfold learningRateGT at h
  split at h
  · cases h
  · injection h with h
    subst h
    exact preserves_lr _

theorem preserves_traceMomentum (m : Option ℝ) (n : Bool) : Preserves (traceMomentum m n) := by
  unfold traceMomentum
  split
  · exact preserves_trace _ _
  · exact preserves_identity

/-- The base optimizer keeps the structure of the updates; this is true of SGD, and assumed of the others. -/
def Base.Good : Base → Prop
  | .other g => Preserves g
  | _ => True

theorem preserves_base {b : Base} {g : GT} (hb : b.Good) (h : baseGT b = .ok g) : Preserves g := by
  cases b with
  | sgd m n =>
    injection h with h
    subst h
    exact preserves_traceMomentum m n
  | other g' =>
    injection h with h
    subst h
    exact hb
  | unknown => cases h

/-- The parts of an optimizer. -/
theorem createOptimizer_ok {compile : List Char → Except PyErr (Key → Bool)} {c : Config} {opt : GT} (hb : c.base.Good)
    (h : createOptimizer compile c = .ok opt) :
    ∃ a1 a2 a3 a4 a5 f : GT, Preserves a1 ∧ Preserves a2 ∧ Preserves a3 ∧ Preserves a4 ∧ Preserves a5 ∧
      gradientScaling compile c.gradientScale = .ok a1 ∧ gradientClipping c.clipGlobalNorm c.clipAbsolute = .ok a2 ∧
      baseGT c.base = .ok a3 ∧ addDecayedWeights compile c.weightDecay = .ok a4 ∧
      learningRateGT c.learningRate c.totalSteps = .ok a5 ∧
      freezeWeights compile c.frozenPattern c.trainablePattern = .ok f ∧ opt = chain [a1, a2, a3, a4, a5, f] := by
  unfold createOptimizer at h
  obtain ⟨a1, h1, h⟩ := ebind h
  obtain ⟨a2, h2, h⟩ := ebind h
  obtain ⟨a3, h3, h⟩ := ebind h
  obtain ⟨a4, h4, h⟩ := ebind h
  obtain ⟨a5, h5, h⟩ := ebind h
  obtain ⟨f, h6, h⟩ := ebind h
  injection h with h
  exact ⟨a1, a2, a3, a4, a5, f, preserves_gradientScaling h1, preserves_gradientClipping h2, preserves_base hb h3,
    preserves_addDecayedWeights h4, preserves_learningRate h5, h1, h2, h3, h4, h5, h6, h.symm⟩

/-- One update of the optimizer: that of its first five parts, then freezing. -/
theorem chain_update {a1 a2 a3 a4 a5 f : GT} (h1 : Preserves a1) (h2 : Preserves a2) (h3 : Preserves a3)
    (h4 : Preserves a4) (h5 : Preserves a5) {u p u' : Params} {s s' : (chain [a1, a2, a3, a4, a5, f]).State}
    (hu : ItemsOk u) (hn : NoEmptyItems u) (hs : SameShape u p)
    (h : (chain [a1, a2, a3, a4, a5, f]).update u s (some p) = .ok (u', s')) :
    ∃ v t, SameShape u v ∧ f.update v s.2.2.2.2.2.1 (some p) = .ok (u', t) ∧
      (chain [a1, a2, a3, a4, a5, identity]).update u
        (s.1, s.2.1, s.2.2.1, s.2.2.2.1, s.2.2.2.2.1, (), ()) (some p) =
        .ok (v, (s'.1, s'.2.1, s'.2.2.1, s'.2.2.2.1, s'.2.2.2.2.1, (), ())) ∧ s'.2.2.2.2.2.1 = t := by
  obtain ⟨⟨v1, t1⟩, e1, g1⟩ := ebind h
  obtain ⟨⟨w1, r1⟩, k1, g1'⟩ := ebind g1
  injection g1' with g1'; injection g1' with x1 y1; subst x1; subst y1
  obtain ⟨⟨v2, t2⟩, e2, g2⟩ := ebind k1
  obtain ⟨⟨w2, r2⟩, k2, g2'⟩ := ebind g2
  injection g2' with g2'; injection g2' with x2 y2; subst x2; subst y2
  obtain ⟨⟨v3, t3⟩, e3, g3⟩ := ebind k2
  obtain ⟨⟨w3, r3⟩, k3, g3'⟩ := ebind g3
  injection g3' with g3'; injection g3' with x3 y3; subst x3; subst y3
  obtain ⟨⟨v4, t4⟩, e4, g4⟩ := ebind k3
  obtain ⟨⟨w4, r4⟩, k4, g4'⟩ := ebind g4
  injection g4' with g4'; injection g4' with x4 y4; subst x4; subst y4
  obtain ⟨⟨v5, t5⟩, e5, g5⟩ := ebind k4
  obtain ⟨⟨w5, r5⟩, k5, g5'⟩ := ebind g5
  injection g5' with g5'; injection g5' with x5 y5; subst x5; subst y5
  obtain ⟨⟨v6, t6⟩, e6, g6⟩ := ebind k5
  obtain ⟨⟨w6, r6⟩, k6, g6'⟩ := ebind g6
  injection g6' with g6'; injection g6' with x6 y6; subst x6; subst y6
  injection k6 with k6; injection k6 with x7 y7; subst x7
  have q1 := h1 u p _ _ _ hu hn hs e1
  have q2 := q1.trans (h2 _ p _ _ _ (q1.ok hu) (q1.noEmpty hn) (q1.symm.trans hs) e2)
  have q3 := q2.trans (h3 _ p _ _ _ (q2.ok hu) (q2.noEmpty hn) (q2.symm.trans hs) e3)
  have q4 := q3.trans (h4 _ p _ _ _ (q3.ok hu) (q3.noEmpty hn) (q3.symm.trans hs) e4)
  have q5 := q4.trans (h5 _ p _ _ _ (q4.ok hu) (q4.noEmpty hn) (q4.symm.trans hs) e5)
  refine ⟨v5, t6, q5, e6, ?_, rfl⟩
  simp only [chain, GT.seq, identity]
  rw [e1]
  simp only [bind, Except.bind, pure, Except.pure]
  rw [e2]
  simp only []
  rw [e3]
  simp only []
  rw [e4]
  simp only []
  rw [e5]

end Verif.Optimizer
