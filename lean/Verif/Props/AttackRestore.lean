import Verif.Proofs.AttackRestore
import Verif.Props.InitVmoe
import Verif.Props.Partitioning
import Verif.Props.Layout

/-! Restoring the parameters of a model to attack it (C159). -/

namespace Verif.AttackRestore

open Verif FlatDict Ckpt Ckpt.Spec TreeSpec Partitioning MeshSpec

variable {D α : Type}

theorem mapItems_get {V W : Type} (f : List Key → V → W) (p : List Key) (l : List (Key × FlatDict.Tree V)) (k : Key)
    (m : List (Key × FlatDict.Tree V)) (h : PyDict.get? l k = some (.node m)) :
    PyDict.get? (mapItems f p l) k = some (.node (mapItems f (p ++ [k]) m)) := by
  induction l with
  | nil => simp [PyDict.get?] at h
  | cons e l ih =>
    obtain ⟨k', t⟩ := e
    simp only [PyDict.get?] at h
    simp only [mapItems, PyDict.get?]
    split at h
    · rename_i e
      cases h
      rw [if_pos e, mapTree, e]
    · rename_i e
      rw [if_neg e]
      exact ih h

theorem mapItems_get_none {V W : Type} (f : List Key → V → W) (p : List Key) (l : List (Key × FlatDict.Tree V)) (k : Key)
    (h : PyDict.get? l k = none) : PyDict.get? (mapItems f p l) k = none := by
  induction l with
  | nil => simp [mapItems, PyDict.get?]
  | cons e l ih =>
    obtain ⟨k', t⟩ := e
    simp only [PyDict.get?] at h
    simp only [mapItems, PyDict.get?]
    split at h
    · cases h
    · rename_i e
      rw [if_neg e]
      exact ih h

theorem mapM_length {A B : Type} (f : A → Except PyErr B) (x : List A) (y : List B) (h : x.mapM f = .ok y) :
    y.length = x.length := by
  induction x generalizing y with
  | nil =>
    cases h
    rfl
  | cons a x ih =>
    rw [List.mapM_cons] at h
    obtain ⟨b, _, h⟩ := ebind h
    obtain ⟨bs, h2, h⟩ := ebind h
    cases h
    simp [ih bs h2]

/-- What is restored has the structure of the index. -/
theorem restoreTree_structure (zero : α) (sh : InitVmoe.Sharding α) (files : List (ProcessOutput α))
    (index : InitVmoe.IndexFile D) (source : List (Key × FlatDict.Tree (Mapping.Arr D α)))
    (h : InitVmoe.restoreTree zero sh files index = .ok source) :
    InitVmoe.sameOf (InitVmoe.sortItems index.index) source = true := by
  unfold InitVmoe.restoreTree at h
  split at h
  · cases h
  · obtain ⟨bufs, _, h⟩ := ebind h
    obtain ⟨arrays, ha, h⟩ := ebind h
    have hl : arrays.length = (InitVmoe.leaves index.index).length := by
      have := mapM_length _ _ _ ha
      simpa using this
    obtain ⟨l', u1, _, u3⟩ := InitVmoe.unflatten_spec index.index arrays hl
    rw [u1, Except.ok.injEq] at h
    exact h ▸ u3

/-- The function with the axis resources and the collection at hand. -/
theorem restoreVariables_eq {R : Type} (zero : α) (search : R → List Char → Bool)
    (sharding : List (List SpecElem) → InitVmoe.Sharding α) (regexes : List (R × UnparsedSpec))
    (files : List (ProcessOutput α)) (index : InitVmoe.IndexFile D) (shapes : List (Key × FlatDict.Tree (List Nat)))
    (hok : ItemsOk shapes) (target : List (Key × FlatDict.Tree (List Nat)))
    (ht : lookup "params".toList shapes = some (.node target)) :
    ∃ resources specs, TreeRel (LeafSpec search regexes) [] (.node shapes) (.node resources) ∧
      lookup "params".toList resources = some (.node specs) ∧
      restoreVariables zero search sharding regexes files index shapes =
        (restoreInto zero (sharding (InitVmoe.leaves specs)) files index target).map
          fun r => (.node resources, [("params".toList, r)]) := by
  obtain ⟨res, h1, h2⟩ := C43_axis_resources search shapes regexes hok
  have h1' := treeAxisResources_eq search shapes regexes hok
  rw [h1, Except.ok.injEq] at h1'
  subst h1'
  have hg : PyDict.get? shapes params = some (.node target) := by rw [get?_eq_lookup]; exact ht
  have hr := mapItems_get (fun p shape => searchRules search (join p) shape.prod
        (regexes.map fun rs => (rs.1, parsePartitionSpec rs.2))) [] shapes params target hg
  refine ⟨_, _, h2, by rw [← get?_eq_lookup]; exact hr, ?_⟩
  unfold restoreVariables
  rw [h1]
  change (collection _ params >>= _ : Except PyErr _) = _
  unfold collection
  rw [hr, hg]
  change (restoreInto _ _ _ _ _ >>= _ : Except PyErr _) = _
  cases restoreInto zero _ files index target <;> rfl

/-- C159 (values): a tree of parameters is saved by any number of processes, with any number of shards and size of chunks.
A model whose parameters have the same names is restored from it, whatever its other variables, the rules and the mesh are:
each variable gets the axis resources of the first rule that matches its path, and with the shardings of these axis resources
each parameter has, under `params`, the array that was saved with this name.  Nothing else is restored: there are no other
parameters and no other variables. -/
theorem C159_restore [DecidableEq D] (zero : α) (P : Nat) (hP : 0 < P) (ns mb : Option Nat)
    (tree : List (Key × FlatDict.Tree (InitVmoe.Saved D α))) (htree : ItemsOk tree)
    (hok : ∀ s ∈ InitVmoe.leaves tree, LeafOk P s.array)
    (hz : ∀ s ∈ InitVmoe.leaves tree, ∀ idx, ¬ ValidIdx s.array.value.shape idx → s.array.value.get idx = zero)
    (views : Nat → List (Key × FlatDict.Tree (InitVmoe.Saved D α)))
    (hviews : ∀ p < P, List.Forall₂ (fun a b => a.dtype = b.dtype ∧ SameArray a.array b.array)
      (InitVmoe.leaves tree) (InitVmoe.leaves (views p)))
    (hsame : InitVmoe.sameStructure tree (views 0) = true) :
    ∃ (out : Nat → ProcessOutput α × Option (InitVmoe.IndexFile D)) (index : InitVmoe.IndexFile D),
      (∀ p < P, InitVmoe.saveTree P p ns mb (views p) = .ok (out p)) ∧ (out 0).2 = some index ∧
      ∀ {R : Type} (search : R → List Char → Bool) (regexes : List (R × UnparsedSpec))
        (sharding : List (List SpecElem) → InitVmoe.Sharding α) (shapes target : List (Key × FlatDict.Tree (List Nat))),
        ItemsOk shapes → lookup "params".toList shapes = some (.node target) →
        InitVmoe.sameStructure tree target = true →
        (∀ resources specs, TreeRel (LeafSpec search regexes) [] (.node shapes) (.node resources) →
          lookup "params".toList resources = some (.node specs) →
          InitVmoe.ShardingOk (InitVmoe.leaves tree) (sharding (InitVmoe.leaves specs))) →
        ∃ resources vars,
          restoreVariables zero search sharding regexes ((List.range P).map fun p => (out p).1) index shapes =
            .ok (resources, vars) ∧
          TreeRel (LeafSpec search regexes) [] (.node shapes) resources ∧
          (∀ path s, leafOf tree path = some s → leafOf vars ("params".toList :: path) = some s.arr) ∧
          (∀ path, leafOf tree path = none → leafOf vars ("params".toList :: path) = none) ∧
          ∀ name path, name ≠ "params".toList → leafOf vars (name :: path) = none := by
  obtain ⟨out, index, source, h1, h2, h3, hv, h4, h5, h6, h7⟩ :=
    InitVmoe.C84_initialize zero P hP ns mb tree htree hok hz views hviews hsame
  refine ⟨out, index, h1, h2, ?_⟩
  intro R search regexes sharding shapes target hs ht hst hsh
  obtain ⟨resources, specs, r1, r2, r3⟩ := restoreVariables_eq zero search sharding regexes
    ((List.range P).map fun p => (out p).1) index shapes hs target ht
  have hres := (h7 _ (hsh resources specs r1 r2)).1
  have htok : (FlatDict.Tree.node target).Ok := InitVmoe.itemsOk_mem shapes hs _ (InitVmoe.lookup_mem _ _ _ ht)
  -- The restored tree has the structure of the index.
  have hsrc : InitVmoe.sameOf (InitVmoe.sortItems index.index) source = true := restoreTree_structure _ _ _ _ _ hres
  have hsort := InitVmoe.sortItems_of_same _ _ hsrc
  have hit : InitVmoe.sameStructure index.index target = true :=
    InitVmoe.sameOf_trans _ _ _ (InitVmoe.sameOf_symm _ _ h3) hst
  obtain ⟨r, f1, f2⟩ := fromState_same (.node target) (.node source) htok (by rw [FlatDict.Tree.Ok]; exact h4) (by
    simp only [InitVmoe.sortTree, InitVmoe.sameAt]
    change InitVmoe.sameOf (InitVmoe.sortItems target) (InitVmoe.sortItems source) = true
    rw [hsort]
    exact InitVmoe.sameOf_trans _ _ _ (InitVmoe.sameOf_symm _ _ hit) hsrc)
  refine ⟨.node resources, [("params".toList, r)], ?_, r1, ?_, ?_, ?_⟩
  · rw [r3]
    have : restoreInto zero (sharding (InitVmoe.leaves specs)) ((List.range P).map fun p => (out p).1) index target = .ok r := by
      unfold restoreInto
      rw [hit]
      change (InitVmoe.restoreTree _ _ _ _ >>= _ : Except PyErr _) = _
      rw [hres]
      exact f1
    rw [this]
    rfl
  · intro path s hp
    have := h5 path s hp
    unfold leafOf at this ⊢
    simp only [leafAt, lookup, if_true]
    rw [f2, this]
  · intro path hp
    have := h6 path hp
    unfold leafOf at this ⊢
    simp only [leafAt, lookup, if_true]
    rw [f2, this]
  · intro name path hn
    unfold leafOf
    simp only [leafAt, lookup]
    rw [if_neg (fun e => hn e.symm)]

/-- C159 (names): a checkpoint with other names, or with names missing, is refused with ValueError; so is a model without
parameters, with KeyError. -/
theorem C159_refused {R : Type} (zero : α) (search : R → List Char → Bool)
    (sharding : List (List SpecElem) → InitVmoe.Sharding α) (regexes : List (R × UnparsedSpec))
    (files : List (ProcessOutput α)) (index : InitVmoe.IndexFile D) (shapes : List (Key × FlatDict.Tree (List Nat)))
    (hok : ItemsOk shapes) :
    (∀ target, lookup "params".toList shapes = some (.node target) → InitVmoe.sameStructure index.index target = false →
      restoreVariables zero search sharding regexes files index shapes = .error .valueError) ∧
    (lookup "params".toList shapes = none →
      restoreVariables zero search sharding regexes files index shapes = .error .keyError) := by
  constructor
  · intro target ht hs
    obtain ⟨resources, specs, _, _, h⟩ := restoreVariables_eq zero search sharding regexes files index shapes hok target ht
    rw [h]
    unfold restoreInto
    rw [hs]
    rfl
  · intro ht
    unfold restoreVariables
    rw [treeAxisResources_eq search shapes regexes hok]
    change (collection _ params >>= _ : Except PyErr _) = _
    unfold collection
    rw [mapItems_get_none _ _ _ _ (by rw [get?_eq_lookup]; exact ht)]
    rfl

/-- C159 (layout): in the restored model a parameter has the axis resources that it has in the train state with the same
rules, whatever else the train state and the variables hold. -/
theorem C159_layout {R : Type} (search : R → List Char → Bool) (regexes : List (R × UnparsedSpec))
    (state shapes : List (Key × FlatDict.Tree (List Nat))) (hstate : ItemsOk state) (hshapes : ItemsOk shapes)
    (path : List Key) (shape : List Nat) (h : Layout.At (.node state) path shape) (h' : Layout.At (.node shapes) path shape) :
    ∃ inTraining inAttack spec, treeAxisResourcesFromRegexes search state regexes = .ok inTraining ∧
      treeAxisResourcesFromRegexes search shapes regexes = .ok inAttack ∧
      Layout.At inTraining path spec ∧ Layout.At inAttack path spec ∧ LeafSpec search regexes path shape spec := by
  have rel : ∀ tree : List (Key × FlatDict.Tree (List Nat)), ItemsOk tree → Layout.At (.node tree) path shape →
      ∃ res, treeAxisResourcesFromRegexes search tree regexes = .ok res ∧
        Layout.At res path (searchRules search (join path) shape.prod
          (regexes.map fun rs => (rs.1, parsePartitionSpec rs.2))) := by
    intro tree ht hat
    refine ⟨_, treeAxisResources_eq search tree regexes ht, ?_⟩
    have := mapItems_rel (fun p shape => searchRules search (join p) shape.prod
        (regexes.map fun rs => (rs.1, parsePartitionSpec rs.2))) (fun p v w => w = searchRules search (join p) (List.prod v)
        (regexes.map fun rs => (rs.1, parsePartitionSpec rs.2))) (fun _ _ => rfl) [] tree
    obtain ⟨w, h1, h2⟩ := Layout.treeRel_at hat (p := []) (t' := .node _) (by rw [TreeRel]; exact this)
    rw [List.nil_append] at h2
    exact h2 ▸ h1
  obtain ⟨a, a1, a2⟩ := rel state hstate h
  obtain ⟨b, b1, b2⟩ := rel shapes hshapes h'
  refine ⟨a, b, _, a1, b1, a2, b2, ?_⟩
  obtain ⟨res, c1, c2⟩ := C43_axis_resources search shapes regexes hshapes
  rw [b1, Except.ok.injEq] at c1
  subst c1
  obtain ⟨w, d1, d2⟩ := Layout.treeRel_at h' (p := []) c2
  have hres := treeAxisResources_eq search shapes regexes hshapes
  rw [b1, Except.ok.injEq] at hres
  have : b.Ok := by
    rw [hres, FlatDict.Tree.Ok]
    exact mapItems_ok _ _ _ hshapes
  rw [Layout.at_unique b2 this d1]
  simpa using d2

/-- A model whose parameters have the names of `InitVmoe.exTree`, with other shapes, and another collection. -/
def exShapes : List (Key × FlatDict.Tree (List Nat)) :=
  [("batch_stats".toList, .leaf [3]),
   ("params".toList, .node [("a".toList, .leaf [7]), ("b".toList, .node [("x".toList, .leaf [5, 5])])])]

theorem exShapes_ok : ItemsOk exShapes := by
  simp [exShapes, ItemsOk, FlatDict.Tree.Ok, PyDict.keys]

theorem exTree_same : InitVmoe.sameStructure InitVmoe.exTree
    [("a".toList, FlatDict.Tree.leaf [7]), ("b".toList, .node [("x".toList, .leaf [5, 5])])] = true := by
  have h : (decide ((['b'] : Key) ≤ ['a'])) = false := by decide
  have h' : (decide ((['a'] : Key) ≤ ['b'])) = true := by decide
  simp [InitVmoe.sameStructure, InitVmoe.sortItems, InitVmoe.exTree, InitVmoe.sortSub, InitVmoe.sortTree, List.mergeSort,
    List.MergeSort.Internal.splitInTwo, h, h', InitVmoe.sameOf, InitVmoe.sameAt]

theorem exSharding_ok (leaves : List (InitVmoe.Saved Nat Nat)) : InitVmoe.ShardingOk leaves InitVmoe.exSharding :=
  ⟨fun _ _ => .refl _, by
    intro p _ i s _ d hd
    simp only [InitVmoe.exSharding, List.mem_cons, List.not_mem_nil, or_false] at hd
    subst hd
    exact ⟨by simp, fun idx h => (InitVmoe.exInIndex _ _).1 h⟩, by
    intro i s _ idx h
    exact ⟨0, by decide, _, List.mem_singleton.2 rfl, (InitVmoe.exInIndex _ _).2 h⟩⟩

/-- C159 (disagreement): the shapes of the model are not compared with those of the checkpoint.  A model whose parameter
`b/x` has the shape 5 × 5 is restored without an error from a checkpoint where it has the shape 4 × 2, and gets an array of
this shape; and a variable of the model outside of `params` is missing among the variables.  (The hypotheses of
`C159_restore` hold.) -/
theorem C159_other_shapes_counterexample :
    ∃ (out : Nat → ProcessOutput Nat × Option (InitVmoe.IndexFile Nat)) (index : InitVmoe.IndexFile Nat),
      (∀ p < 2, InitVmoe.saveTree 2 p (some 3) (some 8) InitVmoe.exTree = .ok (out p)) ∧ (out 0).2 = some index ∧
      leafOf exShapes ["params".toList, "b".toList, "x".toList] = some [5, 5] ∧
      leafOf exShapes ["batch_stats".toList] = some [3] ∧
      ∃ resources vars,
        restoreVariables 0 (fun (_ : Unit) _ => true) (fun _ => InitVmoe.exSharding) [] ((List.range 2).map fun p => (out p).1)
          index exShapes = .ok (resources, vars) ∧
        leafOf vars ["batch_stats".toList] = none ∧
        ∃ a, leafOf vars ["params".toList, "b".toList, "x".toList] = some a ∧ a.value.shape = [4, 2] ∧
          a.value.get [3, 1] = 31 := by
  obtain ⟨out, index, h1, h2, h3⟩ := C159_restore (D := Nat) 0 2 (by decide) (some 3) (some 8) InitVmoe.exTree
    (by simp [InitVmoe.exTree, ItemsOk, FlatDict.Tree.Ok, PyDict.keys])
    (by
      rw [InitVmoe.exTree_leaves]
      simp only [List.mem_cons, List.not_mem_nil, or_false, forall_eq_or_imp, forall_eq]
      exact ⟨InitVmoe.clip_ok _ exLeaf2_ok, InitVmoe.clip_ok _ exLeaf1_ok⟩)
    (by
      rw [InitVmoe.exTree_leaves]
      simp only [List.mem_cons, List.not_mem_nil, or_false, forall_eq_or_imp, forall_eq]
      exact ⟨fun idx h => if_neg h, fun idx h => if_neg h⟩)
    (fun _ => InitVmoe.exTree) (fun _ _ => by
      rw [InitVmoe.exTree_leaves]
      exact .cons ⟨rfl, rfl, rfl, .refl _⟩ (.cons ⟨rfl, rfl, rfl, .refl _⟩ .nil))
    (by
      have := (InitVmoe.leavesOf_map (fun s : InitVmoe.Saved Nat Nat => s) [] (InitVmoe.sortItems InitVmoe.exTree)).2
      have h2 := InitVmoe.sameOf_symm _ _ this
      exact InitVmoe.sameOf_trans _ _ _ this h2)
  obtain ⟨resources, vars, r1, _, r3, _, r5⟩ := h3 (fun (_ : Unit) _ => true) [] (fun _ => InitVmoe.exSharding) exShapes _
    exShapes_ok rfl exTree_same (fun _ _ _ _ => exSharding_ok _)
  refine ⟨out, index, h1, h2, rfl, rfl, resources, vars, r1, r5 _ [] (by decide), _,
    r3 ["b".toList, "x".toList] ⟨0, InitVmoe.clip exLeaf1⟩ rfl, rfl, rfl⟩

/-- The hypotheses of `C159_refused` hold for a model without parameters and for one with another name. -/
example : ItemsOk exShapes ∧ lookup "params".toList [("batch_stats".toList, FlatDict.Tree.leaf [3])] = none ∧
    InitVmoe.sameStructure InitVmoe.exTree [("head".toList, FlatDict.Tree.leaf [7])] = false := by
  refine ⟨exShapes_ok, rfl, ?_⟩
  have h : (decide ((['b'] : Key) ≤ ['a'])) = false := by decide
  simp [InitVmoe.sameStructure, InitVmoe.sortItems, InitVmoe.exTree, InitVmoe.sortSub, InitVmoe.sortTree, List.mergeSort,
    List.MergeSort.Internal.splitInTwo, h, InitVmoe.sameOf, InitVmoe.sameAt]

/-- The hypotheses of `C159_layout` hold for a train state with a step. -/
example : ItemsOk [("step".toList, FlatDict.Tree.leaf []), ("params".toList, .node [("b".toList, .node [("x".toList,
      .leaf [5, 5])])])] ∧
    Layout.At (.node [("step".toList, FlatDict.Tree.leaf []), ("params".toList, .node [("b".toList, .node [("x".toList,
      .leaf [5, 5])])])]) ["params".toList, "b".toList, "x".toList] [5, 5] ∧
    Layout.At (.node exShapes) ["params".toList, "b".toList, "x".toList] [5, 5] := by
  refine ⟨by simp [ItemsOk, FlatDict.Tree.Ok, PyDict.keys],
    .node (List.mem_cons_of_mem _ (List.mem_singleton.2 rfl)) (.node (List.mem_singleton.2 rfl)
      (.node (List.mem_singleton.2 rfl) (.leaf _))),
    .node (List.mem_cons_of_mem _ (List.mem_singleton.2 rfl)) (.node (List.mem_cons_of_mem _ (List.mem_singleton.2 rfl))
      (.node (List.mem_singleton.2 rfl) (.leaf _)))⟩

end Verif.AttackRestore
