import Verif.Proofs.InitVmoe
import Verif.Props.Partitioned
import Verif.Props.Mapping

/-! Initialization from a checkpoint, from the saved tree to the model (C84). -/

namespace Verif.InitVmoe

open Verif FlatDict Ckpt Ckpt.Spec TreeSpec

variable {D α : Type}

/-- The array that is saved, as an array that rules are applied to. -/
def Saved.arr (s : Saved D α) : Mapping.Arr D α := ⟨s.dtype, s.array.value, false⟩

/-- What JAX guarantees of the shardings with which a tree with these leaves is restored: the index of a device has the rank
of the array and is inside of it, and each position is on some device of some process.  The order in which the threads treat
the chunks does not lose any. -/
structure ShardingOk (leaves : List (Saved D α)) (sh : Sharding α) : Prop where
  order : ∀ p l, (sh.order p l).Perm l
  inside : ∀ p < sh.processes, ∀ i s, leaves[i]? = some s → ∀ d ∈ sh.devices p i s.array.value.shape,
    d.length = s.array.value.shape.length ∧
      ∀ idx, InIndex d s.array.value.shape idx → ValidIdx s.array.value.shape idx
  cover : ∀ i s, leaves[i]? = some s → ∀ idx, ValidIdx s.array.value.shape idx →
    ∃ p < sh.processes, ∃ d ∈ sh.devices p i s.array.value.shape, InIndex d s.array.value.shape idx

theorem bufferFor_slice (bufs : Buffers α) (i : Nat) (d : JaxIndex) (shape : List Nat) (b : Buffer α)
    (h : bufferFor bufs i d shape = .ok b) : b.slice = shardIndexToSlicend d shape := by
  unfold bufferFor at h
  split at h
  · rename_i b' hb
    cases h
    simpa using List.find?_some hb
  · cases h

/-- The array that is made of the buffers of all devices is the saved one. -/
theorem assemble_eq (zero : α) (a : NdArray α) (hz : ∀ idx, ¬ ValidIdx a.shape idx → a.get idx = zero)
    (parts : List (Buffer α))
    (hparts : ∀ b ∈ parts, ∃ d : JaxIndex, b.slice = shardIndexToSlicend d a.shape ∧ d.length = a.shape.length ∧
      (∀ idx, InIndex d a.shape idx → ValidIdx a.shape idx) ∧
      ∀ l, l.length = d.length → InIndex d a.shape (globalPos d l) → b.data l = a.get (globalPos d l))
    (hcover : ∀ idx, ValidIdx a.shape idx → ∃ b ∈ parts, InSlice b.slice idx) :
    assemble zero a.shape parts = a := by
  have : ∀ idx, (assemble zero a.shape parts).get idx = a.get idx := by
    intro idx
    simp only [assemble]
    cases hf : parts.find? fun b => inRegion b.slice idx with
    | some b =>
      have hb := List.mem_of_find?_eq_some hf
      have hr := List.find?_some hf
      rw [inRegion_iff] at hr
      obtain ⟨d, h1, h2, _, h4⟩ := hparts b hb
      rw [h1, inSlice_region h2] at hr
      obtain ⟨g1, g2⟩ := globalPos_sub d a.shape idx hr
      simp only
      rw [h1, h4 _ g2 (by rw [g1]; exact hr), g1]
    | none =>
      simp only
      rw [hz idx]
      intro hv
      obtain ⟨b, hb, hs⟩ := hcover idx hv
      have := List.find?_eq_none.1 hf b hb
      rw [inRegion_iff] at this
      exact this hs
  obtain ⟨shape, get⟩ := a
  simp only [assemble] at this ⊢
  congr 1
  exact funext this

/-- C84 (initialization from a checkpoint).  A tree of arrays is saved by any number of processes, with any number of shards
and size of chunks, and whatever way the arrays are distributed over the devices.  Then the index has the
structure of the tree, and there is a tree with exactly the saved arrays at their paths, such that initializing from this
checkpoint, with any number of processes, shardings and order of reading, does for all rules, flags and targets what these
rules do with this tree. -/
theorem C84_initialize [DecidableEq D] (zero : α) (P : Nat) (hP : 0 < P) (ns mb : Option Nat)
    (tree : List (Key × FlatDict.Tree (Saved D α))) (htree : ItemsOk tree)
    (hok : ∀ s ∈ leaves tree, LeafOk P s.array)
    (hz : ∀ s ∈ leaves tree, ∀ idx, ¬ ValidIdx s.array.value.shape idx → s.array.value.get idx = zero)
    (views : Nat → List (Key × FlatDict.Tree (Saved D α)))
    (hviews : ∀ p < P, List.Forall₂ (fun a b => a.dtype = b.dtype ∧ SameArray a.array b.array)
      (leaves tree) (leaves (views p)))
    (hsame : sameStructure tree (views 0) = true) :
    ∃ (out : Nat → ProcessOutput α × Option (IndexFile D)) (index : IndexFile D)
      (source : List (Key × FlatDict.Tree (Mapping.Arr D α))),
      (∀ p < P, saveTree P p ns mb (views p) = .ok (out p)) ∧ (out 0).2 = some index ∧
      sameStructure tree index.index = true ∧ index.version = some "20220622".toList ∧ ItemsOk source ∧ (∀ path s, leafOf tree path = some s → leafOf source path = some s.arr) ∧
      (∀ path, leafOf tree path = none → leafOf source path = none) ∧
      ∀ sh : Sharding α, ShardingOk (leaves tree) sh →
        restoreTree zero sh ((List.range P).map fun p => (out p).1) index = .ok source ∧
        ∀ (env : Mapping.Env D α) (rules : List Mapping.Rule) (flags : Mapping.Flags)
          (target : List (Key × FlatDict.Tree (Mapping.Arr D α))),
          initializeFromVmoe env zero rules flags sh ((List.range P).map fun p => (out p).1) index target =
            Mapping.mapStateDict env rules flags source target := by
  obtain ⟨out, n, infos, hsave, hidx, hrestore⟩ := C19_round_trip zero P hP ns mb ((leaves tree).map Saved.array)
    (by simpa using hok) (fun p => (leaves (views p)).map Saved.array) (by
      intro p hp
      rw [List.forall₂_map_left_iff, List.forall₂_map_right_iff]
      exact (hviews p hp).imp fun _ _ h => h.2)
  -- What the index says of shapes and types.
  have hlen : ∀ p < P, (leaves (views p)).length = (leaves tree).length := fun p hp => (hviews p hp).length_eq.symm
  have hshapes : infos.map IndexInfo.shape = (leaves tree).map fun s => s.array.value.shape := by
    rcases saveProcess_index _ _ _ _ _ _ (hsave 0 hP) with h | ⟨n', infos', h1, h2⟩
    · rw [hidx] at h
      cases h
    · rw [hidx] at h1
      cases h1
      rw [h2, List.map_map]
      have := hviews 0 hP
      generalize leaves tree = l at this
      generalize leaves (views 0) = l' at this
      induction this with
      | nil => rfl
      | cons h _ ih =>
        simp only [List.map_cons, ih, Function.comp]
        rw [h.2.value]
  have hdtypes : (leaves (views 0)).map Saved.dtype = (leaves tree).map Saved.dtype := by
    have := hviews 0 hP
    generalize leaves tree = l at this
    generalize leaves (views 0) = l' at this
    induction this with
    | nil => rfl
    | cons h _ ih => simp only [List.map_cons, ih, h.1]
  have hil : infos.length = (leaves tree).length := by simpa using congrArg List.length hshapes
  -- All processes save.
  have hsaveTree : ∀ p, ∃ o, p < P → saveTree P p ns mb (views p) = .ok o ∧ o.1 = out p := by
    intro p
    by_cases hp : p < P
    · have hs := hsave p hp
      rcases saveProcess_index _ _ _ _ _ _ hs with h | ⟨n', infos', h1, h2⟩
      · exact ⟨(out p, none), fun _ => ⟨saveTree_none _ _ _ _ _ _ hs h, rfl⟩⟩
      · have hl : infos'.length = (leaves (views p)).length := by simpa using congrArg List.length h2
        obtain ⟨l', g1, _, _⟩ := unflatten_spec (views p)
          (List.zipWith IndexLeaf.mk ((leaves (views p)).map Saved.dtype) infos') (by simp [hl])
        exact ⟨(out p, some ⟨some v1, n', l'⟩), fun _ => ⟨saveTree_some _ _ _ _ _ _ hs _ _ h1 _ g1, rfl⟩⟩
    · exact ⟨(out p, none), fun h => absurd h hp⟩
  choose o ho using hsaveTree
  -- The index.
  obtain ⟨l', g1, g2, g3⟩ := unflatten_spec (views 0)
    (List.zipWith IndexLeaf.mk ((leaves (views 0)).map Saved.dtype) infos) (by simp [hil, hlen 0 hP])
  have hindex : (o 0).2 = some ⟨some v1, n, l'⟩ := by
    have h := (ho 0 hP).1
    rw [saveTree_some _ _ _ _ _ _ (hsave 0 hP) _ _ hidx _ g1, Except.ok.injEq] at h
    rw [← h]
  have hsort : sortItems l' = l' := sortItems_of_same _ _ g3
  have hleaves : leaves l' = List.zipWith IndexLeaf.mk ((leaves tree).map Saved.dtype) infos := by
    rw [leaves, hsort, g2, hdtypes]
  -- The restored tree.
  refine ⟨o, ⟨some v1, n, l'⟩, Partitioning.mapItems (fun _ s => s.arr) [] (sortItems tree), fun p hp => (ho p hp).1,
    hindex, ?_, rfl, Partitioning.mapItems_ok _ _ _ (sortItems_ok tree htree), ?_, ?_, ?_⟩
  · unfold sameStructure
    rw [hsort]
    exact sameOf_trans _ _ _ hsame g3
  · intro path s h
    rw [leafOf_map, leafOf_sort tree htree, h]
    rfl
  · intro path h
    rw [leafOf_map, leafOf_sort tree htree, h]
    rfl
  · intro sh hsh
    have hres : restoreTree zero sh ((List.range P).map fun p => (o p).1) ⟨some v1, n, l'⟩ =
        .ok (Partitioning.mapItems (fun _ s => s.arr) [] (sortItems tree)) := by
      have hinfo : (leaves l').map IndexLeaf.info = infos := by
        rw [hleaves]
        have : ∀ (ds : List D) (is : List IndexInfo), is.length = ds.length →
            (List.zipWith IndexLeaf.mk ds is).map IndexLeaf.info = is := by
          intro ds
          induction ds with
          | nil =>
            intro is h
            have : is = [] := by simpa using h
            simp [this]
          | cons d ds ih =>
            intro is h
            cases is with
            | nil => simp at h
            | cons i is => simp [ih is (by simpa using h)]
        exact this _ _ (by simpa using hil)
      have hshape : ∀ (i : Nat) (s : Saved D α), (leaves tree)[i]? = some s → ∃ info : IndexInfo, infos[i]? = some info ∧
          info.shape = s.array.value.shape ∧ (leaves l')[i]? = some ⟨s.dtype, info⟩ := by
        intro i s hs
        have hi : i < infos.length := by
          rw [hil]
          exact (List.getElem?_eq_some_iff.1 hs).1
        refine ⟨infos[i], List.getElem?_eq_getElem hi, ?_, ?_⟩
        · have := congrArg (·[i]?) hshapes
          simp only [List.getElem?_map, hs, List.getElem?_eq_getElem hi, Option.map_some, Option.some.injEq] at this
          exact this
        · rw [hleaves, List.getElem?_zipWith, List.getElem?_map, hs, List.getElem?_eq_getElem hi]
          rfl
      have hfiles : ((List.range P).map fun p => (o p).1) = (List.range P).map out :=
        List.map_congr_left fun p hp => (ho p (List.mem_range.1 hp)).2
      -- The buffers of the processes.
      have hbufs : ∀ p, ∃ bufs, p < sh.processes →
          restoreProcess zero sh ((List.range P).map out) infos p = .ok bufs ∧
          ∀ (i : Nat) (s : Saved D α), (leaves tree)[i]? = some s → ∀ d ∈ sh.devices p i s.array.value.shape,
            ∃ b, bufferFor bufs i d s.array.value.shape = .ok b ∧
              ∀ l, l.length = d.length → InIndex d s.array.value.shape (globalPos d l) →
                b.data l = s.array.value.get (globalPos d l) := by
        intro p
        by_cases hp : p < sh.processes
        · have htarget : ∀ (i : Nat) (s : Saved D α), (leaves tree)[i]? = some s →
              (infos.mapIdx fun i info => sh.devices p i info.shape).getD i [] = sh.devices p i s.array.value.shape := by
            intro i s hs
            obtain ⟨info, h1, h2, _⟩ := hshape i s hs
            rw [List.getD_eq_getElem?_getD, List.getElem?_mapIdx, h1]
            simp [h2]
          obtain ⟨contents, c1, c2⟩ := hrestore (infos.mapIdx fun i info => sh.devices p i info.shape) (by simp [hil]) (by
            intro i a d ha hd
            rw [List.getElem?_map, Option.map_eq_some_iff] at ha
            obtain ⟨s, hs, rfl⟩ := ha
            rw [htarget i s hs] at hd
            exact hsh.inside p hp i s hs d hd)
          obtain ⟨bufs, c3, c4⟩ := c2 (sh.order p contents.flatten) (hsh.order p _)
          refine ⟨bufs, fun _ => ⟨?_, ?_⟩⟩
          · unfold restoreProcess
            simp only [c1]
            exact c3
          · intro i s hs d hd
            exact c4 i s.array d (by rw [List.getElem?_map, hs]; rfl) (by rw [htarget i s hs]; exact hd)
        · exact ⟨[], fun h => absurd h hp⟩
      choose bufs hbufs using hbufs
      have hbufsM : (List.range sh.processes).mapM (restoreProcess zero sh ((List.range P).map out) infos) =
          .ok ((List.range sh.processes).map bufs) :=
        mapM_ok_of _ _ _ fun p hp => (hbufs p (List.mem_range.1 hp)).1
      have hget : ∀ p < sh.processes, ((List.range sh.processes).map bufs).getD p [] = bufs p := by
        intro p hp
        simp [List.getD_eq_getElem?_getD, List.getElem?_map, List.getElem?_range hp]
      -- The arrays.
      have harray : ∀ (i : Nat) (s : Saved D α), (leaves tree)[i]? = some s → ∀ info : IndexInfo, info.shape = s.array.value.shape →
          makeArray zero sh ((List.range sh.processes).map bufs) i ⟨s.dtype, info⟩ = .ok s.arr := by
        intro i s hs info hinfo'
        unfold makeArray
        simp only [hinfo']
        have hp1 : ∀ p ∈ List.range sh.processes, ∃ bs,
            ((sh.devices p i s.array.value.shape).mapM fun d =>
              bufferFor (((List.range sh.processes).map bufs).getD p []) i d s.array.value.shape) = .ok bs := by
          intro p hp
          rw [hget p (List.mem_range.1 hp)]
          obtain ⟨bs, h1, _⟩ := mapM_exists (fun d => bufferFor (bufs p) i d s.array.value.shape)
            (sh.devices p i s.array.value.shape) (fun d hd => by
              obtain ⟨b, hb, _⟩ := (hbufs p (List.mem_range.1 hp)).2 i s hs d hd
              exact ⟨b, hb⟩)
          exact ⟨bs, h1⟩
        obtain ⟨parts, hparts, hfrom, hto⟩ := mapM_exists _ _ hp1
        rw [hparts]
        have hz' := hz s (List.mem_of_getElem? hs)
        have := assemble_eq zero s.array.value hz' parts.flatten (by
          intro b hb
          obtain ⟨bs, hbs, hb⟩ := List.mem_flatten.1 hb
          obtain ⟨p, hp, he⟩ := hfrom bs hbs
          rw [List.mem_range] at hp
          rw [hget p hp] at he
          obtain ⟨bs', h1, h2, _⟩ := mapM_exists (fun d => bufferFor (bufs p) i d s.array.value.shape)
            (sh.devices p i s.array.value.shape) (fun d hd => by
              obtain ⟨b, hb, _⟩ := (hbufs p hp).2 i s hs d hd
              exact ⟨b, hb⟩)
          rw [h1, Except.ok.injEq] at he
          rw [← he] at hb
          obtain ⟨d, hd, hbd⟩ := h2 b hb
          obtain ⟨b', hb', hdata⟩ := (hbufs p hp).2 i s hs d hd
          rw [hbd, Except.ok.injEq] at hb'
          subst hb'
          obtain ⟨i1, i2⟩ := hsh.inside p hp i s hs d hd
          exact ⟨d, bufferFor_slice _ _ _ _ _ hbd, i1, i2, hdata⟩) (by
          intro idx hidx'
          obtain ⟨p, hp, d, hd, hin⟩ := hsh.cover i s hs idx hidx'
          obtain ⟨bs, hbs, he⟩ := hto p (List.mem_range.2 hp)
          rw [hget p hp] at he
          obtain ⟨bs', h1, _, h3⟩ := mapM_exists (fun d => bufferFor (bufs p) i d s.array.value.shape)
            (sh.devices p i s.array.value.shape) (fun d hd => by
              obtain ⟨b, hb, _⟩ := (hbufs p hp).2 i s hs d hd
              exact ⟨b, hb⟩)
          rw [h1, Except.ok.injEq] at he
          obtain ⟨b, hb, hbd⟩ := h3 d hd
          refine ⟨b, List.mem_flatten.2 ⟨bs, hbs, he ▸ hb⟩, ?_⟩
          rw [bufferFor_slice _ _ _ _ _ hbd, inSlice_region (hsh.inside p hp i s hs d hd).1]
          exact hin)
        change (Except.ok _ : Except PyErr _) = _
        rw [this]
        rfl
      have hll : (leaves l').length = (leaves tree).length := by
        rw [hleaves]
        simp [hil]
      have harrays : ((leaves l').zipIdx.mapM fun li => makeArray zero sh ((List.range sh.processes).map bufs) li.2 li.1) =
          .ok ((leaves tree).map Saved.arr) := by
        refine mapM_eq_ok _ _ _ (List.forall₂_iff_get.2 ⟨by simp [hll], fun i h1 h2 => ?_⟩)
        simp only [List.length_map] at h2
        have hs : (leaves tree)[i]? = some (leaves tree)[i] := List.getElem?_eq_getElem h2
        obtain ⟨info, _, e2, e3⟩ := hshape i _ hs
        have h1' : i < (leaves l').length := by rw [hll]; exact h2
        have e4 : (leaves l')[i] = ⟨(leaves tree)[i].dtype, info⟩ := by
          rw [List.getElem?_eq_getElem h1', Option.some.injEq] at e3
          exact e3
        simp only [List.get_eq_getElem, List.getElem_zipIdx, List.getElem_map, e4, Nat.zero_add]
        exact harray i _ hs info e2
      unfold restoreTree
      rw [if_neg (by simp)]
      change ((List.range sh.processes).mapM _ >>= _ : Except PyErr _) = _
      simp only [hinfo, hfiles]
      rw [hbufsM]
      change ((leaves l').zipIdx.mapM _ >>= _ : Except PyErr _) = _
      rw [harrays]
      change unflatten l' _ = _
      obtain ⟨l'', u1, u2, u3⟩ := unflatten_spec l' ((leaves tree).map Saved.arr) (by rw [hll]; simp)
      rw [u1, Except.ok.injEq]
      have hm := leavesOf_map Saved.arr [] (sortItems tree)
      refine sameOf_unique _ _ ?_ (by rw [u2, hm.1]; rfl)
      rw [hsort] at u3
      exact sameOf_trans _ _ _ (sameOf_symm _ _ u3) (sameOf_trans _ _ _ (sameOf_symm _ _ g3)
        (sameOf_trans _ _ _ (sameOf_symm _ _ hsame) hm.2))
    refine ⟨hres, fun env rules flags target => ?_⟩
    unfold initializeFromVmoe
    rw [if_neg (by simp)]
    change (restoreTree _ _ _ _ >>= _ : Except PyErr _) = _
    rw [hres]
    rfl

/-- C84 (versions): checkpoints of an unknown version are rejected; old checkpoints, without version, are initialized in the
same way if the structures of the target and of the checkpoint are the same, and rejected otherwise. -/
theorem C84_version [DecidableEq D] (env : Mapping.Env D α) (zero : α) (rules : List Mapping.Rule) (flags : Mapping.Flags)
    (sh : Sharding α) (files : List (ProcessOutput α)) (n : Nat) (index : List (Key × FlatDict.Tree (IndexLeaf D)))
    (target : List (Key × FlatDict.Tree (Mapping.Arr D α))) :
    (∀ v, v ≠ "20220622".toList →
      initializeFromVmoe env zero rules flags sh files ⟨some v, n, index⟩ target = .error .valueError) ∧
    (sameStructure target index = true → initializeFromVmoe env zero rules flags sh files ⟨none, n, index⟩ target =
      initializeFromVmoe env zero rules flags sh files ⟨some "20220622".toList, n, index⟩ target) ∧
    (sameStructure target index = false →
      initializeFromVmoe env zero rules flags sh files ⟨none, n, index⟩ target = .error .valueError) := by
  refine ⟨fun v hv => ?_, fun h => ?_, fun h => ?_⟩
  · have : (some v : Option Key) ≠ some v1 := fun h => hv (Option.some.inj h)
    simp [initializeFromVmoe, restoreTree, this]
    rfl
  · have : v1 = "20220622".toList := rfl
    simp [initializeFromVmoe, restoreTree, h, this]
  · simp [initializeFromVmoe, h]
    rfl

instance (shape idx : List Nat) : Decidable (ValidIdx shape idx) := by
  unfold ValidIdx
  infer_instance

/-- An array without entries outside of its shape. -/
def clip (a : Ckpt.Leaf Nat) : Ckpt.Leaf Nat :=
  { a with value := ⟨a.value.shape, fun idx => if ValidIdx a.value.shape idx then a.value.get idx else 0⟩ }

theorem clip_ok (a : Ckpt.Leaf Nat) (h : LeafOk 2 a) : LeafOk 2 (clip a) := ⟨h.cover, h.disjoint, h.nonempty, h.process⟩

/-- A tree with an array of two processes and a scalar, whose keys are not sorted. -/
def exTree : List (Key × FlatDict.Tree (Saved Nat Nat)) :=
  [("b".toList, .node [("x".toList, .leaf ⟨0, clip exLeaf1⟩)]), ("a".toList, .leaf ⟨1, clip exLeaf2⟩)]

theorem exTree_leaves : leaves exTree = [⟨1, clip exLeaf2⟩, ⟨0, clip exLeaf1⟩] := by
  have h : (decide ((['b'] : Key) ≤ ['a'])) = false := by decide
  simp [leaves, sortItems, exTree, sortSub, sortTree, List.mergeSort, List.MergeSort.Internal.splitInTwo, h,
    leavesOf, leavesAt]

/-- One process with one device that has everything. -/
def exSharding : Sharding Nat where
  processes := 1
  devices := fun _ _ shape => [shape.map fun _ => (none, none)]
  order := fun _ l => l

theorem exInIndex (shape idx : List Nat) : InIndex (shape.map fun _ => (none, none)) shape idx ↔ ValidIdx shape idx := by
  induction shape generalizing idx with
  | nil => cases idx <;> simp [InIndex, ValidIdx]
  | cons n shape ih =>
    cases idx with
    | nil => simp [InIndex, ValidIdx]
    | cons i idx =>
      have := ih idx
      simp only [ValidIdx] at this
      simp only [List.map_cons, InIndex, ValidIdx, this, List.forall₂_cons]
      simp

/-- The hypotheses of `C84_initialize` hold for this tree, and the entry at `[3, 1]` of `b/x` is what was saved. -/
example : ∃ (out : Nat → ProcessOutput Nat × Option (IndexFile Nat)) (index : IndexFile Nat)
    (source : List (Key × FlatDict.Tree (Mapping.Arr Nat Nat))) (a : Mapping.Arr Nat Nat),
    saveTree 2 0 (some 3) (some 8) exTree = .ok (out 0) ∧ saveTree 2 1 (some 3) (some 8) exTree = .ok (out 1) ∧
    restoreTree 0 exSharding [(out 0).1, (out 1).1] index = .ok source ∧
    leafOf source ["b".toList, "x".toList] = some a ∧ a.value.get [3, 1] = 31 := by
  obtain ⟨out, index, source, h1, _, _, _, _, h4, _, h6⟩ := C84_initialize (D := Nat) 0 2 (by decide) (some 3) (some 8) exTree
    (by simp [exTree, ItemsOk, FlatDict.Tree.Ok, PyDict.keys])
    (by
      rw [exTree_leaves]
      simp only [List.mem_cons, List.not_mem_nil, or_false, forall_eq_or_imp, forall_eq]
      exact ⟨clip_ok _ exLeaf2_ok, clip_ok _ exLeaf1_ok⟩)
    (by
      rw [exTree_leaves]
      simp only [List.mem_cons, List.not_mem_nil, or_false, forall_eq_or_imp, forall_eq]
      exact ⟨fun idx h => if_neg h, fun idx h => if_neg h⟩)
    (fun _ => exTree) (fun _ _ => by
      rw [exTree_leaves]
      exact .cons ⟨rfl, rfl, rfl, .refl _⟩ (.cons ⟨rfl, rfl, rfl, .refl _⟩ .nil))
    (by
      have := (leavesOf_map (fun s : Saved Nat Nat => s) [] (sortItems exTree)).2
      have h2 := sameOf_symm _ _ this
      exact sameOf_trans _ _ _ this h2)
  have hr := (h6 exSharding ⟨fun _ _ => .refl _, by
      intro p _ i s _ d hd
      simp only [exSharding, List.mem_cons, List.not_mem_nil, or_false] at hd
      subst hd
      exact ⟨by simp, fun idx h => (exInIndex _ _).1 h⟩, by
      intro i s _ idx h
      exact ⟨0, by decide, _, List.mem_singleton.2 rfl, (exInIndex _ _).2 h⟩⟩).1
  refine ⟨out, index, source, _, h1 0 (by decide), h1 1 (by decide), hr, h4 ["b".toList, "x".toList] ⟨0, clip exLeaf1⟩ ?_, ?_⟩
  · rfl
  · rfl

/-- Values are only put back into a structure with as many leaves: one value too many is a ValueError. -/
theorem C84_too_many_values {V W : Type} (l : List (Key × FlatDict.Tree V)) (values : List W)
    (h : (leaves l).length < values.length) : unflatten l values = .error .valueError := by
  obtain ⟨l', h1, -, -⟩ := fillOf_spec (sortItems l) (values.take (leaves l).length) (values.drop (leaves l).length)
    (by
      rw [List.length_take]
      unfold leaves at h ⊢
      omega)
  rw [List.take_append_drop] at h1
  unfold unflatten
  rw [h1]
  have : (values.drop (leaves l).length).isEmpty = false := by
    rw [List.isEmpty_eq_false_iff]
    intro e
    have := congrArg List.length e
    rw [List.length_drop, List.length_nil] at this
    omega
  change (if (values.drop (leaves l).length).isEmpty then _ else _) = _
  rw [this]
  rfl

example : (leaves [("a".toList, FlatDict.Tree.node [("b".toList, .leaf 1)])]).length < [1, 2].length := by
  simp [leaves, sortItems, sortSub, sortTree, leavesOf, leavesAt]

end Verif.InitVmoe
