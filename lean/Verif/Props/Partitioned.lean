import Verif.Proofs.CkptRun
import Mathlib.Algebra.BigOperators.Ring.List

/-!
Theorems about sharded checkpoints: C17 (splitting), C18 (saving), C19 (round trip), C20 (files read),
C21 (balance), C28 (agreement between processes).
-/

namespace Verif.Ckpt

open Verif Spec

/-! ### C17 -/

/-- C17.  Splitting a region with a positive maximum gives sub-regions, every position of the region is
in exactly one of them (and no other position in any), and each has at most that many items. -/
theorem C17_split_partition (s : SliceNd) (hs : Ordered s) (m : Nat) (hm : 1 ≤ m) :
    (∀ c ∈ splitSlicend s (some m), SubRegion c s ∧ items c ≤ m) ∧
    (∀ idx, InSlice s idx →
      (splitSlicend s (some m)).countP (fun c => decide (InSlice c idx)) = 1) ∧
    (∀ idx, ¬ InSlice s idx → ∀ c ∈ splitSlicend s (some m), ¬ InSlice c idx) := by
  by_cases hz : ∃ x ∈ s, Slice.stop x ≤ Slice.start x
  · -- a region without positions is not split
    obtain ⟨x, hx, hle⟩ := hz
    have h0 : (sliceShape s).prod = 0 := by
      apply List.prod_eq_zero
      exact List.mem_map.2 ⟨x, hx, by omega⟩
    rw [splitSlicend_empty s _ h0]
    have hno : ∀ idx, ¬ InSlice s idx := by
      intro idx h
      have := pos_of_inSlice h x hx
      omega
    refine ⟨?_, fun idx h => absurd h (hno idx), fun idx h c hc => ?_⟩
    · intro c hc
      obtain rfl := List.mem_singleton.1 hc
      refine ⟨?_, ?_⟩
      · unfold SubRegion
        rw [List.forall₂_same]
        intro y _
        exact ⟨le_refl _, le_refl _⟩
      · change (sliceShape c).prod ≤ m
        omega
    · obtain rfl := List.mem_singleton.1 hc
      exact h
  · push Not at hz
    have h := splitSlicend_ok s hz m hm
    refine ⟨fun c hc => ⟨?_, h.bound c hc⟩, fun idx hi => ?_, fun idx hi c hc hci => ?_⟩
    · unfold SubRegion
      rw [List.forall₂_iff_get]
      refine ⟨h.len c hc, fun i h1 h2 => ?_⟩
      have := h.sub c hc i h2 h1
      exact ⟨this.1, this.2.2⟩
    · rw [h.count, if_pos hi]
    · exact hi (inSlice_of_sub (h.len c hc) (h.sub c hc) hci)

/-- A 3-dimensional region with a prime dimension, split in pieces of at most 10 items. -/
example : (splitSlicend [Slice.mk 5 12, Slice.mk 0 6, Slice.mk 3 4] (some 10)).length = 6 ∧
    Ordered [Slice.mk 5 12, Slice.mk 0 6, Slice.mk 3 4] := by
  refine ⟨by decide, ?_⟩
  unfold Ordered
  decide

/-- C17.  Without a maximum, the region is kept whole. -/
theorem C17_no_maximum (s : SliceNd) (m : Option Nat) (hm : m = none ∨ m = some 0) :
    splitSlicend s m = [s] := by
  rcases hm with rfl | rfl <;> simp [splitSlicend]

example : splitSlicend [Slice.mk 5 12, Slice.mk 0 6] (some 0) = [[Slice.mk 5 12, Slice.mk 0 6]] := by
  decide

/-! ### A concrete run used in the examples

Two processes with two devices each; a 4×2 array partitioned along the first axis over the processes
and replicated inside each, and a replicated scalar. -/

/-- Example leaf: partitioned over the processes. -/
def exLeaf1 : Leaf Nat :=
  { value := { shape := [4, 2], get := fun idx => 10 * idx.getD 0 0 + idx.getD 1 0 }
    itemsize := 4
    shards := [⟨0, [(some 0, some 2), (none, none)]⟩, ⟨0, [(none, some 2), (none, none)]⟩,
      ⟨1, [(some 2, some 4), (none, none)]⟩, ⟨1, [(some 2, none), (none, none)]⟩] }

/-- Example leaf: a replicated scalar. -/
def exLeaf2 : Leaf Nat :=
  { value := { shape := [], get := fun _ => 7 }
    itemsize := 4
    shards := [⟨0, []⟩, ⟨0, []⟩, ⟨1, []⟩, ⟨1, []⟩] }

theorem exLeaf1_ok : LeafOk 2 exLeaf1 := by
  have key : ∀ s ∈ exLeaf1.shards, (s.process = 0 ∧ ∀ idx, InIndex s.index [4, 2] idx ↔
        ∃ i j, idx = [i, j] ∧ i < 2 ∧ j < 2) ∨
      (s.process = 1 ∧ ∀ idx, InIndex s.index [4, 2] idx ↔
        ∃ i j, idx = [i, j] ∧ 2 ≤ i ∧ i < 4 ∧ j < 2) := by
    intro s hs
    simp only [exLeaf1, List.mem_cons, List.not_mem_nil, or_false] at hs
    rcases hs with rfl | rfl | rfl | rfl
    · left
      refine ⟨rfl, fun idx => ?_⟩
      rcases idx with _ | ⟨i, _ | ⟨j, _ | ⟨k, idx⟩⟩⟩ <;> simp [InIndex]
    · left
      refine ⟨rfl, fun idx => ?_⟩
      rcases idx with _ | ⟨i, _ | ⟨j, _ | ⟨k, idx⟩⟩⟩ <;> simp [InIndex]
    · right
      refine ⟨rfl, fun idx => ?_⟩
      rcases idx with _ | ⟨i, _ | ⟨j, _ | ⟨k, idx⟩⟩⟩ <;> simp [InIndex]
    · right
      refine ⟨rfl, fun idx => ?_⟩
      rcases idx with _ | ⟨i, _ | ⟨j, _ | ⟨k, idx⟩⟩⟩ <;> simp [InIndex]
  refine ⟨?_, ?_, ?_, ?_⟩
  · intro idx h
    change List.Forall₂ _ idx [4, 2] at h
    rcases idx with _ | ⟨i, _ | ⟨j, _ | ⟨k, idx⟩⟩⟩
    · simp at h
    · simp at h
    · simp only [List.forall₂_cons, List.forall₂_nil_right_iff, and_true] at h
      by_cases hi : i < 2
      · exact ⟨_, List.mem_cons_self, by simp [InIndex, exLeaf1]; omega⟩
      · refine ⟨⟨1, [(some 2, some 4), (none, none)]⟩, by simp [exLeaf1], ?_⟩
        simp [InIndex, exLeaf1]; omega
    · simp at h
  · intro s hs t ht idx h1 h2 idx'
    change InIndex _ [4, 2] _ at h1 h2
    change InIndex _ [4, 2] _ ↔ InIndex _ [4, 2] _
    rcases key s hs with ⟨_, hs⟩ | ⟨_, hs⟩ <;> rcases key t ht with ⟨_, ht⟩ | ⟨_, ht⟩
    · rw [hs, ht]
    · rw [hs] at h1
      rw [ht] at h2
      obtain ⟨i, j, rfl, _⟩ := h1
      obtain ⟨i', j', e, _⟩ := h2
      simp at e
      omega
    · rw [hs] at h1
      rw [ht] at h2
      obtain ⟨i, j, rfl, _⟩ := h1
      obtain ⟨i', j', e, _⟩ := h2
      simp at e
      omega
    · rw [hs, ht]
  · intro s hs
    change ∃ idx, InIndex _ [4, 2] idx
    rcases key s hs with ⟨_, hs⟩ | ⟨_, hs⟩
    · exact ⟨[0, 0], (hs _).2 ⟨0, 0, rfl, by omega, by omega⟩⟩
    · exact ⟨[2, 0], (hs _).2 ⟨2, 0, rfl, by omega, by omega, by omega⟩⟩
  · intro s hs
    rcases key s hs with ⟨h, _⟩ | ⟨h, _⟩ <;> omega

theorem exLeaf2_ok : LeafOk 2 exLeaf2 := by
  have key : ∀ s ∈ exLeaf2.shards, s.index = [] ∧ s.process < 2 := by
    intro s hs
    simp only [exLeaf2, List.mem_cons, List.not_mem_nil, or_false] at hs
    rcases hs with rfl | rfl | rfl | rfl <;> simp
  refine ⟨?_, ?_, ?_, fun s hs => (key s hs).2⟩
  · intro idx h
    change List.Forall₂ _ idx [] at h
    have : idx = [] := by simpa using h
    subst this
    exact ⟨_, List.mem_cons_self, by simp [InIndex, exLeaf2]⟩
  · intro s hs t ht idx _ _ idx'
    rw [(key s hs).1, (key t ht).1]
  · intro s hs
    exact ⟨[], by rw [(key s hs).1]; simp [InIndex, exLeaf2]⟩

theorem exLeaves_ok : ∀ a ∈ [exLeaf1, exLeaf2], LeafOk 2 a := by
  intro a ha
  simp only [List.mem_cons, List.not_mem_nil, or_false] at ha
  rcases ha with rfl | rfl
  · exact exLeaf1_ok
  · exact exLeaf2_ok

/-- The two processes enumerate the shards of the example arrays in different orders. -/
def exViews (p : Nat) : List (Leaf Nat) :=
  if p = 0 then [exLeaf1, exLeaf2]
  else [{ exLeaf1 with shards := exLeaf1.shards.reverse },
    { exLeaf2 with shards := exLeaf2.shards.reverse }]

theorem exViews_ok : ∀ p < 2, List.Forall₂ SameArray [exLeaf1, exLeaf2] (exViews p) := by
  intro p _
  unfold exViews
  split
  · exact .cons ⟨rfl, rfl, .refl _⟩ (.cons ⟨rfl, rfl, .refl _⟩ .nil)
  · exact .cons ⟨rfl, rfl, (List.reverse_perm _).symm⟩
      (.cons ⟨rfl, rfl, (List.reverse_perm _).symm⟩ .nil)

/-! ### C18 -/

/-- C18.  When all the processes save (each enumerating the device shards in its own order), none of
them fails; together they write every shard file exactly once, each process at least one; every position
of every array is in exactly one chunk of exactly one file; and every chunk is written by a process that
holds all of it on one of its devices, with the values of the array. -/
theorem C18_saved_exactly_once {α : Type*} (P : Nat) (hP : 0 < P) (ns mb : Option Nat)
    (leaves : List (Leaf α)) (hok : ∀ a ∈ leaves, LeafOk P a) (views : Nat → List (Leaf α))
    (hv : ∀ p < P, List.Forall₂ SameArray leaves (views p)) :
    ∃ out : Nat → ProcessOutput α,
      (∀ p < P, saveProcess P p ns mb (views p) = .ok (out p)) ∧
      (∃ n, (out 0).index.map Prod.fst = some n ∧ P ≤ n ∧ (∀ x, ns = some x → x ≤ n) ∧
        ((List.range P).flatMap fun p => (out p).files.map Prod.fst).Perm (List.range n)) ∧
      (∀ p < P, (out p).files ≠ []) ∧
      (∀ i a, leaves[i]? = some a → ∀ idx, ValidIdx a.value.shape idx →
        (((List.range P).flatMap fun p => (out p).files).flatMap Prod.snd).countP
          (fun c => decide (c.leaf = i) && decide (InSlice c.slice idx)) = 1) ∧
      (∀ p < P, ∀ f ∈ (out p).files, ∀ c ∈ f.2, ∃ a, leaves[c.leaf]? = some a ∧
        (∃ s ∈ a.shards, s.process = p ∧
          ∀ idx, InSlice c.slice idx → InIndex s.index a.value.shape idx) ∧
        c.data.shape = c.slice.map (fun x => (ofLex x).2 - (ofLex x).1) ∧
        ∀ l : List Nat, l.length = c.slice.length → c.data.get l =
          a.value.get (List.zipWith (fun i (x : Slice) => (ofLex x).1 + i) l c.slice)) := by
  obtain ⟨maps, infos, cs, hR, hsave⟩ := run_ok P ns mb leaves hok views hv
  set n := effectiveNumShards P ns with hn
  refine ⟨fun p => outputOf P p n infos (cs p), hsave, ⟨n, rfl, hR.hn, ?_, ?_⟩, ?_,
    fun i a ha idx hidx => hR.count_one hP ha idx hidx, ?_⟩
  · rintro x rfl
    simp only [hn, effectiveNumShards]
    split <;> omega
  · rw [List.perm_ext_iff_of_nodup _ List.nodup_range]
    · intro k
      simp only [outputOf, List.mem_flatMap, List.mem_map, List.mem_range, List.mem_filter,
        decide_eq_true_eq]
      constructor
      · rintro ⟨p, hp, f, ⟨k', ⟨hk', _⟩, rfl⟩, rfl⟩
        exact hk'
      · intro hk
        exact ⟨k % P, Nat.mod_lt _ hP, _, ⟨k, ⟨hk, rfl⟩, rfl⟩, rfl⟩
    · rw [List.nodup_flatMap]
      constructor
      · intro p _
        simp only [outputOf, List.map_map, Function.comp_def, List.map_id']
        exact List.nodup_range.filter _
      · apply List.Nodup.pairwise_of_forall_ne List.nodup_range
        intro p _ q _ hpq k h1 h2
        simp only [outputOf, List.map_map, Function.comp_def, List.map_id', List.mem_filter,
          decide_eq_true_eq] at h1 h2
        exact hpq (h1.2.symm.trans h2.2)
  · intro p hp e
    have : (p, ((cs p).filter (fun c => c.1 = p)).map Prod.snd) ∈
        (outputOf P p n infos (cs p)).files := by
      simp only [outputOf, List.mem_map, List.mem_filter, List.mem_range, decide_eq_true_eq]
      exact ⟨p, ⟨lt_of_lt_of_le hp hR.hn, Nat.mod_eq_of_lt hp⟩, rfl⟩
    rw [e] at this
    simp at this
  · intro p hp f hf c hc
    simp only [outputOf, List.mem_map, List.mem_filter, List.mem_range, decide_eq_true_eq] at hf
    obtain ⟨k, ⟨_, _⟩, rfl⟩ := hf
    simp only [List.mem_map, List.mem_filter] at hc
    obtain ⟨x, ⟨hx, _⟩, rfl⟩ := hc
    obtain ⟨a, ha, hC⟩ := hR.chunk p hp x hx
    exact ⟨a, ha, hC.holder, hC.shape, hC.data⟩

/-- Two processes, three shard files, chunks of at most 8 bytes: the hypotheses hold, and the first
process writes files 0 and 2. -/
example : (∀ a ∈ [exLeaf1, exLeaf2], LeafOk 2 a) ∧
    (∀ p < 2, List.Forall₂ SameArray [exLeaf1, exLeaf2] (exViews p)) ∧
    (saveProcess 2 0 (some 3) (some 8) (exViews 0)).toOption.map
      (fun o => o.files.map fun f => (f.1, f.2.map fun c => (c.leaf, c.slice))) =
      some [(0, [(0, [Slice.mk 0 1, Slice.mk 0 2]), (1, [])]),
        (2, [(0, [Slice.mk 1 2, Slice.mk 0 2])])] := by
  exact ⟨exLeaves_ok, exViews_ok, rfl⟩

/-! ### C28 -/

/-- C28.  The assignment of the regions of an array to checkpoint shards, and the loads it leaves, do not
depend on the order in which the device shards are enumerated. -/
theorem C28_layout_independent {α : Type*} (P : Nat) (a b : Leaf α) (ha : LeafOk P a)
    (hab : SameArray a b) (mb : Option Nat) (bytes : List Nat) :
    mapSlicendToCkptShard P a.itemsize (mapSlicendToArrayShards a mb) bytes =
      mapSlicendToCkptShard P b.itemsize (mapSlicendToArrayShards b mb) bytes :=
  layout_congr ha hab mb bytes

/-- C28.  So all the processes of a run agree: for the index that process 0 writes, a region is listed
with shard `k` exactly when the process owning shard `k` put a chunk with that region in file `k`. -/
theorem C28_index_matches_files {α : Type*} (P : Nat) (hP : 0 < P) (ns mb : Option Nat)
    (leaves : List (Leaf α)) (hok : ∀ a ∈ leaves, LeafOk P a) (views : Nat → List (Leaf α))
    (hv : ∀ p < P, List.Forall₂ SameArray leaves (views p)) :
    ∃ (out : Nat → ProcessOutput α) (n : Nat) (infos : List IndexInfo),
      (∀ p < P, saveProcess P p ns mb (views p) = .ok (out p)) ∧
      (out 0).index = some (n, infos) ∧ infos.length = leaves.length ∧
      ∀ (i : Nat) (info : IndexInfo), infos[i]? = some info → ∀ c k,
        ((c, k) ∈ info.slices.zip info.shards ↔
          ∃ f ∈ (out (k % P)).files, f.1 = k ∧ ∃ x ∈ f.2, x.leaf = i ∧ x.slice = c) := by
  obtain ⟨maps, infos, cs, hR, hsave⟩ := run_ok P ns mb leaves hok views hv
  refine ⟨fun p => outputOf P p _ infos (cs p), _, infos, hsave, rfl, ?_, ?_⟩
  · have := congrArg List.length hR.shapes
    simpa using this
  · intro i info hinfo c k
    have hil : i < leaves.length := by
      have := congrArg List.length hR.shapes
      simp only [List.length_map] at this
      rw [← this]
      exact (List.getElem?_eq_some_iff.1 hinfo).1
    obtain ⟨m, hm, hL⟩ := hR.layout_at (List.getElem?_eq_getElem hil)
    have hi := hR.info_at (List.getElem?_eq_getElem hil) hm
    rw [hinfo] at hi
    obtain rfl := Option.some.inj hi
    rw [makeIndexInfo_zip m (hL.nodup (hok _ (List.getElem_mem hil)))]
    constructor
    · intro hc
      obtain ⟨x, hx, h1, h2⟩ := hR.stored hP hm hc
      refine ⟨(k, ((cs (k % P)).filter (fun c => c.1 = k)).map Prod.snd), ?_, rfl, x, hx, h1, h2⟩
      simp only [outputOf, List.mem_map, List.mem_filter, List.mem_range, decide_eq_true_eq]
      exact ⟨k, ⟨(hL.assign _ hc).lt, rfl⟩, rfl⟩
    · rintro ⟨⟨k', l⟩, hf, rfl, x, hx, rfl, rfl⟩
      simp only [outputOf, List.mem_map, List.mem_filter, List.mem_range, decide_eq_true_eq,
        Prod.mk.injEq] at hf
      obtain ⟨k', ⟨_, _⟩, rfl, rfl⟩ := hf
      simp only [List.mem_map, List.mem_filter] at hx
      obtain ⟨y, ⟨hy, hyk⟩, rfl⟩ := hx
      have hye : (y.1, y.2.leaf, y.2.slice) ∈ expected P (k' % P) maps 0 := by
        rw [← hR.keys _ (Nat.mod_lt _ hP)]
        exact List.mem_map.2 ⟨y, hy, rfl⟩
      obtain ⟨_, m', hm', hc, _⟩ := (mem_expected _ _ _ _ _ _ _).1 hye
      simp only [Nat.sub_zero] at hm'
      rw [hm] at hm'
      obtain rfl := Option.some.inj hm'
      have : y.1 = k' := by simpa using hyk
      rw [this] at hc
      exact hc

/-- The second process of the example enumerates the shards in the opposite order. -/
example : LeafOk 2 exLeaf1 ∧ SameArray exLeaf1 { exLeaf1 with shards := exLeaf1.shards.reverse } ∧
    exLeaf1.shards ≠ exLeaf1.shards.reverse :=
  ⟨exLeaf1_ok, ⟨rfl, rfl, (List.reverse_perm _).symm⟩, by decide⟩

/-! ### C20 -/

/-- C20.  For an index whose chunks have positions, a process reads shard file `k` if and only if, for
some array, some chunk stored in shard `k` shares a position with the region of one of its devices. -/
theorem C20_reads_exactly_needed (targets : List (List JaxIndex)) (infos : List IndexInfo)
    (hlen : targets.length = infos.length)
    (hinfo : ∀ info ∈ infos, ∀ c ∈ info.slices, c.length = info.shape.length ∧ ∃ idx, InSlice c idx)
    (hrank : ∀ (i : Nat) (info : IndexInfo) (t : List JaxIndex), infos[i]? = some info → targets[i]? = some t →
      ∀ d ∈ t, d.length = info.shape.length) (k : Nat) :
    k ∈ shardsToRestore targets infos ↔
      ∃ (i : Nat) (info : IndexInfo) (t : List JaxIndex) (d : JaxIndex) (c : SliceNd) (idx : List Nat),
        infos[i]? = some info ∧ targets[i]? = some t ∧ d ∈ t ∧
        (c, k) ∈ info.slices.zip info.shards ∧ InIndex d info.shape idx ∧ InSlice c idx := by
  have _ := hlen
  rw [mem_shardsToRestore]
  constructor
  · rintro ⟨i, t, info, ht, hi, d, hd, c, hc, hm⟩
    have hdl := hrank i info t hi ht d hd
    have hcs := hinfo info (List.mem_of_getElem? hi) c (List.of_mem_zip hc).1
    have hl : (shardIndexToSlicend d info.shape).length = c.length := by
      simp [shardIndexToSlicend, hdl, hcs.1]
    rcases (slicesMatch_iff hl).1 hm with e | ⟨idx, h1, h2⟩
    · obtain ⟨idx, h2⟩ := hcs.2
      exact ⟨i, info, t, d, c, idx, hi, ht, hd, hc, (inSlice_region hdl idx).1 (e ▸ h2), h2⟩
    · exact ⟨i, info, t, d, c, idx, hi, ht, hd, hc, (inSlice_region hdl idx).1 h1, h2⟩
  · rintro ⟨i, info, t, d, c, idx, hi, ht, hd, hc, h1, h2⟩
    have hdl := hrank i info t hi ht d hd
    have hcs := hinfo info (List.mem_of_getElem? hi) c (List.of_mem_zip hc).1
    have hl : (shardIndexToSlicend d info.shape).length = c.length := by
      simp [shardIndexToSlicend, hdl, hcs.1]
    exact ⟨i, t, info, ht, hi, d, hd, c, hc,
      (slicesMatch_iff hl).2 (Or.inr ⟨idx, (inSlice_region hdl idx).2 h1, h2⟩)⟩

/-- A vector of 6 items stored as three chunks in shards 2, 0, 1, and a device that needs items 1 to 3:
files 0 and 2 are read.  A scalar is stored in shard 1. -/
example : shardsToRestore [[[(some 1, some 4)]]]
      [{ shape := [6], slices := [[Slice.mk 0 2], [Slice.mk 2 4], [Slice.mk 4 6]], shards := [2, 0, 1] }]
      = [0, 2] ∧
    shardsToRestore [[[]]] [{ shape := [], slices := [[]], shards := [1] }] = [1] := by decide

/-- The intersection test of the code finds exactly the common positions. -/
theorem C20_intersection (g c : SliceNd) (hl : g.length = c.length) :
    (∀ x, intersectSlicend g c = some x → ∀ idx, InSlice x idx ↔ InSlice g idx ∧ InSlice c idx) ∧
    (intersectSlicend g c = none → ∀ idx, ¬ (InSlice g idx ∧ InSlice c idx)) :=
  ⟨fun _ h => (intersect_some hl h).2.1, fun h idx => intersect_none hl h idx⟩

example : intersectSlicend [Slice.mk 0 4, Slice.mk 3 9] [Slice.mk 2 6, Slice.mk 0 5] =
    some [Slice.mk 2 4, Slice.mk 3 5] := by decide

/-! ### C19 -/

/-- C19.  After a save by any number of processes, a restoring process (of a run with any other number of
processes) with any assignment of regions to its devices finds all the files it needs, does not fail, and
hands to every device, at every position of its region, the saved element — whatever the order in which
the chunks of the files are processed, and whatever the buffers contained initially. -/
theorem C19_round_trip {α : Type*} (zero : α) (P : Nat) (hP : 0 < P) (ns mb : Option Nat)
    (leaves : List (Leaf α)) (hok : ∀ a ∈ leaves, LeafOk P a) (views : Nat → List (Leaf α))
    (hv : ∀ p < P, List.Forall₂ SameArray leaves (views p)) :
    ∃ (out : Nat → ProcessOutput α) (n : Nat) (infos : List IndexInfo),
      (∀ p < P, saveProcess P p ns mb (views p) = .ok (out p)) ∧
      (out 0).index = some (n, infos) ∧
      ∀ targets : List (List JaxIndex), targets.length = leaves.length →
        (∀ i a d, leaves[i]? = some a → d ∈ targets.getD i [] → d.length = a.value.shape.length ∧
          ∀ idx, InIndex d a.value.shape idx → ValidIdx a.value.shape idx) →
        ∃ contents, (shardsToRestore targets infos).mapM (readFile ((List.range P).map out)) =
            .ok contents ∧
          ∀ chunks : List (Chunk α), chunks.Perm contents.flatten →
            ∃ bufs, restoreBuffers zero targets infos chunks = .ok bufs ∧
              ∀ i a d, leaves[i]? = some a → d ∈ targets.getD i [] →
                ∃ b, bufferFor bufs i d a.value.shape = .ok b ∧
                  ∀ l, l.length = d.length → InIndex d a.value.shape (globalPos d l) →
                    b.data l = a.value.get (globalPos d l) := by
  obtain ⟨maps, infos, cs, hR, hsave⟩ := run_ok P ns mb leaves hok views hv
  set n := effectiveNumShards P ns with hn
  refine ⟨fun p => outputOf P p n infos (cs p), n, infos, hsave, rfl, ?_⟩
  intro targets ht hrank
  have hlen : infos.length = leaves.length := by
    have := congrArg List.length hR.shapes
    simpa using this
  have hlt : ∀ k ∈ shardsToRestore targets infos, k < n := by
    intro k hk
    obtain ⟨i, t, info, _, hi, d, hd, c, hc, _⟩ := (mem_shardsToRestore _ _ _).1 hk
    have hil : i < leaves.length := by
      rw [← hlen]; exact (List.getElem?_eq_some_iff.1 hi).1
    obtain ⟨m, hm, hL⟩ := hR.layout_at (List.getElem?_eq_getElem hil)
    have hi' := hR.info_at (List.getElem?_eq_getElem hil) hm
    rw [hi] at hi'
    obtain rfl := Option.some.inj hi'
    rw [makeIndexInfo_zip m (hL.nodup (hok _ (List.getElem_mem hil)))] at hc
    exact (hL.assign _ hc).lt
  refine ⟨_, mapM_ok _ (fun k => ((cs (k % P)).filter (fun c => c.1 = k)).map Prod.snd) _
    (fun k hk => readFile_ok infos cs hP (hlt k hk)), ?_⟩
  intro chunks hperm
  refine restore_ok zero leaves targets infos chunks ht hR.shapes
    (fun i a d ha hd => (hrank i a d ha hd).1) ?_ ?_
  · intro c hc
    rw [hperm.mem_iff, List.mem_flatten] at hc
    obtain ⟨l, hl, hc⟩ := hc
    obtain ⟨k, hk, rfl⟩ := List.mem_map.1 hl
    simp only [List.mem_map, List.mem_filter] at hc
    obtain ⟨x, ⟨hx, _⟩, rfl⟩ := hc
    obtain ⟨a, ha, hC⟩ := hR.chunk _ (Nat.mod_lt _ hP) x hx
    refine ⟨⟨a, ha, ?_, hC.data⟩, hC.pos⟩
    obtain ⟨s, hs, _, hin⟩ := hC.holder
    have h1 := inIndex_length (hin _ (corner_mem hC.pos))
    simpa [corner] using h1.2
  · intro i a d ha hd idx hidx
    have haok := hok a (List.mem_of_getElem? ha)
    obtain ⟨hdl, hval⟩ := hrank i a d ha hd
    obtain ⟨m, hm, hL⟩ := hR.layout_at ha
    have hone := (toShards_ok haok mb).count idx (hval idx hidx)
    obtain ⟨c, hc, hci⟩ : ∃ c ∈ PyDict.keys (mapSlicendToArrayShards a mb), InSlice c idx := by
      by_contra hcon
      push Not at hcon
      have : (PyDict.keys (mapSlicendToArrayShards a mb)).countP
          (fun c => decide (InSlice c idx)) = 0 := by
        rw [List.countP_eq_zero]
        intro c hc
        simpa using hcon c hc
      omega
    have hcm : c ∈ PyDict.keys m := by
      rw [hL.keys, (List.perm_insertionSort _ _).mem_iff]; exact hc
    obtain ⟨⟨c', k⟩, hck, rfl⟩ := List.mem_map.1 hcm
    obtain ⟨x, hx, h1, h2⟩ := hR.stored hP hm hck
    refine ⟨x, ?_, h1, by rw [h2]; exact hci⟩
    rw [hperm.mem_iff, List.mem_flatten]
    refine ⟨_, List.mem_map.2 ⟨k, ?_, rfl⟩, hx⟩
    rw [mem_shardsToRestore]
    have hit : i < targets.length := by
      rw [ht]; exact (List.getElem?_eq_some_iff.1 ha).1
    have hgd : targets.getD i [] = targets[i] := by
      rw [List.getD_eq_getElem?_getD, List.getElem?_eq_getElem hit]; rfl
    refine ⟨i, targets[i], _, List.getElem?_eq_getElem hit, hR.info_at ha hm, d, hgd ▸ hd, c', ?_, ?_⟩
    · rw [makeIndexInfo_zip m (hL.nodup haok)]
      exact hck
    · have hreg := (inSlice_region (shape := a.value.shape) hdl idx).2 hidx
      have hl1 := ((inSlice_iff _ _).1 hreg).1
      have hl2 := ((inSlice_iff _ _).1 hci).1
      exact (slicesMatch_iff (hl1.trans hl2.symm)).2 (Or.inr ⟨idx, hreg, hci⟩)

/-- The run saved by two processes is restored on one process with one device holding everything and
another holding one column; the value restored at local position `[3, 0]` of the column device is the
element `[3, 1]`. -/
example : ∃ o0 o1 n infos contents bufs b,
    saveProcess 2 0 (some 3) (some 8) (exViews 0) = .ok o0 ∧
    saveProcess 2 1 (some 3) (some 8) (exViews 1) = .ok o1 ∧
    o0.index = some (n, infos) ∧
    (shardsToRestore [[[(none, none), (none, none)], [(none, none), (some 1, some 2)]], [[]]]
      infos).mapM (readFile [o0, o1]) = .ok contents ∧
    restoreBuffers 0 [[[(none, none), (none, none)], [(none, none), (some 1, some 2)]], [[]]]
      infos contents.flatten = .ok bufs ∧
    bufferFor bufs 0 [(none, none), (some 1, some 2)] [4, 2] = .ok b ∧ b.data [3, 0] = 31 :=
  ⟨_, _, _, _, _, _, _, rfl, rfl, rfl, rfl, rfl, rfl, rfl⟩

/-- C19.  Arrays without elements are outside the theorem for a reason: restoring a chunk of an array
with shape `(0,)` raises TypeError. -/
theorem C19_empty_array_counterexample :
    (restoreBuffers 0 [[[(none, none)]]]
      [{ shape := [0], slices := [[Slice.mk 0 0]], shards := [0] }]
      [{ leaf := 0, data := { shape := [0], get := fun _ => 0 }, slice := [Slice.mk 0 0] }] :
        Except PyErr (Buffers Nat)).map (fun _ => ()) = .error .typeError := by decide

/-! ### C21 -/

/-- C21.  Every chunk goes to a least loaded shard among those handled by a process holding it (the
smallest number in case of a tie). -/
theorem C21_least_loaded (P : Nat) (bytes procs : List Nat) (k : Nat)
    (h : findSmallestCkptShard P bytes procs = .ok k) :
    k < bytes.length ∧ k % P ∈ procs ∧ ∀ j, j < bytes.length → j % P ∈ procs →
      bytes.getD k 0 < bytes.getD j 0 ∨ (bytes.getD k 0 = bytes.getD j 0 ∧ k ≤ j) :=
  findSmallest_spec h

example : findSmallestCkptShard 2 [5, 3, 7, 3, 1] [1] = .ok 1 := by decide

/-- Size in bytes of the chunks of a file. -/
def fileBytes {α : Type*} (leaves : List (Leaf α)) (chunks : List (Chunk α)) : Nat :=
  (chunks.map fun c => items c.slice * ((leaves[c.leaf]?).map Leaf.itemsize).getD 0).sum

/-- C21.  If every region is held by every process (a single process, or replicated data), the sizes of
any two shard files differ by at most `B`, the size of the largest chunk. -/
theorem C21_balanced {α : Type*} (P : Nat) (hP : 0 < P) (ns mb : Option Nat)
    (leaves : List (Leaf α)) (hok : ∀ a ∈ leaves, LeafOk P a)
    (hheld : ∀ a ∈ leaves, ∀ s ∈ a.shards, ∀ q < P, ∃ t ∈ a.shards, t.process = q ∧
      ∀ idx, InIndex t.index a.value.shape idx ↔ InIndex s.index a.value.shape idx)
    (views : Nat → List (Leaf α))
    (hv : ∀ p < P, List.Forall₂ SameArray leaves (views p)) :
    ∃ out : Nat → ProcessOutput α, (∀ p < P, saveProcess P p ns mb (views p) = .ok (out p)) ∧
      ∀ B, (∀ p < P, ∀ f ∈ (out p).files, ∀ c ∈ f.2, fileBytes leaves [c] ≤ B) →
      ∀ p < P, ∀ q < P, ∀ f ∈ (out p).files, ∀ g ∈ (out q).files,
        fileBytes leaves f.2 ≤ fileBytes leaves g.2 + B := by
  obtain ⟨maps, infos, cs, hR, hsave⟩ := run_ok P ns mb leaves hok views hv
  set n := effectiveNumShards P ns with hn
  refine ⟨fun p => outputOf P p n infos (cs p), hsave, ?_⟩
  intro B hB p hp q hq f hf g hg
  have key : ∀ p < P, ∀ f ∈ (outputOf P p n infos (cs p)).files, f.1 < n ∧
      fileBytes leaves f.2 = totalBytes f.1 maps leaves := by
    intro p hp f hf
    simp only [outputOf, List.mem_map, List.mem_filter, List.mem_range, decide_eq_true_eq] at hf
    obtain ⟨k, ⟨hk, rfl⟩, rfl⟩ := hf
    exact ⟨hk, hR.bytes hP k⟩
  obtain ⟨h1, h2⟩ := key p hp f hf
  obtain ⟨h3, h4⟩ := key q hq g hg
  rw [h2, h4]
  refine hR.balanced hP hheld B ?_ _ _ h1 h3
  rw [List.forall₂_iff_get]
  refine ⟨(List.forall₂_iff_get.1 hR.layout).1, fun i h1 h2 kv hkv => ?_⟩
  simp only [List.get_eq_getElem] at hkv ⊢
  have hL := (List.forall₂_iff_get.1 hR.layout).2 i h1 h2
  simp only [List.get_eq_getElem] at hL
  obtain ⟨x, hx, e1, e2⟩ := hR.stored hP (List.getElem?_eq_getElem h2) hkv
  have := hB (kv.2 % P) (Nat.mod_lt _ hP)
    (kv.2, ((cs (kv.2 % P)).filter (fun c => c.1 = kv.2)).map Prod.snd) (by
      simp only [outputOf, List.mem_map, List.mem_filter, List.mem_range, decide_eq_true_eq]
      exact ⟨kv.2, ⟨(hL.assign _ hkv).lt, rfl⟩, rfl⟩) x hx
  simp only [fileBytes, List.map_cons, List.map_nil, List.sum_cons, List.sum_nil, Nat.add_zero, e1, e2,
    List.getElem?_eq_getElem h1, Option.map_some, Option.getD_some] at this
  exact this

/-- The replicated scalar meets the hypothesis with two processes. -/
example : ∀ s ∈ exLeaf2.shards, ∀ q < 2, ∃ t ∈ exLeaf2.shards, t.process = q ∧
    ∀ idx, InIndex t.index exLeaf2.value.shape idx ↔ InIndex s.index exLeaf2.value.shape idx := by
  intro s hs q hq
  have hs' : s.index = [] := by
    simp only [exLeaf2, List.mem_cons, List.not_mem_nil, or_false] at hs
    rcases hs with rfl | rfl | rfl | rfl <;> rfl
  refine ⟨⟨q, []⟩, ?_, rfl, fun idx => by rw [hs']⟩
  simp only [exLeaf2, List.mem_cons, Shard.mk.injEq, and_true, List.not_mem_nil, or_false]
  omega

/-- C21.  Balance is not guaranteed in general: when one process holds all the data, the shards of the
other processes stay empty. -/
theorem C21_partitioned_unbalanced_counterexample :
    (mapSlicendToCkptShard 2 4 [([Slice.mk 0 1], [⟨0, [(some 0, some 1)]⟩]),
      ([Slice.mk 1 2], [⟨0, [(some 1, some 2)]⟩]), ([Slice.mk 2 3], [⟨0, [(some 2, some 3)]⟩])]
      [0, 0]).toOption.map Prod.fst = some [12, 0] := by decide

end Verif.Ckpt
