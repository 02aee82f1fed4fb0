import Verif.Proofs.Split
import Verif.Proofs.PyDict
import Mathlib.Data.List.Dedup
import Mathlib.Data.List.Perm.Basic
import Mathlib.Data.List.Perm.Lattice

/-!
Helper lemmas: the map from regions to device shards.
-/

namespace Verif.Ckpt

open Verif Spec

theorem inIndex_length {d : JaxIndex} {shape idx : List Nat} (h : InIndex d shape idx) :
    d.length = shape.length ∧ idx.length = shape.length := by
  induction d generalizing shape idx with
  | nil =>
    cases shape <;> cases idx <;> simp_all [InIndex]
  | cons x d ih =>
    cases shape with
    | nil => simp [InIndex] at h
    | cons n shape =>
      cases idx with
      | nil => simp [InIndex] at h
      | cons i idx =>
        simp only [InIndex] at h
        have := ih h.2.2
        simp [this]

theorem inSlice_region {d : JaxIndex} {shape : List Nat} (hd : d.length = shape.length)
    (idx : List Nat) : InSlice (shardIndexToSlicend d shape) idx ↔ InIndex d shape idx := by
  induction d generalizing shape idx with
  | nil =>
    cases shape with
    | nil => cases idx <;> simp [InSlice, shardIndexToSlicend, InIndex]
    | cons n shape => simp at hd
  | cons x d ih =>
    cases shape with
    | nil => simp at hd
    | cons n shape =>
      obtain ⟨a, b⟩ := x
      cases idx with
      | nil => simp [InSlice, shardIndexToSlicend, InIndex]
      | cons i idx =>
        have := @ih shape (by simpa using hd) idx
        simp only [InSlice, shardIndexToSlicend, InIndex, List.zipWith_cons_cons,
          List.forall₂_cons, Slice.mk, ofLex_toLex] at this ⊢
        rw [this, and_assoc]

/-- Every axis of the region holds a position. -/
def Pos (s : SliceNd) : Prop := ∀ x ∈ s, Slice.start x < Slice.stop x

theorem pos_of_inSlice {s : SliceNd} {idx : List Nat} (h : InSlice s idx) : Pos s := by
  intro x hx
  obtain ⟨hl, h⟩ := (inSlice_iff s idx).1 h
  obtain ⟨i, hi, rfl⟩ := List.mem_iff_getElem.1 hx
  have := h i hi (hl ▸ hi)
  omega

/-- The first position of a region. -/
def corner (s : SliceNd) : List Nat := s.map Slice.start

theorem corner_mem {s : SliceNd} (h : Pos s) : InSlice s (corner s) := by
  rw [inSlice_iff]
  refine ⟨by simp [corner], fun i hi hi' => ?_⟩
  have := h _ (List.getElem_mem hi)
  simp only [corner, List.getElem_map]
  omega

theorem last_mem {s : SliceNd} (h : Pos s) : InSlice s (s.map fun x => Slice.stop x - 1) := by
  rw [inSlice_iff]
  refine ⟨by simp, fun i hi hi' => ?_⟩
  have := h _ (List.getElem_mem hi)
  simp only [List.getElem_map]
  omega

theorem slice_ext {a b : Slice} (h1 : Slice.start a = Slice.start b)
    (h2 : Slice.stop a = Slice.stop b) : a = b := by
  have : ofLex a = ofLex b := Prod.ext h1 h2
  exact ofLex.injective this

/-- Two regions with the same positions are the same region. -/
theorem region_ext {s t : SliceNd} (hs : Pos s) (h : ∀ idx, InSlice s idx ↔ InSlice t idx) :
    s = t := by
  have h1 := (h _).1 (corner_mem hs)
  have ht := pos_of_inSlice h1
  have h2 := (h _).1 (last_mem hs)
  have h3 := (h _).2 (corner_mem ht)
  have h4 := (h _).2 (last_mem ht)
  rw [inSlice_iff] at h1 h2 h3 h4
  have hl : s.length = t.length := by simpa [corner] using h1.1.symm
  refine List.ext_getElem hl (fun i hi hi' => ?_)
  have g1 := h1.2 i hi' (by simpa [corner] using hi)
  have g2 := h2.2 i hi' (by simpa using hi)
  have g3 := h3.2 i hi (by simpa [corner] using hi')
  have g4 := h4.2 i hi (by simpa using hi')
  simp only [corner, List.getElem_map] at g1 g2 g3 g4
  exact slice_ext (by omega) (by omega)

/-! ### Grouping device shards by region -/

theorem groupShards_foldl (shape : List Nat) (l : List Shard) (d : PyDict SliceNd (List Shard))
    (hd : (PyDict.keys d).Nodup) :
    let r := l.foldl (fun d s =>
      let k := shardIndexToSlicend s.index shape
      PyDict.set d k ((PyDict.get? d k).getD [] ++ [s])) d
    (PyDict.keys r).Nodup ∧ ∀ k, PyDict.get? r k =
      if (l.filter fun s => shardIndexToSlicend s.index shape = k) = [] then PyDict.get? d k
      else some ((PyDict.get? d k).getD [] ++
        l.filter fun s => shardIndexToSlicend s.index shape = k) := by
  induction l generalizing d with
  | nil => simpa using hd
  | cons s l ih =>
    intro r
    have := ih (PyDict.set d (shardIndexToSlicend s.index shape)
      ((PyDict.get? d (shardIndexToSlicend s.index shape)).getD [] ++ [s]))
      (PyDict.nodup_keys_set _ _ _ hd)
    refine ⟨this.1, fun k => ?_⟩
    have h2 := this.2 k
    refine h2.trans ?_
    rw [PyDict.get?_set]
    by_cases hk : shardIndexToSlicend s.index shape = k
    · subst hk
      simp only [if_true, List.filter_cons, decide_true, reduceCtorEq, if_false, Option.getD_some]
      split
      · rename_i h; rw [h]
      · simp
    · simp only [List.filter_cons, hk, decide_false, Bool.false_eq_true, if_false]

theorem groupShards_nodup (shape : List Nat) (l : List Shard) :
    (PyDict.keys (groupShards shape l)).Nodup :=
  (groupShards_foldl shape l [] (by simp [PyDict.keys])).1

theorem groupShards_get? (shape : List Nat) (l : List Shard) (k : SliceNd) :
    PyDict.get? (groupShards shape l) k =
      if (l.filter fun s => shardIndexToSlicend s.index shape = k) = [] then none
      else some (l.filter fun s => shardIndexToSlicend s.index shape = k) := by
  have := (groupShards_foldl shape l [] (by simp [PyDict.keys])).2 k
  refine this.trans ?_
  simp [PyDict.get?]

theorem mem_groupShards (shape : List Nat) (l : List Shard) (k : SliceNd) (v : List Shard) :
    (k, v) ∈ groupShards shape l ↔
      v ≠ [] ∧ v = l.filter fun s => shardIndexToSlicend s.index shape = k := by
  rw [← PyDict.get?_eq_some _ (groupShards_nodup shape l), groupShards_get?]
  split
  · rename_i h
    rw [h]
    simp
  · rename_i h
    constructor
    · intro e
      have := (Option.some.inj e)
      subst this
      exact ⟨h, rfl⟩
    · rintro ⟨_, e⟩
      rw [e]

theorem mem_keys_groupShards (shape : List Nat) (l : List Shard) (k : SliceNd) :
    k ∈ PyDict.keys (groupShards shape l) ↔ ∃ s ∈ l, shardIndexToSlicend s.index shape = k := by
  unfold PyDict.keys
  rw [List.mem_map]
  constructor
  · rintro ⟨⟨k', v⟩, h, rfl⟩
    rw [mem_groupShards] at h
    obtain ⟨s, hs⟩ := List.exists_mem_of_ne_nil _ h.1
    rw [h.2, List.mem_filter] at hs
    exact ⟨s, hs.1, by simpa using hs.2⟩
  · rintro ⟨s, hs, e⟩
    refine ⟨(k, l.filter fun s => shardIndexToSlicend s.index shape = k), ?_, rfl⟩
    rw [mem_groupShards]
    refine ⟨?_, rfl⟩
    apply List.ne_nil_of_mem (a := s)
    rw [List.mem_filter]
    exact ⟨hs, by simpa using e⟩

/-! ### Splitting all the regions -/

theorem split_ok' (s : SliceNd) (hs : Pos s) (m : Option Nat) (hm : ∀ x, m = some x → 1 ≤ x) :
    (∀ idx, (splitSlicend s m).countP (fun c => InSlice c idx) = if InSlice s idx then 1 else 0) ∧
    (∀ c ∈ splitSlicend s m, c.length = s.length) ∧
    (∀ c ∈ splitSlicend s m, ∀ i (h : i < s.length) (h' : i < c.length),
      Slice.start s[i] ≤ Slice.start c[i] ∧ Slice.start c[i] < Slice.stop c[i] ∧
      Slice.stop c[i] ≤ Slice.stop s[i]) := by
  cases m with
  | some x =>
    have := splitSlicend_ok s hs x (hm x rfl)
    exact ⟨this.count, this.len, this.sub⟩
  | none =>
    rw [splitSlicend_none]
    refine ⟨fun idx => ?_, by simp, ?_⟩
    · rw [List.countP_singleton]
      by_cases h : InSlice s idx <;> simp [h]
    · intro c hc i h h'
      obtain rfl := List.mem_singleton.1 hc
      exact ⟨le_refl _, hs _ (List.getElem_mem h), le_refl _⟩

theorem maxChunkItems_pos (b : Option Nat) (i : Nat) (x : Nat) (h : maxChunkItems b i = some x) :
    1 ≤ x := by
  unfold maxChunkItems at h
  split at h
  · split at h
    · have := Option.some.inj h
      omega
    · cases h
  · cases h

theorem pos_of_sub {s c : SliceNd} (hl : c.length = s.length)
    (h : ∀ i (h : i < s.length) (h' : i < c.length),
      Slice.start s[i] ≤ Slice.start c[i] ∧ Slice.start c[i] < Slice.stop c[i] ∧
      Slice.stop c[i] ≤ Slice.stop s[i]) : Pos c := by
  intro x hx
  obtain ⟨i, hi, rfl⟩ := List.mem_iff_getElem.1 hx
  exact (h i (hl ▸ hi) hi).2.1

theorem inSlice_of_sub {s c : SliceNd} (hl : c.length = s.length)
    (h : ∀ i (h : i < s.length) (h' : i < c.length),
      Slice.start s[i] ≤ Slice.start c[i] ∧ Slice.start c[i] < Slice.stop c[i] ∧
      Slice.stop c[i] ≤ Slice.stop s[i]) {idx : List Nat} (hi : InSlice c idx) : InSlice s idx := by
  rw [inSlice_iff] at hi ⊢
  refine ⟨hl ▸ hi.1, fun i h1 h2 => ?_⟩
  have := hi.2 i (hl ▸ h1) h2
  have := h i h1 (hl ▸ h1)
  omega

theorem nodup_of_count (l : List SliceNd) (hp : ∀ c ∈ l, Pos c)
    (h : ∀ idx, l.countP (fun c => InSlice c idx) ≤ 1) : l.Nodup := by
  rw [List.nodup_iff_count_le_one]
  intro c
  by_cases hc : c ∈ l
  · refine le_trans ?_ (h (corner c))
    rw [List.count]
    apply List.countP_mono_left
    intro x _ hx
    have : x = c := by simpa using hx
    subst this
    simpa using corner_mem (hp x hc)
  · rw [List.count_eq_zero_of_not_mem hc]; omega

theorem countP_eq_one_of_unique {β : Type*} [DecidableEq β] (l : List β) (hl : l.Nodup)
    (p : β → Bool) (a : β) (ha : a ∈ l) (hp : p a) (hu : ∀ b ∈ l, p b → b = a) :
    l.countP p = 1 := by
  rw [← List.count_eq_one_of_mem hl ha, List.count]
  apply List.countP_congr
  intro b hb
  simp only [beq_iff_eq]
  exact ⟨hu b hb, fun e => e ▸ hp⟩

/-- Properties of the map from regions to device shards. -/
structure ToShardsOk {α : Type*} (a : Leaf α) (d : PyDict SliceNd (List Shard)) : Prop where
  nodup : (PyDict.keys d).Nodup
  count : ∀ idx, ValidIdx a.value.shape idx →
    (PyDict.keys d).countP (fun c => InSlice c idx) = 1
  pos : ∀ c ∈ PyDict.keys d, Pos c
  entry : ∀ c v, PyDict.get? d c = some v → v ≠ [] ∧ ∀ s ∈ v, s ∈ a.shards ∧
    c.length = (shardIndexToSlicend s.index a.value.shape).length ∧
    ∀ i (h : i < (shardIndexToSlicend s.index a.value.shape).length) (h' : i < c.length),
      Slice.start (shardIndexToSlicend s.index a.value.shape)[i] ≤ Slice.start c[i] ∧
      Slice.start c[i] < Slice.stop c[i] ∧
      Slice.stop c[i] ≤ Slice.stop (shardIndexToSlicend s.index a.value.shape)[i]

theorem leafOk_len {α : Type*} {P : Nat} {a : Leaf α} (h : LeafOk P a) {s : Shard}
    (hs : s ∈ a.shards) : s.index.length = a.value.shape.length := by
  obtain ⟨idx, hi⟩ := h.nonempty s hs
  exact (inIndex_length hi).1

theorem leafOk_pos {α : Type*} {P : Nat} {a : Leaf α} (h : LeafOk P a) {s : Shard}
    (hs : s ∈ a.shards) : Pos (shardIndexToSlicend s.index a.value.shape) := by
  obtain ⟨idx, hi⟩ := h.nonempty s hs
  exact pos_of_inSlice ((inSlice_region (leafOk_len h hs) idx).2 hi)

theorem group_unique {α : Type*} {P : Nat} {a : Leaf α} (h : LeafOk P a) {k k' : SliceNd}
    (hk : k ∈ PyDict.keys (groupShards a.value.shape a.shards))
    (hk' : k' ∈ PyDict.keys (groupShards a.value.shape a.shards)) {idx : List Nat}
    (hi : InSlice k idx) (hi' : InSlice k' idx) : k = k' := by
  rw [mem_keys_groupShards] at hk hk'
  obtain ⟨s, hs, rfl⟩ := hk
  obtain ⟨t, ht, rfl⟩ := hk'
  have ls := leafOk_len h hs
  have lt := leafOk_len h ht
  apply region_ext (leafOk_pos h hs)
  intro idx'
  rw [inSlice_region ls, inSlice_region lt]
  exact h.disjoint s hs t ht idx ((inSlice_region ls _).1 hi) ((inSlice_region lt _).1 hi') idx'

theorem keys_items {α : Type*} (a : Leaf α) (m : Option Nat) :
    PyDict.keys ((groupShards a.value.shape a.shards).flatMap fun kv =>
      (splitSlicend kv.1 m).map fun c => (c, kv.2)) =
    (PyDict.keys (groupShards a.value.shape a.shards)).flatMap fun k => splitSlicend k m := by
  unfold PyDict.keys
  rw [List.map_flatMap, List.flatMap_map]
  congr 1
  funext kv
  rw [List.map_map]
  simp [Function.comp_def]

theorem items_nodup {α : Type*} {P : Nat} {a : Leaf α} (h : LeafOk P a) (m : Option Nat)
    (hm : ∀ x, m = some x → 1 ≤ x) :
    let ks := (PyDict.keys (groupShards a.value.shape a.shards)).flatMap fun k => splitSlicend k m
    ks.Nodup ∧ (∀ c ∈ ks, Pos c) ∧
      ∀ idx, ks.countP (fun c => InSlice c idx) =
        (PyDict.keys (groupShards a.value.shape a.shards)).countP (fun c => InSlice c idx) := by
  intro ks
  have hgp : ∀ k ∈ PyDict.keys (groupShards a.value.shape a.shards), Pos k := by
    intro k hk
    rw [mem_keys_groupShards] at hk
    obtain ⟨s, hs, rfl⟩ := hk
    exact leafOk_pos h hs
  have hpos : ∀ c ∈ ks, Pos c := by
    intro c hc
    obtain ⟨k, hk, hc⟩ := List.mem_flatMap.1 hc
    have := split_ok' k (hgp k hk) m hm
    exact pos_of_sub (this.2.1 c hc) (this.2.2 c hc)
  have hcount : ∀ idx, ks.countP (fun c => InSlice c idx) =
        (PyDict.keys (groupShards a.value.shape a.shards)).countP (fun c => InSlice c idx) := by
    intro idx
    rw [List.countP_flatMap, countP_eq_sum_ite]
    congr 1
    apply List.map_congr_left
    intro k hk
    have := (split_ok' k (hgp k hk) m hm).1 idx
    simp only [Function.comp_def, this, decide_eq_true_eq]
  refine ⟨nodup_of_count ks hpos (fun idx => ?_), hpos, hcount⟩
  rw [hcount]
  by_cases hex : ∃ k ∈ PyDict.keys (groupShards a.value.shape a.shards), InSlice k idx
  · obtain ⟨k, hk, hi⟩ := hex
    rw [countP_eq_one_of_unique _ (groupShards_nodup _ _) _ k hk (by simpa using hi)]
    intro b hb hbi
    exact group_unique h hb hk (by simpa using hbi) hi
  · have : (PyDict.keys (groupShards a.value.shape a.shards)).countP
        (fun c => InSlice c idx) = 0 := by
      rw [List.countP_eq_zero]
      intro k hk hki
      exact hex ⟨k, hk, by simpa using hki⟩
    omega

theorem toShards_eq {α : Type*} {P : Nat} {a : Leaf α} (h : LeafOk P a) (mb : Option Nat) :
    mapSlicendToArrayShards a mb = (groupShards a.value.shape a.shards).flatMap fun kv =>
      (splitSlicend kv.1 (maxChunkItems mb a.itemsize)).map fun c => (c, kv.2) := by
  unfold mapSlicendToArrayShards
  apply PyDict.ofItems_of_nodup
  rw [keys_items]
  exact (items_nodup h _ (maxChunkItems_pos mb a.itemsize)).1

theorem toShards_keys {α : Type*} {P : Nat} {a : Leaf α} (h : LeafOk P a) (mb : Option Nat) :
    PyDict.keys (mapSlicendToArrayShards a mb) =
      (PyDict.keys (groupShards a.value.shape a.shards)).flatMap fun k =>
        splitSlicend k (maxChunkItems mb a.itemsize) := by
  rw [toShards_eq h, keys_items]

theorem toShards_get? {α : Type*} {P : Nat} {a : Leaf α} (h : LeafOk P a) (mb : Option Nat)
    (c : SliceNd) (v : List Shard) :
    PyDict.get? (mapSlicendToArrayShards a mb) c = some v ↔
      ∃ k, (v ≠ [] ∧ v = a.shards.filter fun s => shardIndexToSlicend s.index a.value.shape = k) ∧
        c ∈ splitSlicend k (maxChunkItems mb a.itemsize) := by
  rw [PyDict.get?_eq_some, toShards_eq h, List.mem_flatMap]
  · constructor
    · rintro ⟨⟨k, v'⟩, hk, hc⟩
      rw [List.mem_map] at hc
      obtain ⟨c', hc', e⟩ := hc
      obtain ⟨rfl, rfl⟩ := Prod.mk.inj e
      exact ⟨k, (mem_groupShards _ _ _ _).1 hk, hc'⟩
    · rintro ⟨k, hv, hc⟩
      exact ⟨(k, v), (mem_groupShards _ _ _ _).2 hv, List.mem_map.2 ⟨c, hc, rfl⟩⟩
  · rw [toShards_keys h]
    exact (items_nodup h _ (maxChunkItems_pos mb a.itemsize)).1

theorem toShards_ok {α : Type*} {P : Nat} {a : Leaf α} (h : LeafOk P a) (mb : Option Nat) :
    ToShardsOk a (mapSlicendToArrayShards a mb) := by
  have hk := toShards_keys h mb
  have hi := items_nodup h _ (maxChunkItems_pos mb a.itemsize)
  refine ⟨hk ▸ hi.1, fun idx hv => ?_, hk ▸ hi.2.1, ?_⟩
  · rw [hk, hi.2.2]
    obtain ⟨s, hs, hin⟩ := h.cover idx hv
    have hin' := (inSlice_region (leafOk_len h hs) idx).2 hin
    have hmem : shardIndexToSlicend s.index a.value.shape ∈
        PyDict.keys (groupShards a.value.shape a.shards) :=
      (mem_keys_groupShards _ _ _).2 ⟨s, hs, rfl⟩
    refine countP_eq_one_of_unique _ (groupShards_nodup _ _) _ _ hmem (by simpa using hin') ?_
    intro b hb hbi
    exact group_unique h hb hmem (by simpa using hbi) hin'
  · intro c v hv
    obtain ⟨k, ⟨hne, hveq⟩, hc⟩ := (toShards_get? h mb c v).1 hv
    refine ⟨hne, fun s hs => ?_⟩
    rw [hveq, List.mem_filter] at hs
    have hsk : shardIndexToSlicend s.index a.value.shape = k := by simpa using hs.2
    have hsp := split_ok' k (hsk ▸ leafOk_pos h hs.1) _ (maxChunkItems_pos mb a.itemsize)
    refine ⟨hs.1, ?_, ?_⟩
    · rw [hsk]; exact hsp.2.1 c hc
    · subst hsk
      exact hsp.2.2 c hc

/-- The regions and the processes holding them do not depend on the enumeration of the shards. -/
theorem toShards_perm {α : Type*} {P : Nat} {a b : Leaf α} (ha : LeafOk P a) (hb : LeafOk P b)
    (hab : SameArray a b) (mb : Option Nat) (c : SliceNd) (v : List Shard)
    (h : PyDict.get? (mapSlicendToArrayShards a mb) c = some v) :
    ∃ v', PyDict.get? (mapSlicendToArrayShards b mb) c = some v' ∧ v.Perm v' := by
  obtain ⟨k, ⟨hne, hv⟩, hc⟩ := (toShards_get? ha mb c v).1 h
  have hp : v.Perm (b.shards.filter fun s => shardIndexToSlicend s.index b.value.shape = k) := by
    rw [hv, hab.value]
    exact hab.shards.filter _
  refine ⟨b.shards.filter fun s => shardIndexToSlicend s.index b.value.shape = k, ?_, hp⟩
  rw [toShards_get? hb]
  refine ⟨k, ⟨?_, rfl⟩, hab.itemsize ▸ hc⟩
  intro e
  rw [e] at hp
  exact hne hp.eq_nil

theorem leafOk_of_same {α : Type*} {P : Nat} {a b : Leaf α} (h : LeafOk P a) (hab : SameArray a b) :
    LeafOk P b := by
  obtain ⟨hv, _, hs⟩ := hab
  refine ⟨?_, ?_, ?_, ?_⟩
  · intro idx hi
    rw [← hv] at hi ⊢
    obtain ⟨s, h1, h2⟩ := h.cover idx hi
    exact ⟨s, hs.mem_iff.1 h1, h2⟩
  · intro s h1 t h2
    rw [← hv]
    exact h.disjoint s (hs.mem_iff.2 h1) t (hs.mem_iff.2 h2)
  · intro s h1
    rw [← hv]
    exact h.nonempty s (hs.mem_iff.2 h1)
  · intro s h1
    exact h.process s (hs.mem_iff.2 h1)

theorem Spec.SameArray.symm {α : Type*} {a b : Leaf α} (h : SameArray a b) : SameArray b a :=
  ⟨h.value.symm, h.itemsize.symm, h.shards.symm⟩

end Verif.Ckpt
