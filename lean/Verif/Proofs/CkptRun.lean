import Verif.Proofs.CkptRestore

/-!
Helper lemmas: the files written by all the processes of a run.
-/

namespace Verif.Ckpt

open Verif Spec

theorem le_effectiveNumShards (P : Nat) (ns : Option Nat) : P ≤ effectiveNumShards P ns := by
  unfold effectiveNumShards
  cases ns with
  | none => exact le_refl _
  | some n => simp only; split <;> omega

/-- The output of one process, given the chunks it collected. -/
def outputOf {α : Type*} (P p n : Nat) (infos : List IndexInfo) (cs : List (Nat × Chunk α)) :
    ProcessOutput α :=
  { files := ((List.range n).filter (fun k => k % P = p)).map fun k =>
      (k, (cs.filter (fun c => c.1 = k)).map Prod.snd)
    index := if p = 0 then some (n, infos) else none }

/-- Facts about a run in which every process saved its part. -/
structure RunOk {α : Type*} (P n : Nat) (mb : Option Nat) (leaves : List (Leaf α))
    (maps : List (PyDict SliceNd Nat)) (infos : List IndexInfo)
    (cs : Nat → List (Nat × Chunk α)) : Prop where
  hn : P ≤ n
  ok : ∀ a ∈ leaves, LeafOk P a
  layout : List.Forall₂ (fun a m => LayoutOk P n a mb m) leaves maps
  infos : infos = List.zipWith (fun m (a : Leaf α) => makeIndexInfo m a.value.shape) maps leaves
  keys : ∀ p < P, (cs p).map (fun x => (x.1, x.2.leaf, x.2.slice)) = expected P p maps 0
  chunk : ∀ p < P, ∀ x ∈ cs p, ∃ a, leaves[x.2.leaf]? = some a ∧ ChunkOk P p a x.2
  balanced : 0 < P → (∀ a ∈ leaves, HeldByAll P a) → ∀ B,
    List.Forall₂ (fun (a : Leaf α) (m : PyDict SliceNd Nat) =>
      ∀ kv ∈ m, (sliceShape kv.1).prod * a.itemsize ≤ B) leaves maps →
    ∀ i j, i < n → j < n → totalBytes i maps leaves ≤ totalBytes j maps leaves + B

theorem run_ok {α : Type*} (P : Nat) (ns mb : Option Nat) (leaves : List (Leaf α))
    (hok : ∀ a ∈ leaves, LeafOk P a) (views : Nat → List (Leaf α))
    (hv : ∀ p < P, List.Forall₂ SameArray leaves (views p)) :
    ∃ maps infos cs, RunOk P (effectiveNumShards P ns) mb leaves maps infos cs ∧
      ∀ p < P, saveProcess P p ns mb (views p) =
        .ok (outputOf P p (effectiveNumShards P ns) infos (cs p)) := by
  set n := effectiveNumShards P ns with hn
  obtain ⟨bytes', maps, hlay, ⟨hl, hby, hbal⟩, hall⟩ := saveLoop_ok (le_effectiveNumShards P ns) mb
    leaves (List.replicate n 0) 0 (by simp [hn]) hok
  have hex : ∀ p, ∃ cs, p < P → saveLoop P p mb (views p) 0 (List.replicate n 0) = .ok (bytes',
      List.zipWith (fun m (a : Leaf α) => makeIndexInfo m a.value.shape) maps leaves, cs) ∧
      cs.map (fun x => (x.1, x.2.leaf, x.2.slice)) = expected P p maps 0 ∧
      ∀ x ∈ cs, 0 ≤ x.2.leaf ∧ ∃ a, leaves[x.2.leaf - 0]? = some a ∧ ChunkOk P p a x.2 := by
    intro p
    by_cases hp : p < P
    · obtain ⟨cs, h⟩ := hall p (views p) (hv p hp)
      exact ⟨cs, fun _ => h⟩
    · exact ⟨[], fun h => absurd h hp⟩
  choose cs hcs using hex
  refine ⟨maps, _, cs, ⟨le_effectiveNumShards P ns, hok, hlay, rfl, fun p hp => (hcs p hp).2.1,
    fun p hp x hx => ?_, ?_⟩, ?_⟩
  · obtain ⟨_, a, h1, h2⟩ := (hcs p hp).2.2 x hx
    exact ⟨a, h1, h2⟩
  · intro hP hh B hB i j hi hj
    have hb0 : Balanced B (List.replicate n 0) := by
      intro i j _ _
      simp [List.getElem?_replicate]
      split <;> simp
    have := hbal hP hh B hB hb0 i j (by omega) (by omega)
    rw [hby, hby] at this
    have hz : ∀ k, (List.replicate n 0).getD k 0 = 0 := by
      intro k
      simp [List.getElem?_replicate]
      split <;> simp
    rw [hz, hz] at this
    omega
  · intro p hp
    unfold saveProcess
    simp only [← hn, (hcs p hp).1]
    rfl

theorem mem_expected (P p : Nat) (maps : List (PyDict SliceNd Nat)) (i k i' : Nat) (c : SliceNd) :
    (k, i', c) ∈ expected P p maps i ↔
      i ≤ i' ∧ ∃ m, maps[i' - i]? = some m ∧ (c, k) ∈ m ∧ k % P = p := by
  induction maps generalizing i with
  | nil => simp [expected]
  | cons m ms ih =>
    simp only [expected, List.mem_append, ih, List.mem_map, List.mem_filter, Prod.mk.injEq,
      Prod.exists, decide_eq_true_eq]
    constructor
    · rintro (⟨c', k', ⟨h1, h2⟩, rfl, rfl, rfl⟩ | ⟨h1, m', h2, h3⟩)
      · exact ⟨le_refl _, m, by simp, h1, h2⟩
      · refine ⟨by omega, m', ?_, h3⟩
        have : i' - i = (i' - (i + 1)) + 1 := by omega
        rw [this, List.getElem?_cons_succ]
        exact h2
    · rintro ⟨h1, m', h2, h3, h4⟩
      by_cases e : i = i'
      · subst e
        simp only [Nat.sub_self, List.getElem?_cons_zero, Option.some.injEq] at h2
        subst h2
        exact Or.inl ⟨c, k, ⟨h3, h4⟩, rfl, rfl, rfl⟩
      · refine Or.inr ⟨by omega, m', ?_, h3, h4⟩
        have : i' - i = (i' - (i + 1)) + 1 := by omega
        rw [this, List.getElem?_cons_succ] at h2
        exact h2

theorem RunOk.layout_at {α : Type*} {P n : Nat} {mb : Option Nat} {leaves : List (Leaf α)}
    {maps : List (PyDict SliceNd Nat)} {infos : List IndexInfo} {cs : Nat → List (Nat × Chunk α)}
    (h : RunOk P n mb leaves maps infos cs) {i : Nat} {a : Leaf α} (ha : leaves[i]? = some a) :
    ∃ m, maps[i]? = some m ∧ LayoutOk P n a mb m := by
  obtain ⟨hlt, e⟩ := List.getElem?_eq_some_iff.1 ha
  have hF := List.forall₂_iff_get.1 h.layout
  have := hF.2 i hlt (hF.1 ▸ hlt)
  simp only [List.get_eq_getElem, e] at this
  exact ⟨maps[i]'(hF.1 ▸ hlt), List.getElem?_eq_getElem _, this⟩

theorem RunOk.leaf_at {α : Type*} {P n : Nat} {mb : Option Nat} {leaves : List (Leaf α)}
    {maps : List (PyDict SliceNd Nat)} {infos : List IndexInfo} {cs : Nat → List (Nat × Chunk α)}
    (h : RunOk P n mb leaves maps infos cs) {i : Nat} {m : PyDict SliceNd Nat}
    (hm : maps[i]? = some m) : ∃ a, leaves[i]? = some a ∧ LayoutOk P n a mb m := by
  obtain ⟨hlt, e⟩ := List.getElem?_eq_some_iff.1 hm
  have hF := List.forall₂_iff_get.1 h.layout
  have hlt' : i < leaves.length := by rw [hF.1]; exact hlt
  have := hF.2 i hlt' hlt
  simp only [List.get_eq_getElem, e] at this
  exact ⟨leaves[i], List.getElem?_eq_getElem _, this⟩

/-- Reading shard file `k` gives the chunks that process `k % P` collected for it. -/
theorem readFile_ok {α : Type*} {P n : Nat} (infos : List IndexInfo)
    (cs : Nat → List (Nat × Chunk α)) (hP : 0 < P) {k : Nat} (hk : k < n) :
    readFile ((List.range P).map fun p => outputOf P p n infos (cs p)) k =
      .ok (((cs (k % P)).filter (fun c => c.1 = k)).map Prod.snd) := by
  unfold readFile
  have hmem : ∀ f, f ∈ ((List.range P).map fun p => outputOf P p n infos (cs p)).flatMap
      ProcessOutput.files ↔ f.1 < n ∧
        f.2 = ((cs (f.1 % P)).filter (fun c => c.1 = f.1)).map Prod.snd := by
    rintro ⟨j, l⟩
    simp only [List.mem_flatMap, List.mem_map, List.mem_range, outputOf]
    constructor
    · rintro ⟨_, ⟨p, hp, rfl⟩, hf⟩
      simp only [List.mem_map, List.mem_filter, List.mem_range, Prod.mk.injEq,
        decide_eq_true_eq] at hf
      obtain ⟨j', ⟨h1, h2⟩, rfl, rfl⟩ := hf
      rw [h2]
      exact ⟨h1, rfl⟩
    · rintro ⟨h1, h2⟩
      refine ⟨_, ⟨j % P, Nat.mod_lt _ hP, rfl⟩, ?_⟩
      simp only [List.mem_map, List.mem_filter, List.mem_range, Prod.mk.injEq, decide_eq_true_eq]
      exact ⟨j, ⟨h1, rfl⟩, rfl, h2.symm⟩
  cases hf : (((List.range P).map fun p => outputOf P p n infos (cs p)).flatMap
      ProcessOutput.files).find? (fun f => decide (f.1 = k)) with
  | none =>
    have := List.find?_eq_none.1 hf (k, ((cs (k % P)).filter (fun c => c.1 = k)).map Prod.snd)
      ((hmem _).2 ⟨hk, rfl⟩)
    simp at this
  | some f =>
    have h1 := (hmem f).1 (List.mem_of_find?_eq_some hf)
    have h2 : f.1 = k := by simpa using List.find?_some hf
    simp only [h1.2, h2]

/-- A region assigned to shard `k` is in the chunks collected for it. -/
theorem RunOk.stored {α : Type*} {P n : Nat} {mb : Option Nat} {leaves : List (Leaf α)}
    {maps : List (PyDict SliceNd Nat)} {infos : List IndexInfo} {cs : Nat → List (Nat × Chunk α)}
    (h : RunOk P n mb leaves maps infos cs) (hP : 0 < P) {i k : Nat} {m : PyDict SliceNd Nat}
    {c : SliceNd} (hm : maps[i]? = some m) (hc : (c, k) ∈ m) :
    ∃ x ∈ ((cs (k % P)).filter (fun c => c.1 = k)).map Prod.snd, x.leaf = i ∧ x.slice = c := by
  have : (k, i, c) ∈ expected P (k % P) maps 0 :=
    (mem_expected _ _ _ _ _ _ _).2 ⟨by omega, m, by simpa using hm, hc, rfl⟩
  rw [← h.keys _ (Nat.mod_lt _ hP), List.mem_map] at this
  obtain ⟨x, hx, e⟩ := this
  simp only [Prod.mk.injEq] at e
  refine ⟨x.2, List.mem_map.2 ⟨x, List.mem_filter.2 ⟨hx, by simpa using e.1⟩, rfl⟩, e.2⟩

theorem makeIndexInfo_zip (m : PyDict SliceNd Nat) (hm : (PyDict.keys m).Nodup) (shape : List Nat)
    (c : SliceNd) (k : Nat) :
    (c, k) ∈ (makeIndexInfo m shape).slices.zip (makeIndexInfo m shape).shards ↔ (c, k) ∈ m := by
  have hz : ∀ (l : List SliceNd) (f : SliceNd → Nat), l.zip (l.map f) = l.map fun c => (c, f c) := by
    intro l f
    induction l with
    | nil => rfl
    | cons a l ih => simp [ih]
  unfold makeIndexInfo
  simp only [hz, List.mem_map, (List.perm_insertionSort _ _).mem_iff, Prod.mk.injEq]
  rw [← PyDict.get?_eq_some m hm]
  constructor
  · rintro ⟨c', hc', rfl, rfl⟩
    cases hg : PyDict.get? m c' with
    | none => exact absurd hc' ((PyDict.get?_eq_none m c').1 hg)
    | some k => rfl
  · intro hg
    refine ⟨c, ?_, rfl, by rw [hg]; rfl⟩
    by_contra hc
    rw [(PyDict.get?_eq_none m c).2 hc] at hg
    cases hg

theorem RunOk.info_at {α : Type*} {P n : Nat} {mb : Option Nat} {leaves : List (Leaf α)}
    {maps : List (PyDict SliceNd Nat)} {infos : List IndexInfo} {cs : Nat → List (Nat × Chunk α)}
    (h : RunOk P n mb leaves maps infos cs) {i : Nat} {a : Leaf α} {m : PyDict SliceNd Nat}
    (ha : leaves[i]? = some a) (hm : maps[i]? = some m) :
    infos[i]? = some (makeIndexInfo m a.value.shape) := by
  rw [h.infos, List.getElem?_zipWith, ha, hm]

theorem RunOk.shapes {α : Type*} {P n : Nat} {mb : Option Nat} {leaves : List (Leaf α)}
    {maps : List (PyDict SliceNd Nat)} {infos : List IndexInfo} {cs : Nat → List (Nat × Chunk α)}
    (h : RunOk P n mb leaves maps infos cs) :
    infos.map IndexInfo.shape = leaves.map (fun a => a.value.shape) := by
  have hl := (List.forall₂_iff_get.1 h.layout).1
  rw [h.infos]
  apply List.ext_getElem
  · simp [hl]
  · intro i h1 h2
    simp [makeIndexInfo]

/-- Membership in the set of files to read. -/
theorem mem_shardsToRestore (targets : List (List JaxIndex)) (infos : List IndexInfo) (k : Nat) :
    k ∈ shardsToRestore targets infos ↔ ∃ (i : Nat) (t : List JaxIndex) (info : IndexInfo),
      targets[i]? = some t ∧ infos[i]? = some info ∧ ∃ d ∈ t, ∃ c, (c, k) ∈ info.slices.zip info.shards ∧
        slicesMatch (shardIndexToSlicend d info.shape) c = true := by
  unfold shardsToRestore
  rw [(List.perm_insertionSort _ _).mem_iff, List.mem_dedup, List.mem_flatMap]
  constructor
  · rintro ⟨⟨t, info⟩, hti, hk⟩
    obtain ⟨i, hi, e⟩ := List.mem_iff_getElem.1 hti
    rw [List.length_zip] at hi
    rw [List.getElem_zip] at e
    obtain ⟨rfl, rfl⟩ := Prod.mk.inj e
    unfold findCkptShardsToRestore at hk
    simp only [List.mem_flatMap, List.mem_map, List.mem_filter] at hk
    obtain ⟨d, hd, ⟨c, k'⟩, ⟨h1, h2⟩, rfl⟩ := hk
    exact ⟨i, _, _, List.getElem?_eq_getElem (by omega), List.getElem?_eq_getElem (by omega),
      d, hd, c, h1, h2⟩
  · rintro ⟨i, t, info, ht, hinfo, d, hd, c, hc, hmatch⟩
    obtain ⟨l1, e1⟩ := List.getElem?_eq_some_iff.1 ht
    obtain ⟨l2, e2⟩ := List.getElem?_eq_some_iff.1 hinfo
    refine ⟨(t, info), ?_, ?_⟩
    · rw [List.mem_iff_getElem]
      refine ⟨i, by rw [List.length_zip]; omega, ?_⟩
      rw [List.getElem_zip, e1, e2]
    · unfold findCkptShardsToRestore
      simp only [List.mem_flatMap, List.mem_map, List.mem_filter]
      exact ⟨d, hd, (c, k), ⟨hc, hmatch⟩, rfl⟩

/-! ### Counting -/

theorem sum_countP_fiber {β κ : Type*} [DecidableEq κ] (K : List κ) (hK : K.Nodup) (key : β → κ)
    (q : β → Bool) (l : List β) :
    (K.map fun k => l.countP (fun x => q x && decide (key x = k))).sum =
      l.countP (fun x => q x && decide (key x ∈ K)) := by
  induction K with
  | nil =>
    simp only [List.map_nil, List.sum_nil, List.not_mem_nil, decide_false, Bool.and_false]
    exact (List.countP_eq_zero.2 (by simp)).symm
  | cons k K ih =>
    rw [List.nodup_cons] at hK
    rw [List.map_cons, List.sum_cons, ih hK.2]
    clear ih
    induction l with
    | nil => rfl
    | cons x l ih =>
      simp only [List.countP_cons, List.mem_cons]
      have hd : ¬ (key x = k ∧ key x ∈ K) := fun h => hK.1 (h.1 ▸ h.2)
      by_cases h1 : q x = true
      · by_cases h2 : key x = k
        · have h3 : key x ∉ K := fun h => hd ⟨h2, h⟩
          simp [h1, h2] at ih ⊢
          have h3' : k ∉ K := hK.1
          simp [h3'] at ih ⊢
          omega
        · by_cases h3 : key x ∈ K
          · simp [h1, h2, h3] at ih ⊢
            omega
          · simp [h1, h2, h3] at ih ⊢
            omega
      · simp [h1] at ih ⊢
        omega

theorem countP_expected (P p : Nat) (maps : List (PyDict SliceNd Nat)) (i i0 : Nat)
    (q : SliceNd → Bool) :
    (expected P p maps i).countP (fun x => decide (x.2.1 = i0) && q x.2.2) =
      if i ≤ i0 then ((maps[i0 - i]?).getD []).countP
        (fun kv => q kv.1 && decide (kv.2 % P = p)) else 0 := by
  induction maps generalizing i with
  | nil => simp [expected]
  | cons m ms ih =>
    simp only [expected, List.countP_append, ih, List.countP_map, List.countP_filter,
      Function.comp_def]
    by_cases h1 : i = i0
    · subst h1
      simp
    · by_cases h2 : i ≤ i0
      · have e : i0 - i = (i0 - (i + 1)) + 1 := by omega
        rw [if_pos (by omega), if_pos h2, e, List.getElem?_cons_succ]
        simp [h1]
      · rw [if_neg (by omega), if_neg h2]
        simp [h1]

/-- In all the files of a run, every position of every array occurs once. -/
theorem RunOk.count_one {α : Type*} {P n : Nat} {mb : Option Nat} {leaves : List (Leaf α)}
    {maps : List (PyDict SliceNd Nat)} {infos : List IndexInfo} {cs : Nat → List (Nat × Chunk α)}
    (h : RunOk P n mb leaves maps infos cs) (hP : 0 < P) {i : Nat} {a : Leaf α}
    (ha : leaves[i]? = some a) (idx : List Nat) (hidx : ValidIdx a.value.shape idx) :
    (((List.range P).flatMap fun p => (outputOf P p n infos (cs p)).files).flatMap Prod.snd).countP
      (fun c => decide (c.leaf = i) && decide (InSlice c.slice idx)) = 1 := by
  obtain ⟨m, hm, hL⟩ := h.layout_at ha
  have haok := h.ok a (List.mem_of_getElem? ha)
  -- all chunks of a process are in one of its files
  have hfile : ∀ p < P, ((outputOf P p n infos (cs p)).files.flatMap Prod.snd).countP
      (fun c => decide (c.leaf = i) && decide (InSlice c.slice idx)) =
      m.countP (fun kv => decide (InSlice kv.1 idx) && decide (kv.2 % P = p)) := by
    intro p hp
    rw [List.countP_flatMap]
    simp only [outputOf, List.map_map, Function.comp_def, List.countP_map, List.countP_filter]
    rw [sum_countP_fiber _ (List.nodup_range.filter _) (fun x : Nat × Chunk α => x.1)
      (fun x => decide (x.2.leaf = i) && decide (InSlice x.2.slice idx))]
    have e1 : (cs p).countP (fun x => decide (x.2.leaf = i) && decide (InSlice x.2.slice idx) &&
          decide (x.1 ∈ (List.range n).filter (fun k => decide (k % P = p)))) =
        (cs p).countP ((fun x => decide (x.2.1 = i) && decide (InSlice x.2.2 idx)) ∘
          fun x => (x.1, x.2.leaf, x.2.slice)) := by
      apply List.countP_congr
      intro x hx
      have hx' : (x.1, x.2.leaf, x.2.slice) ∈ expected P p maps 0 := by
        rw [← h.keys p hp]; exact List.mem_map.2 ⟨x, hx, rfl⟩
      obtain ⟨_, m', hm', hc, hk⟩ := (mem_expected _ _ _ _ _ _ _).1 hx'
      obtain ⟨a', ha', hL'⟩ := h.leaf_at (i := x.2.leaf) (by simpa using hm')
      have hlt := (hL'.assign _ hc).lt
      simp only at hlt
      simp [hk, hlt]
    rw [e1, ← List.countP_map, h.keys p hp, countP_expected P p maps 0 i
      (fun s => decide (InSlice s idx))]
    simp [hm]
  rw [List.flatMap_assoc, List.countP_flatMap]
  have : (List.range P).map ((List.countP fun c =>
        decide (c.leaf = i) && decide (InSlice c.slice idx)) ∘
        fun p => (outputOf P p n infos (cs p)).files.flatMap Prod.snd) =
      (List.range P).map fun p => m.countP
        (fun kv => decide (InSlice kv.1 idx) && decide (kv.2 % P = p)) := by
    apply List.map_congr_left
    intro p hp
    exact hfile p (List.mem_range.1 hp)
  rw [this, sum_countP_fiber _ List.nodup_range (fun kv : SliceNd × Nat => kv.2 % P)
    (fun kv => decide (InSlice kv.1 idx))]
  have e2 : m.countP (fun kv => decide (InSlice kv.1 idx) && decide (kv.2 % P ∈ List.range P)) =
      (PyDict.keys m).countP (fun c => decide (InSlice c idx)) := by
    unfold PyDict.keys
    rw [List.countP_map]
    apply List.countP_congr
    intro kv _
    simp [Nat.mod_lt _ hP]
  rw [e2, hL.keys, (List.perm_insertionSort _ _).countP_eq]
  exact (toShards_ok haok mb).count idx hidx

/-- Sum of the bytes of the chunks a process collected for shard `k`. -/
theorem RunOk.bytes {α : Type*} {P n : Nat} {mb : Option Nat} {leaves : List (Leaf α)}
    {maps : List (PyDict SliceNd Nat)} {infos : List IndexInfo} {cs : Nat → List (Nat × Chunk α)}
    (h : RunOk P n mb leaves maps infos cs) (hP : 0 < P) (k : Nat) :
    ((((cs (k % P)).filter (fun c => c.1 = k)).map Prod.snd).map fun c =>
      (sliceShape c.slice).prod * ((leaves[c.leaf]?).map Leaf.itemsize).getD 0).sum =
      totalBytes k maps leaves := by
  have hkeys := h.keys (k % P) (Nat.mod_lt _ hP)
  have e1 : (((cs (k % P)).filter (fun c => c.1 = k)).map Prod.snd).map (fun c =>
      (sliceShape c.slice).prod * ((leaves[c.leaf]?).map Leaf.itemsize).getD 0) =
      (((cs (k % P)).map (fun x => (x.1, x.2.leaf, x.2.slice))).filter (fun x => x.1 = k)).map
        (fun x => (sliceShape x.2.2).prod * ((leaves[x.2.1]?).map Leaf.itemsize).getD 0) := by
    rw [List.filter_map, List.map_map, List.map_map]
    rfl
  rw [e1, hkeys]
  have gen : ∀ (maps : List (PyDict SliceNd Nat)) (ls : List (Leaf α)) (i : Nat),
      maps.length = ls.length → (∀ j, ls[j]? = leaves[i + j]?) →
      (((expected P (k % P) maps i).filter (fun x => x.1 = k)).map
        (fun x => (sliceShape x.2.2).prod * ((leaves[x.2.1]?).map Leaf.itemsize).getD 0)).sum =
        totalBytes k maps ls := by
    intro maps
    induction maps with
    | nil => intro ls i _ _; simp [expected, totalBytes]
    | cons m ms ih =>
      intro ls i hl hget
      cases ls with
      | nil => simp at hl
      | cons a ls =>
        have h0 : leaves[i]? = some a := by simpa using (hget 0).symm
        simp only [expected, List.filter_append, List.map_append, List.sum_append, totalBytes,
          List.zipWith_cons_cons, List.sum_cons]
        have e2 := ih ls (i + 1) (by simpa using hl) (fun j => by
          have := hget (j + 1)
          simp only [List.getElem?_cons_succ] at this
          rw [this]
          congr 1
          omega)
        rw [e2]
        congr 1
        unfold assignedBytes
        rw [List.filter_map, List.map_map, List.filter_filter]
        congr 1
        have e3 : m.filter (fun kv => ((fun x : Nat × Nat × SliceNd => decide (x.1 = k)) ∘
            fun kv : SliceNd × Nat => (kv.2, i, kv.1)) kv && decide (kv.2 % P = k % P)) =
            m.filter (fun kv => decide (kv.2 = k)) := by
          apply List.filter_congr
          intro kv _
          by_cases hk : kv.2 = k <;> simp [hk]
        rw [e3]
        apply List.map_congr_left
        intro kv _
        simp [h0]
  exact gen maps leaves 0 (List.forall₂_iff_get.1 h.layout).1.symm (by simp)

end Verif.Ckpt
