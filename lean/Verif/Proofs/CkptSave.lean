import Verif.Proofs.CkptRegions

/-!
Helper lemmas: assignment of regions to checkpoint shards, and saving.
-/

namespace Verif.Ckpt

open Verif Spec

/-! ### The least loaded eligible shard -/

theorem mem_zipIdx_lex (bytes : List Nat) (p : ℕ ×ₗ ℕ) :
    p ∈ bytes.zipIdx.map (fun p => (toLex (p.1, p.2) : ℕ ×ₗ ℕ)) ↔
      bytes[(ofLex p).2]? = some (ofLex p).1 := by
  rw [List.mem_map]
  constructor
  · rintro ⟨⟨b, i⟩, h, rfl⟩
    rw [List.mem_zipIdx_iff_getElem?] at h
    exact h
  · intro h
    refine ⟨((ofLex p).1, (ofLex p).2), ?_, rfl⟩
    rw [List.mem_zipIdx_iff_getElem?]
    exact h

theorem findSmallest_spec {P : Nat} {bytes procs : List Nat} {k : Nat}
    (h : findSmallestCkptShard P bytes procs = .ok k) :
    k < bytes.length ∧ k % P ∈ procs ∧ ∀ j (_ : j < bytes.length), j % P ∈ procs →
      bytes.getD k 0 < bytes.getD j 0 ∨ (bytes.getD k 0 = bytes.getD j 0 ∧ k ≤ j) := by
  unfold findSmallestCkptShard at h
  simp only at h
  set srt := (bytes.zipIdx.map (fun p => (toLex (p.1, p.2) : ℕ ×ₗ ℕ))).insertionSort (· ≤ ·)
    with hsrt
  have hmem : ∀ p, p ∈ srt ↔ bytes[(ofLex p).2]? = some (ofLex p).1 := by
    intro p
    rw [hsrt, (List.perm_insertionSort _ _).mem_iff, mem_zipIdx_lex]
  have hpw : srt.Pairwise (· ≤ ·) := List.pairwise_insertionSort _ _
  rw [List.filter_map] at h
  set flt := srt.filter ((fun i => decide (i % P ∈ procs)) ∘ fun p => (ofLex p).2) with hflt
  have hpw' : flt.Pairwise (· ≤ ·) := hpw.filter _
  cases hf : flt with
  | nil => rw [hf] at h; simp at h
  | cons p t =>
    rw [hf] at h
    simp only [List.map_cons, Except.ok.injEq] at h
    subst h
    have hp : p ∈ flt := by rw [hf]; simp
    rw [hflt, List.mem_filter] at hp
    have hpb := (hmem p).1 hp.1
    obtain ⟨hlt, hpe⟩ := List.getElem?_eq_some_iff.1 hpb
    refine ⟨hlt, by simpa using hp.2, fun j hj hjp => ?_⟩
    have hq : (toLex (bytes[j], j) : ℕ ×ₗ ℕ) ∈ flt := by
      rw [hflt, List.mem_filter]
      refine ⟨(hmem _).2 ?_, decide_eq_true hjp⟩
      simp [hj]
    have hle : p ≤ toLex (bytes[j], j) := by
      rw [hf] at hq hpw'
      rcases List.mem_cons.1 hq with e | e
      · rw [e]
      · exact (List.pairwise_cons.1 hpw').1 _ e
    rw [Prod.Lex.le_iff] at hle
    simp only [ofLex_toLex] at hle
    have e1 : bytes.getD (ofLex p).2 0 = (ofLex p).1 := by
      rw [List.getD_eq_getElem?_getD, hpb]; rfl
    have e2 : bytes.getD j 0 = bytes[j] := by
      rw [List.getD_eq_getElem?_getD, List.getElem?_eq_getElem hj]; rfl
    rw [e1, e2]
    exact hle

theorem findSmallest_ok {P : Nat} {bytes procs : List Nat} {j : Nat} (hj : j < bytes.length)
    (hjp : j % P ∈ procs) : ∃ k, findSmallestCkptShard P bytes procs = .ok k := by
  unfold findSmallestCkptShard
  simp only
  cases hf : (((bytes.zipIdx.map (fun p => (toLex (p.1, p.2) : ℕ ×ₗ ℕ))).insertionSort
      (· ≤ ·)).map (fun p => (ofLex p).2)).filter (fun i => decide (i % P ∈ procs)) with
  | cons i t => exact ⟨i, rfl⟩
  | nil =>
    exfalso
    have : j ∈ (((bytes.zipIdx.map (fun p => (toLex (p.1, p.2) : ℕ ×ₗ ℕ))).insertionSort
        (· ≤ ·)).map (fun p => (ofLex p).2)).filter (fun i => decide (i % P ∈ procs)) := by
      rw [List.mem_filter, List.mem_map]
      refine ⟨⟨toLex (bytes[j], j), ?_, rfl⟩, by simpa using hjp⟩
      rw [(List.perm_insertionSort _ _).mem_iff, mem_zipIdx_lex]
      simp [hj]
    rw [hf] at this
    simp at this

theorem findSmallest_congr {P : Nat} {bytes procs procs' : List Nat}
    (h : ∀ p, p ∈ procs ↔ p ∈ procs') :
    findSmallestCkptShard P bytes procs = findSmallestCkptShard P bytes procs' := by
  unfold findSmallestCkptShard
  simp only [h]

/-! ### Assigning the regions of one array -/

/-- An assignment of regions to shards consistent with who holds the data. -/
structure AssignOk (P n : Nat) (d : PyDict SliceNd (List Shard)) (kv : SliceNd × Nat) : Prop where
  lt : kv.2 < n
  owner : ∃ v, PyDict.get? d kv.1 = some v ∧ ∃ s ∈ v, s.process = kv.2 % P

theorem assignStep_ok {α : Type*} {P n : Nat} {a : Leaf α} {d : PyDict SliceNd (List Shard)}
    (hP : LeafOk P a) (hd : ToShardsOk a d) (hn : P ≤ n) (itemsize : Nat) (bytes : List Nat)
    (hb : bytes.length = n) (m : PyDict SliceNd Nat) (c : SliceNd) (hc : c ∈ PyDict.keys d)
    (hcm : c ∉ PyDict.keys m) :
    ∃ k, assignStep P itemsize d (bytes, m) c =
      .ok (bytes.set k (bytes.getD k 0 + (sliceShape c).prod * itemsize), m ++ [(c, k)]) ∧
      AssignOk P n d (c, k) ∧
      ∃ v, PyDict.get? d c = some v ∧
        findSmallestCkptShard P bytes (v.map Shard.process) = .ok k := by
  obtain ⟨v, hv⟩ : ∃ v, PyDict.get? d c = some v := by
    cases h : PyDict.get? d c with
    | none => exact absurd hc ((PyDict.get?_eq_none d c).1 h)
    | some v => exact ⟨v, rfl⟩
  obtain ⟨hne, hent⟩ := hd.entry c v hv
  obtain ⟨s, hs⟩ := List.exists_mem_of_ne_nil _ hne
  have hsP := hP.process s (hent s hs).1
  obtain ⟨k, hk⟩ := findSmallest_ok (P := P) (bytes := bytes) (procs := v.map Shard.process)
    (j := s.process) (by omega) (by
      rw [Nat.mod_eq_of_lt hsP]
      exact List.mem_map.2 ⟨s, hs, rfl⟩)
  obtain ⟨h1, h2, _⟩ := findSmallest_spec hk
  refine ⟨k, ?_, ⟨by omega, v, hv, ?_⟩, v, hv, hk⟩
  · unfold assignStep
    simp only [hv, hk, PyDict.set_of_not_mem m c k hcm]
  · obtain ⟨t, ht, e⟩ := List.mem_map.1 h2
    exact ⟨t, ht, e⟩

/-- Total bytes assigned to shard `k`. -/
def assignedBytes (itemsize k : Nat) (m : PyDict SliceNd Nat) : Nat :=
  ((m.filter (fun kv => kv.2 = k)).map fun kv => (sliceShape kv.1).prod * itemsize).sum

/-- The loads of any two shards differ by at most `B`. -/
def Balanced (B : Nat) (bytes : List Nat) : Prop :=
  ∀ i j, i < bytes.length → j < bytes.length → bytes.getD i 0 ≤ bytes.getD j 0 + B

/-- Every region is held by every process. -/
def AllHold (P : Nat) (d : PyDict SliceNd (List Shard)) : Prop :=
  ∀ c v, PyDict.get? d c = some v → ∀ q < P, q ∈ v.map Shard.process

theorem getD_set (l : List Nat) (i j x : Nat) :
    (l.set i x).getD j 0 = if i = j ∧ i < l.length then x else l.getD j 0 := by
  rw [List.getD_eq_getElem?_getD, List.getD_eq_getElem?_getD, List.getElem?_set]
  by_cases h : i = j
  · subst h
    by_cases h2 : i < l.length
    · simp [h2]
    · simp [h2]
  · simp [h]

theorem assignFold_ok {α : Type*} {P n : Nat} {a : Leaf α} {d : PyDict SliceNd (List Shard)}
    (hP : LeafOk P a) (hd : ToShardsOk a d) (hn : P ≤ n) (itemsize : Nat) (ks : List SliceNd) :
    ∀ (bytes : List Nat) (m : PyDict SliceNd Nat), bytes.length = n →
    (∀ c ∈ ks, c ∈ PyDict.keys d) → ks.Nodup → (∀ c ∈ ks, c ∉ PyDict.keys m) →
    ∃ bytes' m', ks.foldlM (assignStep P itemsize d) (bytes, m) = .ok (bytes', m ++ m') ∧
      bytes'.length = n ∧ m'.map Prod.fst = ks ∧ (∀ kv ∈ m', AssignOk P n d kv) ∧
      (∀ k, bytes'.getD k 0 = bytes.getD k 0 + assignedBytes itemsize k m') ∧
      (0 < P → AllHold P d → ∀ B, (∀ kv ∈ m', (sliceShape kv.1).prod * itemsize ≤ B) →
        Balanced B bytes → Balanced B bytes') := by
  induction ks with
  | nil =>
    intro bytes m hb _ _ _
    exact ⟨bytes, [], by simp [pure, Except.pure], hb, rfl, by simp, by simp [assignedBytes],
      fun _ _ _ _ h => h⟩
  | cons c ks ih =>
    intro bytes m hb hks hnd hm
    obtain ⟨k, hstep, hok, v, hv, hfind⟩ := assignStep_ok hP hd hn itemsize bytes hb m c
      (hks c (by simp)) (hm c (by simp))
    rw [List.nodup_cons] at hnd
    obtain ⟨bytes', m', hr, hl, hf, ha, hby, hbal⟩ := ih
      (bytes.set k (bytes.getD k 0 + (sliceShape c).prod * itemsize)) (m ++ [(c, k)])
      (by simpa using hb) (fun x hx => hks x (List.mem_cons_of_mem _ hx)) hnd.2 (by
        intro x hx
        have h1 := hm x (List.mem_cons_of_mem _ hx)
        simp only [PyDict.keys, List.map_append, List.mem_append, not_or] at h1 ⊢
        refine ⟨h1, ?_⟩
        simp only [List.map_cons, List.map_nil, List.mem_singleton]
        rintro rfl
        exact hnd.1 hx)
    have hk : k < bytes.length := by rw [hb]; exact hok.lt
    refine ⟨bytes', (c, k) :: m', ?_, hl, by simp [hf], ?_, ?_, ?_⟩
    · rw [List.foldlM_cons, hstep]
      change ks.foldlM _ _ = _
      rw [hr]
      simp
    · intro kv hkv
      rcases List.mem_cons.1 hkv with rfl | h
      · exact hok
      · exact ha kv h
    · intro j
      rw [hby j, getD_set]
      unfold assignedBytes
      by_cases hjk : k = j
      · subst hjk
        rw [if_pos ⟨rfl, hk⟩]
        simp only [List.filter_cons, decide_true, if_true, List.map_cons, List.sum_cons]
        omega
      · rw [if_neg (fun h => hjk h.1)]
        simp only [List.filter_cons, hjk, decide_false, Bool.false_eq_true, if_false]
    · intro hP0 hhold B hB hbl
      refine hbal hP0 hhold B (fun kv hkv => hB kv (List.mem_cons_of_mem _ hkv)) ?_
      have hx := hB (c, k) (by simp)
      simp only at hx
      obtain ⟨_, _, hmin⟩ := findSmallest_spec hfind
      intro i j hi hj
      simp only [List.length_set] at hi hj
      have hij := hbl i j hi hj
      have hkj := hmin j hj (hhold c v hv _ (Nat.mod_lt _ hP0))
      have ej : k = j → bytes.getD k 0 = bytes.getD j 0 := by rintro rfl; rfl
      rw [getD_set, getD_set]
      split <;> split <;> omega

theorem foldlM_congr_mem {σ β : Type} {E : Type} (f g : σ → β → Except E σ) (l : List β)
    (h : ∀ x ∈ l, ∀ s, f s x = g s x) (s : σ) : l.foldlM f s = l.foldlM g s := by
  induction l generalizing s with
  | nil => rfl
  | cons x l ih =>
    rw [List.foldlM_cons, List.foldlM_cons, h x (by simp)]
    cases g s x with
    | error e => rfl
    | ok s' => exact ih (fun y hy => h y (List.mem_cons_of_mem _ hy)) s'

theorem assignStep_congr {α : Type*} {P : Nat} {a b : Leaf α} (ha : LeafOk P a)
    (hab : SameArray a b) (mb : Option Nat) (itemsize : Nat)
    (st : List Nat × PyDict SliceNd Nat) (c : SliceNd)
    (hc : c ∈ PyDict.keys (mapSlicendToArrayShards a mb)) :
    assignStep P itemsize (mapSlicendToArrayShards a mb) st c =
      assignStep P itemsize (mapSlicendToArrayShards b mb) st c := by
  have hb := leafOk_of_same ha hab
  obtain ⟨v, hv⟩ : ∃ v, PyDict.get? (mapSlicendToArrayShards a mb) c = some v := by
    cases h : PyDict.get? (mapSlicendToArrayShards a mb) c with
    | none => exact absurd hc ((PyDict.get?_eq_none _ c).1 h)
    | some v => exact ⟨v, rfl⟩
  obtain ⟨v', hv', hp⟩ := toShards_perm ha hb hab mb c v hv
  unfold assignStep
  simp only [hv, hv']
  rw [findSmallest_congr (procs := v.map Shard.process) (procs' := v'.map Shard.process)]
  intro p
  exact (hp.map _).mem_iff

theorem keys_perm {α : Type*} {P : Nat} {a b : Leaf α} (ha : LeafOk P a)
    (hab : SameArray a b) (mb : Option Nat) :
    (PyDict.keys (mapSlicendToArrayShards a mb)).Perm
      (PyDict.keys (mapSlicendToArrayShards b mb)) := by
  have hb := leafOk_of_same ha hab
  rw [List.perm_ext_iff_of_nodup (toShards_ok ha mb).nodup (toShards_ok hb mb).nodup]
  intro c
  have key : ∀ {x y : Leaf α}, LeafOk P x → LeafOk P y → SameArray x y →
      c ∈ PyDict.keys (mapSlicendToArrayShards x mb) →
      c ∈ PyDict.keys (mapSlicendToArrayShards y mb) := by
    intro x y hx hy hxy hc
    by_contra hcy
    have h1 := (PyDict.get?_eq_none _ c).2 hcy
    cases h : PyDict.get? (mapSlicendToArrayShards x mb) c with
    | none => exact (PyDict.get?_eq_none _ c).1 h hc
    | some v =>
      obtain ⟨v', hv', _⟩ := toShards_perm hx hy hxy mb c v h
      rw [h1] at hv'
      cases hv'
  exact ⟨key ha hb hab, key hb ha hab.symm⟩

theorem sort_eq_of_perm {l l' : List SliceNd} (h : l.Perm l') :
    l.insertionSort (· ≤ ·) = l'.insertionSort (· ≤ ·) := by
  apply List.Perm.eq_of_pairwise' (r := (· ≤ ·)) (List.pairwise_insertionSort _ _)
    (List.pairwise_insertionSort _ _)
  exact (List.perm_insertionSort _ _).trans (h.trans (List.perm_insertionSort _ _).symm)

/-- The layout of one array does not depend on the enumeration of its shards. -/
theorem layout_congr {α : Type*} {P : Nat} {a b : Leaf α} (ha : LeafOk P a)
    (hab : SameArray a b) (mb : Option Nat) (bytes : List Nat) :
    mapSlicendToCkptShard P a.itemsize (mapSlicendToArrayShards a mb) bytes =
      mapSlicendToCkptShard P b.itemsize (mapSlicendToArrayShards b mb) bytes := by
  unfold mapSlicendToCkptShard
  rw [← hab.itemsize, ← sort_eq_of_perm (keys_perm ha hab mb)]
  apply foldlM_congr_mem
  intro c hc st
  rw [(List.perm_insertionSort _ _).mem_iff] at hc
  exact assignStep_congr ha hab mb _ st c hc

/-- Facts about the layout of one array. -/
structure LayoutOk {α : Type*} (P n : Nat) (a : Leaf α) (mb : Option Nat)
    (m : PyDict SliceNd Nat) : Prop where
  keys : PyDict.keys m = (PyDict.keys (mapSlicendToArrayShards a mb)).insertionSort (· ≤ ·)
  assign : ∀ kv ∈ m, AssignOk P n (mapSlicendToArrayShards a mb) kv

/-- Every region of the array is held by every process (e.g. a replicated array, or one process). -/
def HeldByAll {α : Type*} (P : Nat) (a : Leaf α) : Prop :=
  ∀ s ∈ a.shards, ∀ q < P, ∃ t ∈ a.shards, t.process = q ∧
    ∀ idx, InIndex t.index a.value.shape idx ↔ InIndex s.index a.value.shape idx

theorem allHold_of_heldByAll {α : Type*} {P : Nat} {a : Leaf α} (ha : LeafOk P a)
    (h : HeldByAll P a) (mb : Option Nat) : AllHold P (mapSlicendToArrayShards a mb) := by
  intro c v hv q hq
  obtain ⟨k, ⟨hne, hve⟩, _⟩ := (toShards_get? ha mb c v).1 hv
  obtain ⟨s, hs⟩ := List.exists_mem_of_ne_nil _ hne
  rw [hve, List.mem_filter] at hs
  obtain ⟨t, ht, e, hiff⟩ := h s hs.1 q hq
  refine List.mem_map.2 ⟨t, ?_, e⟩
  rw [hve, List.mem_filter]
  refine ⟨ht, ?_⟩
  have hsk : shardIndexToSlicend s.index a.value.shape = k := by simpa using hs.2
  rw [decide_eq_true_eq, ← hsk]
  apply region_ext (leafOk_pos ha ht)
  intro idx
  rw [inSlice_region (leafOk_len ha ht), inSlice_region (leafOk_len ha hs.1)]
  exact hiff idx

theorem layout_ok {α : Type*} {P n : Nat} {a : Leaf α} (ha : LeafOk P a) (hn : P ≤ n)
    (mb : Option Nat) (bytes : List Nat) (hb : bytes.length = n) :
    ∃ bytes' m, mapSlicendToCkptShard P a.itemsize (mapSlicendToArrayShards a mb) bytes =
      .ok (bytes', m) ∧ bytes'.length = n ∧ LayoutOk P n a mb m ∧
      (∀ k, bytes'.getD k 0 = bytes.getD k 0 + assignedBytes a.itemsize k m) ∧
      (0 < P → HeldByAll P a → ∀ B, (∀ kv ∈ m, (sliceShape kv.1).prod * a.itemsize ≤ B) →
        Balanced B bytes → Balanced B bytes') := by
  have hd := toShards_ok ha mb
  have hp := List.perm_insertionSort (· ≤ ·) (PyDict.keys (mapSlicendToArrayShards a mb))
  obtain ⟨bytes', m, h1, h2, h3, h4, h5, h6⟩ := assignFold_ok ha hd hn a.itemsize
    ((PyDict.keys (mapSlicendToArrayShards a mb)).insertionSort (· ≤ ·)) bytes [] hb
    (fun c hc => hp.mem_iff.1 hc) (hp.nodup_iff.2 hd.nodup) (by simp [PyDict.keys])
  exact ⟨bytes', m, by simpa [mapSlicendToCkptShard] using h1, h2, ⟨h3, h4⟩, h5,
    fun hP hh => h6 hP (allHold_of_heldByAll ha hh mb)⟩

theorem LayoutOk.nodup {α : Type*} {P n : Nat} {a : Leaf α} {mb : Option Nat}
    {m : PyDict SliceNd Nat} (ha : LeafOk P a) (h : LayoutOk P n a mb m) :
    (PyDict.keys m).Nodup := by
  rw [h.keys, (List.perm_insertionSort _ _).nodup_iff]
  exact (toShards_ok ha mb).nodup

theorem layoutOk_of_same {α : Type*} {P n : Nat} {a b : Leaf α} {mb : Option Nat}
    {m : PyDict SliceNd Nat} (ha : LeafOk P a) (hab : SameArray a b) (h : LayoutOk P n a mb m) :
    LayoutOk P n b mb m := by
  refine ⟨h.keys.trans (sort_eq_of_perm (keys_perm ha hab mb)), fun kv hkv => ?_⟩
  obtain ⟨hlt, v, hv, s, hs, e⟩ := h.assign kv hkv
  obtain ⟨v', hv', hp⟩ := toShards_perm ha (leafOk_of_same ha hab) hab mb kv.1 v hv
  exact ⟨hlt, v', hv', s, hp.mem_iff.1 hs, e⟩

/-! ### The chunks written by one process -/

/-- The data of a chunk are the elements of the array at the chunk's region. -/
structure ChunkOk {α : Type*} (P p : Nat) (a : Leaf α) (c : Chunk α) : Prop where
  data : ∀ l : List Nat, l.length = c.slice.length →
    c.data.get l = a.value.get (List.zipWith (fun i x => Slice.start x + i) l c.slice)
  shape : c.data.shape = sliceShape c.slice
  holder : ∃ s ∈ a.shards, s.process = p ∧
    ∀ idx, InSlice c.slice idx → InIndex s.index a.value.shape idx
  pos : Pos c.slice

theorem chunkData_ok {α : Type*} {P : Nat} {a : Leaf α} (ha : LeafOk P a) (s : Shard)
    (hs : s ∈ a.shards) (c : SliceNd) (i : Nat)
    (hl : c.length = (shardIndexToSlicend s.index a.value.shape).length)
    (hsub : ∀ i (h : i < (shardIndexToSlicend s.index a.value.shape).length) (h' : i < c.length),
      Slice.start (shardIndexToSlicend s.index a.value.shape)[i] ≤ Slice.start c[i] ∧
      Slice.start c[i] < Slice.stop c[i] ∧
      Slice.stop c[i] ≤ Slice.stop (shardIndexToSlicend s.index a.value.shape)[i]) :
    ChunkOk P s.process a { leaf := i, data := chunkData a s c, slice := c } := by
  have hlen := leafOk_len ha hs
  have hrl : (shardIndexToSlicend s.index a.value.shape).length = s.index.length := by
    simp [shardIndexToSlicend, hlen]
  have hstart : ∀ k (h : k < c.length) (h' : k < s.index.length),
      (s.index[k].1.getD 0) ≤ Slice.start c[k] := by
    intro k h h'
    have := (hsub k (hrl ▸ h') h).1
    simpa [shardIndexToSlicend, Slice.start, Slice.mk] using this
  refine ⟨?_, ?_, ⟨s, hs, rfl, ?_⟩, ?_⟩
  · intro l hll
    simp only at hll
    simp only [chunkData, shardData]
    congr 1
    apply List.ext_getElem
    · simp [hll, hl, hrl]
    · intro k h1 h2
      simp only [List.length_zipWith] at h1 h2
      have hk : k < c.length := by omega
      have hks : k < s.index.length := by omega
      have := hstart k hk hks
      simp only [List.getElem_zipWith, List.getElem_map, Slice.start, Slice.mk, ofLex_toLex] at this ⊢
      omega
  · simp only [chunkData, sliceShape]
    apply List.ext_getElem
    · simp [hl, hrl]
    · intro k h1 h2
      simp only [List.length_map, List.length_zipWith] at h1 h2
      have hks : k < s.index.length := by omega
      have := hstart k h2 hks
      have := (hsub k (hrl ▸ hks) h2).2.1
      simp only [List.getElem_zipWith, List.getElem_map, Slice.start, Slice.stop, Slice.mk,
        ofLex_toLex] at *
      omega
  · intro idx hi
    rw [← inSlice_region hlen]
    exact inSlice_of_sub hl hsub hi
  · exact pos_of_sub hl hsub

theorem mapM_ok {β γ : Type*} {E : Type*} (f : β → Except E γ) (g : β → γ) (l : List β)
    (h : ∀ x ∈ l, f x = .ok (g x)) : l.mapM f = .ok (l.map g) := by
  induction l with
  | nil => rfl
  | cons x l ih =>
    rw [List.mapM_cons, h x (by simp), ih (fun y hy => h y (List.mem_cons_of_mem _ hy))]
    rfl

theorem updateWithLeaf_ok {α : Type*} {P n : Nat} (p i : Nat) {a : Leaf α} {mb : Option Nat}
    {m : PyDict SliceNd Nat} (ha : LeafOk P a) (h : LayoutOk P n a mb m) :
    ∃ cs, updateWithLeaf P p i a (mapSlicendToArrayShards a mb) m = .ok cs ∧
      cs.map (fun x => (x.1, x.2.leaf, x.2.slice)) =
        (m.filter (fun kv => kv.2 % P = p)).map (fun kv => (kv.2, i, kv.1)) ∧
      ∀ x ∈ cs, ChunkOk P p a x.2 := by
  have hd := toShards_ok ha mb
  let dflt : Shard := { process := 0, index := [] }
  let pick : SliceNd → Shard := fun c =>
    (((PyDict.get? (mapSlicendToArrayShards a mb) c).getD []).find?
      (fun s => s.process = p)).getD dflt
  let g : SliceNd × Nat → Nat × Chunk α := fun kv =>
    (kv.2, { leaf := i, data := chunkData a (pick kv.1) kv.1, slice := kv.1 })
  have hfind : ∀ kv ∈ m.filter (fun kv => decide (kv.2 % P = p)), ∃ v,
      PyDict.get? (mapSlicendToArrayShards a mb) kv.1 = some v ∧
      ((PyDict.get? (mapSlicendToArrayShards a mb) kv.1).getD []).find?
        (fun s => s.process = p) = some (pick kv.1) ∧ pick kv.1 ∈ v ∧ (pick kv.1).process = p := by
    intro kv hkv
    rw [List.mem_filter] at hkv
    obtain ⟨_, v, hv, s, hs, e⟩ := h.assign kv hkv.1
    have hp : kv.2 % P = p := by simpa using hkv.2
    have : ∃ t, ((PyDict.get? (mapSlicendToArrayShards a mb) kv.1).getD []).find?
        (fun s => decide (s.process = p)) = some t := by
      rw [← Option.isSome_iff_exists, List.find?_isSome]
      exact ⟨s, by rw [hv]; exact hs, by simp [e, hp]⟩
    obtain ⟨t, ht⟩ := this
    have hpick : pick kv.1 = t := by simp only [pick, ht, Option.getD_some]
    rw [hpick]
    refine ⟨v, hv, ht, ?_, ?_⟩
    · have := List.mem_of_find?_eq_some ht
      rwa [hv] at this
    · simpa using List.find?_some ht
  refine ⟨(m.filter (fun kv => decide (kv.2 % P = p))).map g, ?_, ?_, ?_⟩
  · unfold updateWithLeaf
    apply mapM_ok
    intro kv hkv
    obtain ⟨v, hv, hf, hmem, hpr⟩ := hfind kv hkv
    rw [hf]
  · rw [List.map_map]
    rfl
  · intro x hx
    obtain ⟨kv, hkv, rfl⟩ := List.mem_map.1 hx
    obtain ⟨v, hv, hf, hmem, hpr⟩ := hfind kv hkv
    obtain ⟨hs, hl, hsub⟩ := (hd.entry kv.1 v hv).2 _ hmem
    have := chunkData_ok (i := i) ha (pick kv.1) hs kv.1 hl hsub
    rw [hpr] at this
    exact this

/-! ### The loop over the leaves -/

/-- The regions a process is expected to write: shard number, leaf number and region. -/
def expected (P p : Nat) : List (PyDict SliceNd Nat) → Nat → List (Nat × Nat × SliceNd)
  | [], _ => []
  | m :: ms, i => (m.filter (fun kv => kv.2 % P = p)).map (fun kv => (kv.2, i, kv.1)) ++
      expected P p ms (i + 1)

/-- Bytes assigned to shard `k` by all the arrays. -/
def totalBytes {α : Type*} (k : Nat) (maps : List (PyDict SliceNd Nat)) (leaves : List (Leaf α)) :
    Nat :=
  (List.zipWith (fun m (a : Leaf α) => assignedBytes a.itemsize k m) maps leaves).sum

theorem saveLoop_ok {α : Type*} {P n : Nat} (hn : P ≤ n) (mb : Option Nat)
    (leaves : List (Leaf α)) :
    ∀ (bytes : List Nat) (i : Nat), bytes.length = n → (∀ a ∈ leaves, LeafOk P a) →
    ∃ bytes' maps, List.Forall₂ (fun a m => LayoutOk P n a mb m) leaves maps ∧
      (bytes'.length = n ∧ (∀ k, bytes'.getD k 0 = bytes.getD k 0 + totalBytes k maps leaves) ∧
      (0 < P → (∀ a ∈ leaves, HeldByAll P a) → ∀ B,
        List.Forall₂ (fun (a : Leaf α) (m : PyDict SliceNd Nat) =>
          ∀ kv ∈ m, (sliceShape kv.1).prod * a.itemsize ≤ B) leaves maps →
        Balanced B bytes → Balanced B bytes')) ∧
      ∀ p (view : List (Leaf α)), List.Forall₂ SameArray leaves view →
        ∃ cs, saveLoop P p mb view i bytes = .ok (bytes',
            List.zipWith (fun m (a : Leaf α) => makeIndexInfo m a.value.shape) maps leaves, cs) ∧
          cs.map (fun x => (x.1, x.2.leaf, x.2.slice)) = expected P p maps i ∧
          ∀ x ∈ cs, i ≤ x.2.leaf ∧ ∃ a, leaves[x.2.leaf - i]? = some a ∧ ChunkOk P p a x.2 := by
  induction leaves with
  | nil =>
    intro bytes i hb _
    refine ⟨bytes, [], List.Forall₂.nil, ⟨hb, by simp [totalBytes], fun _ _ _ _ h => h⟩, ?_⟩
    intro p view hv
    cases hv
    exact ⟨[], rfl, rfl, by simp⟩
  | cons a leaves ih =>
    intro bytes i hb hok
    have ha := hok a (by simp)
    obtain ⟨b1, m, hlay, hl1, hm, hby1, hbal1⟩ := layout_ok ha hn mb bytes hb
    obtain ⟨b2, maps, hmaps, ⟨hl2, hby2, hbal2⟩, hall⟩ := ih b1 (i + 1) hl1
      (fun x hx => hok x (List.mem_cons_of_mem _ hx))
    refine ⟨b2, m :: maps, List.Forall₂.cons hm hmaps, ⟨hl2, ?_, ?_⟩, ?_⟩
    · intro k
      rw [hby2, hby1]
      simp only [totalBytes, List.zipWith_cons_cons, List.sum_cons]
      omega
    · intro hP hh B hB hbl
      cases hB with
      | cons hB1 hB2 =>
      exact hbal2 hP (fun x hx => hh x (List.mem_cons_of_mem _ hx)) B hB2
        (hbal1 hP (hh a (by simp)) B hB1 hbl)
    intro p view hv
    cases hv with
    | @cons _ b _ view' hab hv' =>
    have hb' := leafOk_of_same ha hab
    have hmb := layoutOk_of_same ha hab hm
    obtain ⟨c1, hc1, hc2, hc3⟩ := updateWithLeaf_ok p i hb' hmb
    obtain ⟨c2, hd1, hd2, hd3⟩ := hall p view' hv'
    refine ⟨c1 ++ c2, ?_, ?_, ?_⟩
    · unfold saveLoop
      simp only
      rw [← layout_congr ha hab mb bytes, hlay]
      simp only [hc1, hd1, List.zipWith_cons_cons, hab.value]
    · simp only [expected, List.map_append, hc2, hd2]
    · intro x hx
      rcases List.mem_append.1 hx with h | h
      · have hleaf : x.2.leaf = i := by
          have : (x.1, x.2.leaf, x.2.slice) ∈ c1.map (fun x => (x.1, x.2.leaf, x.2.slice)) :=
            List.mem_map.2 ⟨x, h, rfl⟩
          rw [hc2, List.mem_map] at this
          obtain ⟨kv, _, e⟩ := this
          exact (Prod.mk.inj (Prod.mk.inj e).2).1.symm
        refine ⟨by omega, a, by simp [hleaf], ?_⟩
        obtain ⟨q1, q2, ⟨s, hs1, hs2, hs3⟩, q4⟩ := hc3 x h
        refine ⟨?_, q2, ⟨s, hab.shards.mem_iff.2 hs1, hs2, ?_⟩, q4⟩
        · rw [hab.value]; exact q1
        · rw [hab.value]; exact hs3
      · obtain ⟨h1, y, hy1, hy2⟩ := hd3 x h
        refine ⟨by omega, y, ?_, hy2⟩
        have : x.2.leaf - i = (x.2.leaf - (i + 1)) + 1 := by omega
        rw [this, List.getElem?_cons_succ]
        exact hy1

end Verif.Ckpt
