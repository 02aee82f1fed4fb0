import Verif.Model.Partitioning
import Verif.Spec.Mesh
import Verif.Proofs.NdArray
import Verif.Proofs.PyDict
import Verif.Proofs.FlatDict
import Verif.Proofs.ExceptLemmas
import Mathlib.Data.List.Perm.Subperm
import Mathlib.Data.List.Dedup
import Mathlib.Data.List.GetD
import Mathlib.Tactic.Ring

/-! Lemmas about meshes. -/

namespace Verif.Partitioning

open Verif NdArray MeshSpec

variable {α : Type}

theorem valid_iff {shape idx : List Nat} :
    Valid shape idx ↔ idx.length = shape.length ∧ ∀ a < shape.length, idx.getD a 0 < shape.getD a 0 := by
  unfold Valid
  rw [List.forall₂_iff_get]
  constructor
  · rintro ⟨h1, h2⟩
    refine ⟨h1, fun a ha => ?_⟩
    have := h2 a (by omega) ha
    simpa [List.getD_eq_getElem?_getD, ha, h1] using this
  · rintro ⟨h1, h2⟩
    refine ⟨h1, fun i hi hi' => ?_⟩
    have := h2 i hi'
    simpa [List.getD_eq_getElem?_getD, hi, hi'] using this

theorem Arranges.refl (a : NdArray α) : Arranges a a := ⟨id, Set.bijOn_id _, fun _ _ => rfl⟩

theorem Arranges.trans {a b c : NdArray α} (h : Arranges a b) (h' : Arranges b c) : Arranges a c := by
  obtain ⟨φ, hφ, e⟩ := h
  obtain ⟨ψ, hψ, e'⟩ := h'
  exact ⟨ψ ∘ φ, hψ.comp hφ, fun idx hi => (e idx hi).trans (e' _ (hφ.mapsTo hi))⟩

theorem resolve_some {size : Nat} {shape s : List Nat} (h : resolveShape size (shape.map some) = .ok s) :
    s = shape ∧ shape.prod = size := by
  unfold resolveShape at h
  have hc : (shape.map some).count none = 0 := by
    rw [List.count_eq_zero]
    simp
  rw [hc] at h
  have hk : knownProd (shape.map some) = shape.prod := by
    simp [knownProd, List.map_map, Function.comp_def]
  simp only [hk] at h
  split at h
  · rename_i hp
    refine ⟨?_, hp⟩
    injection h with h
    simpa [List.map_map, Function.comp_def] using h.symm
  · cases h

theorem resolve_some_ok {size : Nat} {shape : List Nat} (h : shape.prod = size) :
    resolveShape size (shape.map some) = .ok shape := by
  unfold resolveShape
  have hc : (shape.map some).count none = 0 := by
    rw [List.count_eq_zero]
    simp
  have hk : knownProd (shape.map some) = shape.prod := by
    simp [knownProd, List.map_map, Function.comp_def]
  rw [hc]
  simp only [hk]
  rw [if_pos h]
  simp [List.map_map, Function.comp_def]

theorem resolve_some_error {size : Nat} {shape : List Nat} (h : shape.prod ≠ size) :
    resolveShape size (shape.map some) = .error .valueError := by
  unfold resolveShape
  have hc : (shape.map some).count none = 0 := by
    rw [List.count_eq_zero]
    simp
  have hk : knownProd (shape.map some) = shape.prod := by
    simp [knownProd, List.map_map, Function.comp_def]
  rw [hc]
  simp only [hk]
  rw [if_neg h]

theorem reshape_ok {x : NdArray α} {shape : List Nat} (h : shape.prod = x.shape.prod) :
    ∃ y, x.reshape (shape.map some) = .ok y := by
  unfold reshape
  rw [resolve_some_ok h]
  exact ⟨_, rfl⟩

theorem reshape_shape {x y : NdArray α} {shape : List Nat} (h : x.reshape (shape.map some) = .ok y) :
    y.shape = shape ∧ shape.prod = x.shape.prod := by
  unfold reshape at h
  cases hr : resolveShape x.shape.prod (shape.map some) with
  | error e => rw [hr] at h; cases h
  | ok s =>
    rw [hr] at h
    injection h with h
    obtain ⟨rfl, hp⟩ := resolve_some hr
    exact ⟨h ▸ rfl, hp⟩

theorem reshape_arranges {x y : NdArray α} {shape : List Nat} (h : x.reshape (shape.map some) = .ok y) :
    Arranges y x := by
  obtain ⟨hs, hp⟩ := reshape_shape h
  refine ⟨fun idx => unflatIndex x.shape (flatIndex y.shape idx), ⟨?_, ?_, ?_⟩, ?_⟩
  · intro idx hi
    apply valid_unflat
    rw [← hp, ← hs]
    exact flatIndex_lt hi
  · intro i hi j hj hij
    have li : flatIndex y.shape i < x.shape.prod := by rw [← hp, ← hs]; exact flatIndex_lt hi
    have lj : flatIndex y.shape j < x.shape.prod := by rw [← hp, ← hs]; exact flatIndex_lt hj
    have := congrArg (flatIndex x.shape) hij
    simp only [flat_unflat li, flat_unflat lj] at this
    exact flatIndex_inj hi hj this
  · intro j hj
    have lj : flatIndex x.shape j < y.shape.prod := by rw [hs, hp]; exact flatIndex_lt hj
    refine ⟨unflatIndex y.shape (flatIndex x.shape j), valid_unflat lj, ?_⟩
    simp only [flat_unflat lj, unflat_flat hj]
  · intro idx hi
    have li : flatIndex y.shape idx < x.shape.prod := by rw [← hp, ← hs]; exact flatIndex_lt hi
    exact get_reshape h (valid_unflat li) (flat_unflat li).symm

theorem perm_of_all {perm : List Nat} {n : Nat} (hl : perm.length = n) (h : ∀ a < n, a ∈ perm) :
    (List.range n).Perm perm := by
  have hs : (List.range n).Subperm perm :=
    List.nodup_range.subperm fun a ha => h a (List.mem_range.1 ha)
  exact hs.perm_of_length_le (by simp [hl])

theorem transpose_ok {x y : NdArray α} {perm : List Nat} (h : x.transpose perm = .ok y) :
    (perm.length = x.shape.length ∧ ∀ a < x.shape.length, a ∈ perm) ∧
    y = { shape := perm.map (fun a => x.shape.getD a 0)
          get := fun idx => x.get ((List.range x.shape.length).map fun a => idx.getD (perm.idxOf a) 0) } := by
  unfold transpose at h
  split at h
  · rename_i hc
    injection h with h
    exact ⟨hc, h.symm⟩
  · cases h

theorem getD_map_range (f : Nat → Nat) (n a : Nat) (h : a < n) : ((List.range n).map f).getD a 0 = f a := by
  simp [List.getD_eq_getElem?_getD, h]

theorem getD_map (f : Nat → Nat) (l : List Nat) (i : Nat) (h : i < l.length) :
    (l.map f).getD i 0 = f (l.getD i 0) := by
  simp [List.getD_eq_getElem?_getD, h]

theorem transpose_arranges {x y : NdArray α} {perm : List Nat} (h : x.transpose perm = .ok y) :
    Arranges y x := by
  obtain ⟨⟨hl, hall⟩, rfl⟩ := transpose_ok h
  have hperm := perm_of_all hl hall
  have hnd : perm.Nodup := hperm.nodup_iff.1 List.nodup_range
  have hmem : ∀ a, a ∈ perm ↔ a < x.shape.length := fun a => by rw [← hperm.mem_iff, List.mem_range]
  have hidx : ∀ i (hi : i < perm.length), perm.idxOf (perm.getD i 0) = i := by
    intro i hi
    have : perm.getD i 0 = perm[i] := by simp [List.getD_eq_getElem?_getD, hi]
    rw [this]
    exact hnd.idxOf_getElem i hi
  have hget : ∀ a, a < x.shape.length → perm.idxOf a < perm.length ∧ perm.getD (perm.idxOf a) 0 = a := by
    intro a ha
    have h1 := List.idxOf_lt_length_of_mem ((hmem a).2 ha)
    refine ⟨h1, ?_⟩
    have : perm.getD (perm.idxOf a) 0 = perm[perm.idxOf a] := by
      simp [List.getD_eq_getElem?_getD, h1]
    rw [this]
    exact List.getElem_idxOf h1
  refine ⟨fun idx => (List.range x.shape.length).map fun a => idx.getD (perm.idxOf a) 0, ⟨?_, ?_, ?_⟩,
    fun _ _ => rfl⟩
  · intro idx hi
    obtain ⟨h1, h2⟩ := valid_iff.1 hi
    simp only [List.length_map] at h1 h2
    apply valid_iff.2
    refine ⟨by simp, fun a ha => ?_⟩
    rw [getD_map_range _ _ _ ha]
    have := h2 (perm.idxOf a) (hget a ha).1
    rw [getD_map _ _ _ (hget a ha).1, (hget a ha).2] at this
    exact this
  · intro i hi j hj hij
    obtain ⟨h1, _⟩ := valid_iff.1 hi
    obtain ⟨h2, _⟩ := valid_iff.1 hj
    simp only [List.length_map] at h1 h2
    apply List.ext_getElem (by omega)
    intro k hk hk'
    have hlt : perm.getD k 0 < x.shape.length := by
      rw [← hmem]
      have : perm.getD k 0 = perm[k]'(by omega) := by
        simp [List.getD_eq_getElem?_getD, show k < perm.length by omega]
      rw [this]
      exact List.getElem_mem _
    have := congrArg (fun l : List Nat => l.getD (perm.getD k 0) 0) hij
    simp only [getD_map_range _ _ _ hlt] at this
    rw [hidx k (by omega)] at this
    simpa [List.getD_eq_getElem?_getD, hk, hk'] using this
  · intro j hj
    obtain ⟨h1, h2⟩ := valid_iff.1 hj
    refine ⟨perm.map fun a => j.getD a 0, ?_, ?_⟩
    · apply valid_iff.2
      refine ⟨by simp, fun a ha => ?_⟩
      simp only [List.length_map] at ha
      rw [getD_map _ _ _ ha, getD_map _ _ _ ha]
      apply h2
      rw [← hmem]
      have : perm.getD a 0 = perm[a] := by simp [List.getD_eq_getElem?_getD, ha]
      rw [this]
      exact List.getElem_mem _
    · apply List.ext_getElem (by simp [h1])
      intro k hk hk'
      have hk2 : k < x.shape.length := by omega
      simp only [List.getElem_map, List.getElem_range]
      rw [getD_map _ _ _ (hget k hk2).1, (hget k hk2).2]
      simp [List.getD_eq_getElem?_getD, hk']

theorem mem_allIndices {shape idx : List Nat} : idx ∈ allIndices shape ↔ Valid shape idx := by
  unfold allIndices
  rw [List.mem_map]
  constructor
  · rintro ⟨n, hn, rfl⟩
    exact valid_unflat (List.mem_range.1 hn)
  · intro h
    exact ⟨flatIndex shape idx, List.mem_range.2 (flatIndex_lt h), unflat_flat h⟩

theorem foldl_min_le (l : List Nat) (x : Nat) :
    l.foldl min x ≤ x ∧ (∀ y ∈ l, l.foldl min x ≤ y) ∧ (l.foldl min x = x ∨ l.foldl min x ∈ l) := by
  induction l generalizing x with
  | nil => simp
  | cons y l ih =>
    obtain ⟨h1, h2, h3⟩ := ih (min x y)
    rw [List.foldl_cons]
    refine ⟨le_trans h1 (min_le_left _ _), ?_, ?_⟩
    · intro z hz
      rcases List.mem_cons.1 hz with rfl | hz
      · exact le_trans h1 (min_le_right _ _)
      · exact h2 z hz
    · rcases h3 with h3 | h3
      · rcases min_choice x y with h | h
        · left; rw [h3, h]
        · right; rw [h3, h]; simp
      · right; simp [h3]

theorem foldl_max_ge (l : List Nat) (x : Nat) :
    x ≤ l.foldl max x ∧ (∀ y ∈ l, y ≤ l.foldl max x) ∧ (l.foldl max x = x ∨ l.foldl max x ∈ l) := by
  induction l generalizing x with
  | nil => simp
  | cons y l ih =>
    obtain ⟨h1, h2, h3⟩ := ih (max x y)
    rw [List.foldl_cons]
    refine ⟨le_trans (le_max_left _ _) h1, ?_, ?_⟩
    · intro z hz
      rcases List.mem_cons.1 hz with rfl | hz
      · exact le_trans (le_max_right _ _) h1
      · exact h2 z hz
    · rcases h3 with h3 | h3
      · rcases max_choice x y with h | h
        · left; rw [h3, h]
        · right; rw [h3, h]; simp
      · right; simp [h3]

theorem rowMin_spec (l : List Nat) (h : l ≠ []) :
    ∃ m, rowMin l = .ok m ∧ m ∈ l ∧ ∀ y ∈ l, m ≤ y := by
  cases l with
  | nil => exact absurd rfl h
  | cons x xs =>
    obtain ⟨h1, h2, h3⟩ := foldl_min_le xs x
    refine ⟨_, rfl, ?_, ?_⟩
    · rcases h3 with h3 | h3
      · rw [h3]; simp
      · simp [h3]
    · intro y hy
      rcases List.mem_cons.1 hy with rfl | hy
      · exact h1
      · exact h2 y hy

theorem rowMax_spec (l : List Nat) (h : l ≠ []) :
    ∃ m, rowMax l = .ok m ∧ m ∈ l ∧ ∀ y ∈ l, y ≤ m := by
  cases l with
  | nil => exact absurd rfl h
  | cons x xs =>
    obtain ⟨h1, h2, h3⟩ := foldl_max_ge xs x
    refine ⟨_, rfl, ?_, ?_⟩
    · rcases h3 with h3 | h3
      · rw [h3]; simp
      · simp [h3]
    · intro y hy
      rcases List.mem_cons.1 hy with rfl | hy
      · exact h1
      · exact h2 y hy

theorem mapM_rows {f : List Nat → Except PyErr Nat} {Q : Nat → List Nat → Prop} (rows : List (List Nat))
    (h : ∀ r ∈ rows, ∃ m, f r = .ok m ∧ Q m r) :
    ∃ ms, rows.mapM f = .ok ms ∧ List.Forall₂ Q ms rows := by
  induction rows with
  | nil => exact ⟨[], rfl, .nil⟩
  | cons r rows ih =>
    obtain ⟨m, hm, hq⟩ := h r (by simp)
    obtain ⟨ms, hms, hqs⟩ := ih fun r hr => h r (by simp [hr])
    refine ⟨m :: ms, ?_, .cons hq hqs⟩
    rw [List.mapM_cons, hm]
    change (rows.mapM f >>= _) = _
    rw [hms]
    rfl

theorem inSlices_iff (lo hi idx : List Nat) :
    inSlices lo hi idx = true ↔ ∀ a < idx.length, lo.getD a 0 ≤ idx.getD a 0 ∧ idx.getD a 0 ≤ hi.getD a 0 := by
  unfold inSlices
  simp only [List.all_eq_true, List.mem_range, Bool.and_eq_true, decide_eq_true_eq, Nat.lt_succ_iff]

theorem contiguous_spec (proc : α → Nat) (devices : NdArray α) (process : Nat)
    (hex : ∃ idx, Valid devices.shape idx ∧ proc (devices.get idx) = process) :
    ∃ b, processHasContiguousDeviceSlice proc devices process = .ok b ∧
      (b = true ↔ IsBlock devices.shape fun idx => proc (devices.get idx) = process) := by
  unfold processHasContiguousDeviceSlice
  simp only []
  set L := (allIndices devices.shape).filter fun idx => proc (devices.get idx) == process with hL
  have hmem : ∀ idx, idx ∈ L ↔ Valid devices.shape idx ∧ proc (devices.get idx) = process := by
    intro idx
    rw [hL, List.mem_filter, mem_allIndices]
    simp
  have hLne : L ≠ [] := by
    obtain ⟨idx, hi⟩ := hex
    intro e
    have := (hmem idx).2 hi
    rw [e] at this
    simp at this
  set rows := (List.range devices.shape.length).map fun a => L.map fun idx => idx.getD a 0 with hrows
  have hrne : ∀ r ∈ rows, r ≠ [] := by
    intro r hr
    obtain ⟨a, _, rfl⟩ := List.mem_map.1 hr
    simp [hLne]
  obtain ⟨lo, hlo, qlo⟩ := mapM_rows rows fun r hr => rowMin_spec r (hrne r hr)
  obtain ⟨hi, hhi, qhi⟩ := mapM_rows rows fun r hr => rowMax_spec r (hrne r hr)
  rw [hlo]
  change ∃ b, (rows.mapM rowMax >>= _) = _ ∧ _
  rw [hhi]
  refine ⟨_, rfl, ?_⟩
  have hrlen : rows.length = devices.shape.length := by simp [hrows]
  rw [List.forall₂_iff_get] at qlo qhi
  have hrow : ∀ a (h : a < rows.length), rows[a] = L.map fun idx => idx.getD a 0 := by
    intro a h
    simp [hrows]
  have lo_spec : ∀ a < devices.shape.length, (∃ idx ∈ L, lo.getD a 0 = idx.getD a 0) ∧
      ∀ idx ∈ L, lo.getD a 0 ≤ idx.getD a 0 := by
    intro a ha
    have h1 : a < lo.length := by rw [qlo.1, hrlen]; exact ha
    obtain ⟨h2, h3⟩ := qlo.2 a h1 (by omega)
    have e : lo.getD a 0 = lo[a] := by simp [List.getD_eq_getElem?_getD, h1]
    simp only [List.get_eq_getElem, hrow] at h2 h3
    rw [e]
    constructor
    · obtain ⟨idx, h4, h5⟩ := List.mem_map.1 h2
      exact ⟨idx, h4, h5.symm⟩
    · intro idx h4
      exact h3 _ (List.mem_map.2 ⟨idx, h4, rfl⟩)
  have hi_spec : ∀ a < devices.shape.length, (∃ idx ∈ L, hi.getD a 0 = idx.getD a 0) ∧
      ∀ idx ∈ L, idx.getD a 0 ≤ hi.getD a 0 := by
    intro a ha
    have h1 : a < hi.length := by rw [qhi.1, hrlen]; exact ha
    obtain ⟨h2, h3⟩ := qhi.2 a h1 (by omega)
    have e : hi.getD a 0 = hi[a] := by simp [List.getD_eq_getElem?_getD, h1]
    simp only [List.get_eq_getElem, hrow] at h2 h3
    rw [e]
    constructor
    · obtain ⟨idx, h4, h5⟩ := List.mem_map.1 h2
      exact ⟨idx, h4, h5.symm⟩
    · intro idx h4
      exact h3 _ (List.mem_map.2 ⟨idx, h4, rfl⟩)
  simp only [List.all_eq_true, List.mem_filter, mem_allIndices, inSlices_iff, beq_iff_eq]
  constructor
  · intro h
    refine ⟨lo, hi, by rw [qlo.1, hrlen], by rw [qhi.1, hrlen], fun idx hv => ⟨fun hp a ha => ?_, fun hb => ?_⟩⟩
    · have hm := (hmem idx).2 ⟨hv, hp⟩
      exact ⟨(lo_spec a ha).2 idx hm, (hi_spec a ha).2 idx hm⟩
    · exact h idx ⟨hv, fun a ha => hb a (by rw [← hv.length]; exact ha)⟩
  · rintro ⟨lo', hi', _, _, h⟩ idx ⟨hv, hb⟩
    apply (h idx hv).2
    intro a ha
    obtain ⟨ha1, ha2⟩ := hb a (by rw [hv.length]; exact ha)
    obtain ⟨⟨i, hiL, ei⟩, _⟩ := lo_spec a ha
    obtain ⟨⟨j, hjL, ej⟩, _⟩ := hi_spec a ha
    obtain ⟨vi, pi⟩ := (hmem i).1 hiL
    obtain ⟨vj, pj⟩ := (hmem j).1 hjL
    have h1 := ((h i vi).1 pi a ha).1
    have h2 := ((h j vj).1 pj a ha).2
    omega

theorem contiguous_none (proc : α → Nat) (devices : NdArray α) (process : Nat) (hd : devices.shape ≠ [])
    (hno : ∀ idx, Valid devices.shape idx → proc (devices.get idx) ≠ process) :
    processHasContiguousDeviceSlice proc devices process = .error .valueError := by
  unfold processHasContiguousDeviceSlice
  simp only []
  have : (allIndices devices.shape).filter (fun idx => proc (devices.get idx) == process) = [] := by
    rw [List.filter_eq_nil_iff]
    intro idx hi
    simpa using hno idx (mem_allIndices.1 hi)
  rw [this]
  obtain ⟨d, ds, e⟩ := List.exists_cons_of_ne_nil hd
  rw [e, List.length_cons, List.range_succ_eq_map, List.map_cons, List.mapM_cons]
  rfl

theorem allProcesses_spec (proc : α → Nat) (devices : NdArray α) (ps : List Nat)
    (hps : ∀ p ∈ ps, ∃ idx, Valid devices.shape idx ∧ proc (devices.get idx) = p) :
    ∃ b, allProcesses proc devices ps = .ok b ∧
      (b = true ↔ ∀ p ∈ ps, IsBlock devices.shape fun idx => proc (devices.get idx) = p) := by
  induction ps with
  | nil => exact ⟨true, rfl, by simp⟩
  | cons p ps ih =>
    obtain ⟨b, hb, hs⟩ := contiguous_spec proc devices p (hps p (by simp))
    obtain ⟨b', hb', hs'⟩ := ih fun q hq => hps q (by simp [hq])
    rw [allProcesses, hb]
    cases b with
    | false =>
      refine ⟨false, rfl, ?_⟩
      simp only [Bool.false_eq_true, false_iff] at hs ⊢
      intro h
      exact hs (h p (by simp))
    | true =>
      refine ⟨b', hb', ?_⟩
      rw [hs']
      simp only [List.forall_mem_cons]
      exact ⟨fun h => ⟨hs.1 rfl, h⟩, fun h => h.2⟩

theorem processes_spec (proc : α → Nat) (devices : NdArray α) :
    ∃ b, processesHaveContiguousDeviceSlices proc devices = .ok b ∧
      (b = true ↔ ∀ idx, Valid devices.shape idx →
        IsBlock devices.shape fun idx' => proc (devices.get idx') = proc (devices.get idx)) := by
  unfold processesHaveContiguousDeviceSlices
  obtain ⟨b, hb, hs⟩ := allProcesses_spec proc devices
    ((allIndices devices.shape).map fun idx => proc (devices.get idx)).dedup (by
      intro p hp
      rw [List.mem_dedup, List.mem_map] at hp
      obtain ⟨idx, hi, rfl⟩ := hp
      exact ⟨idx, mem_allIndices.1 hi, rfl⟩)
  refine ⟨b, hb, ?_⟩
  rw [hs]
  simp only [List.mem_dedup, List.mem_map, mem_allIndices]
  constructor
  · intro h idx hi
    exact h _ ⟨idx, hi, rfl⟩
  · rintro h p ⟨idx, hi, rfl⟩
    exact h idx hi

/-! Positions in the logical mesh. -/

theorem transpose_get {x y : NdArray α} {perm : List Nat} (h : x.transpose perm = .ok y) (j : List Nat)
    (hj : j.length = x.shape.length) : y.get (perm.map fun a => j.getD a 0) = x.get j := by
  obtain ⟨⟨hl, hall⟩, rfl⟩ := transpose_ok h
  simp only
  congr 1
  apply List.ext_getElem (by simp [hj])
  intro k hk hk'
  have hk2 : k < x.shape.length := by omega
  have h1 := List.idxOf_lt_length_of_mem (hall k hk2)
  simp only [List.getElem_map, List.getElem_range]
  rw [getD_map _ _ _ h1]
  have : perm.getD (perm.idxOf k) 0 = perm[perm.idxOf k] := by simp [List.getD_eq_getElem?_getD, h1]
  rw [this, List.getElem_idxOf h1]
  simp [List.getD_eq_getElem?_getD, hk']

theorem flatIndex_append (A B I J : List Nat) (h : I.length = A.length) :
    flatIndex (A ++ B) (I ++ J) = flatIndex A I * B.prod + flatIndex B J := by
  induction A generalizing I with
  | nil =>
    have : I = [] := List.length_eq_zero_iff.1 (by simpa using h)
    subst this
    simp [flatIndex]
  | cons a A ih =>
    cases I with
    | nil => simp at h
    | cons i I =>
      simp only [List.cons_append, flatIndex, List.prod_append]
      rw [ih I (by simpa using h)]
      ring

theorem valid_append {A B I J : List Nat} (h1 : Valid A I) (h2 : Valid B J) : Valid (A ++ B) (I ++ J) :=
  List.rel_append h1 h2

theorem valid_append_elim {A B K : List Nat} (h : Valid (A ++ B) K) :
    ∃ I J, K = I ++ J ∧ Valid A I ∧ Valid B J := by
  refine ⟨K.take A.length, K.drop A.length, (List.take_append_drop _ _).symm, ?_, ?_⟩
  · have := List.forall₂_take A.length h
    rwa [List.take_left] at this
  · have := List.forall₂_drop A.length h
    rwa [List.drop_left] at this

theorem flatIndex_flatten (T I : List (List Nat)) (h : List.Forall₂ (fun i t => Valid t i) I T) :
    flatIndex T.flatten I.flatten = flatIndex (T.map List.prod) (List.zipWith flatIndex T I) := by
  induction h with
  | nil => rfl
  | @cons i t I T hit _ ih =>
    rw [List.flatten_cons, List.flatten_cons, flatIndex_append _ _ _ _ hit.length, ih]
    simp only [List.map_cons, List.zipWith_cons_cons, flatIndex, List.prod_flatten]

theorem valid_flatten (T I : List (List Nat)) (h : List.Forall₂ (fun i t => Valid t i) I T) :
    Valid T.flatten I.flatten := by
  induction h with
  | nil => exact .nil
  | cons hit _ ih => exact valid_append hit ih

theorem valid_positions (T I : List (List Nat)) (h : List.Forall₂ (fun i t => Valid t i) I T) :
    Valid (T.map List.prod) (List.zipWith flatIndex T I) := by
  induction h with
  | nil => exact .nil
  | cons hit _ ih => exact .cons (flatIndex_lt hit) ih

theorem getD_flatten (k s : Nat) (hs : s < k) (I : List (List Nat)) (hI : ∀ i ∈ I, i.length = k) (n : Nat)
    (hn : n < I.length) : I.flatten.getD (s + k * n) 0 = (I.getD n []).getD s 0 := by
  induction I generalizing n with
  | nil => simp at hn
  | cons i I ih =>
    have hi := hI i (by simp)
    cases n with
    | zero =>
      simp only [List.flatten_cons, Nat.mul_zero, Nat.add_zero, List.getD_cons_zero]
      rw [List.getD_append _ _ _ _ (by omega)]
    | succ n =>
      rw [List.flatten_cons, List.getD_append_right _ _ _ _ (by rw [hi, Nat.mul_succ]; omega), List.getD_cons_succ,
        ← ih (fun i hi => hI i (by simp [hi])) n (by simpa using hn)]
      congr 1
      rw [hi, Nat.mul_succ]
      omega

theorem strided_map (k s : Nat) (hs : s < k) (I : List (List Nat)) (hI : ∀ i ∈ I, i.length = k) :
    (strided s k I.length).map (fun a => I.flatten.getD a 0) = I.map fun i => i.getD s 0 := by
  unfold strided
  apply List.ext_getElem (by simp)
  intro n h1 h2
  simp only [List.length_map] at h2
  simp only [List.getElem_map, List.getElem_range]
  rw [getD_flatten k s hs I hI n h2]
  simp [List.getD_eq_getElem?_getD, h2]

theorem flatten_length (k : Nat) (I : List (List Nat)) (hI : ∀ i ∈ I, i.length = k) :
    I.flatten.length = k * I.length := by
  induction I with
  | nil => simp
  | cons i I ih =>
    rw [List.flatten_cons, List.length_append, hI i (by simp), ih fun i hi => hI i (by simp [hi]), List.length_cons,
      Nat.mul_succ]
    omega

/-- The positions of devices in a mesh made by splitting every axis of the hardware mesh, moving axes and merging. -/
theorem split_get {hw d1 d2 mesh : NdArray α} (T : List (List Nat)) (k : Nat) (hT : ∀ t ∈ T, t.length = k)
    (h1 : hw.reshape (T.flatten.map some) = .ok d1) (hshape : hw.shape = T.map List.prod)
    (rows cols : List Nat) (hrows : ∀ s ∈ rows, s < k) (hcols : ∀ s ∈ cols, s < k)
    (h2 : d1.transpose ((rows ++ cols).flatMap fun s => strided s k T.length) = .ok d2)
    {P R : Nat} (h3 : d2.reshape [some P, some R] = .ok mesh)
    (hR : (cols.flatMap fun s => T.map fun t => t.getD s 0).prod = R)
    (I : List (List Nat)) (hI : List.Forall₂ (fun i t => Valid t i) I T) :
    mesh.get [flatIndex (rows.flatMap fun s => T.map fun t => t.getD s 0) (rows.flatMap fun s => I.map fun i => i.getD s 0),
      flatIndex (cols.flatMap fun s => T.map fun t => t.getD s 0) (cols.flatMap fun s => I.map fun i => i.getD s 0)] =
      hw.get (List.zipWith flatIndex T I) := by
  have hIlen : I.length = T.length := hI.length_eq
  have hIk : ∀ i ∈ I, i.length = k := by
    intro i hi
    obtain ⟨n, hn, rfl⟩ := List.getElem_of_mem hi
    have := (List.forall₂_iff_get.1 hI).2 n hn (by omega)
    rw [List.get_eq_getElem, List.get_eq_getElem] at this
    rw [this.length]
    exact hT _ (List.getElem_mem _)
  have hd1 := (reshape_shape h1).1
  have hmap : ∀ (l : List Nat) (_ : ∀ s ∈ l, s < k) (X : List (List Nat)) (_ : ∀ x ∈ X, x.length = k)
      (_ : X.length = T.length), (l.flatMap fun s => strided s k T.length).map (fun a => X.flatten.getD a 0) =
        l.flatMap fun s => X.map fun i => i.getD s 0 := by
    intro l hl X hX hXl
    rw [List.map_flatMap]
    apply List.flatMap_congr
    intro s hs
    rw [← hXl, strided_map k s (hl s hs) X hX]
  have hrc : ∀ s ∈ rows ++ cols, s < k := by
    intro s hs
    rcases List.mem_append.1 hs with h | h
    · exact hrows s h
    · exact hcols s h
  have e1 : d1.get I.flatten = hw.get (List.zipWith flatIndex T I) := by
    apply get_reshape h1
    · rw [hshape]; exact valid_positions T I hI
    · rw [hd1, hshape]; exact flatIndex_flatten T I hI
  have hd2 : d2.shape = (rows ++ cols).flatMap fun s => T.map fun t => t.getD s 0 := by
    have := congrArg NdArray.shape (transpose_ok h2).2
    rw [this]
    simp only [hd1]
    exact hmap _ hrc T hT rfl
  have e2 : d2.get ((rows ++ cols).flatMap fun s => I.map fun i => i.getD s 0) = d1.get I.flatten := by
    rw [← hmap _ hrc I hIk hIlen]
    apply transpose_get h2
    rw [hd1, flatten_length k I hIk, flatten_length k T hT, hIlen]
  rw [← e1, ← e2]
  have hv1 : Valid d1.shape I.flatten := by rw [hd1]; exact valid_flatten T I hI
  have hv2 : Valid d2.shape ((rows ++ cols).flatMap fun s => I.map fun i => i.getD s 0) := by
    rw [hd2]
    have key : ∀ l : List Nat, (∀ s ∈ l, s < k) → Valid (l.flatMap fun s => T.map fun t => t.getD s 0)
        (l.flatMap fun s => I.map fun i => i.getD s 0) := by
      intro l
      induction l with
      | nil => intro _; exact .nil
      | cons s l ih =>
        intro hl
        rw [List.flatMap_cons, List.flatMap_cons]
        refine valid_append ?_ (ih fun s hs => hl s (by simp [hs]))
        have hs := hl s (by simp)
        rw [Valid, List.forall₂_map_left_iff, List.forall₂_map_right_iff]
        clear ih hv1 e1 e2 hmap hd1 hd2 h1 h2 h3 hshape hR hIlen
        induction hI with
        | nil => exact .nil
        | @cons i t I T hit _ ih' =>
          refine .cons ?_ (ih' (fun t ht => hT t (by simp [ht])) fun i hi => hIk i (by simp [hi]))
          exact (valid_iff.1 hit).2 s (by rw [hT t (by simp)]; exact hs)
    exact key _ hrc
  apply get_reshape h3 hv2
  have h3' : d2.reshape ([P, R].map some) = .ok mesh := h3
  rw [(reshape_shape h3').1, hd2, List.flatMap_append, List.flatMap_append, flatIndex_append]
  · simp only [flatIndex, List.prod_cons, List.prod_nil, hR]
    ring
  · simp only [List.length_flatMap, List.length_map, hIlen]

end Verif.Partitioning
