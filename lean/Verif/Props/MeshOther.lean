import Verif.Props.Partitioning
import Mathlib.Order.Interval.Finset.Nat

/-!
C86: the automatic mesh of CPU and GPU devices (vmoe/partitioning.py:117-151,191-193,213-270), end to end; and the part of
C67 about `get_logical_mesh`.
-/

namespace Verif.Partitioning

open Verif NdArray MeshSpec

variable {α : Type}

theorem transpose_get_two (hw t : NdArray α) (a b : Nat) (hs : hw.shape = [a, b])
    (h : hw.transpose (List.range hw.shape.length).reverse = .ok t) (i j : Nat) : t.get [j, i] = hw.get [i, j] := by
  unfold transpose at h
  split at h
  · cases h
    rw [hs]
    rfl
  · cases h

theorem between_of_div {x q B : Nat} (hB : 0 < B) : x / B = q ↔ q * B ≤ x ∧ x ≤ q * B + (B - 1) :=
  div_eq_iff_between hB

theorem mul_add_lt (a b c e : Nat) (h1 : a < c) (h2 : b < e) : a * e + b < c * e := by
  calc a * e + b < a * e + e := by omega
    _ = (a + 1) * e := by ring
    _ ≤ c * e := Nat.mul_le_mul_right _ h1

/-- The default mesh of a hardware mesh with axes (device on process, process). -/
theorem default_two (p r q s : Nat) (hw t : NdArray α) (hts : t.shape = [q * s, p * r])
    (htg : ∀ i j, t.get [j, i] = hw.get [i, j]) :
    ∃ d, getLogicalMeshDefault [q, p] [s, r] t = .ok d ∧ d.shape = [q * p, s * r] ∧
      ∀ i k j l, i < q → k < p → j < s → l < r →
        d.get [i * p + k, j * r + l] = hw.get [k * r + l, i * s + j] := by
  have hshape : t.shape = List.zipWith (· * ·) [q, p] [s, r] := by rw [hts]; rfl
  obtain ⟨d, hd⟩ := C40_accepts [q, p] [s, r] t (by simp) rfl hshape
  refine ⟨d, hd, ?_, ?_⟩
  · rw [(C40_default _ _ _ _ hd).2]
    simp
  · intro i k j l hi hk hj hl
    have h := C40_default_position [q, p] [s, r] t d hd rfl hshape [i, k] [j, l] (.cons hi (.cons hk .nil))
      (.cons hj (.cons hl .nil))
    have e1 : flatIndex [q, p] [i, k] = i * p + k := by simp [flatIndex]
    have e2 : flatIndex [s, r] [j, l] = j * r + l := by simp [flatIndex]
    rw [e1, e2] at h
    rw [h, ← htg]
    rfl

/-- C86: for a hardware mesh with axes (device on process, process), `get_logical_mesh` accepts all numbers of partitions that
divide the axes.  Partition `(k, i)` and replica `(l, j)` of these axes are in row `i * p + k` and column `j * r + l`; the
devices of each process form a block; the local devices of the process that calls the function play no part. -/
theorem C86_logical_mesh (proc : α → Nat) (p r q s : Nat) (hp : 0 < p) (hr : 0 < r) (hq : 0 < q)
    (hs : 0 < s) (hw : NdArray α) (hshape : hw.shape = [p * r, q * s])
    (hproc : ∀ d d' h h', d < p * r → d' < p * r → h < q * s → h' < q * s →
      (proc (hw.get [d, h]) = proc (hw.get [d', h']) ↔ h = h')) :
    ∃ mesh, (∀ lc, getLogicalMesh proc lc [p, q] hw = .ok mesh) ∧ mesh.shape = [q * p, s * r] ∧
      (∀ i k j l, i < q → k < p → j < s → l < r →
        mesh.get [i * p + k, j * r + l] = hw.get [k * r + l, i * s + j]) ∧
      ∀ idx, Valid mesh.shape idx → IsBlock mesh.shape fun idx' => proc (mesh.get idx') = proc (mesh.get idx) := by
  obtain ⟨t, ht, hts⟩ := transpose_reverse hw
  have htg := transpose_get_two hw t _ _ hshape ht
  rw [hshape] at hts
  obtain ⟨d, hd, hds, hdg⟩ := default_two p r q s hw t hts htg
  -- Every position has coordinates.
  have hat : ∀ a b, a < q * p → b < s * r → d.get [a, b] = hw.get [a % p * r + b % r, a / p * s + b / r] := by
    intro a b ha hb
    have h := hdg (a / p) (a % p) (b / r) (b % r) (Nat.div_lt_of_lt_mul (by rwa [Nat.mul_comm] at ha)) (Nat.mod_lt _ hp)
      (Nat.div_lt_of_lt_mul (by rwa [Nat.mul_comm] at hb)) (Nat.mod_lt _ hr)
    rwa [Nat.mul_comm (a / p), Nat.div_add_mod, Nat.mul_comm (b / r), Nat.div_add_mod] at h
  have hlt := @mul_add_lt
  have hblock : ∀ idx, Valid d.shape idx → IsBlock d.shape fun idx' => proc (d.get idx') = proc (d.get idx) := by
    intro idx hidx
    rw [hds] at hidx ⊢
    have two : ∀ idx, Valid [q * p, s * r] idx → ∃ a b, idx = [a, b] ∧ a < q * p ∧ b < s * r := by
      intro idx h
      match idx, h.length with
      | [a, b], _ =>
        have : a < q * p ∧ b < s * r := by simpa [Valid] using h
        exact ⟨a, b, rfl, this⟩
    obtain ⟨a, b, rfl, ha, hb⟩ := two idx hidx
    refine ⟨[a / p * p, b / r * r], [a / p * p + (p - 1), b / r * r + (r - 1)], rfl, rfl, ?_⟩
    intro idx' hidx'
    obtain ⟨a', b', rfl, ha', hb'⟩ := two idx' hidx'
    have dv : ∀ x n m : Nat, x < n * m → x / m < n := fun x n m h => Nat.div_lt_of_lt_mul (by rwa [Nat.mul_comm] at h)
    beta_reduce
    rw [hat a b ha hb, hat a' b' ha' hb', hproc _ _ _ _ (hlt _ _ _ _ (Nat.mod_lt _ hp) (Nat.mod_lt _ hr))
      (hlt _ _ _ _ (Nat.mod_lt _ hp) (Nat.mod_lt _ hr)) (hlt _ _ _ _ (dv _ _ _ ha') (dv _ _ _ hb'))
      (hlt _ _ _ _ (dv _ _ _ ha) (dv _ _ _ hb))]
    have key : a' / p * s + b' / r = a / p * s + b / r ↔ a' / p = a / p ∧ b' / r = b / r := by
      constructor
      · intro e
        have e1 : (b' / r + a' / p * s) / s = (b / r + a / p * s) / s := by rw [Nat.add_comm, e, Nat.add_comm]
        have e2 : (b' / r + a' / p * s) % s = (b / r + a / p * s) % s := by rw [Nat.add_comm, e, Nat.add_comm]
        rw [Nat.add_mul_div_right _ _ hs, Nat.add_mul_div_right _ _ hs, Nat.div_eq_of_lt (dv _ _ _ hb'),
          Nat.div_eq_of_lt (dv _ _ _ hb)] at e1
        rw [Nat.add_mul_mod_self_right, Nat.add_mul_mod_self_right, Nat.mod_eq_of_lt (dv _ _ _ hb'),
          Nat.mod_eq_of_lt (dv _ _ _ hb)] at e2
        exact ⟨by omega, e2⟩
      · rintro ⟨h1, h2⟩
        rw [h1, h2]
    rw [key, between_of_div hp, between_of_div hr]
    constructor
    · rintro ⟨h1, h2⟩ x hx
      match x, hx with
      | 0, _ => exact h1
      | 1, _ => exact h2
    · intro h
      exact ⟨h 0 (by simp), h 1 (by simp)⟩
  refine ⟨d, fun lc => ?_, hds, hdg, hblock⟩
  unfold getLogicalMesh
  have hdiv : ([p, q].zip hw.shape).mapM (fun ps => floorDiv ps.2 ps.1) = .ok [r, s] := by
    rw [floorDiv_mapM_ok (by simp; omega), hshape]
    simp [Nat.mul_div_cancel_left _ hp, Nat.mul_div_cancel_left _ hq]
  rw [hdiv]
  change (if _ then _ else _) = _
  rw [if_neg (by simp [hshape])]
  simp only [ht]
  change (getLogicalMeshDefault [q, p] [s, r] t >>= _) = _
  rw [hd]
  obtain ⟨b, hb, hb'⟩ := C41_all_processes proc d
  change (processesHaveContiguousDeviceSlices proc d >>= _) = _
  rw [hb, hb'.2 hblock]
  rfl

/-- The numbers of partitions that the automatic mesh of `H` processes with `D` devices each accepts. -/
def Fits (m D H : Nat) : Prop := (m ≤ D ∧ m ∣ D) ∨ (D ∣ m ∧ m / D ∣ H)

theorem fits_iff (m D H : Nat) (hm : 0 < m) (hD : 0 < D) :
    (∃ ps, ∃ d h, ps = [d, h] ∧ d = min m D ∧ d * h = m ∧ d ∣ D ∧ h ∣ H) ↔ Fits m D H := by
  constructor
  · rintro ⟨_, d, h, rfl, hd, he, h1, h2⟩
    by_cases hle : m ≤ D
    · left
      rw [min_eq_left hle] at hd
      exact ⟨hle, hd ▸ h1⟩
    · right
      rw [min_eq_right (by omega)] at hd
      subst hd
      refine ⟨⟨h, he.symm⟩, ?_⟩
      rwa [← he, Nat.mul_div_cancel_left _ hD]
  · rintro (⟨h1, h2⟩ | ⟨h1, h2⟩)
    · exact ⟨_, m, 1, rfl, (min_eq_left h1).symm, by simp, h2, one_dvd _⟩
    · exact ⟨_, D, m / D, rfl, (min_eq_right (Nat.le_of_dvd hm h1)).symm, Nat.mul_div_cancel' h1, dvd_rfl, h2⟩

/-- C86: `get_auto_logical_mesh` with `H` processes that have `D` CPU or GPU devices each, numbered by process, given in any
order.  It returns exactly if the number of partitions (at most the number of devices) divides the devices of one process, or
is a multiple `q` of them and `q` divides the number of processes; otherwise it raises `ValueError`.  The experts are first
spread over the devices of one process: with `p` partitions and `r` replicas within a process, and `q` partitions and `s`
replicas across processes, the device at row `i * p + k` and column `j * r + l` is number `k * r + l` of process `i * s + j`.
The devices of each process form a block, and the result is the same on every process. -/
theorem C86_auto_mesh (n D H : Nat) (hn : 0 < n) (hD : 0 < D) (hH : 0 < H) (id proc : α → Nat) (devices : List α)
    (hid : (devices.map id).Perm (List.range (H * D))) (hproc : ∀ d ∈ devices, proc d = id d / D) (m : Nat)
    (hm : m = min n (H * D)) :
    (Fits m D H → ∃ mesh p r q s, p * r = D ∧ q * s = H ∧ p * q = m ∧ p = min m D ∧
      (∀ lc, getAutoLogicalMesh false proc (fun d => getDeviceCoordsOther D (id d) (proc d)) lc n devices = .ok mesh) ∧
      mesh.shape = [m, s * r] ∧
      (∀ i k j l, i < q → k < p → j < s → l < r →
        ∃ d ∈ devices, mesh.get [i * p + k, j * r + l] = some d ∧ id d = (i * s + j) * D + (k * r + l)) ∧
      ∀ idx, Valid mesh.shape idx → IsBlock mesh.shape fun idx' => (mesh.get idx').map proc = (mesh.get idx).map proc) ∧
    (¬ Fits m D H → ∀ lc,
      getAutoLogicalMesh false proc (fun d => getDeviceCoordsOther D (id d) (proc d)) lc n devices = .error .valueError) := by
  have hmem : ∀ c, c < H * D → ∃ d ∈ devices, id d = c := by
    intro c hc
    have := hid.mem_iff.2 (List.mem_range.2 hc)
    simpa using this
  have hlt : ∀ d ∈ devices, id d < H * D := fun d hd =>
    List.mem_range.1 (hid.mem_iff.1 (List.mem_map.2 ⟨d, hd, rfl⟩))
  have hlen : devices.length = H * D := by simpa using hid.length_eq
  have hm0 : 0 < m := by
    have := Nat.mul_pos hH hD
    omega
  set coords : α → List Nat := fun d => getDeviceCoordsOther D (id d) (proc d) with hcoords
  have hc : ∀ d ∈ devices, coords d = [id d % D, id d / D] := by
    intro d hd
    simp only [hcoords, getDeviceCoordsOther, hproc d hd]
  have hfull : ∀ c, c ∈ devices.map coords ↔ Valid [D, H] c := by
    intro c
    constructor
    · intro h
      obtain ⟨d, hd, rfl⟩ := List.mem_map.1 h
      rw [hc d hd]
      refine .cons (Nat.mod_lt _ hD) (.cons ?_ .nil)
      exact Nat.div_lt_of_lt_mul (by rw [Nat.mul_comm]; exact hlt d hd)
    · intro h
      match c, h.length with
      | [a, b], _ =>
        have : a < D ∧ b < H := by simpa [Valid] using h
        obtain ⟨d, hd, e⟩ := hmem (b * D + a) (mul_add_lt _ _ _ _ this.2 this.1)
        refine List.mem_map.2 ⟨d, hd, ?_⟩
        rw [hc d hd, e, Nat.mul_comm b D, Nat.mul_add_mod, Nat.mod_eq_of_lt this.1, Nat.mul_add_div hD,
          Nat.div_eq_of_lt this.1, Nat.add_zero]
  have hidnd : (devices.map id).Nodup := hid.nodup_iff.2 List.nodup_range
  have hnd : (devices.map coords).Nodup := by
    rw [List.nodup_map_iff_inj_on (List.Nodup.of_map _ hidnd)]
    intro d hd d' hd' e
    rw [hc d hd, hc d' hd'] at e
    simp only [List.cons.injEq, and_true] at e
    apply (List.nodup_map_iff_inj_on (List.Nodup.of_map _ hidnd)).1 hidnd d hd d' hd'
    rw [← Nat.div_add_mod (id d) D, ← Nat.div_add_mod (id d') D, e.1, e.2]
  obtain ⟨hw, hhw, hs, hg⟩ := hardwareMesh_spec coords devices [D, H] (by simp; omega) hnd hfull
  have hgc : ∀ a b, a < D → b < H → ∃ d ∈ devices, hw.get [a, b] = some d ∧ id d = b * D + a := by
    intro a b ha hb
    obtain ⟨d, hd, e⟩ := List.mem_map.1 ((hfull [a, b]).2 (.cons ha (.cons hb .nil)))
    refine ⟨d, hd, by rw [← e]; exact hg d hd, ?_⟩
    rw [hc d hd] at e
    simp only [List.cons.injEq, and_true] at e
    rw [← e.1, ← e.2, Nat.mul_comm]
    exact (Nat.div_add_mod _ _).symm
  have hnone : (allIndices hw.shape).any (fun idx => (hw.get idx).isNone) = false := by
    rw [List.any_eq_false]
    intro idx hidx
    unfold allIndices at hidx
    obtain ⟨k, hk, rfl⟩ := List.mem_map.1 hidx
    have hv := valid_unflat (List.mem_range.1 hk)
    rw [hs, ← hfull] at hv
    obtain ⟨d, hd, e⟩ := List.mem_map.1 hv
    rw [hs, ← e, hg d hd]
    simp
  have hcap : capPartitions n devices.length = m := by
    unfold capPartitions
    rw [hlen, hm]
    split <;> omega
  have hauto : ∀ lc, getAutoLogicalMesh false proc coords lc n devices =
      (autoPartitionsOther m [D, H] >>= fun P => getLogicalMesh (fun o : Option α => (o.map proc).getD 0) lc P hw) := by
    intro lc
    unfold getAutoLogicalMesh
    simp only
    rw [hhw]
    change (if _ then _ else _) = _
    rw [hnone, hcap]
    simp only [Bool.false_eq_true, if_false, getAutoLogicalMeshOther, hs]
  constructor
  · intro hfit
    obtain ⟨ps, p, q, rfl, h1, h2, ⟨r, hr⟩, ⟨s, hs'⟩⟩ := (fits_iff m D H hm0 hD).2 hfit
    have hp0 : 0 < p := by rw [h1]; omega
    have hq0 : 0 < q := by
      rcases Nat.eq_zero_or_pos q with h | h
      · rw [h, Nat.mul_zero] at h2; omega
      · exact h
    have hr0 : 0 < r := by
      rcases Nat.eq_zero_or_pos r with h | h
      · rw [h, Nat.mul_zero] at hr; omega
      · exact h
    have hs0 : 0 < s := by
      rcases Nat.eq_zero_or_pos s with h | h
      · rw [h, Nat.mul_zero] at hs'; omega
      · exact h
    have hP : autoPartitionsOther m [D, H] = .ok [p, q] :=
      (autoOther_iff m D H hm0 hD hH [p, q]).2 ⟨p, q, rfl, h1, h2, ⟨r, hr⟩, ⟨s, hs'⟩⟩
    have hpr : ∀ a b, a < D → b < H → ((hw.get [a, b]).map proc).getD 0 = b ∧ (hw.get [a, b]).map proc = some b := by
      intro a b ha hb
      obtain ⟨d, hd, e1, e2⟩ := hgc a b ha hb
      have : proc d = b := by
        rw [hproc d hd, e2, Nat.mul_comm, Nat.mul_add_div hD, Nat.div_eq_of_lt ha, Nat.add_zero]
      rw [e1]
      simp [this]
    have hmesh := C86_logical_mesh (fun o : Option α => (o.map proc).getD 0) p r q s hp0 hr0 hq0 hs0 hw
      (by rw [hs, hr, hs']) (by
        intro d d' h h' hd hd' hh hh'
        rw [(hpr d h (by omega) (by omega)).1, (hpr d' h' (by omega) (by omega)).1])
    obtain ⟨mesh, hok, hms, hlay, hblk⟩ := hmesh
    have hget : ∀ idx, Valid mesh.shape idx → (mesh.get idx).map proc = some (((mesh.get idx).map proc).getD 0) := by
      intro idx hidx
      have hl := C40_logical_mesh _ [] [p, q] hw mesh (by rw [hs]; simp; omega) (hok [])
      obtain ⟨φ, hφ, hφg⟩ := hl.1
      have hv := hφ.mapsTo hidx
      have hv' : Valid [D, H] (φ idx) := hs ▸ hv
      rw [hφg idx hidx]
      generalize φ idx = c at hv'
      match c, hv'.length with
      | [a, b], _ =>
        have : a < D ∧ b < H := by simpa [Valid] using hv'
        rw [(hpr a b this.1 this.2).2]
        rfl
    refine ⟨mesh, p, r, q, s, hr.symm, hs'.symm, h2, h1, ?_, ?_, ?_, ?_⟩
    · intro lc
      rw [hauto lc, hP]
      exact hok lc
    · rw [hms, Nat.mul_comm q p, h2]
    · intro i k j l hi hk hj hl
      rw [hlay i k j l hi hk hj hl]
      obtain ⟨d, hd, e1, e2⟩ := hgc (k * r + l) (i * s + j) (by rw [hr]; exact mul_add_lt _ _ _ _ hk hl)
        (by rw [hs']; exact mul_add_lt _ _ _ _ hi hj)
      exact ⟨d, hd, e1, e2⟩
    · intro idx hidx
      obtain ⟨lo, hi, h1, h2, h3⟩ := hblk idx hidx
      refine ⟨lo, hi, h1, h2, fun idx' hidx' => ?_⟩
      rw [← h3 idx' hidx']
      beta_reduce
      rw [hget idx hidx, hget idx' hidx']
      simp
  · intro hfit lc
    rw [hauto lc]
    cases hP : autoPartitionsOther m [D, H] with
    | error e =>
      rw [autoOther_error m D H hm0 hD e hP]
      rfl
    | ok ps =>
      exact absurd ((fits_iff m D H hm0 hD).1 ⟨ps, (autoOther_iff m D H hm0 hD hH ps).1 hP⟩) hfit

/-- A case of `C86_auto_mesh`: three processes with two devices each, six partitions. -/
example : Fits 6 2 3 ∧ ¬ Fits 4 2 3 ∧ (([3, 0, 5, 1, 2, 4] : List Nat).map fun d => d).Perm (List.range (3 * 2)) :=
  ⟨.inr (by decide), by unfold Fits; decide, by decide⟩

example : (getAutoLogicalMesh false (fun d : Nat => d / 2) (fun d => getDeviceCoordsOther 2 d (d / 2)) [] 2
    [3, 0, 5, 1, 2, 4]).map (fun m => (m.shape, (allIndices m.shape).map m.get)) =
      .ok ([2, 3], [some 0, some 2, some 4, some 1, some 3, some 5]) := by
  decide +kernel

theorem reverse_get {hw t : NdArray α} (h : hw.transpose (List.range hw.shape.length).reverse = .ok t) (j : List Nat)
    (hj : j.length = hw.shape.length) : t.get j.reverse = hw.get j := by
  rw [← transpose_get h j hj]
  congr 1
  rw [← hj, List.map_reverse]
  congr 1
  apply List.ext_getElem (by simp)
  intro i h1 h2
  simp [h1]

theorem valid_reverse {shape idx : List Nat} (h : Valid shape idx) : Valid shape.reverse idx.reverse :=
  List.rel_reverse h

theorem getD_zipWith_div (a b : List Nat) (k : Nat) (ha : k < a.length) (hb : k < b.length) :
    (List.zipWith (· / ·) a b).getD k 0 = a.getD k 0 / b.getD k 0 := by
  rw [List.getD_eq_getElem _ _ (by simp [ha, hb]), List.getD_eq_getElem _ _ ha, List.getD_eq_getElem _ _ hb,
    List.getElem_zipWith]

theorem valid_getD {shape idx : List Nat} (h : Valid shape idx) (a : Nat) (ha : a < shape.length) :
    idx.getD a 0 < shape.getD a 0 := by
  have hl := h.length
  have := (List.forall₂_iff_get.1 h).2 a (by omega) ha
  rw [List.getD_eq_getElem _ _ (by omega), List.getD_eq_getElem _ _ ha]
  exact this

theorem valid_set {shape idx : List Nat} (h : Valid shape idx) (a v : Nat) (hv : v < shape.getD a 0) :
    Valid shape (idx.set a v) := by
  have hl := h.length
  refine List.forall₂_iff_get.2 ⟨by simpa using hl, fun i h1 h2 => ?_⟩
  have := (List.forall₂_iff_get.1 h).2 i (by simpa using h1) h2
  simp only [List.get_eq_getElem] at this ⊢
  rw [List.getElem_set]
  split
  · rename_i e
    subst e
    rwa [List.getD_eq_getElem _ _ h2] at hv
  · exact this

/-- The local shape is the shape of the block of a process. -/
theorem localShape_block (shape L : List Nat) (hL : L.length = shape.length) (hdiv : List.Forall₂ (fun l s => 0 < l ∧ l ∣ s) L shape)
    (lc : List (List Nat)) (idx0 : List Nat) (h0 : Valid shape idx0)
    (hlc : ∀ c, c ∈ lc ↔ Valid shape c ∧ List.zipWith (· / ·) c L = List.zipWith (· / ·) idx0 L) :
    hardwareMeshLocalShape lc = L := by
  have hmem0 : idx0 ∈ lc := (hlc idx0).2 ⟨h0, rfl⟩
  have key : ∀ a < L.length, (lc.map fun x => x.getD a 0).dedup.length = L.getD a 0 := by
    intro a ha
    have has : a < shape.length := by omega
    obtain ⟨hpos, hd⟩ : 0 < L.getD a 0 ∧ L.getD a 0 ∣ shape.getD a 0 := by
      have := (List.forall₂_iff_get.1 hdiv).2 a ha has
      rw [List.getD_eq_getElem _ _ ha, List.getD_eq_getElem _ _ has]
      exact this
    set l := L.getD a 0 with hl
    set q := idx0.getD a 0 / l with hq
    have hset : (lc.map fun x => x.getD a 0).toFinset = Finset.Ico (q * l) (q * l + l) := by
      ext v
      rw [List.mem_toFinset, List.mem_map, Finset.mem_Ico]
      constructor
      · rintro ⟨c, hc, rfl⟩
        obtain ⟨hv, he⟩ := (hlc c).1 hc
        have e := congrArg (fun x => x.getD a 0) he
        simp only at e
        rw [getD_zipWith_div _ _ _ (by rw [hv.length]; exact has) ha, getD_zipWith_div _ _ _ (by rw [h0.length]; exact has) ha,
          ← hl, ← hq, between_of_div hpos] at e
        omega
      · intro hv
        have hvl : v / l = q := (between_of_div hpos).2 (by omega)
        have hvs : v < shape.getD a 0 := by
          obtain ⟨m, hm⟩ := hd
          have hx := valid_getD h0 a has
          rw [hm] at hx ⊢
          have : q < m := Nat.div_lt_of_lt_mul hx
          calc v < (q + 1) * l := by rw [Nat.add_mul]; omega
            _ ≤ m * l := Nat.mul_le_mul_right _ this
            _ = l * m := Nat.mul_comm _ _
        refine ⟨idx0.set a v, (hlc _).2 ⟨valid_set h0 a v hvs, ?_⟩, ?_⟩
        · apply List.ext_getElem (by simp)
          intro i h1 h2
          simp only [List.getElem_zipWith, List.getElem_set]
          split
          · rename_i e
            subst e
            rw [hl, List.getD_eq_getElem _ _ ha] at hvl
            rw [hvl, hq, hl, List.getD_eq_getElem _ _ ha, List.getD_eq_getElem _ _ (by rw [h0.length]; exact has)]
          · rfl
        · have hlt : a < (idx0.set a v).length := by simp [h0.length, has]
          rw [List.getD_eq_getElem _ _ hlt]
          simp
    rw [← List.card_toFinset, hset]
    simp
  have hlen : ∀ c ∈ lc, c.length = L.length := fun c hc => ((hlc c).1 hc).1.length.trans hL.symm
  cases hcs : lc with
  | nil => rw [hcs] at hmem0; cases hmem0
  | cons c cs =>
    have hc := hlen c (by rw [hcs]; exact List.mem_cons_self)
    unfold hardwareMeshLocalShape
    simp only
    rw [← hcs, hc]
    apply List.ext_getElem (by simp)
    intro i h1 h2
    rw [List.getElem_map, List.getElem_range, key i h2, List.getD_eq_getElem _ _ h2]

theorem zip_zip_reverse (A B C : List Nat) (h1 : A.length = B.length) (h2 : A.length = C.length) :
    (A.reverse.zip B.reverse).zip C.reverse = ((A.zip B).zip C).reverse := by
  unfold List.zip
  rw [List.reverse_zipWith (by simp; omega), List.reverse_zipWith h1]

/-- C67: the whole of `get_logical_mesh`: if the processes own aligned blocks of the hardware mesh, of shape `L`, and no axis has
several partitions, several replicas and several devices of one process, then in the mesh that it returns the devices of every
process form a contiguous slice. -/
theorem C67_logical_mesh (proc : α → Nat) (lc : List (List Nat)) (P L : List Nat) (hw mesh : NdArray α)
    (hpos : ∀ s ∈ hw.shape, 0 < s) (h : getLogicalMesh proc lc P hw = .ok mesh)
    (hdiv : List.Forall₂ (fun l s => 0 < l ∧ l ∣ s) L hw.shape)
    (hproc : ∀ idx idx', Valid hw.shape idx → Valid hw.shape idx' →
      (proc (hw.get idx) = proc (hw.get idx') ↔ List.zipWith (· / ·) idx L = List.zipWith (· / ·) idx' L))
    (hlc : ∃ idx0, Valid hw.shape idx0 ∧ ∀ c, c ∈ lc ↔ Valid hw.shape c ∧ proc (hw.get c) = proc (hw.get idx0))
    (hc : ∀ a < hw.shape.length, L.getD a 0 = 1 ∨ P.getD a 0 = 1 ∨ P.getD a 0 = hw.shape.getD a 0) :
    ∀ idx, Valid mesh.shape idx → IsBlock mesh.shape fun idx' => proc (mesh.get idx') = proc (mesh.get idx) := by
  obtain ⟨b, hb, hbs⟩ := C41_all_processes proc mesh
  apply hbs.1
  have hL : L.length = hw.shape.length := hdiv.length_eq
  obtain ⟨hlen, hP, t, d, ht, hts, hd, ⟨h1, rfl⟩ | ⟨_, h2⟩⟩ := logical_steps h
  · rw [h1] at hb
    injection hb with hb
    exact hb.symm
  · obtain ⟨idx0, h0, hlc⟩ := hlc
    have hls : hardwareMeshLocalShape lc = L := by
      apply localShape_block hw.shape L hL hdiv lc idx0 h0
      intro c
      rw [hlc c]
      constructor
      · rintro ⟨hv, he⟩; exact ⟨hv, (hproc _ _ hv h0).1 he⟩
      · rintro ⟨hv, he⟩; exact ⟨hv, (hproc _ _ hv h0).2 he⟩
    rw [hls] at h2
    obtain ⟨-, -, hdvd⟩ := C40_logical_mesh proc lc P hw mesh hpos h
    set R := List.zipWith (fun p s => s / p) P hw.shape with hR
    have hRl : R.length = P.length := by simp [hR, hlen]
    have hmul : hw.shape = List.zipWith (· * ·) P R := by
      apply List.ext_getElem (by simp [hRl, hlen])
      intro i g1 g2
      have := (List.forall₂_iff_get.1 hdvd).2 i (by omega) g1
      simp only [List.get_eq_getElem] at this
      simp only [hR, List.getElem_zipWith]
      exact (Nat.mul_div_cancel' this).symm
    have hfin := C67_tile_contiguous P.reverse R.reverse L.reverse t mesh proc h2 (by simp [hRl]) (by simp; omega)
      (by rw [hts, hmul, List.reverse_zipWith (by simp [hRl])]) ?_ ?_
    · rw [hb] at hfin
      injection hfin
    · rw [zip_zip_reverse _ _ _ (by omega) (by omega)]
      intro prl hprl
      rw [List.mem_reverse] at hprl
      obtain ⟨i, hi, rfl⟩ := List.getElem_of_mem hprl
      have hi' : i < hw.shape.length := by simp at hi; omega
      simp only [List.getElem_zip]
      have := hc i hi'
      rw [List.getD_eq_getElem _ _ (by omega), List.getD_eq_getElem _ _ (by omega), List.getD_eq_getElem _ _ hi'] at this
      rcases this with h | h | h
      · exact .inl h
      · exact .inr (.inr h)
      · right; left
        simp only [hR, List.getElem_zipWith]
        rw [h]
        exact Nat.div_self (hpos _ (List.getElem_mem _))
    · intro idx idx' hv hv'
      rw [hts] at hv hv'
      have v := valid_reverse hv
      have v' := valid_reverse hv'
      rw [List.reverse_reverse] at v v'
      have e := reverse_get ht idx.reverse (by simpa using hv.length)
      have e' := reverse_get ht idx'.reverse (by simpa using hv'.length)
      rw [List.reverse_reverse] at e e'
      rw [e, e', hproc _ _ v v']
      have l1 := hv.length
      have l2 := hv'.length
      rw [List.length_reverse] at l1 l2
      have r1 : List.zipWith (· / ·) idx L.reverse = (List.zipWith (· / ·) idx.reverse L).reverse := by
        rw [List.reverse_zipWith (by simp; omega), List.reverse_reverse]
      have r2 : List.zipWith (· / ·) idx' L.reverse = (List.zipWith (· / ·) idx'.reverse L).reverse := by
        rw [List.reverse_zipWith (by simp; omega), List.reverse_reverse]
      rw [r1, r2, List.reverse_inj]

/-- A case of `C67_logical_mesh` where the default mesh is not contiguous: two processes own the rows of a 2x2 mesh that is split
in four partitions. -/
example : let hw : NdArray Nat := ⟨[2, 2], fun idx => 2 * idx.getD 0 0 + idx.getD 1 0⟩
    (getLogicalMesh (· / 2) [[0, 0], [0, 1]] [2, 2] hw).map (fun m => (m.shape, (allIndices m.shape).map m.get)) =
      .ok ([4, 1], [0, 1, 2, 3]) ∧
    List.Forall₂ (fun l s => 0 < l ∧ l ∣ s) [1, 2] hw.shape ∧
    (∀ idx idx', Valid hw.shape idx → Valid hw.shape idx' →
      (hw.get idx / 2 = hw.get idx' / 2 ↔ List.zipWith (· / ·) idx [1, 2] = List.zipWith (· / ·) idx' [1, 2])) := by
  refine ⟨by decide +kernel, .cons (by decide) (.cons (by decide) .nil), fun idx idx' h h' => ?_⟩
  match idx, idx', h.length, h'.length with
  | [a, b], [a', b'], _, _ =>
    have v : a < 2 ∧ b < 2 := by simpa [Valid] using h
    have v' : a' < 2 ∧ b' < 2 := by simpa [Valid] using h'
    simp only [List.getD_cons_zero, List.getD_cons_succ, List.zipWith_cons_cons, List.zipWith_nil_left, List.cons.injEq,
      and_true]
    omega

end Verif.Partitioning
