import Verif.Proofs.LogicalMesh
import Verif.Proofs.HardwareMesh
import Mathlib.Tactic.IntervalCases

/-! C40-C43, C66, C67: device meshes and partitioning rules. -/

namespace Verif.Partitioning

open Verif NdArray MeshSpec

variable {α : Type}

/-- C40: the default logical mesh has one row per partition and contains every device of the hardware mesh exactly
once. -/
theorem C40_default (P R : List Nat) (hw mesh : NdArray α) (h : getLogicalMeshDefault P R hw = .ok mesh) :
    Arranges mesh hw ∧ mesh.shape = [P.prod, R.prod] := default_arranges h

/-- C40: so does the mesh tiled by process. -/
theorem C40_tile (P R L : List Nat) (hw mesh : NdArray α) (h : getLogicalMeshTileByProcess P R hw L = .ok mesh) :
    Arranges mesh hw ∧ mesh.shape = [P.prod, R.prod] := tile_arranges h

/-- C40: in the default mesh, the device at hardware coordinates `i * r + j` on every axis, for partition coordinates
`i` and replica coordinates `j`, is at the row of the partition coordinates and the column of the replica
coordinates. -/
theorem C40_default_position (P R : List Nat) (hw mesh : NdArray α) (h : getLogicalMeshDefault P R hw = .ok mesh)
    (hl : P.length = R.length) (hshape : hw.shape = List.zipWith (· * ·) P R) (I J : List Nat) (hI : Valid P I)
    (hJ : Valid R J) :
    mesh.get [flatIndex P I, flatIndex R J] =
      hw.get ((I.zip (R.zip J)).map fun irj => irj.1 * irj.2.1 + irj.2.2) :=
  default_get h hl hshape I J hI hJ

/-- A 2x4 hardware mesh of numbered devices. -/
def demoMesh : NdArray Nat := { shape := [2, 4], get := fun idx => 4 * idx.getD 0 0 + idx.getD 1 0 }

example : (getLogicalMeshDefault [2, 2] [1, 2] demoMesh).map
    (fun m => (m.shape, (allIndices m.shape).map m.get)) = .ok ([4, 2], [0, 1, 2, 3, 4, 5, 6, 7]) := by
  decide +kernel

example : (getLogicalMeshTileByProcess [2, 2] [1, 2] demoMesh [2, 1]).map
    (fun m => (m.shape, (allIndices m.shape).map m.get)) = .ok ([4, 2], [0, 1, 4, 5, 2, 3, 6, 7]) := by
  decide +kernel

example : Valid [2, 2] [1, 0] ∧ Valid [1, 2] [0, 1] ∧
    (getLogicalMeshDefault [2, 2] [1, 2] demoMesh).map (fun m => m.get [flatIndex [2, 2] [1, 0], flatIndex [1, 2] [0, 1]]) =
      .ok 5 := by
  refine ⟨by simp [Valid], by simp [Valid], by decide +kernel⟩

/-- C40: the mesh returned by `get_logical_mesh`.  Its number of rows is the number of partitions, every partition count
divides the size of its axis, and every device is there exactly once. -/
theorem C40_logical_mesh (proc : α → Nat) (lc : List (List Nat)) (P : List Nat) (hw mesh : NdArray α)
    (hpos : ∀ s ∈ hw.shape, 0 < s) (h : getLogicalMesh proc lc P hw = .ok mesh) :
    Arranges mesh hw ∧ (∃ r, mesh.shape = [P.prod, r] ∧ P.prod * r = hw.shape.prod) ∧
      List.Forall₂ (fun p s => p ∣ s) P hw.shape := by
  obtain ⟨hlen, hP, t, d, ht, hts, hd, hm⟩ := logical_steps h
  have hta := transpose_arranges ht
  set R := List.zipWith (fun p s => s / p) P hw.shape with hR
  have hRl : R.length = P.length := by simp [hR, hlen]
  have hPr : P.reverse.prod = P.prod := (List.reverse_perm P).prod_eq
  have hRr : R.reverse.prod = R.prod := (List.reverse_perm R).prod_eq
  obtain ⟨d1, d2, s1, _, _⟩ := default_steps hd
  have hprod := (reshape_shape s1).2
  rw [zip_prod _ _ (by simp [hRl]), zipWith_mul_prod _ _ (by simp [hRl]), hPr, hRr, hts,
    (List.reverse_perm hw.shape).prod_eq] at hprod
  have hmesh : Arranges mesh t ∧ mesh.shape = [P.reverse.prod, R.reverse.prod] := by
    rcases hm with ⟨_, rfl⟩ | ⟨_, hm⟩
    · exact default_arranges hd
    · exact tile_arranges hm
  refine ⟨Arranges.trans hmesh.1 hta, ⟨R.prod, by rw [hmesh.2, hPr, hRr], hprod⟩, ?_⟩
  exact prod_div_eq P hw.shape hlen hpos hprod

example : (getLogicalMesh (fun d => d / 4) [[0, 0], [0, 1]] [1, 2] demoMesh).map
    (fun m => (m.shape, (allIndices m.shape).map m.get)) = .ok ([2, 4], [0, 4, 1, 5, 2, 6, 3, 7]) := by
  decide +kernel

/-- C40: every device, when devices are different, is at exactly one position of the logical mesh. -/
theorem C40_exactly_once (proc : α → Nat) (lc : List (List Nat)) (P : List Nat) (hw mesh : NdArray α)
    (hpos : ∀ s ∈ hw.shape, 0 < s) (h : getLogicalMesh proc lc P hw = .ok mesh)
    (hinj : ∀ i j, Valid hw.shape i → Valid hw.shape j → hw.get i = hw.get j → i = j)
    (i : List Nat) (hi : Valid hw.shape i) :
    ∃! idx, Valid mesh.shape idx ∧ mesh.get idx = hw.get i := by
  obtain ⟨φ, hφ, hg⟩ := (C40_logical_mesh proc lc P hw mesh hpos h).1
  obtain ⟨idx, hidx, e⟩ := hφ.surjOn hi
  refine ⟨idx, ⟨hidx, by rw [hg idx hidx, e]⟩, ?_⟩
  rintro idx' ⟨hv, he⟩
  rw [hg idx' hv] at he
  have := hinj _ _ (hφ.mapsTo hv) hi he
  exact hφ.injOn hv hidx (this.trans e.symm)

example (i j : List Nat) (hi : Valid demoMesh.shape i) (hj : Valid demoMesh.shape j)
    (h : demoMesh.get i = demoMesh.get j) : i = j := by
  apply flatIndex_inj hi hj
  have e : ∀ i, Valid demoMesh.shape i → flatIndex demoMesh.shape i = demoMesh.get i := by
    intro i hi
    have hl := hi.length
    match i, hl with
    | [a, b], _ => simp [demoMesh, flatIndex, Nat.mul_comm]
  rw [e i hi, e j hj, h]

/-- C40: partition counts that do not divide the mesh raise `ValueError`. -/
theorem C40_rejects (proc : α → Nat) (lc : List (List Nat)) (P : List Nat) (hw : NdArray α)
    (hpos : ∀ s ∈ hw.shape, 0 < s) (hP : ∀ p ∈ P, p ≠ 0)
    (hbad : ¬ List.Forall₂ (fun p s => p ∣ s) P hw.shape) :
    getLogicalMesh proc lc P hw = .error .valueError := by
  unfold getLogicalMesh
  rw [floorDiv_mapM_ok hP]
  change (if P.length ≠ hw.shape.length then _ else _) = _
  split
  · rfl
  · rename_i hlen
    have hlen : P.length = hw.shape.length := by simpa using hlen
    obtain ⟨t, ht, hts⟩ := transpose_reverse hw
    rw [ht]
    change (getLogicalMeshDefault _ _ t >>= _) = _
    set R := List.zipWith (fun p s => s / p) P hw.shape with hR
    have hRl : R.length = P.length := by simp [hR, hlen]
    have hPr : P.reverse.prod = P.prod := (List.reverse_perm P).prod_eq
    have hRr : R.reverse.prod = R.prod := (List.reverse_perm R).prod_eq
    rw [default_error]
    · rfl
    · intro e
      have : P = [] := by simpa using e
      subst this
      have hs : hw.shape = [] := List.length_eq_zero_iff.1 (by simpa using hlen.symm)
      rw [hs] at hbad
      exact hbad .nil
    · simp [hRl]
    · intro e
      rw [hPr, hRr, hts, (List.reverse_perm hw.shape).prod_eq] at e
      exact hbad (prod_div_eq P hw.shape hlen hpos e)

example : ¬ List.Forall₂ (fun p s : Nat => p ∣ s) [2, 3] demoMesh.shape ∧
    ¬ List.Forall₂ (fun p s : Nat => p ∣ s) [2] demoMesh.shape := by
  constructor
  · intro h
    cases h with
    | cons _ h => cases h with
      | cons h _ => revert h; decide
  · intro h
    have := h.length_eq
    simp [demoMesh] at this

/-- C40: partition counts that divide the mesh are always accepted by the default mesh, and by `get_logical_mesh` when
the default mesh is contiguous for every process. -/
theorem C40_accepts (P R : List Nat) (hw : NdArray α) (hne : P ≠ []) (hl : P.length = R.length)
    (hshape : hw.shape = List.zipWith (· * ·) P R) : ∃ mesh, getLogicalMeshDefault P R hw = .ok mesh := by
  apply default_exists P R hw hne hl
  · rw [hshape]; simp [hl]
  · rw [hshape, zipWith_mul_prod P R hl]

example : [2, 2] ≠ [] ∧ [2, 2].length = [1, 2].length ∧ demoMesh.shape = List.zipWith (· * ·) [2, 2] [1, 2] := by
  simp [demoMesh]

/-- C41: for a process with at least one device in the mesh, the check returns true exactly when the positions of its
devices form a rectangular block. -/
theorem C41_contiguous (proc : α → Nat) (devices : NdArray α) (process : Nat)
    (hex : ∃ idx, Valid devices.shape idx ∧ proc (devices.get idx) = process) :
    ∃ b, processHasContiguousDeviceSlice proc devices process = .ok b ∧
      (b = true ↔ IsBlock devices.shape fun idx => proc (devices.get idx) = process) :=
  contiguous_spec proc devices process hex

example : ∃ idx, Valid demoMesh.shape idx ∧ (fun d => d / 4) (demoMesh.get idx) = 1 :=
  ⟨[1, 2], by simp [demoMesh, Valid], rfl⟩

example : processHasContiguousDeviceSlice (fun d => d / 4) demoMesh 1 = .ok true ∧
    processHasContiguousDeviceSlice (fun d => d % 2) demoMesh 1 = .ok false := by
  constructor <;> decide +kernel

/-- C41: a process without devices in the mesh raises `ValueError`. -/
theorem C41_no_devices (proc : α → Nat) (devices : NdArray α) (process : Nat) (hd : devices.shape ≠ [])
    (hno : ∀ idx, Valid devices.shape idx → proc (devices.get idx) ≠ process) :
    processHasContiguousDeviceSlice proc devices process = .error .valueError :=
  contiguous_none proc devices process hd hno

example : demoMesh.shape ≠ [] ∧ ∀ idx, Valid demoMesh.shape idx → (fun _ => 0) (demoMesh.get idx) ≠ 7 :=
  ⟨by simp [demoMesh], by simp⟩

/-- C41: the check of all processes never raises, and is true exactly when the devices of every process that occurs in
the mesh form a block. -/
theorem C41_all_processes (proc : α → Nat) (devices : NdArray α) :
    ∃ b, processesHaveContiguousDeviceSlices proc devices = .ok b ∧
      (b = true ↔ ∀ idx, Valid devices.shape idx →
        IsBlock devices.shape fun idx' => proc (devices.get idx') = proc (devices.get idx)) :=
  processes_spec proc devices

example : processesHaveContiguousDeviceSlices (fun d => d / 4) demoMesh = .ok true ∧
    processesHaveContiguousDeviceSlices (fun d => d % 2) demoMesh = .ok false := by
  constructor <;> decide +kernel

/-- C42: on CPU and GPU the automatic shape is found exactly when taking as many partitions as possible within a process
leaves factors that divide the mesh; its product is the number of partitions. -/
theorem C42_other (n sd sh : Nat) (hn : 0 < n) (hsd : 0 < sd) (hsh : 0 < sh) :
    (∀ ps, autoPartitionsOther n [sd, sh] = .ok ps ↔
      ∃ d h, ps = [d, h] ∧ d = min n sd ∧ d * h = n ∧ d ∣ sd ∧ h ∣ sh) ∧
    (∀ e, autoPartitionsOther n [sd, sh] = .error e → e = .valueError) :=
  ⟨autoOther_iff n sd sh hn hsd hsh, fun e h => autoOther_error n sd sh hn hsd e h⟩

example : autoPartitionsOther 8 [4, 6] = .ok [4, 2] ∧ autoPartitionsOther 6 [4, 3] = .error .valueError := by
  constructor <;> decide +kernel

/-- C42: on TPU the automatic shape divides the mesh on every axis and its product is the number of partitions; the
only error is `ValueError`. -/
theorem C42_tpu (n sc sx sy sz : Nat) (hn : 0 < n) (hx : 0 < sx) (hy : 0 < sy) (hz : 0 < sz) :
    (∀ ps, autoPartitionsTpu n [sc, sx, sy, sz] = .ok ps →
      ps.prod = n ∧ List.Forall₂ (fun p s => p ∣ s) ps [sc, sx, sy, sz]) ∧
    (∀ e, autoPartitionsTpu n [sc, sx, sy, sz] = .error e → e = .valueError) := by
  obtain ⟨c, x, y, z, _, _, _, e⟩ := autoTpu_spec n sc sx sy sz hn hx hy hz
  rw [e]
  constructor
  · intro ps h
    split at h
    · cases h
    · rename_i hc
      push Not at hc
      obtain ⟨h1, h2, h3, h4, h5⟩ := hc
      injection h with h
      subst h
      refine ⟨?_, .cons (Nat.dvd_of_mod_eq_zero h2) (.cons (Nat.dvd_of_mod_eq_zero h3)
        (.cons (Nat.dvd_of_mod_eq_zero h4) (.cons (Nat.dvd_of_mod_eq_zero h5) .nil)))⟩
      simp only [List.prod_cons, List.prod_nil, Nat.mul_one]
      rw [← Nat.mul_assoc, ← Nat.mul_assoc]
      exact h1
  · intro e h
    split at h
    · injection h with h
      exact h.symm
    · cases h

/-- C42: the order in which TPU axes are used: without a z axis first x, then y, then the cores; otherwise first z, then
y, then x, then the cores; each as far as the size of the axis allows. -/
theorem C42_tpu_order (n sc sx sy sz c x y z : Nat) (hn : 0 < n) (hx : 0 < sx) (hy : 0 < sy) (hz : 0 < sz)
    (h : autoPartitionsTpu n [sc, sx, sy, sz] = .ok [c, x, y, z]) :
    (sz = 1 → z = 1 ∧ x = min n sx ∧ y = min (n / x) sy) ∧
    (sz ≠ 1 → z = min n sz ∧ y = min (n / z) sy ∧ x = min (n / (z * y)) sx) ∧
    c = min (n / (z * y * x)) sc := by
  obtain ⟨c', x', y', z', h1, h2, h3, e⟩ := autoTpu_spec n sc sx sy sz hn hx hy hz
  rw [e] at h
  split at h
  · cases h
  · injection h with h
    simp only [List.cons.injEq, and_true] at h
    obtain ⟨rfl, rfl, rfl, rfl⟩ := h
    exact ⟨h1, h2, h3⟩

example : autoPartitionsTpu 8 [2, 4, 4, 1] = .ok [1, 4, 2, 1] ∧ autoPartitionsTpu 16 [1, 4, 4, 8] = .ok [1, 1, 2, 8] ∧
    autoPartitionsTpu 3 [2, 4, 4, 1] = .error .valueError := by
  refine ⟨?_, ?_, ?_⟩ <;> decide +kernel

/-- C42: the automatic shape is not always found when one exists: a 4x3 mesh can be split into 6 = 2 * 3 partitions, and
`get_logical_mesh` accepts that shape, but the automatic choice raises. -/
theorem C42_greedy_counterexample :
    2 * 3 = 6 ∧ 2 ∣ 4 ∧ 3 ∣ 3 ∧ autoPartitionsOther 6 [4, 3] = .error .valueError ∧
    autoPartitionsTpu 12 [1, 8, 3, 1] = .error .valueError := by
  refine ⟨rfl, by decide, by decide, by decide +kernel, by decide +kernel⟩

/-- C42: the whole of `get_auto_logical_mesh`, for devices whose coordinates fill a box: when it returns, the mesh has one
row per partition (the number of partitions being limited to the number of devices) and holds every device at exactly
one position. -/
theorem C42_auto_mesh (tpu : Bool) (proc : α → Nat) (coords : α → List Nat) (lc : List (List Nat)) (n : Nat)
    (devices : List α) (shape : List Nat) (hn : 0 < n) (hpos : ∀ s ∈ shape, 0 < s)
    (hnd : (devices.map coords).Nodup) (hfull : ∀ c, c ∈ devices.map coords ↔ Valid shape c)
    (mesh : NdArray (Option α)) (h : getAutoLogicalMesh tpu proc coords lc n devices = .ok mesh) :
    (∃ r, mesh.shape = [min n devices.length, r]) ∧
    (∀ d ∈ devices, ∃! idx, Valid mesh.shape idx ∧ mesh.get idx = some d) ∧
    (∀ idx, Valid mesh.shape idx → ∃ d ∈ devices, mesh.get idx = some d) := by
  obtain ⟨hw, hhw, hs, hg⟩ := hardwareMesh_spec coords devices shape hpos hnd hfull
  unfold getAutoLogicalMesh at h
  simp only [] at h
  rw [hhw] at h
  change (if _ then _ else _) = _ at h
  split at h
  · cases h
  have hgc : ∀ c, Valid hw.shape c → ∃ d ∈ devices, coords d = c ∧ hw.get c = some d := by
    intro c hc
    rw [hs, ← hfull] at hc
    obtain ⟨d, hd, rfl⟩ := List.mem_map.1 hc
    exact ⟨d, hd, rfl, hg d hd⟩
  have hinj : ∀ i j, Valid hw.shape i → Valid hw.shape j → hw.get i = hw.get j → i = j := by
    intro i j hi hj e
    obtain ⟨d, _, rfl, e1⟩ := hgc i hi
    obtain ⟨d', _, rfl, e2⟩ := hgc j hj
    rw [e1, e2] at e
    injection e with e
    rw [e]
  have hcap : capPartitions n devices.length = min n devices.length := by
    unfold capPartitions; split <;> omega
  have hdpos : 0 < devices.length := by
    have : Valid shape (shape.map (· - 1)) := by
      clear hfull hs
      induction shape with
      | nil => exact .nil
      | cons s ss ih =>
        refine .cons ?_ (ih fun s hs => hpos s (by simp [hs]))
        have := hpos s (by simp)
        change s - 1 < s
        omega
    have := (hfull _).2 this
    obtain ⟨d, hd, _⟩ := List.mem_map.1 this
    exact List.length_pos_of_mem hd
  have hcpos : 0 < capPartitions n devices.length := by rw [hcap]; omega
  have hposw : ∀ s ∈ hw.shape, 0 < s := by rw [hs]; exact hpos
  obtain ⟨P, hP, hl⟩ : ∃ P, P.prod = capPartitions n devices.length ∧
      getLogicalMesh (fun o : Option α => (o.map proc).getD 0) lc P hw = .ok mesh := by
    split at h
    · unfold getAutoLogicalMeshTpu at h
      obtain ⟨P, hP, hl⟩ := ebind h
      refine ⟨P, ?_, hl⟩
      unfold autoPartitionsTpu at hP
      split at hP
      · rename_i sc sx sy sz he
        have hp := hposw
        rw [he] at hp
        simp only [List.mem_cons, List.not_mem_nil, or_false, forall_eq_or_imp, forall_eq] at hp
        exact ((C42_tpu _ sc sx sy sz hcpos hp.2.1 hp.2.2.1 hp.2.2.2).1 P hP).1
      · cases hP
    · unfold getAutoLogicalMeshOther at h
      obtain ⟨P, hP, hl⟩ := ebind h
      refine ⟨P, ?_, hl⟩
      unfold autoPartitionsOther at hP
      split at hP
      · rename_i sd sh he
        have hp := hposw
        rw [he] at hp
        simp only [List.mem_cons, List.not_mem_nil, or_false, forall_eq_or_imp, forall_eq] at hp
        obtain ⟨d, h, rfl, _, e, _⟩ := ((C42_other _ sd sh hcpos hp.1 hp.2).1 P).1 hP
        simpa using e
      · cases hP
  obtain ⟨⟨φ, hφ, hφg⟩, ⟨r, hr, _⟩, _⟩ := C40_logical_mesh _ lc P hw mesh hposw hl
  refine ⟨⟨r, by rw [hr, hP, hcap]⟩, ?_, ?_⟩
  · intro d hd
    have hv : Valid hw.shape (coords d) := by rw [hs, ← hfull]; exact List.mem_map.2 ⟨d, hd, rfl⟩
    have := C40_exactly_once _ lc P hw mesh hposw hl hinj (coords d) hv
    rwa [hg d hd] at this
  · intro idx hidx
    obtain ⟨d, hd, _, e⟩ := hgc (φ idx) (hφ.mapsTo hidx)
    exact ⟨d, hd, by rw [hφg idx hidx, e]⟩

/-- Four devices on two processes. -/
example : (getAutoLogicalMesh false (fun d : Nat => d / 2) (fun d => getDeviceCoordsOther 2 d (d / 2)) [[0, 0], [1, 0]] 2
    [0, 1, 2, 3]).map (fun m => (m.shape, (allIndices m.shape).map m.get)) =
      .ok ([2, 2], [some 0, some 2, some 1, some 3]) := by
  decide +kernel

/-- C66: when the coordinates of the devices fill a box without repetition, the hardware mesh has the shape of that box
and every device is at its coordinates. -/
theorem C66_hardware_mesh (coords : α → List Nat) (devices : List α) (shape : List Nat)
    (hpos : ∀ s ∈ shape, 0 < s) (hnd : (devices.map coords).Nodup)
    (hfull : ∀ c, c ∈ devices.map coords ↔ Valid shape c) :
    ∃ m, getHardwareMesh coords devices = .ok m ∧ m.shape = shape ∧
      ∀ d ∈ devices, m.get (coords d) = some d :=
  hardwareMesh_spec coords devices shape hpos hnd hfull

example : ([5, 4, 7, 6] : List Nat).Nodup ∧
    ∀ c, c ∈ [5, 4, 7, 6].map (fun d => getDeviceCoordsOther 2 d (d / 2 - 2)) ↔ Valid [2, 2] c := by
  refine ⟨by decide, fun c => ⟨fun h => ?_, fun h => ?_⟩⟩
  · simp only [List.map_cons, List.map_nil, getDeviceCoordsOther, List.mem_cons, List.not_mem_nil, or_false] at h
    rcases h with rfl | rfl | rfl | rfl <;> simp [Valid]
  · have hl := h.length
    match c, hl with
    | [a, b], _ =>
      have : a < 2 ∧ b < 2 := by simpa [Valid] using h
      obtain ⟨h1, h2⟩ := this
      interval_cases a <;> interval_cases b <;> simp [getDeviceCoordsOther]

/-- C66: the shape is taken from the largest coordinate tuple, not from the largest value on each axis: when processes
have different numbers of devices a device can fall outside the mesh. -/
theorem C66_irregular_counterexample :
    getHardwareMesh (fun c : List Nat => c) [[0, 0], [0, 1], [1, 0]] = .error .indexError := by
  rfl

/-- C66: devices with the same coordinates replace one another, so that the mesh silently loses devices (here the local
device count of the running process, 1, is not that of the other process). -/
theorem C66_collision_counterexample :
    (getHardwareMesh (fun d : Nat => getDeviceCoordsOther 1 d (if d = 0 then 0 else 1)) [0, 1, 2]).map
      (fun m => (m.shape, (allIndices m.shape).map m.get)) = .ok ([1, 2], [some 0, some 2]) := by
  decide +kernel

/-- C67: `get_logical_mesh_tile_by_process` gives a mesh where the devices of every process form a contiguous slice,
provided that the processes own aligned blocks of the hardware mesh of the given local shape and no axis has several
partitions, several replicas and several devices of one process. -/
theorem C67_tile_contiguous (P R L : List Nat) (hw mesh : NdArray α) (proc : α → Nat)
    (h : getLogicalMeshTileByProcess P R hw L = .ok mesh)
    (hl : P.length = R.length) (hL : L.length = P.length) (hshape : hw.shape = List.zipWith (· * ·) P R)
    (hc : ∀ prl ∈ (P.zip R).zip L, prl.2 = 1 ∨ prl.1.2 = 1 ∨ prl.1.1 = 1)
    (hproc : ∀ idx idx', Valid hw.shape idx → Valid hw.shape idx' →
      (proc (hw.get idx) = proc (hw.get idx') ↔ List.zipWith (· / ·) idx L = List.zipWith (· / ·) idx' L)) :
    processesHaveContiguousDeviceSlices proc mesh = .ok true := by
  obtain ⟨b, hb, hs⟩ := C41_all_processes proc mesh
  rw [hb, hs.2 (tile_contiguous h hl hL hshape hc hproc)]

/-- A 2x4 mesh with processes owning 2x2 blocks. -/
def demoProc (d : Nat) : Nat := d % 4 / 2

example : (getLogicalMeshTileByProcess [2, 1] [1, 4] demoMesh [2, 2]).map
    (fun m => (allIndices m.shape).map m.get) = .ok [0, 1, 2, 3, 4, 5, 6, 7] ∧
    (∀ prl ∈ ([2, 1].zip [1, 4]).zip [2, 2], prl.2 = 1 ∨ prl.1.2 = 1 ∨ prl.1.1 = 1) ∧
    demoMesh.shape = List.zipWith (· * ·) [2, 1] [1, 4] := by
  refine ⟨by decide +kernel, by simp, by simp [demoMesh]⟩

example (idx idx' : List Nat) (h : Valid demoMesh.shape idx) (h' : Valid demoMesh.shape idx') :
    demoProc (demoMesh.get idx) = demoProc (demoMesh.get idx') ↔
      List.zipWith (· / ·) idx [2, 2] = List.zipWith (· / ·) idx' [2, 2] := by
  have hl := h.length
  have hl' := h'.length
  match idx, idx', hl, hl' with
  | [a, b], [a', b'], _, _ =>
    have v : a < 2 ∧ b < 4 := by simpa [demoMesh, Valid] using h
    have v' : a' < 2 ∧ b' < 4 := by simpa [demoMesh, Valid] using h'
    simp only [demoProc, demoMesh, List.getD_cons_zero, List.getD_cons_succ, List.zipWith_cons_cons,
      List.zipWith_nil_left, List.cons.injEq, and_true]
    omega

/-- C67: without that proviso the documented claim fails: two processes owning the 2x2 blocks of a 2x4 mesh, split into 2x2
partitions; the tiled mesh is not contiguous, although its documentation says so, and `get_logical_mesh` returns it. -/
theorem C67_not_contiguous_counterexample :
    (∃ mesh, getLogicalMeshTileByProcess [2, 2] [1, 2] demoMesh [2, 2] = .ok mesh ∧
      processesHaveContiguousDeviceSlices demoProc mesh = .ok false) ∧
    (getLogicalMesh demoProc [[0, 0], [0, 1], [1, 0], [1, 1]] [2, 2]
      { shape := [4, 2], get := fun idx => demoMesh.get idx.reverse }).bind
        (processesHaveContiguousDeviceSlices demoProc) = .ok false := by
  constructor
  · have : (getLogicalMeshTileByProcess [2, 2] [1, 2] demoMesh [2, 2]).bind
        (processesHaveContiguousDeviceSlices demoProc) = .ok false := by decide +kernel
    cases h : getLogicalMeshTileByProcess [2, 2] [1, 2] demoMesh [2, 2] with
    | error e => rw [h] at this; cases this
    | ok mesh => rw [h] at this; exact ⟨mesh, rfl, this⟩
  · decide +kernel

open FlatDict

/-- What a user means by the spec of a rule: nothing written (`None`, an empty string, an empty tuple) is no partitioning,
a string is the one mesh axis of the first dimension, and a tuple or a `PartitionSpec` gives the dimensions in order. -/
inductive Means : UnparsedSpec → List SpecElem → Prop
  | none : Means .none []
  | empty : Means (.str []) []
  | axis (c : Char) (s : List Char) : Means (.str (c :: s)) [.axis (c :: s)]
  | tuple (elems : List SpecElem) : Means (.tuple elems) elems
  | parsed (elems : List SpecElem) : Means (.parsed elems) elems

theorem means_parse (u : UnparsedSpec) : Means u (parsePartitionSpec u) := by
  rcases u with _ | (_ | ⟨c, s⟩) | l | l
  · exact .none
  · exact .empty
  · exact .axis c s
  · exact .tuple l
  · exact .parsed l

/-- The partition spec a leaf must get: that of the first rule that matches its path if it has more than one element, and
no partitioning otherwise. -/
def LeafSpec {R : Type} (search : R → List Char → Bool) (regexes : List (R × UnparsedSpec)) (path : List Key)
    (shape : List Nat) (spec : List SpecElem) : Prop :=
  (∃ pre r post, regexes = pre ++ r :: post ∧ search r.1 (join path) = true ∧ 1 < shape.prod ∧
    (∀ q ∈ pre, search q.1 (join path) = false) ∧ Means r.2 spec) ∨
  ((shape.prod ≤ 1 ∨ ∀ r ∈ regexes, search r.1 (join path) = false) ∧ spec = [])

/-- C43: the result has the structure of the tree, and every leaf has the spec of the first rule that matches. -/
theorem C43_axis_resources {R : Type} (search : R → List Char → Bool) (tree : List (Key × Tree (List Nat)))
    (regexes : List (R × UnparsedSpec)) (hok : ItemsOk tree) :
    ∃ res, treeAxisResourcesFromRegexes search tree regexes = .ok res ∧
      TreeRel (LeafSpec search regexes) [] (.node tree) res := by
  refine ⟨_, treeAxisResources_eq search tree regexes hok, ?_⟩
  rw [TreeRel]
  apply mapItems_rel
  intro p shape
  unfold LeafSpec
  rcases searchRules_spec search (join p) shape.prod (regexes.map fun rs => (rs.1, parsePartitionSpec rs.2)) with
    ⟨pre, r, post, e, h1, h2, h3, h4⟩ | ⟨h1, h2⟩
  · left
    obtain ⟨pre', rest, e1, e2, e3⟩ := List.map_eq_append_iff.1 e
    obtain ⟨r', post', e4, e5, e6⟩ := List.map_eq_cons_iff.1 e3
    subst e2 e4 e5 e6
    refine ⟨pre', r', post', e1, h1, h2, ?_, h4 ▸ means_parse r'.2⟩
    intro q hq
    exact h3 (q.1, parsePartitionSpec q.2) (List.mem_map.2 ⟨q, hq, rfl⟩)
  · right
    refine ⟨?_, h2⟩
    rcases h1 with h1 | h1
    · exact Or.inl h1
    · right
      intro r hr
      exact h1 (r.1, parsePartitionSpec r.2) (List.mem_map.2 ⟨r, hr, rfl⟩)

/-- A dense layer and an MoE layer. -/
def demoTree : List (Key × Tree (List Nat)) :=
  [("dense".toList, .node [("kernel".toList, .leaf [5, 10])]),
   ("moe".toList, .node [("kernel".toList, .leaf [32, 10]), ("scale".toList, .leaf []), ("state".toList, .node [])])]

example : ItemsOk demoTree := by
  simp only [demoTree, ItemsOk, Tree.Ok, PyDict.keys]
  decide

/-- Substring search in place of regular expressions. -/
def hasInfix (r s : List Char) : Bool := decide (r <:+: s)

example : (treeAxisResourcesFromRegexes hasInfix demoTree
    [("moe/".toList, .tuple [.axis "expert".toList]), ("kernel".toList, .str "replica".toList)]) =
    .ok (.node [("dense".toList, .node [("kernel".toList, .leaf [.axis "replica".toList])]),
      ("moe".toList, .node [("kernel".toList, .leaf [.axis "expert".toList]), ("scale".toList, .leaf []),
        ("state".toList, .node [])])]) := by
  rw [treeAxisResources_eq _ _ _ (by simp only [demoTree, ItemsOk, Tree.Ok, PyDict.keys]; decide)]
  rfl

/-- C43: a key that contains the separator breaks the correspondence: the function raises `ValueError`. -/
theorem C43_separator_counterexample :
    treeAxisResourcesFromRegexes hasInfix [("a/b".toList, .leaf [3])] [] = .error .valueError := by
  rfl

end Verif.Partitioning
