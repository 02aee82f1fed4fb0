import Verif.Model.Placement
import Verif.Props.Layout
import Verif.Props.MeshOther

/-! C143: which device holds which expert. -/

namespace Verif.Placement

open Verif Partitioning Layout NdArray

variable {α : Type}

/-- Spec: the device has the entries of expert `e` of the array: it is at some position of the mesh, and `e` is in the slice of the
first dimension at that position. -/
def Holds (mesh : NdArray (Option α)) (spec : List SpecElem) (dims : List Nat) (d : α) (e : Nat) : Prop :=
  ∃ pos, Valid mesh.shape pos ∧ mesh.get pos = some d ∧
    ∃ lo hi rest, slices mesh.shape pos spec dims = (lo, hi) :: rest ∧ lo ≤ e ∧ e < hi

theorem valid_two {a b : Nat} {idx : List Nat} (h : Valid [a, b] idx) : ∃ i j, idx = [i, j] ∧ i < a ∧ j < b := by
  unfold Valid at h
  cases h with
  | cons h1 h =>
    cases h with
    | cons h2 h =>
      cases h
      exact ⟨_, _, rfl, h1, h2⟩

/-- C143: the attacks and the training use the same mesh. -/
theorem C143_attack_mesh (tpu : Bool) (proc : α → Nat) (coords : α → List Nat) (lc : List (List Nat)) (n : Nat) (devices : List α) :
    createMesh tpu proc coords lc n devices = getAutoLogicalMesh tpu proc coords lc n devices := by
  unfold createMesh getAutoLogicalMesh
  have : capPartitions (if n > devices.length then devices.length else n) devices.length = capPartitions n devices.length := by
    unfold capPartitions
    split
    · split <;> omega
    · rfl
  simp only [this]

/-- The devices are exactly the entries of the mesh. -/
theorem devices_perm (devices : List α) (mesh : NdArray (Option α)) (P r : Nat) (hs : mesh.shape = [P, r]) (hnd : devices.Nodup)
    (h1 : ∀ d ∈ devices, ∃! idx, Valid mesh.shape idx ∧ mesh.get idx = some d)
    (h2 : ∀ idx, Valid mesh.shape idx → ∃ d ∈ devices, mesh.get idx = some d) :
    (devices.map some).Perm (((List.range P).product (List.range r)).map fun ij => mesh.get [ij.1, ij.2]) := by
  rw [hs] at h1 h2
  have hv : ∀ {i j}, i < P → j < r → Valid [P, r] [i, j] := fun hi hj => .cons hi (.cons hj .nil)
  rw [List.perm_ext_iff_of_nodup]
  · intro o
    simp only [List.mem_map, Prod.exists, List.pair_mem_product, List.mem_range]
    constructor
    · rintro ⟨d, hd, rfl⟩
      obtain ⟨idx, ⟨v, g⟩, _⟩ := h1 d hd
      obtain ⟨i, j, rfl, hi, hj⟩ := valid_two v
      exact ⟨i, j, ⟨hi, hj⟩, g⟩
    · rintro ⟨i, j, ⟨hi, hj⟩, rfl⟩
      obtain ⟨d, hd, g⟩ := h2 _ (hv hi hj)
      exact ⟨d, hd, g.symm⟩
  · exact hnd.map (Option.some_injective _)
  · refine List.Nodup.map_on ?_ (List.Nodup.product List.nodup_range List.nodup_range)
    rintro ⟨i, j⟩ hij ⟨i', j'⟩ hij' e
    simp only [List.pair_mem_product, List.mem_range] at hij hij'
    obtain ⟨d, hd, g⟩ := h2 _ (hv hij.1 hij.2)
    obtain ⟨_, _, u⟩ := h1 d hd
    have a := u _ ⟨hv hij.1 hij.2, g⟩
    have b := u _ ⟨hv hij'.1 hij'.2, e ▸ g⟩
    have := a.trans b.symm
    simp only [List.cons.injEq, and_true] at this
    rw [this.1, this.2]

theorem slices_expert (shape pos : List Nat) (E : Nat) (rest : List Nat) :
    slices shape pos [.axis "expert".toList] (E :: rest) =
      (pos.getD 0 0 * (E / shape.getD 0 0), (pos.getD 0 0 + 1) * (E / shape.getD 0 0)) :: rest.map fun n => (0, n) := by
  simp only [slices, blockIndex, pieces, onAxis, if_true]

theorem in_block {e i q : Nat} (hq : 0 < q) : i * q ≤ e ∧ e < (i + 1) * q ↔ e / q = i := by
  rw [Nat.div_eq_iff hq, Nat.add_mul]
  constructor <;> intro h <;> constructor <;> omega

/-- C143: the parameters of `E` experts on any number of devices, with the mesh of the configurations. The mesh has
`min E (number of devices)` rows. If that divides `E`, every device has the same number of whole experts, consecutive ones, and every
expert is on the same number of devices. -/
theorem C143_experts (tpu : Bool) (proc : α → Nat) (coords : α → List Nat) (lc : List (List Nat)) (E : Nat) (hE : 0 < E)
    (devices : List α) (box : List Nat) (hpos : ∀ s ∈ box, 0 < s) (hnd : (devices.map coords).Nodup)
    (hfull : ∀ c, c ∈ devices.map coords ↔ Valid box c) (mesh : NdArray (Option α))
    (h : getAutoLogicalMesh tpu proc coords lc (numExpertPartitions (some E)) devices = .ok mesh)
    (path : List FlatDict.Key) (rest : List Nat) (spec : List SpecElem) (hsplit : Split true path (E :: rest) spec)
    (hpath : OfExperts path) (hsize : 1 < (E :: rest).prod) :
    ∃ P r, P = min E devices.length ∧ P * r = devices.length ∧ mesh.shape = [P, r] ∧
      (¬ P ∣ E → shardShape (onAxis mesh.shape) spec (E :: rest) = .error .valueError) ∧
      (P ∣ E → shardShape (onAxis mesh.shape) spec (E :: rest) = .ok (E / P :: rest) ∧
        (∀ d ∈ devices, ∃ i < P, ∀ e, Holds mesh spec (E :: rest) d e ↔ i * (E / P) ≤ e ∧ e < (i + 1) * (E / P)) ∧
        ∀ e < E, ∃ holders : List α, holders.Nodup ∧ holders.length = r ∧
          ∀ d, d ∈ holders ↔ d ∈ devices ∧ Holds mesh spec (E :: rest) d e) := by
  obtain ⟨⟨r, hs⟩, h1, h2⟩ := C42_auto_mesh tpu proc coords lc E devices box hE hpos hnd hfull mesh h
  have hdn : devices.Nodup := List.Nodup.of_map _ hnd
  have hperm := devices_perm devices mesh _ r hs hdn h1 h2
  have hlen : min E devices.length * r = devices.length := by
    have := hperm.length_eq
    rw [List.length_map, List.length_map] at this
    exact (this.trans ((List.length_product ..).trans (by rw [List.length_range, List.length_range]))).symm
  have hparts := C142_parts (onAxis mesh.shape) path E rest spec hsplit hpath hsize
  have hax : onAxis mesh.shape "expert".toList = min E devices.length := by rw [hs]; rfl
  rw [hax] at hparts
  obtain rfl : spec = [.axis "expert".toList] := split_unique hsplit (.inl ⟨rfl, hpath, hsize, rfl⟩)
  generalize hP : min E devices.length = P at *
  refine ⟨P, r, rfl, hlen, hs, hparts.2, fun hd => ⟨(hparts.1 hd).1, ?_, ?_⟩⟩
  all_goals
    have hPpos : 0 < P := Nat.pos_of_dvd_of_pos hd hE
    have hq : 0 < E / P := Nat.div_pos (Nat.le_of_dvd hE hd) hPpos
  · intro d hdm
    obtain ⟨idx, ⟨hv, hg⟩, hu⟩ := h1 d hdm
    have hv' := hv
    rw [hs] at hv'
    obtain ⟨i, j, rfl, hi, hj⟩ := valid_two hv'
    refine ⟨i, hi, fun e => ?_⟩
    constructor
    · rintro ⟨pos, pv, pg, lo, hi', tl, hsl, h3, h4⟩
      rw [hu pos ⟨pv, pg⟩, slices_expert, hs] at hsl
      simp only [List.getD_cons_zero, List.cons.injEq, Prod.mk.injEq] at hsl
      rw [hsl.1.1, hsl.1.2]
      exact ⟨h3, h4⟩
    · rintro ⟨h3, h4⟩
      refine ⟨[i, j], hv, hg, _, _, _, slices_expert _ _ _ _, ?_⟩
      rw [hs]
      exact ⟨h3, h4⟩
  · intro e he
    have hrow : e / (E / P) < P := by
      rw [Nat.div_lt_iff_lt_mul hq, Nat.mul_comm, Nat.div_mul_cancel hd]
      exact he
    have hval : ∀ j < r, Valid mesh.shape [e / (E / P), j] := fun j hj => hs ▸ .cons hrow (.cons hj .nil)
    have hex : ∀ j : Fin r, ∃ d ∈ devices, mesh.get [e / (E / P), j] = some d := fun j => h2 _ (hval j j.2)
    choose f hf hg using hex
    refine ⟨List.ofFn f, ?_, by simp, ?_⟩
    · rw [List.nodup_ofFn]
      intro j j' hjj
      obtain ⟨_, _, u⟩ := h1 (f j) (hf j)
      have := (u _ ⟨hval j j.2, hg j⟩).trans (u _ ⟨hval j' j'.2, hjj ▸ hg j'⟩).symm
      simp only [List.cons.injEq, and_true, true_and] at this
      exact Fin.ext this
    · intro d
      rw [List.mem_ofFn]
      constructor
      · rintro ⟨j, rfl⟩
        refine ⟨hf j, _, hval j j.2, hg j, _, _, _, slices_expert _ _ _ _, ?_⟩
        rw [hs]
        exact (in_block hq).2 rfl
      · rintro ⟨hdm, pos, pv, pg, lo, hi', tl, hsl, h3, h4⟩
        have pv' := pv
        rw [hs] at pv'
        obtain ⟨i, j, rfl, hi, hj⟩ := valid_two pv'
        rw [slices_expert, hs] at hsl
        simp only [List.getD_cons_zero, List.cons.injEq, Prod.mk.injEq] at hsl
        rw [← hsl.1.1] at h3
        rw [← hsl.1.2] at h4
        obtain rfl := (in_block hq).1 ⟨h3, h4⟩
        refine ⟨⟨j, hj⟩, ?_⟩
        have := (hg ⟨j, hj⟩).symm.trans pg
        injection this

/-- C143: with at least as many devices as experts, every device has exactly one expert, and the experts are never refused. -/
theorem C143_one_expert (tpu : Bool) (proc : α → Nat) (coords : α → List Nat) (lc : List (List Nat)) (E : Nat) (hE : 0 < E)
    (devices : List α) (box : List Nat) (hpos : ∀ s ∈ box, 0 < s) (hnd : (devices.map coords).Nodup)
    (hfull : ∀ c, c ∈ devices.map coords ↔ Valid box c) (mesh : NdArray (Option α))
    (h : getAutoLogicalMesh tpu proc coords lc (numExpertPartitions (some E)) devices = .ok mesh)
    (path : List FlatDict.Key) (rest : List Nat) (spec : List SpecElem) (hsplit : Split true path (E :: rest) spec)
    (hpath : OfExperts path) (hsize : 1 < (E :: rest).prod) (hmany : E ≤ devices.length) :
    shardShape (onAxis mesh.shape) spec (E :: rest) = .ok (1 :: rest) ∧
    ∀ d ∈ devices, ∃ i < E, ∀ e, Holds mesh spec (E :: rest) d e ↔ e = i := by
  obtain ⟨P, r, hP, _, _, _, h3⟩ := C143_experts tpu proc coords lc E hE devices box hpos hnd hfull mesh h path rest spec hsplit
    hpath hsize
  rw [Nat.min_eq_left hmany] at hP
  subst hP
  obtain ⟨h4, h5, _⟩ := h3 (Nat.dvd_refl _)
  rw [Nat.div_self hE] at h4 h5
  refine ⟨h4, fun d hd => ?_⟩
  obtain ⟨i, hi, h6⟩ := h5 d hd
  refine ⟨i, hi, fun e => ?_⟩
  rw [h6]
  omega

/-- C143: with fewer devices than experts, `H` processes with `D` CPUs or GPUs each: the mesh is made, with one row for each device,
but the parameters of the experts can be placed on it only if the number of devices divides the number of experts. -/
theorem C143_few_devices (E D H : Nat) (hD : 0 < D) (hH : 0 < H) (hfew : H * D ≤ E) (id proc : α → Nat) (devices : List α)
    (hid : (devices.map id).Perm (List.range (H * D))) (hproc : ∀ d ∈ devices, proc d = id d / D)
    (path : List FlatDict.Key) (rest : List Nat) (spec : List SpecElem) (hsplit : Split true path (E :: rest) spec)
    (hpath : OfExperts path) (hsize : 1 < (E :: rest).prod) :
    ∃ mesh, (∀ lc, getAutoLogicalMesh false proc (fun d => getDeviceCoordsOther D (id d) (proc d)) lc
        (numExpertPartitions (some E)) devices = .ok mesh) ∧ mesh.shape = [H * D, 1] ∧
      (H * D ∣ E → shardShape (onAxis mesh.shape) spec (E :: rest) = .ok (E / (H * D) :: rest)) ∧
      (¬ H * D ∣ E → shardShape (onAxis mesh.shape) spec (E :: rest) = .error .valueError) := by
  have hN : 0 < H * D := Nat.mul_pos hH hD
  obtain ⟨mesh, p, r, q, s, e1, e2, e3, _, h4, h5, _⟩ := (C86_auto_mesh E D H (by omega) hD hH id proc devices hid hproc (H * D)
    (by omega)).1 (.inr ⟨Nat.dvd_mul_left _ _, by rw [Nat.mul_div_cancel _ hD]⟩)
  have hsr : s * r = 1 := by
    have : (p * q) * (s * r) = H * D := by rw [← e1, ← e2]; ring
    rw [e3] at this
    exact Nat.eq_of_mul_eq_mul_left hN (by omega)
  have hax : onAxis mesh.shape "expert".toList = H * D := by rw [h5]; rfl
  have hparts := C142_parts (onAxis mesh.shape) path E rest spec hsplit hpath hsize
  rw [hax] at hparts
  exact ⟨mesh, h4, by rw [h5, hsr], fun hd => (hparts.1 hd).1, hparts.2⟩

/-- C143: everything else, and everything in models without experts, is whole on every device. -/
theorem C143_whole (experts : Bool) (mesh : NdArray (Option α)) (pos : List Nat) (path : List FlatDict.Key) (dims : List Nat)
    (spec : List SpecElem) (hsplit : Split experts path dims spec) (hw : experts = false ∨ ¬ OfExperts path ∨ dims.prod ≤ 1) :
    slices mesh.shape pos spec dims = dims.map (fun n => (0, n)) ∧ shardShape (onAxis mesh.shape) spec dims = .ok dims := by
  obtain rfl : spec = [] := split_unique hsplit (.inr ⟨hw, rfl⟩)
  exact ⟨by cases dims <;> rfl, C142_whole experts _ path dims [] hsplit hw⟩

/-- Eight experts on 6 GPUs: the mesh is made (a smaller number of partitions is only logged), but the parameters are refused;
on 4 GPUs every GPU has two experts, and on 16 every expert is on two of them. -/
example : (getAutoLogicalMesh false (fun _ : Nat => 0) (fun d => getDeviceCoordsOther 6 d 0) [] 8 (List.range 6)).map (·.shape) =
    .ok [6, 1] ∧ shardShape (onAxis [6, 1]) [.axis "expert".toList] [8, 4, 16] = .error .valueError := by
  constructor <;> decide +kernel

example : (getAutoLogicalMesh false (fun _ : Nat => 0) (fun d => getDeviceCoordsOther 4 d 0) [] 8 (List.range 4)).map
    (fun m => (m.shape, m.get [1, 0])) = .ok ([4, 1], some 1) ∧
    slices [4, 1] [1, 0] [.axis "expert".toList] [8, 4, 16] = [(2, 4), (0, 4), (0, 16)] := by
  constructor <;> decide +kernel

example : (getAutoLogicalMesh false (fun _ : Nat => 0) (fun d => getDeviceCoordsOther 16 d 0) [] 8 (List.range 16)).map
    (fun m => (m.shape, m.get [3, 0], m.get [3, 1])) = .ok ([8, 2], some 6, some 7) ∧
    slices [8, 2] [3, 1] [.axis "expert".toList] [8, 4, 16] = [(3, 4), (0, 4), (0, 16)] := by
  constructor <;> decide +kernel

example : ((List.range 4).map fun d => getDeviceCoordsOther 4 d 0).Nodup ∧
    ∀ c, c ∈ (List.range 4).map (fun d => getDeviceCoordsOther 4 d 0) ↔ Valid [4, 1] c := by
  refine ⟨by decide, fun c => ⟨fun h => ?_, fun h => ?_⟩⟩
  · have : ∀ c ∈ (List.range 4).map (fun d => getDeviceCoordsOther 4 d 0), ∃ i < 4, c = [i, 0] := by decide
    obtain ⟨i, hi, rfl⟩ := this c h
    exact .cons hi (.cons (by omega) .nil)
  · obtain ⟨i, j, rfl, hi, hj⟩ := valid_two h
    obtain rfl : j = 0 := by omega
    have : ∀ i < 4, [i, 0] ∈ (List.range 4).map (fun d => getDeviceCoordsOther 4 d 0) := by decide
    exact this i hi

end Verif.Placement
