import Mathlib.SetTheory.Cardinal.Finite
import Verif.Model.ExchangeLayout
import Verif.Proofs.MoeDispatch
import Verif.Props.Placement

/-!
C165: which device has which item before and after the exchange with the experts, and who sends what to whom
(vmoe/moe.py:481-519).
-/

namespace Verif.ExchangeLayout

open Verif Partitioning Placement Moe NdArray

variable {α : Type}

/-- Spec: an entry of an array is in the part given by these slices. -/
def InSlices (s : List (Nat × Nat)) (idx : List Nat) : Prop := List.Forall₂ (fun ab i => ab.1 ≤ i ∧ i < ab.2) s idx

/-- Spec: with this layout, the device at position `pos` of the mesh has the entry `idx` of an array. -/
def Has (shape pos : List Nat) (layout : List Nat × Option (List SpecElem)) (idx : List Nat) : Prop :=
  ∃ spec, layout.2 = some spec ∧ InSlices (slices shape pos spec layout.1) idx

/-- Spec: the row of the exchanged array with number `n` is slot `c` of group `g` for expert `e`. -/
def AtRow {G E C : Nat} (n : Fin (E * (G * C))) (g : Fin G) (e : Fin E) (c : Fin C) : Prop :=
  ∀ {M : Type} (x : Fin G → Fin E → Fin C → M), dispatchExchange x n.divNat n.modNat = x g e c

theorem inSlices_cons {ab : Nat × Nat} {s : List (Nat × Nat)} {i : Nat} {idx : List Nat} :
    InSlices (ab :: s) (i :: idx) ↔ (ab.1 ≤ i ∧ i < ab.2) ∧ InSlices s idx := List.forall₂_cons

theorem inSlices_whole (dims idx : List Nat) : InSlices (dims.map fun n => (0, n)) idx ↔ Valid dims idx := by
  unfold InSlices Valid
  rw [List.forall₂_map_left_iff]
  exact ⟨fun h => List.Forall₂.flip (h.imp fun _ _ h => h.2), fun h => List.Forall₂.flip (h.imp fun _ _ h => ⟨Nat.zero_le _, h⟩)⟩

/-- Both axes divide the first dimension. -/
theorem has_both {P r i j n x : Nat} {rest it : List Nat} (hq : 0 < n / (P * r)) :
    Has [P, r] [i, j] (n :: rest, some [.axes ["expert".toList, "replica".toList]]) (x :: it) ↔
      x / (n / (P * r)) = i * r + j ∧ Valid rest it := by
  have hs : slices [P, r] [i, j] [.axes ["expert".toList, "replica".toList]] (n :: rest) =
      ((i * r + j) * (n / (P * r)), (i * r + j + 1) * (n / (P * r))) :: rest.map fun n => (0, n) := by
    have h1 : onAxis [P, r] "expert".toList = P := by simp [onAxis]
    have h2 : onAxis [P, r] "replica".toList = r := by
      unfold onAxis
      rw [if_neg (by decide +kernel), if_pos rfl]
      rfl
    have h3 : onAxis [i, j] "expert".toList = i := by simp [onAxis]
    have h4 : onAxis [i, j] "replica".toList = j := by
      unfold onAxis
      rw [if_neg (by decide +kernel), if_pos rfl]
      rfl
    simp only [slices, blockIndex, Layout.pieces, List.foldl_cons, List.foldl_nil, List.map_cons, List.map_nil, List.prod_cons,
      List.prod_nil, h1, h2, h3, h4, Nat.zero_mul, Nat.zero_add, Nat.mul_one]
  unfold Has
  simp only [Option.some.injEq, exists_eq_left', hs, inSlices_cons, inSlices_whole, in_block hq]

/-- The expert axis divides the first dimension. -/
theorem has_expert {P r i j n x : Nat} {rest it : List Nat} (hq : 0 < n / P) :
    Has [P, r] [i, j] (n :: rest, some [.axis "expert".toList]) (x :: it) ↔ x / (n / P) = i ∧ Valid rest it := by
  unfold Has
  simp only [Option.some.injEq, exists_eq_left', slices_expert, inSlices_cons, inSlices_whole, List.getD_cons_zero, in_block hq]

theorem pair_unique {r i j i' j' : Nat} (hj : j < r) (hj' : j' < r) (h : i * r + j = i' * r + j') : i = i' ∧ j = j' := by
  have h1 : (i * r + j) / r = i := by
    rw [Nat.mul_comm, Nat.mul_add_div (by omega), Nat.div_eq_of_lt hj, Nat.add_zero]
  have h2 : (i' * r + j') / r = i' := by
    rw [Nat.mul_comm, Nat.mul_add_div (by omega), Nat.div_eq_of_lt hj', Nat.add_zero]
  have : i = i' := by rw [← h1, ← h2, h]
  subst this
  exact ⟨rfl, by omega⟩

/-- With both axes, every entry is on exactly one device. -/
theorem one_device {P r n x : Nat} {rest it : List Nat} (hr : 0 < r) (hdvd : P * r ∣ n) (hx : x < n) (hv : Valid rest it) :
    ∃! pos, Valid [P, r] pos ∧ Has [P, r] pos (n :: rest, some [.axes ["expert".toList, "replica".toList]]) (x :: it) := by
  have hq : 0 < n / (P * r) := by
    obtain ⟨q, rfl⟩ := hdvd
    rcases Nat.eq_zero_or_pos (P * r) with h | h
    · rw [h, Nat.zero_mul] at hx; omega
    · rw [Nat.mul_div_cancel_left _ h]
      rcases Nat.eq_zero_or_pos q with rfl | h'
      · omega
      · exact h'
  have hk : x / (n / (P * r)) < P * r := by
    rw [Nat.div_lt_iff_lt_mul hq, Nat.mul_div_cancel' hdvd]
    exact hx
  set k := x / (n / (P * r)) with hkd
  have hkr : k / r < P := by rwa [Nat.div_lt_iff_lt_mul hr]
  refine ⟨[k / r, k % r], ⟨.cons hkr (.cons (Nat.mod_lt _ hr) .nil), (has_both hq).2 ⟨?_, hv⟩⟩, ?_⟩
  · rw [← hkd, Nat.mul_comm]
    exact (Nat.div_add_mod k r).symm
  · rintro pos ⟨hp, h⟩
    obtain ⟨i, j, rfl, hi, hj⟩ := valid_two hp
    have h1 := ((has_both hq).1 h).1
    rw [← hkd] at h1
    have : k = k / r * r + k % r := by rw [Nat.mul_comm]; exact (Nat.div_add_mod k r).symm
    obtain ⟨a, b⟩ := pair_unique hj (Nat.mod_lt k hr) (h1.symm.trans this)
    rw [a, b]

theorem atRow_iff {G E C : Nat} (n : Fin (E * (G * C))) (g : Fin G) (e : Fin E) (c : Fin C) :
    AtRow n g e c ↔ n = rowMajor e (column E g c) := by
  have hE : 0 < E := Nat.lt_of_le_of_lt (Nat.zero_le _) e.2
  constructor
  · intro h
    have h := h (fun g e c => (g, e, c))
    obtain ⟨⟨g', c'⟩, hc⟩ := (columnEquiv E hE).surjective n.modNat
    have hc : column E g' c' = n.modNat := hc
    rw [← hc, dispatchExchange_column] at h
    simp only [Prod.mk.injEq] at h
    obtain ⟨rfl, h2, rfl⟩ := h
    rw [hc, ← h2]
    apply Fin.ext
    simp only [rowMajor, Fin.divNat, Fin.modNat]
    exact (Nat.div_add_mod' _ _).symm
  · rintro rfl M x
    rw [rowMajor_divNat, rowMajor_modNat, dispatchExchange_column]


/-- The number of the row of slot `c` of group `g` for expert `e`, if there are as many rows of devices as experts. -/
theorem row_device {r b E C g e c : Nat} (hb : 0 < b) (hc : c < C) (hg : g < E * (r * b)) :
    (e * (E * (r * b) * C) + ((g % (r * b) * E + g / (r * b)) * C + c)) / (E * b * C) = e * r + g % (r * b) / b := by
  have hE : 0 < E := by
    rcases Nat.eq_zero_or_pos E with rfl | h
    · omega
    · exact h
  have hy : g / (r * b) < E := Nat.div_lt_of_lt_mul (by rwa [Nat.mul_comm] at hg)
  have hC : 0 < C := by omega
  have h1 : e * (E * (r * b) * C) = E * b * C * (e * r) := by ring
  rw [h1, Nat.mul_add_div (by positivity)]
  congr 1
  have h2 : E * b * C = C * (E * b) := by ring
  rw [h2, ← Nat.div_div_eq_div_mul, Nat.mul_comm _ C, Nat.mul_add_div hC, Nat.div_eq_of_lt hc, Nat.add_zero,
    ← Nat.div_div_eq_div_mul, Nat.mul_comm _ E, Nat.mul_add_div hE, Nat.div_eq_of_lt hy, Nat.add_zero]

theorem column_val {G E C : Nat} (h : G % E = 0) (g : Fin G) (c : Fin C) :
    (column E g c).1 = (g.1 % (G / E) * E + g.1 / (G / E)) * C + c := by
  unfold column
  rw [dif_pos h]
  simp [exchangePos, rowMajor]


/-- Who has the row of an entry, given who had the entry. -/
theorem receiver {P r E G C : Nat} (hPE : P ∣ E) (hD : P * r ∣ G) (hr : E = P ∨ r = 1) (hr0 : 0 < r) (g : Fin G) (e : Fin E) (c : Fin C)
    (i j i' j' : Nat) (hj : j < r) (hj' : j' < r) (hb : g.1 / (G / (P * r)) = i * r + j) :
    (rowMajor e (column E g c)).1 / (E * (G * C) / (P * r)) = i' * r + j' ↔ e.1 / (E / P) = i' ∧ j = j' := by
  have hE : 0 < E := Nat.lt_of_le_of_lt (Nat.zero_le _) e.2
  have hP : 0 < P := Nat.pos_of_dvd_of_pos hPE hE
  obtain ⟨b, rfl⟩ := hD
  have hb0 : 0 < b := by
    rcases Nat.eq_zero_or_pos b with rfl | h
    · exact absurd g.2 (by simp)
    · exact h
  have hC : 0 < C := Nat.lt_of_le_of_lt (Nat.zero_le _) c.2
  have hPr : 0 < P * r := by positivity
  rw [Nat.mul_div_cancel_left _ hPr] at hb
  rcases hr with rfl | rfl
  · have hG : E * r * b % E = 0 := by rw [Nat.mul_assoc, Nat.mul_mod_right]
    have hq : E * r * b / E = r * b := by rw [Nat.mul_assoc, Nat.mul_div_cancel_left _ hE]
    have h1 : (rowMajor e (column E g c)).1 = e.1 * (E * (r * b) * C) + ((g.1 % (r * b) * E + g.1 / (r * b)) * C + c.1) := by
      simp only [rowMajor]
      rw [column_val hG, hq]
      ring
    have h2 : E * (E * r * b * C) / (E * r) = E * b * C := by
      rw [show E * (E * r * b * C) = (E * r) * (E * b * C) by ring, Nat.mul_div_cancel_left _ hPr]
    have h3 : g.1 % (r * b) / b = j := by
      rw [Nat.mul_comm r b, Nat.mod_mul_right_div_self, hb, Nat.mul_comm, Nat.mul_add_mod, Nat.mod_eq_of_lt hj]
    rw [h1, h2, row_device hb0 c.2 (lt_of_lt_of_eq g.2 (Nat.mul_assoc _ _ _)), h3, Nat.div_self hE, Nat.div_one]
    constructor
    · exact pair_unique hj hj'
    · rintro ⟨rfl, rfl⟩
      rfl
  · obtain ⟨a, rfl⟩ := hPE
    have ha : 0 < a := Nat.pos_of_mul_pos_left hE
    have h2 : P * a * (P * 1 * b * C) / (P * 1) = (P * 1 * b * C) * a := by
      rw [show P * a * (P * 1 * b * C) = (P * 1) * ((P * 1 * b * C) * a) by ring, Nat.mul_div_cancel_left _ hPr]
    have h3 : (rowMajor e (column (P * a) g c)).1 / (P * 1 * b * C) = e.1 := by
      simp only [rowMajor]
      have := (column (P * a) g c).2
      rw [Nat.mul_comm, Nat.mul_add_div (by positivity), Nat.div_eq_of_lt this, Nat.add_zero]
    rw [h2, ← Nat.div_div_eq_div_mul, h3, Nat.mul_div_cancel_left _ hP]
    have e1 : j = 0 := by omega
    have e2 : j' = 0 := by omega
    subst e1 e2
    simp

theorem card_block {q m k : Nat} (hk : k < m) (hq : 0 < q) :
    (Finset.univ.filter fun x : Fin (m * q) => x.1 / q = k).card = q := by
  have h : ∀ y < q, k * q + y < m * q := by
    intro y hy
    have : (k + 1) * q ≤ m * q := Nat.mul_le_mul_right _ hk
    rw [Nat.add_mul] at this
    omega
  conv_rhs => rw [← Fintype.card_fin q]
  symm
  refine Finset.card_bij (s := Finset.univ) (fun y _ => ⟨k * q + y.1, h y.1 y.2⟩) ?_ ?_ ?_
  · intro y _
    simp only [Finset.mem_filter, Finset.mem_univ, true_and]
    rw [Nat.mul_comm, Nat.mul_add_div hq, Nat.div_eq_of_lt y.2, Nat.add_zero]
  · intro y _ y' _ hyy
    simp only [Fin.mk.injEq] at hyy
    exact Fin.ext (by omega)
  · intro x hx
    simp only [Finset.mem_filter, Finset.mem_univ, true_and] at hx
    refine ⟨⟨x.1 % q, Nat.mod_lt _ hq⟩, Finset.mem_univ _, Fin.ext ?_⟩
    simp only
    rw [← hx]
    exact Nat.div_add_mod' _ _

/-- C165: `E` experts, `G` groups and `C` slots, a mesh with `P` rows (axis `expert`) and `r` columns (axis `replica`), the layout of
the configurations.  The groups are divided equally over the devices; after the exchange every device only has rows of experts whose
parameters it has; every row comes from a device in the same column; what the experts return does not move before it is sent back, and
then goes where it came from. -/
theorem C165_layout (P r E G C : Nat) (item : List Nat) (hPE : P ∣ E) (hD : P * r ∣ G) (hr : E = P ∨ r = 1) (hr0 : 0 < r)
    (hE : 0 < E) (hG : 0 < G) (hC : 0 < C) :
    ∃ before rows back, dispatchConstraints false dispatcherSpec G E C item = [before, rows] ∧
      receiveConstraints false dispatcherSpec G E C item = [back, before] ∧
      (∀ (g e c : Nat) (it : List Nat), g < G → e < E → c < C → Valid item it →
        ∃! pos, Valid [P, r] pos ∧ Has [P, r] pos before (g :: e :: c :: it)) ∧
      (∀ (n : Nat) (it : List Nat), n < E * (G * C) → Valid item it →
        ∃! pos, Valid [P, r] pos ∧ Has [P, r] pos rows (n :: it)) ∧
      (∀ (i j n : Nat) (it : List Nat), j < r → Has [P, r] [i, j] rows (n :: it) → ∀ rest idx, Valid rest idx →
        Has [P, r] [i, j] (E :: rest, some [.axis "expert".toList]) (n / (G * C) :: idx)) ∧
      (∀ (n : Fin (E * (G * C))) (g : Fin G) (e : Fin E) (c : Fin C) (it it' : List Nat) (i j i' j' : Nat), AtRow n g e c → j < r → j' < r →
        Has [P, r] [i, j] before (g :: e :: c :: it) → Has [P, r] [i', j'] rows (n :: it') → j = j') ∧
      ∀ (i j m c : Nat) (it : List Nat), c < C →
        (Has [P, r] [i, j] back (m :: c :: it) ↔ Has [P, r] [i, j] rows ((m * C + c) :: it)) := by
  have hP : 0 < P := Nat.pos_of_dvd_of_pos hPE hE
  have hPr : 0 < P * r := by positivity
  have q1 : 0 < G / (P * r) := Nat.div_pos (Nat.le_of_dvd hG hD) hPr
  have hD2 : P * r ∣ E * (G * C) := (hD.mul_right C).mul_left E
  have hD3 : P * r ∣ E * G := hD.mul_left E
  have q2 : 0 < E * (G * C) / (P * r) := Nat.div_pos (Nat.le_of_dvd (by positivity) hD2) hPr
  have q3 : 0 < E * G / (P * r) := Nat.div_pos (Nat.le_of_dvd (by positivity) hD3) hPr
  have q4 : 0 < E / P := Nat.div_pos (Nat.le_of_dvd hE hPE) hP
  refine ⟨_, _, _, rfl, rfl, ?_, ?_, ?_, ?_, ?_⟩
  · intro g e c it hg he hc hv
    exact one_device hr0 hD hg (.cons he (.cons hc hv))
  · intro n it hn hv
    exact one_device hr0 hD2 hn hv
  · intro i j n it hj h rest idx hv
    refine (has_expert q4).2 ⟨?_, hv⟩
    have h1 := ((has_both q2).1 h).1
    obtain ⟨a, rfl⟩ := hPE
    obtain ⟨b, rfl⟩ := hD
    have e1 : P * a * (P * r * b * C) / (P * r) = P * a * b * C := by
      rw [show P * a * (P * r * b * C) = (P * r) * (P * a * b * C) by ring, Nat.mul_div_cancel_left _ hPr]
    rw [e1] at h1
    have h2 : n / (P * a * b * C) / r = i := by
      rw [h1, Nat.mul_comm, Nat.mul_add_div hr0, Nat.div_eq_of_lt hj, Nat.add_zero]
    rw [Nat.mul_div_cancel_left _ hP, Nat.div_div_eq_div_mul, ← h2, Nat.div_div_eq_div_mul]
    congr 1
    ring
  · intro n g e c it it' i j i' j' hn hj hj' h h'
    rw [atRow_iff] at hn
    subst hn
    exact ((receiver hPE hD hr hr0 g e c i j i' j' hj hj' ((has_both q1).1 h).1).1 ((has_both q2).1 h').1).2
  · intro i j m c it hc
    have e1 : E * (G * C) / (P * r) = C * (E * G / (P * r)) := by
      obtain ⟨b, rfl⟩ := hD
      rw [show E * (P * r * b * C) = (P * r) * (C * (E * b)) by ring, Nat.mul_div_cancel_left _ hPr,
        show E * (P * r * b) = (P * r) * (E * b) by ring, Nat.mul_div_cancel_left _ hPr]
    have e2 : (m * C + c) / (C * (E * G / (P * r))) = m / (E * G / (P * r)) := by
      rw [← Nat.div_div_eq_div_mul, Nat.mul_comm, Nat.mul_add_div hC, Nat.div_eq_of_lt hc, Nat.add_zero]
    have b1 := has_both (P := P) (r := r) (i := i) (j := j) (x := m) (rest := C :: item) (it := c :: it) q3
    have b2 := has_both (P := P) (r := r) (i := i) (j := j) (x := m * C + c) (rest := item) (it := it) q2
    rw [e1, e2] at b2
    refine b1.trans (Iff.trans (and_congr_right fun _ => ?_) b2.symm)
    exact ⟨fun h => by cases h; assumption, fun h => .cons hc h⟩

/-- C165: every device sends the same number of slots to every device of its column: those of its groups for the experts of the
other. -/
theorem C165_volume (P r E G C : Nat) (item it : List Nat) (hit : Valid item it) (hPE : P ∣ E) (hD : P * r ∣ G) (hr : E = P ∨ r = 1)
    (hE : 0 < E) (hG : 0 < G) (hC : 0 < C) (i i' j : Nat) (hi : i < P) (hi' : i' < P) (hj : j < r) :
    ∃ before rows, dispatchConstraints false dispatcherSpec G E C item = [before, rows] ∧
      Nat.card {x : Fin G × Fin E × Fin C // Has [P, r] [i, j] before (x.1 :: x.2.1 :: x.2.2 :: it) ∧
        ∃ n, AtRow n x.1 x.2.1 x.2.2 ∧ Has [P, r] [i', j] rows (n :: it)} = G / (P * r) * (E / P) * C := by
  have hP : 0 < P := Nat.pos_of_dvd_of_pos hPE hE
  have hr0 : 0 < r := by omega
  have hPr : 0 < P * r := by positivity
  have q1 : 0 < G / (P * r) := Nat.div_pos (Nat.le_of_dvd hG hD) hPr
  have hD2 : P * r ∣ E * (G * C) := (hD.mul_right C).mul_left E
  have q2 : 0 < E * (G * C) / (P * r) := Nat.div_pos (Nat.le_of_dvd (by positivity) hD2) hPr
  have q4 : 0 < E / P := Nat.div_pos (Nat.le_of_dvd hE hPE) hP
  refine ⟨_, _, rfl, ?_⟩
  have key : ∀ x : Fin G × Fin E × Fin C, (Has [P, r] [i, j] (G :: E :: C :: item, some [.axes ["expert".toList, "replica".toList]])
      (x.1 :: x.2.1 :: x.2.2 :: it) ∧ ∃ n, AtRow n x.1 x.2.1 x.2.2 ∧
        Has [P, r] [i', j] (E * (G * C) :: item, some [.axes ["expert".toList, "replica".toList]]) (n :: it)) ↔
      x ∈ (Finset.univ.filter fun g : Fin G => g.1 / (G / (P * r)) = i * r + j) ×ˢ
        (Finset.univ.filter fun e : Fin E => e.1 / (E / P) = i') ×ˢ (Finset.univ : Finset (Fin C)) := by
    rintro ⟨g, e, c⟩
    simp only [Finset.mem_product, Finset.mem_filter, Finset.mem_univ, true_and, and_true]
    rw [has_both q1]
    have hv : Valid (E :: C :: item) (e.1 :: c.1 :: it) := .cons e.2 (.cons c.2 hit)
    constructor
    · rintro ⟨⟨h, -⟩, n, hn, h'⟩
      rw [atRow_iff] at hn
      subst hn
      exact ⟨h, ((receiver hPE hD hr hr0 g e c i j i' j hj hj h).1 ((has_both q2).1 h').1).1⟩
    · rintro ⟨h, he⟩
      exact ⟨⟨h, hv⟩, _, (atRow_iff _ g e c).2 rfl, (has_both q2).2 ⟨(receiver hPE hD hr hr0 g e c i j i' j hj hj h).2 ⟨he, rfl⟩, hit⟩⟩
  have hcard := Nat.card_congr (Equiv.subtypeEquivRight key)
  refine hcard.trans ?_
  rw [Nat.card_eq_fintype_card, Fintype.card_coe, Finset.card_product, Finset.card_product, Finset.card_univ, Fintype.card_fin]
  have hk : i * r + j < P * r := by
    have : (i + 1) * r ≤ P * r := Nat.mul_le_mul_right _ hi
    rw [Nat.add_mul] at this
    omega
  have c1 : (Finset.univ.filter fun g : Fin G => g.1 / (G / (P * r)) = i * r + j).card = G / (P * r) := by
    obtain ⟨b, rfl⟩ := hD
    rw [Nat.mul_div_cancel_left _ hPr] at q1 ⊢
    exact card_block hk q1
  have c2 : (Finset.univ.filter fun e : Fin E => e.1 / (E / P) = i').card = E / P := by
    obtain ⟨a, rfl⟩ := hPE
    rw [Nat.mul_div_cancel_left _ hP] at q4 ⊢
    exact card_block hi' q4
  rw [c1, c2, Nat.mul_assoc]

/-- C165: the mesh that `get_auto_logical_mesh` makes for the configurations meets the hypotheses of `C165_layout` and `C165_volume`, if
its number of rows divides the number of experts and the number of devices divides the number of groups; so every device only works
for experts whose parameters it has. -/
theorem C165_configs (tpu : Bool) (proc : α → Nat) (coords : α → List Nat) (lc : List (List Nat)) (E : Nat) (hE : 0 < E)
    (devices : List α) (box : List Nat) (hpos : ∀ s ∈ box, 0 < s) (hnd : (devices.map coords).Nodup)
    (hfull : ∀ c, c ∈ devices.map coords ↔ Valid box c) (mesh : NdArray (Option α))
    (h : getAutoLogicalMesh tpu proc coords lc (numExpertPartitions (some E)) devices = .ok mesh) (G C : Nat) (item : List Nat)
    (hdiv : min E devices.length ∣ E) (hG : 0 < G) (hC : 0 < C) (hgroups : devices.length ∣ G) :
    ∃ P r, mesh.shape = [P, r] ∧ P * r = devices.length ∧ P ∣ E ∧ P * r ∣ G ∧ (E = P ∨ r = 1) ∧ 0 < r ∧
      ∃ before rows, dispatchConstraints false dispatcherSpec G E C item = [before, rows] ∧
        ∀ d ∈ devices, ∀ pos, Valid mesh.shape pos → mesh.get pos = some d → ∀ (n : Nat) (it : List Nat),
          Has mesh.shape pos rows (n :: it) → ∀ rest, Holds mesh [.axis "expert".toList] (E :: rest) d (n / (G * C)) := by
  obtain ⟨⟨r, hs⟩, h1, h2⟩ := C42_auto_mesh tpu proc coords lc E devices box hE hpos hnd hfull mesh h
  have hperm := devices_perm devices mesh _ r hs (List.Nodup.of_map _ hnd) h1 h2
  have hlen : min E devices.length * r = devices.length := by
    have := hperm.length_eq
    rw [List.length_map, List.length_map] at this
    exact (this.trans ((List.length_product ..).trans (by rw [List.length_range, List.length_range]))).symm
  have hdpos : 0 < devices.length := Nat.pos_of_dvd_of_pos hgroups hG
  have hr0 : 0 < r := by
    rcases Nat.eq_zero_or_pos r with rfl | h
    · omega
    · exact h
  have hcase : E = min E devices.length ∨ r = 1 := by
    rcases Nat.le_total E devices.length with hle | hle
    · exact .inl (Nat.min_eq_left hle).symm
    · right
      rw [Nat.min_eq_right hle] at hlen
      exact Nat.eq_of_mul_eq_mul_left hdpos (by omega)
  generalize min E devices.length = P at *
  have hPG : P * r ∣ G := by rwa [hlen]
  obtain ⟨before, rows, back, e1, -, -, -, e2, -, -⟩ := C165_layout P r E G C item hdiv hPG hcase hr0 hE hG hC
  refine ⟨P, r, hs, hlen, hdiv, hPG, hcase, hr0, before, rows, e1, fun d hd pos hv hg n it hh rest => ?_⟩
  rw [hs] at hv hh
  obtain ⟨i, j, rfl, hi, hj⟩ := valid_two hv
  refine ⟨[i, j], hs ▸ hv, hg, _, _, _, slices_expert _ _ _ _, ?_⟩
  have hq : 0 < E / P := Nat.div_pos (Nat.le_of_dvd hE hdiv) (Nat.pos_of_dvd_of_pos hdiv hE)
  have := e2 i j n it hj hh [] [] .nil
  rw [has_expert hq] at this
  rw [hs]
  exact (in_block hq).2 this.1

/-- C165: with microsteps no image moves to another device, and every device has the same number of images in every microstep. -/
theorem C165_microsteps (P r B m : Nat) (rest : List Nat) (hm : 0 < m) (hB : 0 < B) (hmB : m ∣ B) (hD : P * r ∣ B / m) :
    (∀ (i j b : Nat) (it : List Nat), Has [P, r] [i, j] (B :: rest, some [.axes ["expert".toList, "replica".toList]]) (b :: it) ↔
      Has [P, r] [i, j] ((microstepConstraint B m rest).1, some (microstepConstraint B m rest).2) (b / m :: b % m :: it)) ∧
    ∀ (i j s : Nat) (it : List Nat), i < P → j < r → s < m → Valid rest it →
      Nat.card {b : Fin B // b.1 % m = s ∧
        Has [P, r] [i, j] (B :: rest, some [.axes ["expert".toList, "replica".toList]]) (b :: it)} = B / m / (P * r) := by
  obtain ⟨a, rfl⟩ := hmB
  rw [Nat.mul_div_cancel_left _ hm] at hD
  obtain ⟨q, rfl⟩ := hD
  have hPr : 0 < P * r := by
    rcases Nat.eq_zero_or_pos (P * r) with h | h
    · rw [h] at hB; omega
    · exact h
  have hq : 0 < q := by
    rcases Nat.eq_zero_or_pos q with rfl | h
    · omega
    · exact h
  have hP : 0 < P := Nat.pos_of_mul_pos_right hPr
  have e1 : m * (P * r * q) / (P * r) = m * q := by
    rw [show m * (P * r * q) = (P * r) * (m * q) by ring, Nat.mul_div_cancel_left _ hPr]
  have e2 : m * (P * r * q) / m / (P * r) = q := by rw [Nat.mul_div_cancel_left _ hm, Nat.mul_div_cancel_left _ hPr]
  have q1 : 0 < m * (P * r * q) / (P * r) := by rw [e1]; positivity
  have q2 : 0 < m * (P * r * q) / m / (P * r) := by rw [e2]; exact hq
  constructor
  · intro i j b it
    have b1 := has_both (P := P) (r := r) (i := i) (j := j) (x := b) (rest := rest) (it := it) q1
    have b2 := has_both (P := P) (r := r) (i := i) (j := j) (x := b / m) (rest := m :: rest) (it := b % m :: it) q2
    rw [e1, ← Nat.div_div_eq_div_mul] at b1
    rw [e2] at b2
    refine b1.trans (Iff.trans (and_congr_right fun _ => ?_) b2.symm)
    exact ⟨fun h => .cons (Nat.mod_lt _ hm) h, fun h => by cases h; assumption⟩
  · intro i j s it hi hj hs hv
    rw [e2]
    have hk : i * r + j < P * r := by
      have : (i + 1) * r ≤ P * r := Nat.mul_le_mul_right _ hi
      rw [Nat.add_mul] at this
      omega
    have key : ∀ b : Fin (m * (P * r * q)), (b.1 % m = s ∧
        Has [P, r] [i, j] (m * (P * r * q) :: rest, some [.axes ["expert".toList, "replica".toList]]) (b :: it)) ↔
        b.1 % m = s ∧ b.1 / m / q = i * r + j := by
      intro b
      rw [has_both q1, e1, ← Nat.div_div_eq_div_mul]
      simp [hv]
    rw [Nat.card_congr (Equiv.subtypeEquivRight key)]
    have hlt : ∀ y < q, ((i * r + j) * q + y) * m + s < m * (P * r * q) := by
      intro y hy
      have h1 : (i * r + j + 1) * q ≤ P * r * q := Nat.mul_le_mul_right _ hk
      have h2 : (i * r + j) * q + y + 1 ≤ P * r * q := by
        rw [Nat.add_mul] at h1
        omega
      have h3 : ((i * r + j) * q + y + 1) * m ≤ (P * r * q) * m := Nat.mul_le_mul_right _ h2
      rw [Nat.add_mul _ 1 m, Nat.one_mul, Nat.mul_comm (P * r * q) m] at h3
      omega
    have hdiv : ∀ y, (((i * r + j) * q + y) * m + s) / m = (i * r + j) * q + y := by
      intro y
      rw [Nat.mul_comm, Nat.mul_add_div hm, Nat.div_eq_of_lt hs, Nat.add_zero]
    have e : Fin q ≃ {b : Fin (m * (P * r * q)) // b.1 % m = s ∧ b.1 / m / q = i * r + j} :=
      { toFun := fun y => ⟨⟨((i * r + j) * q + y.1) * m + s, hlt y.1 y.2⟩, by
          refine ⟨?_, ?_⟩
          · simp only
            rw [Nat.mul_comm, Nat.mul_add_mod, Nat.mod_eq_of_lt hs]
          · simp only
            rw [hdiv, Nat.mul_comm, Nat.mul_add_div hq, Nat.div_eq_of_lt y.2, Nat.add_zero]⟩
        invFun := fun b => ⟨b.1.1 / m % q, Nat.mod_lt _ hq⟩
        left_inv := fun y => Fin.ext (by
          simp only
          rw [hdiv, Nat.mul_comm, Nat.mul_add_mod, Nat.mod_eq_of_lt y.2])
        right_inv := fun b => Subtype.ext (Fin.ext (by
          obtain ⟨b, h1, h2⟩ := b
          simp only
          rw [← h2, Nat.div_add_mod', ← h1, Nat.div_add_mod'])) }
    rw [← Nat.card_congr e, Nat.card_eq_fintype_card, Fintype.card_fin]

/-- C165: a layout is asked for at every point exactly if there is a mesh and a `partition_spec`; a string means one axis, and a tuple
the same as a `PartitionSpec`. -/
theorem C165_asked (meshEmpty : Bool) (spec : UnparsedSpec) (G E C : Nat) (item : List Nat) :
    (∀ l ∈ dispatchConstraints meshEmpty spec G E C item ++ receiveConstraints meshEmpty spec G E C item,
      l.2 = none ↔ meshEmpty = true ∨ spec = .none) ∧
    (∀ s, spec = .str s → dispatchConstraints meshEmpty spec G E C item = dispatchConstraints meshEmpty (.parsed [.axis s]) G E C item ∧
      receiveConstraints meshEmpty spec G E C item = receiveConstraints meshEmpty (.parsed [.axis s]) G E C item) ∧
    ∀ e, spec = .tuple e → dispatchConstraints meshEmpty spec G E C item = dispatchConstraints meshEmpty (.parsed e) G E C item ∧
      receiveConstraints meshEmpty spec G E C item = receiveConstraints meshEmpty (.parsed e) G E C item := by
  refine ⟨fun l hl => ?_, fun s hs => ?_, fun e he => ?_⟩
  · simp only [dispatchConstraints, receiveConstraints, List.cons_append, List.nil_append, List.mem_cons, List.not_mem_nil,
      or_false] at hl
    have : l.2 = withShardingConstraint meshEmpty (convertPartitionSpec spec) := by
      rcases hl with rfl | rfl | rfl | rfl <;> rfl
    rw [this]
    cases meshEmpty <;> cases spec <;> simp [withShardingConstraint, convertPartitionSpec]
  · subst hs
    exact ⟨rfl, rfl⟩
  · subst he
    exact ⟨rfl, rfl⟩

/-! ### Examples -/

/-- Eight devices in a mesh with four rows, four experts, 16 groups with three slots. -/
example : (4 : Nat) ∣ 4 ∧ 4 * 2 ∣ 16 ∧ (4 = 4 ∨ 2 = 1) := by decide

example : ∃ before rows, dispatchConstraints false dispatcherSpec 16 4 3 [5] = [before, rows] ∧
    Nat.card {x : Fin 16 × Fin 4 × Fin 3 // Has [4, 2] [1, 1] before (x.1 :: x.2.1 :: x.2.2 :: [0]) ∧
      ∃ n, AtRow n x.1 x.2.1 x.2.2 ∧ Has [4, 2] [2, 1] rows (n :: [0])} = 6 :=
  C165_volume 4 2 4 16 3 [5] [0] (.cons (by decide) .nil) (by decide) (by decide) (.inl rfl) (by decide) (by decide) (by decide) 1 2 1
    (by decide) (by decide) (by decide)

/-- Two experts for every one of four GPUs. -/
example : ∃ mesh, getAutoLogicalMesh false (fun _ : Nat => 0) (fun d => getDeviceCoordsOther 4 d 0) [] (numExpertPartitions (some 8))
    (List.range 4) = .ok mesh ∧ mesh.shape = [4, 1] := by
  refine ⟨_, rfl, ?_⟩
  decide +kernel

/-- Without a mesh, or without `partition_spec`, no layout is asked for; a string is one axis. -/
example : dispatchConstraints true dispatcherSpec 2 2 1 [] = [([2, 2, 1], none), ([4], none)] ∧
    dispatchConstraints false .none 2 2 1 [] = [([2, 2, 1], none), ([4], none)] ∧
    convertPartitionSpec (.str "expert".toList) = some [.axis "expert".toList] := ⟨rfl, rfl, rfl⟩

/-- A batch of 16 in two microsteps on eight devices. -/
example : Nat.card {b : Fin 16 // b.1 % 2 = 1 ∧
    Has [4, 2] [3, 0] ([16, 5], some [.axes ["expert".toList, "replica".toList]]) [b, 2]} = 1 :=
  (C165_microsteps 4 2 16 2 [5] (by decide) (by decide) (by decide) (by decide)).2 3 0 1 [2] (by decide) (by decide) (by decide)
    (.cons (by decide) .nil)

end Verif.ExchangeLayout
