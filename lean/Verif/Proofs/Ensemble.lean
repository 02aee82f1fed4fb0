import Verif.Model.Ensemble
import Verif.Proofs.NdArray
import Verif.Proofs.MoeSlots
import Mathlib.Tactic.Ring
import Mathlib.Tactic.Linarith

/-! Helper lemmas for the ensemble router. -/

set_option linter.unusedSectionVars false

namespace Verif.Ensemble

open Verif Verif.NdArray Verif.Spec

universe u

variable {α R : Type u}

theorem reshape_ok {x : NdArray α} {dims : List Nat} (h : dims.prod = x.shape.prod) :
    ∃ y, x.reshape (dims.map some) = .ok y ∧ y.shape = dims := by
  have h0 : (dims.map some).count none = 0 := by
    rw [List.count_eq_zero]; simp
  have h1 : knownProd (dims.map some) = dims.prod := by
    simp [knownProd, List.map_map, Function.comp_def]
  have hr : resolveShape x.shape.prod (dims.map some) = .ok dims := by
    unfold resolveShape
    rw [h0]
    simp [h1, h, List.map_map, Function.comp_def]
  refine ⟨⟨dims, fun idx => x.get (unflatIndex x.shape (flatIndex dims idx))⟩, ?_, rfl⟩
  unfold NdArray.reshape
  rw [hr]
  rfl

theorem jr {x y : NdArray α} {dims : List (Option Nat)} (h : x.reshape dims = .ok y) :
    x.jreshape dims = .ok y := by
  unfold NdArray.jreshape
  rw [h]

theorem reshape_auto_ok {x : NdArray α} {dims : List Nat} (h0 : 0 < dims.prod)
    (h : x.shape.prod % dims.prod = 0) :
    ∃ y, x.reshape (none :: dims.map some) = .ok y ∧ y.shape = x.shape.prod / dims.prod :: dims := by
  have hc : (none :: dims.map some).count (none : Option Nat) = 1 := by
    rw [List.count_cons_self, List.count_eq_zero.2 (by simp)]
  have h1 : knownProd (none :: dims.map some) = dims.prod := by
    simp [knownProd, List.map_map, Function.comp_def]
  have hr : resolveShape x.shape.prod (none :: dims.map some) =
      .ok (x.shape.prod / dims.prod :: dims) := by
    unfold resolveShape
    rw [hc]
    simp only [h1, h, Nat.pos_iff_ne_zero.1 h0, if_true, if_false]
    simp [List.map_map, Function.comp_def]
  refine ⟨⟨x.shape.prod / dims.prod :: dims, fun idx => x.get (unflatIndex x.shape
    (flatIndex (x.shape.prod / dims.prod :: dims) idx))⟩, ?_, rfl⟩
  unfold NdArray.reshape
  rw [hr]
  rfl

theorem transpose0213 (x : NdArray α) (a b c d : Nat) (h : x.shape = [a, b, c, d]) :
    ∃ y, x.transpose [0, 2, 1, 3] = .ok y ∧ y.shape = [a, c, b, d] ∧
      ∀ i j k l, y.get [i, j, k, l] = x.get [i, k, j, l] := by
  refine ⟨⟨[0, 2, 1, 3].map (fun a => x.shape.getD a 0), fun idx => x.get
    ((List.range x.shape.length).map fun a => idx.getD ([0, 2, 1, 3].idxOf a) 0)⟩, ?_, ?_, ?_⟩
  · unfold NdArray.transpose
    rw [if_pos]
    rw [h]
    refine ⟨rfl, ?_⟩
    intro a ha
    simp only [List.length_cons, List.length_nil] at ha
    have : a = 0 ∨ a = 1 ∨ a = 2 ∨ a = 3 := by omega
    rcases this with rfl | rfl | rfl | rfl <;> simp
  · simp [h]
  · intro i j k l
    simp only [h]
    rfl

/-- `(g, s)` with `n = g * S + s` in closed form. -/
theorem reshapeTo_spec {x : NdArray α} {B M T H S : Nat} (hx : x.shape = [B * M, T, H]) (hM : 0 < M)
    (hS : 0 < S) (hH : 0 < H) (hdiv : S ∣ B * M * T) :
    ∃ y, reshapeTo x S M = .ok y ∧ y.shape = [B * M * T / S, S, H] ∧
      ∀ b m t h, b < B → m < M → t < T → h < H → ∀ g s, g * S + s = (b * T + t) * M + m →
        y.get [g, s, h] = x.get [b * M + m, t, h] := by
  have hb : B * M / M = B := Nat.mul_div_cancel _ hM
  obtain ⟨x1, e1, s1⟩ := reshape_ok (x := x) (dims := [B, M, T, H]) (by
    simp [hx]; ring)
  obtain ⟨x2, e2, s2, g2⟩ := transpose0213 x1 B M T H s1
  have hp2 : x2.shape.prod = B * M * T * H := by simp [s2]; ring
  obtain ⟨q, hq⟩ := hdiv
  obtain ⟨x3, e3, s3⟩ := reshape_auto_ok (x := x2) (dims := [S, H]) (by simp; exact ⟨hS, hH⟩) (by
    rw [hp2, hq, show S * q * H = ([S, H].prod) * q by simp; ring]; exact Nat.mul_mod_right _ _)
  simp only [List.map_cons, List.map_nil] at e1 e3
  refine ⟨x3, ?_, ?_, ?_⟩
  · unfold reshapeTo
    rw [hx]
    simp only [hb, Nat.pos_iff_ne_zero.1 hM, if_false, jr e1]
    change (x1.transpose [0, 2, 1, 3] >>= _) = _
    rw [e2]
    exact jr e3
  · rw [s3, hp2, hq]
    simp only [List.prod_cons, List.prod_nil, Nat.mul_one, List.cons.injEq, and_true]
    rw [Nat.mul_div_cancel_left _ hS, show S * q * H = (S * H) * q by ring,
      Nat.mul_div_cancel_left _ (Nat.mul_pos hS hH)]
  · intro b m t h hb' hm ht hh g s hgs
    have v2 : Valid x2.shape [b, t, m, h] := by rw [s2]; exact valid_four.2 ⟨hb', ht, hm, hh⟩
    rw [get_reshape (idx' := [b, t, m, h]) e3 v2 (by
      rw [s3, s2]
      simp only [flatIndex, List.prod_cons, List.prod_nil, Nat.mul_one, Nat.add_zero]
      have : (g * S + s) * H = ((b * T + t) * M + m) * H := by rw [hgs]
      linarith), g2]
    have v0 : Valid x.shape [b * M + m, t, h] := by
      rw [hx]; refine valid_three.2 ⟨?_, ht, hh⟩
      calc b * M + m < b * M + M := by omega
        _ = (b + 1) * M := by ring
        _ ≤ B * M := Nat.mul_le_mul_right _ hb'
    refine get_reshape e1 v0 ?_
    rw [s1, hx]
    simp only [flatIndex, List.prod_cons, List.prod_nil, Nat.mul_one, Nat.add_zero]
    ring

theorem reshapeFrom_spec {y : NdArray α} {B M T H G S : Nat} (hy : y.shape = [G, S, H]) (hM : 0 < M)
    (hT : 0 < T) (hH : 0 < H) (hsize : G * S = B * T * M) :
    ∃ z, reshapeFrom y T M = .ok z ∧ z.shape = [B * M, T, H] ∧
      ∀ b m t h, b < B → m < M → t < T → h < H → ∀ g s, s < S → g * S + s = (b * T + t) * M + m →
        z.get [b * M + m, t, h] = y.get [g, s, h] := by
  have hp : y.shape.prod = B * (T * M * H) := by
    simp [hy]; rw [← Nat.mul_assoc, hsize]; ring
  obtain ⟨x1, e1, s1⟩ := reshape_auto_ok (x := y) (dims := [T, M, H])
    (by simp; exact ⟨hT, hM, hH⟩) (by
    rw [hp, show B * (T * M * H) = ([T, M, H].prod) * B by simp; ring]; exact Nat.mul_mod_right _ _)
  have s1' : x1.shape = [B, T, M, H] := by
    rw [s1, hp]
    simp only [List.prod_cons, List.prod_nil, Nat.mul_one, List.cons.injEq, and_true]
    rw [← Nat.mul_assoc T M H, Nat.mul_div_cancel _ (by positivity)]
  obtain ⟨x2, e2, s2, g2⟩ := transpose0213 x1 B T M H s1'
  have hp2 : x2.shape.prod = (B * M) * (T * H) := by simp [s2]; ring
  obtain ⟨x3, e3, s3⟩ := reshape_auto_ok (x := x2) (dims := [T, H]) (by simp; exact ⟨hT, hH⟩) (by
    rw [hp2]; simp)
  have s3' : x3.shape = [B * M, T, H] := by
    rw [s3, hp2]
    simp only [List.prod_cons, List.prod_nil, Nat.mul_one, List.cons.injEq, and_true]
    rw [Nat.mul_div_cancel _ (by positivity)]
  simp only [List.map_cons, List.map_nil] at e1 e3
  refine ⟨x3, ?_, s3', ?_⟩
  · unfold reshapeFrom
    rw [hy]
    simp only [jr e1]
    change (x1.transpose [0, 2, 1, 3] >>= _) = _
    rw [e2]
    exact jr e3
  · intro b m t h hb' hm ht hh g s hs hgs
    have v2 : Valid x2.shape [b, m, t, h] := by rw [s2]; exact valid_four.2 ⟨hb', hm, ht, hh⟩
    rw [get_reshape (idx' := [b, m, t, h]) e3 v2 (by
      rw [s3', s2]
      simp only [flatIndex, List.prod_cons, List.prod_nil, Nat.mul_one, Nat.add_zero]
      ring), g2]
    have hg : g < G := by
      by_contra hge
      push Not at hge
      have h1 : G * S ≤ g * S := Nat.mul_le_mul_right _ hge
      have h2 : (b * T + t) * M + m < B * T * M := by
        calc (b * T + t) * M + m < (b * T + t) * M + M := by omega
          _ = (b * T + t + 1) * M := by ring
          _ ≤ (b * T + T) * M := Nat.mul_le_mul_right _ (by omega)
          _ = (b + 1) * (T * M) := by ring
          _ ≤ B * (T * M) := Nat.mul_le_mul_right _ hb'
          _ = B * T * M := by ring
      omega
    have v0 : Valid y.shape [g, s, h] := by
      rw [hy]; exact valid_three.2 ⟨hg, hs, hh⟩
    refine get_reshape e1 v0 ?_
    rw [s1', hy]
    simp only [flatIndex, List.prod_cons, List.prod_nil, Nat.mul_one, Nat.add_zero]
    have : (g * S + s) * H = ((b * T + t) * M + m) * H := by rw [hgs]
    linarith

/-- Closed form of the gates of the ensemble router. -/
theorem ensembleGates_spec [Zero R] (inner : Inner α R) {inputs : NdArray α} {G S H E M K : Nat}
    (hx : inputs.shape = [G, S, H]) (hM : 0 < M) (hE : M ∣ E) (hS : M ∣ S) (hK : 1 ≤ K)
    (hKE : K ≤ E / M) :
    ∃ y, ensembleGates inner E M K inputs = .ok y ∧ y.shape = [G, S, E] ∧
      ∀ g p e, g < G → p < S → e < E → y.get [g, p, e] =
        if p % M = e / (E / M) then
          inner G (S / M) H (E / M) (p % M)
            (fun g i h => inputs.get [g, (i : Nat) * M + p % M, h]) g (p / M) (e % (E / M))
        else 0 := by
  obtain ⟨s, rfl⟩ := hS
  obtain ⟨n, rfl⟩ := hE
  rw [Nat.mul_div_cancel_left _ hM] at *
  rw [Nat.mul_div_cancel_left s hM]
  obtain ⟨x1, e1, s1⟩ := reshape_ok (x := inputs) (dims := [G, s, M, H]) (by
    simp only [hx, List.prod_cons, List.prod_nil]; ring)
  obtain ⟨x2, e2⟩ : ∃ z, reshapeFromDiagBlocks (vmapMembers inner x1 G s M H n) = .ok z := ⟨_, rfl⟩
  have s2 : x2.shape = [G, M * s, M * n] := by
    unfold reshapeFromDiagBlocks vmapMembers at e2
    cases e2
    rfl
  obtain ⟨x3, e3, s3⟩ := reshape_ok (x := x2) (dims := [G, M, s, M * n]) (by
    simp only [s2, List.prod_cons, List.prod_nil]; ring)
  obtain ⟨x4, e4, s4, g4⟩ := transpose0213 x3 G M s (M * n) s3
  obtain ⟨x5, e5, s5⟩ := reshape_ok (x := x4) (dims := [G, M * s, M * n]) (by
    simp only [s4, List.prod_cons, List.prod_nil]; ring)
  simp only [List.map_cons, List.map_nil] at e1 e3 e5
  refine ⟨x5, ?_, s5, ?_⟩
  · unfold ensembleGates
    rw [hx]
    have h1 : M * n % M = 0 := Nat.mul_mod_right _ _
    have h2 : M * s % M = 0 := Nat.mul_mod_right _ _
    have h3 : ¬ (K < 1 ∨ n < K) := by omega
    simp only [h1, h2, Nat.pos_iff_ne_zero.1 hM, ne_eq, not_true_eq_false, if_false,
      Nat.mul_div_cancel_left _ hM, jr e1]
    change (if K < 1 ∨ n < K then _ else _) = _
    rw [if_neg h3]
    rw [e2]
    change (x2.jreshape _ >>= _) = _
    rw [jr e3]
    change (x3.transpose _ >>= _) = _
    rw [e4]
    exact jr e5
  · intro g p e hg hp he
    have hs : 0 < s := by rcases Nat.eq_zero_or_pos s with h | h; (· simp [h] at hp); exact h
    have hn : 0 < n := by rcases Nat.eq_zero_or_pos n with h | h; (· simp [h] at he); exact h
    have hpm : p % M < M := Nat.mod_lt _ hM
    have hpd : p / M < s := (Nat.div_lt_iff_lt_mul hM).2 (by rw [Nat.mul_comm]; exact hp)
    have hdm : M * (p / M) + p % M = p := Nat.div_add_mod p M
    rw [get_reshape (idx' := [g, p / M, p % M, e]) e5 (by
      rw [s4]; exact valid_four.2 ⟨hg, hpd, hpm, he⟩) (by
      rw [s5, s4]
      simp only [flatIndex, List.prod_cons, List.prod_nil, Nat.mul_one, Nat.add_zero]
      have : p * (M * n) = (M * (p / M) + p % M) * (M * n) := by rw [hdm]
      rw [this]
      ring), g4]
    have hlt : p % M * s + p / M < M * s := by
      calc p % M * s + p / M < p % M * s + s := by omega
        _ = (p % M + 1) * s := by ring
        _ ≤ M * s := Nat.mul_le_mul_right _ hpm
    rw [get_reshape (idx' := [g, p % M * s + p / M, e]) e3 (by
      rw [s2]; exact valid_three.2 ⟨hg, hlt, he⟩) (by
      rw [s3, s2]
      simp only [flatIndex, List.prod_cons, List.prod_nil, Nat.mul_one, Nat.add_zero]
      ring)]
    have q1 : (p % M * s + p / M) / s = p % M := by
      rw [Nat.mul_comm, Nat.mul_add_div hs, Nat.div_eq_of_lt hpd, Nat.add_zero]
    have q2 : (p % M * s + p / M) % s = p / M := by
      rw [Nat.mul_comm, Nat.mul_add_mod, Nat.mod_eq_of_lt hpd]
    unfold reshapeFromDiagBlocks vmapMembers at e2
    cases e2
    simp only [q1, q2]
    congr 2
    funext g' i h
    refine get_reshape e1 ?_ ?_
    · rw [hx]
      refine valid_three.2 ⟨g'.2, ?_, h.2⟩
      calc (i : Nat) * M + p % M < i * M + M := by omega
        _ = (i + 1) * M := by ring
        _ ≤ s * M := Nat.mul_le_mul_right _ i.2
        _ = M * s := Nat.mul_comm _ _
    · rw [s1, hx]
      simp only [flatIndex, List.prod_cons, List.prod_nil, Nat.mul_one, Nat.add_zero]
      ring

/-! ### Routing with block-diagonal gates -/

section Blocks
variable [LinearOrder R] [Zero R] {S E : Nat}

theorem card_block (M n : Nat) (m : Nat) (hm : m < M) :
    (Finset.univ.filter (fun e : Fin (M * n) => (e : Nat) / n = m)).card = n := by
  rcases Nat.eq_zero_or_pos n with rfl | hn
  · simp
  have hlt : ∀ i : Fin n, m * n + i < M * n := fun i => by
    calc m * n + i < m * n + n := by omega
      _ = (m + 1) * n := by ring
      _ ≤ M * n := Nat.mul_le_mul_right _ hm
  have : Finset.univ.filter (fun e : Fin (M * n) => (e : Nat) / n = m) =
      Finset.univ.image (fun i : Fin n => (⟨m * n + i, hlt i⟩ : Fin (M * n))) := by
    ext e
    simp only [Finset.mem_filter, Finset.mem_univ, true_and, Finset.mem_image]
    constructor
    · intro h
      refine ⟨⟨e % n, Nat.mod_lt _ hn⟩, Fin.ext ?_⟩
      simp only
      rw [← h, Nat.mul_comm, Nat.div_add_mod]
    · rintro ⟨i, rfl⟩
      simp only
      rw [Nat.mul_comm, Nat.mul_add_div hn, Nat.div_eq_of_lt i.2, Nat.add_zero]
  rw [this, Finset.card_image_of_injective, Finset.card_univ, Fintype.card_fin]
  intro i j h
  simp only [Fin.mk.injEq] at h
  exact Fin.ext (by omega)

/-- With positive gates in the own block and zero elsewhere, requests stay in the own block. -/
theorem requests_in_block {M n : Nat} (gates : Fin S → Fin (M * n) → R) (K : Nat) (hK : K ≤ n)
    (s : Fin S) (m : Nat) (hm : m < M) (hpos : ∀ e : Fin (M * n), (e : Nat) / n = m → 0 < gates s e)
    (hzero : ∀ e : Fin (M * n), (e : Nat) / n ≠ m → gates s e = 0) (e : Fin (M * n))
    (hr : Requests gates K s e) : (e : Nat) / n = m := by
  by_contra hne
  unfold Requests choiceRank at hr
  have hle : (Finset.univ.filter (fun e' : Fin (M * n) => (e' : Nat) / n = m)).card ≤
      (Finset.univ.filter (fun e' : Fin (M * n) =>
        gates s e < gates s e' ∨ (gates s e' = gates s e ∧ e' < e))).card := by
    apply Finset.card_le_card
    intro e' he'
    simp only [Finset.mem_filter, Finset.mem_univ, true_and] at he' ⊢
    left
    rw [hzero e hne]
    exact hpos e' he'
  rw [card_block M n m hm] at hle
  omega

theorem choiceRank_congr {gates gates' : Fin S → Fin E → R} {s : Fin S} (h : gates s = gates' s)
    (e : Fin E) : choiceRank gates s e = choiceRank gates' s e := by
  unfold choiceRank
  rw [h]

theorem requests_congr {gates gates' : Fin S → Fin E → R} {s : Fin S} (h : gates s = gates' s)
    (K : Nat) (e : Fin E) : Requests gates K s e ↔ Requests gates' K s e := by
  unfold Requests
  rw [choiceRank_congr h]

theorem higherPriority_congr (hE : 0 < E) (bp : Bool) {gates gates' : Fin S → Fin E → R} {s s' : Fin S}
    (h : gates s = gates' s) (h' : gates s' = gates' s') (e : Fin E) :
    HigherPriority hE bp gates e s' s ↔ HigherPriority hE bp gates' e s' s := by
  unfold HigherPriority ItemBefore topGate
  rw [choiceRank_congr h, choiceRank_congr h', h, h']

end Blocks

end Verif.Ensemble
