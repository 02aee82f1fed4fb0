import Verif.Spec.Routing
import Verif.Proofs.Ensemble

/-!
Routing with block-diagonal gates is the routing of each block on its own.
-/

namespace Verif.EnsembleBlock

open Verif Verif.Spec Verif.Ensemble

variable {R : Type*} [LinearOrder R] [Zero R] {s M n : Nat}

theorem pos_lt (i : Fin s) (m : Fin M) : (i : Nat) * M + m < s * M := by
  calc (i : Nat) * M + m < i * M + M := by omega
    _ = (i + 1) * M := by ring
    _ ≤ s * M := Nat.mul_le_mul_right _ i.2

/-- Position of the `i`-th item of member `m` in the group. -/
def itemPos (i : Fin s) (m : Fin M) : Fin (s * M) := ⟨i * M + m, pos_lt i m⟩

/-- Position of the `j`-th expert of member `m`. -/
def expertPos (m : Fin M) (j : Fin n) : Fin (M * n) := ⟨m * n + j, pos_lt m j⟩

theorem itemPos_mod (i : Fin s) (m : Fin M) : (itemPos i m : Nat) % M = m := by
  show ((i : Nat) * M + m) % M = m
  rw [Nat.mul_comm, Nat.mul_add_mod, Nat.mod_eq_of_lt m.2]

theorem itemPos_div (i : Fin s) (m : Fin M) : (itemPos i m : Nat) / M = i := by
  show ((i : Nat) * M + m) / M = i
  rw [Nat.mul_comm, Nat.mul_add_div (by have := m.2; omega), Nat.div_eq_of_lt m.2, Nat.add_zero]

theorem expertPos_mod (m : Fin M) (j : Fin n) : (expertPos m j : Nat) % n = j := itemPos_mod m j

theorem expertPos_div (m : Fin M) (j : Fin n) : (expertPos m j : Nat) / n = m := itemPos_div m j

theorem expertPos_lt (m : Fin M) (j j' : Fin n) : expertPos m j < expertPos m j' ↔ j < j' := by
  show (m : Nat) * n + j < m * n + j' ↔ (j : Nat) < j'
  omega

theorem itemPos_lt (i i' : Fin s) (m : Fin M) : itemPos i m < itemPos i' m ↔ i < i' := by
  show (i : Nat) * M + m < i' * M + m ↔ (i : Nat) < i'
  have hM : 0 < M := by have := m.2; omega
  rw [Nat.add_lt_add_iff_right, Nat.mul_lt_mul_right hM]

theorem expertPos_inj (m : Fin M) : Function.Injective (expertPos m : Fin n → Fin (M * n)) := by
  intro j j' h
  have := congrArg Fin.val h
  simp only [expertPos] at this
  exact Fin.ext (by omega)

theorem itemPos_inj (m : Fin M) : Function.Injective (fun i : Fin s => itemPos i m) := by
  intro i i' h
  have := congrArg Fin.val h
  simp only [itemPos] at this
  have hM : 0 < M := by have := m.2; omega
  exact Fin.ext (Nat.eq_of_mul_eq_mul_right hM (by omega))

theorem exists_expertPos {m : Fin M} {e : Fin (M * n)} (h : (e : Nat) / n = m) :
    ∃ j, e = expertPos m j := by
  have hn : 0 < n := by
    rcases Nat.eq_zero_or_pos n with rfl | hn
    · exact absurd e.2 (by simp)
    · exact hn
  refine ⟨⟨e % n, Nat.mod_lt _ hn⟩, Fin.ext ?_⟩
  show (e : Nat) = m * n + e % n
  rw [← h]
  exact (Nat.div_add_mod' (e : Nat) n).symm

theorem exists_itemPos {m : Fin M} {p : Fin (s * M)} (h : (p : Nat) % M = m) :
    ∃ i, p = itemPos i m := by
  have hM : 0 < M := by have := m.2; omega
  refine ⟨⟨p / M, (Nat.div_lt_iff_lt_mul hM).2 p.2⟩, Fin.ext ?_⟩
  show (p : Nat) = p / M * M + m
  rw [← h]
  exact (Nat.div_add_mod' (p : Nat) M).symm

/-- Gates of a group that are block diagonal: the gates of member `m` are `sub m`. -/
structure Blocks (gates : Fin (s * M) → Fin (M * n) → R) (sub : Fin M → Fin s → Fin n → R) : Prop where
  own : ∀ i m j, gates (itemPos i m) (expertPos m j) = sub m i j
  other : ∀ (i : Fin s) (m : Fin M) (e : Fin (M * n)), (e : Nat) / n ≠ m →
    gates (itemPos i m) e = 0
  pos : ∀ m i j, 0 < sub m i j

variable {gates : Fin (s * M) → Fin (M * n) → R} {sub : Fin M → Fin s → Fin n → R}

theorem Blocks.nonneg (h : Blocks gates sub) (i : Fin s) (m : Fin M) (e : Fin (M * n)) :
    0 ≤ gates (itemPos i m) e := by
  by_cases he : (e : Nat) / n = m
  · obtain ⟨j, rfl⟩ := exists_expertPos he
    rw [h.own]
    exact (h.pos _ _ _).le
  · exact (h.other i m e he).ge

theorem Blocks.choiceRank (h : Blocks gates sub) (i : Fin s) (m : Fin M) (j : Fin n) :
    choiceRank gates (itemPos i m) (expertPos m j) = choiceRank (sub m) i j := by
  unfold Spec.choiceRank
  symm
  rw [← Finset.card_image_of_injective _ (expertPos_inj (n := n) m)]
  congr 1
  ext e
  simp only [Finset.mem_image, Finset.mem_filter, Finset.mem_univ, true_and]
  constructor
  · rintro ⟨j', h', rfl⟩
    rw [h.own, h.own, expertPos_lt]
    exact h'
  · intro h'
    have hpos : 0 < gates (itemPos i m) e := by
      have hp := h.pos m i j
      rw [h.own] at h'
      rcases h' with h' | h'
      · exact lt_trans hp h'
      · rw [h'.1]; exact hp
    have he : (e : Nat) / n = m := by
      by_contra hne
      rw [h.other i m e hne] at hpos
      exact lt_irrefl _ hpos
    obtain ⟨j', rfl⟩ := exists_expertPos he
    refine ⟨j', ?_, rfl⟩
    rw [h.own, h.own, expertPos_lt] at h'
    exact h'

theorem Blocks.requests (h : Blocks gates sub) {K : Nat} (hK : K ≤ n) (i : Fin s) (m : Fin M)
    (e : Fin (M * n)) :
    Requests gates K (itemPos i m) e ↔ ∃ j, e = expertPos m j ∧ Requests (sub m) K i j := by
  constructor
  · intro hr
    have he := requests_in_block gates K hK (itemPos i m) m m.2 (by
      intro e he
      obtain ⟨j, rfl⟩ := exists_expertPos he
      rw [h.own]
      exact h.pos _ _ _) (fun e he => h.other i m e he) e hr
    obtain ⟨j, rfl⟩ := exists_expertPos he
    refine ⟨j, rfl, ?_⟩
    unfold Requests at hr ⊢
    rwa [h.choiceRank] at hr
  · rintro ⟨j, rfl, hr⟩
    unfold Requests at hr ⊢
    rwa [h.choiceRank]

theorem Blocks.topGate (h : Blocks gates sub) (hE : 0 < M * n) (hn : 0 < n) (i : Fin s) (m : Fin M) :
    topGate hE gates (itemPos i m) = topGate hn (sub m) i := by
  unfold Spec.topGate
  apply le_antisymm
  · refine (Finset.sup'_le_iff _ _).2 fun e _ => ?_
    by_cases he : (e : Nat) / n = m
    · obtain ⟨j, rfl⟩ := exists_expertPos he
      rw [h.own]
      exact Finset.le_sup' _ (Finset.mem_univ j)
    · rw [h.other i m e he]
      exact (h.pos m i ⟨0, hn⟩).le.trans (Finset.le_sup' _ (Finset.mem_univ _))
  · refine (Finset.sup'_le_iff _ _).2 fun j _ => ?_
    rw [← h.own i m j]
    exact Finset.le_sup' _ (Finset.mem_univ _)

theorem Blocks.itemBefore (h : Blocks gates sub) (hE : 0 < M * n) (hn : 0 < n) (bp : Bool)
    (i i' : Fin s) (m : Fin M) :
    ItemBefore hE bp gates (itemPos i' m) (itemPos i m) ↔ ItemBefore hn bp (sub m) i' i := by
  unfold ItemBefore
  rw [h.topGate hE hn, h.topGate hE hn, itemPos_lt]

theorem Blocks.slot (h : Blocks gates sub) (hE : 0 < M * n) (hn : 0 < n) (bp : Bool) {K : Nat}
    (hK : K ≤ n) (i : Fin s) (m : Fin M) (j : Fin n) :
    slot hE bp gates K (itemPos i m) (expertPos m j) = slot hn bp (sub m) K i j := by
  unfold Spec.slot
  symm
  rw [← Finset.card_image_of_injective _ (itemPos_inj (s := s) m)]
  congr 1
  ext p
  simp only [Finset.mem_image, Finset.mem_filter, Finset.mem_univ, true_and]
  have hhp : ∀ i', HigherPriority hE bp gates (expertPos m j) (itemPos i' m) (itemPos i m) ↔
      HigherPriority hn bp (sub m) j i' i := by
    intro i'
    unfold HigherPriority
    rw [h.choiceRank, h.choiceRank, h.itemBefore hE hn]
  constructor
  · rintro ⟨i', ⟨h1, h2⟩, rfl⟩
    exact ⟨(h.requests hK i' m _).2 ⟨j, rfl, h1⟩, (hhp i').2 h2⟩
  · rintro ⟨h1, h2⟩
    have hM : 0 < M := by have := m.2; omega
    obtain ⟨i', hp⟩ := exists_itemPos (m := ⟨p % M, Nat.mod_lt _ hM⟩) (p := p) rfl
    rw [hp] at h1
    obtain ⟨j', he, hr⟩ := (h.requests hK i' _ _).1 h1
    have hmm : (⟨p % M, Nat.mod_lt _ hM⟩ : Fin M) = m := by
      have := congrArg (fun e : Fin (M * n) => (e : Nat) / n) he
      simp only [expertPos_div] at this
      exact Fin.ext this.symm
    rw [hmm] at hp he hr
    have := expertPos_inj m he
    subst this
    refine ⟨i', ⟨hr, (hhp i').1 ?_⟩, hp.symm⟩
    rw [← hp]
    exact h2

theorem Blocks.kept (h : Blocks gates sub) (hE : 0 < M * n) (hn : 0 < n) (bp : Bool) {K : Nat}
    (hK : K ≤ n) (cap : Nat) (i : Fin s) (m : Fin M) (e : Fin (M * n)) :
    Kept hE bp gates K cap (itemPos i m) e ↔
      ∃ j, e = expertPos m j ∧ Kept hn bp (sub m) K cap i j := by
  unfold Kept
  rw [h.requests hK]
  constructor
  · rintro ⟨⟨j, rfl, hr⟩, hs⟩
    rw [h.slot hE hn bp hK] at hs
    exact ⟨j, rfl, hr, hs⟩
  · rintro ⟨j, rfl, hr, hs⟩
    refine ⟨⟨j, rfl, hr⟩, ?_⟩
    rw [h.slot hE hn bp hK]
    exact hs

end Verif.EnsembleBlock
