import Verif.Model.MoeRouting
import Verif.Spec.Routing
import Verif.Proofs.Sorting
import Mathlib.Algebra.BigOperators.Ring.Finset
import Mathlib.Algebra.Order.Group.Unbundled.Basic
import Mathlib.Data.Fintype.Prod
import Mathlib.Data.Fintype.BigOperators
import Mathlib.Tactic.Ring

/-! Helper lemmas for the routing properties. -/

set_option linter.unusedSectionVars false

namespace Verif.Moe

open Verif Verif.Spec

variable {R : Type*} {S K E : Nat}

theorem rowMajor_divNat (k : Fin K) (s : Fin S) : (rowMajor k s).divNat = k := by
  apply Fin.ext
  simp only [rowMajor, Fin.divNat]
  rw [Nat.add_comm, Nat.add_mul_div_right _ _ (by have := s.2; omega : 0 < S),
    Nat.div_eq_of_lt s.2, Nat.zero_add]

theorem rowMajor_modNat (k : Fin K) (s : Fin S) : (rowMajor k s).modNat = s := by
  apply Fin.ext
  simp only [rowMajor, Fin.modNat]
  rw [Nat.add_comm, Nat.add_mul_mod_self_right, Nat.mod_eq_of_lt s.2]

theorem rowMajor_div_mod (i : Fin (K * S)) : rowMajor i.divNat i.modNat = i := by
  apply Fin.ext
  simp only [rowMajor, Fin.divNat, Fin.modNat]
  exact Nat.div_add_mod' _ _

theorem rowMajor_lt_iff (k k' : Fin K) (s s' : Fin S) :
    rowMajor k' s' < rowMajor k s ↔ k' < k ∨ (k' = k ∧ s' < s) := by
  rw [Fin.lt_def, Fin.lt_def, Fin.lt_def, Fin.ext_iff]
  simp only [rowMajor]
  have h1 := s.2
  have h2 := s'.2
  constructor
  · intro h
    rcases Nat.lt_trichotomy k'.1 k.1 with hk | hk | hk
    · exact Or.inl hk
    · refine Or.inr ⟨hk, ?_⟩
      rw [hk] at h; omega
    · exfalso
      have : (k.1 + 1) * S ≤ k'.1 * S := Nat.mul_le_mul_right _ hk
      rw [Nat.add_mul] at this
      omega
  · rintro (h | ⟨h, h'⟩)
    · have : (k'.1 + 1) * S ≤ k.1 * S := Nat.mul_le_mul_right _ h
      rw [Nat.add_mul] at this
      omega
    · rw [h]; omega

/-- The flat positions are the pairs (k, s). -/
def pairEquiv : Fin K × Fin S ≃ Fin (K * S) where
  toFun p := rowMajor p.1 p.2
  invFun i := (i.divNat, i.modNat)
  left_inv p := by simp [rowMajor_divNat, rowMajor_modNat]
  right_inv i := rowMajor_div_mod i

/-- Cumulative sum of the one-hot rows counts the requests up to `i`. -/
theorem bufferFlat_eq {N : Nat} (idx : Fin N → Fin E) (i : Fin N) (e : Fin E) :
    bufferFlat idx i e =
      if e = idx i then
        (((Finset.univ.filter (fun j => j < i ∧ idx j = e)).card : Nat) : Int)
      else -1 := by
  unfold bufferFlat cumsum0 oneHot
  by_cases h : e = idx i
  · simp only [h, if_true, mul_one]
    rw [Finset.sum_boole, Finset.filter_filter]
    have : (Finset.univ.filter (fun j => j ≤ i ∧ idx i = idx j)) =
        insert i (Finset.univ.filter (fun j => j < i ∧ idx j = idx i)) := by
      ext j
      simp only [Finset.mem_filter, Finset.mem_univ, true_and, Finset.mem_insert]
      constructor
      · rintro ⟨h1, h2⟩
        rcases eq_or_lt_of_le h1 with h3 | h3
        · exact Or.inl h3
        · exact Or.inr ⟨h3, h2.symm⟩
      · rintro (h1 | ⟨h1, h2⟩)
        · subst h1; exact ⟨le_refl _, rfl⟩
        · exact ⟨le_of_lt h1, h2.symm⟩
    rw [this, Finset.card_insert_of_notMem (by simp)]
    push_cast
    ring
  · simp [h]

theorem buffersOf_fst (idx : Fin S → Fin K → Fin E) : (buffersOf idx).1 = idx := by
  funext s k
  simp [buffersOf, swapRavel, rowMajor_divNat, rowMajor_modNat]

/-- Buffer index of the common part: number of earlier (choice, item) pairs for the expert. -/
theorem buffersOf_snd (idx : Fin S → Fin K → Fin E) (s : Fin S) (k : Fin K) (e : Fin E) :
    (buffersOf idx).2 s k e =
      if e = idx s k then
        (((Finset.univ.filter (fun p : Fin K × Fin S =>
          (p.1 < k ∨ (p.1 = k ∧ p.2 < s)) ∧ idx p.2 p.1 = e)).card : Nat) : Int)
      else -1 := by
  simp only [buffersOf]
  rw [bufferFlat_eq]
  have h1 : swapRavel idx (rowMajor k s) = idx s k := by
    simp [swapRavel, rowMajor_divNat, rowMajor_modNat]
  rw [h1]
  congr 2
  symm
  apply Finset.card_bij (fun p _ => rowMajor p.1 p.2)
  · rintro ⟨k', s'⟩ hp
    simp only [Finset.mem_filter, Finset.mem_univ, true_and] at hp ⊢
    refine ⟨(rowMajor_lt_iff _ _ _ _).2 hp.1, ?_⟩
    simpa [swapRavel, rowMajor_divNat, rowMajor_modNat] using hp.2
  · rintro p _ q _ h
    exact pairEquiv.injective h
  · intro i hi
    refine ⟨(i.divNat, i.modNat), ?_, rowMajor_div_mod i⟩
    simp only [Finset.mem_filter, Finset.mem_univ, true_and] at hi ⊢
    refine ⟨?_, hi.2⟩
    rw [← rowMajor_lt_iff, rowMajor_div_mod]
    exact hi.1

section order
variable [LinearOrder R]

theorem rankIn_toDual_eq_choiceRank (gates : Fin S → Fin E → R) (s : Fin S) (e : Fin E) :
    rankIn (fun j => OrderDual.toDual (gates s j)) e = choiceRank gates s e := by
  unfold rankIn choiceRank
  refine congrArg Finset.card (Finset.filter_congr fun b _ => ?_)
  unfold lexLT
  simp [OrderDual.toDual_lt_toDual]

theorem topKIdx_rank {n : Nat} (row : Fin n → R) (k : Nat) (hk : k ≤ n) (i : Fin k) :
    rankIn (fun j => OrderDual.toDual (row j)) (topKIdx row k hk i) = i := by
  unfold rankIn topKIdx
  rw [List.get_eq_getElem]
  exact sortedIdx_rank _ _ _

theorem topKIdx_eq_iff {n : Nat} (row : Fin n → R) (k : Nat) (hk : k ≤ n) (i : Fin k)
    (a : Fin n) :
    topKIdx row k hk i = a ↔ rankIn (fun j => OrderDual.toDual (row j)) a = i := by
  constructor
  · rintro rfl; exact topKIdx_rank row k hk i
  · intro h
    apply rankIn_injective (fun j => OrderDual.toDual (row j))
    rw [topKIdx_rank, h]

theorem topK_eq_iff_choiceRank (gates : Fin S → Fin E → R) (hK : K ≤ E) (s : Fin S) (k : Fin K)
    (e : Fin E) :
    topKIdx (gates s) K hK k = e ↔ choiceRank gates s e = k := by
  rw [topKIdx_eq_iff, rankIn_toDual_eq_choiceRank]

theorem choiceRank_injective (gates : Fin S → Fin E → R) (s : Fin S) :
    Function.Injective (choiceRank gates s) := by
  intro a b h
  rw [← rankIn_toDual_eq_choiceRank, ← rankIn_toDual_eq_choiceRank] at h
  exact rankIn_injective _ h

theorem choiceRank_lt (gates : Fin S → Fin E → R) (s : Fin S) (e : Fin E) :
    choiceRank gates s e < E := by
  rw [← rankIn_toDual_eq_choiceRank]; exact rankIn_lt _ _

theorem choiceRank_lt_of_gate_lt {gates : Fin S → Fin E → R} {s : Fin S} {e e' : Fin E}
    (h : gates s e < gates s e') : choiceRank gates s e' < choiceRank gates s e := by
  rw [← rankIn_toDual_eq_choiceRank, ← rankIn_toDual_eq_choiceRank, rankIn_lt_iff]
  exact Or.inl (OrderDual.toDual_lt_toDual.2 h)

theorem gate_le_of_choiceRank_le {gates : Fin S → Fin E → R} {s : Fin S} {e e' : Fin E}
    (h : choiceRank gates s e' ≤ choiceRank gates s e) : gates s e ≤ gates s e' := by
  by_contra hn
  exact absurd (choiceRank_lt_of_gate_lt (not_le.1 hn)) (by omega)

/-- The first choice has the largest gate. -/
theorem topKVal_zero (hE : 0 < E) (gates : Fin S → Fin E → R) (h0 : 0 < K) (hK : K ≤ E)
    (s : Fin S) : topKVal (gates s) K hK ⟨0, h0⟩ = topGate hE gates s := by
  unfold topKVal topGate
  apply le_antisymm
  · exact Finset.le_sup' (gates s) (Finset.mem_univ _)
  · apply Finset.sup'_le
    intro e _
    apply gate_le_of_choiceRank_le
    have : choiceRank gates s (topKIdx (gates s) K hK ⟨0, h0⟩) = 0 :=
      (topK_eq_iff_choiceRank gates hK s ⟨0, h0⟩ _).1 rfl
    omega

/-- Counting requests as (choice, item) pairs or as items is the same. -/
theorem card_pairs_eq (gates : Fin S → Fin E → R) (hK : K ≤ E) (k : Fin K)
    (e : Fin E) (B : Fin S → Prop) [DecidablePred B] :
    (Finset.univ.filter (fun p : Fin K × Fin S =>
        (p.1 < k ∨ (p.1 = k ∧ B p.2)) ∧ topKIdx (gates p.2) K hK p.1 = e)).card =
      (Finset.univ.filter (fun s' : Fin S => Requests gates K s' e ∧
        (choiceRank gates s' e < k ∨ (choiceRank gates s' e = k ∧ B s')))).card := by
  apply Finset.card_bij (fun p _ => p.2)
  · rintro ⟨k', s'⟩ hp
    simp only [Finset.mem_filter, Finset.mem_univ, true_and, topK_eq_iff_choiceRank] at hp ⊢
    obtain ⟨h1, h2⟩ := hp
    refine ⟨?_, ?_⟩
    · unfold Requests; have := k'.2; omega
    · rcases h1 with h1 | ⟨h1, h3⟩
      · left; rw [h2]; exact h1
      · right; rw [h2, h1]; exact ⟨rfl, h3⟩
  · rintro ⟨k1, s1⟩ h1 ⟨k2, s2⟩ h2 h
    simp only [Finset.mem_filter, Finset.mem_univ, true_and, topK_eq_iff_choiceRank] at h1 h2 h
    subst h
    have : k1 = k2 := Fin.ext (h1.2.symm.trans h2.2)
    rw [this]
  · intro s' hs
    simp only [Finset.mem_filter, Finset.mem_univ, true_and] at hs
    obtain ⟨h1, h2⟩ := hs
    refine ⟨(⟨choiceRank gates s' e, h1⟩, s'), ?_, rfl⟩
    simp only [Finset.mem_filter, Finset.mem_univ, true_and, topK_eq_iff_choiceRank, and_true]
    rcases h2 with h2 | ⟨h2, h3⟩
    · left; exact h2
    · right; exact ⟨Fin.ext h2, h3⟩

end order

section ring
variable [CommRing R] [LinearOrder R] [IsStrictOrderedRing R]

theorem common_expertIndex (gates : Fin S → Fin E → R) (h0 : 0 < K) (hK : K ≤ E) (bp : Bool)
    (s : Fin S) (k : Fin K) :
    (topExpertsCommon gates K h0 hK bp).expertIndex s k = topKIdx (gates s) K hK k := by
  unfold topExpertsCommon
  cases bp
  · simp [buffersOf_fst]
  · simp only [if_true, buffersOf_fst]
    rw [perm_argsort_perm _ (argsort_injective _)]

theorem common_combineWeights (gates : Fin S → Fin E → R) (h0 : 0 < K) (hK : K ≤ E) (bp : Bool)
    (s : Fin S) (k : Fin K) :
    (topExpertsCommon gates K h0 hK bp).combineWeights s k =
      gates s (topKIdx (gates s) K hK k) := by
  unfold topExpertsCommon
  cases bp <;> rfl

theorem common_bufferIndex (hE : 0 < E) (gates : Fin S → Fin E → R) (h0 : 0 < K) (hK : K ≤ E)
    (bp : Bool) (s : Fin S) (k : Fin K) (e : Fin E) :
    (topExpertsCommon gates K h0 hK bp).bufferIndex s k e =
      if e = topKIdx (gates s) K hK k then (slot hE bp gates K s e : Int) else -1 := by
  by_cases he : e = topKIdx (gates s) K hK k
  · rw [if_pos he]
    have hrank : choiceRank gates s e = k := (topK_eq_iff_choiceRank gates hK s k e).1 he.symm
    unfold topExpertsCommon
    cases bp
    · simp only [Bool.false_eq_true, if_false]
      rw [buffersOf_snd, if_pos he, card_pairs_eq gates hK k e (fun s' => s' < s)]
      unfold slot
      refine congrArg _ (congrArg Finset.card (Finset.filter_congr fun s' _ => ?_))
      unfold HigherPriority ItemBefore
      rw [hrank]
      simp
    · simp only [if_true]
      rw [buffersOf_snd]
      set perm := argsort (fun s => - topKVal (gates s) K hK ⟨0, h0⟩) with hperm
      have hinj : Function.Injective perm := argsort_injective _
      have hps : perm (argsort perm s) = s := perm_argsort_perm perm hinj s
      rw [hps, if_pos he]
      have hcard : (Finset.univ.filter (fun p : Fin K × Fin S =>
          (p.1 < k ∨ (p.1 = k ∧ p.2 < argsort perm s)) ∧
            topKIdx (gates (perm p.2)) K hK p.1 = e)).card =
          (Finset.univ.filter (fun p : Fin K × Fin S =>
            (p.1 < k ∨ (p.1 = k ∧ ItemBefore hE true gates p.2 s)) ∧
              topKIdx (gates p.2) K hK p.1 = e)).card := by
        have hlt : ∀ q : Fin S, (q < argsort perm s ↔ ItemBefore hE true gates (perm q) s) := by
          intro q
          rw [argsort_lt_iff (fun s => - topKVal (gates s) K hK ⟨0, h0⟩), ← hperm, hps]
          unfold lexLT ItemBefore
          simp only [topKVal_zero hE, neg_lt_neg_iff, neg_inj, if_true]
        apply Finset.card_bij (fun p _ => (p.1, perm p.2))
        · rintro ⟨k', q⟩ hp
          simp only [Finset.mem_filter, Finset.mem_univ, true_and] at hp ⊢
          rw [hlt] at hp
          exact hp
        · rintro ⟨k1, q1⟩ _ ⟨k2, q2⟩ _ h
          simp only [Prod.mk.injEq] at h
          rw [h.1, hinj h.2]
        · rintro ⟨k', s'⟩ hp
          simp only [Finset.mem_filter, Finset.mem_univ, true_and] at hp
          refine ⟨(k', argsort perm s'), ?_, ?_⟩
          · simp only [Finset.mem_filter, Finset.mem_univ, true_and]
            rw [hlt, perm_argsort_perm perm hinj]
            exact hp
          · simp only [perm_argsort_perm perm hinj]
      rw [hcard, card_pairs_eq gates hK k e (fun s' => ItemBefore hE true gates s' s)]
      unfold slot
      refine congrArg _ (congrArg Finset.card (Finset.filter_congr fun s' _ => ?_))
      unfold HigherPriority
      rw [hrank]
  · rw [if_neg he]
    unfold topExpertsCommon
    cases bp
    · simp only [Bool.false_eq_true, if_false]
      rw [buffersOf_snd, if_neg he]
    · simp only [if_true]
      have hinj : Function.Injective (argsort (fun s => - topKVal (gates s) K hK ⟨0, h0⟩)) :=
        argsort_injective _
      rw [buffersOf_snd, perm_argsort_perm _ hinj, if_neg he]

end ring

end Verif.Moe
