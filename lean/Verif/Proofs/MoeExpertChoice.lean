import Verif.Model.MoeMetrics
import Verif.Model.MoeDispatch
import Verif.Proofs.MoeSlots
import Mathlib.Algebra.BigOperators.Ring.Finset
import Mathlib.Data.Fintype.BigOperators

/-! Helper lemmas for expert-choice routing. -/

set_option linter.unusedSectionVars false

namespace Verif.Moe

open Verif Verif.Spec

variable {R : Type*} {S E : Nat}

section
variable [LinearOrder R]

theorem rankIn_toDual_eq_itemRank (gates : Fin S → Fin E → R) (s : Fin S) (e : Fin E) :
    rankIn (fun j => OrderDual.toDual (gates j e)) s = itemRank gates s e := by
  unfold rankIn itemRank
  refine congrArg Finset.card (Finset.filter_congr fun b _ => ?_)
  unfold lexLT
  simp [OrderDual.toDual_lt_toDual]

theorem topK_eq_iff_itemRank (gates : Fin S → Fin E → R) (C : Nat) (hC : C ≤ S) (e : Fin E)
    (i : Fin C) (s : Fin S) :
    topKIdx (fun s => gates s e) C hC i = s ↔ itemRank gates s e = i := by
  rw [topKIdx_eq_iff, rankIn_toDual_eq_itemRank]

theorem itemRank_lt_iff (gates : Fin S → Fin E → R) (e : Fin E) (a b : Fin S) :
    itemRank gates a e < itemRank gates b e ↔
      gates b e < gates a e ∨ (gates b e = gates a e ∧ a < b) := by
  rw [← rankIn_toDual_eq_itemRank, ← rankIn_toDual_eq_itemRank, rankIn_lt_iff]
  unfold lexLT
  simp only [OrderDual.toDual_lt_toDual, OrderDual.toDual_inj]
  constructor
  · rintro (h | ⟨h, h'⟩)
    · exact Or.inl h
    · exact Or.inr ⟨h.symm, h'⟩
  · rintro (h | ⟨h, h'⟩)
    · exact Or.inl h
    · exact Or.inr ⟨h.symm, h'⟩

end

section
variable [CommRing R] [LinearOrder R]

theorem topItems_dispatchWeights (gates : Fin S → Fin E → R) (C : Nat) (hC : C ≤ S) (s : Fin S)
    (e : Fin E) (i : Fin C) :
    (topItemsEinsum gates C hC).dispatchWeights s e i = true ↔ itemRank gates s e = i := by
  simp only [topItemsEinsum, decide_eq_true_eq]
  exact topK_eq_iff_itemRank gates C hC e i s

theorem numExpertsPerItem_eq (gates : Fin S → Fin E → R) (C : Nat) (hC : C ≤ S) (s : Fin S) :
    numExpertsPerItem (topItemsEinsum gates C hC).dispatchWeights s =
      (Finset.univ.filter (fun e => itemRank gates s e < C)).card := by
  unfold numExpertsPerItem
  rw [Finset.card_filter]
  apply Finset.sum_congr rfl
  intro e _
  by_cases h : itemRank gates s e < C
  · rw [if_pos h, Finset.sum_eq_single ⟨_, h⟩]
    · rw [if_pos ((topItems_dispatchWeights gates C hC s e _).2 rfl)]
    · intro i _ hi
      rw [if_neg]
      intro hd
      exact hi (Fin.ext ((topItems_dispatchWeights gates C hC s e i).1 hd).symm)
    · intro hn; exact absurd (Finset.mem_univ _) hn
  · rw [if_neg h]
    apply Finset.sum_eq_zero
    intro i _
    rw [if_neg]
    intro hd
    have := (topItems_dispatchWeights gates C hC s e i).1 hd
    exact h (this ▸ i.2)

theorem card_itemRank_lt (gates : Fin S → Fin E → R) (C : Nat) (hC : C ≤ S) (e : Fin E) :
    (Finset.univ.filter (fun s => itemRank gates s e < C)).card = C := by
  have : (Finset.univ.filter (fun s => itemRank gates s e < C)) =
      (Finset.univ : Finset (Fin C)).image (topKIdx (fun s => gates s e) C hC) := by
    ext s
    simp only [Finset.mem_filter, Finset.mem_univ, true_and, Finset.mem_image]
    constructor
    · intro h; exact ⟨⟨_, h⟩, (topK_eq_iff_itemRank gates C hC e _ s).2 rfl⟩
    · rintro ⟨i, hi⟩
      rw [(topK_eq_iff_itemRank gates C hC e i s).1 hi]
      exact i.2
  rw [this, Finset.card_image_of_injective, Finset.card_univ, Fintype.card_fin]
  intro a b h
  have h1 := (topK_eq_iff_itemRank gates C hC e a _).1 rfl
  have h2 := (topK_eq_iff_itemRank gates C hC e b _).1 rfl
  rw [h, h2] at h1
  exact Fin.ext h1.symm

end

end Verif.Moe
