import Verif.Proofs.MoeExpertChoice
import Mathlib.Algebra.Order.Ring.Int
import Mathlib.Data.Fin.VecNotation
import Mathlib.Tactic.FieldSimp
import Mathlib.Tactic.Positivity

/-!
Properties C08 and C09: expert-choice (Top-Items-Per-Expert) routing and its metrics; and the
dense dispatcher.  `Spec.itemRank gates s e` is the number of items that expert `e` prefers to
item `s` (larger gate, or same gate and earlier position).
-/

set_option linter.unusedSectionVars false

namespace Verif.Moe

open Verif Verif.Spec

variable {R M N : Type*} {S E G : Nat} [CommRing R] [LinearOrder R] [IsStrictOrderedRing R]

/-- Gates (in percent) for the examples: three items, two experts. -/
def exGates2 : Fin 3 → Fin 2 → ℤ := ![![75, 25], ![90, 10], ![50, 50]]

/-- C08: slot `c` of expert `e` holds the item that is preferred by exactly `c` other items; the
combine weight is the gate there and zero elsewhere. -/
theorem C08_slot_is_preference_rank (gates : Fin S → Fin E → R) (C : Nat) (hC : C ≤ S) (s : Fin S)
    (e : Fin E) (c : Fin C) :
    ((topItemsEinsum gates C hC).dispatchWeights s e c = true ↔ itemRank gates s e = c) ∧
    (topItemsEinsum gates C hC).combineWeights s e c =
      if itemRank gates s e = c then gates s e else 0 := by
  refine ⟨topItems_dispatchWeights gates C hC s e c, ?_⟩
  by_cases h : itemRank gates s e = c
  · have := (topItems_dispatchWeights gates C hC s e c).2 h
    simp only [topItemsEinsum] at this ⊢
    rw [if_pos this, if_pos h, mul_one]
  · have := mt (topItems_dispatchWeights gates C hC s e c).1 h
    simp only [topItemsEinsum] at this ⊢
    rw [if_neg this, if_neg h, mul_zero]

/-- C08: every slot of every expert holds exactly one item, different slots of an expert hold
different items, and so every expert selects exactly `C` items. -/
theorem C08_every_expert_full (gates : Fin S → Fin E → R) (C : Nat) (hC : C ≤ S) (e : Fin E) :
    (∀ c, ∃! s, (topItemsEinsum gates C hC).dispatchWeights s e c = true) ∧
    (∀ s c c', (topItemsEinsum gates C hC).dispatchWeights s e c = true →
      (topItemsEinsum gates C hC).dispatchWeights s e c' = true → c = c') ∧
    (Finset.univ.filter (fun s =>
      ∃ c, (topItemsEinsum gates C hC).dispatchWeights s e c = true)).card = C := by
  refine ⟨?_, ?_, ?_⟩
  · intro c
    refine ⟨topKIdx (fun s => gates s e) C hC c, ?_, ?_⟩
    · exact (topItems_dispatchWeights gates C hC _ e c).2
        ((topK_eq_iff_itemRank gates C hC e c _).1 rfl)
    · intro s hs
      exact ((topK_eq_iff_itemRank gates C hC e c s).2
        ((topItems_dispatchWeights gates C hC s e c).1 hs)).symm
  · intro s c c' h h'
    rw [topItems_dispatchWeights] at h h'
    exact Fin.ext (h.symm.trans h')
  · refine Eq.trans ?_ (card_itemRank_lt gates C hC e)
    congr 1
    ext s
    simp only [Finset.mem_filter, Finset.mem_univ, true_and]
    constructor
    · rintro ⟨c, hc⟩
      rw [topItems_dispatchWeights] at hc
      exact hc ▸ c.2
    · intro h
      exact ⟨⟨_, h⟩, (topItems_dispatchWeights gates C hC s e _).2 rfl⟩

/-- C08: selected items are the best ones.  An item that expert `e` did not select has no larger
gate than any selected one (ties: later position); slots are in decreasing gate order. -/
theorem C08_selected_are_best (gates : Fin S → Fin E → R) (C : Nat) (hC : C ≤ S) (e : Fin E)
    (s s' : Fin S) (c : Fin C) (hs : (topItemsEinsum gates C hC).dispatchWeights s e c = true) :
    ((∀ c', (topItemsEinsum gates C hC).dispatchWeights s' e c' = false) →
      gates s' e < gates s e ∨ (gates s' e = gates s e ∧ s < s')) ∧
    (∀ c', c < c' → (topItemsEinsum gates C hC).dispatchWeights s' e c' = true →
      gates s' e < gates s e ∨ (gates s' e = gates s e ∧ s < s')) := by
  rw [topItems_dispatchWeights] at hs
  constructor
  · intro h
    rw [← itemRank_lt_iff]
    by_contra hn
    have hlt : itemRank gates s' e < C := by have := c.2; omega
    have := h ⟨_, hlt⟩
    rw [Bool.eq_false_iff] at this
    exact this ((topItems_dispatchWeights gates C hC s' e _).2 rfl)
  · intro c' hcc h'
    rw [topItems_dispatchWeights] at h'
    rw [← itemRank_lt_iff, hs, h']
    exact hcc

example : (topItemsEinsum exGates2 2 (by decide)).dispatchWeights 1 0 0 = true ∧
    (topItemsEinsum exGates2 2 (by decide)).dispatchWeights 0 0 1 = true ∧
    (topItemsEinsum exGates2 2 (by decide)).dispatchWeights 2 1 0 = true ∧
    ∀ c, (topItemsEinsum exGates2 2 (by decide)).dispatchWeights 2 0 c = false := by decide

/-- C08: the MoE layer with expert choice: every item gets the gated sum of the experts that
selected it. -/
theorem C08_moe_layer {P : Type*} [AddCommMonoid M] [Module R M] [AddCommMonoid N] [Module R N]
    (gates : Fin G → Fin S → Fin E → R) (C : Nat) (hC : C ≤ S) (params : Fin E → P)
    (f : P → M → N) (x : Fin G → Fin S → M) (g : Fin G) (s : Fin S) :
    sparseMoe (einsumDispatch (fun g => topItemsEinsum (gates g) C hC))
        (einsumCombine (fun g => topItemsEinsum (gates g) C hC)) params f x g s =
      ∑ e ∈ Finset.univ.filter (fun e => itemRank (gates g) s e < C),
        gates g s e • f (params e) (x g s) := by
  unfold sparseMoe einsumCombine
  simp only
  rw [Finset.sum_filter]
  apply Finset.sum_congr rfl
  intro e _
  by_cases h : itemRank (gates g) s e < C
  · rw [if_pos h, Finset.sum_eq_single ⟨_, h⟩]
    · rw [(C08_slot_is_preference_rank (gates g) C hC s e _).2, if_pos rfl, receiveExchange_column]
      congr 1
      unfold applyExperts einsumDispatch
      rw [dispatchExchange_column]
      unfold einsumDispatchBuf boolWeight
      beta_reduce
      rw [Finset.sum_eq_single s]
      · rw [if_pos ((topItems_dispatchWeights (gates g) C hC s e _).2 rfl), one_smul]
      · intro s' _ hne
        rw [if_neg, zero_smul]
        intro hd
        rw [topItems_dispatchWeights] at hd
        apply hne
        have h1 : itemRank (gates g) s' e = itemRank (gates g) s e := hd
        rw [← rankIn_toDual_eq_itemRank, ← rankIn_toDual_eq_itemRank] at h1
        exact rankIn_injective _ h1
      · intro hn; exact absurd (Finset.mem_univ _) hn
    · intro i _ hi
      rw [(C08_slot_is_preference_rank (gates g) C hC s e i).2, if_neg, zero_smul]
      intro hh
      exact hi (Fin.ext hh.symm)
    · intro hn; exact absurd (Finset.mem_univ _) hn
  · rw [if_neg h]
    apply Finset.sum_eq_zero
    intro i _
    rw [(C08_slot_is_preference_rank (gates g) C hC s e i).2, if_neg, zero_smul]
    intro hh
    exact h (hh ▸ i.2)

/-! ### C09 -/

/-- C09: the reported minimum and maximum of experts per item are attained and are bounds of the
number of experts that selected each item. -/
theorem C09_min_max (gates : Fin S → Fin E → R) (C : Nat) (hC : C ≤ S) (hC0 : 0 < C) (hE : 0 < E) :
    let m := topItemsMetrics gates C hC hC0 hE
    let count := fun s : Fin S => (Finset.univ.filter (fun e =>
      ∃ c, (topItemsEinsum gates C hC).dispatchWeights s e c = true)).card
    (∀ s, m.numExpertsPerItemMin ≤ count s ∧ count s ≤ m.numExpertsPerItemMax) ∧
    (∃ s, count s = m.numExpertsPerItemMin) ∧ (∃ s, count s = m.numExpertsPerItemMax) := by
  have hcount : ∀ s : Fin S, (Finset.univ.filter (fun e =>
      ∃ c, (topItemsEinsum gates C hC).dispatchWeights s e c = true)).card =
      numExpertsPerItem (topItemsEinsum gates C hC).dispatchWeights s := by
    intro s
    rw [numExpertsPerItem_eq]
    congr 1
    ext e
    simp only [Finset.mem_filter, Finset.mem_univ, true_and]
    constructor
    · rintro ⟨c, hc⟩
      rw [topItems_dispatchWeights] at hc
      exact hc ▸ c.2
    · intro h
      exact ⟨⟨_, h⟩, (topItems_dispatchWeights gates C hC s e _).2 rfl⟩
  simp only [hcount, topItemsMetrics]
  refine ⟨fun s => ⟨Finset.inf'_le _ (Finset.mem_univ s), Finset.le_sup' _ (Finset.mem_univ s)⟩,
    ?_, ?_⟩
  · obtain ⟨s, _, hs⟩ := Finset.exists_mem_eq_inf' (s := (Finset.univ : Finset (Fin S)))
      ⟨⟨0, Nat.lt_of_lt_of_le hC0 hC⟩, Finset.mem_univ _⟩
      (numExpertsPerItem (topItemsEinsum gates C hC).dispatchWeights)
    exact ⟨s, hs.symm⟩
  · obtain ⟨s, _, hs⟩ := Finset.exists_mem_eq_sup' (s := (Finset.univ : Finset (Fin S)))
      ⟨⟨0, Nat.lt_of_lt_of_le hC0 hC⟩, Finset.mem_univ _⟩
      (numExpertsPerItem (topItemsEinsum gates C hC).dispatchWeights)
    exact ⟨s, hs.symm⟩

/-- C09: the numbers of experts per item add up to experts times capacity. -/
theorem C09_total (gates : Fin S → Fin E → R) (C : Nat) (hC : C ≤ S) :
    ∑ s, numExpertsPerItem (topItemsEinsum gates C hC).dispatchWeights s = E * C := by
  simp only [numExpertsPerItem_eq, Finset.card_filter]
  rw [Finset.sum_comm]
  simp only [← Finset.card_filter, card_itemRank_lt gates C hC, Finset.sum_const, Finset.card_univ,
    Fintype.card_fin, smul_eq_mul]

/-- C09: each reported ratio is the fraction of items selected by at least `t` experts; ratios
decrease with the threshold and lie in `[0, 1]`.  Every power of two up to `E`, and `E` itself,
is reported. -/
theorem C09_ratios (gates : Fin S → Fin E → R) (C : Nat) (hC : C ≤ S) (hC0 : 0 < C) (hE : 0 < E) :
    let m := topItemsMetrics gates C hC hC0 hE
    (∀ t r, (t, r) ∈ m.ratios → r * S = ((Finset.univ.filter (fun s : Fin S => t ≤
      (Finset.univ.filter (fun e => itemRank gates s e < C)).card)).card : ℚ)) ∧
    (∀ t r t' r', (t, r) ∈ m.ratios → (t', r') ∈ m.ratios → t ≤ t' → r' ≤ r) ∧
    (∀ t r, (t, r) ∈ m.ratios → 0 ≤ r ∧ r ≤ 1) ∧
    (∃ r, (E, r) ∈ m.ratios) ∧ (∀ i, 2 ^ i ≤ E → ∃ r, (2 ^ i, r) ∈ m.ratios) := by
  have hS : (0 : ℚ) < S := by
    have : 0 < S := Nat.lt_of_lt_of_le hC0 hC
    exact_mod_cast this
  have hmem : ∀ t r, (t, r) ∈ (topItemsMetrics gates C hC hC0 hE).ratios →
      r = ((Finset.univ.filter (fun s : Fin S => t ≤
      (Finset.univ.filter (fun e => itemRank gates s e < C)).card)).card : ℚ) / S := by
    intro t r h
    simp only [topItemsMetrics, List.mem_map, Prod.mk.injEq, numExpertsPerItem_eq] at h
    obtain ⟨a, _, rfl, rfl⟩ := h
    rfl
  refine ⟨?_, ?_, ?_, ?_, ?_⟩
  · intro t r h
    rw [hmem t r h, div_mul_cancel₀ _ (ne_of_gt hS)]
  · intro t r t' r' h h' htt
    rw [hmem t r h, hmem t' r' h']
    apply div_le_div_of_nonneg_right _ hS.le
    have : (Finset.univ.filter (fun s : Fin S => t' ≤
      (Finset.univ.filter (fun e => itemRank gates s e < C)).card)).card ≤
      (Finset.univ.filter (fun s : Fin S => t ≤
      (Finset.univ.filter (fun e => itemRank gates s e < C)).card)).card := by
      apply Finset.card_le_card
      intro s hs
      simp only [Finset.mem_filter, Finset.mem_univ, true_and] at hs ⊢
      omega
    exact_mod_cast this
  · intro t r h
    rw [hmem t r h]
    constructor
    · positivity
    · rw [div_le_one hS]
      have : (Finset.univ.filter (fun s : Fin S => t ≤
        (Finset.univ.filter (fun e => itemRank gates s e < C)).card)).card ≤ S := by
        have := Finset.card_le_univ (Finset.univ.filter (fun s : Fin S => t ≤
          (Finset.univ.filter (fun e => itemRank gates s e < C)).card))
        simpa using this
      exact_mod_cast this
  · exact ⟨_, by
      simp only [topItemsMetrics, List.mem_map]
      exact ⟨E, by simp [ratioThresholds], rfl⟩⟩
  · intro i hi
    exact ⟨_, by
      simp only [topItemsMetrics, List.mem_map]
      refine ⟨2 ^ i, ?_, rfl⟩
      simp only [ratioThresholds, List.mem_append, List.mem_map, List.mem_range]
      left
      refine ⟨i, ?_, rfl⟩
      have : i ≤ Nat.log2 E := (Nat.le_log2 (by omega)).2 hi
      omega⟩

/-- C09: the reported extreme gates are those of the selected (item, expert) pairs. -/
theorem C09_selected_gates (gates : Fin S → Fin E → R) (C : Nat) (hC : C ≤ S) (hC0 : 0 < C)
    (hE : 0 < E) :
    let m := topItemsMetrics gates C hC hC0 hE
    (∀ s e, itemRank gates s e < C → m.minSelectedGate ≤ gates s e ∧ gates s e ≤ m.maxSelectedGate) ∧
    (∃ s e, itemRank gates s e < C ∧ gates s e = m.minSelectedGate) ∧
    (∃ s e, itemRank gates s e < C ∧ gates s e = m.maxSelectedGate) := by
  have hne : (Finset.univ : Finset (Fin E × Fin C)).Nonempty :=
    ⟨(⟨0, hE⟩, ⟨0, hC0⟩), Finset.mem_univ _⟩
  have hrank : ∀ (e : Fin E) (c : Fin C), itemRank gates (topKIdx (fun s => gates s e) C hC c) e < C :=
    fun e c => by rw [(topK_eq_iff_itemRank gates C hC e c _).1 rfl]; exact c.2
  simp only [topItemsMetrics]
  refine ⟨?_, ?_, ?_⟩
  · intro s e h
    have hval : topKVal (fun s => gates s e) C hC ⟨_, h⟩ = gates s e := by
      unfold topKVal
      rw [(topK_eq_iff_itemRank gates C hC e ⟨_, h⟩ s).2 rfl]
    rw [← hval]
    exact ⟨Finset.inf'_le (fun p : Fin E × Fin C => topKVal (fun s => gates s p.1) C hC p.2)
      (Finset.mem_univ (e, ⟨_, h⟩)),
      Finset.le_sup' (fun p : Fin E × Fin C => topKVal (fun s => gates s p.1) C hC p.2)
      (Finset.mem_univ (e, ⟨_, h⟩))⟩
  · obtain ⟨p, _, hp⟩ := Finset.exists_mem_eq_inf' hne
      (fun p : Fin E × Fin C => topKVal (fun s => gates s p.1) C hC p.2)
    exact ⟨_, p.1, hrank p.1 p.2, hp.symm⟩
  · obtain ⟨p, _, hp⟩ := Finset.exists_mem_eq_sup' hne
      (fun p : Fin E × Fin C => topKVal (fun s => gates s p.1) C hC p.2)
    exact ⟨_, p.1, hrank p.1 p.2, hp.symm⟩

example : (topItemsMetrics exGates2 2 (by decide) (by decide) (by decide)).numExpertsPerItemMin = 1 ∧
    (topItemsMetrics exGates2 2 (by decide) (by decide) (by decide)).numExpertsPerItemMax = 2 := by
  decide

end Verif.Moe
