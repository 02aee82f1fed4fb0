import Verif.Proofs.MoeSlots
import Mathlib.Algebra.Order.Ring.Int
import Mathlib.Data.Fin.VecNotation

/-!
Properties C01-C07 and C14: item-choice routing, dispatch/combine, sparse MoE layer.

`gates : Fin S → Fin E → R` is the (group size, experts) gate matrix, `K` the number of selected
experts, `cap` the capacity and `bp` the batch priority flag.  `Spec.Requests`, `Spec.slot`,
`Spec.Kept` are in `Verif/Spec/Routing.lean` and do not refer to the code.
-/

set_option linter.unusedSectionVars false

namespace Verif.Moe

open Verif Verif.Spec

variable {R M N : Type*} {S K E G : Nat}
variable [CommRing R] [LinearOrder R] [IsStrictOrderedRing R]

/-- A gate matrix (in percent) used in the examples: three items, two experts. -/
def exGates : Fin 3 → Fin 2 → ℤ := ![![75, 25], ![90, 10], ![50, 50]]

/-! ### C01 -/

/-- C01 (einsum dispatcher): a slot of an expert holds at most one item, an item occupies at most
one slot of an expert, and an expert receives at most `cap` items. -/
theorem C01_einsum_slots_exclusive (gates : Fin S → Fin E → R) (h0 : 0 < K) (hK : K ≤ E)
    (cap : Nat) (bp : Bool) (e : Fin E) :
    let w := topExpertsEinsum gates K h0 hK cap bp
    (∀ s₁ s₂ c, w.dispatchWeights s₁ e c = true → w.dispatchWeights s₂ e c = true → s₁ = s₂) ∧
    (∀ s c₁ c₂, w.dispatchWeights s e c₁ = true → w.dispatchWeights s e c₂ = true → c₁ = c₂) ∧
    (Finset.univ.filter (fun s => ∃ c, w.dispatchWeights s e c = true)).card ≤ cap := by
  have hE : 0 < E := Nat.lt_of_lt_of_le h0 hK
  refine ⟨?_, ?_, ?_⟩
  · intro s₁ s₂ c h₁ h₂
    rw [einsum_dispatchWeights hE] at h₁ h₂
    exact slot_inj hE bp gates K e h₁.1 h₂.1 (h₁.2.trans h₂.2.symm)
  · intro s c₁ c₂ h₁ h₂
    rw [einsum_dispatchWeights hE] at h₁ h₂
    exact Fin.ext (h₁.2.symm.trans h₂.2)
  · have : (Finset.univ.filter (fun s => ∃ c,
        (topExpertsEinsum gates K h0 hK cap bp).dispatchWeights s e c = true)) ⊆
        (requesters gates K e).filter (fun s => slot hE bp gates K s e < cap) := by
      intro s hs
      simp only [Finset.mem_filter, Finset.mem_univ, true_and] at hs
      obtain ⟨c, hc⟩ := hs
      rw [einsum_dispatchWeights hE] at hc
      rw [Finset.mem_filter, mem_requesters, hc.2]
      exact ⟨hc.1, c.2⟩
    exact (Finset.card_le_card this).trans (by rw [card_slot_lt]; exact Nat.min_le_right _ _)

/-- C01 (indices dispatcher): different requests never get the same (expert, slot) pair. -/
theorem C01_indices_slots_exclusive (gates : Fin S → Fin E → R) (h0 : 0 < K) (hK : K ≤ E)
    (cap : Nat) (bp : Bool) (s₁ s₂ : Fin S) (k₁ k₂ : Fin K)
    (h : (topExpertsIndices gates K h0 hK cap bp).indices s₁ k₁ =
      (topExpertsIndices gates K h0 hK cap bp).indices s₂ k₂) : s₁ = s₂ ∧ k₁ = k₂ := by
  have hE : 0 < E := Nat.lt_of_lt_of_le h0 hK
  rw [indices_indices hE, indices_indices hE] at h
  simp only [Prod.mk.injEq, Nat.cast_inj] at h
  have he : topKIdx (gates s₁) K hK k₁ = topKIdx (gates s₂) K hK k₂ := Fin.ext h.1
  have hs : s₁ = s₂ := by
    refine slot_inj hE bp gates K (topKIdx (gates s₁) K hK k₁) (requests_topK gates hK s₁ k₁) ?_ ?_
    · rw [he]; exact requests_topK gates hK s₂ k₂
    · rw [h.2, he]
  subst hs
  exact ⟨rfl, topKIdx_injective gates hK _ he⟩

-- Non-vacuity: with three items wanting expert 0, two of them share the expert in distinct slots.
example : (topExpertsEinsum exGates 1 (by decide) (by decide) 2 true).dispatchWeights 1 0 0 = true ∧
    (topExpertsEinsum exGates 1 (by decide) (by decide) 2 true).dispatchWeights 0 0 1 = true ∧
    ∀ e c, (topExpertsEinsum exGates 1 (by decide) (by decide) 2 true).dispatchWeights 2 e c =
      false := by decide

/-! ### C02 -/

/-- C02: the experts requested by an item are `K` different ones, in decreasing gate order (ties:
lower index first), and every other expert has a gate not larger than each requested one (ties:
larger index).  The stored combine weights are the gates of the requested experts. -/
theorem C02_items_request_top_experts (gates : Fin S → Fin E → R) (h0 : 0 < K) (hK : K ≤ E)
    (bp : Bool) (s : Fin S) :
    let r := topExpertsCommon gates K h0 hK bp
    Function.Injective (r.expertIndex s) ∧
    (∀ k k', k < k' → gates s (r.expertIndex s k') < gates s (r.expertIndex s k) ∨
      (gates s (r.expertIndex s k') = gates s (r.expertIndex s k) ∧
        r.expertIndex s k < r.expertIndex s k')) ∧
    (∀ k e, (∀ k', r.expertIndex s k' ≠ e) → gates s e < gates s (r.expertIndex s k) ∨
      (gates s e = gates s (r.expertIndex s k) ∧ r.expertIndex s k < e)) ∧
    (∀ k, r.combineWeights s k = gates s (r.expertIndex s k)) := by
  have hidx : (topExpertsCommon gates K h0 hK bp).expertIndex s = topKIdx (gates s) K hK :=
    funext (common_expertIndex gates h0 hK bp s)
  simp only [hidx, common_combineWeights]
  have key : ∀ a b : Fin E, choiceRank gates s a < choiceRank gates s b →
      gates s b < gates s a ∨ (gates s b = gates s a ∧ a < b) := by
    intro a b h
    rw [← rankIn_toDual_eq_choiceRank, ← rankIn_toDual_eq_choiceRank, rankIn_lt_iff] at h
    rcases h with h | ⟨h1, h2⟩
    · exact Or.inl (OrderDual.toDual_lt_toDual.1 h)
    · exact Or.inr ⟨(OrderDual.toDual_inj.1 h1).symm, h2⟩
  refine ⟨topKIdx_injective gates hK s, ?_, ?_, fun _ => trivial⟩
  · intro k k' hk
    apply key
    rw [(topK_eq_iff_choiceRank gates hK s k _).1 rfl, (topK_eq_iff_choiceRank gates hK s k' _).1 rfl]
    exact hk
  · intro k e he
    apply key
    rw [(topK_eq_iff_choiceRank gates hK s k _).1 rfl]
    by_contra hn
    have hlt : choiceRank gates s e < K := by have := k.2; omega
    exact he ⟨_, hlt⟩ ((topK_eq_iff_choiceRank gates hK s ⟨_, hlt⟩ e).2 rfl)

/-- C02: both dispatchers only send an item to experts it requested; the indices dispatcher lists
exactly the requested experts. -/
theorem C02_dispatch_only_requested (gates : Fin S → Fin E → R) (h0 : 0 < K) (hK : K ≤ E)
    (cap : Nat) (bp : Bool) (s : Fin S) :
    (∀ e c, (topExpertsEinsum gates K h0 hK cap bp).dispatchWeights s e c = true →
      ∃ k, (topExpertsCommon gates K h0 hK bp).expertIndex s k = e) ∧
    (∀ e c, (topExpertsEinsum gates K h0 hK cap bp).combineWeights s e c ≠ 0 →
      (topExpertsEinsum gates K h0 hK cap bp).combineWeights s e c = gates s e ∧
      ∃ k, (topExpertsCommon gates K h0 hK bp).expertIndex s k = e) ∧
    (∀ k, ((topExpertsIndices gates K h0 hK cap bp).indices s k).1 =
      (((topExpertsCommon gates K h0 hK bp).expertIndex s k : Nat) : Int)) := by
  have hE : 0 < E := Nat.lt_of_lt_of_le h0 hK
  simp only [common_expertIndex]
  refine ⟨?_, ?_, ?_⟩
  · intro e c h
    rw [einsum_dispatchWeights hE] at h
    exact (requests_iff_exists gates hK s e).1 h.1
  · intro e c h
    rw [einsum_combineWeights] at h ⊢
    split at h
    · rename_i hd
      rw [if_pos hd]
      rw [einsum_dispatchWeights hE] at hd
      exact ⟨rfl, (requests_iff_exists gates hK s e).1 hd.1⟩
    · exact absurd rfl h
  · intro k
    rw [indices_indices hE]

example : (topExpertsCommon exGates 2 (by decide) (by decide) true).expertIndex 2 0 = 0 ∧
    (topExpertsCommon exGates 2 (by decide) (by decide) true).expertIndex 2 1 = 1 := by decide

/-! ### C03 -/

/-- C03: the slot of a request is the number of requests for that expert of higher priority; a
slot is used exactly by the request with that number. -/
theorem C03_einsum_slot_is_count (hE : 0 < E) (gates : Fin S → Fin E → R) (h0 : 0 < K)
    (hK : K ≤ E) (cap : Nat) (bp : Bool) (s : Fin S) (e : Fin E) (c : Fin cap) :
    (topExpertsEinsum gates K h0 hK cap bp).dispatchWeights s e c = true ↔
      Requests gates K s e ∧ (Finset.univ.filter (fun s' : Fin S =>
        Requests gates K s' e ∧ HigherPriority hE bp gates e s' s)).card = c :=
  einsum_dispatchWeights hE gates h0 hK cap bp s e c

/-- C03 (indices dispatcher): the second index of choice `k` is the same number, and `k` is the
rank of that choice. -/
theorem C03_indices_slot_is_count (hE : 0 < E) (gates : Fin S → Fin E → R) (h0 : 0 < K)
    (hK : K ≤ E) (cap : Nat) (bp : Bool) (s : Fin S) (k : Fin K) :
    ∃ e : Fin E, ((topExpertsIndices gates K h0 hK cap bp).indices s k).1 = ((e : Nat) : Int) ∧
      choiceRank gates s e = k ∧
      ((topExpertsIndices gates K h0 hK cap bp).indices s k).2 =
        (((Finset.univ.filter (fun s' : Fin S =>
          Requests gates K s' e ∧ HigherPriority hE bp gates e s' s)).card : Nat) : Int) := by
  refine ⟨topKIdx (gates s) K hK k, ?_, ?_, ?_⟩
  · rw [indices_indices hE]
  · exact (topK_eq_iff_choiceRank gates hK s k _).1 rfl
  · rw [indices_indices hE]; rfl

/-- C03: a request is dropped (gets no slot) if and only if at least `cap` requests for the same
expert have higher priority. -/
theorem C03_dropped_iff (hE : 0 < E) (gates : Fin S → Fin E → R) (h0 : 0 < K) (hK : K ≤ E)
    (cap : Nat) (bp : Bool) (s : Fin S) (e : Fin E) (hr : Requests gates K s e) :
    (∀ c, (topExpertsEinsum gates K h0 hK cap bp).dispatchWeights s e c = false) ↔
      cap ≤ (Finset.univ.filter (fun s' : Fin S =>
        Requests gates K s' e ∧ HigherPriority hE bp gates e s' s)).card := by
  constructor
  · intro h
    by_contra hn
    have := h ⟨slot hE bp gates K s e, not_le.1 hn⟩
    rw [Bool.eq_false_iff] at this
    exact this ((einsum_dispatchWeights hE gates h0 hK cap bp s e _).2 ⟨hr, rfl⟩)
  · intro h c
    rw [Bool.eq_false_iff]
    intro hc
    have h2 := ((einsum_dispatchWeights hE gates h0 hK cap bp s e c).1 hc).2
    have h3 : slot hE bp gates K s e < cap := by rw [h2]; exact c.2
    exact absurd h (not_le.2 h3)

/-- C03: without holes.  If a slot of an expert is used, every lower slot is used as well. -/
theorem C03_no_holes (gates : Fin S → Fin E → R) (h0 : 0 < K) (hK : K ≤ E)
    (cap : Nat) (bp : Bool) (s : Fin S) (e : Fin E) (c c' : Fin cap)
    (h : (topExpertsEinsum gates K h0 hK cap bp).dispatchWeights s e c = true) (hc : c' < c) :
    ∃ s', (topExpertsEinsum gates K h0 hK cap bp).dispatchWeights s' e c' = true := by
  have hE : 0 < E := Nat.lt_of_lt_of_le h0 hK
  rw [einsum_dispatchWeights hE] at h
  have hlt := slot_lt_card hE bp gates K e h.1
  have : (c' : Nat) ∈ (requesters gates K e).image (fun s => slot hE bp gates K s e) := by
    rw [image_slot, Finset.mem_range]
    have : (c' : Nat) < c := hc
    omega
  rw [Finset.mem_image] at this
  obtain ⟨s', hs', h'⟩ := this
  exact ⟨s', (einsum_dispatchWeights hE gates h0 hK cap bp s' e c').2 ⟨mem_requesters.1 hs', h'⟩⟩

-- Non-vacuity: in plain order, item 2 is the one that is dropped by expert 0 (capacity 2).
example : Requests exGates 1 2 0 ∧ ∀ c,
    (topExpertsEinsum exGates 1 (by decide) (by decide) 2 false).dispatchWeights 2 0 c = false := by
  decide

/-! ### C04 -/

/-- C04: batch priority.  If a request is kept then a request of the same rank for the same expert
by an item with a larger top gate (or the same top gate and an earlier position) is kept. -/
theorem C04_batch_priority_monotone (hE : 0 < E) (gates : Fin S → Fin E → R) (h0 : 0 < K)
    (hK : K ≤ E) (cap : Nat) (s s' : Fin S) (e : Fin E)
    (hkept : ∃ c, (topExpertsEinsum gates K h0 hK cap true).dispatchWeights s e c = true)
    (hrank : choiceRank gates s' e = choiceRank gates s e)
    (hgate : topGate hE gates s < topGate hE gates s' ∨
      (topGate hE gates s = topGate hE gates s' ∧ s' < s)) :
    ∃ c', (topExpertsEinsum gates K h0 hK cap true).dispatchWeights s' e c' = true := by
  obtain ⟨c, hc⟩ := hkept
  rw [einsum_dispatchWeights hE] at hc
  have hr' : Requests gates K s' e := by unfold Requests; rw [hrank]; exact hc.1
  have hp : HigherPriority hE true gates e s' s := by
    refine Or.inr ⟨hrank, ?_⟩
    unfold ItemBefore
    rw [if_pos rfl]
    rcases hgate with h | ⟨h1, h2⟩
    · exact Or.inl h
    · exact Or.inr ⟨h1.symm, h2⟩
  have := slot_lt_of_higher hE true gates K e hr' hp
  have hlt : slot hE true gates K s' e < cap := by have := c.2; omega
  exact ⟨⟨_, hlt⟩, (einsum_dispatchWeights hE gates h0 hK cap true s' e _).2 ⟨hr', rfl⟩⟩

/-- C04: top-1 choices have priority over top-2 choices and so on, whatever the items and the
batch-priority flag: if a request is kept, every better-ranked request for the expert is kept. -/
theorem C04_choice_rank_first (gates : Fin S → Fin E → R) (h0 : 0 < K) (hK : K ≤ E)
    (cap : Nat) (bp : Bool) (s s' : Fin S) (e : Fin E)
    (hkept : ∃ c, (topExpertsEinsum gates K h0 hK cap bp).dispatchWeights s e c = true)
    (hrank : choiceRank gates s' e < choiceRank gates s e) :
    ∃ c', (topExpertsEinsum gates K h0 hK cap bp).dispatchWeights s' e c' = true := by
  have hE : 0 < E := Nat.lt_of_lt_of_le h0 hK
  obtain ⟨c, hc⟩ := hkept
  rw [einsum_dispatchWeights hE] at hc
  have hr' : Requests gates K s' e := by have := hc.1; unfold Requests at *; omega
  have := slot_lt_of_higher hE bp gates K e hr' (Or.inl hrank : HigherPriority hE bp gates e s' s)
  have hlt : slot hE bp gates K s' e < cap := by have := c.2; omega
  exact ⟨⟨_, hlt⟩, (einsum_dispatchWeights hE gates h0 hK cap bp s' e _).2 ⟨hr', rfl⟩⟩

/-- C04: results are reported in the original item order: the requested experts and the combine
weights of every item do not depend on the batch-priority flag. -/
theorem C04_original_order (gates : Fin S → Fin E → R) (h0 : 0 < K) (hK : K ≤ E) (s : Fin S)
    (k : Fin K) :
    (topExpertsCommon gates K h0 hK true).expertIndex s k =
      (topExpertsCommon gates K h0 hK false).expertIndex s k ∧
    (topExpertsCommon gates K h0 hK true).combineWeights s k =
      (topExpertsCommon gates K h0 hK false).combineWeights s k := by
  simp only [common_expertIndex, common_combineWeights, and_self]

-- Non-vacuity: item 0 (top gate 75) is kept, so item 1 (top gate 90) is kept.
example : (∃ c, (topExpertsEinsum exGates 1 (by decide) (by decide) 2 true).dispatchWeights 0 0 c =
      true) ∧ choiceRank exGates 1 0 = choiceRank exGates 0 0 ∧
    topGate (by decide) exGates 0 < topGate (by decide) exGates 1 := by
  refine ⟨⟨1, by decide⟩, by decide, by decide⟩

/-! ### C05 -/

/-- C05: both dispatchers send the same array to the experts. -/
theorem C05_dispatch_equal [AddCommMonoid M] [Module R M] (gates : Fin G → Fin S → Fin E → R)
    (h0 : 0 < K) (hK : K ≤ E) (cap : Nat) (bp : Bool) (data : Fin G → Fin S → M) :
    einsumDispatch (fun g => topExpertsEinsum (gates g) K h0 hK cap bp) data =
      indicesDispatch (fun g => topExpertsIndices (gates g) K h0 hK cap bp) data := by
  have hE : 0 < E := Nat.lt_of_lt_of_le h0 hK
  unfold einsumDispatch indicesDispatch
  congr 1
  funext g e i
  rw [einsum_buf hE, indices_buf hE]

/-- C05: both dispatchers combine any expert outputs into the same result, whatever an
out-of-range gather returns. -/
theorem C05_combine_equal [AddCommMonoid M] [Module R M] (gates : Fin G → Fin S → Fin E → R)
    (h0 : 0 < K) (hK : K ≤ E) (cap : Nat) (bp : Bool) (oob : M) (y : Fin E → Fin (G * cap) → M) :
    einsumCombine (fun g => topExpertsEinsum (gates g) K h0 hK cap bp) y =
      indicesCombine oob (fun g => topExpertsIndices (gates g) K h0 hK cap bp) y := by
  have hE : 0 < E := Nat.lt_of_lt_of_le h0 hK
  funext g s
  unfold einsumCombine indicesCombine
  simp only
  rw [einsum_combine_sum hE]
  exact (indices_combine_sum hE (gates g) h0 hK cap bp oob _ s).symm

/-- C05: what the experts receive.  There is a placement of the (group, slot) pairs in the columns
such that row `e` holds in the column of `(g, c)` the item of group `g` whose request for `e` has
slot `c`, and zero if there is none. -/
theorem C05_buffer_contents [AddCommMonoid M] [Module R M] (hE : 0 < E)
    (gates : Fin G → Fin S → Fin E → R) (h0 : 0 < K) (hK : K ≤ E) (cap : Nat) (bp : Bool) :
    ∃ col : Fin G × Fin cap ≃ Fin (G * cap), ∀ (data : Fin G → Fin S → M) (g : Fin G) (e : Fin E)
      (c : Fin cap),
      (∀ s, Requests (gates g) K s e → slot hE bp (gates g) K s e = c →
        einsumDispatch (fun g => topExpertsEinsum (gates g) K h0 hK cap bp) data e (col (g, c)) =
          data g s) ∧
      ((∀ s, ¬ (Requests (gates g) K s e ∧ slot hE bp (gates g) K s e = c)) →
        einsumDispatch (fun g => topExpertsEinsum (gates g) K h0 hK cap bp) data e (col (g, c)) =
          0) := by
  refine ⟨columnEquiv E hE, ?_⟩
  intro data g e c
  have hcol : (columnEquiv E hE) (g, c) = column E g c := rfl
  unfold einsumDispatch
  rw [hcol, dispatchExchange_column, einsum_buf hE]
  constructor
  · intro s hs hslot
    rw [Finset.sum_eq_single s]
    · rw [if_pos ⟨hs, hslot⟩]
    · intro s' _ hne
      rw [if_neg]
      rintro ⟨h1, h2⟩
      exact hne (slot_inj hE bp (gates g) K e h1 hs (h2.trans hslot.symm))
    · intro hn; exact absurd (Finset.mem_univ _) hn
  · intro hnone
    apply Finset.sum_eq_zero
    intro s _
    rw [if_neg (hnone s)]

example : einsumDispatch (fun _ : Fin 1 => topExpertsEinsum exGates 1 (by decide) (by decide) 2 true)
    (fun _ s => ((s : Nat) : ℤ) + 10) 0 1 = 10 := by decide

/-! ### C06 -/

/-- C06 (einsum): the MoE layer computes, for every item, the gated sum of the outputs of the
experts that kept it. -/
theorem C06_moe_layer_einsum {P : Type*} [AddCommMonoid M] [Module R M] [AddCommMonoid N]
    [Module R N] (hE : 0 < E) (gates : Fin G → Fin S → Fin E → R) (h0 : 0 < K) (hK : K ≤ E)
    (cap : Nat) (bp : Bool) (params : Fin E → P) (f : P → M → N) (x : Fin G → Fin S → M)
    (g : Fin G) (s : Fin S) :
    sparseMoe (einsumDispatch (fun g => topExpertsEinsum (gates g) K h0 hK cap bp))
        (einsumCombine (fun g => topExpertsEinsum (gates g) K h0 hK cap bp)) params f x g s =
      ∑ e ∈ Finset.univ.filter (fun e => Kept hE bp (gates g) K cap s e),
        gates g s e • f (params e) (x g s) := by
  unfold sparseMoe einsumCombine
  simp only
  rw [einsum_combine_sum hE, Finset.sum_filter]
  apply Finset.sum_congr rfl
  intro e _
  by_cases h : Kept hE bp (gates g) K cap s e
  · rw [dif_pos h, if_pos h, receiveExchange_column]
    congr 1
    unfold applyExperts einsumDispatch
    rw [dispatchExchange_column, einsum_buf hE, Finset.sum_eq_single s]
    · rw [if_pos ⟨h.1, rfl⟩]
    · intro s' _ hne
      rw [if_neg]
      rintro ⟨h1, h2⟩
      exact hne (slot_inj hE bp (gates g) K e h1 h.1 h2)
    · intro hn; exact absurd (Finset.mem_univ _) hn
  · rw [dif_neg h, if_neg h]

/-- C06 (indices): the same with the indices dispatcher. -/
theorem C06_moe_layer_indices {P : Type*} [AddCommMonoid M] [Module R M] [AddCommMonoid N]
    [Module R N] (hE : 0 < E) (gates : Fin G → Fin S → Fin E → R) (h0 : 0 < K) (hK : K ≤ E)
    (cap : Nat) (bp : Bool) (oob : N) (params : Fin E → P) (f : P → M → N) (x : Fin G → Fin S → M)
    (g : Fin G) (s : Fin S) :
    sparseMoe (indicesDispatch (fun g => topExpertsIndices (gates g) K h0 hK cap bp))
        (indicesCombine oob (fun g => topExpertsIndices (gates g) K h0 hK cap bp)) params f x g s =
      ∑ e ∈ Finset.univ.filter (fun e => Kept hE bp (gates g) K cap s e),
        gates g s e • f (params e) (x g s) := by
  rw [← C06_moe_layer_einsum hE gates h0 hK cap bp params f x g s]
  unfold sparseMoe
  rw [C05_combine_equal gates h0 hK cap bp oob, C05_dispatch_equal gates h0 hK cap bp]

/-- C06: groups are independent.  Changing gates and data of other groups does not change the
output for group `g`. -/
theorem C06_groups_independent {P : Type*} [AddCommMonoid M] [Module R M] [AddCommMonoid N]
    [Module R N] (gates gates' : Fin G → Fin S → Fin E → R) (h0 : 0 < K) (hK : K ≤ E)
    (cap : Nat) (bp : Bool) (params : Fin E → P) (f : P → M → N) (x x' : Fin G → Fin S → M)
    (g : Fin G) (hg : gates g = gates' g) (hx : x g = x' g) (s : Fin S) :
    sparseMoe (einsumDispatch (fun g => topExpertsEinsum (gates g) K h0 hK cap bp))
        (einsumCombine (fun g => topExpertsEinsum (gates g) K h0 hK cap bp)) params f x g s =
      sparseMoe (einsumDispatch (fun g => topExpertsEinsum (gates' g) K h0 hK cap bp))
        (einsumCombine (fun g => topExpertsEinsum (gates' g) K h0 hK cap bp)) params f x' g s := by
  have hE : 0 < E := Nat.lt_of_lt_of_le h0 hK
  rw [C06_moe_layer_einsum hE, C06_moe_layer_einsum hE, hg, hx]

-- Non-vacuity: two groups and two experts (the divisible branch) and expert e multiplying by e+1.
example : sparseMoe
    (einsumDispatch (fun _ : Fin 2 => topExpertsEinsum exGates 1 (by decide) (by decide) 2 true))
    (einsumCombine (fun _ : Fin 2 => topExpertsEinsum exGates 1 (by decide) (by decide) 2 true))
    (fun e => ((e : Nat) : ℤ) + 2) (fun p m => p * m) (fun g s => ((g : Nat) : ℤ) * 3 + s) 1 0
    = 75 * (2 * 3) := by
  rw [C06_moe_layer_einsum (by decide)]
  decide +kernel

/-! ### C07 -/

/-- C07: row `e` of the exchanged array contains exactly the entries addressed to expert `e`, each
once: the columns are in bijection with the (group, slot) pairs, for all experts the same way. -/
theorem C07_dispatch_rows {C : Nat} (hE : 0 < E) :
    ∃ col : Fin G × Fin C ≃ Fin (G * C), ∀ (x : Fin G → Fin E → Fin C → M) (e : Fin E)
      (j : Fin (G * C)), dispatchExchange x e j = x (col.symm j).1 e (col.symm j).2 := by
  refine ⟨columnEquiv E hE, ?_⟩
  intro x e j
  obtain ⟨⟨g, c⟩, rfl⟩ := (columnEquiv E hE).surjective j
  rw [Equiv.symm_apply_apply]
  exact dispatchExchange_column x g e c

/-- C07: receiving what was dispatched gives the original array back. -/
theorem C07_receive_dispatch {C : Nat} (x : Fin G → Fin E → Fin C → M) :
    receiveExchange (dispatchExchange x) = x := by
  funext g e c
  rw [receiveExchange_column, dispatchExchange_column]

/-- C07: dispatching what was received gives the original array back. -/
theorem C07_dispatch_receive {C : Nat} (y : Fin E → Fin (G * C) → M) :
    dispatchExchange (receiveExchange y) = y := by
  funext e j
  have hE : 0 < E := Nat.lt_of_le_of_lt (Nat.zero_le _) e.2
  obtain ⟨⟨g, c⟩, rfl⟩ := (columnEquiv E hE).surjective j
  have hcol : (columnEquiv E hE) (g, c) = column E g c := rfl
  rw [hcol, dispatchExchange_column, receiveExchange_column]

/-- C07: item-wise processing between dispatch and receive is item-wise processing of the original
array, with the function of the addressed expert. -/
theorem C07_process_in_between {C : Nat} (f : Fin E → M → N) (x : Fin G → Fin E → Fin C → M) :
    receiveExchange (fun e j => f e (dispatchExchange x e j)) = fun g e c => f e (x g e c) := by
  funext g e c
  rw [receiveExchange_column, dispatchExchange_column]

-- Both branches on non-trivial sizes: 4 groups / 2 experts and 3 groups / 2 experts.
example : dispatchExchange (fun (g : Fin 4) (e : Fin 2) (_ : Fin 1) => (g.1, e.1)) 1 =
    ![(0, 1), (2, 1), (1, 1), (3, 1)] := by decide
example : dispatchExchange (fun (g : Fin 3) (e : Fin 2) (_ : Fin 1) => (g.1, e.1)) 1 =
    ![(0, 1), (1, 1), (2, 1)] := by decide

/-! ### C14 -/

/-- C14: the number of kept requests of an expert is the minimum of its requests and the capacity
(so exactly `requests - capacity`, if positive, are dropped). -/
theorem C14_number_kept (gates : Fin S → Fin E → R) (h0 : 0 < K) (hK : K ≤ E) (cap : Nat)
    (bp : Bool) (e : Fin E) :
    (Finset.univ.filter (fun s =>
      ∃ c, (topExpertsEinsum gates K h0 hK cap bp).dispatchWeights s e c = true)).card =
    min (Finset.univ.filter (fun s => Requests gates K s e)).card cap := by
  have hE : 0 < E := Nat.lt_of_lt_of_le h0 hK
  have := card_slot_lt hE bp gates K cap e
  unfold requesters at this
  rw [← this, Finset.filter_filter]
  congr 1
  ext s
  simp only [Finset.mem_filter, Finset.mem_univ, true_and]
  constructor
  · rintro ⟨c, hc⟩
    rw [einsum_dispatchWeights hE] at hc
    exact ⟨hc.1, hc.2 ▸ c.2⟩
  · rintro ⟨h1, h2⟩
    exact ⟨⟨_, h2⟩, (einsum_dispatchWeights hE gates h0 hK cap bp s e _).2 ⟨h1, rfl⟩⟩

/-- C14: if the capacity is at least the number of requests for the expert (in particular if it is
at least the group size), no request for it is dropped. -/
theorem C14_enough_capacity (gates : Fin S → Fin E → R) (h0 : 0 < K) (hK : K ≤ E) (cap : Nat)
    (bp : Bool) (e : Fin E)
    (hcap : (Finset.univ.filter (fun s => Requests gates K s e)).card ≤ cap) (s : Fin S)
    (hs : Requests gates K s e) :
    ∃ c, (topExpertsEinsum gates K h0 hK cap bp).dispatchWeights s e c = true := by
  have hE : 0 < E := Nat.lt_of_lt_of_le h0 hK
  have h2 := slot_lt_card hE bp gates K e hs
  unfold requesters at h2
  exact ⟨⟨_, lt_of_lt_of_le h2 hcap⟩,
    (einsum_dispatchWeights hE gates h0 hK cap bp s e _).2 ⟨hs, rfl⟩⟩

/-- C14: with capacity at least the group size nothing at all is dropped, and then the layer is the
plain gated sum over the requested experts. -/
theorem C14_full_capacity {P : Type*} [AddCommMonoid M] [Module R M] [AddCommMonoid N]
    [Module R N] (gates : Fin G → Fin S → Fin E → R) (h0 : 0 < K) (hK : K ≤ E)
    (cap : Nat) (hcap : S ≤ cap) (bp : Bool) (params : Fin E → P) (f : P → M → N)
    (x : Fin G → Fin S → M) (g : Fin G) (s : Fin S) :
    sparseMoe (einsumDispatch (fun g => topExpertsEinsum (gates g) K h0 hK cap bp))
        (einsumCombine (fun g => topExpertsEinsum (gates g) K h0 hK cap bp)) params f x g s =
      ∑ e ∈ Finset.univ.filter (fun e => Requests (gates g) K s e),
        gates g s e • f (params e) (x g s) := by
  have hE : 0 < E := Nat.lt_of_lt_of_le h0 hK
  rw [C06_moe_layer_einsum hE]
  congr 1
  ext e
  simp only [Finset.mem_filter, Finset.mem_univ, true_and]
  refine ⟨fun h => h.1, fun h => ⟨h, ?_⟩⟩
  have h2 := slot_lt_card hE bp (gates g) K e h
  have h3 : (requesters (gates g) K e).card ≤ S := by
    have := Finset.card_le_univ (requesters (gates g) K e)
    simpa using this
  omega

example : (Finset.univ.filter (fun s => Requests exGates 2 s 1)).card = 3 := by decide

end Verif.Moe
