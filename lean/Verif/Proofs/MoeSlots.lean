import Verif.Proofs.MoeDispatch
import Mathlib.Order.Interval.Finset.Nat

/-! Helper lemmas: the priority relation is a strict total order, slots are ranks in it, and the
weights stored in the dispatchers are described by requests and slots. -/

set_option linter.unusedSectionVars false

namespace Verif.Moe

open Verif Verif.Spec

variable {R M N : Type*} {S K E C G : Nat}

section order
variable [LinearOrder R]

theorem itemBefore_iff_lexLT (hE : 0 < E) (gates : Fin S → Fin E → R) (s' s : Fin S) :
    ItemBefore hE true gates s' s ↔
      lexLT (fun s => OrderDual.toDual (topGate hE gates s)) s' s := by
  unfold ItemBefore lexLT
  simp [OrderDual.toDual_lt_toDual]

theorem itemBefore_irrefl (hE : 0 < E) (bp : Bool) (gates : Fin S → Fin E → R) (s : Fin S) :
    ¬ ItemBefore hE bp gates s s := by
  cases bp
  · simp [ItemBefore]
  · rw [itemBefore_iff_lexLT]; exact lexLT_irrefl _ _

theorem itemBefore_trans (hE : 0 < E) (bp : Bool) (gates : Fin S → Fin E → R) {a b c : Fin S}
    (h1 : ItemBefore hE bp gates a b) (h2 : ItemBefore hE bp gates b c) :
    ItemBefore hE bp gates a c := by
  cases bp
  · simp only [ItemBefore, Bool.false_eq_true, if_false] at *
    exact lt_trans h1 h2
  · rw [itemBefore_iff_lexLT] at *; exact lexLT_trans h1 h2

theorem itemBefore_total (hE : 0 < E) (bp : Bool) (gates : Fin S → Fin E → R) {a b : Fin S}
    (h : a ≠ b) : ItemBefore hE bp gates a b ∨ ItemBefore hE bp gates b a := by
  cases bp
  · simp only [ItemBefore, Bool.false_eq_true, if_false]
    exact lt_or_gt_of_ne h
  · rw [itemBefore_iff_lexLT, itemBefore_iff_lexLT]; exact lexLT_total _ h

theorem higher_irrefl (hE : 0 < E) (bp : Bool) (gates : Fin S → Fin E → R) (e : Fin E)
    (s : Fin S) : ¬ HigherPriority hE bp gates e s s := by
  rintro (h | ⟨_, h⟩)
  · exact lt_irrefl _ h
  · exact itemBefore_irrefl hE bp gates s h

theorem higher_trans (hE : 0 < E) (bp : Bool) (gates : Fin S → Fin E → R) (e : Fin E)
    {a b c : Fin S} (h1 : HigherPriority hE bp gates e a b)
    (h2 : HigherPriority hE bp gates e b c) : HigherPriority hE bp gates e a c := by
  unfold HigherPriority at *
  rcases h1 with h1 | ⟨h1, h1'⟩ <;> rcases h2 with h2 | ⟨h2, h2'⟩
  · left; omega
  · left; omega
  · left; omega
  · right; exact ⟨by omega, itemBefore_trans hE bp gates h1' h2'⟩

theorem higher_total (hE : 0 < E) (bp : Bool) (gates : Fin S → Fin E → R) (e : Fin E)
    {a b : Fin S} (h : a ≠ b) :
    HigherPriority hE bp gates e a b ∨ HigherPriority hE bp gates e b a := by
  unfold HigherPriority
  rcases Nat.lt_trichotomy (choiceRank gates a e) (choiceRank gates b e) with h1 | h1 | h1
  · exact Or.inl (Or.inl h1)
  · rcases itemBefore_total hE bp gates h with h2 | h2
    · exact Or.inl (Or.inr ⟨h1, h2⟩)
    · exact Or.inr (Or.inr ⟨h1.symm, h2⟩)
  · exact Or.inr (Or.inl h1)

theorem slot_lt_of_higher (hE : 0 < E) (bp : Bool) (gates : Fin S → Fin E → R) (K : Nat)
    (e : Fin E) {a b : Fin S} (ha : Requests gates K a e)
    (h : HigherPriority hE bp gates e a b) :
    slot hE bp gates K a e < slot hE bp gates K b e := by
  unfold slot
  apply Finset.card_lt_card
  rw [Finset.ssubset_iff_of_subset]
  · refine ⟨a, ?_, ?_⟩
    · simp [ha, h]
    · simp [higher_irrefl]
  · intro x hx
    simp only [Finset.mem_filter, Finset.mem_univ, true_and] at hx ⊢
    exact ⟨hx.1, higher_trans hE bp gates e hx.2 h⟩

theorem slot_inj (hE : 0 < E) (bp : Bool) (gates : Fin S → Fin E → R) (K : Nat)
    (e : Fin E) {a b : Fin S} (ha : Requests gates K a e) (hb : Requests gates K b e)
    (h : slot hE bp gates K a e = slot hE bp gates K b e) : a = b := by
  by_contra hne
  rcases higher_total hE bp gates e hne with h' | h'
  · have := slot_lt_of_higher hE bp gates K e ha h'; omega
  · have := slot_lt_of_higher hE bp gates K e hb h'; omega

/-- Set of items that ask for expert `e`. -/
def requesters (gates : Fin S → Fin E → R) (K : Nat) (e : Fin E) : Finset (Fin S) :=
  Finset.univ.filter (fun s => Requests gates K s e)

theorem mem_requesters {gates : Fin S → Fin E → R} {K : Nat} {e : Fin E} {s : Fin S} :
    s ∈ requesters gates K e ↔ Requests gates K s e := by simp [requesters]

theorem slot_lt_card (hE : 0 < E) (bp : Bool) (gates : Fin S → Fin E → R) (K : Nat)
    (e : Fin E) {a : Fin S} (ha : Requests gates K a e) :
    slot hE bp gates K a e < (requesters gates K e).card := by
  unfold slot
  apply Finset.card_lt_card
  rw [Finset.ssubset_iff_of_subset]
  · exact ⟨a, mem_requesters.2 ha, by simp [higher_irrefl]⟩
  · intro x hx
    simp only [Finset.mem_filter, Finset.mem_univ, true_and] at hx
    exact mem_requesters.2 hx.1

/-- Slots of the requesters of an expert are exactly `0 .. requests - 1`. -/
theorem image_slot (hE : 0 < E) (bp : Bool) (gates : Fin S → Fin E → R) (K : Nat) (e : Fin E) :
    (requesters gates K e).image (fun s => slot hE bp gates K s e) =
      Finset.range (requesters gates K e).card := by
  apply Finset.eq_of_subset_of_card_le
  · intro x hx
    rw [Finset.mem_image] at hx
    obtain ⟨s, hs, rfl⟩ := hx
    exact Finset.mem_range.2 (slot_lt_card hE bp gates K e (mem_requesters.1 hs))
  · rw [Finset.card_range, Finset.card_image_of_injOn]
    intro a ha b hb h
    exact slot_inj hE bp gates K e (mem_requesters.1 ha) (mem_requesters.1 hb) h

theorem card_slot_lt (hE : 0 < E) (bp : Bool) (gates : Fin S → Fin E → R) (K c : Nat)
    (e : Fin E) :
    ((requesters gates K e).filter (fun s => slot hE bp gates K s e < c)).card =
      min (requesters gates K e).card c := by
  have hinj : Set.InjOn (fun s => slot hE bp gates K s e)
      ((requesters gates K e).filter (fun s => slot hE bp gates K s e < c)) := by
    intro a ha b hb h
    rw [Finset.mem_coe, Finset.mem_filter] at ha hb
    exact slot_inj hE bp gates K e (mem_requesters.1 ha.1) (mem_requesters.1 hb.1) h
  rw [← Finset.card_image_of_injOn hinj]
  have : ((requesters gates K e).filter (fun s => slot hE bp gates K s e < c)).image
      (fun s => slot hE bp gates K s e) =
      Finset.range (min (requesters gates K e).card c) := by
    ext x
    simp only [Finset.mem_image, Finset.mem_filter, Finset.mem_range, lt_min_iff]
    constructor
    · rintro ⟨s, ⟨hs, hc⟩, rfl⟩
      exact ⟨slot_lt_card hE bp gates K e (mem_requesters.1 hs), hc⟩
    · rintro ⟨h1, h2⟩
      have : x ∈ (requesters gates K e).image (fun s => slot hE bp gates K s e) := by
        rw [image_slot]; exact Finset.mem_range.2 h1
      rw [Finset.mem_image] at this
      obtain ⟨s, hs, rfl⟩ := this
      exact ⟨s, ⟨hs, h2⟩, rfl⟩
  rw [this, Finset.card_range]

end order

section ring
variable [CommRing R] [LinearOrder R] [IsStrictOrderedRing R]

theorem maxOver_eq {N : Nat} (h : 0 < N) (f : Fin N → Int) (v : Int) (i : Fin N)
    (hi : f i = v) (hle : ∀ j, f j ≤ v) : maxOver h f = v := by
  unfold maxOver
  apply le_antisymm
  · exact Finset.sup'_le _ _ (fun j _ => hle j)
  · rw [← hi]; exact Finset.le_sup' f (Finset.mem_univ i)

theorem maxOver_bufferIndex_choice (hE : 0 < E) (gates : Fin S → Fin E → R) (h0 : 0 < K)
    (hK : K ≤ E) (bp : Bool) (s : Fin S) (e : Fin E) :
    maxOver h0 (fun k => (topExpertsCommon gates K h0 hK bp).bufferIndex s k e) =
      if Requests gates K s e then (slot hE bp gates K s e : Int) else -1 := by
  simp only [common_bufferIndex hE]
  by_cases hr : Requests gates K s e
  · rw [if_pos hr]
    apply maxOver_eq h0 _ _ ⟨choiceRank gates s e, hr⟩
    · rw [if_pos ((topK_eq_iff_choiceRank gates hK s ⟨choiceRank gates s e, hr⟩ e).2 rfl).symm]
    · intro j
      split
      · exact le_refl _
      · omega
  · rw [if_neg hr]
    have hall : ∀ k : Fin K, e ≠ topKIdx (gates s) K hK k := by
      intro k hk
      apply hr
      have := (topK_eq_iff_choiceRank gates hK s k e).1 hk.symm
      unfold Requests
      rw [this]; exact k.2
    apply maxOver_eq h0 _ _ ⟨0, h0⟩
    · rw [if_neg (hall _)]
    · intro j; rw [if_neg (hall j)]

theorem maxOver_bufferIndex_expert (hE : 0 < E) (gates : Fin S → Fin E → R) (h0 : 0 < K)
    (hK : K ≤ E) (bp : Bool) (s : Fin S) (k : Fin K) :
    maxOver hE (fun e => (topExpertsCommon gates K h0 hK bp).bufferIndex s k e) =
      (slot hE bp gates K s (topKIdx (gates s) K hK k) : Int) := by
  simp only [common_bufferIndex hE]
  apply maxOver_eq hE _ _ (topKIdx (gates s) K hK k)
  · rw [if_pos rfl]
  · intro j
    split
    · rename_i h; rw [h]
    · omega

theorem requests_topK (gates : Fin S → Fin E → R) (hK : K ≤ E) (s : Fin S) (k : Fin K) :
    Requests gates K s (topKIdx (gates s) K hK k) := by
  unfold Requests
  rw [(topK_eq_iff_choiceRank gates hK s k _).1 rfl]
  exact k.2

theorem requests_iff_exists (gates : Fin S → Fin E → R) (hK : K ≤ E) (s : Fin S) (e : Fin E) :
    Requests gates K s e ↔ ∃ k, topKIdx (gates s) K hK k = e := by
  constructor
  · intro h
    exact ⟨⟨choiceRank gates s e, h⟩, (topK_eq_iff_choiceRank gates hK s _ e).2 rfl⟩
  · rintro ⟨k, rfl⟩; exact requests_topK gates hK s k

theorem topKIdx_injective (gates : Fin S → Fin E → R) (hK : K ≤ E) (s : Fin S) :
    Function.Injective (topKIdx (gates s) K hK) := by
  intro a b h
  have h1 := (topK_eq_iff_choiceRank gates hK s a _).1 rfl
  have h2 := (topK_eq_iff_choiceRank gates hK s b _).1 rfl
  rw [h, h2] at h1
  exact Fin.ext h1.symm

theorem einsum_dispatchWeights (hE : 0 < E) (gates : Fin S → Fin E → R) (h0 : 0 < K)
    (hK : K ≤ E) (cap : Nat) (bp : Bool) (s : Fin S) (e : Fin E) (i : Fin cap) :
    (topExpertsEinsum gates K h0 hK cap bp).dispatchWeights s e i = true ↔
      Requests gates K s e ∧ slot hE bp gates K s e = i := by
  simp only [topExpertsEinsum, oneHotBool, decide_eq_true_eq]
  rw [maxOver_bufferIndex_choice hE]
  split
  · rename_i h; simp [h]
  · rename_i h; simp [h]

theorem indices_indices (hE : 0 < E) (gates : Fin S → Fin E → R) (h0 : 0 < K)
    (hK : K ≤ E) (cap : Nat) (bp : Bool) (s : Fin S) (k : Fin K) :
    (topExpertsIndices gates K h0 hK cap bp).indices s k =
      (((topKIdx (gates s) K hK k : Nat) : Int),
        ((slot hE bp gates K s (topKIdx (gates s) K hK k) : Nat) : Int)) := by
  simp only [topExpertsIndices, common_expertIndex]
  rw [maxOver_bufferIndex_expert hE]

theorem einsum_combineWeights (gates : Fin S → Fin E → R) (h0 : 0 < K)
    (hK : K ≤ E) (cap : Nat) (bp : Bool) (s : Fin S) (e : Fin E) (i : Fin cap) :
    (topExpertsEinsum gates K h0 hK cap bp).combineWeights s e i =
      if (topExpertsEinsum gates K h0 hK cap bp).dispatchWeights s e i = true
        then gates s e else 0 := by
  simp [topExpertsEinsum]

end ring

section sums
variable [CommRing R] [LinearOrder R] [IsStrictOrderedRing R]
  [AddCommMonoid M] [Module R M]

/-- Content of slot `(e, i)` of a group, as specified: the item whose request has that slot. -/
theorem einsum_buf (hE : 0 < E) (gates : Fin G → Fin S → Fin E → R) (h0 : 0 < K)
    (hK : K ≤ E) (cap : Nat) (bp : Bool) (data : Fin G → Fin S → M) (g : Fin G) (e : Fin E)
    (i : Fin cap) :
    einsumDispatchBuf (fun g s e i =>
        boolWeight R ((topExpertsEinsum (gates g) K h0 hK cap bp).dispatchWeights s e i)) data g e i
      = ∑ s, if Requests (gates g) K s e ∧ slot hE bp (gates g) K s e = i then data g s else 0 := by
  unfold einsumDispatchBuf boolWeight
  apply Finset.sum_congr rfl
  intro s _
  beta_reduce
  by_cases h : Requests (gates g) K s e ∧ slot hE bp (gates g) K s e = i
  · rw [if_pos h, if_pos ((einsum_dispatchWeights hE (gates g) h0 hK cap bp s e i).2 h), one_smul]
  · rw [if_neg h, if_neg (fun hh => h ((einsum_dispatchWeights hE (gates g) h0 hK cap bp s e i).1 hh)),
      zero_smul]

theorem indices_buf (hE : 0 < E) (gates : Fin G → Fin S → Fin E → R) (h0 : 0 < K)
    (hK : K ≤ E) (cap : Nat) (bp : Bool) (data : Fin G → Fin S → M) (g : Fin G) (e : Fin E)
    (i : Fin cap) :
    scatter2 (fun u : Fin (S * K) =>
        (topExpertsIndices (gates g) K h0 hK cap bp).indices u.divNat u.modNat)
      (fun u : Fin (S * K) => data g u.divNat) e i
      = ∑ s, if Requests (gates g) K s e ∧ slot hE bp (gates g) K s e = i then data g s else 0 := by
  unfold scatter2
  rw [← Finset.sum_filter]
  symm
  refine Finset.sum_bij'
    (i := fun s hs => rowMajor s
      ⟨choiceRank (gates g) s e, (Finset.mem_filter.1 hs).2.1⟩)
    (j := fun u _ => u.divNat) ?_ ?_ ?_ ?_ ?_
  · intro s hs
    have hs' := (Finset.mem_filter.1 hs).2
    simp only [Finset.mem_filter, Finset.mem_univ, true_and, rowMajor_divNat, rowMajor_modNat]
    rw [indices_indices hE]
    have : topKIdx (gates g s) K hK ⟨choiceRank (gates g) s e, hs'.1⟩ = e :=
      (topK_eq_iff_choiceRank (gates g) hK s _ e).2 rfl
    rw [this, hs'.2]
  · intro u hu
    simp only [Finset.mem_filter, Finset.mem_univ, true_and] at hu ⊢
    rw [indices_indices hE] at hu
    simp only [Prod.mk.injEq, Nat.cast_inj] at hu
    have he : topKIdx (gates g u.divNat) K hK u.modNat = e := Fin.ext hu.1
    rw [he] at hu
    exact ⟨he ▸ requests_topK (gates g) hK _ _, hu.2⟩
  · intro s hs
    exact rowMajor_divNat _ _
  · intro u hu
    simp only [Finset.mem_filter, Finset.mem_univ, true_and] at hu
    rw [indices_indices hE] at hu
    simp only [Prod.mk.injEq, Nat.cast_inj] at hu
    have he : topKIdx (gates g u.divNat) K hK u.modNat = e := Fin.ext hu.1
    have hr := (topK_eq_iff_choiceRank (gates g) hK u.divNat u.modNat e).1 he
    conv_rhs => rw [← rowMajor_div_mod u]
    congr 1
    exact Fin.ext hr
  · intro s hs
    rw [rowMajor_divNat]

/-- Combining with the einsum dispatcher: sum over the kept experts. -/
theorem einsum_combine_sum (hE : 0 < E) (gates : Fin S → Fin E → R) (h0 : 0 < K)
    (hK : K ≤ E) (cap : Nat) (bp : Bool) (x : Fin E → Fin cap → M) (s : Fin S) :
    (∑ e, ∑ i, (topExpertsEinsum gates K h0 hK cap bp).combineWeights s e i • x e i) =
      ∑ e, if h : Kept hE bp gates K cap s e then gates s e • x e ⟨_, h.2⟩ else 0 := by
  apply Finset.sum_congr rfl
  intro e _
  by_cases h : Kept hE bp gates K cap s e
  · rw [dif_pos h, Finset.sum_eq_single ⟨_, h.2⟩]
    · rw [einsum_combineWeights, if_pos]
      rw [einsum_dispatchWeights hE]
      exact ⟨h.1, rfl⟩
    · intro i _ hi
      rw [einsum_combineWeights, if_neg, zero_smul]
      rw [einsum_dispatchWeights hE]
      rintro ⟨_, h2⟩
      exact hi (Fin.ext h2.symm)
    · intro hn; exact absurd (Finset.mem_univ _) hn
  · rw [dif_neg h]
    apply Finset.sum_eq_zero
    intro i _
    rw [einsum_combineWeights, if_neg, zero_smul]
    rw [einsum_dispatchWeights hE]
    rintro ⟨h1, h2⟩
    exact h ⟨h1, h2 ▸ i.2⟩

theorem indices_combine_sum (hE : 0 < E) (gates : Fin S → Fin E → R) (h0 : 0 < K)
    (hK : K ≤ E) (cap : Nat) (bp : Bool) (oob : M) (x : Fin E → Fin cap → M) (s : Fin S) :
    (∑ k,
      let i := (topExpertsIndices gates K h0 hK cap bp).indices s k
      let mask : Bool :=
        decide (i.1 < (E : Int)) && decide (i.2 < (cap : Int))
      (topExpertsIndices gates K h0 hK cap bp).combineWeights s k •
        (boolWeight R mask • gather2 oob x i)) =
      ∑ e, if h : Kept hE bp gates K cap s e then gates s e • x e ⟨_, h.2⟩ else 0 := by
  have hterm : ∀ k : Fin K,
      (let i := (topExpertsIndices gates K h0 hK cap bp).indices s k
       let mask : Bool :=
        decide (i.1 < (E : Int)) && decide (i.2 < (cap : Int))
       (topExpertsIndices gates K h0 hK cap bp).combineWeights s k •
        (boolWeight R mask • gather2 oob x i)) =
      (fun e => if h : Kept hE bp gates K cap s e then gates s e • x e ⟨_, h.2⟩ else 0)
        (topKIdx (gates s) K hK k) := by
    intro k
    set e := topKIdx (gates s) K hK k with he
    have hreq : Requests gates K s e := requests_topK gates hK s k
    have hcw : (topExpertsIndices gates K h0 hK cap bp).combineWeights s k = gates s e := by
      simp [topExpertsIndices, common_combineWeights, he]
    simp only [hcw, indices_indices hE, ← he]
    by_cases h : slot hE bp gates K s e < cap
    · rw [dif_pos ⟨hreq, h⟩]
      have hm : (decide (((e : Nat) : Int) < (E : Int)) &&
          decide (((slot hE bp gates K s e : Nat) : Int) < (cap : Int))) = true := by
        simp [h]
      rw [hm]
      simp only [boolWeight, if_true, one_smul]
      unfold gather2
      rw [dif_pos (by simp [h])]
      simp
    · rw [dif_neg (fun hk : Kept hE bp gates K cap s e => h hk.2)]
      have hm : (decide (((e : Nat) : Int) < (E : Int)) &&
          decide (((slot hE bp gates K s e : Nat) : Int) < (cap : Int))) = false := by
        simp; omega
      rw [hm]
      simp [boolWeight]
  rw [Finset.sum_congr rfl (fun k _ => hterm k)]
  have := Finset.sum_image (s := (Finset.univ : Finset (Fin K)))
    (g := topKIdx (gates s) K hK)
    (f := fun e => if h : Kept hE bp gates K cap s e then gates s e • x e ⟨_, h.2⟩ else (0 : M))
    (fun a _ b _ h => topKIdx_injective gates hK s h)
  rw [← this]
  apply Finset.sum_subset (Finset.subset_univ _)
  intro e _ hn
  rw [dif_neg]
  intro hk
  apply hn
  obtain ⟨k, hk'⟩ := (requests_iff_exists gates hK s e).1 hk.1
  exact Finset.mem_image.2 ⟨k, Finset.mem_univ _, hk'⟩

end sums

end Verif.Moe
