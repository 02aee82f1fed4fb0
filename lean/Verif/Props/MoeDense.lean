import Verif.Props.MoeRouting
import Mathlib.Tactic.Ring

/-!
Property C71: the dense dispatcher (`DenseEinsumDispatcher`, vmoe/moe.py:93-124) and the default
dispatch weights of `EinsumDispatcher` (vmoe/moe.py:148-151).
-/

set_option linter.unusedSectionVars false

namespace Verif.Moe

open Verif Verif.Spec

variable {R M N : Type*} {S K E G C : Nat}
variable [CommRing R] [LinearOrder R] [IsStrictOrderedRing R]
variable [AddCommMonoid M] [Module R M] [AddCommMonoid N] [Module R N]

/-- C71: with the dense dispatcher every expert receives every item, and the layer is the sum over
*all* experts, weighted by the gates as they are. -/
theorem C71_dense_layer {P : Type*} (gates : Fin G → Fin S → Fin E → R) (params : Fin E → P)
    (f : P → M → N) (x : Fin G → Fin S → M) (g : Fin G) (s : Fin S) :
    sparseMoe (denseDispatch R E) (denseCombine gates) params f x g s =
      ∑ e, gates g s e • f (params e) (x g s) := by
  unfold sparseMoe denseCombine
  apply Finset.sum_congr rfl
  intro e _
  rw [receiveExchange_column]
  unfold applyExperts denseDispatch
  rw [dispatchExchange_column, one_smul]

/-- C71: the columns of the array seen by the experts are the items, each exactly once, the same
for all experts. -/
theorem C71_dense_dispatch (hE : 0 < E) :
    ∃ col : Fin G × Fin S ≃ Fin (G * S), ∀ (x : Fin G → Fin S → M) (e : Fin E) (g : Fin G)
      (s : Fin S), denseDispatch R E x e (col (g, s)) = x g s := by
  refine ⟨columnEquiv E hE, ?_⟩
  intro x e g s
  have hcol : (columnEquiv E hE) (g, s) = column E g s := rfl
  unfold denseDispatch
  rw [hcol, dispatchExchange_column, one_smul]

/-- C71: the dense dispatcher is the top-K dispatcher with all experts selected and room for all
the items. -/
theorem C71_dense_eq_full_top_k {P : Type*} (gates : Fin G → Fin S → Fin E → R) (h0 : 0 < E)
    (cap : Nat) (hcap : S ≤ cap) (bp : Bool) (params : Fin E → P) (f : P → M → N)
    (x : Fin G → Fin S → M) :
    sparseMoe (denseDispatch R E) (denseCombine gates) params f x =
      sparseMoe (einsumDispatch (fun g => topExpertsEinsum (gates g) E h0 le_rfl cap bp))
        (einsumCombine (fun g => topExpertsEinsum (gates g) E h0 le_rfl cap bp)) params f x := by
  funext g s
  rw [C71_dense_layer, C14_full_capacity gates h0 le_rfl cap hcap bp]
  congr 1
  symm
  rw [Finset.filter_eq_self]
  intro e _
  unfold Requests choiceRank
  refine lt_of_lt_of_eq (Finset.card_lt_univ_of_notMem (x := e) ?_) (by simp)
  simp

/-- C71: without explicit dispatch weights, slot `c` of expert `e` receives the sum of the items of
the group whose combine weight for the slot is positive (not zero, not negative). -/
theorem C71_default_dispatch (hE : 0 < E) :
    ∃ col : Fin G × Fin C ≃ Fin (G * C), ∀ (cw : Fin G → Fin S → Fin E → Fin C → R)
      (x : Fin G → Fin S → M) (g : Fin G) (e : Fin E) (c : Fin C),
      einsumDispatchDefault cw x e (col (g, c)) =
        ∑ s ∈ Finset.univ.filter (fun s => 0 < cw g s e c), x g s := by
  refine ⟨columnEquiv E hE, ?_⟩
  intro cw x g e c
  have hcol : (columnEquiv E hE) (g, c) = column E g c := rfl
  unfold einsumDispatchDefault
  rw [hcol, dispatchExchange_column, Finset.sum_filter]
  unfold einsumDispatchBuf boolWeight
  apply Finset.sum_congr rfl
  intro s _
  beta_reduce
  by_cases h : 0 < cw g s e c
  · simp [h]
  · simp [h]

/-- C71: for gates that are never negative (softmax or top-k of it), dropping the dispatch weights
of a top-K dispatcher and keeping only its combine weights does not change the layer. -/
theorem C71_default_weights_layer {P : Type*} (gates : Fin G → Fin S → Fin E → R)
    (hg : ∀ g s e, 0 ≤ gates g s e) (h0 : 0 < K) (hK : K ≤ E) (cap : Nat) (bp : Bool)
    (params : Fin E → P) (f : P → M → N) (x : Fin G → Fin S → M) :
    sparseMoe (einsumDispatchDefault (fun g =>
          (topExpertsEinsum (gates g) K h0 hK cap bp).combineWeights))
        (einsumCombine (fun g => topExpertsEinsum (gates g) K h0 hK cap bp)) params f x =
      sparseMoe (einsumDispatch (fun g => topExpertsEinsum (gates g) K h0 hK cap bp))
        (einsumCombine (fun g => topExpertsEinsum (gates g) K h0 hK cap bp)) params f x := by
  have hE : 0 < E := Nat.lt_of_lt_of_le h0 hK
  funext g s
  unfold sparseMoe einsumCombine
  simp only
  rw [einsum_combine_sum hE, einsum_combine_sum hE]
  apply Finset.sum_congr rfl
  intro e _
  by_cases h : Kept hE bp (gates g) K cap s e
  · rw [dif_pos h, dif_pos h, receiveExchange_column, receiveExchange_column]
    rcases (hg g s e).eq_or_lt with h2 | h2
    · rw [← h2, zero_smul, zero_smul]
    · congr 1
      unfold applyExperts einsumDispatch einsumDispatchDefault
      rw [dispatchExchange_column, dispatchExchange_column, einsum_buf hE]
      congr 1
      unfold einsumDispatchBuf boolWeight
      apply Finset.sum_congr rfl
      intro s' _
      beta_reduce
      rw [einsum_combineWeights]
      by_cases hr : Requests (gates g) K s' e ∧ slot hE bp (gates g) K s' e =
          (⟨slot hE bp (gates g) K s e, h.2⟩ : Fin cap)
      · have hs : s' = s := slot_inj hE bp (gates g) K e hr.1 h.1 hr.2
        rw [if_pos hr, if_pos ((einsum_dispatchWeights hE (gates g) h0 hK cap bp s' e _).2 hr), hs]
        simp [h2]
      · have hn : ¬ (topExpertsEinsum (gates g) K h0 hK cap bp).dispatchWeights s' e
            ⟨slot hE bp (gates g) K s e, h.2⟩ = true :=
          fun hd => hr ((einsum_dispatchWeights hE (gates g) h0 hK cap bp s' e _).1 hd)
        rw [if_neg hr, if_neg hn]
        simp
  · rw [dif_neg h, dif_neg h]

/-- C71: this is not so for negative gates (possible for routers without softmax): the item is not
sent to the expert, but the output of the expert for the empty slot is still added, with a negative
weight. -/
theorem C71_default_weights_negative_counterexample :
    let gates : Fin 1 → Fin 1 → Fin 1 → ℤ := fun _ _ _ => -1
    let w := fun g => topExpertsEinsum (gates g) 1 (by decide) (by decide) 1 false
    sparseMoe (einsumDispatchDefault (fun g => (w g).combineWeights)) (einsumCombine w)
        (fun _ => (10 : ℤ)) (fun p m => p + m) (fun _ _ => (5 : ℤ)) 0 0 = -10 ∧
      sparseMoe (einsumDispatch w) (einsumCombine w)
        (fun _ => (10 : ℤ)) (fun p m => p + m) (fun _ _ => (5 : ℤ)) 0 0 = -15 := by
  decide

-- Non-vacuity: two groups, two experts (expert e multiplies by e + 2), gates of three items.
example : sparseMoe (denseDispatch ℤ 2) (denseCombine (fun _ : Fin 2 => exGates))
    (fun e => ((e : Nat) : ℤ) + 2) (fun p m => p * m) (fun g s => ((g : Nat) : ℤ) * 3 + s) 1 0
    = 75 * (2 * 3) + 25 * (3 * 3) := by
  rw [C71_dense_layer]
  decide

example : ∀ g s e, (0 : ℤ) ≤ (fun _ : Fin 2 => exGates) g s e := by decide

end Verif.Moe
