import Verif.Model.OtRouting
import Verif.Proofs.Transport
import Verif.Props.MoeRouting
import Verif.Props.MoeExpertChoice
import Verif.Props.MoeCapacity
import Verif.Proofs.SoftMoe
import Mathlib.Analysis.SpecialFunctions.Log.Basic
import Mathlib.Tactic.Linarith
import Mathlib.Tactic.Ring
import Mathlib.Tactic.FieldSimp
import Mathlib.Algebra.BigOperators.Field

/-!
Properties C74 (selection by a transport plan, sparse plans) and C75 (Sinkhorn plans) of the routers
in vmoe/projects/sparsity_constrained_ot.
-/

set_option linter.unusedSectionVars false

namespace Verif.OtRouting

open Verif Verif.Moe Verif.Spec Verif.Soft

section layer
variable {R M N : Type*} {S K E G C : Nat}
variable [CommRing R] [LinearOrder R] [IsStrictOrderedRing R]
variable [AddCommMonoid M] [Module R M] [AddCommMonoid N] [Module R N]

theorem replaced_layer {P : Type*} (w : Fin G → EinsumWeights R S E C)
    (gates : Fin G → Fin S → Fin E → R)
    (h1 : ∀ g e c s s', (w g).dispatchWeights s e c = true → (w g).dispatchWeights s' e c = true →
      s = s')
    (h2 : ∀ g s e c c', (w g).dispatchWeights s e c = true → (w g).dispatchWeights s e c' = true →
      c = c')
    (params : Fin E → P) (f : P → M → N) (x : Fin G → Fin S → M) (g : Fin G) (s : Fin S) :
    sparseMoe (einsumDispatch (fun g => replaceCombineWeights (w g) (gates g)))
        (einsumCombine (fun g => replaceCombineWeights (w g) (gates g))) params f x g s =
      ∑ e ∈ Finset.univ.filter (fun e => ∃ c, (w g).dispatchWeights s e c = true),
        gates g s e • f (params e) (x g s) := by
  unfold sparseMoe einsumCombine
  simp only
  rw [Finset.sum_filter]
  apply Finset.sum_congr rfl
  intro e _
  by_cases h : ∃ c, (w g).dispatchWeights s e c = true
  · obtain ⟨c, hc⟩ := h
    rw [if_pos ⟨c, hc⟩, Finset.sum_eq_single c]
    · rw [receiveExchange_column]
      unfold applyExperts einsumDispatch
      rw [dispatchExchange_column]
      unfold einsumDispatchBuf boolWeight replaceCombineWeights
      beta_reduce
      simp only [boolWeight, hc, if_true, one_mul]
      congr 2
      rw [Finset.sum_eq_single s]
      · rw [if_pos hc, one_smul]
      · intro s' _ hne
        rw [if_neg, zero_smul]
        intro hs'
        exact hne (h1 g e c s' s hs' hc)
      · intro hn; exact absurd (Finset.mem_univ _) hn
    · intro c' _ hne
      have : (w g).dispatchWeights s e c' ≠ true := fun hc' => hne (h2 g s e c' c hc' hc)
      simp [replaceCombineWeights, boolWeight, this]
    · intro hn; exact absurd (Finset.mem_univ _) hn
  · rw [if_neg h]
    apply Finset.sum_eq_zero
    intro c _
    have : (w g).dispatchWeights s e c ≠ true := fun hc => h ⟨c, hc⟩
    simp [replaceCombineWeights, boolWeight, this]

theorem topExperts_exists (hE : 0 < E) (gates : Fin S → Fin E → R) (h0 : 0 < K) (hK : K ≤ E)
    (cap : Nat) (bp : Bool) (s : Fin S) (e : Fin E) :
    (∃ c, (topExpertsEinsum gates K h0 hK cap bp).dispatchWeights s e c = true) ↔
      Kept hE bp gates K cap s e := by
  constructor
  · rintro ⟨c, hc⟩
    obtain ⟨hr, hs⟩ := (einsum_dispatchWeights hE gates h0 hK cap bp s e c).1 hc
    exact ⟨hr, hs ▸ c.2⟩
  · rintro ⟨hr, hs⟩
    exact ⟨⟨_, hs⟩, (einsum_dispatchWeights hE gates h0 hK cap bp s e _).2 ⟨hr, rfl⟩⟩

theorem topItems_exists (gates : Fin S → Fin E → R) (cap : Nat) (hC : cap ≤ S) (s : Fin S)
    (e : Fin E) : (∃ c, (topItemsEinsum gates cap hC).dispatchWeights s e c = true) ↔
      itemRank gates s e < cap := by
  constructor
  · rintro ⟨c, hc⟩
    exact (topItems_dispatchWeights gates cap hC s e c).1 hc ▸ c.2
  · intro h
    exact ⟨⟨_, h⟩, (topItems_dispatchWeights gates cap hC s e _).2 rfl⟩

end layer

variable {S E G : Nat} {M N : Type*} [AddCommMonoid M] [Module ℝ M] [AddCommMonoid N] [Module ℝ N]

theorem createItemChoice_some {fl : ℚ → ℚ} {d : DispatcherDict} {K cap : Nat}
    {plan gates : Fin S → Fin E → ℝ} {w : EinsumWeights ℝ S E cap}
    (h : createItemChoice fl d K plan (some gates) = .ok (.einsum cap w)) :
    ∃ (h0 : 0 < K) (hK : K ≤ E),
      w = replaceCombineWeights (topExpertsEinsum plan K h0 hK cap d.batchPriority) gates := by
  unfold createItemChoice at h
  split at h
  · cases h
  · rename_i disp hd
    simp only at h
    unfold getTopExpertsPerItemDispatcher at hd
    split at hd
    · cases hd
    · split at hd
      · cases hd
      · split at hd
        · rename_i hK
          split at hd
          · cases hd
            simp only [replaceItemChoice] at h
            cases h
            exact ⟨hK.1, hK.2, rfl⟩
          · cases hd
            simp only [replaceItemChoice] at h
            cases h
        · cases hd

/-- C74: with softmax combine weights, a token gets the sum over the experts that *the plan* selects
for it (and that had room for it), weighted by *the softmax gates*.  Any number of groups. -/
theorem C74_item_choice_layer {P : Type*} (fl : ℚ → ℚ) (d : DispatcherDict) (K cap : Nat) (hE : 0 < E)
    (plan gates : Fin G → Fin S → Fin E → ℝ) (w : Fin G → EinsumWeights ℝ S E cap)
    (h : ∀ g, createItemChoice fl d K (plan g) (some (gates g)) = .ok (.einsum cap (w g)))
    (params : Fin E → P) (f : P → M → N) (x : Fin G → Fin S → M) (g : Fin G) (s : Fin S) :
    sparseMoe (einsumDispatch w) (einsumCombine w) params f x g s =
      ∑ e ∈ Finset.univ.filter (fun e => Kept hE d.batchPriority (plan g) K cap s e),
        gates g s e • f (params e) (x g s) := by
  obtain ⟨h0, hK, -⟩ := createItemChoice_some (h g)
  have hw : w = fun g => replaceCombineWeights
      (topExpertsEinsum (plan g) K h0 hK cap d.batchPriority) (gates g) := by
    funext g
    obtain ⟨_, _, e⟩ := createItemChoice_some (h g)
    exact e
  rw [hw, replaced_layer]
  · simp only [topExperts_exists hE]
  · intro g e c s s' h1 h2
    have a1 := (einsum_dispatchWeights hE _ h0 hK cap _ s e c).1 h1
    have a2 := (einsum_dispatchWeights hE _ h0 hK cap _ s' e c).1 h2
    exact slot_inj hE _ _ K e a1.1 a2.1 (a1.2.trans a2.2.symm)
  · intro g s e c c' h1 h2
    have a1 := (einsum_dispatchWeights hE _ h0 hK cap _ s e c).1 h1
    have a2 := (einsum_dispatchWeights hE _ h0 hK cap _ s e c').1 h2
    exact Fin.ext (a1.2.symm.trans a2.2)

/-- C74: only the einsum dispatcher supports replaced combine weights: whenever the selection itself
works, the indices dispatcher raises TypeError. -/
theorem C74_indices_rejected (fl : ℚ → ℚ) (d : DispatcherDict) (K : Nat)
    (plan gates : Fin S → Fin E → ℝ) (D : ItemChoiceDispatcher ℝ S E K)
    (h : createItemChoice fl d K plan none = .ok D) :
    (d.name = "indices" → createItemChoice fl d K plan (some gates) = .error .typeError) ∧
    (d.name ≠ "indices" → ∃ cap w, D = .einsum cap w ∧
      createItemChoice fl d K plan (some gates) = .ok (.einsum cap (replaceCombineWeights w gates))) := by
  unfold createItemChoice at h ⊢
  generalize hd : getTopExpertsPerItemDispatcher fl plan d.name K d.batchPriority d.capacity
    d.capacityFactor (d.ceilOrRound.getD "ceil") (d.multipleOf.getD (some 4)) = r at h ⊢
  rcases r with err | disp
  · cases h
  · have : disp = D := Except.ok.inj h
    subst this
    simp only
    unfold getTopExpertsPerItemDispatcher at hd
    split at hd
    · cases hd
    · split at hd
      · cases hd
      · rename_i hname
        split at hd
        · split at hd
          · rename_i he
            rw [← Except.ok.inj hd, he]
            exact ⟨fun h => absurd h (by decide), fun _ => ⟨_, _, rfl, rfl⟩⟩
          · rename_i he
            have : d.name = "indices" := by
              by_contra hn; exact hname ⟨he, hn⟩
            rw [← Except.ok.inj hd]
            exact ⟨fun _ => rfl, fun h => absurd this h⟩
        · cases hd

theorem getTopItems_ok {fl : ℚ → ℚ} {d : DispatcherDict} {plan : Fin S → Fin E → ℝ} {cap : Nat}
    {w : EinsumWeights ℝ S E cap}
    (h : getTopItemsPerExpertDispatcher fl plan d.name d.capacity d.capacityFactor
      (d.ceilOrRound.getD "ceil") (d.multipleOf.getD (some 4)) = .ok ⟨cap, w⟩) :
    resolveCapacity fl S E d.capacity d.capacityFactor (d.ceilOrRound.getD "ceil")
      (d.multipleOf.getD (some 4)) = .ok cap ∧ ∃ hC : cap ≤ S, w = topItemsEinsum plan cap hC := by
  unfold getTopItemsPerExpertDispatcher at h
  split at h
  · cases h
  · rename_i cap' hres
    split at h
    · cases h
    · split at h
      · rename_i hC
        obtain ⟨h1, h2⟩ := Sigma.mk.inj_iff.1 (Except.ok.inj h)
        subst h1
        exact ⟨hres, hC, (eq_of_heq h2).symm⟩
      · cases h

theorem createExpertChoice_ok {fl : ℚ → ℚ} {d : DispatcherDict} {plan : Fin S → Fin E → ℝ}
    {gates : Option (Fin S → Fin E → ℝ)} {cap : Nat} {w : EinsumWeights ℝ S E cap}
    (h : createExpertChoice fl d plan gates = .ok ⟨cap, w⟩) :
    resolveCapacity fl S E d.capacity d.capacityFactor (d.ceilOrRound.getD "ceil")
      (d.multipleOf.getD (some 4)) = .ok cap ∧ ∃ hC : cap ≤ S,
      w = gates.elim (topItemsEinsum plan cap hC)
        (replaceCombineWeights (topItemsEinsum plan cap hC)) := by
  unfold createExpertChoice at h
  generalize hd : getTopItemsPerExpertDispatcher fl plan d.name d.capacity d.capacityFactor
      (d.ceilOrRound.getD "ceil") (d.multipleOf.getD (some 4)) = r at h
  rcases r with err | ⟨cap', w'⟩
  · cases h
  · obtain ⟨hres, hC, hw⟩ := getTopItems_ok hd
    cases gates with
    | none =>
      obtain ⟨h1, h2⟩ := Sigma.mk.inj_iff.1 (Except.ok.inj h)
      subst h1
      exact ⟨hres, hC, (eq_of_heq h2).symm.trans hw⟩
    | some g =>
      obtain ⟨h1, h2⟩ := Sigma.mk.inj_iff.1 (Except.ok.inj h)
      subst h1
      refine ⟨hres, hC, (eq_of_heq h2).symm.trans ?_⟩
      rw [hw]
      rfl

/-- C74: expert choice with softmax combine weights: a token gets the sum over the experts that have
it among the `cap` largest entries of their column of *the plan*, weighted by *the softmax gates*. -/
theorem C74_expert_choice_layer {P : Type*} (fl : ℚ → ℚ) (d : DispatcherDict) (cap : Nat)
    (plan gates : Fin G → Fin S → Fin E → ℝ) (w : Fin G → EinsumWeights ℝ S E cap)
    (h : ∀ g, createExpertChoice fl d (plan g) (some (gates g)) = .ok ⟨cap, w g⟩)
    (params : Fin E → P) (f : P → M → N) (x : Fin G → Fin S → M) (g : Fin G) (s : Fin S) :
    sparseMoe (einsumDispatch w) (einsumCombine w) params f x g s =
      ∑ e ∈ Finset.univ.filter (fun e => itemRank (plan g) s e < cap),
        gates g s e • f (params e) (x g s) := by
  have key : ∀ g, ∃ hC : cap ≤ S,
      w g = replaceCombineWeights (topItemsEinsum (plan g) cap hC) (gates g) :=
    fun g => (createExpertChoice_ok (h g)).2
  obtain ⟨hC, -⟩ := key g
  have hw : w = fun g => replaceCombineWeights (topItemsEinsum (plan g) cap hC) (gates g) := by
    funext g
    obtain ⟨_, e⟩ := key g
    exact e
  rw [hw, replaced_layer]
  · simp only [topItems_exists]
  · intro g e c s s' h1 h2
    exact ((C08_every_expert_full (plan g) cap hC e).1 c).unique h1 h2
  · intro g s e c c' h1 h2
    exact (C08_every_expert_full (plan g) cap hC e).2.1 s c c' h1 h2

/-! ### Sparse plans -/

theorem requests_of_nonzero {K : Nat} (plan : Fin S → Fin E → ℝ) (s : Fin S)
    (h0 : ∀ e, 0 ≤ plan s e) (hk : (Finset.univ.filter (fun e => plan s e ≠ 0)).card ≤ K) (e : Fin E)
    (he : plan s e ≠ 0) : Requests plan K s e := by
  unfold Requests choiceRank
  refine lt_of_lt_of_le (Finset.card_lt_card ?_) hk
  have hpos : 0 < plan s e := lt_of_le_of_ne (h0 e) (Ne.symm he)
  rw [Finset.ssubset_iff_of_subset]
  · exact ⟨e, by simp [he], by simp⟩
  · intro e' he'
    simp only [Finset.mem_filter, Finset.mem_univ, true_and] at he' ⊢
    rcases he' with h | ⟨h, -⟩
    · exact (lt_trans hpos h).ne'
    · rw [h]; exact he

theorem itemRank_of_nonzero {k : Nat} (plan : Fin S → Fin E → ℝ) (e : Fin E)
    (h0 : ∀ s, 0 ≤ plan s e) (hk : (Finset.univ.filter (fun s => plan s e ≠ 0)).card ≤ k) (s : Fin S)
    (hs : plan s e ≠ 0) : itemRank plan s e < k := by
  unfold itemRank
  refine lt_of_lt_of_le (Finset.card_lt_card ?_) hk
  have hpos : 0 < plan s e := lt_of_le_of_ne (h0 s) (Ne.symm hs)
  rw [Finset.ssubset_iff_of_subset]
  · exact ⟨s, by simp [hs], by simp⟩
  · intro s' hs'
    simp only [Finset.mem_filter, Finset.mem_univ, true_and] at hs' ⊢
    rcases hs' with h | ⟨h, -⟩
    · exact (lt_trans hpos h).ne'
    · rw [h]; exact hs

/-- C74: the row-sparse plan, whatever the solver returned: every token has a probability vector over
the experts with at most `K` entries, and all of them are among its `K` selected experts. -/
theorem C74_row_sparse_plan (ext : Ext) (hproj : ∀ k n (x : Fin n → ℝ), 0 < k → 0 < n →
      NearestSparse k x (ext.proj k x)) (K : Nat) (hK : 0 < K) (hE : 0 < E)
    (sim : Fin S → Fin E → ℝ) (s : Fin S) :
    SparseProb K (sparsePlan ext K true sim s) ∧
    ∀ e, sparsePlan ext K true sim s e ≠ 0 → Requests (sparsePlan ext K true sim) K s e := by
  have h1 : SparseProb K (sparsePlan ext K true sim s) := by
    have := (hproj K E (fun e => (ext.solve (fun e s => - sim s e) (fun _ => (S : ℝ) / E)
      (fun _ => 1) e - - sim s e) / (1 * 1)) hK hE).1
    simpa [sparsePlan, semiDualPlan, maxGrad] using this
  exact ⟨h1, fun e he => requests_of_nonzero _ s h1.1 h1.2.2 e he⟩

theorem sparseItemRouter_ok {ext : Ext} {fl : ℚ → ℚ} {d : DispatcherDict} {K cap : Nat} {soft : Bool}
    {logits : Fin S → Fin E → ℝ} {w : EinsumWeights ℝ S E cap}
    (h : sparseItemRouter ext fl d K soft logits = .ok (.einsum cap w)) :
    ∃ (h0 : 0 < K) (hK : K ≤ E),
      w = if soft then replaceCombineWeights (topExpertsEinsum (sparsePlan ext K true
          fun s => softmax (logits s)) K h0 hK cap d.batchPriority) (fun s => softmax (logits s))
        else topExpertsEinsum (sparsePlan ext K true fun s => softmax (logits s)) K h0 hK cap
          d.batchPriority := by
  unfold sparseItemRouter at h
  split at h
  · simp only at h
    cases soft with
    | true => exact createItemChoice_some h
    | false =>
      simp only [Bool.false_eq_true, if_false] at h ⊢
      unfold createItemChoice at h
      generalize hd : getTopExpertsPerItemDispatcher (R := ℝ) (S := S) (E := E) fl _ d.name K d.batchPriority d.capacity
        d.capacityFactor (d.ceilOrRound.getD "ceil") (d.multipleOf.getD (some 4)) = r at h
      rcases r with err | disp
      · cases h
      · have hdd : disp = .einsum cap w := Except.ok.inj h
        subst hdd
        unfold getTopExpertsPerItemDispatcher at hd
        split at hd
        · cases hd
        · split at hd
          · cases hd
          · split at hd
            · rename_i hK
              split at hd
              · cases hd
                exact ⟨hK.1, hK.2, rfl⟩
              · cases hd
            · cases hd
  · cases h

/-- C74: so the item-choice router with sparse plan and without softmax combine weights, if there is
room for all tokens, loses no part of the plan: the layer is the sum over *all* experts, weighted by
the plan. -/
theorem C74_row_sparse_layer {P : Type*} (ext : Ext) (hproj : ∀ k n (x : Fin n → ℝ), 0 < k → 0 < n →
      NearestSparse k x (ext.proj k x)) (fl : ℚ → ℚ) (d : DispatcherDict) (K cap : Nat) (hcap : S ≤ cap)
    (logits : Fin G → Fin S → Fin E → ℝ) (w : Fin G → EinsumWeights ℝ S E cap)
    (h : ∀ g, sparseItemRouter ext fl d K false (logits g) = .ok (.einsum cap (w g)))
    (params : Fin E → P) (f : P → M → N) (x : Fin G → Fin S → M) (g : Fin G) (s : Fin S) :
    sparseMoe (einsumDispatch w) (einsumCombine w) params f x g s =
      ∑ e, sparsePlan ext K true (fun s => softmax (logits g s)) s e • f (params e) (x g s) := by
  obtain ⟨h0, hKE, -⟩ := sparseItemRouter_ok (h g)
  have hw : w = fun g => topExpertsEinsum (sparsePlan ext K true fun s => softmax (logits g s)) K h0 hKE
      cap d.batchPriority := by
    funext g
    obtain ⟨_, _, e⟩ := sparseItemRouter_ok (h g)
    exact e
  rw [hw, C14_full_capacity (fun g => sparsePlan ext K true fun s => softmax (logits g s)) h0 hKE cap
    hcap d.batchPriority params f x g s]
  apply Finset.sum_subset (Finset.filter_subset _ _)
  intro e _ he
  by_cases hz : sparsePlan ext K true (fun s => softmax (logits g s)) s e = 0
  · rw [hz, zero_smul]
  · exact absurd (by
      rw [Finset.mem_filter]
      exact ⟨Finset.mem_univ _, (C74_row_sparse_plan ext hproj K h0 (by omega)
        (fun s => softmax (logits g s)) s).2 e hz⟩) he

/-- C74: with softmax combine weights (any capacity): the experts are those selected by the sparse
plan of the softmax gates, the weights are the softmax gates. -/
theorem C74_row_sparse_softmax_layer {P : Type*} (ext : Ext) (fl : ℚ → ℚ) (d : DispatcherDict)
    (K cap : Nat) (hE : 0 < E) (logits : Fin G → Fin S → Fin E → ℝ) (w : Fin G → EinsumWeights ℝ S E cap)
    (h : ∀ g, sparseItemRouter ext fl d K true (logits g) = .ok (.einsum cap (w g)))
    (params : Fin E → P) (f : P → M → N) (x : Fin G → Fin S → M) (g : Fin G) (s : Fin S) :
    sparseMoe (einsumDispatch w) (einsumCombine w) params f x g s =
      ∑ e ∈ Finset.univ.filter (fun e => Kept hE d.batchPriority
          (sparsePlan ext K true (fun s => softmax (logits g s))) K cap s e),
        softmax (logits g s) e • f (params e) (x g s) := by
  refine C74_item_choice_layer fl d K cap hE
    (fun g => sparsePlan ext K true (fun s => softmax (logits g s)))
    (fun g s => softmax (logits g s)) w ?_ params f x g s
  intro g
  have hg := h g
  unfold sparseItemRouter at hg
  split at hg
  · exact hg
  · cases hg

/-- C74: the column-sparse plan, whatever the solver returned: every expert gets exactly its share
`S / E`, from at most `k` tokens. -/
theorem C74_column_sparse_plan (ext : Ext) (hproj : ∀ k n (x : Fin n → ℝ), 0 < k → 0 < n →
      NearestSparse k x (ext.proj k x)) (k : Nat) (hk : 0 < k) (hS : 0 < S)
    (sim : Fin S → Fin E → ℝ) (e : Fin E) :
    let plan := sparsePlan ext k false sim
    (∀ s, 0 ≤ plan s e) ∧ ∑ s, plan s e = (S : ℝ) / E ∧
      (Finset.univ.filter (fun s => plan s e ≠ 0)).card ≤ k ∧
      ∀ s, plan s e ≠ 0 → itemRank plan s e < k := by
  intro plan
  obtain ⟨⟨a1, a2, a3⟩, -⟩ := hproj k S (fun s => (ext.solve (fun s e => - sim s e) (fun _ => 1)
      (fun _ => (S : ℝ) / E) s - - sim s e) / (1 * ((S : ℝ) / E))) hk hS
  have hplan : ∀ s, plan s e = ext.proj k (fun s => (ext.solve (fun s e => - sim s e) (fun _ => 1)
      (fun _ => (S : ℝ) / E) s - - sim s e) / (1 * ((S : ℝ) / E))) s * ((S : ℝ) / E) := by
    intro s
    simp [plan, sparsePlan, semiDualPlan, maxGrad]
  have b1 : ∀ s, 0 ≤ plan s e := fun s => by
    rw [hplan]; exact mul_nonneg (a1 s) (by positivity)
  have b3 : (Finset.univ.filter (fun s => plan s e ≠ 0)).card ≤ k := by
    refine le_trans (Finset.card_le_card ?_) a3
    intro s hs
    simp only [Finset.mem_filter, Finset.mem_univ, true_and] at hs ⊢
    intro h0
    rw [hplan, h0, zero_mul] at hs
    exact hs rfl
  refine ⟨b1, ?_, b3, fun s hs => itemRank_of_nonzero plan e b1 b3 s hs⟩
  simp only [hplan]
  rw [← Finset.sum_mul, a2, one_mul]

theorem sparseNnz_eq_resolve {fl : ℚ → ℚ} {d : DispatcherDict} {nnz cap : Nat}
    (hn : sparseNnz fl d S E = .ok nnz)
    (hres : resolveCapacity fl S E d.capacity d.capacityFactor (d.ceilOrRound.getD "ceil")
      (d.multipleOf.getD (some 4)) = .ok cap) : nnz = cap := by
  unfold sparseNnz at hn
  unfold resolveCapacity at hres
  cases hf : d.capacityFactor with
  | none => rw [hf] at hn; cases hn
  | some q =>
    rw [hf] at hn hres
    cases hc : d.capacity with
    | some c => rw [hc] at hres; cases hres
    | none =>
      rw [hc] at hres
      exact Except.ok.inj (hn.symm.trans hres)

theorem sparseNnz_pos {fl : ℚ → ℚ} {d : DispatcherDict} {nnz : Nat}
    (hn : sparseNnz fl d S E = .ok nnz) : 0 < nnz := by
  unfold sparseNnz at hn
  split at hn
  · cases hn
  · rename_i q _
    rcases hc : computeCapacity fl S E q (d.ceilOrRound.getD "ceil") (d.multipleOf.getD (some 4))
      with err | c
    · rw [hc] at hn; cases hn
    · obtain ⟨-, he, r, hr, h1⟩ := C10_success_only_if _ _ _ _ _ _ _ hc
      obtain ⟨c', hc', hrc, -⟩ := (C10_capacity fl S E q _ (d.multipleOf.getD (some 4)) he r hr).2 h1
      have e1 : c = c' := Except.ok.inj (hc.symm.trans hc')
      rw [hc] at hn
      have e2 : c.toNat = nnz := Except.ok.inj hn
      omega

/-- C74: the number of non-zeros of a column is the capacity of the dispatcher; so the expert-choice
router with sparse plan and without softmax combine weights loses no part of the plan: the layer is
the sum over *all* experts, weighted by the plan. -/
theorem C74_column_sparse_layer {P : Type*} (ext : Ext) (hproj : ∀ k n (x : Fin n → ℝ), 0 < k → 0 < n →
      NearestSparse k x (ext.proj k x)) (fl : ℚ → ℚ) (d : DispatcherDict) (cap : Nat)
    (logits : Fin G → Fin S → Fin E → ℝ) (w : Fin G → EinsumWeights ℝ S E cap)
    (h : ∀ g, sparseExpertRouter ext fl d false (logits g) = .ok ⟨cap, w g⟩)
    (params : Fin E → P) (f : P → M → N) (x : Fin G → Fin S → M) (g : Fin G) (s : Fin S) :
    sparseNnz fl d S E = .ok cap ∧
    sparseMoe (einsumDispatch w) (einsumCombine w) params f x g s =
      ∑ e, sparsePlan ext cap false (fun s => softmax (logits g s)) s e • f (params e) (x g s) := by
  have key : ∀ g, ∃ hC : cap ≤ S, sparseNnz fl d S E = .ok cap ∧ 0 < cap ∧
      w g = topItemsEinsum (sparsePlan ext cap false (fun s => softmax (logits g s))) cap hC := by
    intro g
    have hg := h g
    unfold sparseExpertRouter at hg
    simp only at hg
    split at hg
    · cases hg
    · rename_i nnz hn
      split at hg
      · cases hg
      · simp only [Bool.false_eq_true, if_false] at hg
        obtain ⟨hres, hC, hw⟩ := createExpertChoice_ok hg
        have hcn : nnz = cap := sparseNnz_eq_resolve hn hres
        subst hcn
        exact ⟨hC, hn, sparseNnz_pos hn, hw⟩
  obtain ⟨hC, hn, hpos, -⟩ := key g
  refine ⟨hn, ?_⟩
  have hw : w = fun g => topItemsEinsum (sparsePlan ext cap false (fun s => softmax (logits g s)))
      cap hC := by
    funext g
    obtain ⟨_, -, -, e⟩ := key g
    exact e
  rw [hw, C08_moe_layer]
  apply Finset.sum_subset (Finset.filter_subset _ _)
  intro e _ he
  by_cases h0 : sparsePlan ext cap false (fun s => softmax (logits g s)) s e = 0
  · rw [h0, zero_smul]
  · exact absurd (by
      rw [Finset.mem_filter]
      exact ⟨Finset.mem_univ _, (C74_column_sparse_plan ext hproj cap hpos
        (Fin.pos s) (fun s => softmax (logits g s)) e).2.2.2 s h0⟩) he

/-- C74: the expert-choice router with sparse plan needs a capacity factor: it raises KeyError without
it, also when a fixed capacity is given. -/
theorem C74_capacity_factor_needed (ext : Ext) (fl : ℚ → ℚ) (d : DispatcherDict) (useSoftmax : Bool)
    (logits : Fin S → Fin E → ℝ) (h : d.capacityFactor = none) :
    sparseExpertRouter ext fl d useSoftmax logits = .error .keyError := by
  unfold sparseExpertRouter sparseNnz
  rw [h]

/-- C74: the expert-choice router with sparse plan works whenever the capacity factor gives a capacity of at most the number of
tokens (also all of them), the dispatcher is `einsum` and no fixed capacity is given; a larger capacity is a ValueError. -/
theorem C74_column_sparse_total (ext : Ext) (fl : ℚ → ℚ) (d : DispatcherDict) (useSoftmax : Bool) (nnz : Nat)
    (logits : Fin S → Fin E → ℝ) (hn : sparseNnz fl d S E = .ok nnz) (hname : d.name = "einsum") (hc : d.capacity = none) :
    (nnz ≤ S → ∃ w, sparseExpertRouter ext fl d useSoftmax logits = .ok ⟨nnz, w⟩) ∧
    (S < nnz → sparseExpertRouter ext fl d useSoftmax logits = .error .valueError) := by
  have hres : resolveCapacity fl S E d.capacity d.capacityFactor (d.ceilOrRound.getD "ceil")
      (d.multipleOf.getD (some 4)) = .ok nnz := by
    unfold sparseNnz at hn
    unfold resolveCapacity
    cases hf : d.capacityFactor with
    | none => rw [hf] at hn; cases hn
    | some q =>
      rw [hf] at hn
      rw [hc]
      exact hn
  unfold sparseExpertRouter
  rw [hn]
  constructor
  · intro h
    simp only
    rw [if_neg (by omega)]
    unfold createExpertChoice getTopItemsPerExpertDispatcher
    simp only [hres, hname, ne_eq, not_true_eq_false, if_false, h, dite_true]
    cases useSoftmax
    · exact ⟨_, rfl⟩
    · exact ⟨_, rfl⟩
  · intro h
    simp only
    rw [if_pos h]

/-- C74: `_max_l2_top_k` is the largest value of `<q, x> - scale/2 (|q|^2 - 1)` over the `k`-sparse
probability vectors, it is attained at the vector that the code returns as gradient, and that vector
is a subgradient (so stopping the gradient of the projection is correct). -/
theorem C74_max_op (ext : Ext) (hproj : ∀ k n (x : Fin n → ℝ), 0 < k → 0 < n →
      NearestSparse k x (ext.proj k x)) {n : Nat} (hn : 0 < n) (k : Nat) (hk : 0 < k)
    (b gamma : ℝ) (hs : 0 < gamma * b) (x : Fin n → ℝ) :
    (∀ q, SparseProb k q → ∑ i, q i * x i - gamma * b / 2 * (∑ i, q i ^ 2 - 1) ≤
      maxL2TopK ext x k b gamma) ∧
    SparseProb k (maxGrad ext x k b gamma) ∧
    maxL2TopK ext x k b gamma = ∑ i, maxGrad ext x k b gamma i * x i -
      gamma * b / 2 * (∑ i, maxGrad ext x k b gamma i ^ 2 - 1) ∧
    ∀ x', maxL2TopK ext x k b gamma + ∑ i, maxGrad ext x k b gamma i * (x' i - x i) ≤
      maxL2TopK ext x' k b gamma := by
  have main : ∀ x : Fin n → ℝ,
      (∀ q, SparseProb k q → ∑ i, q i * x i - gamma * b / 2 * (∑ i, q i ^ 2 - 1) ≤
        maxL2TopK ext x k b gamma) ∧ SparseProb k (maxGrad ext x k b gamma) ∧
      maxL2TopK ext x k b gamma = ∑ i, maxGrad ext x k b gamma i * x i -
        gamma * b / 2 * (∑ i, maxGrad ext x k b gamma i ^ 2 - 1) := by
    intro x
    obtain ⟨hp, hmin⟩ := hproj k n (fun i => x i / (gamma * b)) hk hn
    have hval : maxL2TopK ext x k b gamma = ∑ i, maxGrad ext x k b gamma i * x i -
        gamma * b / 2 * (∑ i, maxGrad ext x k b gamma i ^ 2 - 1) := by
      unfold maxL2TopK maxGrad
      simp only
      have : ∑ i, ext.proj k (fun i => x i / (gamma * b)) i *
          (ext.proj k (fun i => x i / (gamma * b)) i - 1) =
          ∑ i, ext.proj k (fun i => x i / (gamma * b)) i ^ 2 - 1 := by
        have h1 := hp.2.1
        generalize ext.proj k (fun i => x i / (gamma * b)) = p at h1 ⊢
        calc ∑ i, p i * (p i - 1) = ∑ i, (p i ^ 2 - p i) :=
              Finset.sum_congr rfl fun i _ => by ring
          _ = ∑ i, p i ^ 2 - 1 := by rw [Finset.sum_sub_distrib, h1]
      rw [this]
      ring
    refine ⟨fun q hq => ?_, hp, hval⟩
    rw [hval]
    have h := hmin q hq
    have expand : ∀ p : Fin n → ℝ, ∑ i, (p i - x i / (gamma * b)) ^ 2 =
        ∑ i, p i ^ 2 - 2 / (gamma * b) * ∑ i, p i * x i + ∑ i, (x i / (gamma * b)) ^ 2 := by
      intro p
      rw [Finset.mul_sum, ← Finset.sum_sub_distrib, ← Finset.sum_add_distrib]
      exact Finset.sum_congr rfl fun i _ => by ring
    rw [expand, expand] at h
    have h3 : ∑ i, maxGrad ext x k b gamma i ^ 2 - 2 / (gamma * b) * ∑ i, maxGrad ext x k b gamma i * x i ≤
        ∑ i, q i ^ 2 - 2 / (gamma * b) * ∑ i, q i * x i := by
      unfold maxGrad
      linarith
    have h4 := mul_le_mul_of_nonneg_left h3 (le_of_lt (half_pos hs))
    have e1 : ∀ a c : ℝ, gamma * b / 2 * (a - 2 / (gamma * b) * c) = gamma * b / 2 * a - c := by
      intro a c
      have hne : gamma * b ≠ 0 := ne_of_gt hs
      have h2 : gamma * b / 2 * (2 / (gamma * b)) = 1 := by
        rw [div_mul_div_comm, mul_comm, div_self (mul_ne_zero two_ne_zero hne)]
      rw [mul_sub, ← mul_assoc, h2, one_mul]
    rw [e1, e1] at h4
    linarith
  obtain ⟨h1, h2, h3⟩ := main x
  refine ⟨h1, h2, h3, fun x' => ?_⟩
  have h4 := (main x').1 _ h2
  have h5 : ∑ i, maxGrad ext x k b gamma i * (x' i - x i) =
      ∑ i, maxGrad ext x k b gamma i * x' i - ∑ i, maxGrad ext x k b gamma i * x i := by
    rw [← Finset.sum_sub_distrib]
    exact Finset.sum_congr rfl fun i _ => by ring
  rw [h3, h5]
  linarith

theorem countMetrics_bounds (hS : 0 < S) (hE : 0 < E) (plan : Fin S → Fin E → ℝ) (K : Nat)
    (hrow : ∀ s, countNonzero (plan s) ≤ K ∧ 1 ≤ countNonzero (plan s)) :
    let m := countMetrics hS hE plan
    1 ≤ m.expertsPerItemMin ∧ m.expertsPerItemMin ≤ m.expertsPerItemMax ∧ m.expertsPerItemMax ≤ K ∧
    m.itemsPerExpertMin ≤ m.itemsPerExpertMax ∧ m.itemsPerExpertMax ≤ S ∧
    m.itemsPerExpertAvg * E = m.expertsPerItemAvg * S := by
  have nS : (Finset.univ : Finset (Fin S)).Nonempty := ⟨⟨0, hS⟩, Finset.mem_univ _⟩
  have nE : (Finset.univ : Finset (Fin E)).Nonempty := ⟨⟨0, hE⟩, Finset.mem_univ _⟩
  unfold countMetrics
  simp only
  refine ⟨?_, ?_, ?_, ?_, ?_, ?_⟩
  · exact (Finset.le_inf'_iff (H := nS) (f := fun s => countNonzero (plan s))).2
      fun s _ => (hrow s).2
  · exact le_trans (Finset.inf'_le _ (Finset.mem_univ ⟨0, hS⟩))
      (Finset.le_sup' (fun s => countNonzero (plan s)) (Finset.mem_univ ⟨0, hS⟩))
  · exact (Finset.sup'_le_iff (H := nS) (f := fun s => countNonzero (plan s))).2
      fun s _ => (hrow s).1
  · exact le_trans (Finset.inf'_le _ (Finset.mem_univ ⟨0, hE⟩))
      (Finset.le_sup' (fun e => countNonzero (fun s => plan s e)) (Finset.mem_univ ⟨0, hE⟩))
  · refine (Finset.sup'_le_iff (H := nE) (f := fun e => countNonzero (fun s => plan s e))).2
      fun e _ => ?_
    unfold countNonzero
    exact le_trans (Finset.card_le_univ _) (by simp)
  · have hE' : (E : ℝ) ≠ 0 := by exact_mod_cast hE.ne'
    have hS' : (S : ℝ) ≠ 0 := by exact_mod_cast hS.ne'
    unfold Aux.mean
    rw [div_mul_cancel₀ _ hE', div_mul_cancel₀ _ hS']
    unfold countNonzero
    simp only [Finset.card_filter, Nat.cast_sum]
    rw [Finset.sum_comm]

/-- C74: the reported number of experts per item is between 1 and `K` in all items, and the two
averages count the same transports. -/
theorem C74_metrics (ext : Ext) (hproj : ∀ k n (x : Fin n → ℝ), 0 < k → 0 < n →
      NearestSparse k x (ext.proj k x)) (K : Nat) (hK : 0 < K) (hS : 0 < S) (hE : 0 < E)
    (sim : Fin S → Fin E → ℝ) :
    let m := countMetrics hS hE (sparsePlan ext K true sim)
    1 ≤ m.expertsPerItemMin ∧ m.expertsPerItemMin ≤ m.expertsPerItemMax ∧ m.expertsPerItemMax ≤ K ∧
    m.itemsPerExpertMin ≤ m.itemsPerExpertMax ∧ m.itemsPerExpertMax ≤ S ∧
    m.itemsPerExpertAvg * E = m.expertsPerItemAvg * S := by
  apply countMetrics_bounds
  intro s
  obtain ⟨a1, a2, a3⟩ := (C74_row_sparse_plan ext hproj K hK hE sim s).1
  refine ⟨a3, ?_⟩
  unfold countNonzero
  rw [Nat.one_le_iff_ne_zero, Finset.card_ne_zero]
  by_contra hne
  rw [Finset.not_nonempty_iff_eq_empty, Finset.filter_eq_empty_iff] at hne
  have : ∑ e, sparsePlan ext K true sim s e = 0 :=
    Finset.sum_eq_zero fun e he => by have := hne he; push Not at this; exact this
  rw [a2] at this
  exact one_ne_zero this

/-- C74 (finding): with softmax combine weights an expert to which the plan sends *nothing* can
contribute: `top_k` always selects `K` experts, here the second choice of a token whose plan is
concentrated on one expert is expert 0, and it gets its softmax gate. -/
theorem C74_zero_transport_counterexample :
    let plan : Fin 1 → Fin 3 → ℚ := fun _ => ![0, 0, 1]
    let gates : Fin 1 → Fin 3 → ℚ := fun _ => ![3 / 10, 1 / 10, 6 / 10]
    let w := replaceCombineWeights (topExpertsEinsum plan 2 (by decide) (by decide) 1 false) gates
    plan 0 0 = 0 ∧ w.dispatchWeights 0 0 0 = true ∧ w.combineWeights 0 0 0 = 3 / 10 := by
  decide +kernel

/-- The contract of the projection can be met: nearest sparse vectors exist. -/
theorem exists_ext : ∃ ext : Ext, ∀ k n (x : Fin n → ℝ), 0 < k → 0 < n →
    NearestSparse k x (ext.proj k x) := by
  classical
  refine ⟨⟨fun k n x => if h : 0 < k ∧ 0 < n then
      Classical.choose (nearestSparse_exists h.1 h.2 x) else x, fun _ _ _ _ => 0⟩, ?_⟩
  intro k n x hk hn
  simp only [dif_pos (And.intro hk hn)]
  exact Classical.choose_spec (nearestSparse_exists hk hn x)

/-- Three tokens, two experts, one place per expert: the hypotheses of the layer theorems hold. -/
example (plan gates : Fin 3 → Fin 2 → ℝ) :
    (∃ w, createItemChoice id ⟨"einsum", true, some 1, none, none, none⟩ 2 plan (some gates) =
      .ok (.einsum 1 w)) ∧
    (∃ w, createItemChoice id ⟨"indices", true, some 1, none, none, none⟩ 2 plan none =
      .ok (.indices 1 w)) ∧
    (∃ w, createExpertChoice id ⟨"einsum", true, some 1, none, none, none⟩ plan (some gates) =
      .ok ⟨1, w⟩) :=
  ⟨⟨_, rfl⟩, ⟨_, rfl⟩, ⟨_, rfl⟩⟩

/-- Three tokens, two experts, room for all: the sparse item-choice router works. -/
example (ext : Ext) (logits : Fin 3 → Fin 2 → ℝ) (soft : Bool) : ∃ w,
    sparseItemRouter ext id ⟨"einsum", true, some 3, none, none, none⟩ 1 soft logits =
      .ok (.einsum 3 w) := by
  cases soft <;> exact ⟨_, rfl⟩

theorem exSparseNnz : sparseNnz id ⟨"einsum", false, none, some 1, none, some none⟩ 6 3 = .ok 2 := by
  decide +kernel

/-- Six tokens, three experts, capacity factor 1: the sparse expert-choice router works with two
places per expert. -/
example (ext : Ext) (logits : Fin 6 → Fin 3 → ℝ) : ∃ w,
    sparseExpertRouter ext id ⟨"einsum", false, none, some 1, none, some none⟩ false logits =
      .ok ⟨2, w⟩ := by
  refine ⟨topItemsEinsum (sparsePlan ext 2 false fun s => softmax (logits s)) 2 (by decide), ?_⟩
  unfold sparseExpertRouter
  rw [exSparseNnz]
  simp only [Nat.reduceLT, if_false, Bool.false_eq_true]
  unfold createExpertChoice getTopItemsPerExpertDispatcher
  have : resolveCapacity id 6 3 none (some 1) ((none : Option String).getD "ceil")
      ((some none : Option (Option Int)).getD (some 4)) = .ok 2 := by decide +kernel
  simp only [this]
  rfl

/-! ### C75: Sinkhorn -/

section sinkhorn
variable (kernel : Fin S → Fin E → ℝ) (b : Fin E → ℝ)

theorem scalings_pos (hS : 0 < S) (hE : 0 < E) (hk : ∀ s e, 0 < kernel s e) (hb : ∀ e, 0 < b e)
    (n : Nat) : (∀ s, 0 < (sinkhornScalings kernel (fun _ => 1) b n).1 s) ∧
      ∀ e, 0 < (sinkhornScalings kernel (fun _ => 1) b n).2 e := by
  have : Nonempty (Fin S) := ⟨⟨0, hS⟩⟩
  have : Nonempty (Fin E) := ⟨⟨0, hE⟩⟩
  induction n with
  | zero => exact ⟨fun _ => one_pos, fun _ => one_pos⟩
  | succ n ih =>
    have hv : ∀ e, 0 < (sinkhornScalings kernel (fun _ => 1) b (n + 1)).2 e := fun e =>
      div_pos (hb e) (Finset.sum_pos (fun s _ => mul_pos (hk s e) (ih.1 s)) Finset.univ_nonempty)
    exact ⟨fun s => div_pos one_pos (Finset.sum_pos (fun e _ => mul_pos (hk s e) (hv e))
      Finset.univ_nonempty), hv⟩

theorem scalings_row (hS : 0 < S) (hE : 0 < E) (hk : ∀ s e, 0 < kernel s e) (hb : ∀ e, 0 < b e)
    (n : Nat) (s : Fin S) :
    (sinkhornScalings kernel (fun _ => 1) b (n + 1)).1 s *
      ∑ e, kernel s e * (sinkhornScalings kernel (fun _ => 1) b (n + 1)).2 e = 1 := by
  have hp := (scalings_pos kernel b hS hE hk hb (n + 1))
  have hpos : 0 < ∑ e, kernel s e * (sinkhornScalings kernel (fun _ => 1) b (n + 1)).2 e :=
    Finset.sum_pos (fun e _ => mul_pos (hk s e) (hp.2 e)) ⟨⟨0, hE⟩, Finset.mem_univ _⟩
  change 1 / (∑ e, kernel s e * (sinkhornScalings kernel (fun _ => 1) b (n + 1)).2 e) * _ = 1
  rw [one_div, inv_mul_cancel₀ hpos.ne']

theorem scalings_col (hS : 0 < S) (hE : 0 < E) (hk : ∀ s e, 0 < kernel s e) (hb : ∀ e, 0 < b e)
    (n : Nat) (e : Fin E) :
    (sinkhornScalings kernel (fun _ => 1) b (n + 1)).2 e *
      ∑ s, kernel s e * (sinkhornScalings kernel (fun _ => 1) b n).1 s = b e := by
  have hp := (scalings_pos kernel b hS hE hk hb n)
  have hpos : 0 < ∑ s, kernel s e * (sinkhornScalings kernel (fun _ => 1) b n).1 s :=
    Finset.sum_pos (fun s _ => mul_pos (hk s e) (hp.1 s)) ⟨⟨0, hS⟩, Finset.mem_univ _⟩
  change b e / (∑ s, kernel s e * (sinkhornScalings kernel (fun _ => 1) b n).1 s) * _ = b e
  rw [div_mul_cancel₀ _ hpos.ne']

variable {kernel b} {u u' : Fin S → ℝ} {v v' : Fin E → ℝ} {c : ℝ}

theorem step_upper (hS : 0 < S) (hk : ∀ s e, 0 < kernel s e) (hu : ∀ s, 0 < u s)
    (hu' : ∀ s, 0 < u' s) (hv' : ∀ e, 0 < v' e)
    (hr1 : ∀ s, u s * ∑ e, kernel s e * v e = 1) (hr2 : ∀ s, u' s * ∑ e, kernel s e * v' e = 1)
    (hcol : ∀ e, v' e * ∑ s, kernel s e * u s = b e)
    (h : ∀ e, v e * ∑ s, kernel s e * u s ≤ c * b e) (e : Fin E) :
    v' e * ∑ s, kernel s e * u' s ≤ c * b e := by
  have h1 : ∀ e, v e ≤ c * v' e := by
    intro e
    have hpos : 0 < ∑ s, kernel s e * u s :=
      Finset.sum_pos (fun s _ => mul_pos (hk s e) (hu s)) ⟨⟨0, hS⟩, Finset.mem_univ _⟩
    have := h e
    rw [← hcol e, ← mul_assoc] at this
    exact le_of_mul_le_mul_right this hpos
  have h2 : ∀ s, u' s ≤ c * u s := by
    intro s
    have a1 : ∑ e, kernel s e * v e ≤ c * ∑ e, kernel s e * v' e := by
      rw [Finset.mul_sum]
      refine Finset.sum_le_sum fun e _ => ?_
      have := mul_le_mul_of_nonneg_left (h1 e) (hk s e).le
      linarith
    have a2 := mul_le_mul_of_nonneg_left a1 (mul_pos (hu' s) (hu s)).le
    have a3 : u' s * u s * ∑ e, kernel s e * v e = u' s := by rw [mul_assoc, hr1, mul_one]
    have a4 : u' s * u s * (c * ∑ e, kernel s e * v' e) = c * u s := by
      have := hr2 s
      calc _ = c * u s * (u' s * ∑ e, kernel s e * v' e) := by ring
        _ = _ := by rw [this, mul_one]
    rw [a3, a4] at a2
    exact a2
  rw [← hcol e]
  have a1 : ∑ s, kernel s e * u' s ≤ c * ∑ s, kernel s e * u s := by
    rw [Finset.mul_sum]
    refine Finset.sum_le_sum fun s _ => ?_
    have := mul_le_mul_of_nonneg_left (h2 s) (hk s e).le
    linarith
  have := mul_le_mul_of_nonneg_left a1 (hv' e).le
  linarith

theorem step_lower (hS : 0 < S) (hk : ∀ s e, 0 < kernel s e) (hu : ∀ s, 0 < u s)
    (hu' : ∀ s, 0 < u' s) (hv' : ∀ e, 0 < v' e)
    (hr1 : ∀ s, u s * ∑ e, kernel s e * v e = 1) (hr2 : ∀ s, u' s * ∑ e, kernel s e * v' e = 1)
    (hcol : ∀ e, v' e * ∑ s, kernel s e * u s = b e)
    (h : ∀ e, c * b e ≤ v e * ∑ s, kernel s e * u s) (e : Fin E) :
    c * b e ≤ v' e * ∑ s, kernel s e * u' s := by
  have h1 : ∀ e, c * v' e ≤ v e := by
    intro e
    have hpos : 0 < ∑ s, kernel s e * u s :=
      Finset.sum_pos (fun s _ => mul_pos (hk s e) (hu s)) ⟨⟨0, hS⟩, Finset.mem_univ _⟩
    have := h e
    rw [← hcol e, ← mul_assoc] at this
    exact le_of_mul_le_mul_right this hpos
  have h2 : ∀ s, c * u s ≤ u' s := by
    intro s
    have a1 : c * ∑ e, kernel s e * v' e ≤ ∑ e, kernel s e * v e := by
      rw [Finset.mul_sum]
      refine Finset.sum_le_sum fun e _ => ?_
      have := mul_le_mul_of_nonneg_left (h1 e) (hk s e).le
      linarith
    have a2 := mul_le_mul_of_nonneg_left a1 (mul_pos (hu' s) (hu s)).le
    have a3 : u' s * u s * ∑ e, kernel s e * v e = u' s := by rw [mul_assoc, hr1, mul_one]
    have a4 : u' s * u s * (c * ∑ e, kernel s e * v' e) = c * u s := by
      have := hr2 s
      calc _ = c * u s * (u' s * ∑ e, kernel s e * v' e) := by ring
        _ = _ := by rw [this, mul_one]
    rw [a3, a4] at a2
    exact a2
  rw [← hcol e]
  have a1 : c * ∑ s, kernel s e * u s ≤ ∑ s, kernel s e * u' s := by
    rw [Finset.mul_sum]
    refine Finset.sum_le_sum fun s _ => ?_
    have := mul_le_mul_of_nonneg_left (h2 s) (hk s e).le
    linarith
  have := mul_le_mul_of_nonneg_left a1 (hv' e).le
  linarith

end sinkhorn

theorem klPlan_col (n : Nat) (sim : Fin S → Fin E → ℝ) (e : Fin E) :
    ∑ s, klPlan n sim s e =
      (sinkhornScalings (fun s e => Real.exp (- (- sim s e) / 1)) (fun _ => 1)
        (fun _ => (S : ℝ) / E) n).2 e *
      ∑ s, Real.exp (- (- sim s e) / 1) *
        (sinkhornScalings (fun s e => Real.exp (- (- sim s e) / 1)) (fun _ => 1)
          (fun _ => (S : ℝ) / E) n).1 s := by
  rw [Finset.mul_sum]
  exact Finset.sum_congr rfl fun s _ => by unfold klPlan; ring

/-- C75: after at least one iteration, the Sinkhorn plan of any logits is a probability distribution
over the experts for every token, with all entries positive; so every token is fully routed. -/
theorem C75_rows (hS : 0 < S) (hE : 0 < E) (n : Nat) (hn : 1 ≤ n) (sim : Fin S → Fin E → ℝ) :
    (∀ s e, 0 < klPlan n sim s e ∧ klPlan n sim s e ≤ 1) ∧ (∀ s, ∑ e, klPlan n sim s e = 1) ∧
      ∑ e, ∑ s, klPlan n sim s e = S := by
  obtain ⟨n, rfl⟩ : ∃ m, n = m + 1 := ⟨n - 1, by omega⟩
  have hb : ∀ e : Fin E, 0 < (S : ℝ) / E := fun _ => by positivity
  have hp := scalings_pos (fun s e => Real.exp (- (- sim s e) / 1)) (fun _ => (S : ℝ) / E) hS hE
    (fun _ _ => Real.exp_pos _) hb (n + 1)
  have hpos : ∀ s e, 0 < klPlan (n + 1) sim s e := fun s e =>
    mul_pos (mul_pos (hp.1 s) (Real.exp_pos _)) (hp.2 e)
  have hrow : ∀ s, ∑ e, klPlan (n + 1) sim s e = 1 := by
    intro s
    rw [← scalings_row (fun s e => Real.exp (- (- sim s e) / 1)) (fun _ => (S : ℝ) / E) hS hE
      (fun _ _ => Real.exp_pos _) hb n s, Finset.mul_sum]
    exact Finset.sum_congr rfl fun e _ => by unfold klPlan; ring
  refine ⟨fun s e => ⟨hpos s e, ?_⟩, hrow, ?_⟩
  · rw [← hrow s]
    exact Finset.single_le_sum (fun e _ => (hpos s e).le) (Finset.mem_univ e)
  · rw [Finset.sum_comm]
    simp [hrow]

/-- C75: iterating more never makes the load of the experts less balanced: a bound of the loads by a
multiple of the fair share `S / E`, from above or from below, is kept by all further iterations. -/
theorem C75_imbalance_never_grows (hS : 0 < S) (hE : 0 < E) (n n' : Nat) (hn : 1 ≤ n) (hn' : n ≤ n')
    (sim : Fin S → Fin E → ℝ) (c : ℝ) :
    ((∀ e, ∑ s, klPlan n sim s e ≤ c * ((S : ℝ) / E)) →
      ∀ e, ∑ s, klPlan n' sim s e ≤ c * ((S : ℝ) / E)) ∧
    ((∀ e, c * ((S : ℝ) / E) ≤ ∑ s, klPlan n sim s e) →
      ∀ e, c * ((S : ℝ) / E) ≤ ∑ s, klPlan n' sim s e) := by
  induction n', hn' using Nat.le_induction with
  | base => exact ⟨id, id⟩
  | succ m hm ih =>
    obtain ⟨m, rfl⟩ : ∃ j, m = j + 1 := ⟨m - 1, by omega⟩
    have hb : ∀ e : Fin E, 0 < (S : ℝ) / E := fun _ => by positivity
    have hk : ∀ (s : Fin S) (e : Fin E), 0 < Real.exp (- (- sim s e) / 1) := fun _ _ => Real.exp_pos _
    have hp1 := scalings_pos _ (fun _ => (S : ℝ) / E) hS hE hk hb (m + 1)
    have hp2 := scalings_pos _ (fun _ => (S : ℝ) / E) hS hE hk hb (m + 1 + 1)
    have hr1 := scalings_row _ (fun _ => (S : ℝ) / E) hS hE hk hb m
    have hr2 := scalings_row _ (fun _ => (S : ℝ) / E) hS hE hk hb (m + 1)
    have hcol := scalings_col _ (fun _ => (S : ℝ) / E) hS hE hk hb (m + 1)
    simp only [klPlan_col] at ih ⊢
    exact ⟨fun h => step_upper hS hk hp1.1 hp2.1 hp2.2 hr1 hr2 hcol (ih.1 h),
      fun h => step_lower hS hk hp1.1 hp2.1 hp2.2 hr1 hr2 hcol (ih.2 h)⟩

/-- C75: the weighted sum of the auxiliary losses takes exactly the terms with positive weight: a term
with weight zero does not matter even if it is NaN, and a NaN with positive weight is not hidden. -/
theorem C75_weighted_sum (args : List (ℝ × Option ℝ)) :
    ((∃ a ∈ args, 0 < a.1 ∧ a.2 = none) → weightedSum args = none) ∧
    ((¬ ∃ a ∈ args, 0 < a.1 ∧ a.2 = none) → weightedSum args =
      some ((args.map (fun a => max a.1 0 * a.2.getD 0)).sum)) := by
  have key : ∀ (args : List (ℝ × Option ℝ)) (t : Option ℝ),
      ((t = none ∨ ∃ a ∈ args, 0 < a.1 ∧ a.2 = none) →
        (args.filter (fun a => 0 < a.1)).foldl
          (fun acc a => acc.bind (fun t => a.2.map (fun x => t + x * a.1))) t = none) ∧
      ((¬ (t = none ∨ ∃ a ∈ args, 0 < a.1 ∧ a.2 = none)) →
        (args.filter (fun a => 0 < a.1)).foldl
          (fun acc a => acc.bind (fun t => a.2.map (fun x => t + x * a.1))) t =
          some (t.getD 0 + (args.map (fun a => max a.1 0 * a.2.getD 0)).sum)) := by
    intro args
    induction args with
    | nil =>
      intro t
      cases t <;> simp
    | cons a args ih =>
      intro t
      obtain ⟨w, x⟩ := a
      by_cases hw : 0 < w
      · have hm : max w 0 = w := max_eq_left hw.le
        rw [List.filter_cons_of_pos (by simpa using hw), List.foldl_cons]
        have h := ih (t.bind (fun t => x.map (fun x => t + x * w)))
        refine ⟨fun h0 => h.1 ?_, fun h0 => ?_⟩
        · rcases h0 with rfl | ⟨a, ha, h1, h2⟩
          · exact .inl rfl
          · rcases List.mem_cons.1 ha with rfl | ha
            · have h2 : x = none := h2
              subst h2
              left
              cases t <;> rfl
            · exact .inr ⟨a, ha, h1, h2⟩
        · push Not at h0
          obtain ⟨h1, h2⟩ := h0
          obtain ⟨t, rfl⟩ := Option.ne_none_iff_exists'.1 h1
          obtain ⟨y, hy⟩ := Option.ne_none_iff_exists'.1 (h2 (w, x) List.mem_cons_self hw)
          have hy : x = some y := hy
          subst hy
          rw [h.2 (by
            push Not
            exact ⟨by simp, fun a ha => h2 a (List.mem_cons_of_mem _ ha)⟩)]
          simp only [Option.bind_some, Option.map_some, Option.getD_some, List.map_cons, List.sum_cons,
            hm]
          congr 1
          ring
      · have hm : max w 0 = 0 := max_eq_right (not_lt.1 hw)
        rw [List.filter_cons_of_neg (by simpa using hw)]
        have h := ih t
        have e1 : (∃ a ∈ (w, x) :: args, 0 < a.1 ∧ a.2 = none) ↔ ∃ a ∈ args, 0 < a.1 ∧ a.2 = none := by
          constructor
          · rintro ⟨a, ha, h1, h2⟩
            rcases List.mem_cons.1 ha with rfl | ha
            · exact absurd h1 hw
            · exact ⟨a, ha, h1, h2⟩
          · rintro ⟨a, ha, h1⟩
            exact ⟨a, List.mem_cons_of_mem _ ha, h1⟩
        rw [e1]
        simp only [List.map_cons, List.sum_cons, hm, zero_mul, zero_add]
        exact h
  have h := key args (some 0)
  simp only [reduceCtorEq, false_or, Option.getD_some, zero_add] at h
  exact h

/-- C75: adding a constant to all logits of an expert (for instance a bias) does not change the plan:
the plan has no way to prefer an expert on average. -/
theorem C75_expert_bias_ignored (n : Nat) (hn : 1 ≤ n)
    (sim : Fin S → Fin E → ℝ) (bias : Fin E → ℝ) :
    klPlan n (fun s e => sim s e + bias e) = klPlan n sim := by
  obtain ⟨n, rfl⟩ : ∃ m, n = m + 1 := ⟨n - 1, by omega⟩
  set k1 : Fin S → Fin E → ℝ := fun s e => Real.exp (- (- sim s e) / 1) with hk1
  set k2 : Fin S → Fin E → ℝ := fun s e => Real.exp (- (- (sim s e + bias e)) / 1) with hk2
  have hk : ∀ s e, k2 s e = k1 s e * Real.exp (bias e) := by
    intro s e
    rw [hk1, hk2]
    simp only [neg_neg, div_one]
    rw [Real.exp_add]
  have hsc : ∀ n, (sinkhornScalings k2 (fun _ => 1) (fun _ => (S : ℝ) / E) n).1 =
        (sinkhornScalings k1 (fun _ => 1) (fun _ => (S : ℝ) / E) n).1 ∧
      ∀ e, (sinkhornScalings k2 (fun _ => 1) (fun _ => (S : ℝ) / E) (n + 1)).2 e *
          Real.exp (bias e) =
        (sinkhornScalings k1 (fun _ => 1) (fun _ => (S : ℝ) / E) (n + 1)).2 e := by
    intro n
    have hv : ∀ n, (sinkhornScalings k2 (fun _ => 1) (fun _ => (S : ℝ) / E) n).1 =
        (sinkhornScalings k1 (fun _ => 1) (fun _ => (S : ℝ) / E) n).1 →
        ∀ e, (sinkhornScalings k2 (fun _ => 1) (fun _ => (S : ℝ) / E) (n + 1)).2 e *
          Real.exp (bias e) =
        (sinkhornScalings k1 (fun _ => 1) (fun _ => (S : ℝ) / E) (n + 1)).2 e := by
      intro n hu e
      change (S : ℝ) / E / (∑ s, k2 s e * _) * Real.exp (bias e) = (S : ℝ) / E / ∑ s, k1 s e * _
      rw [hu]
      have : ∑ s, k2 s e * (sinkhornScalings k1 (fun _ => 1) (fun _ => (S : ℝ) / E) n).1 s =
          (∑ s, k1 s e * (sinkhornScalings k1 (fun _ => 1) (fun _ => (S : ℝ) / E) n).1 s) *
            Real.exp (bias e) := by
        rw [Finset.sum_mul]
        exact Finset.sum_congr rfl fun s _ => by rw [hk]; ring
      rw [this, ← div_div, div_mul_cancel₀ _ (Real.exp_pos _).ne']
    induction n with
    | zero => exact ⟨rfl, hv 0 rfl⟩
    | succ n ih =>
      have hu : (sinkhornScalings k2 (fun _ => 1) (fun _ => (S : ℝ) / E) (n + 1)).1 =
          (sinkhornScalings k1 (fun _ => 1) (fun _ => (S : ℝ) / E) (n + 1)).1 := by
        funext s
        change 1 / (∑ e, k2 s e * (sinkhornScalings k2 (fun _ => 1) (fun _ => (S : ℝ) / E)
          (n + 1)).2 e) = 1 / ∑ e, k1 s e * (sinkhornScalings k1 (fun _ => 1)
          (fun _ => (S : ℝ) / E) (n + 1)).2 e
        congr 1
        exact Finset.sum_congr rfl fun e _ => by rw [hk, ← ih.2 e]; ring
      exact ⟨hu, hv _ hu⟩
  funext s e
  change (sinkhornScalings k2 (fun _ => 1) (fun _ => (S : ℝ) / E) (n + 1)).1 s * k2 s e *
      (sinkhornScalings k2 (fun _ => 1) (fun _ => (S : ℝ) / E) (n + 1)).2 e =
    (sinkhornScalings k1 (fun _ => 1) (fun _ => (S : ℝ) / E) (n + 1)).1 s * k1 s e *
      (sinkhornScalings k1 (fun _ => 1) (fun _ => (S : ℝ) / E) (n + 1)).2 e
  rw [(hsc (n + 1)).1, ← (hsc n).2 e, hk]
  ring

/-- C75 (finding): the loads of the experts are not exactly balanced, since the rows are scaled last:
two tokens, two experts, one iteration. -/
theorem C75_columns_counterexample :
    ∑ s, klPlan 1 (fun s e : Fin 2 => if s = 0 ∧ e = 0 then Real.log 2 else 0) s 0 = 34 / 35 ∧
      ((2 : ℕ) : ℝ) / (2 : ℕ) = 1 := by
  constructor
  · rw [klPlan_col]
    simp only [sinkhornScalings, sinkhornStep, Fin.sum_univ_two]
    simp [Real.exp_log]
    norm_num
  · norm_num

/-- The logits from which the plan is computed: with noise of standard deviation
`noise_std / num_experts`, except in deterministic mode. -/
noncomputable def planLogits (deterministic : Bool) (noiseStd : ℝ) (logits z : Fin S → Fin E → ℝ) :
    Fin S → Fin E → ℝ :=
  if deterministic then logits else fun s e => logits s e + noiseStd / E * z s e

/-- C75: the item-choice layer with softmax combine weights: noise may change which experts a token
gets, but never the weights, which are the softmax of the noise-free logits. -/
theorem C75_item_choice_layer {P : Type*} (fl : ℚ → ℚ) (cdf : ℝ → ℝ) (cfg : KlConfig) (cap : Nat)
    (hE : 0 < E) (hcomb : cfg.useSoftmaxCombineWeights = true)
    (logits z : Fin G → Fin S → Fin E → ℝ) (w : Fin G → EinsumWeights ℝ S E cap)
    (m : Fin G → KlMetrics)
    (h : ∀ g, klItemRouter fl cdf cfg (logits g) (z g) = .ok (.einsum cap (w g), m g))
    (params : Fin E → P) (f : P → M → N) (x : Fin G → Fin S → M) (g : Fin G) (s : Fin S) :
    sparseMoe (einsumDispatch w) (einsumCombine w) params f x g s =
      ∑ e ∈ Finset.univ.filter (fun e => Kept hE cfg.dispatcher.batchPriority
          (klPlan cfg.iterations (planLogits cfg.deterministic cfg.noiseStd (logits g) (z g)))
          cfg.numSelected cap s e),
        softmax (logits g s) e • f (params e) (x g s) := by
  refine C74_item_choice_layer fl cfg.dispatcher cfg.numSelected cap hE
    (fun g => klPlan cfg.iterations (planLogits cfg.deterministic cfg.noiseStd (logits g) (z g)))
    (fun g s => softmax (logits g s)) w ?_ params f x g s
  intro g
  have hg := h g
  unfold klItemRouter at hg
  split at hg
  · cases hg
  · rename_i plan combine metrics hgates
    have hplan : plan = klPlan cfg.iterations
        (planLogits cfg.deterministic cfg.noiseStd (logits g) (z g)) ∧
        combine = fun s => softmax (logits g s) := by
      unfold klItemGates at hgates
      split at hgates
      · simp only at hgates
        split at hgates
        · rename_i hdet
          obtain ⟨h1, h2⟩ := Prod.mk.inj (Except.ok.inj hgates)
          obtain ⟨h2, -⟩ := Prod.mk.inj h2
          refine ⟨?_, h2.symm⟩
          rw [← h1]
          unfold planLogits
          rcases hdet with hdet | hdet
          · rw [if_pos hdet]
          · rw [hdet]
            simp
        · rename_i hdet
          obtain ⟨h1, h2⟩ := Prod.mk.inj (Except.ok.inj hgates)
          obtain ⟨h2, -⟩ := Prod.mk.inj h2
          refine ⟨?_, h2.symm⟩
          rw [← h1]
          unfold planLogits
          rw [if_neg (fun hd => hdet (.inl hd))]
          congr 1
          funext s e
          ring
      · cases hgates
    rw [hcomb, if_pos rfl, hplan.1, hplan.2] at hg
    split at hg
    · cases hg
    · rename_i d hd
      rw [← (Prod.mk.inj (Except.ok.inj hg)).1]
      exact hd

/-- C75: the metrics of the item-choice router: an importance or load loss with weight 0 is not computed and reported as 0, the
load loss is only there with noise, and the auxiliary loss is the sum of the losses with positive weight. -/
theorem C75_item_choice_metrics (fl : ℚ → ℚ) (cdf : ℝ → ℝ) (cfg : KlConfig) (logits z : Fin S → Fin E → ℝ)
    (d : ItemChoiceDispatcher ℝ S E cfg.numSelected) (m : KlMetrics)
    (h : klItemRouter fl cdf cfg logits z = .ok (d, m)) :
    m.importanceLoss = (if cfg.importanceLossWeight = 0 then 0 else Aux.importanceLoss fun s => softmax (logits s)) ∧
    (cfg.deterministic = true ∨ cfg.noiseStd = 0 → m.loadLoss = none ∧
      m.auxiliaryLoss = some (max cfg.importanceLossWeight 0 * m.importanceLoss)) ∧
    (cfg.deterministic = false → cfg.noiseStd ≠ 0 → ∃ (load : ℝ) (h0 : 1 ≤ cfg.numSelected) (h1 : cfg.numSelected ≤ E),
      m.loadLoss = some load ∧
      load = (if cfg.loadLossWeight = 0 then 0 else
        Aux.loadLoss cdf logits (planLogits false cfg.noiseStd logits z) (cfg.noiseStd / E) cfg.numSelected h0 h1) ∧
      m.auxiliaryLoss = some (max cfg.importanceLossWeight 0 * m.importanceLoss + max cfg.loadLossWeight 0 * load)) := by
  classical
  unfold klItemRouter at h
  split at h
  · cases h
  · rename_i plan combine metrics hgates
    split at h
    · cases h
    · have hm : metrics = m := (Prod.mk.inj (Except.ok.inj h)).2
      subst hm
      unfold klItemGates at hgates
      split at hgates
      · rename_i hK
        simp only at hgates
        split at hgates
        · rename_i hdet
          have e := (Prod.mk.inj (Prod.mk.inj (Except.ok.inj hgates)).2).2
          rw [← e]
          refine ⟨?_, ?_, ?_⟩
          · simp only
          · intro _
            refine ⟨rfl, ?_⟩
            simp only
            rw [(C75_weighted_sum _).2 (by simp)]
            simp
          · intro h1 h2
            rcases hdet with hd | hd
            · rw [h1] at hd; cases hd
            · exact absurd hd h2
        · rename_i hdet
          have e := (Prod.mk.inj (Prod.mk.inj (Except.ok.inj hgates)).2).2
          rw [← e]
          refine ⟨?_, ?_, ?_⟩
          · simp only
          · intro h1
            exact absurd h1 hdet
          · intro _ _
            refine ⟨_, hK.2, hK.1, rfl, ?_, ?_⟩
            · have e1 : (1 / (E : ℝ)) * cfg.noiseStd = cfg.noiseStd / E := by ring
              have e2 : planLogits false cfg.noiseStd logits z =
                  fun s e => logits s e + cfg.noiseStd / E * z s e := rfl
              rw [e1, e2]
            · simp only
              rw [(C75_weighted_sum _).2 (by simp)]
              simp
      · cases hgates

/-- C75: the expert-choice layer with softmax combine weights: here both the selection and the weights
use the noisy logits. -/
theorem C75_expert_choice_layer {P : Type*} (fl : ℚ → ℚ) (cfg : KlConfig) (cap : Nat)
    (hcomb : cfg.useSoftmaxCombineWeights = true)
    (logits z : Fin G → Fin S → Fin E → ℝ) (w : Fin G → EinsumWeights ℝ S E cap)
    (h : ∀ g, klExpertRouter fl cfg (logits g) (z g) = .ok ⟨cap, w g⟩)
    (params : Fin E → P) (f : P → M → N) (x : Fin G → Fin S → M) (g : Fin G) (s : Fin S) :
    sparseMoe (einsumDispatch w) (einsumCombine w) params f x g s =
      ∑ e ∈ Finset.univ.filter (fun e => itemRank
          (klPlan cfg.iterations (planLogits cfg.deterministic cfg.noiseStd (logits g) (z g))) s e < cap),
        softmax (planLogits cfg.deterministic cfg.noiseStd (logits g) (z g) s) e •
          f (params e) (x g s) := by
  refine C74_expert_choice_layer fl cfg.dispatcher cap
    (fun g => klPlan cfg.iterations (planLogits cfg.deterministic cfg.noiseStd (logits g) (z g)))
    (fun g s => softmax (planLogits cfg.deterministic cfg.noiseStd (logits g) (z g) s))
    w ?_ params f x g s
  intro g
  have hg := h g
  unfold klExpertRouter at hg
  simp only [hcomb, if_true] at hg
  have : klExpertGates cfg.deterministic cfg.noiseStd cfg.iterations (logits g) (z g) =
      (klPlan cfg.iterations (planLogits cfg.deterministic cfg.noiseStd (logits g) (z g)),
        fun s => softmax (planLogits cfg.deterministic cfg.noiseStd (logits g) (z g) s)) := by
    unfold klExpertGates planLogits
    split
    · rename_i hdet
      rcases hdet with hdet | hdet
      · rw [if_pos hdet]
      · rw [hdet]
        simp
    · rename_i hdet
      rw [if_neg (fun hd => hdet (.inl hd))]
      have : ∀ s e, logits g s e + 1 / (E : ℝ) * cfg.noiseStd * z g s e =
          logits g s e + cfg.noiseStd / (E : ℝ) * z g s e := fun s e => by ring
      simp only [this]
  rw [this] at hg
  exact hg

/-- Noise in the item-choice router with two of three experts: the hypotheses hold. -/
example (logits z : Fin 2 → Fin 3 → ℝ) : ∃ r : EinsumWeights ℝ 2 3 2 × KlMetrics,
    klItemRouter id (fun x => x) ⟨2, 1, 0, 0, false, 7, true, ⟨"einsum", true, some 2, none, none, none⟩⟩
      logits z = .ok (.einsum 2 r.1, r.2) := by
  unfold klItemRouter klItemGates
  simp only [Nat.reduceLeDiff, and_self, dite_true, Bool.false_eq_true, one_ne_zero, or_self, if_false]
  exact ⟨(_, _), rfl⟩

/-- A weight of 0 and no noise: the reported importance loss is 0. -/
example (logits z : Fin 2 → Fin 3 → ℝ) : ∃ d m,
    klItemRouter id (fun x => x) ⟨2, 0, 0, 0, true, 7, true, ⟨"einsum", true, some 2, none, none, none⟩⟩
      logits z = .ok (d, m) ∧ m.importanceLoss = 0 := by
  unfold klItemRouter klItemGates
  simp only [Nat.reduceLeDiff, and_self, dite_true, true_or, if_true]
  exact ⟨_, _, rfl, rfl⟩

/-- All six places of six tokens. -/
example : sparseNnz id ⟨"einsum", false, none, some 3, none, some none⟩ 6 3 = .ok 6 := by decide +kernel

/-- One term with positive weight and a NaN with weight zero. -/
example : weightedSum [(2, some 3), (0, none)] = some 6 ∧ weightedSum [(2, none)] = none := by
  refine ⟨((C75_weighted_sum _).2 ?_).trans ?_, (C75_weighted_sum _).1 ?_⟩
  · simp
  · norm_num
  · simp

end Verif.OtRouting
