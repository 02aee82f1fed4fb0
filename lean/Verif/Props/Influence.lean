import Verif.Props.VmoeModel

/-!
C132: what the other tokens of a group can change in the output for a token: they can take away terms of its sum, and nothing else; and which
tokens they cannot touch.
-/

namespace Verif.Influence

open Verif Verif.Moe Verif.MoeBlock Verif.Spec

variable {B T S E K H O : Nat} {R P : Type}

/-- How many items come before item `s`: earlier ones or, with batch priority, ones with a larger top gate (or the same one, and earlier). -/
def position [LinearOrder R] (hE : 0 < E) (bp : Bool) (gates : Fin S → Fin E → R) (s : Fin S) : Nat :=
  (Finset.univ.filter (fun s' : Fin S => ItemBefore hE bp gates s' s)).card

section order

variable [LinearOrder R] {hE : 0 < E} {bp : Bool} {gates : Fin S → Fin E → R}

theorem before_irrefl (s : Fin S) : ¬ ItemBefore hE bp gates s s := by
  unfold ItemBefore
  rcases bp with _ | _ <;> simp

theorem before_trans {a b c : Fin S} (h1 : ItemBefore hE bp gates a b) (h2 : ItemBefore hE bp gates b c) : ItemBefore hE bp gates a c := by
  unfold ItemBefore at *
  rcases bp with _ | _
  · simp only [Bool.false_eq_true, if_false] at *
    exact h1.trans h2
  · simp only [if_true] at *
    rcases h1 with h1 | ⟨h1, h1'⟩ <;> rcases h2 with h2 | ⟨h2, h2'⟩
    · exact Or.inl (h2.trans h1)
    · exact Or.inl (h2 ▸ h1)
    · exact Or.inl (h1 ▸ h2)
    · exact Or.inr ⟨h1.trans h2, h1'.trans h2'⟩

theorem before_total {a b : Fin S} (h : a ≠ b) : ItemBefore hE bp gates a b ∨ ItemBefore hE bp gates b a := by
  unfold ItemBefore
  rcases bp with _ | _
  · simpa using lt_or_gt_of_ne h
  · simp only [if_true]
    rcases lt_trichotomy (topGate hE gates a) (topGate hE gates b) with h1 | h1 | h1
    · exact Or.inr (Or.inl h1)
    · rcases lt_or_gt_of_ne h with h2 | h2
      · exact Or.inl (Or.inr ⟨h1, h2⟩)
      · exact Or.inr (Or.inr ⟨h1.symm, h2⟩)
    · exact Or.inl (Or.inl h1)

theorem position_lt {a b : Fin S} (h : ItemBefore hE bp gates a b) : position hE bp gates a < position hE bp gates b := by
  unfold position
  apply Finset.card_lt_card
  refine ⟨fun c hc => ?_, fun hsub => ?_⟩
  · simp only [Finset.mem_filter, Finset.mem_univ, true_and] at hc ⊢
    exact before_trans hc h
  · have := hsub (by simpa using h : a ∈ _)
    simp only [Finset.mem_filter, Finset.mem_univ, true_and] at this
    exact before_irrefl a this

theorem position_injective : Function.Injective (position hE bp gates) := by
  intro a b h
  by_contra hne
  rcases before_total (hE := hE) (bp := bp) (gates := gates) hne with h1 | h1
  · have := position_lt h1; omega
  · have := position_lt h1; omega

theorem position_lt_size (s : Fin S) : position hE bp gates s < S := by
  unfold position
  have : (Finset.univ.filter (fun s' : Fin S => ItemBefore hE bp gates s' s)).card < (Finset.univ : Finset (Fin S)).card := by
    apply Finset.card_lt_card
    refine ⟨Finset.subset_univ _, fun hsub => ?_⟩
    have := hsub (Finset.mem_univ s)
    simp only [Finset.mem_filter, Finset.mem_univ, true_and] at this
    exact before_irrefl s this
  simpa using this

theorem card_position_lt (cap : Nat) : (Finset.univ.filter (fun s : Fin S => position hE bp gates s < cap)).card = min S cap := by
  have hbij : Function.Bijective (fun s : Fin S => (⟨position hE bp gates s, position_lt_size s⟩ : Fin S)) := by
    rw [Fintype.bijective_iff_injective_and_card]
    exact ⟨fun a b h => position_injective (Fin.mk.inj_iff.1 h), rfl⟩
  have : (Finset.univ.filter (fun s : Fin S => position hE bp gates s < cap)).card =
      (Finset.univ.filter (fun s : Fin S => s.1 < cap)).card := by
    apply Finset.card_bij (fun s _ => (⟨position hE bp gates s, position_lt_size s⟩ : Fin S))
    · intro s hs
      simpa using hs
    · intro a _ b _ h
      exact hbij.1 h
    · intro s hs
      obtain ⟨a, ha⟩ := hbij.2 s
      refine ⟨a, ?_, ha⟩
      rw [← ha] at hs
      simpa using hs
  rw [this]
  have := Fin.card_filter_val_lt (m := cap) (n := S)
  rw [this]

theorem slot_first (s : Fin S) (e : Fin E) (h : choiceRank gates s e = 0) : slot hE bp gates K s e ≤ position hE bp gates s := by
  unfold slot position
  apply Finset.card_le_card
  intro s' hs'
  simp only [Finset.mem_filter, Finset.mem_univ, true_and] at hs' ⊢
  rcases hs'.2 with h1 | h1
  · rw [h] at h1; exact absurd h1 (Nat.not_lt_zero _)
  · exact h1.2

end order

/-- **C132**: the first choice of an item is kept if fewer than `cap` items come before it: the first `cap` items of a group or, with batch priority,
the `cap` items with the largest gates are never dropped by their favourite expert, whatever the others request. -/
theorem C132_first_choice [CommRing R] [LinearOrder R] [IsStrictOrderedRing R] (gates : Fin S → Fin E → R) (h0 : 0 < K) (hK : K ≤ E) (cap : Nat)
    (bp : Bool) (s : Fin S) (e : Fin E) (hbest : ∀ e', gates s e' ≤ gates s e ∧ (gates s e' = gates s e → e ≤ e'))
    (hpos : position (h0.trans_le hK) bp gates s < cap) :
    ∃ c, (topExpertsEinsum gates K h0 hK cap bp).dispatchWeights s e c = true := by
  have hE : 0 < E := h0.trans_le hK
  have hr : choiceRank gates s e = 0 := by
    unfold choiceRank
    rw [Finset.card_eq_zero, Finset.filter_eq_empty_iff]
    rintro e' - (h | h)
    · exact absurd h (not_lt.2 (hbest e').1)
    · exact absurd h.2 (not_lt.2 ((hbest e').2 h.1))
  have hs := slot_first (hE := hE) (bp := bp) (K := K) s e hr
  refine ⟨⟨slot hE bp gates K s e, lt_of_le_of_lt hs hpos⟩, ?_⟩
  rw [einsum_dispatchWeights hE]
  exact ⟨by unfold Requests; omega, rfl⟩

/-- **C132**: so at least `cap` items of a group (all of them, if it is smaller) are processed by their favourite expert. -/
theorem C132_number_first [CommRing R] [LinearOrder R] [IsStrictOrderedRing R] (gates : Fin S → Fin E → R) (h0 : 0 < K) (hK : K ≤ E) (cap : Nat)
    (bp : Bool) (best : Fin S → Fin E) (hbest : ∀ s e', gates s e' ≤ gates s (best s) ∧ (gates s e' = gates s (best s) → best s ≤ e')) :
    min S cap ≤ (Finset.univ.filter (fun s => ∃ c, (topExpertsEinsum gates K h0 hK cap bp).dispatchWeights s (best s) c = true)).card := by
  rw [← card_position_lt (hE := h0.trans_le hK) (bp := bp) (gates := gates) cap]
  apply Finset.card_le_card
  intro s hs
  simp only [Finset.mem_filter, Finset.mem_univ, true_and] at hs ⊢
  exact C132_first_choice gates h0 hK cap bp s (best s) (hbest s) hs

/-- Three items which all prefer expert 1, and two places: the two items with the largest gates, 2 and 0, are kept. -/
example : (∃ c, (topExpertsEinsum ![![(1 : ℚ), 3], ![1, 2], ![1, 5]] 1 (by decide) (by decide) 2 true).dispatchWeights 2 1 c = true) ∧
    (∃ c, (topExpertsEinsum ![![(1 : ℚ), 3], ![1, 2], ![1, 5]] 1 (by decide) (by decide) 2 true).dispatchWeights 0 1 c = true) ∧
    2 ≤ (Finset.univ.filter (fun s => ∃ c, (topExpertsEinsum ![![(1 : ℚ), 3], ![1, 2], ![1, 5]] 1 (by decide) (by decide) 2
      true).dispatchWeights s ((fun _ => 1) s) c = true)).card :=
  ⟨C132_first_choice _ _ _ 2 true 2 1 (by decide +kernel) (by decide +kernel), C132_first_choice _ _ _ 2 true 0 1 (by decide +kernel) (by decide +kernel),
    C132_number_first ![![(1 : ℚ), 3], ![1, 2], ![1, 5]] (by decide) (by decide) 2 true (fun _ => 1) (by decide +kernel)⟩

/-- **C132**: let two batches have the same token at some place (and the same noise).  Its gates, and so the experts that it requests, are the same
in both; its outputs are sums of gate times output of the expert over two subsets of these experts: other tokens of the group can take away terms,
and have no other influence.  If the outputs of the experts are at most `M`, the two outputs differ by at most `M`. -/
theorem C132_influence (fl : ℚ → ℚ) (cdf bf : ℝ → ℝ) (cfg : RouterConfig) (S : Nat) (hS : 0 < S) (kernel : Fin H → Fin E → ℝ)
    (z : Nat → Nat → Nat → ℝ) (oob : Fin O → ℝ) (params : Fin E → P) (mlp : P → (Fin H → ℝ) → Fin O → ℝ) (x x' : Fin B → Fin T → Fin H → ℝ)
    (out out' : Fin B → Fin T → Fin O → ℝ) (m m' : Metrics (B * T / S))
    (h : mlpMoeBlock fl cdf bf cfg S kernel z oob params mlp x = .ok (out, m))
    (h' : mlpMoeBlock fl cdf bf cfg S kernel z oob params mlp x' = .ok (out', m')) (b : Fin B) (t : Fin T) (hx : x b t = x' b t) :
    let n := tokenNumber T b t
    let gate := tokenGates S kernel (usedStd cfg E) z x (n / S) ⟨n % S, Nat.mod_lt _ hS⟩
    let round := fun {D : Nat} (v : Fin D → ℝ) (i : Fin D) => if cfg.dispatcher.bfloat16 then bf (v i) else v i
    (∃ requested kept kept' : Finset (Fin E), requested.card = cfg.numSelected ∧ (∀ e ∈ requested, ∀ e' ∉ requested, gate e' ≤ gate e) ∧
      kept ⊆ requested ∧ kept' ⊆ requested ∧
      (∀ i, out b t i = ∑ e ∈ kept, gate e * round (mlp (params e) (round (x b t))) i) ∧
      ∀ i, out' b t i = ∑ e ∈ kept', gate e * round (mlp (params e) (round (x b t))) i) ∧
    ∀ (M : ℝ) (i : Fin O), (∀ e, |round (mlp (params e) (round (x b t))) i| ≤ M) → |out' b t i - out b t i| ≤ M := by
  intro n gate round
  obtain ⟨⟨-, hdiv⟩, ⟨h0, hKE⟩, hname, cap, hcap⟩ := Vmoe.success h
  have hE : 0 < E := lt_of_lt_of_le h0 hKE
  obtain ⟨out1, m1, h1, hout1⟩ := C72_block_output fl cdf bf cfg S kernel z oob params mlp x hS hdiv hE h0 hKE hname cap hcap
  obtain ⟨out2, m2, h2, hout2⟩ := C72_block_output fl cdf bf cfg S kernel z oob params mlp x' hS hdiv hE h0 hKE hname cap hcap
  rw [h] at h1
  cases h1
  rw [h'] at h2
  cases h2
  have hgate : tokenGates S kernel (usedStd cfg E) z x' (n / S) ⟨n % S, Nat.mod_lt _ hS⟩ = gate := by
    have e1 : tokenOf x (n / S * S + n % S) = x b t := by rw [Nat.div_add_mod', tokenOf_tokenNumber]
    have e2 : tokenOf x' (n / S * S + n % S) = x' b t := by rw [Nat.div_add_mod', tokenOf_tokenNumber]
    change tokenGates S kernel (usedStd cfg E) z x' (n / S) ⟨n % S, Nat.mod_lt _ hS⟩ =
      tokenGates S kernel (usedStd cfg E) z x (n / S) ⟨n % S, Nat.mod_lt _ hS⟩
    unfold tokenGates
    simp only [e1, e2, hx]
  set G := tokenGates S kernel (usedStd cfg E) z x (n / S) with hG
  set G' := tokenGates S kernel (usedStd cfg E) z x' (n / S) with hG'
  have hrank : ∀ e, choiceRank G' ⟨n % S, Nat.mod_lt _ hS⟩ e = choiceRank G ⟨n % S, Nat.mod_lt _ hS⟩ e := by
    intro e
    unfold choiceRank
    rw [hgate]
  have ho1 := hout1 b t
  have ho2 := hout2 b t
  simp only [← hx] at ho2
  have hsub : ∃ requested kept kept' : Finset (Fin E), requested.card = cfg.numSelected ∧
      (∀ e ∈ requested, ∀ e' ∉ requested, gate e' ≤ gate e) ∧ kept ⊆ requested ∧ kept' ⊆ requested ∧
      (∀ i, out b t i = ∑ e ∈ kept, gate e * round (mlp (params e) (round (x b t))) i) ∧
      ∀ i, out' b t i = ∑ e ∈ kept', gate e * round (mlp (params e) (round (x b t))) i := by
    refine ⟨Finset.univ.filter (fun e => Requests G cfg.numSelected ⟨n % S, Nat.mod_lt _ hS⟩ e), _,
      Finset.univ.filter (fun e => Kept hE cfg.dispatcher.batchPriority G' cfg.numSelected cap ⟨n % S, Nat.mod_lt _ hS⟩ e), ?_, ?_, ?_, ?_, ho1, ?_⟩
    · refine Eq.trans (b := (Finset.range cfg.numSelected).card) ?_ (Finset.card_range _)
      apply Finset.card_bij (fun e _ => choiceRank G ⟨n % S, Nat.mod_lt _ hS⟩ e)
      · intro e he
        exact Finset.mem_range.2 (Finset.mem_filter.1 he).2
      · intro a _ b _ hab
        exact choiceRank_injective _ _ hab
      · intro k hk
        have hk' : k < cfg.numSelected := Finset.mem_range.1 hk
        have := (topK_eq_iff_choiceRank G hKE ⟨n % S, Nat.mod_lt _ hS⟩ ⟨k, hk'⟩ _).1 rfl
        refine ⟨_, Finset.mem_filter.2 ⟨Finset.mem_univ _, ?_⟩, this⟩
        unfold Requests
        rw [this]
        exact hk'
    · intro e he e' he'
      have h3 : choiceRank G ⟨n % S, Nat.mod_lt _ hS⟩ e < cfg.numSelected := (Finset.mem_filter.1 he).2
      have h4 : ¬ choiceRank G ⟨n % S, Nat.mod_lt _ hS⟩ e' < cfg.numSelected := fun hh => he' (Finset.mem_filter.2 ⟨Finset.mem_univ _, hh⟩)
      by_contra hlt
      rw [not_le] at hlt
      have : choiceRank G ⟨n % S, Nat.mod_lt _ hS⟩ e' ≤ choiceRank G ⟨n % S, Nat.mod_lt _ hS⟩ e := by
        unfold choiceRank
        apply Finset.card_le_card
        intro a ha
        simp only [Finset.mem_filter, Finset.mem_univ, true_and] at ha ⊢
        rcases ha with ha | ha
        · exact Or.inl (lt_trans hlt ha)
        · exact Or.inl (lt_of_lt_of_eq hlt ha.1.symm)
      omega
    · intro e he
      simp only [Finset.mem_filter, Finset.mem_univ, true_and] at he ⊢
      exact he.1
    · intro e he
      simp only [Finset.mem_filter, Finset.mem_univ, true_and] at he ⊢
      have h3 : Requests G' cfg.numSelected ⟨n % S, Nat.mod_lt _ hS⟩ e := he.1
      unfold Requests at h3 ⊢
      rwa [hrank] at h3
    · intro i
      rw [ho2 i]
      exact Finset.sum_congr rfl fun e _ => by rw [← hgate]
  refine ⟨hsub, ?_⟩
  intro M i hM
  obtain ⟨-, kept, kept', -, -, -, -, hk, hk'⟩ := hsub
  rw [hk, hk']
  have hpos : ∀ e, 0 ≤ gate e := fun e => (expWeights_pos e).le
  have hsum : ∑ e, gate e = 1 := expWeights_sum hE _
  have e1 : ∑ e ∈ kept', gate e * round (mlp (params e) (round (x b t))) i - ∑ e ∈ kept, gate e * round (mlp (params e) (round (x b t))) i =
      ∑ e, ((if e ∈ kept' then (1 : ℝ) else 0) - if e ∈ kept then 1 else 0) * (gate e * round (mlp (params e) (round (x b t))) i) := by
    simp only [sub_mul, Finset.sum_sub_distrib, ite_mul, one_mul, zero_mul, Finset.sum_ite_mem, Finset.univ_inter]
  rw [e1]
  refine (Finset.abs_sum_le_sum_abs _ _).trans ?_
  calc ∑ e, |((if e ∈ kept' then (1 : ℝ) else 0) - if e ∈ kept then 1 else 0) * (gate e * round (mlp (params e) (round (x b t))) i)|
      ≤ ∑ e, gate e * M := by
        apply Finset.sum_le_sum
        intro e _
        rw [abs_mul, abs_mul, abs_of_nonneg (hpos e)]
        have h3 : |(if e ∈ kept' then (1 : ℝ) else 0) - if e ∈ kept then 1 else 0| ≤ 1 := by split_ifs <;> norm_num
        have h4 : 0 ≤ gate e * |round (mlp (params e) (round (x b t))) i| := mul_nonneg (hpos e) (abs_nonneg _)
        calc _ ≤ 1 * (gate e * |round (mlp (params e) (round (x b t))) i|) := mul_le_mul_of_nonneg_right h3 h4
          _ = gate e * |round (mlp (params e) (round (x b t))) i| := one_mul _
          _ ≤ gate e * M := mul_le_mul_of_nonneg_left (hM e) (hpos e)
    _ = M := by rw [← Finset.sum_mul, hsum, one_mul]

/-- Two batches of two images with one token each, in one group, with one place per expert; the first images are the same. -/
example (kernel : Fin 2 → Fin 2 → ℝ) (a u v : Fin 2 → ℝ) : ∃ out m out' m',
    mlpMoeBlock id id id ⟨1, 0, 0, 0, 0, ⟨"einsum", true, some 1, none, "ceil", none, false⟩, true⟩ 2 kernel (fun _ _ _ => 0) (fun _ => 0)
      (fun _ : Fin 2 => (0 : ℝ)) (fun _ _ (_ : Fin 1) => 1) (![fun _ : Fin 1 => a, fun _ => u] : Fin 2 → _) = .ok (out, m) ∧
    mlpMoeBlock id id id ⟨1, 0, 0, 0, 0, ⟨"einsum", true, some 1, none, "ceil", none, false⟩, true⟩ 2 kernel (fun _ _ _ => 0) (fun _ => 0)
      (fun _ : Fin 2 => (0 : ℝ)) (fun _ _ (_ : Fin 1) => 1) (![fun _ : Fin 1 => a, fun _ => v] : Fin 2 → _) = .ok (out', m') ∧
    |out' 0 0 0 - out 0 0 0| ≤ 1 := by
  have run := fun x : Fin 2 → Fin 1 → Fin 2 → ℝ => C72_block_output id id id
    ⟨1, 0, 0, 0, 0, ⟨"einsum", true, some 1, none, "ceil", none, false⟩, true⟩ 2 kernel (fun _ _ _ => 0) (fun _ => 0) (fun _ : Fin 2 => (0 : ℝ))
    (fun _ _ (_ : Fin 1) => 1) x (by decide) (by decide) (by decide) (by decide) (by decide) (Or.inl rfl) 1 rfl
  obtain ⟨out, m, h, -⟩ := run ![fun _ => a, fun _ => u]
  obtain ⟨out', m', h', -⟩ := run ![fun _ => a, fun _ => v]
  refine ⟨out, m, out', m', h, h', ?_⟩
  exact (C132_influence id id id _ 2 (by decide) kernel _ _ _ _ _ _ out out' m m' h h' 0 0 rfl).2 1 0 (fun e => by simp)

end Verif.Influence
