import Verif.Props.VmoeModel
import Verif.Props.MoeCapacity

/-!
C130: with a larger capacity, a larger capacity factor or more selected experts per item, every assignment that was kept before
is kept, in the same place and with the same weight; the output of a token gets further terms and loses none.
-/

namespace Verif.Moe

open Verif Verif.Spec Verif.MoeBlock

variable {B T S E K K' H O : Nat} {R P : Type}

theorem roundHalfEven_mono {q q' : ℚ} (h : q ≤ q') : roundHalfEven q ≤ roundHalfEven q' := by
  by_contra hn
  rw [not_le] at hn
  obtain ⟨h1, h2⟩ := roundHalfEven_spec q
  obtain ⟨h3, h4⟩ := roundHalfEven_spec q'
  rw [abs_le] at h1 h3
  have h5 : (roundHalfEven q' : ℚ) + 1 ≤ roundHalfEven q := by exact_mod_cast hn
  have e1 : q - roundHalfEven q = -(1 / 2) := by linarith
  have e2 : q' - roundHalfEven q' = 1 / 2 := by linarith
  have e3 : (roundHalfEven q : ℚ) = roundHalfEven q' + 1 := by linarith
  have e4 : roundHalfEven q = roundHalfEven q' + 1 := by exact_mod_cast e3
  have := h2 (by rw [e1]; norm_num)
  have := h4 (by rw [e2]; norm_num)
  omega

/-- **C130**: with more tokens or a larger capacity factor, `compute_capacity` succeeds if it did before, and the capacity is not smaller.
The rounding of the numbers has to be monotone, as that of floating point numbers is. -/
theorem C130_capacity (fl : ℚ → ℚ) (hfl : Monotone fl) (tokens tokens' experts : Nat) (factor factor' : ℚ) (mode : String)
    (multipleOf : Option Int) (ht : tokens ≤ tokens') (h0 : 0 ≤ factor) (hf : factor ≤ factor') (c : Int)
    (h : computeCapacity fl tokens experts factor mode multipleOf = .ok c) :
    ∃ c', computeCapacity fl tokens' experts factor' mode multipleOf = .ok c' ∧ c ≤ c' := by
  obtain ⟨hm, he, r, hr, h1⟩ := C10_success_only_if fl tokens experts factor mode multipleOf c h
  have hq : fl (fl (tokens * factor) / experts) ≤ fl (fl (tokens' * factor') / experts) := by
    apply hfl
    apply div_le_div_of_nonneg_right _ (Nat.cast_nonneg _)
    apply hfl
    have : (tokens : ℚ) ≤ tokens' := by exact_mod_cast ht
    exact mul_le_mul this hf h0 (Nat.cast_nonneg _)
  have hr' := base_spec hm (fl (fl (tokens' * factor') / experts))
  have hrr : r ≤ if mode = "ceil" then ⌈fl (fl (tokens' * factor') / experts)⌉ else roundHalfEven (fl (fl (tokens' * factor') / experts)) := by
    rw [isRoundedShare_unique hr (base_spec hm _)]
    split_ifs
    · exact Int.ceil_mono hq
    · exact roundHalfEven_mono hq
  obtain ⟨c1, hc1, hle, hmul, hnone⟩ := (C10_capacity fl tokens experts factor mode multipleOf he r hr).2 h1
  obtain ⟨c2, hc2, hle2, hmul2, hnone2⟩ := (C10_capacity fl tokens' experts factor' mode multipleOf he _ hr').2 (h1.trans hrr)
  rw [hc1] at h
  cases h
  refine ⟨c2, hc2, ?_⟩
  by_cases hp : ∃ m, multipleOf = some m ∧ 0 < m
  · obtain ⟨m, hm1, hm2⟩ := hp
    exact (hmul m hm1 hm2).2.2 c2 (hmul2 m hm1 hm2).1 (hrr.trans hle2)
  · have hp' : ∀ m, multipleOf = some m → m ≤ 0 := by
      intro m hm1
      by_contra hn
      exact hp ⟨m, hm1, not_le.1 hn⟩
    rw [hnone hp']
    exact hrr.trans hle2

/-- A shrinking share of a number of tokens with the factor and the multiple of the defaults. -/
example : ∃ c', computeCapacity id 100 8 2 "ceil" (some 4) = .ok c' ∧ 12 ≤ c' :=
  C130_capacity id monotone_id 60 100 8 (3 / 2) 2 "ceil" (some 4) (by norm_num) (by norm_num) (by norm_num) 12 (by decide +kernel)

theorem slot_more [LinearOrder R] (hE : 0 < E) (bp : Bool) (gates : Fin S → Fin E → R) (hK : K ≤ K') (s : Fin S) (e : Fin E)
    (h : Requests gates K s e) : slot hE bp gates K' s e = slot hE bp gates K s e := by
  unfold slot
  congr 1
  ext s'
  simp only [Finset.mem_filter, Finset.mem_univ, true_and]
  constructor
  · rintro ⟨-, hp⟩
    refine ⟨?_, hp⟩
    unfold Requests at h ⊢
    rcases hp with hp | ⟨hp, -⟩ <;> omega
  · rintro ⟨hr, hp⟩
    exact ⟨lt_of_lt_of_le hr hK, hp⟩

theorem kept_more [LinearOrder R] (hE : 0 < E) (bp : Bool) (gates : Fin S → Fin E → R) (hK : K ≤ K') {cap cap' : Nat} (hcap : cap ≤ cap')
    (s : Fin S) (e : Fin E) (h : Kept hE bp gates K cap s e) : Kept hE bp gates K' cap' s e := by
  refine ⟨lt_of_lt_of_le h.1 hK, ?_⟩
  rw [slot_more hE bp gates hK s e h.1]
  exact lt_of_lt_of_le h.2 hcap

/-- **C130**: with more selected experts and a larger capacity, an item that has a place at an expert keeps it, with the same weight, in both
dispatchers and with or without batch priority. -/
theorem C130_places [CommRing R] [LinearOrder R] [IsStrictOrderedRing R] (gates : Fin S → Fin E → R) (h0 : 0 < K) (hK : K ≤ K') (hE : K' ≤ E) (cap cap' : Nat)
    (hcap : cap ≤ cap') (bp : Bool) (s : Fin S) :
    (∀ e c, (topExpertsEinsum gates K h0 (hK.trans hE) cap bp).dispatchWeights s e c = true →
      (topExpertsEinsum gates K' (h0.trans_le hK) hE cap' bp).dispatchWeights s e (c.castLE hcap) = true ∧
      (topExpertsEinsum gates K' (h0.trans_le hK) hE cap' bp).combineWeights s e (c.castLE hcap) =
        (topExpertsEinsum gates K h0 (hK.trans hE) cap bp).combineWeights s e c) ∧
    ∀ k : Fin K, (topExpertsIndices gates K' (h0.trans_le hK) hE cap' bp).indices s (k.castLE hK) =
        (topExpertsIndices gates K h0 (hK.trans hE) cap bp).indices s k ∧
      (topExpertsIndices gates K' (h0.trans_le hK) hE cap' bp).combineWeights s (k.castLE hK) =
        (topExpertsIndices gates K h0 (hK.trans hE) cap bp).combineWeights s k := by
  have hEpos : 0 < E := lt_of_lt_of_le h0 (hK.trans hE)
  constructor
  · intro e c h
    have h1 := h
    rw [einsum_dispatchWeights hEpos] at h1
    have h2 : (topExpertsEinsum gates K' (h0.trans_le hK) hE cap' bp).dispatchWeights s e (c.castLE hcap) = true := by
      rw [einsum_dispatchWeights hEpos]
      exact ⟨lt_of_lt_of_le h1.1 hK, by rw [slot_more hEpos bp gates hK s e h1.1]; exact h1.2⟩
    refine ⟨h2, ?_⟩
    rw [einsum_combineWeights, einsum_combineWeights, if_pos h2, if_pos h]
  · intro k
    have ht : topKIdx (gates s) K' hE (k.castLE hK) = topKIdx (gates s) K (hK.trans hE) k := rfl
    constructor
    · rw [indices_indices hEpos, indices_indices hEpos, ht, slot_more hEpos bp gates hK]
      unfold Requests
      rw [(topK_eq_iff_choiceRank gates (hK.trans hE) s k _).1 rfl]
      exact k.2
    · have h1 := common_combineWeights gates (h0.trans_le hK) hE bp s (k.castLE hK)
      have h2 := common_combineWeights gates h0 (hK.trans hE) bp s k
      rw [ht] at h1
      exact h1.trans h2.symm

/-- Three items, two experts: with one place at each expert and one expert per item the last item loses its place; with two experts per item and
two places, the first item keeps its place at expert 1. -/
example : (topExpertsEinsum ![![(1 : ℚ), 3], ![2, 1], ![1, 5]] 1 (by decide) (by decide) 1 false).dispatchWeights 0 1 0 = true ∧
    (topExpertsEinsum ![![(1 : ℚ), 3], ![2, 1], ![1, 5]] 2 (by decide) (by decide) 2 false).dispatchWeights 0 1 0 = true ∧
    (topExpertsEinsum ![![(1 : ℚ), 3], ![2, 1], ![1, 5]] 1 (by decide) (by decide) 1 false).dispatchWeights 2 1 0 = false ∧
    (topExpertsEinsum ![![(1 : ℚ), 3], ![2, 1], ![1, 5]] 2 (by decide) (by decide) 2 false).dispatchWeights 2 1 1 = true := by
  have h : (topExpertsEinsum ![![(1 : ℚ), 3], ![2, 1], ![1, 5]] 1 (by decide) (by decide) 1 false).dispatchWeights 0 1 0 = true := by
    decide +kernel
  exact ⟨h, ((C130_places _ (by decide) (by decide) (by decide) 1 2 (by decide) false 0).1 1 0 h).1, by decide +kernel, by decide +kernel⟩

/-- **C130**: with a larger capacity, an expert that chooses its items keeps the items it had, in the same places. -/
theorem C130_items [CommRing R] [LinearOrder R] (gates : Fin S → Fin E → R) (cap cap' : Nat) (hcap : cap ≤ cap') (hS : cap' ≤ S)
    (s : Fin S) (e : Fin E) (c : Fin cap) :
    (topItemsEinsum gates cap' hS).dispatchWeights s e (c.castLE hcap) = (topItemsEinsum gates cap (hcap.trans hS)).dispatchWeights s e c ∧
    (topItemsEinsum gates cap' hS).combineWeights s e (c.castLE hcap) = (topItemsEinsum gates cap (hcap.trans hS)).combineWeights s e c :=
  ⟨rfl, rfl⟩

/-- Three items, two experts: the best item of expert 1 with one place is the best one with two. -/
example : (topItemsEinsum ![![(1 : ℚ), 3], ![2, 1], ![1, 5]] 1 (by decide)).dispatchWeights 2 1 0 = true ∧
    (topItemsEinsum ![![(1 : ℚ), 3], ![2, 1], ![1, 5]] 2 (by decide)).dispatchWeights 2 1 0 = true := by
  have h : (topItemsEinsum ![![(1 : ℚ), 3], ![2, 1], ![1, 5]] 1 (by decide)).dispatchWeights 2 1 0 = true := by decide +kernel
  exact ⟨h, ((C130_items _ 1 2 (by decide) (by decide) 2 1 0).1).trans h⟩

/-- The options of the router with other numbers of experts per item, capacity and capacity factor. -/
def withMore (cfg : RouterConfig) (K' : Nat) (capacity' : Option Nat) (factor' : Option ℚ) : RouterConfig :=
  { cfg with
    numSelected := K'
    dispatcher := { cfg.dispatcher with capacity := capacity', capacityFactor := factor' } }

/-- The second pair of options leaves at least as much room as the first: a larger number or a larger factor. -/
def MoreRoom (capacity : Option Nat) (factor : Option ℚ) (capacity' : Option Nat) (factor' : Option ℚ) : Prop :=
  (∃ c c', capacity = some c ∧ factor = none ∧ capacity' = some c' ∧ factor' = none ∧ c ≤ c') ∨
  ∃ f f', capacity = none ∧ factor = some f ∧ capacity' = none ∧ factor' = some f' ∧ 0 ≤ f ∧ f ≤ f'

theorem resolve_more (fl : ℚ → ℚ) (hfl : Monotone fl) (n n' experts : Nat) (hn : n ≤ n') {capacity capacity' : Option Nat}
    {factor factor' : Option ℚ} (hroom : MoreRoom capacity factor capacity' factor') (mode : String) (multipleOf : Option Int) (cap : Nat)
    (h : resolveCapacity fl n experts capacity factor mode multipleOf = .ok cap) :
    ∃ cap', resolveCapacity fl n' experts capacity' factor' mode multipleOf = .ok cap' ∧ cap ≤ cap' := by
  rcases hroom with ⟨c, c', rfl, rfl, rfl, rfl, hc⟩ | ⟨f, f', rfl, rfl, rfl, rfl, hf0, hf⟩
  · rcases c with _ | c
    · simp only [resolveCapacity] at h
      split_ifs at h
    · rcases c' with _ | c'
      · omega
      · simp only [resolveCapacity, Option.isNone_some, Option.isNone_none, Bool.false_eq_true, if_false, Except.ok.injEq] at h ⊢
        exact ⟨_, rfl, by omega⟩
  · simp only [resolveCapacity, Option.isNone_some, Option.isNone_none, Bool.true_eq_false, if_false] at h ⊢
    rcases hc : computeCapacity fl n experts f mode multipleOf with err | c
    · rw [hc] at h; cases h
    · rw [hc] at h
      obtain ⟨c', hc', hle⟩ := C130_capacity fl hfl n n' experts f f' mode multipleOf hn hf0 hf c hc
      rw [hc']
      refine ⟨_, rfl, ?_⟩
      cases h
      exact Int.toNat_le_toNat hle

/-- **C130**: a block of experts that works with some number of experts per item and some capacity works with more of them, up to the number of
experts.  The output for a token is a sum over the experts that have a place for it, of its gate times what the expert computes; with more experts
per item and more room the terms are the same ones and further ones, and none is lost. -/
theorem C130_block (fl : ℚ → ℚ) (hfl : Monotone fl) (cdf bf : ℝ → ℝ) (cfg : RouterConfig) (K' : Nat) (capacity' : Option Nat)
    (factor' : Option ℚ) (hK : cfg.numSelected ≤ K') (hKE : K' ≤ E)
    (hroom : MoreRoom cfg.dispatcher.capacity cfg.dispatcher.capacityFactor capacity' factor') (hS : 0 < S) (kernel : Fin H → Fin E → ℝ)
    (z : Nat → Nat → Nat → ℝ) (oob : Fin O → ℝ) (params : Fin E → P) (mlp : P → (Fin H → ℝ) → Fin O → ℝ) (x : Fin B → Fin T → Fin H → ℝ)
    (out : Fin B → Fin T → Fin O → ℝ) (m : Metrics (B * T / S))
    (h : mlpMoeBlock fl cdf bf cfg S kernel z oob params mlp x = .ok (out, m)) :
    ∃ out' m', mlpMoeBlock fl cdf bf (withMore cfg K' capacity' factor') S kernel z oob params mlp x = .ok (out', m') ∧
      ∀ (b : Fin B) (t : Fin T),
        let n := tokenNumber T b t
        let gates := tokenGates S kernel (usedStd cfg E) z x (n / S) ⟨n % S, Nat.mod_lt _ hS⟩
        let round := fun {D : Nat} (v : Fin D → ℝ) (i : Fin D) => if cfg.dispatcher.bfloat16 then bf (v i) else v i
        ∃ experts experts' : Finset (Fin E), experts ⊆ experts' ∧ experts.card ≤ cfg.numSelected ∧ experts'.card ≤ K' ∧
          (∀ i, out b t i = ∑ e ∈ experts, gates e * round (mlp (params e) (round (x b t))) i) ∧
          ∀ i, out' b t i = ∑ e ∈ experts', gates e * round (mlp (params e) (round (x b t))) i := by
  obtain ⟨⟨-, hdiv⟩, ⟨h0, hKE0⟩, hname, cap, hcap⟩ := Vmoe.success h
  have hE : 0 < E := lt_of_lt_of_le h0 hKE0
  obtain ⟨cap', hcap', hle⟩ := resolve_more fl hfl _ (S * K') E (Nat.mul_le_mul_left S hK) hroom _ _ cap hcap
  obtain ⟨out1, m1, h1, hout1⟩ := C72_block_output fl cdf bf cfg S kernel z oob params mlp x hS hdiv hE h0 hKE0 hname cap hcap
  obtain ⟨out2, m2, h2, hout2⟩ := C72_block_output fl cdf bf (withMore cfg K' capacity' factor') S kernel z oob params mlp x hS hdiv hE
    (lt_of_lt_of_le h0 hK) hKE hname cap' hcap'
  rw [h] at h1
  cases h1
  refine ⟨out2, m2, h2, ?_⟩
  intro b t n gates round
  have hcard : ∀ (L c : Nat) (s : Fin S), (Finset.univ.filter (fun e => Kept hE cfg.dispatcher.batchPriority
      (tokenGates S kernel (usedStd cfg E) z x (n / S)) L c s e)).card ≤ L := by
    intro L c s
    have : (Finset.univ.filter (fun e => Kept hE cfg.dispatcher.batchPriority
      (tokenGates S kernel (usedStd cfg E) z x (n / S)) L c s e)).card ≤ (Finset.range L).card := by
      apply Finset.card_le_card_of_injOn (choiceRank (tokenGates S kernel (usedStd cfg E) z x (n / S)) s)
      · intro e he
        simp only [Finset.coe_filter, Finset.mem_univ, true_and, Set.mem_ofPred_eq] at he
        exact Finset.mem_coe.2 (Finset.mem_range.2 he.1)
      · exact (choiceRank_injective _ s).injOn
    simpa using this
  refine ⟨_, _, ?_, hcard cfg.numSelected cap ⟨n % S, Nat.mod_lt _ hS⟩, hcard K' cap' ⟨n % S, Nat.mod_lt _ hS⟩, hout1 b t, hout2 b t⟩
  intro e he
  simp only [Finset.mem_filter, Finset.mem_univ, true_and] at he ⊢
  exact kept_more hE _ _ hK hle _ _ he

/-- Four tokens in one group, two experts: from one expert per token and factor 1/2 to two experts per token and factor 1. -/
example (kernel : Fin 2 → Fin 2 → ℝ) (x : Fin 2 → Fin 2 → Fin 2 → ℝ) :
    ∃ out m out' m',
      mlpMoeBlock id id id ⟨1, 0, 0, 0, 0, ⟨"einsum", true, none, some (1 / 2), "ceil", none, false⟩, true⟩ 4 kernel (fun _ _ _ => 0)
        (fun _ => 0) (fun e : Fin 2 => (e.1 : ℝ)) (fun p v (i : Fin 2) => p + v i) x = .ok (out, m) ∧
      mlpMoeBlock id id id ⟨2, 0, 0, 0, 0, ⟨"einsum", true, none, some 1, "ceil", none, false⟩, true⟩ 4 kernel (fun _ _ _ => 0)
        (fun _ => 0) (fun e : Fin 2 => (e.1 : ℝ)) (fun p v (i : Fin 2) => p + v i) x = .ok (out', m') := by
  obtain ⟨out, m, h, -⟩ := C72_block_output id id id ⟨1, 0, 0, 0, 0, ⟨"einsum", true, none, some (1 / 2), "ceil", none, false⟩, true⟩ 4 kernel
    (fun _ _ _ => 0) (fun _ => 0) (fun e : Fin 2 => (e.1 : ℝ)) (fun p v (i : Fin 2) => p + v i) x (by decide) (by decide) (by decide)
    (by decide) (by decide) (Or.inl rfl) 1 (by decide +kernel)
  obtain ⟨out', m', h', -⟩ := C130_block id monotone_id id id
    ⟨1, 0, 0, 0, 0, ⟨"einsum", true, none, some (1 / 2), "ceil", none, false⟩, true⟩ 2 none (some 1) (by decide) (by decide)
    (Or.inr ⟨1 / 2, 1, rfl, rfl, rfl, rfl, by norm_num, by norm_num⟩) (by decide) kernel (fun _ _ _ => 0) (fun _ => 0)
    (fun e : Fin 2 => (e.1 : ℝ)) (fun p v (i : Fin 2) => p + v i) x out m h
  exact ⟨out, m, out', m', h, h'⟩

end Verif.Moe
