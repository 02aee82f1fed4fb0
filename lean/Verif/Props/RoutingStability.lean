import Verif.Props.VmoeModel
import Verif.Props.ExpertChoiceBlock
import Mathlib.Analysis.Calculus.FDeriv.Basic
import Mathlib.Analysis.SpecialFunctions.Exp
import Mathlib.Topology.Order.Lattice

/-!
C131: away from ties, small changes of the gates do not change the routing.  So the output of a block of experts is, near a point without ties, a
smooth function of parameters and inputs with the routing as a constant, which is what automatic differentiation takes it for.
-/

namespace Verif.RoutingStability

open Verif Verif.Moe Verif.MoeBlock Verif.Spec
open scoped Topology

variable {B T S E K H O : Nat} {R Q : Type}

/-- No item has the same gate at two experts and, with batch priority, no two items have the same largest gate. -/
def NoTies [LinearOrder R] (hE : 0 < E) (bp : Bool) (gates : Fin S → Fin E → R) : Prop :=
  (∀ s, Function.Injective (gates s)) ∧ (bp = true → Function.Injective (topGate hE gates))

/-- Two lists of numbers are ordered in the same way. -/
def SameOrder {ι : Type} [LinearOrder R] (u v : ι → R) : Prop := ∀ i j, u i < u j ↔ v i < v j

theorem SameOrder.eq_iff {ι : Type} [LinearOrder R] {u v : ι → R} (h : SameOrder u v) (i j : ι) : u i = u j ↔ v i = v j := by
  rw [le_antisymm_iff, le_antisymm_iff, ← not_lt, ← not_lt, ← not_lt, ← not_lt, h i j, h j i]

section order

variable [LinearOrder R] {gates gates' : Fin S → Fin E → R}

theorem choiceRank_same (h : ∀ s, SameOrder (gates s) (gates' s)) (s : Fin S) (e : Fin E) : choiceRank gates s e = choiceRank gates' s e := by
  unfold choiceRank
  congr 1
  ext e'
  simp only [Finset.mem_filter, Finset.mem_univ, true_and, h s e e', (h s).eq_iff e' e]

theorem requests_same (h : ∀ s, SameOrder (gates s) (gates' s)) (s : Fin S) (e : Fin E) : Requests gates K s e ↔ Requests gates' K s e := by
  unfold Requests
  rw [choiceRank_same h]

theorem slot_same (hE : 0 < E) (bp : Bool) (h : ∀ s, SameOrder (gates s) (gates' s))
    (ht : bp = true → SameOrder (topGate hE gates) (topGate hE gates')) (s : Fin S) (e : Fin E) :
    slot hE bp gates K s e = slot hE bp gates' K s e := by
  have hb : ∀ s', ItemBefore hE bp gates s' s ↔ ItemBefore hE bp gates' s' s := by
    intro s'
    unfold ItemBefore
    rcases bp with _ | _
    · simp
    · simp only [if_true, ht rfl s s', (ht rfl).eq_iff s' s]
  unfold slot HigherPriority
  congr 1
  ext s'
  simp only [Finset.mem_filter, Finset.mem_univ, true_and, requests_same h, choiceRank_same h, hb]

theorem kept_same (hE : 0 < E) (bp : Bool) (h : ∀ s, SameOrder (gates s) (gates' s))
    (ht : bp = true → SameOrder (topGate hE gates) (topGate hE gates')) (cap : Nat) (s : Fin S) (e : Fin E) :
    Kept hE bp gates K cap s e ↔ Kept hE bp gates' K cap s e := by
  unfold Kept
  rw [requests_same h, slot_same hE bp h ht]

theorem itemRank_same (h : ∀ e, SameOrder (fun s => gates s e) (fun s => gates' s e)) (s : Fin S) (e : Fin E) :
    itemRank gates s e = itemRank gates' s e := by
  unfold itemRank
  congr 1
  ext s'
  have h1 := h e s s'
  have h2 := (h e).eq_iff s' s
  simp only at h1 h2
  simp only [Finset.mem_filter, Finset.mem_univ, true_and, h1, h2]

end order

section margin

variable [CommRing R] [LinearOrder R] [IsStrictOrderedRing R]

theorem sameOrder_of_margin {ι : Type} {u v : ι → R} (δ : R) (hu : ∀ i j, i ≠ j → 2 * δ ≤ |u i - u j|) (hv : ∀ i, |v i - u i| < δ) :
    SameOrder u v := by
  have key : ∀ i j, u i < u j → v i < v j := by
    intro i j hij
    have h1 := hu i j (by rintro rfl; exact lt_irrefl _ hij)
    rw [abs_of_neg (sub_neg.2 hij)] at h1
    have h2 := abs_lt.1 (hv i)
    have h3 := abs_lt.1 (hv j)
    linarith [h2.2, h3.1]
  intro i j
  refine ⟨key i j, fun h => ?_⟩
  rcases lt_trichotomy (u i) (u j) with h1 | h1 | h1
  · exact h1
  · by_cases hij : i = j
    · rw [hij] at h; exact absurd h (lt_irrefl _)
    · have := hu i j hij
      rw [h1, sub_self, abs_zero] at this
      have h2 := lt_of_le_of_lt (abs_nonneg _) (hv i)
      linarith
  · exact absurd h (not_lt.2 (key j i h1).le)

theorem topGate_close (hE : 0 < E) {gates gates' : Fin S → Fin E → R} {δ : R} (h : ∀ s e, |gates' s e - gates s e| < δ) (s : Fin S) :
    |topGate hE gates' s - topGate hE gates s| < δ := by
  unfold topGate
  obtain ⟨e, -, he⟩ := Finset.exists_mem_eq_sup' ⟨⟨0, hE⟩, Finset.mem_univ _⟩ (gates s)
  obtain ⟨e', -, he'⟩ := Finset.exists_mem_eq_sup' ⟨⟨0, hE⟩, Finset.mem_univ _⟩ (gates' s)
  have h1 : gates s e' ≤ gates s e := by rw [← he]; exact Finset.le_sup' (gates s) (Finset.mem_univ e')
  have h2 : gates' s e ≤ gates' s e' := by rw [← he']; exact Finset.le_sup' (gates' s) (Finset.mem_univ e)
  rw [he, he', abs_lt]
  have h3 := abs_lt.1 (h s e)
  have h4 := abs_lt.1 (h s e')
  constructor <;> linarith [h3.1, h3.2, h4.1, h4.2]

/-- **C131**: if any two gates of an item differ by at least `2 δ` and, with batch priority, so do the largest gates of any two items, then changing
all gates by less than `δ` leaves the places of all items unchanged, in both dispatchers, for any capacity; the weights change by less than `δ`. -/
theorem C131_margin (gates gates' : Fin S → Fin E → R) (h0 : 0 < K) (hK : K ≤ E) (cap : Nat) (bp : Bool) (δ : R)
    (hrow : ∀ s e e', e ≠ e' → 2 * δ ≤ |gates s e - gates s e'|)
    (htop : bp = true → ∀ s s', s ≠ s' → 2 * δ ≤ |topGate (h0.trans_le hK) gates s - topGate (h0.trans_le hK) gates s'|)
    (hclose : ∀ s e, |gates' s e - gates s e| < δ) :
    (topExpertsEinsum gates' K h0 hK cap bp).dispatchWeights = (topExpertsEinsum gates K h0 hK cap bp).dispatchWeights ∧
    (topExpertsIndices gates' K h0 hK cap bp).indices = (topExpertsIndices gates K h0 hK cap bp).indices ∧
    (∀ s e c, |(topExpertsEinsum gates' K h0 hK cap bp).combineWeights s e c - (topExpertsEinsum gates K h0 hK cap bp).combineWeights s e c| < δ) ∧
    ∀ s k, |(topExpertsIndices gates' K h0 hK cap bp).combineWeights s k - (topExpertsIndices gates K h0 hK cap bp).combineWeights s k| < δ := by
  have hE : 0 < E := h0.trans_le hK
  have hs : ∀ s, SameOrder (gates s) (gates' s) := fun s => sameOrder_of_margin δ (hrow s) (hclose s)
  have ht : bp = true → SameOrder (topGate hE gates) (topGate hE gates') := fun hb =>
    sameOrder_of_margin δ (htop hb) (topGate_close hE hclose)
  have hd : (topExpertsEinsum gates' K h0 hK cap bp).dispatchWeights = (topExpertsEinsum gates K h0 hK cap bp).dispatchWeights := by
    funext s e c
    rw [Bool.eq_iff_iff, einsum_dispatchWeights hE, einsum_dispatchWeights hE, requests_same hs, slot_same hE bp hs ht]
  have htk : ∀ s k, topKIdx (gates' s) K hK k = topKIdx (gates s) K hK k := by
    intro s k
    rw [topK_eq_iff_choiceRank gates' hK, ← choiceRank_same hs]
    exact (topK_eq_iff_choiceRank gates hK s k _).1 rfl
  refine ⟨hd, ?_, ?_, ?_⟩
  · funext s k
    rw [indices_indices hE, indices_indices hE, htk, slot_same hE bp hs ht]
  · intro s e c
    rw [einsum_combineWeights, einsum_combineWeights, hd]
    split_ifs
    · exact hclose s e
    · rw [sub_self, abs_zero]
      exact lt_of_le_of_lt (abs_nonneg _) (hclose s e)
  · intro s k
    have h1 := common_combineWeights gates' h0 hK bp s k
    have h2 := common_combineWeights gates h0 hK bp s k
    rw [htk] at h1
    change |(topExpertsCommon gates' K h0 hK bp).combineWeights s k - (topExpertsCommon gates K h0 hK bp).combineWeights s k| < δ
    rw [h1, h2]
    exact hclose s _

/-- Two items with gates 0.6, 0.4 and 0.1, 0.9, changed by 0.05. -/
example : (topExpertsEinsum ![![(13 / 20 : ℚ), 7 / 20], ![3 / 20, 17 / 20]] 1 (by decide) (by decide) 1 true).dispatchWeights =
    (topExpertsEinsum ![![(6 / 10 : ℚ), 4 / 10], ![1 / 10, 9 / 10]] 1 (by decide) (by decide) 1 true).dispatchWeights := by
  refine (C131_margin _ _ _ _ 1 true (1 / 15) ?_ ?_ ?_).1
  · decide +kernel
  · decide +kernel
  · decide +kernel

end margin

section continuity

variable [TopologicalSpace Q] {q0 : Q}

theorem eventually_sameOrder {ι : Type} [Finite ι] (u : Q → ι → ℝ) (hu : ∀ i, ContinuousAt (fun q => u q i) q0)
    (hinj : Function.Injective (u q0)) : ∀ᶠ q in 𝓝 q0, SameOrder (u q0) (u q) := by
  unfold SameOrder
  rw [Filter.eventually_all]
  intro i
  rw [Filter.eventually_all]
  intro j
  rcases lt_trichotomy (u q0 i) (u q0 j) with h | h | h
  · filter_upwards [(hu i).eventually_lt (hu j) h] with q hq
    exact ⟨fun _ => hq, fun _ => h⟩
  · have := hinj h
    subst this
    exact Filter.Eventually.of_forall fun q => by simp
  · filter_upwards [(hu j).eventually_lt (hu i) h] with q hq
    exact ⟨fun h' => absurd h' h.asymm, fun h' => absurd h' hq.asymm⟩

theorem eventually_rows (gates : Q → Fin S → Fin E → ℝ) (hc : ∀ s e, ContinuousAt (fun q => gates q s e) q0)
    (hinj : ∀ s, Function.Injective (gates q0 s)) : ∀ᶠ q in 𝓝 q0, ∀ s, SameOrder (gates q0 s) (gates q s) := by
  rw [Filter.eventually_all]
  exact fun s => eventually_sameOrder (fun q => gates q s) (hc s) (hinj s)

theorem eventually_kept (hE : 0 < E) (bp : Bool) (gates : Q → Fin S → Fin E → ℝ) (hc : ∀ s e, ContinuousAt (fun q => gates q s e) q0)
    (h : NoTies hE bp (gates q0)) : ∀ᶠ q in 𝓝 q0, ∀ K cap s e, Kept hE bp (gates q0) K cap s e ↔ Kept hE bp (gates q) K cap s e := by
  have ht : ∀ᶠ q in 𝓝 q0, bp = true → SameOrder (topGate hE (gates q0)) (topGate hE (gates q)) := by
    rcases bp with _ | _
    · exact Filter.Eventually.of_forall fun q h => by cases h
    · have := eventually_sameOrder (fun q => topGate hE (gates q)) (fun s => by
        unfold topGate
        exact ContinuousAt.finset_sup'_apply _ fun e _ => hc s e) (h.2 rfl)
      filter_upwards [this] with q hq _
      exact hq
  filter_upwards [eventually_rows gates hc h.1, ht] with q h1 h2 K cap s e
  exact kept_same hE bp h1 h2 cap s e

theorem continuousAt_expWeights {l : Q → Fin E → ℝ} (hl : ∀ e, ContinuousAt (fun q => l q e) q0) (e : Fin E) :
    ContinuousAt (fun q => expWeights (l q) e) q0 := by
  unfold expWeights
  refine ContinuousAt.div ((hl e).rexp) ?_ ?_
  · exact tendsto_finsetSum _ fun e' _ => (hl e').rexp
  · have : 0 < ∑ e', Real.exp (l q0 e') := Finset.sum_pos (fun e' _ => Real.exp_pos _) ⟨e, Finset.mem_univ _⟩
    exact this.ne'

theorem continuousAt_tokenOf {x : Q → Fin B → Fin T → Fin H → ℝ} (hx : ContinuousAt x q0) (n : Nat) (h : Fin H) :
    ContinuousAt (fun q => tokenOf (x q) n h) q0 := by
  unfold tokenOf
  split_ifs with hn
  · have h1 := continuousAt_pi.1 hx ⟨n / T, hn.1⟩
    have h2 := continuousAt_pi.1 h1 ⟨n % T, hn.2⟩
    exact continuousAt_pi.1 h2 h
  · exact continuousAt_const

theorem continuousAt_tokenGates {kernel : Q → Fin H → Fin E → ℝ} {x : Q → Fin B → Fin T → Fin H → ℝ} (hk : ContinuousAt kernel q0)
    (hx : ContinuousAt x q0) (sigma : ℝ) (z : Nat → Nat → Nat → ℝ) (g : Nat) (s : Fin S) (e : Fin E) :
    ContinuousAt (fun q => tokenGates S (kernel q) sigma z (x q) g s e) q0 := by
  unfold tokenGates
  refine continuousAt_expWeights (fun e' => ?_) e
  refine ContinuousAt.add ?_ continuousAt_const
  refine tendsto_finsetSum _ fun h _ => ?_
  exact (continuousAt_tokenOf hx _ h).mul (continuousAt_pi.1 (continuousAt_pi.1 hk h) e')

end continuity

/-- Parameters of the router, parameters of the experts, and inputs. -/
abbrev Point (B T H E : Nat) (P : Type) := (Fin H → Fin E → ℝ) × (Fin E → P) × (Fin B → Fin T → Fin H → ℝ)

/-- The output of a block with routing `kept`: gates times outputs of the experts, for the token `t` of sequence `b`. -/
noncomputable def fixedRouting {P : Type} (S : Nat) (hS : 0 < S) (sigma : ℝ) (z : Nat → Nat → Nat → ℝ) (round : ℝ → ℝ)
    (mlp : P → (Fin H → ℝ) → Fin O → ℝ) (kept : Fin B → Fin T → Finset (Fin E)) (q : Point B T H E P) (b : Fin B) (t : Fin T) (i : Fin O) : ℝ :=
  ∑ e ∈ kept b t, tokenGates S q.1 sigma z q.2.2 (tokenNumber T b t / S) ⟨tokenNumber T b t % S, Nat.mod_lt _ hS⟩ e *
    round (mlp (q.2.1 e) (fun h => round (q.2.2 b t h)) i)

section block

variable {P : Type} [NormedAddCommGroup P] [NormedSpace ℝ P]

omit [NormedSpace ℝ P] in
theorem continuousAt_gates (sigma : ℝ) (z : Nat → Nat → Nat → ℝ) (g : Nat) (s : Fin S) (e : Fin E) (q0 : Point B T H E P) :
    ContinuousAt (fun q : Point B T H E P => tokenGates S q.1 sigma z q.2.2 g s e) q0 :=
  continuousAt_tokenGates (kernel := fun q : Point B T H E P => q.1) (x := fun q : Point B T H E P => q.2.2)
    continuous_fst.continuousAt (continuous_snd.comp continuous_snd).continuousAt sigma z g s e

omit [NormedSpace ℝ P] in
theorem eventually_block (hE : 0 < E) (bp : Bool) (sigma : ℝ) (z : Nat → Nat → Nat → ℝ) (q0 : Point B T H E P)
    (hties : ∀ (b : Fin B) (t : Fin T), NoTies hE bp (tokenGates S q0.1 sigma z q0.2.2 (tokenNumber T b t / S))) :
    ∀ᶠ q : Point B T H E P in 𝓝 q0, ∀ (b : Fin B) (t : Fin T) (K cap : Nat) (s : Fin S) (e : Fin E),
      Kept hE bp (tokenGates S q0.1 sigma z q0.2.2 (tokenNumber T b t / S)) K cap s e ↔
      Kept hE bp (tokenGates S q.1 sigma z q.2.2 (tokenNumber T b t / S)) K cap s e := by
  rw [Filter.eventually_all]
  intro b
  rw [Filter.eventually_all]
  intro t
  exact eventually_kept hE bp (fun q : Point B T H E P => tokenGates S q.1 sigma z q.2.2 (tokenNumber T b t / S))
    (fun s e => continuousAt_gates sigma z _ s e q0) (hties b t)

omit [NormedSpace ℝ P] in
/-- **C131**: let a block of experts be applied to parameters and inputs for which the gates of no group have ties.  Then for all parameters and
inputs near them the block works and its output is that of the same routing: the routing is locally constant. -/
theorem C131_block (fl : ℚ → ℚ) (cdf bf : ℝ → ℝ) (cfg : RouterConfig) (S : Nat) (hS : 0 < S) (hE : 0 < E) (kernel : Fin H → Fin E → ℝ)
    (z : Nat → Nat → Nat → ℝ) (oob : Fin O → ℝ) (params : Fin E → P) (mlp : P → (Fin H → ℝ) → Fin O → ℝ) (x : Fin B → Fin T → Fin H → ℝ)
    (out : Fin B → Fin T → Fin O → ℝ) (m : Metrics (B * T / S)) (h : mlpMoeBlock fl cdf bf cfg S kernel z oob params mlp x = .ok (out, m))
    (hties : ∀ (b : Fin B) (t : Fin T), NoTies hE cfg.dispatcher.batchPriority
      (tokenGates S kernel (usedStd cfg E) z x (tokenNumber T b t / S))) :
    ∃ kept : Fin B → Fin T → Finset (Fin E), (∀ b t, (kept b t).card ≤ cfg.numSelected) ∧
      ∀ᶠ q : Point B T H E P in 𝓝 (kernel, params, x), ∃ m', mlpMoeBlock fl cdf bf cfg S q.1 z oob q.2.1 mlp q.2.2 =
        .ok (fixedRouting S hS (usedStd cfg E) z (fun a => if cfg.dispatcher.bfloat16 then bf a else a) mlp kept q, m') := by
  obtain ⟨⟨-, hdiv⟩, ⟨h0, hKE⟩, hname, cap, hcap⟩ := Vmoe.success h
  refine ⟨fun b t => Finset.univ.filter (fun e => Kept hE cfg.dispatcher.batchPriority
    (tokenGates S kernel (usedStd cfg E) z x (tokenNumber T b t / S)) cfg.numSelected cap ⟨tokenNumber T b t % S, Nat.mod_lt _ hS⟩ e), ?_, ?_⟩
  · intro b t
    have : (Finset.univ.filter (fun e => Kept hE cfg.dispatcher.batchPriority
        (tokenGates S kernel (usedStd cfg E) z x (tokenNumber T b t / S)) cfg.numSelected cap ⟨tokenNumber T b t % S, Nat.mod_lt _ hS⟩ e)).card ≤
        (Finset.range cfg.numSelected).card := by
      apply Finset.card_le_card_of_injOn (choiceRank (tokenGates S kernel (usedStd cfg E) z x (tokenNumber T b t / S))
        ⟨tokenNumber T b t % S, Nat.mod_lt _ hS⟩)
      · intro e he
        simp only [Finset.coe_filter, Finset.mem_univ, true_and, Set.mem_ofPred_eq] at he
        exact Finset.mem_coe.2 (Finset.mem_range.2 he.1)
      · exact (choiceRank_injective _ _).injOn
    simpa using this
  · have hev := eventually_block hE cfg.dispatcher.batchPriority (usedStd cfg E) z (kernel, params, x) hties
    filter_upwards [hev] with q hq
    obtain ⟨out', m', h', hout⟩ := C72_block_output fl cdf bf cfg S q.1 z oob q.2.1 mlp q.2.2 hS hdiv hE h0 hKE hname cap hcap
    refine ⟨m', ?_⟩
    rw [h']
    congr 2
    funext b t i
    rw [hout b t i]
    unfold fixedRouting
    refine Finset.sum_congr ?_ fun _ _ => rfl
    ext e
    simp only [Finset.mem_filter, Finset.mem_univ, true_and]
    exact (hq b t cfg.numSelected cap _ e).symm

/-- **C131**: at parameters and inputs without ties, the derivative of the block, if `F` is its output, is that of the sum with the routing as a
constant, in which the indices of the experts and items are not differentiated. -/
theorem C131_gradient (fl : ℚ → ℚ) (cdf bf : ℝ → ℝ) (cfg : RouterConfig) (S : Nat) (hS : 0 < S) (hE : 0 < E) (kernel : Fin H → Fin E → ℝ)
    (z : Nat → Nat → Nat → ℝ) (oob : Fin O → ℝ) (params : Fin E → P) (mlp : P → (Fin H → ℝ) → Fin O → ℝ) (x : Fin B → Fin T → Fin H → ℝ)
    (F : Point B T H E P → Fin B → Fin T → Fin O → ℝ)
    (hF : ∀ q : Point B T H E P, ∃ m, mlpMoeBlock fl cdf bf cfg S q.1 z oob q.2.1 mlp q.2.2 = .ok (F q, m))
    (hties : ∀ (b : Fin B) (t : Fin T), NoTies hE cfg.dispatcher.batchPriority
      (tokenGates S kernel (usedStd cfg E) z x (tokenNumber T b t / S))) :
    ∃ kept : Fin B → Fin T → Finset (Fin E), (∀ b t, (kept b t).card ≤ cfg.numSelected) ∧
      ∀ D : Point B T H E P →L[ℝ] (Fin B → Fin T → Fin O → ℝ), HasFDerivAt F D (kernel, params, x) ↔
        HasFDerivAt (fixedRouting S hS (usedStd cfg E) z (fun a => if cfg.dispatcher.bfloat16 then bf a else a) mlp kept) D
          (kernel, params, x) := by
  obtain ⟨m, hm⟩ := hF (kernel, params, x)
  obtain ⟨kept, hcard, hev⟩ := C131_block fl cdf bf cfg S hS hE kernel z oob params mlp x _ m hm hties
  refine ⟨kept, hcard, fun D => ?_⟩
  apply Filter.EventuallyEq.hasFDerivAt_iff
  filter_upwards [hev] with q hq
  obtain ⟨m', hm'⟩ := hq
  obtain ⟨m1, hm1⟩ := hF q
  rw [hm1] at hm'
  exact congrArg Prod.fst (Except.ok.inj hm')

omit [NormedSpace ℝ P] in
/-- **C131**: if the experts are continuous and nothing is rounded, the output is continuous at parameters and inputs without ties. -/
theorem C131_continuous (fl : ℚ → ℚ) (cdf bf : ℝ → ℝ) (cfg : RouterConfig) (S : Nat) (hE : 0 < E) (kernel : Fin H → Fin E → ℝ)
    (z : Nat → Nat → Nat → ℝ) (oob : Fin O → ℝ) (params : Fin E → P) (mlp : P → (Fin H → ℝ) → Fin O → ℝ) (x : Fin B → Fin T → Fin H → ℝ)
    (F : Point B T H E P → Fin B → Fin T → Fin O → ℝ)
    (hF : ∀ q : Point B T H E P, ∃ m, mlpMoeBlock fl cdf bf cfg S q.1 z oob q.2.1 mlp q.2.2 = .ok (F q, m))
    (hties : ∀ (b : Fin B) (t : Fin T), NoTies hE cfg.dispatcher.batchPriority
      (tokenGates S kernel (usedStd cfg E) z x (tokenNumber T b t / S)))
    (hbf : cfg.dispatcher.bfloat16 = false) (hmlp : Continuous (fun a : P × (Fin H → ℝ) => mlp a.1 a.2)) :
    ContinuousAt F (kernel, params, x) := by
  obtain ⟨m, hm⟩ := hF (kernel, params, x)
  have hS : 0 < S := (Vmoe.success hm).1.1
  obtain ⟨kept, hcard, hev⟩ := C131_block fl cdf bf cfg S hS hE kernel z oob params mlp x _ m hm hties
  have heq : (fixedRouting S hS (usedStd cfg E) z (fun a => if cfg.dispatcher.bfloat16 then bf a else a) mlp kept) =ᶠ[𝓝 (kernel, params, x)] F := by
    filter_upwards [hev] with q hq
    obtain ⟨m', hm'⟩ := hq
    obtain ⟨m1, hm1⟩ := hF q
    rw [hm1] at hm'
    exact (congrArg Prod.fst (Except.ok.inj hm')).symm
  refine ContinuousAt.congr ?_ heq
  simp only [hbf, Bool.false_eq_true, if_false]
  refine continuousAt_pi.2 fun b => continuousAt_pi.2 fun t => continuousAt_pi.2 fun i => ?_
  unfold fixedRouting
  refine tendsto_finsetSum _ fun e _ => ?_
  refine ContinuousAt.mul (continuousAt_gates _ z _ _ e _) ?_
  have h1 : Continuous (fun q : Point B T H E P => mlp (q.2.1 e) (fun h => q.2.2 b t h) i) :=
    (continuous_apply i).comp (hmlp.comp ((by fun_prop : Continuous fun q : Point B T H E P => (q.2.1 e, fun h => q.2.2 b t h))))
  exact h1.continuousAt

omit [NormedSpace ℝ P] in
theorem eventually_items (sigma : ℝ) (z : Nat → Nat → Nat → ℝ) (q0 : Point B T H E P)
    (hties : ∀ (b : Fin B) (t : Fin T) (e : Fin E), Function.Injective fun s => tokenGates S q0.1 sigma z q0.2.2 (tokenNumber T b t / S) s e) :
    ∀ᶠ q : Point B T H E P in 𝓝 q0, ∀ (b : Fin B) (t : Fin T) (e : Fin E),
      SameOrder (fun s => tokenGates S q0.1 sigma z q0.2.2 (tokenNumber T b t / S) s e)
        (fun s => tokenGates S q.1 sigma z q.2.2 (tokenNumber T b t / S) s e) := by
  rw [Filter.eventually_all]
  intro b
  rw [Filter.eventually_all]
  intro t
  rw [Filter.eventually_all]
  intro e
  exact eventually_sameOrder (fun (q : Point B T H E P) s => tokenGates S q.1 sigma z q.2.2 (tokenNumber T b t / S) s e)
    (fun s => continuousAt_gates sigma z _ s e q0) (hties b t e)

omit [NormedSpace ℝ P] in
/-- **C131**: the same for experts that choose items, if no expert has the same gate for two items of a group. -/
theorem C131_items (fl : ℚ → ℚ) (bf : ℝ → ℝ) (cfg : ExpertChoice.RouterConfig) (d : ExpertChoice.ItemsDispatcher) (hd : cfg.dispatcher = some d)
    (S : Nat) (hS : 0 < S) (kernel : Fin H → Fin E → ℝ) (z : Nat → Nat → Nat → ℝ) (params : Fin E → P) (mlp : P → (Fin H → ℝ) → Fin O → ℝ)
    (x : Fin B → Fin T → Fin H → ℝ) (out : Fin B → Fin T → Fin O → ℝ) (r : ExpertChoice.RouterOutput (B * T / S) S E)
    (h : ExpertChoice.mlpMoeBlock fl bf cfg S kernel z params mlp x = .ok (out, r))
    (hties : ∀ (b : Fin B) (t : Fin T) (e : Fin E), Function.Injective fun s =>
      tokenGates S kernel (ExpertChoice.sigma cfg E) z x (tokenNumber T b t / S) s e) :
    ∃ kept : Fin B → Fin T → Finset (Fin E), ∀ᶠ q : Point B T H E P in 𝓝 (kernel, params, x), ∃ r',
      ExpertChoice.mlpMoeBlock fl bf cfg S q.1 z q.2.1 mlp q.2.2 =
        .ok (fixedRouting S hS (ExpertChoice.sigma cfg E) z (fun a => if d.bfloat16 = some true then bf a else a) mlp kept q, r') := by
  obtain ⟨⟨-, hdiv⟩, hE, d', hd', hname, hk, cap, hcap, hC⟩ := ExpertChoice.success h
  rw [hd] at hd'
  cases hd'
  refine ⟨fun b t => Finset.univ.filter (fun e => itemRank
    (tokenGates S kernel (ExpertChoice.sigma cfg E) z x (tokenNumber T b t / S)) ⟨tokenNumber T b t % S, Nat.mod_lt _ hS⟩ e < cap), ?_⟩
  have hev := eventually_items (ExpertChoice.sigma cfg E) z (kernel, params, x) hties
  filter_upwards [hev] with q hq
  obtain ⟨out', r', h', hout, -⟩ := ExpertChoice.C78_block_output fl bf cfg S q.1 z q.2.1 mlp q.2.2 hS hdiv hE d hd cap hcap hname hC hk
  refine ⟨r', ?_⟩
  rw [h']
  congr 2
  funext b t i
  rw [hout b t i]
  unfold fixedRouting
  refine Finset.sum_congr ?_ fun _ _ => rfl
  ext e
  simp only [Finset.mem_filter, Finset.mem_univ, true_and]
  rw [itemRank_same (hq b t)]

end block

/-- One token with one feature, two experts of which the best one is used. -/
noncomputable def exCfg : RouterConfig := ⟨1, 0, 0, 0, 0, ⟨"einsum", false, some 1, none, "ceil", none, false⟩, true⟩

/-- Expert 0 returns its parameter plus the token, and so does expert 1. -/
def exMlp (p : ℝ) (v : Fin 1 → ℝ) : Fin 1 → ℝ := fun i => p + v i

theorem exGates (kernel : Fin 1 → Fin 2 → ℝ) (x : Fin 1 → Fin 1 → Fin 1 → ℝ) (n : Nat) (hn : n = 0) (s : Fin 1) (e : Fin 2) :
    tokenGates 1 kernel (usedStd exCfg 2) (fun _ _ _ => 0) x n s e =
      Real.exp (x 0 0 0 * kernel 0 e) / (Real.exp (x 0 0 0 * kernel 0 0) + Real.exp (x 0 0 0 * kernel 0 1)) := by
  subst hn
  have hs : s = 0 := Subsingleton.elim _ _
  subst hs
  have : tokenOf x 0 = x 0 0 := rfl
  simp [tokenGates, expWeights, this, Fin.sum_univ_two]

theorem exRun : ∃ F : Point 1 1 1 2 ℝ → Fin 1 → Fin 1 → Fin 1 → ℝ, ∀ q,
    (∃ m, mlpMoeBlock id id id exCfg 1 q.1 (fun _ _ _ => 0) (fun _ => 0) q.2.1 exMlp q.2.2 = .ok (F q, m)) ∧
    F q 0 0 0 = ∑ e ∈ Finset.univ.filter (fun e => Kept (by decide : 0 < 2) false
        (tokenGates 1 q.1 (usedStd exCfg 2) (fun _ _ _ => 0) q.2.2 0) 1 1 0 e),
      tokenGates 1 q.1 (usedStd exCfg 2) (fun _ _ _ => 0) q.2.2 0 0 e * (q.2.1 e + q.2.2 0 0 0) := by
  have h := fun q : Point 1 1 1 2 ℝ => C72_block_output id id id exCfg 1 q.1 (fun _ _ _ => 0) (fun _ => 0) q.2.1 exMlp q.2.2 (by decide)
    (by decide) (by decide) (by decide) (by decide) (Or.inl rfl) 1 (by rfl)
  choose F m hF hout using h
  exact ⟨F, fun q => ⟨⟨m q, hF q⟩, hout q 0 0 0⟩⟩

theorem exKept (gates : Fin 1 → Fin 2 → ℝ) (e : Fin 2) :
    Kept (by decide : 0 < 2) false gates 1 1 0 e ↔ ∀ e', ¬ (gates 0 e < gates 0 e' ∨ (gates 0 e' = gates 0 e ∧ e' < e)) := by
  unfold Kept Requests
  have hs : slot (by decide : 0 < 2) false gates 1 0 e = 0 := by
    unfold slot
    rw [Finset.card_eq_zero, Finset.filter_eq_empty_iff]
    intro s' _ hp
    have : s' = 0 := Subsingleton.elim _ _
    subst this
    rcases hp.2 with h | h
    · exact lt_irrefl _ h
    · have := h.2
      simp [ItemBefore] at this
  rw [hs]
  unfold choiceRank
  simp [Finset.filter_eq_empty_iff]

/-- **C131**: at a tie the output jumps: two experts with the same gates, of which the first one is used; a small change of the router selects the
second one, whose output is different. -/
theorem C131_tie_counterexample : ∃ F : Point 1 1 1 2 ℝ → Fin 1 → Fin 1 → Fin 1 → ℝ,
    (∀ q, ∃ m, mlpMoeBlock id id id exCfg 1 q.1 (fun _ _ _ => 0) (fun _ => 0) q.2.1 exMlp q.2.2 = .ok (F q, m)) ∧
    ¬ ContinuousAt F (fun _ _ => 0, ![-1, 1], fun _ _ _ => 1) := by
  obtain ⟨F, hF⟩ := exRun
  refine ⟨F, fun q => (hF q).1, fun hc => ?_⟩
  have h0 : F (fun _ _ => 0, ![-1, 1], fun _ _ _ => 1) 0 0 0 = 0 := by
    rw [(hF _).2]
    apply Finset.sum_eq_zero
    intro e he
    simp only [Finset.mem_filter, Finset.mem_univ, true_and, exKept] at he
    have : e = 0 := by
      by_contra hne
      have := he 0
      simp only [exGates _ _ 0 rfl] at this
      exact this (Or.inr ⟨trivial, by omega⟩)
    subst this
    simp
  have h1 : ∀ ε : ℝ, 0 < ε → 1 ≤ F (fun _ => ![0, ε], ![-1, 1], fun _ _ _ => 1) 0 0 0 := by
    intro ε hε
    have hpos : 1 < Real.exp ε := Real.one_lt_exp_iff.2 hε
    rw [(hF _).2]
    have hk : (Finset.univ.filter (fun e => Kept (by decide : 0 < 2) false
        (tokenGates 1 (fun _ => ![0, ε]) (usedStd exCfg 2) (fun _ _ _ => 0) (fun (_ : Fin 1) (_ : Fin 1) (_ : Fin 1) => (1 : ℝ)) 0) 1 1 0 e)) = {1} := by
      ext e
      simp only [Finset.mem_filter, Finset.mem_univ, true_and, exKept, exGates _ _ 0 rfl, Finset.mem_singleton]
      constructor
      · intro he
        by_contra hne
        have h0 : e = 0 := by omega
        subst h0
        refine he 1 (Or.inl ?_)
        apply div_lt_div_of_pos_right _ (by positivity)
        simpa using hε
      · rintro rfl e' (h | h)
        · rw [div_lt_div_iff_of_pos_right (by positivity)] at h
          fin_cases e'
          · simp at h; linarith
          · simp at h
        · have h2 : e' = 0 := by omega
          subst h2
          have := h.1
          rw [div_left_inj' (by positivity)] at this
          simp at this
          linarith
    simp only [hk, Finset.sum_singleton, exGates _ _ 0 rfl]
    simp only [Matrix.cons_val_one, Matrix.cons_val_zero, mul_zero, one_mul, Real.exp_zero, Matrix.cons_val_fin_one]
    rw [div_mul_eq_mul_div, le_div_iff₀ (by positivity)]
    linarith
  have hpath : Filter.Tendsto (fun n : ℕ => ((fun _ => ![0, 1 / ((n : ℝ) + 1)], ![-1, 1], fun _ _ _ => 1) : Point 1 1 1 2 ℝ)) Filter.atTop
      (𝓝 (fun _ _ => 0, ![-1, 1], fun _ _ _ => 1)) := by
    refine Filter.Tendsto.prodMk_nhds ?_ tendsto_const_nhds
    refine tendsto_pi_nhds.2 fun h => tendsto_pi_nhds.2 fun e => ?_
    fin_cases e
    · exact tendsto_const_nhds
    · exact tendsto_one_div_add_atTop_nhds_zero_nat
  have hlim := (continuousAt_pi.1 (continuousAt_pi.1 (continuousAt_pi.1 hc 0) 0) 0).tendsto.comp hpath
  rw [h0] at hlim
  have := ge_of_tendsto' hlim fun n => h1 (1 / ((n : ℝ) + 1)) (by positivity)
  norm_num at this

theorem exNoTies (b t : Fin 1) : NoTies (by decide : 0 < 2) exCfg.dispatcher.batchPriority (tokenGates 1 (fun _ : Fin 1 => ![0, 1])
    (usedStd exCfg 2) (fun _ _ _ => 0) (fun (_ : Fin 1) (_ : Fin 1) (_ : Fin 1) => (1 : ℝ)) (tokenNumber 1 b t / 1)) := by
  refine ⟨fun s e e' h => ?_, fun h => by cases h⟩
  have hn : tokenNumber 1 b t / 1 = 0 := by
    unfold tokenNumber
    omega
  rw [exGates _ _ _ hn, exGates _ _ _ hn, div_left_inj' (by positivity), Real.exp_eq_exp] at h
  fin_cases e <;> fin_cases e' <;> simp at h ⊢

/-- If the gates of the two experts differ, the output is continuous, and its derivative is that of a sum over fixed experts. -/
example : ∃ F : Point 1 1 1 2 ℝ → Fin 1 → Fin 1 → Fin 1 → ℝ,
    (∀ q, ∃ m, mlpMoeBlock id id id exCfg 1 q.1 (fun _ _ _ => 0) (fun _ => 0) q.2.1 exMlp q.2.2 = .ok (F q, m)) ∧
    ContinuousAt F (fun _ => ![0, 1], ![-1, 1], fun _ _ _ => 1) ∧
    ∃ kept : Fin 1 → Fin 1 → Finset (Fin 2), (∀ b t, (kept b t).card ≤ 1) ∧
      ∀ D : Point 1 1 1 2 ℝ →L[ℝ] (Fin 1 → Fin 1 → Fin 1 → ℝ), HasFDerivAt F D (fun _ => ![0, 1], ![-1, 1], fun _ _ _ => 1) ↔
      HasFDerivAt (fixedRouting 1 (by decide) (usedStd exCfg 2) (fun _ _ _ => 0) (fun a => a) exMlp kept) D
        (fun _ => ![0, 1], ![-1, 1], fun _ _ _ => 1) := by
  obtain ⟨F, hF⟩ := exRun
  refine ⟨F, fun q => (hF q).1, ?_, ?_⟩
  · refine C131_continuous id id id exCfg 1 (by decide) _ _ _ _ exMlp _ F (fun q => (hF q).1) exNoTies rfl ?_
    unfold exMlp
    fun_prop
  · exact C131_gradient id id id exCfg 1 (by decide) (by decide) _ _ _ _ exMlp _ F (fun q => (hF q).1) exNoTies

/-- Two tokens with features 1 and 2, and two experts which take one of them each. -/
example : ∃ (out : Fin 1 → Fin 2 → Fin 1 → ℝ) (r : _) (kept : Fin 1 → Fin 2 → Finset (Fin 2)),
    ExpertChoice.mlpMoeBlock id id ⟨0, some ⟨"einsum", some 1, none, none, none, none, false⟩, true⟩ 2 (fun _ : Fin 1 => ![0, 1]) (fun _ _ _ => 0)
      ![-1, 1] exMlp (fun (_ : Fin 1) (t : Fin 2) (_ : Fin 1) => (t : ℝ) + 1) = .ok (out, r) ∧
    ∀ᶠ q : Point 1 2 1 2 ℝ in 𝓝 (fun _ => ![0, 1], ![-1, 1], fun _ t _ => (t : ℝ) + 1), ∃ r',
      ExpertChoice.mlpMoeBlock id id ⟨0, some ⟨"einsum", some 1, none, none, none, none, false⟩, true⟩ 2 q.1 (fun _ _ _ => 0)
        q.2.1 exMlp q.2.2 = .ok (fixedRouting 2 (by decide)
          (ExpertChoice.sigma ⟨0, some ⟨"einsum", some 1, none, none, none, none, false⟩, true⟩ 2) (fun _ _ _ => 0) (fun a => a) exMlp kept q, r') := by
  obtain ⟨out, r, h, -⟩ := ExpertChoice.C78_block_output id id ⟨0, some ⟨"einsum", some 1, none, none, none, none, false⟩, true⟩ 2
    (fun _ : Fin 1 => ![0, 1]) (fun _ _ _ => 0) ![-1, 1] exMlp (fun (_ : Fin 1) (t : Fin 2) (_ : Fin 1) => (t : ℝ) + 1) (by decide) (by decide)
    (by decide) _ rfl 1 (by simp [ExpertChoice.asked, resolveCapacity]) rfl (by decide) rfl
  obtain ⟨kept, hev⟩ := C131_items id id ⟨0, some ⟨"einsum", some 1, none, none, none, none, false⟩, true⟩ _ rfl 2 (by decide) _ _ _ exMlp _
    out r h (by
      intro b t e
      have hn : tokenNumber 2 b t / 2 = 0 := by
        unfold tokenNumber
        omega
      have hg : ∀ (s e : Fin 2), tokenGates 2 (fun _ : Fin 1 => ![0, 1])
          (ExpertChoice.sigma ⟨0, some ⟨"einsum", some 1, none, none, none, none, false⟩, true⟩ 2) (fun _ _ _ => 0)
          (fun (_ : Fin 1) (t : Fin 2) (_ : Fin 1) => (t : ℝ) + 1) (tokenNumber 2 b t / 2) s e =
          Real.exp (((s : ℝ) + 1) * ![0, 1] e) / (1 + Real.exp ((s : ℝ) + 1)) := by
        intro s e
        rw [hn]
        have ht : tokenOf (fun (_ : Fin 1) (t : Fin 2) (_ : Fin 1) => (t : ℝ) + 1) (0 * 2 + (s : Nat)) = fun _ => (s : ℝ) + 1 := by
          fin_cases s <;> rfl
        simp only [tokenGates, expWeights, ht, Fin.sum_univ_two, mul_zero, add_zero]
        simp
      have hlt : Real.exp (1 : ℝ) < Real.exp 2 := Real.exp_lt_exp.2 (by norm_num)
      have h0 := Real.exp_pos 1
      have h2 : (2 : ℝ) = 1 + 1 := by norm_num
      intro s s' hs
      simp only [hg] at hs
      rw [div_eq_div_iff (by positivity) (by positivity)] at hs
      fin_cases e <;> fin_cases s <;> fin_cases s' <;> simp [← h2] at hs ⊢ <;> nlinarith)
  exact ⟨out, r, kept, h, hev⟩

end Verif.RoutingStability
