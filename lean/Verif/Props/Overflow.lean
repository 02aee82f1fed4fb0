import Mathlib.Probability.Moments.SubGaussian
import Verif.Props.Exploration

/-! C148: how likely it is that an expert gets more items than fit (vmoe/nn/routing.py:63-114, vmoe/moe.py:295-360). -/

namespace Verif.LoadNoise

open Verif MeasureTheory ProbabilityTheory Verif.MoeBlock Verif.Aux

variable {S E : Nat}

/-- The expected load of an expert: the sum over the items of the probabilities that they ask for it. -/
noncomputable def expectedLoad (l : Fin S → Fin E → ℝ) (σ : ℝ) (K : Nat) (e : Fin E) : ℝ := ∑ s, askProb l σ K s e

/-- Whether item `s` asks for expert `e`, as a number. -/
noncomputable def ask (l : Fin S → Fin E → ℝ) (σ : ℝ) (K : Nat) (e : Fin E) (s : Fin S) (w : Fin S → Fin E → ℝ) : ℝ :=
  (asks l σ K s e).indicator (fun _ => (1 : ℝ)) w

theorem ask_sum (l : Fin S → Fin E → ℝ) (σ : ℝ) (K : Nat) (e : Fin E) (w : Fin S → Fin E → ℝ) :
    ∑ s, ask l σ K e s w = load l σ K e w := by
  classical
  unfold load ask
  rw [Finset.card_filter]
  push_cast
  apply Finset.sum_congr rfl
  intro s _
  by_cases h : w ∈ asks l σ K s e
  · simp [h]
  · simp [h]

theorem ask_integral (l : Fin S → Fin E → ℝ) (σ : ℝ) (K : Nat) (e : Fin E) (s : Fin S) :
    ∫ w, ask l σ K e s w ∂fresh S E = askProb l σ K s e := by
  unfold ask askProb
  rw [integral_indicator (measurable_asks l σ K s e)]
  simp

theorem ask_measurable (l : Fin S → Fin E → ℝ) (σ : ℝ) (K : Nat) (e : Fin E) (s : Fin S) : Measurable (ask l σ K e s) :=
  measurable_const.indicator (measurable_asks l σ K s e)

/-- The items are independent. -/
theorem ask_indep (l : Fin S → Fin E → ℝ) (σ : ℝ) (K : Nat) (e : Fin E) :
    iIndepFun (fun s w => ask l σ K e s w - ∫ w, ask l σ K e s w ∂fresh S E) (fresh S E) := by
  have h := iIndepFun_pi (μ := fun _ : Fin S => Measure.pi fun _ : Fin E => normal)
    (X := fun s (v : Fin E → ℝ) => ask l σ K e s (fun _ => v) - ∫ w, ask l σ K e s w ∂fresh S E) (by
      intro s
      refine (Measurable.sub_const ?_ _).aemeasurable
      exact (ask_measurable l σ K e s).comp (measurable_pi_lambda _ fun _ => measurable_id))
  exact h

/-- C148: the probability that more than `cap` items ask for an expert whose expected load is at most `cap` decreases
exponentially with the square of the distance. -/
theorem C148_overflow (l : Fin S → Fin E → ℝ) (σ : ℝ) (K : Nat) (e : Fin E) (cap : Nat) (hcap : expectedLoad l σ K e ≤ cap + 1) :
    (fresh S E).real {w | cap < load l σ K e w} ≤ Real.exp (-2 * (cap + 1 - expectedLoad l σ K e) ^ 2 / S) := by
  have hsub : ∀ s ∈ (Finset.univ : Finset (Fin S)), HasSubgaussianMGF
      (fun w => ask l σ K e s w - ∫ w, ask l σ K e s w ∂fresh S E) ((‖(1 : ℝ) - 0‖₊ / 2) ^ 2) (fresh S E) := by
    intro s _
    refine hasSubgaussianMGF_of_mem_Icc (ask_measurable l σ K e s).aemeasurable ?_
    filter_upwards with w
    unfold ask
    by_cases h : w ∈ asks l σ K s e
    · simp [h]
    · simp [h]
  have h := HasSubgaussianMGF.measure_sum_ge_le_of_iIndepFun (ask_indep l σ K e) hsub (ε := cap + 1 - expectedLoad l σ K e)
    (by linarith)
  have hset : {w | cap < load l σ K e w} = {w | cap + 1 - expectedLoad l σ K e ≤
      ∑ s, (ask l σ K e s w - ∫ w, ask l σ K e s w ∂fresh S E)} := by
    ext w
    simp only [Set.mem_ofPred_eq, Finset.sum_sub_distrib, ask_sum, ask_integral]
    rw [← Nat.succ_le_iff, ← Nat.cast_le (α := ℝ)]
    unfold expectedLoad
    push_cast
    constructor <;> intro h <;> linarith
  rw [hset]
  refine h.trans (le_of_eq ?_)
  congr 1
  simp only [sub_zero, nnnorm_one, Finset.sum_const, Finset.card_univ, Fintype.card_fin, nsmul_eq_mul]
  by_cases hS : S = 0
  · subst hS
    simp
  · push_cast
    field_simp

/-- A request of the items of a group with these gates is dropped. -/
def SomeDropped (hE : 0 < E) (bp : Bool) (gates : Fin S → Fin E → ℝ) (K cap : Nat) : Prop :=
  ∃ s e, Spec.Requests gates K s e ∧ ¬ Spec.Kept hE bp gates K cap s e

/-- The gates of a group, for a draw of the noise. -/
noncomputable def noisyGates (l : Fin S → Fin E → ℝ) (σ : ℝ) (w : Fin S → Fin E → ℝ) (s : Fin S) : Fin E → ℝ :=
  Soft.softmax fun e => l s e + σ * w s e

theorem requests_gates (l : Fin S → Fin E → ℝ) (σ : ℝ) (w : Fin S → Fin E → ℝ) (K : Nat) (s : Fin S) (e : Fin E) :
    Spec.Requests (noisyGates l σ w) K s e ↔ w ∈ asks l σ K s e := by
  refine requests_order (s := s) (fun a b => ?_) K e
  unfold noisyGates Soft.softmax
  rw [div_lt_div_iff_of_pos_right (Finset.sum_pos (fun _ _ => Real.exp_pos _) ⟨a, Finset.mem_univ a⟩), Real.exp_lt_exp]

theorem dropped_overflow (hE : 0 < E) (bp : Bool) (l : Fin S → Fin E → ℝ) (σ : ℝ) (w : Fin S → Fin E → ℝ) (K cap : Nat)
    (h : SomeDropped hE bp (noisyGates l σ w) K cap) : ∃ e, cap < load l σ K e w := by
  classical
  obtain ⟨s, e, hr, hk⟩ := h
  refine ⟨e, ?_⟩
  have h1 := Moe.slot_lt_card hE bp (noisyGates l σ w) K e hr
  have h2 : ¬ Spec.slot hE bp (noisyGates l σ w) K s e < cap := fun h => hk ⟨hr, h⟩
  have h3 : (Moe.requesters (noisyGates l σ w) K e).card = load l σ K e w := by
    unfold Moe.requesters load
    congr 1
    ext x
    simp only [Finset.mem_filter, Finset.mem_univ, true_and]
    exact requests_gates l σ w K x e
  omega

/-- C148: the probability that any request of a group is dropped, with or without batch priority, is at most the sum over
the experts of the bounds of `C148_overflow`. -/
theorem C148_nothing_dropped (hE : 0 < E) (bp : Bool) (l : Fin S → Fin E → ℝ) (σ : ℝ) (K cap : Nat)
    (hcap : ∀ e, expectedLoad l σ K e ≤ cap + 1) :
    (fresh S E).real {w | SomeDropped hE bp (noisyGates l σ w) K cap} ≤
      ∑ e, Real.exp (-2 * (cap + 1 - expectedLoad l σ K e) ^ 2 / S) := by
  have hsub : {w | SomeDropped hE bp (noisyGates l σ w) K cap} ⊆ ⋃ e, {w | cap < load l σ K e w} := by
    intro w hw
    obtain ⟨e, he⟩ := dropped_overflow hE bp l σ w K cap hw
    exact Set.mem_iUnion.2 ⟨e, he⟩
  calc (fresh S E).real {w | SomeDropped hE bp (noisyGates l σ w) K cap}
      ≤ (fresh S E).real (⋃ e, {w | cap < load l σ K e w}) := measureReal_mono hsub
    _ ≤ ∑ e, (fresh S E).real {w | cap < load l σ K e w} := measureReal_iUnion_fintype_le _
    _ ≤ _ := Finset.sum_le_sum fun e _ => C148_overflow l σ K e cap (hcap e)

/-- C148, balanced experts: when the expected loads are equal, a capacity of at least `c` times the average load, with `c ≥ 1`,
drops anything with probability at most `E * exp (-2 * S * (K / E)² * (c - 1)²)`. -/
theorem C148_balanced (hE : 0 < E) (bp : Bool) (l : Fin S → Fin E → ℝ) (σ : ℝ) (K : Nat) (hK : K ≤ E) (cap : Nat) (c : ℝ)
    (hc : 1 ≤ c) (hcap : c * (S * K / E) ≤ cap) (heq : ∀ e e', expectedLoad l σ K e = expectedLoad l σ K e') :
    (fresh S E).real {w | SomeDropped hE bp (noisyGates l σ w) K cap} ≤
      E * Real.exp (-2 * S * (K / E) ^ 2 * (c - 1) ^ 2) := by
  have hE' : (0 : ℝ) < E := by exact_mod_cast hE
  have htot : ∑ e, expectedLoad l σ K e = S * K := by
    unfold expectedLoad
    rw [Finset.sum_comm]
    simp only [C146_total l σ K hK, Finset.sum_const, Finset.card_univ, Fintype.card_fin, nsmul_eq_mul]
  have hL : ∀ e, expectedLoad l σ K e = S * K / E := by
    intro e
    simp only [fun e' => heq e' e, Finset.sum_const, Finset.card_univ, Fintype.card_fin, nsmul_eq_mul] at htot
    rw [eq_div_iff hE'.ne']
    linarith
  have hpos : (0 : ℝ) ≤ S * K / E := by positivity
  have hle : (S * K / E : ℝ) ≤ cap := le_trans (le_mul_of_one_le_left hpos hc) hcap
  refine (C148_nothing_dropped hE bp l σ K cap fun e => by rw [hL e]; linarith).trans ?_
  simp only [hL, Finset.sum_const, Finset.card_univ, Fintype.card_fin, nsmul_eq_mul]
  refine mul_le_mul_of_nonneg_left (Real.exp_le_exp.2 ?_) hE'.le
  by_cases hS : S = 0
  · subst hS
    simp
  · have hS' : (0 : ℝ) < S := by
      exact_mod_cast Nat.pos_of_ne_zero hS
    rw [div_le_iff₀ hS']
    have h1 : (c - 1) * (S * K / E) ≤ cap + 1 - S * K / E := by linarith
    have h2 : ((c - 1) * (S * K / E)) ^ 2 ≤ ((cap : ℝ) + 1 - S * K / E) ^ 2 :=
      pow_le_pow_left₀ (mul_nonneg (by linarith) hpos) h1 2
    have h3 : ((c - 1) * (S * K / E)) ^ 2 = S * (K / E) ^ 2 * (c - 1) ^ 2 * S := by ring
    rw [h3] at h2
    linarith

/-- C148, the capacity of the code: with the capacity computed from a capacity factor, rounding up (and then up to a multiple),
the factor `c` in the bound is any number such that the computed share of an expert is at least `c * S * K / E`; without rounding
of floats it is the capacity factor. -/
theorem C148_capacity (hE : 0 < E) (bp : Bool) (l : Fin S → Fin E → ℝ) (σ : ℝ) (K : Nat) (hK : K ≤ E) (fl : ℚ → ℚ) (factor c : ℚ)
    (mult : Option Int) (cap : Nat) (hcap : Moe.computeCapacity fl (S * K) E factor "ceil" mult = .ok cap)
    (hc : 1 ≤ c) (hfl : c * (S * K) / E ≤ fl (fl (((S * K : ℕ) : ℚ) * factor) / E))
    (heq : ∀ e e', expectedLoad l σ K e = expectedLoad l σ K e') :
    (fresh S E).real {w | SomeDropped hE bp (noisyGates l σ w) K cap} ≤
      E * Real.exp (-2 * S * (K / E) ^ 2 * (c - 1) ^ 2) := by
  refine C148_balanced hE bp l σ K hK cap c (by exact_mod_cast hc) ?_ heq
  have h1 : (⌈fl (fl (((S * K : ℕ) : ℚ) * factor) / E)⌉ : Int) ≤ cap := by
    unfold Moe.computeCapacity at hcap
    rw [if_neg (by simp), if_neg hE.ne'] at hcap
    simp only [if_true] at hcap
    split at hcap
    · cases hcap
    · split at hcap
      · rename_i m
        split at hcap
        · rename_i hm
          rw [← Except.ok.inj hcap]
          have := Int.emod_nonneg (-⌈fl (fl (((S * K : ℕ) : ℚ) * factor) / E)⌉) hm.ne'
          omega
        · rw [← Except.ok.inj hcap]
      · rw [← Except.ok.inj hcap]
  have h2 : c * (S * K) / E ≤ (cap : ℚ) :=
    hfl.trans ((Int.le_ceil _).trans (by exact_mod_cast h1))
  have h3 : ((c * (S * K) / E : ℚ) : ℝ) ≤ ((cap : ℚ) : ℝ) := by exact_mod_cast h2
  push_cast at h3
  rw [← mul_div_assoc]
  exact h3

/-- C148: too little room drops requests for certain: at least `S * K - E * cap` of them. -/
theorem C148_certain (hE : 0 < E) (bp : Bool) (gates : Fin S → Fin E → ℝ) (K : Nat) (hK : K ≤ E) (cap : Nat) :
    S * K - E * cap ≤ ∑ e, (Finset.univ.filter fun s => Spec.Requests gates K s e ∧ ¬ Spec.Kept hE bp gates K cap s e).card := by
  have h1 : ∑ e, (Finset.univ.filter fun s => Spec.Requests gates K s e).card = S * K := by
    simp only [Finset.card_filter]
    rw [Finset.sum_comm]
    simp only [← Finset.card_filter, requests_card gates K hK, Finset.sum_const, Finset.card_univ, Fintype.card_fin, smul_eq_mul]
  have h2 : ∀ e, (Finset.univ.filter fun s => Spec.Requests gates K s e).card ≤
      (Finset.univ.filter fun s => Spec.Requests gates K s e ∧ ¬ Spec.Kept hE bp gates K cap s e).card + cap := by
    intro e
    have h3 := Moe.card_slot_lt hE bp gates K cap e
    have h4 : (Finset.univ.filter fun s => Spec.Requests gates K s e).card =
        (Finset.univ.filter fun s => Spec.Requests gates K s e ∧ ¬ Spec.Kept hE bp gates K cap s e).card +
        ((Moe.requesters gates K e).filter fun s => Spec.slot hE bp gates K s e < cap).card := by
      rw [← Finset.card_filter_add_card_filter_not (s := Finset.univ.filter fun s => Spec.Requests gates K s e)
        (fun s => ¬ Spec.Kept hE bp gates K cap s e), Finset.filter_filter, Finset.filter_filter]
      congr 2
      ext s
      simp only [Finset.mem_filter, Finset.mem_univ, true_and, not_not, Moe.requesters]
      exact ⟨fun h => ⟨h.1, h.2.2⟩, fun h => ⟨h.1, h.1, h.2⟩⟩
    omega
  have h5 := Finset.sum_le_sum (s := Finset.univ) fun e (_ : e ∈ Finset.univ) => h2 e
  rw [h1, Finset.sum_add_distrib] at h5
  simp only [Finset.sum_const, Finset.card_univ, Fintype.card_fin, smul_eq_mul] at h5
  omega

/-- C148, the router: when it adds noise, `ext w` being all the noise that it draws and `w` that of group `g`, the probability
that a request of the group is dropped is bounded as above, for its clean logits and standard deviation. -/
theorem C148_router {G H : Nat} (cdf : ℝ → ℝ) (cfg : RouterConfig) (kernel : Fin H → Fin E → ℝ) (hE : 0 < E) (bp : Bool) (cap : Nat)
    (x : Fin G → Fin S → Fin H → ℝ) (hdet : cfg.deterministic = false) (hnoise : 0 < cfg.noiseStd)
    (g : Fin G) (ext : (Fin S → Fin E → ℝ) → Nat → Nat → Nat → ℝ) (hext : ∀ w (s : Fin S) (e : Fin E), ext w g s e = w s e)
    (gates : (Fin S → Fin E → ℝ) → Fin G → Fin S → Fin E → ℝ) (m : (Fin S → Fin E → ℝ) → Metrics G)
    (h : ∀ w, gatesAndMetrics cdf cfg kernel (ext w) x = .ok (gates w, m w)) (clean : Fin S → Fin E → ℝ)
    (hc : ∀ s e, clean s e = ∑ i, x g s i * kernel i e)
    (hcap : ∀ e, expectedLoad clean (cfg.noiseStd / E) cfg.numSelected e ≤ cap + 1) :
    (fresh S E).real {w | SomeDropped hE bp (gates w g) cfg.numSelected cap} ≤
      ∑ e, Real.exp (-2 * (cap + 1 - expectedLoad clean (cfg.noiseStd / E) cfg.numSelected e) ^ 2 / S) := by
  have hg : ∀ w, gates w g = noisyGates clean (cfg.noiseStd / E) w := by
    intro w
    have h1 := h w
    unfold gatesAndMetrics at h1
    split at h1
    · rw [if_neg (by simp [hdet, hnoise.ne'])] at h1
      rw [← (Prod.mk.inj (Except.ok.inj h1)).1]
      funext s
      unfold noisyGates
      show Soft.softmax _ = _
      refine congrArg Soft.softmax ?_
      funext e
      beta_reduce
      rw [hext, hc]
      unfold gateLogits
      ring
    · cases h1
  simp only [hg]
  exact C148_nothing_dropped hE bp clean (cfg.noiseStd / E) cfg.numSelected cap hcap

/-- Equal logits have equal expected loads: 100 items, 4 experts, one of them selected, and capacity factor 1.6. -/
example : let l : Fin 100 → Fin 4 → ℝ := fun s _ => s
    (∀ e e', expectedLoad l 1 1 e = expectedLoad l 1 1 e') ∧ (1.6 : ℝ) * ((100 : ℕ) * (1 : ℕ) / (4 : ℕ)) ≤ (40 : ℕ) ∧
      ∀ e, expectedLoad l 1 1 e ≤ (40 : ℕ) + 1 := by
  intro l
  have h : ∀ e, expectedLoad l 1 1 e = 25 := by
    intro e
    unfold expectedLoad
    simp only [C146_uniform l 1 one_pos 1 (by norm_num) _ (fun _ _ => rfl) e]
    norm_num
  refine ⟨fun e e' => by rw [h, h], by norm_num, fun e => by rw [h]; norm_num⟩

/-- The capacity of that group: 40. -/
example : Moe.computeCapacity id (100 * 1) 4 (8 / 5) "ceil" none = .ok 40 ∧
    (8 / 5 : ℚ) * ((100 : ℕ) * (1 : ℕ)) / (4 : ℕ) ≤ id (id (((100 * 1 : ℕ) : ℚ) * (8 / 5)) / (4 : ℕ)) := by
  constructor
  · unfold Moe.computeCapacity
    norm_num
  · norm_num

/-- A router with noise, for all noise of its group. -/
example : let cfg : RouterConfig := ⟨1, 2, 0, 0, 1, ⟨"einsum", false, none, some 1, "ceil", none, false⟩, false⟩
    let ext : (Fin 4 → Fin 2 → ℝ) → Nat → Nat → Nat → ℝ := fun w _ s e => if h : s < 4 ∧ e < 2 then w ⟨s, h.1⟩ ⟨e, h.2⟩ else 0
    (∀ w (s : Fin 4) (e : Fin 2), ext w 0 s e = w s e) ∧
    ∃ (gates : (Fin 4 → Fin 2 → ℝ) → Fin 1 → Fin 4 → Fin 2 → ℝ) (m : (Fin 4 → Fin 2 → ℝ) → Metrics 1), ∀ w,
      gatesAndMetrics normCdf cfg (fun (_ : Fin 1) (e : Fin 2) => (e : ℝ)) (ext w) (fun _ s _ => s) = .ok (gates w, m w) := by
  intro cfg ext
  constructor
  · intro w s e
    exact dif_pos ⟨s.isLt, e.isLt⟩
  · have : ∀ w, ∃ p : (Fin 1 → Fin 4 → Fin 2 → ℝ) × Metrics 1,
        gatesAndMetrics normCdf cfg (fun (_ : Fin 1) (e : Fin 2) => (e : ℝ)) (ext w) (fun _ s _ => s) = .ok p := by
      intro w
      unfold gatesAndMetrics
      rw [dif_pos (by decide), if_neg (by simp [cfg])]
      exact ⟨_, rfl⟩
    choose p hp using this
    exact ⟨fun t => (p t).1, fun t => (p t).2, hp⟩

end Verif.LoadNoise
