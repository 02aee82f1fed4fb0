import Mathlib.MeasureTheory.Integral.IntervalIntegral.FundThmCalculus
import Verif.Props.BalanceGradients
import Verif.Props.Exploration

/-! C147, the load loss (vmoe/nn/routing.py:92-103, 159-183). -/

namespace Verif.LoadNoise

open Verif MeasureTheory ProbabilityTheory Verif.Aux Filter Topology

variable {S E : Nat}

/-- The density of the standard normal distribution. -/
noncomputable def density (x : ℝ) : ℝ := gaussianPDFReal 0 1 x

/-- The distribution function is differentiable, with the density as derivative. -/
theorem hasDerivAt_normCdf (x : ℝ) : HasDerivAt normCdf (density x) x := by
  have hc : Continuous density := by
    unfold density gaussianPDFReal
    fun_prop
  have hi : ∀ a b, IntervalIntegrable density volume a b := fun a b => hc.intervalIntegrable a b
  have hd : ∀ b, normCdf b = normCdf 0 + ∫ y in (0 : ℝ)..b, density y := by
    intro b
    have hreal : ∀ c, normCdf c = ∫ y in Set.Iic c, density y := by
      intro c
      unfold normCdf
      rw [cdf_eq_real]
      unfold normal density
      rw [measureReal_def, gaussianReal_apply_eq_integral 0 one_ne_zero]
      rw [ENNReal.toReal_ofReal]
      exact integral_nonneg fun y => gaussianPDFReal_nonneg 0 1 y
    have hint : Integrable density volume := integrable_gaussianPDFReal 0 1
    rw [hreal, hreal, ← intervalIntegral.integral_Iic_sub_Iic hint.integrableOn hint.integrableOn]
    ring
  have h : HasDerivAt (fun b => normCdf 0 + ∫ y in (0 : ℝ)..b, density y) (density x) x :=
    (intervalIntegral.integral_hasDerivAt_right (hi 0 x) (hc.stronglyMeasurableAtFilter _ _) hc.continuousAt).const_add _
  have hf : normCdf = fun b => normCdf 0 + ∫ y in (0 : ℝ)..b, density y := funext hd
  rw [hf]
  exact h

theorem density_pos (x : ℝ) : 0 < density x := gaussianPDFReal_pos 0 1 x one_ne_zero

/-- The derivative of a squared coefficient of variation. -/
theorem hasDerivAt_cv (hE : 0 < E) (q : ℝ → Fin E → ℝ) (q' : Fin E → ℝ) (hq : ∀ e, HasDerivAt (fun t => q t e) (q' e) 0)
    (hpos : ∀ t, 0 < ∑ e, q t e) :
    HasDerivAt (fun t => (std (q t) / mean (q t)) ^ 2)
      (∑ e, 2 * E / (∑ x, q 0 x) ^ 3 * (q 0 e * (∑ x, q 0 x) - ∑ x, q 0 x ^ 2) * q' e) 0 := by
  have hE' : (0 : ℝ) < E := by exact_mod_cast hE
  have hval : ∀ t, (std (q t) / mean (q t)) ^ 2 = E * (∑ e, q t e ^ 2) / (∑ e, q t e) ^ 2 - 1 := by
    intro t
    have := hpos t
    rw [cv_sq, variance_eq hE]
    unfold mean
    field_simp
  simp only [hval]
  have h1 : HasDerivAt (fun t => ∑ e, q t e) (∑ e, q' e) 0 := HasDerivAt.fun_sum fun e _ => hq e
  have h2 : HasDerivAt (fun t => ∑ e, q t e ^ 2) (∑ e, 2 * q 0 e * q' e) 0 :=
    HasDerivAt.fun_sum fun e _ => by
      refine ((hq e).fun_pow 2).congr_deriv ?_
      simp
  have h3 := ((h2.const_mul (E : ℝ)).div (h1.fun_pow 2) (pow_ne_zero 2 (hpos 0).ne')).sub_const 1
  refine h3.congr_deriv ?_
  have hp := (hpos 0).ne'
  set T := ∑ x, q 0 x
  set Q := ∑ x, q 0 x ^ 2
  have h4 : ∑ e, 2 * E / T ^ 3 * (q 0 e * T - Q) * q' e = E / T ^ 2 * (∑ e, 2 * q 0 e * q' e) - 2 * E * Q / T ^ 3 * ∑ e, q' e := by
    rw [Finset.mul_sum, Finset.mul_sum, ← Finset.sum_sub_distrib]
    refine Finset.sum_congr rfl fun e _ => ?_
    field_simp
  rw [h4]
  field_simp
  simp
  ring

/-- Near logits without ties the preference list of an item does not change. -/
theorem rank_near (l n d : Fin S → Fin E → ℝ) (hn : Relabel.NoTies fun s e => l s e + n s e) :
    ∀ᶠ t in 𝓝 (0 : ℝ), ∀ s e, Spec.choiceRank (fun s e => l s e + t * d s e + n s e) s e =
      Spec.choiceRank (fun s e => l s e + n s e) s e := by
  have hc : ∀ s e, Tendsto (fun t : ℝ => l s e + t * d s e + n s e) (𝓝 0) (𝓝 (l s e + n s e)) := by
    intro s e
    have : Tendsto (fun t : ℝ => l s e + t * d s e + n s e) (𝓝 0) (𝓝 (l s e + 0 * d s e + n s e)) :=
      (tendsto_const_nhds.add (tendsto_id.mul_const _)).add tendsto_const_nhds
    simpa using this
  have h : ∀ᶠ t in 𝓝 (0 : ℝ), ∀ s a b, l s a + n s a < l s b + n s b →
      l s a + t * d s a + n s a < l s b + t * d s b + n s b := by
    rw [eventually_all]
    intro s
    rw [eventually_all]
    intro a
    rw [eventually_all]
    intro b
    by_cases hab : l s a + n s a < l s b + n s b
    · filter_upwards [(hc s a).eventually_lt (hc s b) hab] with t ht _
      exact ht
    · simp [hab]
  filter_upwards [h] with t ht s e
  unfold Spec.choiceRank
  congr 1
  apply Finset.filter_congr
  intro x _
  by_cases hx : x = e
  · simp [hx]
  · have hne : l s x + n s x ≠ l s e + n s e := fun h => hx (hn s h)
    rcases lt_or_gt_of_ne hne with h1 | h1
    · have h2 := ht s x e h1
      simp [not_lt.2 h1.le, not_lt.2 h2.le, hne, h2.ne]
    · have h2 := ht s e x h1
      simp [h1, h2]

/-- The mean over the items of the probabilities that the load loss uses, for the thresholds `t`. -/
noncomputable def meanProb (l : Fin S → Fin E → ℝ) (t : Fin S → ℝ) (σ : ℝ) (e : Fin E) : ℝ :=
  (∑ s, (1 - normCdf ((t s - l s e) / σ))) / S

theorem meanProb_pos (hS : 0 < S) (l : Fin S → Fin E → ℝ) (t : Fin S → ℝ) (σ : ℝ) (e : Fin E) : 0 < meanProb l t σ e := by
  have hS' : (0 : ℝ) < S := by exact_mod_cast hS
  refine div_pos (Finset.sum_pos (fun s _ => ?_) ⟨⟨0, hS⟩, Finset.mem_univ _⟩) hS'
  linarith [normCdf_lt_one ((t s - l s e) / σ)]

/-- The load loss, with the threshold of every item named. -/
theorem load_value (l noisy : Fin S → Fin E → ℝ) (σ : ℝ) (K : Nat) (h0 : 0 < K) (hK : K ≤ E) (k : Fin S → Fin E)
    (hk : ∀ s, Spec.choiceRank noisy s (k s) = K - 1) :
    loadLoss normCdf l noisy σ K h0 hK =
      (std (meanProb l (fun s => noisy s (k s)) σ) / mean (meanProb l (fun s => noisy s (k s)) σ)) ^ 2 := by
  have h1 : ∀ s, topKIdx (noisy s) K hK ⟨K - 1, by omega⟩ = k s := fun s =>
    (Moe.topK_eq_iff_choiceRank noisy hK s ⟨K - 1, by omega⟩ (k s)).2 (hk s)
  unfold loadLoss
  simp only [h1, ite_mul, one_mul, zero_mul, Finset.sum_ite_eq', Finset.mem_univ, if_true]
  rfl

/-- C147: where the noisy logits have no ties, the load loss is differentiable along every change `d` of the logits (the
noise `n` staying the same): the mean probability `q e` of an expert moves with its logits, and against the logits of the
experts `k s` that define the thresholds. -/
theorem C147_load (hS : 0 < S) (l n d : Fin S → Fin E → ℝ) (hn : Relabel.NoTies fun s e => l s e + n s e) (σ : ℝ) (K : Nat)
    (h0 : 0 < K) (hK : K ≤ E) (k : Fin S → Fin E) (hk : ∀ s, Spec.choiceRank (fun s e => l s e + n s e) s (k s) = K - 1)
    (q : Fin E → ℝ) (hq : q = meanProb l (fun s => l s (k s) + n s (k s)) σ) :
    HasDerivAt (fun t : ℝ => loadLoss normCdf (fun s e => l s e + t * d s e) (fun s e => l s e + t * d s e + n s e) σ K h0 hK)
      (∑ e, 2 * E / (∑ x, q x) ^ 3 * (q e * (∑ x, q x) - ∑ x, q x ^ 2) *
        ((∑ s, density ((l s (k s) + n s (k s) - l s e) / σ) * ((d s e - d s (k s)) / σ)) / S)) 0 := by
  have hE : 0 < E := Nat.lt_of_lt_of_le h0 hK
  let p : ℝ → Fin E → ℝ := fun t =>
    meanProb (fun s e => l s e + t * d s e) (fun s => l s (k s) + t * d s (k s) + n s (k s)) σ
  have hp0 : p 0 = q := by
    rw [hq]
    simp only [p, zero_mul, add_zero]
  have hp : ∀ e, HasDerivAt (fun t => p t e)
      ((∑ s, density ((l s (k s) + n s (k s) - l s e) / σ) * ((d s e - d s (k s)) / σ)) / S) 0 := by
    intro e
    refine HasDerivAt.div_const (HasDerivAt.fun_sum fun s _ => ?_) _
    have ha : ∀ e, HasDerivAt (fun t : ℝ => l s e + t * d s e) (d s e) 0 := fun e => by
      simpa using ((hasDerivAt_id (0 : ℝ)).mul_const (d s e)).const_add (l s e)
    have hb := ((((ha (k s)).add_const (n s (k s))).sub (ha e)).div_const σ)
    have hcd := (hasDerivAt_normCdf ((l s (k s) + 0 * d s (k s) + n s (k s) - (l s e + 0 * d s e)) / σ))
    have := (hcd.comp (0 : ℝ) hb).const_sub 1
    refine this.congr_deriv ?_
    simp only [zero_mul, add_zero]
    ring
  have hcv := hasDerivAt_cv hE p _ hp (fun t => Finset.sum_pos (fun e _ => meanProb_pos hS _ _ _ e) ⟨⟨0, hE⟩, Finset.mem_univ _⟩)
  rw [hp0] at hcv
  refine hcv.congr_of_eventuallyEq ?_
  filter_upwards [rank_near l n d hn] with t ht
  exact load_value _ _ σ K h0 hK k fun s => (ht s (k s)).trans (hk s)

/-- C147: raising the logit of an item for an expert (other than the one at the threshold) with the largest mean probability
raises the load loss to first order, and for one with the smallest lowers it; strictly, unless they are all equal. -/
theorem C147_load_push (l n : Fin S → Fin E → ℝ) (hn : Relabel.NoTies fun s e => l s e + n s e) (σ : ℝ) (hσ : 0 < σ) (K : Nat)
    (h0 : 0 < K) (hK : K ≤ E) (k : Fin S → Fin E) (hk : ∀ s, Spec.choiceRank (fun s e => l s e + n s e) s (k s) = K - 1)
    (q : Fin E → ℝ) (hq : q = meanProb l (fun s => l s (k s) + n s (k s)) σ) (s : Fin S) (e : Fin E) (he : e ≠ k s) :
    ∃ D, HasDerivAt (fun t : ℝ => loadLoss normCdf (fun s' e' => l s' e' + t * raise s e s' e')
        (fun s' e' => l s' e' + t * raise s e s' e' + n s' e') σ K h0 hK) D 0 ∧
      ((∀ x, q x ≤ q e) → 0 ≤ D) ∧ ((∀ x, q x ≤ q e) → (∃ x, q x < q e) → 0 < D) ∧
      ((∀ x, q e ≤ q x) → D ≤ 0) ∧ ((∀ x, q e ≤ q x) → (∃ x, q e < q x) → D < 0) := by
  have hS : 0 < S := s.pos
  have hD := C147_load hS l n (raise s e) hn σ K h0 hK k hk q hq
  have hqp : ∀ x, 0 < q x := fun x => by
    rw [hq]
    exact meanProb_pos hS _ _ _ x
  have hT : 0 < ∑ x, q x := Finset.sum_pos (fun x _ => hqp x) ⟨e, Finset.mem_univ e⟩
  have hS' : (0 : ℝ) < S := by exact_mod_cast hS
  have hE' : (0 : ℝ) < E := by
    have := e.pos
    exact_mod_cast this
  have hone : ∀ x, (∑ s', density ((l s' (k s') + n s' (k s') - l s' x) / σ) * ((raise s e s' x - raise s e s' (k s')) / σ)) =
      if x = e then density ((l s (k s) + n s (k s) - l s e) / σ) / σ else 0 := by
    intro x
    rw [Finset.sum_eq_single s]
    · by_cases hx : x = e
      · subst hx
        simp [raise, he.symm]
        ring
      · simp [raise, hx, he.symm]
    · intro s' _ hs
      simp [raise, hs]
    · simp
  simp only [hone] at hD
  have hsum : (∑ x, 2 * E / (∑ x, q x) ^ 3 * (q x * (∑ x, q x) - ∑ x, q x ^ 2) *
      ((if x = e then density ((l s (k s) + n s (k s) - l s e) / σ) / σ else 0) / S)) =
      2 * E / (∑ x, q x) ^ 3 * (density ((l s (k s) + n s (k s) - l s e) / σ) / σ / S) * (q e * (∑ x, q x) - ∑ x, q x ^ 2) := by
    rw [Finset.sum_eq_single e]
    · rw [if_pos rfl]
      ring
    · intro x _ hx
      rw [if_neg hx]
      simp
    · simp
  rw [hsum] at hD
  have hc : 0 < 2 * E / (∑ x, q x) ^ 3 * (density ((l s (k s) + n s (k s) - l s e) / σ) / σ / S) := by
    have := density_pos ((l s (k s) + n s (k s) - l s e) / σ)
    positivity
  have hdiff : q e * (∑ x, q x) - ∑ x, q x ^ 2 = ∑ x, q x * (q e - q x) := by
    rw [Finset.mul_sum, ← Finset.sum_sub_distrib]
    exact Finset.sum_congr rfl fun x _ => by ring
  rw [hdiff] at hD
  have hneg : ∑ x, q x * (q e - q x) = -∑ x, q x * (q x - q e) := by
    rw [← Finset.sum_neg_distrib]
    exact Finset.sum_congr rfl fun x _ => by ring
  refine ⟨_, hD, fun h => ?_, fun h hx => ?_, fun h => ?_, fun h hx => ?_⟩
  · exact mul_nonneg hc.le (Finset.sum_nonneg fun x _ => mul_nonneg (hqp x).le (sub_nonneg.2 (h x)))
  · obtain ⟨x, hx⟩ := hx
    exact mul_pos hc (Finset.sum_pos' (fun x _ => mul_nonneg (hqp x).le (sub_nonneg.2 (h x)))
      ⟨x, Finset.mem_univ x, mul_pos (hqp x) (sub_pos.2 hx)⟩)
  · rw [hneg]
    have := mul_nonneg hc.le (Finset.sum_nonneg (s := Finset.univ) fun (x : Fin E) _ => mul_nonneg (hqp x).le (sub_nonneg.2 (h x)))
    linarith
  · obtain ⟨x, hx⟩ := hx
    rw [hneg]
    have := mul_pos hc (Finset.sum_pos' (fun x _ => mul_nonneg (hqp x).le (sub_nonneg.2 (h x)))
      ⟨x, Finset.mem_univ x, mul_pos (hqp x) (sub_pos.2 hx)⟩)
    linarith

/-- C147: the load loss does not change when all logits of an item are shifted. -/
theorem C147_load_no_shift (cdf : ℝ → ℝ) (l n : Fin S → Fin E → ℝ) (c : Fin S → ℝ) (σ : ℝ) (K : Nat) (h0 : 0 < K) (hK : K ≤ E) :
    loadLoss cdf (fun s e => l s e + c s) (fun s e => l s e + c s + n s e) σ K h0 hK =
      loadLoss cdf l (fun s e => l s e + n s e) σ K h0 hK := by
  have hidx : ∀ s i, topKIdx (fun e => l s e + c s + n s e) K hK i = topKIdx (fun e => l s e + n s e) K hK i := by
    intro s i
    have h := Moe.topK_eq_iff_choiceRank (fun s e => l s e + c s + n s e) hK s i (topKIdx (fun e => l s e + n s e) K hK i)
    refine h.2 ?_
    have h2 := (Moe.topK_eq_iff_choiceRank (fun s e => l s e + n s e) hK s i _).1 rfl
    rw [← h2]
    unfold Spec.choiceRank
    congr 1
    apply Finset.filter_congr
    intro x _
    constructor
    · rintro (h | h)
      · left; linarith
      · right; exact ⟨by linarith [h.1], h.2⟩
    · rintro (h | h)
      · left; linarith
      · right; exact ⟨by linarith [h.1], h.2⟩
  unfold loadLoss
  simp only [hidx, ite_mul, one_mul, zero_mul, Finset.sum_ite_eq', Finset.mem_univ, if_true]
  have : ∀ s e k, l s k + c s + n s k - (l s e + c s) = l s k + n s k - l s e := fun s e k => by ring
  simp only [this]

/-- One item and three experts without ties; the second choice is the expert at the threshold for two selected ones. -/
example : let l : Fin 1 → Fin 3 → ℝ := fun _ e => e
    let n : Fin 1 → Fin 3 → ℝ := fun _ e => e
    (Relabel.NoTies fun s e => l s e + n s e) ∧ (∀ s, Spec.choiceRank (fun s e => l s e + n s e) s 1 = 2 - 1) ∧
      (0 : Fin 3) ≠ 1 := by
  intro l n
  refine ⟨?_, ?_, by decide⟩
  · intro s a b h
    simp only [l, n] at h
    exact Fin.ext (Nat.cast_injective (by linarith : ((a : ℕ) : ℝ) = b))
  · intro s
    have : Finset.univ.filter (fun e' : Fin 3 => l s 1 + n s 1 < l s e' + n s e' ∨ (l s e' + n s e' = l s 1 + n s 1 ∧ e' < 1)) = {2} := by
      ext e
      fin_cases e <;> simp [l, n] <;> norm_num
    unfold Spec.choiceRank
    rw [this]
    rfl

end Verif.LoadNoise
