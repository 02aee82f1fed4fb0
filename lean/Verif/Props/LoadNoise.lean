import Verif.Model.LoadNoise
import Verif.Props.SoftMoe
import Verif.Props.MoeBlock

/-! C145: the load loss is about the expected load under new noise (vmoe/nn/routing.py:63-114, 159-183). -/

namespace Verif.LoadNoise

open Verif MeasureTheory ProbabilityTheory Verif.MoeBlock Verif.Aux

variable {S E : Nat}

instance : IsProbabilityMeasure normal := by
  unfold normal
  infer_instance

instance : NullSingletonClass normal := by
  unfold normal
  exact nullSingletonClass_gaussianReal one_ne_zero

instance (S E : Nat) : IsProbabilityMeasure (fresh S E) := by
  unfold fresh
  infer_instance

/-- One minus the distribution function is the probability that scaled noise lifts `l` over `t`. -/
theorem lift_prob (l t σ : ℝ) (hσ : 0 < σ) : 1 - normCdf ((t - l) / σ) = normal.real {x | t < l + σ * x} := by
  have h : {x | t < l + σ * x} = (Set.Iic ((t - l) / σ))ᶜ := by
    ext x
    simp only [Set.mem_ofPred_eq, Set.mem_compl_iff, Set.mem_Iic, not_le, div_lt_iff₀ hσ]
    constructor <;> intro h <;> linarith
  rw [h, probReal_compl_eq_one_sub measurableSet_Iic, normCdf, cdf_eq_real]

theorem normCdf_lt_one (x : ℝ) : normCdf x < 1 := by
  have h := lift_prob 0 x 1 one_pos
  rw [sub_zero, div_one] at h
  have hpos : 0 < normal.real {y | x < 0 + 1 * y} := by
    rw [measureReal_def, ENNReal.toReal_pos_iff]
    refine ⟨?_, measure_lt_top _ _⟩
    rw [pos_iff_ne_zero]
    intro h0
    have h1 : volume {y : ℝ | x < 0 + 1 * y} = 0 := gaussianReal_absolutelyContinuous' 0 one_ne_zero h0
    have h2 : {y : ℝ | x < 0 + 1 * y} = Set.Ioi x := by
      ext y
      simp
    rw [h2, Real.volume_Ioi] at h1
    exact absurd h1 (by simp)
  linarith

theorem eval_real (s : Fin S) (e : Fin E) (A : Set ℝ) (hA : MeasurableSet A) :
    (fresh S E).real {z | z s e ∈ A} = normal.real A := by
  have h1 : MeasurePreserving (fun z : Fin S → Fin E → ℝ => z s) (fresh S E) (Measure.pi fun _ => normal) :=
    measurePreserving_eval (fun _ : Fin S => Measure.pi fun _ : Fin E => normal) s
  have h2 : MeasurePreserving (fun z : Fin E → ℝ => z e) (Measure.pi fun _ => normal) normal :=
    measurePreserving_eval (fun _ : Fin E => normal) e
  have h3 := h2.comp h1
  have := h3.measureReal_preimage hA.nullMeasurableSet
  exact this

open Classical in
/-- The load of expert `e` under noise `z`: the number of items whose clean logit for `e` is lifted over their threshold. -/
noncomputable def lifted (logits : Fin S → Fin E → ℝ) (t : Fin S → ℝ) (σ : ℝ) (e : Fin E) (z : Fin S → Fin E → ℝ) : Nat :=
  (Finset.univ.filter fun s => t s < logits s e + σ * z s e).card

theorem measurable_lift (l t σ : ℝ) : MeasurableSet {x : ℝ | t < l + σ * x} :=
  measurableSet_lt measurable_const ((measurable_id.const_mul σ).const_add l)

theorem measurable_lift' (logits : Fin S → Fin E → ℝ) (t : Fin S → ℝ) (σ : ℝ) (e : Fin E) (s : Fin S) :
    MeasurableSet {z : Fin S → Fin E → ℝ | t s < logits s e + σ * z s e} := by
  apply measurableSet_lt measurable_const
  fun_prop

/-- The expected number of lifted items is the sum of the probabilities that the loss is computed from. -/
theorem expected_lifted (logits : Fin S → Fin E → ℝ) (t : Fin S → ℝ) (σ : ℝ) (hσ : 0 < σ) (e : Fin E) :
    ∫ z, (lifted logits t σ e z : ℝ) ∂fresh S E = ∑ s, (1 - normCdf ((t s - logits s e) / σ)) := by
  classical
  have h1 : ∀ z : Fin S → Fin E → ℝ, (lifted logits t σ e z : ℝ) =
      ∑ s, Set.indicator {z : Fin S → Fin E → ℝ | t s < logits s e + σ * z s e} (fun _ => (1 : ℝ)) z := by
    intro z
    unfold lifted
    rw [Finset.card_filter]
    push_cast
    apply Finset.sum_congr rfl
    intro s _
    by_cases h : t s < logits s e + σ * z s e
    · rw [if_pos h, Set.indicator_of_mem (by exact h)]
    · rw [if_neg h, Set.indicator_of_notMem (by exact h)]
  simp only [h1]
  rw [integral_finsetSum _ fun s _ => (integrable_const (1 : ℝ)).indicator (measurable_lift' logits t σ e s)]
  apply Finset.sum_congr rfl
  intro s _
  rw [integral_indicator (measurable_lift' logits t σ e s), lift_prob _ _ _ hσ,
    ← eval_real s e _ (measurable_lift (logits s e) (t s) σ)]
  simp

/-- The squared coefficient of variation of numbers, one for each expert. -/
noncomputable def variation (f : Fin E → ℝ) : ℝ :=
  ((∑ e, (f e - (∑ e, f e) / E) ^ 2) / E) / ((∑ e, f e) / E) ^ 2

/-- C145: the load loss of a group is the squared coefficient of variation over the experts of their expected loads: the load
of an expert is the number of items whose clean logit, with new noise, exceeds the `K`-th largest noisy logit of the item. -/
theorem C145_expected_load (hS : 0 < S) (logits noisy : Fin S → Fin E → ℝ) (σ : ℝ) (hσ : 0 < σ) (K : Nat) (h0 : 0 < K)
    (hK : K ≤ E) (t : Fin S → ℝ) (ht : ∀ s, (Finset.univ.filter (fun e => t s < noisy s e)).card < K ∧
      K ≤ (Finset.univ.filter (fun e => t s ≤ noisy s e)).card) :
    loadLoss normCdf logits noisy σ K h0 hK = variation fun e => ∫ z, (lifted logits t σ e z : ℝ) ∂fresh S E := by
  have h := C16_load_loss_value normCdf logits noisy σ K h0 hK t ht
  simp only at h
  rw [h]
  unfold variation
  simp only [expected_lifted logits t σ hσ]
  set q := fun e => ∑ s, (1 - normCdf ((t s - logits s e) / σ))
  have hS' : (S : ℝ) ≠ 0 := by exact_mod_cast hS.ne'
  have e1 : (∑ e, q e / (S : ℝ)) / E = ((∑ e, q e) / E) / S := by
    rw [← Finset.sum_div]
    ring
  have e2 : ∀ e, q e / (S : ℝ) - ((∑ e, q e) / E) / S = (q e - (∑ e, q e) / E) / S := fun e => by ring
  change ((∑ e, (q e / (S : ℝ) - (∑ e, q e / (S : ℝ)) / E) ^ 2) / E) / ((∑ e, q e / (S : ℝ)) / E) ^ 2 = _
  rw [e1]
  simp only [e2, div_pow]
  rw [← Finset.sum_div, div_right_comm, div_div_div_cancel_right₀ (pow_ne_zero 2 hS')]
  exact div_right_comm _ _ _

/-- C145: with normal noise the load loss is always a number between zero and `E - 1`. -/
theorem C145_bounds (hS : 0 < S) (logits noisy : Fin S → Fin E → ℝ) (σ : ℝ) (K : Nat) (h0 : 0 < K) (hK : K ≤ E) :
    0 ≤ loadLoss normCdf logits noisy σ K h0 hK ∧ loadLoss normCdf logits noisy σ K h0 hK ≤ E - 1 :=
  C16_load_loss normCdf normCdf_lt_one hS logits noisy σ K h0 hK

/-- Expert `e` is one of the `K` with the largest logits of an item, if its own is replaced by `v`. -/
def Selected (noisy : Fin E → ℝ) (K : Nat) (e : Fin E) (v : ℝ) : Prop :=
  (Finset.univ.filter fun e' => e' ≠ e ∧ v < noisy e').card < K

theorem selected_of_lifted {noisy : Fin E → ℝ} {K : Nat} {t : ℝ} (ht : (Finset.univ.filter (fun e => t < noisy e)).card < K)
    (e : Fin E) {v : ℝ} (hv : t < v) : Selected noisy K e v := by
  refine lt_of_le_of_lt (Finset.card_le_card ?_) ht
  intro e' he'
  simp only [Finset.mem_filter, Finset.mem_univ, true_and] at he' ⊢
  exact hv.trans he'.2

theorem not_selected {noisy : Fin E → ℝ} {K : Nat} {t : ℝ} (e : Fin E)
    (hu : K ≤ (Finset.univ.filter fun e' => e' ≠ e ∧ t ≤ noisy e').card) {v : ℝ} (hv : v < t) : ¬ Selected noisy K e v := by
  unfold Selected
  rw [not_lt]
  refine hu.trans (Finset.card_le_card ?_)
  intro e' he'
  simp only [Finset.mem_filter, Finset.mem_univ, true_and] at he' ⊢
  exact ⟨he'.1, hv.trans_le he'.2⟩

/-- The probability that expert `e` is one of the `K` selected for an item, if only its own noise is drawn again. -/
noncomputable def selectionProb (logits noisy : Fin E → ℝ) (σ : ℝ) (K : Nat) (e : Fin E) : ℝ :=
  normal.real {x | Selected noisy K e (logits e + σ * x)}

theorem measurable_selected (noisy : Fin E → ℝ) (K : Nat) (e : Fin E) : MeasurableSet {v : ℝ | Selected noisy K e v} := by
  classical
  have : {v : ℝ | Selected noisy K e v} =
      {v : ℝ | (∑ e', if e' ≠ e ∧ v < noisy e' then 1 else 0 : ℕ) < K} := by
    ext v
    simp only [Set.mem_ofPred_eq, Selected, Finset.card_filter]
  rw [this]
  apply measurableSet_lt _ measurable_const
  apply Finset.measurable_sum
  intro e' _
  by_cases he : e' = e
  · simp [he]
  · simp only [ne_eq, he, not_false_eq_true, true_and]
    exact Measurable.ite measurableSet_Iio measurable_const measurable_const

/-- C145: the probability in the load loss is exactly the probability of being selected for the experts that are not among
the `K` selected ones of the item. -/
theorem C145_unselected (logits noisy : Fin E → ℝ) (σ : ℝ) (hσ : 0 < σ) (K : Nat) (t : ℝ)
    (ht : (Finset.univ.filter (fun e => t < noisy e)).card < K) (e : Fin E)
    (hu : K ≤ (Finset.univ.filter fun e' => e' ≠ e ∧ t ≤ noisy e').card) :
    1 - normCdf ((t - logits e) / σ) = selectionProb logits noisy σ K e := by
  rw [lift_prob _ _ _ hσ, selectionProb]
  apply measureReal_congr
  rw [Filter.eventuallyEq_set]
  have hae : ∀ᵐ x ∂normal, x ≠ (t - logits e) / σ := by
    rw [ae_iff]
    simp
  filter_upwards [hae] with x hx
  constructor
  · intro h
    exact selected_of_lifted ht e h
  · intro h
    by_contra hn
    have hne : logits e + σ * x ≠ t := by
      intro heq
      apply hx
      rw [eq_div_iff hσ.ne']
      linarith
    exact not_selected e hu (lt_of_le_of_ne (not_lt.1 hn) hne) h

/-- C145: for the selected experts it is a lower bound, since the threshold contains the old noise of the expert itself. -/
theorem C145_lower_bound (logits noisy : Fin E → ℝ) (σ : ℝ) (hσ : 0 < σ) (K : Nat) (t : ℝ)
    (ht : (Finset.univ.filter (fun e => t < noisy e)).card < K) (e : Fin E) :
    1 - normCdf ((t - logits e) / σ) ≤ selectionProb logits noisy σ K e := by
  rw [lift_prob _ _ _ hσ, selectionProb]
  exact measureReal_mono fun x h => selected_of_lifted ht e h

/-- An interval has positive probability. -/
theorem interval_pos {a b : ℝ} (h : a < b) : 0 < normal.real (Set.Ioo a b) := by
  rw [measureReal_def, ENNReal.toReal_pos_iff]
  refine ⟨?_, measure_lt_top _ _⟩
  rw [pos_iff_ne_zero]
  intro h0
  have h1 : volume (Set.Ioo a b) = 0 := gaussianReal_absolutelyContinuous' 0 one_ne_zero h0
  rw [Real.volume_Ioo, ENNReal.ofReal_eq_zero] at h1
  linarith

/-- C145 fails as a claim on the selected experts: with two experts, one of them selected, and equal clean logits, the
probability that the loss uses for the selected expert is smaller than its probability of being selected again. -/
theorem C145_selected_counterexample :
    ∃ (logits noisy : Fin 2 → ℝ) (t : ℝ), (Finset.univ.filter (fun e => t < noisy e)).card < 1 ∧
      1 ≤ (Finset.univ.filter (fun e => t ≤ noisy e)).card ∧ noisy 0 < noisy 1 ∧
      1 - normCdf ((t - logits 1) / 1) < selectionProb logits noisy 1 1 1 := by
  refine ⟨fun _ => 0, fun e => if e = 0 then 0 else 1, 1, ?_, ?_, by simp, ?_⟩
  · rw [Nat.lt_one_iff, Finset.card_eq_zero, Finset.filter_eq_empty_iff]
    intro e _
    fin_cases e <;> simp
  · rw [Nat.one_le_iff_ne_zero, ← Nat.pos_iff_ne_zero, Finset.card_pos]
    exact ⟨1, by simp⟩
  · rw [lift_prob _ _ _ one_pos, selectionProb]
    have hd : Disjoint (Set.Ioo (0 : ℝ) 1) {x : ℝ | 1 < 0 + 1 * x} := by
      rw [Set.disjoint_left]
      intro x hx h
      simp only [Set.mem_ofPred_eq] at h
      linarith [hx.2]
    have hsub : Set.Ioo (0 : ℝ) 1 ∪ {x : ℝ | 1 < 0 + 1 * x} ⊆
        {x | Selected (fun e : Fin 2 => if e = 0 then (0 : ℝ) else 1) 1 1 (0 + 1 * x)} := by
      intro x hx
      have hx0 : 0 < x := by
        rcases hx with h | h
        · exact h.1
        · simp only [Set.mem_ofPred_eq] at h
          linarith
      show (Finset.univ.filter _).card < 1
      rw [Nat.lt_one_iff, Finset.card_eq_zero, Finset.filter_eq_empty_iff]
      intro e _
      fin_cases e
      · simp [hx0.le]
      · simp
    have h1 := measureReal_mono (μ := normal) hsub
    rw [measureReal_union hd (measurable_lift 0 1 1)] at h1
    linarith [interval_pos (a := 0) (b := 1) one_pos]

/-- C145, the router: when it adds noise, the load loss of every group is the variation of the expected loads of the experts
under new noise, with the standard deviation of the noise that was added, and the threshold of the noisy logits. -/
theorem C145_router {G H : Nat} (hS : 0 < S) (cfg : RouterConfig) (kernel : Fin H → Fin E → ℝ) (z : Nat → Nat → Nat → ℝ)
    (x : Fin G → Fin S → Fin H → ℝ) (hdet : cfg.deterministic = false) (hnoise : 0 < cfg.noiseStd)
    (gates : Fin G → Fin S → Fin E → ℝ) (m : Metrics G) (h : gatesAndMetrics normCdf cfg kernel z x = .ok (gates, m)) :
    ∃ load, m.loadLoss = some load ∧ ∀ (g : Fin G) (t : Fin S → ℝ),
      (∀ s : Fin S, (Finset.univ.filter (fun e : Fin E =>
          t s < ∑ i, x g s i * kernel i e + cfg.noiseStd / E * z g s e)).card < cfg.numSelected ∧
        cfg.numSelected ≤ (Finset.univ.filter (fun e : Fin E =>
          t s ≤ ∑ i, x g s i * kernel i e + cfg.noiseStd / E * z g s e)).card) →
      load g = variation fun e =>
        ∫ w, (lifted (fun s e => ∑ i, x g s i * kernel i e) t (cfg.noiseStd / E) e w : ℝ) ∂fresh S E := by
  unfold gatesAndMetrics at h
  split at h
  · rename_i hk
    have hE : 0 < E := Nat.lt_of_lt_of_le hk.2 hk.1
    rw [if_neg (by simp [hdet, hnoise.ne'])] at h
    cases h
    refine ⟨_, rfl, ?_⟩
    intro g t ht
    have hσ : 1 / (E : ℝ) * cfg.noiseStd = cfg.noiseStd / E := by ring
    have hpos : 0 < cfg.noiseStd / E := div_pos hnoise (by exact_mod_cast hE)
    simp only [hσ]
    exact C145_expected_load hS _ _ _ hpos _ _ _ t ht
  · cases h

/-- Two items with the thresholds 1 and 3, for one of two experts. -/
example : let noisy : Fin 2 → Fin 2 → ℝ := fun s e => if s = e then 2 * s + 1 else 0
    ∀ s : Fin 2, (Finset.univ.filter (fun e => (2 * s + 1 : ℝ) < noisy s e)).card < 1 ∧
      1 ≤ (Finset.univ.filter (fun e => (2 * s + 1 : ℝ) ≤ noisy s e)).card := by
  intro noisy s
  constructor
  · rw [Nat.lt_one_iff, Finset.card_eq_zero, Finset.filter_eq_empty_iff]
    intro e _
    fin_cases s <;> fin_cases e <;> simp [noisy]
    norm_num
  · rw [Nat.one_le_iff_ne_zero, ← Nat.pos_iff_ne_zero, Finset.card_pos]
    exact ⟨s, by simp [noisy]⟩

/-- An expert that is not selected: the first one, with the threshold 1 of the other one. -/
example : let noisy : Fin 2 → ℝ := fun e => if e = 0 then 0 else 1
    (Finset.univ.filter (fun e => 1 < noisy e)).card < 1 ∧
      1 ≤ (Finset.univ.filter fun e' => e' ≠ 0 ∧ 1 ≤ noisy e').card := by
  intro noisy
  constructor
  · rw [Nat.lt_one_iff, Finset.card_eq_zero, Finset.filter_eq_empty_iff]
    intro e _
    fin_cases e <;> simp [noisy]
  · rw [Nat.one_le_iff_ne_zero, ← Nat.pos_iff_ne_zero, Finset.card_pos]
    exact ⟨1, by simp [noisy]⟩

/-- A router with noise, one group of one item and two experts, whose threshold is 3. -/
example : let cfg : RouterConfig := ⟨1, 2, 0, 0, 1, ⟨"einsum", false, none, some 1, "ceil", none, false⟩, false⟩
    let kernel : Fin 1 → Fin 2 → ℝ := fun _ e => e
    let z : Nat → Nat → Nat → ℝ := fun _ _ e => e
    let x : Fin 1 → Fin 1 → Fin 1 → ℝ := fun _ _ _ => 2
    (∃ gates m, gatesAndMetrics normCdf cfg kernel z x = .ok (gates, m)) ∧
    ∀ s : Fin 1, (Finset.univ.filter (fun e : Fin 2 =>
        3 < ∑ i, x 0 s i * kernel i e + cfg.noiseStd / (2 : ℕ) * z 0 s e)).card < cfg.numSelected ∧
      cfg.numSelected ≤ (Finset.univ.filter (fun e : Fin 2 =>
        3 ≤ ∑ i, x 0 s i * kernel i e + cfg.noiseStd / (2 : ℕ) * z 0 s e)).card := by
  intro cfg kernel z x
  refine ⟨?_, fun s => ⟨?_, ?_⟩⟩
  · unfold gatesAndMetrics
    rw [dif_pos (by decide), if_neg (by simp [cfg])]
    exact ⟨_, _, rfl⟩
  · show _ < 1
    rw [Nat.lt_one_iff, Finset.card_eq_zero, Finset.filter_eq_empty_iff]
    intro e _
    fin_cases e <;> simp [x, kernel, z, cfg]
    norm_num
  · show 1 ≤ _
    rw [Nat.one_le_iff_ne_zero, ← Nat.pos_iff_ne_zero, Finset.card_pos]
    refine ⟨1, ?_⟩
    simp [x, kernel, z, cfg]
    norm_num

end Verif.LoadNoise
