import Mathlib.MeasureTheory.Integral.Indicator
import Mathlib.Probability.Independence.Basic
import Verif.Props.LoadNoise
import Verif.Props.Relabel

/-! C146: with noise the router explores (vmoe/nn/routing.py:63-114). -/

namespace Verif.LoadNoise

open Verif MeasureTheory ProbabilityTheory Verif.MoeBlock Verif.Aux

variable {S E : Nat}

/-- The noise of a group with which item `s` asks for expert `e`. -/
def asks (logits : Fin S → Fin E → ℝ) (σ : ℝ) (K : Nat) (s : Fin S) (e : Fin E) : Set (Fin S → Fin E → ℝ) :=
  {w | Spec.Requests (fun s e => logits s e + σ * w s e) K s e}

/-- The probability, under new noise, that item `s` asks for expert `e`. -/
noncomputable def askProb (logits : Fin S → Fin E → ℝ) (σ : ℝ) (K : Nat) (s : Fin S) (e : Fin E) : ℝ :=
  (fresh S E).real (asks logits σ K s e)

theorem measurable_noisy (logits : Fin S → Fin E → ℝ) (σ : ℝ) (s : Fin S) (e : Fin E) :
    Measurable fun w : Fin S → Fin E → ℝ => logits s e + σ * w s e := by
  fun_prop

theorem measurable_asks (logits : Fin S → Fin E → ℝ) (σ : ℝ) (K : Nat) (s : Fin S) (e : Fin E) :
    MeasurableSet (asks logits σ K s e) := by
  classical
  have : asks logits σ K s e = {w | (∑ e', if logits s e + σ * w s e < logits s e' + σ * w s e' ∨
      (logits s e' + σ * w s e' = logits s e + σ * w s e ∧ e' < e) then 1 else 0 : ℕ) < K} := by
    ext w
    simp only [asks, Spec.Requests, Spec.choiceRank, Set.mem_ofPred_eq, Finset.card_filter]
  rw [this]
  apply measurableSet_lt _ measurable_const
  apply Finset.measurable_sum
  intro e' _
  apply Measurable.ite _ measurable_const measurable_const
  apply MeasurableSet.union
  · exact measurableSet_lt (measurable_noisy _ _ _ _) (measurable_noisy _ _ _ _)
  · exact (measurableSet_eq_fun (measurable_noisy logits σ s e') (measurable_noisy logits σ s e)).inter (MeasurableSet.const _)

/-- Two noisy logits of an item are almost surely different. -/
theorem tie_null (logits : Fin S → Fin E → ℝ) (σ : ℝ) (hσ : 0 < σ) (s : Fin S) (e e' : Fin E) (h : e ≠ e') :
    ∀ᵐ w ∂fresh S E, logits s e + σ * w s e ≠ logits s e' + σ * w s e' := by
  have hi : iIndepFun (fun (i : Fin E) (w : Fin E → ℝ) => w i) (Measure.pi fun _ : Fin E => normal) :=
    iIndepFun_pi (μ := fun _ : Fin E => normal) (X := fun _ x => x) fun _ => aemeasurable_id
  have hp := hi.indepFun h
  rw [indepFun_iff_map_prod_eq_prod_map_map (measurable_pi_apply e).aemeasurable (measurable_pi_apply e').aemeasurable] at hp
  have hm : ∀ e : Fin E, Measure.map (fun w : Fin E → ℝ => w e) (Measure.pi fun _ : Fin E => normal) = normal :=
    fun e => (measurePreserving_eval (fun _ : Fin E => normal) e).map_eq
  rw [hm e, hm e'] at hp
  have hA : MeasurableSet {p : ℝ × ℝ | logits s e + σ * p.1 = logits s e' + σ * p.2} :=
    measurableSet_eq_fun (by fun_prop) (by fun_prop)
  have h0 : (normal.prod normal) {p : ℝ × ℝ | logits s e + σ * p.1 = logits s e' + σ * p.2} = 0 := by
    rw [Measure.measure_prod_null hA]
    filter_upwards with a
    have : Prod.mk a ⁻¹' {p : ℝ × ℝ | logits s e + σ * p.1 = logits s e' + σ * p.2} ⊆ {(logits s e + σ * a - logits s e') / σ} := by
      intro b hb
      simp only [Set.mem_preimage, Set.mem_ofPred_eq] at hb
      rw [Set.mem_singleton_iff, eq_div_iff hσ.ne']
      linarith
    exact measure_mono_null this (measure_singleton _)
  rw [← hp, Measure.map_apply (by fun_prop) hA] at h0
  have h1 : MeasurePreserving (fun z : Fin S → Fin E → ℝ => z s) (fresh S E) (Measure.pi fun _ => normal) :=
    measurePreserving_eval (fun _ : Fin S => Measure.pi fun _ : Fin E => normal) s
  rw [ae_iff]
  rw [← h1.measure_preimage ((measurable_pi_apply e).prodMk (measurable_pi_apply e') hA).nullMeasurableSet] at h0
  simpa using h0

/-- Almost surely no item has ties. -/
theorem noTies_ae (logits : Fin S → Fin E → ℝ) (σ : ℝ) (hσ : 0 < σ) :
    ∀ᵐ w ∂fresh S E, Relabel.NoTies fun s e => logits s e + σ * w s e := by
  have h : ∀ᵐ w ∂fresh S E, ∀ (s : Fin S) (e e' : Fin E), e ≠ e' → logits s e + σ * w s e ≠ logits s e' + σ * w s e' := by
    rw [ae_all_iff]
    intro s
    rw [ae_all_iff]
    intro e
    rw [ae_all_iff]
    intro e'
    by_cases he : e = e'
    · simp [he]
    · filter_upwards [tie_null logits σ hσ s e e' he] with w hw _
      exact hw
  filter_upwards [h] with w hw s e e' he
  by_contra hn
  exact hw s e e' hn he

theorem requests_card {R : Type*} [LinearOrder R] (gates : Fin S → Fin E → R) (K : Nat) (hK : K ≤ E) (s : Fin S) :
    (Finset.univ.filter fun e => Spec.Requests gates K s e).card = K := by
  have hinj : Function.Injective fun e : Fin E => (⟨Spec.choiceRank gates s e, Moe.choiceRank_lt gates s e⟩ : Fin E) := by
    intro a b h
    exact Moe.choiceRank_injective gates s (congrArg Fin.val h)
  have hbij := (Finite.injective_iff_bijective).1 hinj
  have h1 : (Finset.univ.filter fun e => Spec.Requests gates K s e).card = (Finset.univ.filter fun i : Fin E => i.1 < K).card := by
    apply Finset.card_bij (fun e _ => (⟨Spec.choiceRank gates s e, Moe.choiceRank_lt gates s e⟩ : Fin E))
    · intro e he
      simp only [Finset.mem_filter, Finset.mem_univ, true_and] at he ⊢
      exact he
    · intro a _ b _ h
      exact hinj h
    · intro i hi
      obtain ⟨e, he⟩ := hbij.2 i
      refine ⟨e, ?_, he⟩
      subst he
      simp only [Finset.mem_filter, Finset.mem_univ, true_and] at hi ⊢
      exact hi
  rw [h1, Fin.card_filter_val_lt]
  exact min_eq_right hK

/-- A larger logit of an expert, and smaller ones of the others, leave it asked for. -/
theorem asks_mono {l l' : Fin S → Fin E → ℝ} {s : Fin S} {e : Fin E} (he : l s e ≤ l' s e) (ho : ∀ x, x ≠ e → l' s x ≤ l s x)
    (σ : ℝ) (K : Nat) : asks l σ K s e ⊆ asks l' σ K s e := by
  intro w hw
  refine lt_of_le_of_lt (Finset.card_le_card ?_) hw
  intro x hx
  simp only [Finset.mem_filter, Finset.mem_univ, true_and] at hx ⊢
  by_cases hxe : x = e
  · subst hxe
    simp at hx
  · have := ho x hxe
    rcases hx with h | h
    · left
      linarith
    · rcases lt_or_eq_of_le (show l s e + σ * w s e ≤ l s x + σ * w s x by linarith [h.1]) with h' | h'
      · exact Or.inl h'
      · exact Or.inr ⟨h'.symm, h.2⟩

/-- New noise, with the experts renumbered, is new noise. -/
theorem fresh_renumber (τ : Equiv.Perm (Fin E)) :
    MeasurePreserving (fun (w : Fin S → Fin E → ℝ) s e => w s (τ e)) (fresh S E) (fresh S E) := by
  have h := measurePreserving_piCongrLeft (fun _ : Fin E => normal) τ.symm
  refine measurePreserving_pi (fun _ : Fin S => Measure.pi fun _ : Fin E => normal)
    (fun _ : Fin S => Measure.pi fun _ : Fin E => normal) (f := fun _ (w : Fin E → ℝ) e => w (τ e)) fun _ => ?_
  have he : (⇑(MeasurableEquiv.piCongrLeft (fun _ : Fin E => ℝ) τ.symm) : (Fin E → ℝ) → Fin E → ℝ) = fun w e => w (τ e) := by
    funext w e
    have := MeasurableEquiv.piCongrLeft_apply_apply (β := fun _ : Fin E => ℝ) τ.symm w (τ e)
    simpa using this
  rw [← he]
  exact h

/-- Renumbering the experts renumbers the probabilities. -/
theorem askProb_renumber (τ : Equiv.Perm (Fin E)) (l : Fin S → Fin E → ℝ) (σ : ℝ) (hσ : 0 < σ) (K : Nat) (s : Fin S) (e : Fin E) :
    askProb (fun s e => l s (τ e)) σ K s e = askProb l σ K s (τ e) := by
  unfold askProb
  rw [← (fresh_renumber (S := S) τ).measureReal_preimage (measurable_asks (fun s e => l s (τ e)) σ K s e).nullMeasurableSet]
  apply measureReal_congr
  rw [Filter.eventuallyEq_set]
  filter_upwards [noTies_ae l σ hσ] with w hw
  have := Relabel.rank_renumber τ (fun s e => l s e + σ * w s e) hw s e
  show Spec.choiceRank (fun s e => l s (τ e) + σ * w s (τ e)) s e < K ↔ _
  rw [this]
  rfl

/-- C146: the experts with the larger logits of an item are the more likely ones. -/
theorem C146_order (l : Fin S → Fin E → ℝ) (σ : ℝ) (hσ : 0 < σ) (K : Nat) (s : Fin S) (e e' : Fin E) (h : l s e ≤ l s e') :
    askProb l σ K s e ≤ askProb l σ K s e' := by
  have h1 := askProb_renumber (Equiv.swap e e') l σ hσ K s e'
  rw [Equiv.swap_apply_right] at h1
  rw [← h1]
  refine measureReal_mono (asks_mono ?_ ?_ σ K)
  · simpa using h
  · intro x hx
    by_cases hxe : x = e
    · subst hxe
      simpa using h
    · rw [Equiv.swap_apply_of_ne_of_ne hxe hx]

/-- C146: raising the logit of an expert makes it more likely, raising the logits of others less. -/
theorem C146_monotone (l l' : Fin S → Fin E → ℝ) (σ : ℝ) (K : Nat) (s : Fin S) (e : Fin E) (he : l s e ≤ l' s e)
    (ho : ∀ x, x ≠ e → l' s x ≤ l s x) : askProb l σ K s e ≤ askProb l' σ K s e :=
  measureReal_mono (asks_mono he ho σ K)

/-- The expected number of experts with a property that depends on the noise. -/
theorem integral_count {ι : Type*} [Fintype ι] (A : ι → Set (Fin S → Fin E → ℝ)) (hA : ∀ i, MeasurableSet (A i))
    (n : (Fin S → Fin E → ℝ) → Nat) (hn : ∀ w, n w = ∑ i, (A i).indicator (fun _ => (1 : Nat)) w) :
    ∫ w, (n w : ℝ) ∂fresh S E = ∑ i, (fresh S E).real (A i) := by
  have h1 : ∀ w, (n w : ℝ) = ∑ i, (A i).indicator (fun _ => (1 : ℝ)) w := by
    intro w
    rw [hn]
    push_cast
    apply Finset.sum_congr rfl
    intro i _
    by_cases h : w ∈ A i
    · simp [h]
    · simp [h]
  simp only [h1]
  rw [integral_finsetSum _ fun i _ => (integrable_const (1 : ℝ)).indicator (hA i)]
  apply Finset.sum_congr rfl
  intro i _
  rw [integral_indicator (hA i)]
  simp

/-- C146: the probabilities of an item add up to the number of selected experts. -/
theorem C146_total (l : Fin S → Fin E → ℝ) (σ : ℝ) (K : Nat) (hK : K ≤ E) (s : Fin S) : ∑ e, askProb l σ K s e = K := by
  classical
  have h := integral_count (fun e => asks l σ K s e) (measurable_asks l σ K s) (fun _ => K) (by
    intro w
    have := requests_card (fun s e => l s e + σ * w s e) K hK s
    rw [Finset.card_filter] at this
    refine this.symm.trans (Finset.sum_congr rfl ?_)
    intro e _
    by_cases he : Spec.Requests (fun s e => l s e + σ * w s e) K s e
    · rw [if_pos he, Set.indicator_of_mem (by exact he)]
    · rw [if_neg he, Set.indicator_of_notMem (by exact he)])
  unfold askProb
  rw [← h]
  simp

/-- C146: with equal logits every expert is asked for with the same probability. -/
theorem C146_uniform (l : Fin S → Fin E → ℝ) (σ : ℝ) (hσ : 0 < σ) (K : Nat) (hK : K ≤ E) (s : Fin S)
    (heq : ∀ e e', l s e = l s e') (e : Fin E) : askProb l σ K s e = K / E := by
  have h1 : ∀ e', askProb l σ K s e' = askProb l σ K s e := fun e' =>
    le_antisymm (C146_order l σ hσ K s e' e (heq e' e).le) (C146_order l σ hσ K s e e' (heq e e').le)
  have h2 := C146_total l σ K hK s
  simp only [h1, Finset.sum_const, Finset.card_univ, Fintype.card_fin, nsmul_eq_mul] at h2
  have hE : (E : ℝ) ≠ 0 := by
    have := e.pos
    exact_mod_cast this.ne'
  rw [eq_div_iff hE]
  linarith

open Classical in
/-- The load of an expert: the number of items that ask for it. -/
noncomputable def load (l : Fin S → Fin E → ℝ) (σ : ℝ) (K : Nat) (e : Fin E) (w : Fin S → Fin E → ℝ) : Nat :=
  (Finset.univ.filter fun s => w ∈ asks l σ K s e).card

/-- C146: a router whose logits are equal, as with a kernel of zeros, has the same expected load on every expert. -/
theorem C146_balanced (l : Fin S → Fin E → ℝ) (σ : ℝ) (hσ : 0 < σ) (K : Nat) (hK : K ≤ E)
    (heq : ∀ s e e', l s e = l s e') (e : Fin E) : ∫ w, (load l σ K e w : ℝ) ∂fresh S E = S * K / E := by
  classical
  rw [integral_count (fun s => asks l σ K s e) (fun s => measurable_asks l σ K s e) (load l σ K e) (by
    intro w
    unfold load
    rw [Finset.card_filter]
    apply Finset.sum_congr rfl
    intro s _
    by_cases h : w ∈ asks l σ K s e
    · simp [h]
    · simp [h])]
  have := fun s => C146_uniform l σ hσ K hK s (heq s) e
  unfold askProb at this
  simp only [this, Finset.sum_const, Finset.card_univ, Fintype.card_fin, nsmul_eq_mul]
  ring

/-- Half-lines have positive probability. -/
theorem above_pos (l σ : ℝ) (hσ : 0 < σ) : 0 < normal {x | 0 < l + σ * x} := by
  refine lt_of_lt_of_le (ENNReal.toReal_pos_iff.1 (interval_pos (show -l / σ < -l / σ + 1 by linarith))).1 (measure_mono ?_)
  intro x hx
  have := (div_lt_iff₀ hσ).1 hx.1
  simp only [Set.mem_ofPred_eq]
  linarith

theorem below_pos (l σ : ℝ) (hσ : 0 < σ) : 0 < normal {x | l + σ * x < 0} := by
  refine lt_of_lt_of_le (ENNReal.toReal_pos_iff.1 (interval_pos (show -l / σ - 1 < -l / σ by linarith))).1 (measure_mono ?_)
  intro x hx
  have := (lt_div_iff₀ hσ).1 hx.2
  simp only [Set.mem_ofPred_eq]
  linarith

/-- If the logits of the experts of a set are larger than those of all others, then it is the set that an item asks for. -/
theorem requests_of_separated (gates : Fin S → Fin E → ℝ) (s : Fin S) (A : Finset (Fin E))
    (h : ∀ e ∈ A, ∀ e' ∉ A, gates s e' < gates s e) (e : Fin E) : Spec.Requests gates A.card s e ↔ e ∈ A := by
  constructor
  · intro hr
    by_contra hn
    refine absurd hr (not_lt.2 (Finset.card_le_card ?_))
    intro x hx
    simp only [Finset.mem_filter, Finset.mem_univ, true_and]
    exact Or.inl (h x hx e hn)
  · intro he
    refine Finset.card_lt_card ?_
    rw [Finset.ssubset_iff_of_subset]
    · refine ⟨e, he, ?_⟩
      simp
    · intro x hx
      simp only [Finset.mem_filter, Finset.mem_univ, true_and] at hx
      by_contra hn
      have := h e he x hn
      rcases hx with h' | h'
      · exact lt_asymm this h'
      · exact this.ne h'.1

/-- C146: whatever the logits, every choice of `K` experts for each of the items of a group has positive probability. -/
theorem C146_every_choice (l : Fin S → Fin E → ℝ) (σ : ℝ) (hσ : 0 < σ) (K : Nat) (A : Fin S → Finset (Fin E))
    (hA : ∀ s, (A s).card = K) : 0 < (fresh S E).real {w | ∀ s e, w ∈ asks l σ K s e ↔ e ∈ A s} := by
  classical
  let B : Fin S → Fin E → Set ℝ := fun s e => if e ∈ A s then {x | 0 < l s e + σ * x} else {x | l s e + σ * x < 0}
  have hB : 0 < fresh S E (Set.univ.pi fun s => Set.univ.pi fun e => B s e) := by
    unfold fresh
    rw [Measure.pi_pi, pos_iff_ne_zero, Finset.prod_ne_zero_iff]
    intro s _
    rw [Measure.pi_pi, Finset.prod_ne_zero_iff]
    intro e _
    by_cases he : e ∈ A s
    · simp only [B, if_pos he]
      exact (above_pos _ _ hσ).ne'
    · simp only [B, if_neg he]
      exact (below_pos _ _ hσ).ne'
  rw [measureReal_def, ENNReal.toReal_pos_iff]
  refine ⟨lt_of_lt_of_le hB (measure_mono ?_), measure_lt_top _ _⟩
  intro w hw s e
  have hw' : ∀ e, w s e ∈ B s e := fun e => hw s (Set.mem_univ s) e (Set.mem_univ e)
  rw [← hA s]
  apply requests_of_separated
  intro x hx y hy
  have h1 := hw' x
  have h2 := hw' y
  simp only [B, if_pos hx, if_neg hy, Set.mem_ofPred_eq] at h1 h2
  exact h2.trans h1

/-- C146: no expert is ever ruled out, and none is certain unless all are selected. -/
theorem C146_open (l : Fin S → Fin E → ℝ) (σ : ℝ) (hσ : 0 < σ) (K : Nat) (s : Fin S) (e : Fin E) :
    (0 < K → K ≤ E → 0 < askProb l σ K s e) ∧ (K < E → askProb l σ K s e < 1) := by
  classical
  constructor
  · intro h0 hK
    obtain ⟨A, hA, hc⟩ := Finset.exists_subsuperset_card_eq (n := K) (Finset.subset_univ {e}) (by rw [Finset.card_singleton]; exact h0) (by simpa using hK)
    refine lt_of_lt_of_le (C146_every_choice l σ hσ K (fun _ => A) fun _ => hc.2) (measureReal_mono ?_)
    intro w hw
    exact (hw s e).2 (hA (by simp))
  · intro hK
    obtain ⟨A, hA, hc⟩ := Finset.exists_subset_card_eq (s := Finset.univ.erase e) (n := K) (by
      rw [Finset.card_erase_of_mem (Finset.mem_univ e), Finset.card_univ, Fintype.card_fin]
      omega)
    have h1 := C146_every_choice l σ hσ K (fun _ => A) fun _ => hc
    have h2 : {w | ∀ s e, w ∈ asks l σ K s e ↔ e ∈ A} ⊆ (asks l σ K s e)ᶜ := by
      intro w hw hn
      have := hA ((hw s e).1 hn)
      simp at this
    have h3 := measureReal_mono (μ := fresh S E) h2
    rw [probReal_compl_eq_one_sub (measurable_asks l σ K s e)] at h3
    unfold askProb
    linarith

/-- Near logits without ties, nothing changes. -/
theorem requests_near {ι : Type*} {L : Filter ι} (v : ι → Fin E → ℝ) (u : Fin E → ℝ) (hu : Function.Injective u)
    (hv : ∀ e, Filter.Tendsto (fun i => v i e) L (nhds (u e))) (K : Nat) (e : Fin E) :
    ∀ᶠ i in L, (Spec.Requests (fun _ : Fin 1 => v i) K 0 e ↔ Spec.Requests (fun _ : Fin 1 => u) K 0 e) := by
  have h : ∀ᶠ i in L, ∀ x, x ≠ e → (v i e < v i x ↔ u e < u x) ∧ v i e ≠ v i x := by
    rw [Filter.eventually_all]
    intro x
    by_cases hx : x = e
    · simp [hx]
    · rcases lt_trichotomy (u e) (u x) with h | h | h
      · filter_upwards [(hv e).eventually_lt (hv x) h] with i hi _
        exact ⟨⟨fun _ => h, fun _ => hi⟩, hi.ne⟩
      · exact absurd (hu h).symm hx
      · filter_upwards [(hv x).eventually_lt (hv e) h] with i hi _
        exact ⟨⟨fun h' => absurd h' (not_lt.2 hi.le), fun h' => absurd h' (not_lt.2 h.le)⟩, hi.ne'⟩
  filter_upwards [h] with i hi
  have : Spec.choiceRank (fun _ : Fin 1 => v i) 0 e = Spec.choiceRank (fun _ : Fin 1 => u) 0 e := by
    unfold Spec.choiceRank
    congr 1
    apply Finset.filter_congr
    intro x _
    by_cases hx : x = e
    · simp [hx]
    · have h1 := hi x hx
      have h2 : u x ≠ u e := fun h => hx (hu h)
      simp only [h1.1, h1.2.symm, h2, false_and]
  unfold Spec.Requests
  rw [this]

theorem requests_row {R : Type*} [LinearOrder R] (gates : Fin S → Fin E → R) (K : Nat) (s : Fin S) (e : Fin E) :
    Spec.Requests gates K s e ↔ Spec.Requests (fun _ : Fin 1 => gates s) K 0 e := Iff.rfl

/-- C146: as the noise vanishes, an item asks for its preferred experts and for no others. -/
theorem C146_small_noise (l : Fin S → Fin E → ℝ) (K : Nat) (s : Fin S) (hl : Function.Injective (l s)) (e : Fin E) :
    Filter.Tendsto (fun σ => askProb l σ K s e) (nhds 0) (nhds (if Spec.Requests l K s e then 1 else 0)) := by
  have h := tendsto_measure_of_ae_tendsto_indicator_of_isFiniteMeasure (nhds (0 : ℝ)) (μ := fresh S E)
    (A := {_w | Spec.Requests l K s e}) (As := fun σ => asks l σ K s e) (MeasurableSet.const _)
    (fun σ => measurable_asks l σ K s e) (by
      filter_upwards with w
      refine requests_near (fun σ e => l s e + σ * w s e) (l s) hl ?_ K e
      intro e
      have : Filter.Tendsto (fun σ : ℝ => l s e + σ * w s e) (nhds 0) (nhds (l s e + 0 * w s e)) :=
        tendsto_const_nhds.add (Filter.tendsto_id.mul_const _)
      simpa using this)
  have h2 := (ENNReal.tendsto_toReal (measure_ne_top _ _)).comp h
  have h3 : ((fresh S E) {_w | Spec.Requests l K s e}).toReal = if Spec.Requests l K s e then 1 else 0 := by
    by_cases hr : Spec.Requests l K s e
    · simp [hr]
    · simp [hr]
  rw [h3] at h2
  exact h2

/-- Which experts an item asks for depends on the order of the logits only. -/
theorem requests_order {v u : Fin S → Fin E → ℝ} {s : Fin S} (h : ∀ a b, v s a < v s b ↔ u s a < u s b) (K : Nat) (e : Fin E) :
    Spec.Requests v K s e ↔ Spec.Requests u K s e := by
  have heq : ∀ a b, v s a = v s b ↔ u s a = u s b := by
    intro a b
    have h1 := h a b
    have h2 := h b a
    constructor <;> intro h' <;> apply le_antisymm
    · exact not_lt.1 fun hn => (h2.2 hn).ne h'.symm
    · exact not_lt.1 fun hn => (h1.2 hn).ne h'
    · exact not_lt.1 fun hn => (h2.1 hn).ne h'.symm
    · exact not_lt.1 fun hn => (h1.1 hn).ne h'
  unfold Spec.Requests Spec.choiceRank
  simp only [h, heq]

/-- C146: as the noise grows, the logits stop mattering. -/
theorem C146_large_noise (l : Fin S → Fin E → ℝ) (K : Nat) (hK : K ≤ E) (s : Fin S) (e : Fin E) :
    Filter.Tendsto (fun σ => askProb l σ K s e) Filter.atTop (nhds (K / E)) := by
  have hz : ∀ σ : ℝ, 0 < σ → asks l σ K s e = asks (fun s e => l s e / σ) 1 K s e := by
    intro σ hσ
    ext w
    refine requests_order (s := s) (fun a b => ?_) K e
    have : ∀ a, l s a / σ + 1 * w s a = (l s a + σ * w s a) / σ := fun a => by
      field_simp
    rw [this, this, div_lt_div_iff_of_pos_right hσ]
  have h := tendsto_measure_of_ae_tendsto_indicator_of_isFiniteMeasure (Filter.atTop : Filter ℝ) (μ := fresh S E)
    (A := asks (fun _ _ => 0) 1 K s e) (As := fun σ => asks (fun s e => l s e / σ) 1 K s e) (measurable_asks _ 1 K s e)
    (fun σ => measurable_asks _ 1 K s e) (by
      filter_upwards [noTies_ae (fun (_ : Fin S) (_ : Fin E) => 0) 1 one_pos] with w hw
      refine requests_near (fun σ e => l s e / σ + 1 * w s e) (fun e => 0 + 1 * w s e) (hw s) ?_ K e
      intro e
      exact (Filter.Tendsto.div_atTop tendsto_const_nhds Filter.tendsto_id).add tendsto_const_nhds)
  have h2 := (ENNReal.tendsto_toReal (measure_ne_top _ _)).comp h
  have h3 := C146_uniform (fun (_ : Fin S) (_ : Fin E) => 0) 1 one_pos K hK s (fun _ _ => rfl) e
  unfold askProb at h3
  rw [measureReal_def] at h3
  rw [h3] at h2
  refine h2.congr' ?_
  filter_upwards [Filter.eventually_gt_atTop (0 : ℝ)] with σ hσ
  unfold askProb
  rw [hz σ hσ]
  rfl

/-- C146, the router: with noise, the items of a group ask for experts as their noisy logits say, with standard deviation
`noise_std / num_experts`. -/
theorem C146_router {G H : Nat} (cdf : ℝ → ℝ) (cfg : RouterConfig) (kernel : Fin H → Fin E → ℝ) (z : Nat → Nat → Nat → ℝ)
    (x : Fin G → Fin S → Fin H → ℝ) (hdet : cfg.deterministic = false) (hnoise : 0 < cfg.noiseStd)
    (gates : Fin G → Fin S → Fin E → ℝ) (m : Metrics G) (h : gatesAndMetrics cdf cfg kernel z x = .ok (gates, m)) (g : Fin G)
    (s : Fin S) (e : Fin E) : Spec.Requests (gates g) cfg.numSelected s e ↔
      (fun (s : Fin S) (e : Fin E) => z g s e) ∈ asks (fun s e => ∑ i, x g s i * kernel i e) (cfg.noiseStd / E) cfg.numSelected s e := by
  unfold gatesAndMetrics at h
  split at h
  · rw [if_neg (by simp [hdet, hnoise.ne'])] at h
    cases h
    refine requests_order (s := s) (fun a b => ?_) _ e
    have hσ : 1 / (E : ℝ) * cfg.noiseStd = cfg.noiseStd / E := by ring
    simp only [hσ, Soft.softmax]
    rw [div_lt_div_iff_of_pos_right]
    · exact Real.exp_lt_exp
    · exact Finset.sum_pos (fun _ _ => Real.exp_pos _) ⟨a, Finset.mem_univ a⟩
  · cases h

/-- Two items and three experts: a choice of two experts for each. -/
example : ∀ s : Fin 2, ((fun s => if s = 0 then {0, 2} else {1, 2} : Fin 2 → Finset (Fin 3)) s).card = 2 := by
  intro s
  fin_cases s <;> rfl

/-- Three logits without ties, of which the last two are asked for. -/
example : Function.Injective (fun e : Fin 3 => (e : ℝ)) ∧
    Spec.Requests (fun (_ : Fin 1) (e : Fin 3) => (e : ℝ)) 2 0 1 ∧ ¬ Spec.Requests (fun (_ : Fin 1) (e : Fin 3) => (e : ℝ)) 2 0 0 := by
  have h : ∀ e : Fin 3, Spec.Requests (fun (_ : Fin 1) (e : Fin 3) => (e : ℝ)) 2 0 e ↔ e ∈ ({1, 2} : Finset (Fin 3)) := by
    intro e
    refine requests_of_separated (fun (_ : Fin 1) (e : Fin 3) => (e : ℝ)) 0 {1, 2} ?_ e
    intro a ha b hb
    fin_cases a <;> fin_cases b <;> simp at ha hb ⊢
  refine ⟨fun a b h => Fin.ext (Nat.cast_injective h), (h 1).2 (by decide), fun h0 => ?_⟩
  exact absurd ((h 0).1 h0) (by decide)

/-- Logits to compare: raising the first of three, lowering the second. -/
example : let l : Fin 1 → Fin 3 → ℝ := fun _ e => if e = 0 then 1 else 5
    let l' : Fin 1 → Fin 3 → ℝ := fun _ e => if e = 0 then 2 else if e = 1 then 4 else 5
    l 0 0 ≤ l' 0 0 ∧ (∀ x, x ≠ 0 → l' 0 x ≤ l 0 x) ∧ l 0 0 ≤ l 0 2 := by
  intro l l'
  refine ⟨by simp [l, l'], ?_, by simp [l]⟩
  intro x hx
  fin_cases x <;> simp [l, l'] at hx ⊢
  norm_num

/-- A router of zeros, with noise. -/
example : let cfg : RouterConfig := ⟨1, 2, 0, 0, 1, ⟨"einsum", false, none, some 1, "ceil", none, false⟩, false⟩
    let x : Fin 1 → Fin 4 → Fin 1 → ℝ := fun _ s _ => s
    (∃ gates m, gatesAndMetrics normCdf cfg (fun (_ : Fin 1) (_ : Fin 2) => 0) (fun _ s e => s + e) x = .ok (gates, m)) ∧
    ∀ (s : Fin 4) (e e' : Fin 2), ∑ i, x 0 s i * (fun (_ : Fin 1) (_ : Fin 2) => (0 : ℝ)) i e =
      ∑ i, x 0 s i * (fun (_ : Fin 1) (_ : Fin 2) => (0 : ℝ)) i e' := by
  intro cfg x
  refine ⟨?_, fun s e e' => rfl⟩
  unfold gatesAndMetrics
  rw [dif_pos (by decide), if_neg (by simp [cfg])]
  exact ⟨_, _, rfl⟩

end Verif.LoadNoise
