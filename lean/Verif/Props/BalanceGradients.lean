import Mathlib.Analysis.Calculus.Deriv.Inv
import Mathlib.Analysis.Calculus.Deriv.Pow
import Mathlib.Analysis.SpecialFunctions.ExpDeriv
import Verif.Props.MoeBlock
import Verif.Props.SoftMoe

/-! C147: the gradients of the balance losses (vmoe/nn/routing.py:79-114, 132-183). -/

namespace Verif.Aux

open Verif Filter Topology

variable {S E : Nat}

/-- The derivative of a softmax along a direction. -/
theorem hasDerivAt_softmax (l d : Fin E → ℝ) (e : Fin E) :
    HasDerivAt (fun t : ℝ => Soft.softmax (fun e => l e + t * d e) e)
      (Soft.softmax l e * (d e - ∑ x, Soft.softmax l x * d x)) 0 := by
  have hx : ∀ x : Fin E, HasDerivAt (fun t : ℝ => Real.exp (l x + t * d x)) (Real.exp (l x) * d x) 0 := by
    intro x
    have h1 : HasDerivAt (fun t : ℝ => l x + t * d x) (d x) 0 := by
      simpa using ((hasDerivAt_id (0 : ℝ)).mul_const (d x)).const_add (l x)
    simpa using h1.exp
  have hs : HasDerivAt (fun t : ℝ => ∑ x, Real.exp (l x + t * d x)) (∑ x, Real.exp (l x) * d x) 0 :=
    HasDerivAt.fun_sum fun x _ => hx x
  have hpos : 0 < ∑ x, Real.exp (l x) := Finset.sum_pos (fun _ _ => Real.exp_pos _) ⟨e, Finset.mem_univ e⟩
  have h := (hx e).div hs (by simpa using hpos.ne')
  unfold Soft.softmax
  refine h.congr_deriv ?_
  simp only [zero_mul, add_zero]
  have : ∑ x, Real.exp (l x) / (∑ j, Real.exp (l j)) * d x = (∑ x, Real.exp (l x) * d x) / ∑ j, Real.exp (l j) := by
    rw [Finset.sum_div]
    exact Finset.sum_congr rfl fun x _ => by ring
  rw [this]
  field_simp

/-- Weighting the change of a softmax. -/
theorem softmax_adjoint (g d f : Fin E → ℝ) :
    ∑ e, f e * (g e * (d e - ∑ x, g x * d x)) = ∑ e, g e * (f e - ∑ x, g x * f x) * d e := by
  have h1 : ∑ e, f e * (g e * (d e - ∑ x, g x * d x)) = ∑ e, g e * f e * d e - (∑ e, g e * f e) * ∑ x, g x * d x := by
    rw [Finset.sum_mul, ← Finset.sum_sub_distrib]
    exact Finset.sum_congr rfl fun e _ => by ring
  have h2 : ∑ e, g e * (f e - ∑ x, g x * f x) * d e = ∑ e, g e * f e * d e - (∑ e, g e * f e) * ∑ x, g x * d x := by
    rw [Finset.mul_sum, ← Finset.sum_sub_distrib]
    exact Finset.sum_congr rfl fun e _ => by ring
  rw [h1, h2]

/-- The fraction of the items that prefer expert `e` to all others. -/
noncomputable def firstShare (l : Fin S → Fin E → ℝ) (e : Fin E) : ℝ :=
  ((Finset.univ.filter fun s => ∀ e', e' ≠ e → l s e' < l s e).card : ℝ) / S

/-- The total of the gates of expert `e`. -/
noncomputable def importance (l : Fin S → Fin E → ℝ) (e : Fin E) : ℝ := ∑ s, Soft.softmax (l s) e

/-- Every item prefers one expert to all others. -/
def ClearFirst (l : Fin S → Fin E → ℝ) : Prop := ∀ s, ∃ e, ∀ e', e' ≠ e → l s e' < l s e

theorem softmax_lt_iff (l : Fin E → ℝ) (a b : Fin E) : Soft.softmax l a < Soft.softmax l b ↔ l a < l b := by
  unfold Soft.softmax
  rw [div_lt_div_iff_of_pos_right (Finset.sum_pos (fun _ _ => Real.exp_pos _) ⟨a, Finset.mem_univ a⟩), Real.exp_lt_exp]

theorem first_iff {l : Fin S → Fin E → ℝ} (h : ClearFirst l) (s : Fin S) (e : Fin E) :
    ((∀ e', Soft.softmax (l s) e' ≤ Soft.softmax (l s) e) ∧ ∀ e' < e, Soft.softmax (l s) e' < Soft.softmax (l s) e) ↔
      ∀ e', e' ≠ e → l s e' < l s e := by
  have hle : ∀ a b, Soft.softmax (l s) a ≤ Soft.softmax (l s) b ↔ l s a ≤ l s b := by
    intro a b
    rw [← not_lt, ← not_lt, softmax_lt_iff]
  simp only [hle, softmax_lt_iff]
  constructor
  · rintro ⟨h1, _⟩ e' he
    obtain ⟨m, hm⟩ := h s
    by_cases hme : e = m
    · exact hme ▸ hm e' (hme ▸ he)
    · exact absurd (h1 m) (not_le.2 (hm e hme))
  · intro h1
    refine ⟨fun e' => ?_, fun e' he => h1 e' he.ne⟩
    by_cases he : e' = e
    · rw [he]
    · exact (h1 e' he).le

/-- The GShard loss, where every item has a clear first choice. -/
theorem gshard_clear {l : Fin S → Fin E → ℝ} (h : ClearFirst l) (hE : 0 < E) :
    gshardLoss hE (fun s => Soft.softmax (l s)) = E * ∑ e, firstShare l e * (importance l e / S) := by
  rw [C16_gshard_value]
  simp only [first_iff h]
  rfl

/-- Clear first choices do not change under small changes of the logits. -/
theorem clear_near {l d : Fin S → Fin E → ℝ} (h : ClearFirst l) :
    ∀ᶠ t in 𝓝 (0 : ℝ), ClearFirst (fun s e => l s e + t * d s e) ∧
      ∀ e, firstShare (fun s e => l s e + t * d s e) e = firstShare l e := by
  choose m hm using h
  have h1 : ∀ᶠ t in 𝓝 (0 : ℝ), ∀ s e', e' ≠ m s → l s e' + t * d s e' < l s (m s) + t * d s (m s) := by
    rw [eventually_all]
    intro s
    rw [eventually_all]
    intro e'
    by_cases he : e' = m s
    · simp [he]
    · have hc : ∀ e, Tendsto (fun t : ℝ => l s e + t * d s e) (𝓝 0) (𝓝 (l s e)) := by
        intro e
        have : Tendsto (fun t : ℝ => l s e + t * d s e) (𝓝 0) (𝓝 (l s e + 0 * d s e)) :=
          tendsto_const_nhds.add (tendsto_id.mul_const _)
        simpa using this
      filter_upwards [(hc e').eventually_lt (hc (m s)) (hm s e' he)] with t ht _
      exact ht
  have hfirst : ∀ {u : Fin S → Fin E → ℝ}, (∀ s e', e' ≠ m s → u s e' < u s (m s)) →
      ∀ s e, (∀ e', e' ≠ e → u s e' < u s e) ↔ m s = e := by
    intro u hu s e
    constructor
    · intro h'
      by_contra hn
      exact lt_asymm (h' (m s) hn) (hu s e (Ne.symm hn))
    · rintro rfl
      exact hu s
  filter_upwards [h1] with t ht
  refine ⟨fun s => ⟨m s, ht s⟩, fun e => ?_⟩
  unfold firstShare
  simp only [hfirst ht, hfirst hm]

theorem hasDerivAt_importance (l d : Fin S → Fin E → ℝ) (e : Fin E) :
    HasDerivAt (fun t : ℝ => importance (fun s e => l s e + t * d s e) e)
      (∑ s, Soft.softmax (l s) e * (d s e - ∑ x, Soft.softmax (l s) x * d s x)) 0 :=
  HasDerivAt.fun_sum fun s _ => hasDerivAt_softmax (l s) (d s) e

theorem sum_adjoint (g d : Fin S → Fin E → ℝ) (f : Fin E → ℝ) :
    ∑ e, f e * ∑ s, g s e * (d s e - ∑ x, g s x * d s x) = ∑ s, ∑ e, g s e * (f e - ∑ x, g s x * f x) * d s e := by
  simp only [← softmax_adjoint]
  simp only [Finset.mul_sum]
  rw [Finset.sum_comm]

/-- C147: where every item has a clear first choice, the GShard loss is differentiable in the logits, and the derivative by
the logit of item `s` for expert `e` is `E / S * gate * (share e - average share under the gates of the item)`: the counts
of the first choices act as constants. -/
theorem C147_gshard (l d : Fin S → Fin E → ℝ) (h : ClearFirst l) (hE : 0 < E) :
    HasDerivAt (fun t : ℝ => gshardLoss hE fun s => Soft.softmax fun e => l s e + t * d s e)
      (∑ s, ∑ e, E / S * (Soft.softmax (l s) e * (firstShare l e - ∑ x, Soft.softmax (l s) x * firstShare l x)) * d s e) 0 := by
  have h1 : HasDerivAt (fun t : ℝ => (E : ℝ) * ∑ e, firstShare l e * (importance (fun s e => l s e + t * d s e) e / S))
      (E * ∑ e, firstShare l e * ((∑ s, Soft.softmax (l s) e * (d s e - ∑ x, Soft.softmax (l s) x * d s x)) / S)) 0 :=
    (HasDerivAt.fun_sum fun e _ => ((hasDerivAt_importance l d e).div_const _).const_mul _).const_mul _
  have h2 := h1.congr_of_eventuallyEq (f₁ := fun t : ℝ => gshardLoss hE fun s => Soft.softmax fun e => l s e + t * d s e) (by
    filter_upwards [clear_near (d := d) h] with t ht
    rw [gshard_clear ht.1 hE]
    simp only [ht.2])
  refine h2.congr_deriv ?_
  have h3 := sum_adjoint (fun s => Soft.softmax (l s)) d (firstShare l)
  have h4 : (E : ℝ) * ∑ e, firstShare l e * ((∑ s, Soft.softmax (l s) e * (d s e - ∑ x, Soft.softmax (l s) x * d s x)) / S) =
      E / S * ∑ e, firstShare l e * ∑ s, Soft.softmax (l s) e * (d s e - ∑ x, Soft.softmax (l s) x * d s x) := by
    rw [Finset.mul_sum, Finset.mul_sum]
    exact Finset.sum_congr rfl fun e _ => by ring
  rw [h4, h3, Finset.mul_sum]
  refine Finset.sum_congr rfl fun s _ => ?_
  rw [Finset.mul_sum]
  exact Finset.sum_congr rfl fun e _ => by ring

theorem importance_total (l : Fin S → Fin E → ℝ) (hE : 0 < E) : ∑ e, importance l e = S := by
  have : Nonempty (Fin E) := ⟨⟨0, hE⟩⟩
  unfold importance
  rw [Finset.sum_comm]
  simp [Soft.softmax_sum]

/-- C147: the importance loss is differentiable in the logits everywhere, and the derivative by the logit of item `s` for
expert `e` is `2 E / S² * gate * (importance of e - average importance under the gates of the item)`. -/
theorem C147_importance (l d : Fin S → Fin E → ℝ) (hE : 0 < E) (hS : 0 < S) :
    HasDerivAt (fun t : ℝ => importanceLoss fun s => Soft.softmax fun e => l s e + t * d s e)
      (∑ s, ∑ e, 2 * E / S ^ 2 *
        (Soft.softmax (l s) e * (importance l e - ∑ x, Soft.softmax (l s) x * importance l x)) * d s e) 0 := by
  have hS' : (0 : ℝ) < S := by exact_mod_cast hS
  have hval : ∀ l : Fin S → Fin E → ℝ, importanceLoss (fun s => Soft.softmax (l s)) =
      E * (∑ e, importance l e ^ 2) / S ^ 2 - 1 := by
    intro l
    have ht : ∑ e, ∑ s, Soft.softmax (l s) e = S := importance_total l hE
    rw [C16_closed_form (fun s => Soft.softmax (l s)) hE (by rw [ht]; exact hS'), ht]
    rfl
  have h1 : HasDerivAt (fun t : ℝ => (E : ℝ) * (∑ e, importance (fun s e => l s e + t * d s e) e ^ 2) / S ^ 2 - 1)
      (E * (∑ e, 2 * importance l e * ∑ s, Soft.softmax (l s) e * (d s e - ∑ x, Soft.softmax (l s) x * d s x)) / S ^ 2) 0 := by
    refine ((HasDerivAt.const_mul (E : ℝ) (HasDerivAt.fun_sum fun e _ => ?_)).div_const _).sub_const _
    refine ((hasDerivAt_importance l d e).fun_pow 2).congr_deriv ?_
    simp
  have h2 : (fun t : ℝ => importanceLoss fun s => Soft.softmax fun e => l s e + t * d s e) =
      fun t : ℝ => (E : ℝ) * (∑ e, importance (fun s e => l s e + t * d s e) e ^ 2) / S ^ 2 - 1 := by
    funext t
    exact hval _
  rw [h2]
  refine h1.congr_deriv ?_
  have h3 := sum_adjoint (fun s => Soft.softmax (l s)) d (importance l)
  have h4 : (E : ℝ) * (∑ e, 2 * importance l e * ∑ s, Soft.softmax (l s) e * (d s e - ∑ x, Soft.softmax (l s) x * d s x)) / S ^ 2 =
      2 * E / S ^ 2 * ∑ e, importance l e * ∑ s, Soft.softmax (l s) e * (d s e - ∑ x, Soft.softmax (l s) x * d s x) := by
    rw [Finset.mul_sum, Finset.mul_sum, Finset.sum_div]
    exact Finset.sum_congr rfl fun e _ => by ring
  rw [h4, h3, Finset.mul_sum]
  refine Finset.sum_congr rfl fun s _ => ?_
  rw [Finset.mul_sum]
  exact Finset.sum_congr rfl fun e _ => by ring

/-- The sign of the part of both gradients that depends on the loads `f`. -/
theorem gradient_sign (l : Fin E → ℝ) (f : Fin E → ℝ) (e : Fin E) :
    ((∀ x, f x ≤ f e) → 0 ≤ Soft.softmax l e * (f e - ∑ x, Soft.softmax l x * f x)) ∧
    ((∀ x, f x ≤ f e) → (∃ x, f x < f e) → 0 < Soft.softmax l e * (f e - ∑ x, Soft.softmax l x * f x)) ∧
    ((∀ x, f e ≤ f x) → Soft.softmax l e * (f e - ∑ x, Soft.softmax l x * f x) ≤ 0) ∧
    ((∀ x, f e ≤ f x) → (∃ x, f e < f x) → Soft.softmax l e * (f e - ∑ x, Soft.softmax l x * f x) < 0) ∧
    ∑ y, Soft.softmax l y * (f y - ∑ x, Soft.softmax l x * f x) = 0 := by
  have : Nonempty (Fin E) := ⟨e⟩
  have hp := Soft.softmax_pos l
  have hs := Soft.softmax_sum l
  have hd : f e - ∑ x, Soft.softmax l x * f x = ∑ x, Soft.softmax l x * (f e - f x) := by
    simp only [mul_sub, Finset.sum_sub_distrib]
    rw [← Finset.sum_mul, hs, one_mul]
  refine ⟨fun h => ?_, fun h hx => ?_, fun h => ?_, fun h hx => ?_, ?_⟩
  · rw [hd]
    exact mul_nonneg (hp e).le (Finset.sum_nonneg fun x _ => mul_nonneg (hp x).le (sub_nonneg.2 (h x)))
  · rw [hd]
    obtain ⟨x, hx⟩ := hx
    exact mul_pos (hp e) (Finset.sum_pos' (fun x _ => mul_nonneg (hp x).le (sub_nonneg.2 (h x)))
      ⟨x, Finset.mem_univ x, mul_pos (hp x) (sub_pos.2 hx)⟩)
  · rw [hd]
    refine mul_nonpos_of_nonneg_of_nonpos (hp e).le (Finset.sum_nonpos fun x _ => ?_)
    exact mul_nonpos_of_nonneg_of_nonpos (hp x).le (sub_nonpos.2 (h x))
  · rw [hd]
    obtain ⟨x, hx⟩ := hx
    have : 0 < ∑ x, Soft.softmax l x * (f x - f e) :=
      Finset.sum_pos' (fun x _ => mul_nonneg (hp x).le (sub_nonneg.2 (h x))) ⟨x, Finset.mem_univ x, mul_pos (hp x) (sub_pos.2 hx)⟩
    have h2 : ∑ x, Soft.softmax l x * (f e - f x) = - ∑ x, Soft.softmax l x * (f x - f e) := by
      rw [← Finset.sum_neg_distrib]
      exact Finset.sum_congr rfl fun x _ => by ring
    rw [h2]
    have := mul_pos (hp e) this
    linarith
  · simp only [mul_sub, Finset.sum_sub_distrib]
    rw [← Finset.sum_mul, hs, one_mul, sub_self]

/-- The direction that raises the logit of item `s` for expert `e`. -/
def raise (s : Fin S) (e : Fin E) : Fin S → Fin E → ℝ := fun s' e' => if s' = s ∧ e' = e then 1 else 0

theorem sum_raise (g : Fin S → Fin E → ℝ) (s : Fin S) (e : Fin E) : ∑ s', ∑ e', g s' e' * raise s e s' e' = g s e := by
  rw [Finset.sum_eq_single s, Finset.sum_eq_single e]
  · simp [raise]
  · intro e' _ he
    simp [raise, he]
  · simp
  · intro s' _ hs
    simp [raise, hs]
  · simp

/-- C147: raising any item's logit for an expert with the largest share of first choices raises the GShard loss to first
order (strictly, unless the shares are equal), and for an expert with the smallest share lowers it. -/
theorem C147_gshard_push (l : Fin S → Fin E → ℝ) (h : ClearFirst l) (s : Fin S) (e : Fin E) (hE : 0 < E) :
    ∃ D, HasDerivAt (fun t : ℝ => gshardLoss hE fun s' => Soft.softmax fun e' => l s' e' + t * raise s e s' e') D 0 ∧
      ((∀ x, firstShare l x ≤ firstShare l e) → 0 ≤ D) ∧
      ((∀ x, firstShare l x ≤ firstShare l e) → (∃ x, firstShare l x < firstShare l e) → 0 < D) ∧
      ((∀ x, firstShare l e ≤ firstShare l x) → D ≤ 0) ∧
      ((∀ x, firstShare l e ≤ firstShare l x) → (∃ x, firstShare l e < firstShare l x) → D < 0) := by
  have hS : (0 : ℝ) < S := by
    have := s.pos
    exact_mod_cast this
  have hE' : (0 : ℝ) < E := by exact_mod_cast hE
  have hc : (0 : ℝ) < E / S := by positivity
  have hD := C147_gshard l (raise s e) h hE
  rw [sum_raise fun s e => E / S * (Soft.softmax (l s) e * (firstShare l e - ∑ x, Soft.softmax (l s) x * firstShare l x))] at hD
  obtain ⟨h1, h2, h3, h4, _⟩ := gradient_sign (l s) (firstShare l) e
  exact ⟨_, hD, fun h => mul_nonneg hc.le (h1 h), fun h h' => mul_pos hc (h2 h h'),
    fun h => mul_nonpos_of_nonneg_of_nonpos hc.le (h3 h), fun h h' => mul_neg_of_pos_of_neg hc (h4 h h')⟩

/-- C147: the same for the importance loss and the importance of the experts, for all logits. -/
theorem C147_importance_push (l : Fin S → Fin E → ℝ) (s : Fin S) (e : Fin E) :
    ∃ D, HasDerivAt (fun t : ℝ => importanceLoss fun s' => Soft.softmax fun e' => l s' e' + t * raise s e s' e') D 0 ∧
      ((∀ x, importance l x ≤ importance l e) → 0 ≤ D) ∧
      ((∀ x, importance l x ≤ importance l e) → (∃ x, importance l x < importance l e) → 0 < D) ∧
      ((∀ x, importance l e ≤ importance l x) → D ≤ 0) ∧
      ((∀ x, importance l e ≤ importance l x) → (∃ x, importance l e < importance l x) → D < 0) := by
  have hS : (0 : ℝ) < S := by
    have := s.pos
    exact_mod_cast this
  have hE' : (0 : ℝ) < E := by
    have := e.pos
    exact_mod_cast this
  have hc : (0 : ℝ) < 2 * E / S ^ 2 := by positivity
  have hD := C147_importance l (raise s e) e.pos s.pos
  rw [sum_raise fun s e => 2 * E / S ^ 2 * (Soft.softmax (l s) e * (importance l e - ∑ x, Soft.softmax (l s) x * importance l x))] at hD
  obtain ⟨h1, h2, h3, h4, _⟩ := gradient_sign (l s) (importance l) e
  exact ⟨_, hD, fun h => mul_nonneg hc.le (h1 h), fun h h' => mul_pos hc (h2 h h'),
    fun h => mul_nonpos_of_nonneg_of_nonpos hc.le (h3 h), fun h h' => mul_neg_of_pos_of_neg hc (h4 h h')⟩

/-- C147: neither gradient shifts the logits of an item as a whole. -/
theorem C147_no_shift (l : Fin S → Fin E → ℝ) (c : Fin S → ℝ) (hE : 0 < E) (t : ℝ) :
    gshardLoss hE (fun s => Soft.softmax fun e => l s e + t * c s) = gshardLoss hE (fun s => Soft.softmax (l s)) ∧
    importanceLoss (fun s => Soft.softmax fun e => l s e + t * c s) = importanceLoss (fun s => Soft.softmax (l s)) := by
  have h : ∀ s, (Soft.softmax fun e => l s e + t * c s) = Soft.softmax (l s) := by
    intro s
    funext e
    unfold Soft.softmax
    simp only [Real.exp_add]
    rw [← Finset.sum_mul, mul_div_mul_right _ _ (Real.exp_pos _).ne']
  simp only [h, and_self]

/-- C147, the router: the derivatives of its losses along a change `v` of its kernel, for the noise that it draws (if any).
The GShard loss is computed from the noisy logits, the importance loss from the clean ones. -/
theorem C147_router {G H : Nat} (cdf : ℝ → ℝ) (cfg : MoeBlock.RouterConfig) (kernel v : Fin H → Fin E → ℝ) (z : Nat → Nat → Nat → ℝ)
    (x : Fin G → Fin S → Fin H → ℝ) (gates : ℝ → Fin G → Fin S → Fin E → ℝ) (m : ℝ → MoeBlock.Metrics G)
    (hm : ∀ t, MoeBlock.gatesAndMetrics cdf cfg (fun i e => kernel i e + t * v i e) z x = .ok (gates t, m t)) (g : Fin G) (hS : 0 < S)
    (clean noisy : Fin S → Fin E → ℝ) (hc : ∀ s e, clean s e = ∑ i, x g s i * kernel i e)
    (hn : ∀ s e, noisy s e = clean s e + if cfg.deterministic then 0 else cfg.noiseStd / E * z g s e) :
    HasDerivAt (fun t => (m t).importanceLoss g) (∑ s, ∑ e, 2 * E / S ^ 2 * (Soft.softmax (clean s) e *
      (importance clean e - ∑ y, Soft.softmax (clean s) y * importance clean y)) * ∑ i, x g s i * v i e) 0 ∧
    (ClearFirst noisy → HasDerivAt (fun t => (m t).gshardLoss g) (∑ s, ∑ e, E / S * (Soft.softmax (noisy s) e *
      (firstShare noisy e - ∑ y, Soft.softmax (noisy s) y * firstShare noisy y)) * ∑ i, x g s i * v i e) 0) := by
  have hl : ∀ (t : ℝ) s e, ∑ i, x g s i * (kernel i e + t * v i e) = clean s e + t * ∑ i, x g s i * v i e := by
    intro t s e
    rw [hc, Finset.mul_sum, ← Finset.sum_add_distrib]
    exact Finset.sum_congr rfl fun i _ => by ring
  have hE : 0 < E := by
    have h := hm 0
    unfold MoeBlock.gatesAndMetrics at h
    split at h
    · rename_i hk
      exact Nat.lt_of_lt_of_le hk.2 hk.1
    · cases h
  have key : ∀ t, (m t).importanceLoss g = importanceLoss (fun s => Soft.softmax fun e => clean s e + t * ∑ i, x g s i * v i e) ∧
      (m t).gshardLoss g = gshardLoss hE (fun s => Soft.softmax fun e => noisy s e + t * ∑ i, x g s i * v i e) := by
    intro t
    have h := hm t
    unfold MoeBlock.gatesAndMetrics at h
    split at h
    · simp only at h
      split at h
      · rename_i hdet
        rw [← (Prod.mk.inj (Except.ok.inj h)).2]
        have hz : ∀ s e, noisy s e = clean s e := by
          intro s e
          rw [hn]
          rcases hdet with h | h
          · simp [h]
          · simp [h]
        simp only [hz]
        unfold MoeBlock.gateLogits
        simp only [hl, and_self]
      · rename_i hdet
        rw [← (Prod.mk.inj (Except.ok.inj h)).2]
        have hd : cfg.deterministic = false := by
          by_contra h
          exact hdet (Or.inl (by simpa using h))
        simp only [hn, hd]
        unfold MoeBlock.gateLogits
        simp only [hl]
        refine ⟨trivial, ?_⟩
        congr 1
        funext s
        congr 1
        funext e
        simp only [Bool.false_eq_true, if_false]
        ring
    · cases h
  constructor
  · simp only [fun t => (key t).1]
    exact C147_importance clean (fun s e => ∑ i, x g s i * v i e) hE hS
  · intro hcl
    simp only [fun t => (key t).2]
    exact C147_gshard noisy (fun s e => ∑ i, x g s i * v i e) hcl hE

/-- Three items with clear first choices, two of them for the first expert, which has the largest share. -/
example : let l : Fin 3 → Fin 2 → ℝ := fun s e => if (s.1 < 2) = (e = 0) then 1 else 0
    ClearFirst l ∧ firstShare l 1 < firstShare l 0 := by
  intro l
  have h0 : Finset.univ.filter (fun s : Fin 3 => ∀ e' : Fin 2, e' ≠ 0 → l s e' < l s 0) = {0, 1} := by
    ext s
    fin_cases s <;> simp [l, Fin.forall_fin_two]
  have h1 : Finset.univ.filter (fun s : Fin 3 => ∀ e' : Fin 2, e' ≠ 1 → l s e' < l s 1) = {2} := by
    ext s
    fin_cases s <;> simp [l, Fin.forall_fin_two]
  constructor
  · intro s
    fin_cases s
    · exact ⟨0, by simp [l, Fin.forall_fin_two]⟩
    · exact ⟨0, by simp [l, Fin.forall_fin_two]⟩
    · exact ⟨1, by simp [l, Fin.forall_fin_two]⟩
  · unfold firstShare
    rw [h0, h1]
    norm_num

/-- A router that runs for every change of its kernel, with a clear first choice of its item. -/
example : let cfg : MoeBlock.RouterConfig := ⟨1, 2, 0, 0, 1, ⟨"einsum", false, none, some 1, "ceil", none, false⟩, false⟩
    let kernel : Fin 1 → Fin 2 → ℝ := fun _ e => e
    let z : Nat → Nat → Nat → ℝ := fun _ _ e => e
    let x : Fin 1 → Fin 1 → Fin 1 → ℝ := fun _ _ _ => 2
    (∀ (v : Fin 1 → Fin 2 → ℝ) (cdf : ℝ → ℝ), ∃ (gates : ℝ → Fin 1 → Fin 1 → Fin 2 → ℝ) (m : ℝ → MoeBlock.Metrics 1), ∀ t : ℝ,
      MoeBlock.gatesAndMetrics cdf cfg (fun i e => kernel i e + t * v i e) z x = .ok (gates t, m t)) ∧
    ClearFirst (fun (s : Fin 1) (e : Fin 2) => ∑ i, x 0 s i * kernel i e + cfg.noiseStd / (2 : ℕ) * z 0 s e) := by
  intro cfg kernel z x
  constructor
  · intro v cdf
    have : ∀ t : ℝ, ∃ p : (Fin 1 → Fin 1 → Fin 2 → ℝ) × MoeBlock.Metrics 1,
        MoeBlock.gatesAndMetrics cdf cfg (fun i e => kernel i e + t * v i e) z x = .ok p := by
      intro t
      unfold MoeBlock.gatesAndMetrics
      rw [dif_pos (by decide), if_neg (by simp [cfg])]
      exact ⟨_, rfl⟩
    choose p hp using this
    exact ⟨fun t => (p t).1, fun t => (p t).2, hp⟩
  · intro s
    refine ⟨1, fun e' he => ?_⟩
    fin_cases e'
    · simp [x, kernel, z, cfg]
      norm_num
    · exact absurd rfl he

end Verif.Aux
