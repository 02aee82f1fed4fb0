import Verif.Model.AuxLoss
import Verif.Proofs.Sorting
import Mathlib.Algebra.Order.Chebyshev
import Mathlib.Tactic.FieldSimp
import Mathlib.Algebra.BigOperators.Field
import Mathlib.Tactic.Positivity
import Mathlib.Tactic.Linarith

/-! Helper lemmas about the squared coefficient of variation. -/

namespace Verif.Aux

open Verif

variable {S E : Nat}

theorem mean_sq_nonneg (x : Fin E → ℝ) (c : ℝ) : 0 ≤ mean (fun e => (x e - c) ^ 2) := by
  unfold mean; positivity

theorem cv_sq (x : Fin E → ℝ) : (std x / mean x) ^ 2 = mean (fun e => (x e - mean x) ^ 2) / mean x ^ 2 := by
  unfold std
  rw [div_pow, Real.sq_sqrt (mean_sq_nonneg x _)]

theorem variance_eq (hE : 0 < E) (x : Fin E → ℝ) :
    mean (fun e => (x e - mean x) ^ 2) = mean (fun e => x e ^ 2) - mean x ^ 2 := by
  have hE' : (E : ℝ) ≠ 0 := by positivity
  have h1 : ∀ c : ℝ, ∑ e, (x e - c) ^ 2 = ∑ e, x e ^ 2 - 2 * c * ∑ e, x e + E * c ^ 2 := by
    intro c
    have : ∀ e, (x e - c) ^ 2 = x e ^ 2 - 2 * c * x e + c ^ 2 := fun e => by ring
    simp only [this, Finset.sum_add_distrib, Finset.sum_sub_distrib, Finset.mul_sum, Finset.sum_const,
      Finset.card_univ, Fintype.card_fin, nsmul_eq_mul]
  unfold mean
  rw [h1]
  field_simp
  ring

theorem cv_nonneg (x : Fin E → ℝ) : 0 ≤ (std x / mean x) ^ 2 := sq_nonneg _

theorem cv_zero_iff (hE : 0 < E) (x : Fin E → ℝ) (hx : ∑ e, x e ≠ 0) :
    (std x / mean x) ^ 2 = 0 ↔ ∀ e e', x e = x e' := by
  have hE' : (E : ℝ) ≠ 0 := by positivity
  have hm : mean x ≠ 0 := by unfold mean; exact div_ne_zero hx hE'
  rw [cv_sq, div_eq_zero_iff, or_iff_left (pow_ne_zero 2 hm)]
  unfold mean
  rw [div_eq_zero_iff, or_iff_left hE', Finset.sum_eq_zero_iff_of_nonneg (fun e _ => sq_nonneg _)]
  constructor
  · intro h e e'
    have h1 := pow_eq_zero_iff (two_ne_zero) |>.1 (h e (Finset.mem_univ _))
    have h2 := pow_eq_zero_iff (two_ne_zero) |>.1 (h e' (Finset.mem_univ _))
    linarith
  · intro h e _
    have : ∑ e', x e' = E * x e := by
      rw [Finset.sum_congr rfl (fun e' _ => h e' e)]
      simp
    rw [this]
    field_simp
    ring

theorem cv_scale (x : Fin E → ℝ) (c : ℝ) (hc : c ≠ 0) :
    (std (fun e => c * x e) / mean (fun e => c * x e)) ^ 2 = (std x / mean x) ^ 2 := by
  have h1 : mean (fun e => c * x e) = c * mean x := by
    unfold mean; rw [← Finset.mul_sum]; ring
  rw [cv_sq, cv_sq, h1]
  have h2 : ∀ μ : ℝ, mean (fun e => (c * x e - c * μ) ^ 2) = c ^ 2 * mean (fun e => (x e - μ) ^ 2) := by
    intro μ
    unfold mean
    rw [← mul_div_assoc, Finset.mul_sum]
    congr 1
    apply Finset.sum_congr rfl
    intros
    ring
  rw [h2, mul_pow, mul_div_mul_left _ _ (pow_ne_zero 2 hc)]

theorem cv_le (hE : 0 < E) (x : Fin E → ℝ) (h0 : ∀ e, 0 ≤ x e) (hx : 0 < ∑ e, x e) :
    (std x / mean x) ^ 2 ≤ E - 1 := by
  have hE' : (0 : ℝ) < E := by positivity
  have hm : 0 < mean x := by unfold mean; positivity
  rw [cv_sq, variance_eq hE, div_le_iff₀ (by positivity)]
  have h1 : ∑ e, x e ^ 2 ≤ (∑ e, x e) ^ 2 := Finset.sum_sq_le_sq_sum_of_nonneg (fun e _ => h0 e)
  have h2 : mean (fun e => x e ^ 2) ≤ E * mean x ^ 2 := by
    unfold mean
    rw [div_pow, mul_div_assoc', div_le_div_iff₀ hE' (by positivity)]
    nlinarith [mul_le_mul_of_nonneg_right h1 (by positivity : (0 : ℝ) ≤ (E : ℝ) ^ 2)]
  linarith

theorem mean_add (x y : Fin E → ℝ) : mean (fun e => x e + y e) = mean x + mean y := by
  unfold mean; rw [Finset.sum_add_distrib, add_div]

end Verif.Aux
