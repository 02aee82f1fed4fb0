import Verif.Model.Contrastive
import Verif.Spec.Contrastive
import Mathlib.Algebra.Order.BigOperators.Ring.Finset
import Mathlib.Algebra.BigOperators.Field

namespace Verif.Contrastive

open Verif ContrastiveSpec

variable {M N D : Nat}

theorem pairLoss_true (l : ℝ) : pairLoss true l = Real.log (1 + Real.exp (-l)) := by
  have h := Real.exp_pos l
  have h' : (0 : ℝ) < 1 + Real.exp l := by linarith
  unfold pairLoss yes
  rw [if_pos rfl, ← Real.log_inv, inv_div]
  congr 1
  rw [Real.exp_neg]
  field_simp
  ring

theorem pairLoss_false (l : ℝ) : pairLoss false l = Real.log (1 + Real.exp l) := by
  have h := Real.exp_pos l
  have h' : (0 : ℝ) < 1 + Real.exp l := by linarith
  unfold pairLoss yes
  rw [if_neg (by simp), ← Real.log_inv]
  congr 1
  rw [eq_comm]
  field_simp
  ring

theorem pairLoss_eq (i j : Nat) (l : ℝ) : -logSigmoid (l * signs i j) = pairLoss (decide (i = j)) l := by
  unfold logSigmoid signs
  by_cases h : i = j
  · rw [if_pos h, decide_eq_true h, pairLoss_true]
    norm_num
  · rw [if_neg h, decide_eq_false h, pairLoss_false]
    norm_num

theorem pairLoss_pos (t : Bool) (l : ℝ) : 0 < pairLoss t l := by
  cases t
  · rw [pairLoss_false]
    exact Real.log_pos (by have := Real.exp_pos l; linarith)
  · rw [pairLoss_true]
    exact Real.log_pos (by have := Real.exp_pos (-l); linarith)

theorem sigmoidLoss_ok (x : NdArray ℝ) (lead : List Nat) (n : Nat) (h : x.shape = lead ++ [n, n]) :
    ∃ y, sigmoidLoss x = .ok y ∧ y.shape = lead ++ [n] ∧
      ∀ i r, y.get (i ++ [r]) = ∑ k ∈ Finset.range n, pairLoss (decide (r = k)) (x.get (i ++ [r, k])) := by
  unfold sigmoidLoss
  have hr : x.shape.reverse = n :: n :: lead.reverse := by simp [h]
  rw [hr]
  simp only [ne_eq, not_true_eq_false, if_false]
  refine ⟨_, rfl, ?_, ?_⟩
  · simp [h]
  · intro i r
    simp only [List.append_assoc, List.singleton_append, List.getLast?_append, List.getLast?_singleton, Option.some_or,
      Option.getD_some]
    rw [← Finset.sum_neg_distrib]
    apply Finset.sum_congr rfl
    intro k _
    exact pairLoss_eq r k _

theorem sum_sq_normalize (z : Fin D → ℝ) : ∑ d, normalize z d ^ 2 < 1 := by
  unfold normalize
  set q := ∑ d, z d ^ 2 with hq
  have hq0 : 0 ≤ q := Finset.sum_nonneg fun d _ => sq_nonneg _
  have hs := Real.sqrt_nonneg q
  have hpos : (0 : ℝ) < Real.sqrt q + 1e-8 := by norm_num; linarith
  simp only [div_pow]
  rw [← Finset.sum_div, ← hq, div_lt_one (by positivity)]
  have : q = Real.sqrt q ^ 2 := (Real.sq_sqrt hq0).symm
  nlinarith

theorem norm_normalize (z : Fin D → ℝ) : length2 (normalize z) = length2 z / (length2 z + 1e-8) := by
  unfold length2 normalize
  have hs := Real.sqrt_nonneg (∑ d, z d ^ 2)
  have hpos : (0 : ℝ) < Real.sqrt (∑ d, z d ^ 2) + 1e-8 := by norm_num; linarith
  simp only [div_pow]
  rw [← Finset.sum_div, Real.sqrt_div (Finset.sum_nonneg fun d _ => sq_nonneg _), Real.sqrt_sq hpos.le]

theorem dot_lt_one (x y : Fin D → ℝ) (hx : ∑ d, x d ^ 2 < 1) (hy : ∑ d, y d ^ 2 < 1) : |∑ d, x d * y d| < 1 := by
  have h := Finset.sum_mul_sq_le_sq_mul_sq Finset.univ x y
  have hx0 : 0 ≤ ∑ d, x d ^ 2 := Finset.sum_nonneg fun d _ => sq_nonneg _
  have hy0 : 0 ≤ ∑ d, y d ^ 2 := Finset.sum_nonneg fun d _ => sq_nonneg _
  rw [← sq_lt_one_iff_abs_lt_one]
  nlinarith

end Verif.Contrastive
