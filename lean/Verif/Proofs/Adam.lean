import Verif.Model.Adam
import Verif.Spec.Adam
import Mathlib.Algebra.Order.BigOperators.Ring.Finset
import Mathlib.Algebra.Order.Ring.GeomSum

/-! Exponentially weighted means, and the transformation `scale_by_adam`. -/

namespace Verif.Adam

open Verif FlatDict Partitioning Optimizer AdamSpec TreeSpec RulesSpec

theorem fading_nil (b : ℝ) : fading b [] = 0 := by simp [fading]

theorem fading_append (b : ℝ) (xs : List ℝ) (x : ℝ) : fading b (xs ++ [x]) = b * fading b xs + x := by
  unfold fading
  rw [List.length_append, List.length_singleton, Finset.sum_range_succ, Finset.mul_sum]
  congr 1
  · refine Finset.sum_congr rfl fun j hj => ?_
    have hj := Finset.mem_range.1 hj
    rw [List.getD_append _ _ _ _ hj, show xs.length + 1 - 1 - j = xs.length - 1 - j + 1 by omega, pow_succ]
    ring
  · rw [List.getD_append_right _ _ _ _ le_rfl]
    simp

theorem weights_sum (b : ℝ) (hb : b ≠ 1) (n : Nat) : ∑ j ∈ Finset.range n, b ^ j = (1 - b ^ n) / (1 - b) := by
  rw [eq_div_iff (sub_ne_zero.2 hb.symm), mul_comm]
  exact mul_neg_geom_sum b n

/-- The moment with the correction is the mean. -/
theorem corrected (b : ℝ) (hb : b ≠ 1) (xs : List ℝ) :
    (1 - b) * fading b xs / (1 - b ^ xs.length) = ewma b xs := by
  unfold ewma
  rw [weights_sum b hb]
  have : (1 - b) ≠ 0 := sub_ne_zero.2 hb.symm
  rw [div_div_eq_mul_div, mul_comm]

theorem fading_flip (b : ℝ) (xs : List ℝ) :
    fading b xs = ∑ k ∈ Finset.range xs.length, b ^ k * xs.getD (xs.length - 1 - k) 0 := by
  unfold fading
  rw [← Finset.sum_range_reflect]
  refine Finset.sum_congr rfl fun j hj => ?_
  have hj := Finset.mem_range.1 hj
  rw [show xs.length - 1 - (xs.length - 1 - j) = j by omega]

theorem ewma_nonneg (b : ℝ) (hb : 0 ≤ b) (xs : List ℝ) (h : ∀ x ∈ xs, 0 ≤ x) : 0 ≤ ewma b xs := by
  unfold ewma fading
  refine div_nonneg (Finset.sum_nonneg fun j hj => mul_nonneg (pow_nonneg hb _) ?_) (Finset.sum_nonneg fun j _ => pow_nonneg hb _)
  rw [List.getD_eq_getElem _ _ (Finset.mem_range.1 hj)]
  exact h _ (List.getElem_mem _)

theorem getD_sq (xs : List ℝ) (j : Nat) : (xs.map (· ^ 2)).getD j 0 = xs.getD j 0 ^ 2 := by
  rw [List.getD_eq_getElem?_getD, List.getD_eq_getElem?_getD, List.getElem?_map]
  cases xs[j]? <;> simp

/-- The square of a mean is at most the mean of the squares. -/
theorem ewma_sq_le (b : ℝ) (hb : 0 ≤ b) (xs : List ℝ) : ewma b xs ^ 2 ≤ ewma b (xs.map (· ^ 2)) := by
  unfold ewma fading
  rw [List.length_map]
  set n := xs.length
  have hW : 0 ≤ ∑ j ∈ Finset.range n, b ^ j := Finset.sum_nonneg fun j _ => pow_nonneg hb _
  have hw : ∑ j ∈ Finset.range n, b ^ j = ∑ j ∈ Finset.range n, Real.sqrt (b ^ (n - 1 - j)) ^ 2 := by
    rw [← Finset.sum_range_reflect]
    exact Finset.sum_congr rfl fun j _ => (Real.sq_sqrt (pow_nonneg hb _)).symm
  have h := Finset.sum_mul_sq_le_sq_mul_sq (Finset.range n) (fun j => Real.sqrt (b ^ (n - 1 - j)))
    (fun j => Real.sqrt (b ^ (n - 1 - j)) * xs.getD j 0)
  rw [← hw] at h
  have e1 : ∀ j, Real.sqrt (b ^ (n - 1 - j)) * (Real.sqrt (b ^ (n - 1 - j)) * xs.getD j 0) = b ^ (n - 1 - j) * xs.getD j 0 := by
    intro j
    rw [← mul_assoc, Real.mul_self_sqrt (pow_nonneg hb _)]
  have e2 : ∀ j, (Real.sqrt (b ^ (n - 1 - j)) * xs.getD j 0) ^ 2 = b ^ (n - 1 - j) * (xs.map (· ^ 2)).getD j 0 := by
    intro j
    rw [mul_pow, Real.sq_sqrt (pow_nonneg hb _), getD_sq]
  simp only [e1, e2] at h
  rcases hW.eq_or_lt with h0 | h0
  · rw [← h0]
    simp
  · rw [div_pow, div_le_div_iff₀ (pow_pos h0 2) h0]
    nlinarith [h]

theorem ewma_le (b1 b2 : ℝ) (h0 : 0 ≤ b1) (h12 : b1 ≤ b2) (h2 : b2 < 1) (xs : List ℝ) (hx : ∀ x ∈ xs, 0 ≤ x) :
    ewma b1 xs ≤ (1 - b1) / (1 - b2) * ewma b2 xs := by
  unfold ewma
  rw [weights_sum b1 (by linarith), weights_sum b2 (by linarith)]
  unfold fading
  rcases Nat.eq_zero_or_pos xs.length with hz | hn
  · rw [hz]; simp
  have p1 : 0 < 1 - b1 := by linarith
  have p2 : 0 < 1 - b2 := by linarith
  have q2 : 0 < 1 - b2 ^ xs.length := by
    have := pow_lt_one₀ (by linarith : 0 ≤ b2) h2 hn.ne'
    linarith
  have q12 : 1 - b2 ^ xs.length ≤ 1 - b1 ^ xs.length := by
    have := pow_le_pow_left₀ h0 h12 xs.length
    linarith
  have hS : (∑ j ∈ Finset.range xs.length, b1 ^ (xs.length - 1 - j) * xs.getD j 0) ≤
      ∑ j ∈ Finset.range xs.length, b2 ^ (xs.length - 1 - j) * xs.getD j 0 := by
    refine Finset.sum_le_sum fun j hj => mul_le_mul_of_nonneg_right (pow_le_pow_left₀ h0 h12 _) ?_
    rw [List.getD_eq_getElem _ _ (Finset.mem_range.1 hj)]
    exact hx _ (List.getElem_mem _)
  have hS2 : 0 ≤ ∑ j ∈ Finset.range xs.length, b2 ^ (xs.length - 1 - j) * xs.getD j 0 := by
    refine Finset.sum_nonneg fun j hj => mul_nonneg (pow_nonneg (by linarith) _) ?_
    rw [List.getD_eq_getElem _ _ (Finset.mem_range.1 hj)]
    exact hx _ (List.getElem_mem _)
  generalize (∑ j ∈ Finset.range xs.length, b1 ^ (xs.length - 1 - j) * xs.getD j 0) = S1 at *
  generalize (∑ j ∈ Finset.range xs.length, b2 ^ (xs.length - 1 - j) * xs.getD j 0) = S2 at *
  generalize 1 - b2 ^ xs.length = Q2 at *
  generalize 1 - b1 ^ xs.length = Q1 at *
  have hQ1 : 0 < Q1 := by linarith
  calc S1 / (Q1 / (1 - b1)) = (1 - b1) * (S1 / Q1) := by field_simp
    _ ≤ (1 - b1) * (S2 / Q2) := by
        refine mul_le_mul_of_nonneg_left ?_ p1.le
        calc S1 / Q1 ≤ S2 / Q1 := div_le_div_of_nonneg_right hS hQ1.le
          _ ≤ S2 / Q2 := div_le_div_of_nonneg_left hS2 q2 q12
    _ = (1 - b1) / (1 - b2) * (S2 / (Q2 / (1 - b2))) := by field_simp

/-- However large the gradients are or were, the direction is bounded. -/
theorem direction_bounded (b1 b2 eps epsRoot : ℝ) (h0 : 0 ≤ b1) (h12 : b1 ≤ b2) (h2 : b2 < 1) (he : 0 ≤ eps) (her : 0 ≤ epsRoot)
    (xs : List ℝ) : |direction b1 b2 eps epsRoot xs| ≤ Real.sqrt ((1 - b1) / (1 - b2)) := by
  unfold direction
  have hsq : ∀ x ∈ xs.map (· ^ 2), (0 : ℝ) ≤ x := by
    intro x hx
    obtain ⟨y, _, rfl⟩ := List.mem_map.1 hx
    positivity
  have hv := ewma_nonneg b2 (by linarith) _ hsq
  have hr : 0 ≤ (1 - b1) / (1 - b2) := div_nonneg (by linarith) (by linarith)
  have h1 : |ewma b1 xs| ≤ Real.sqrt ((1 - b1) / (1 - b2)) * Real.sqrt (ewma b2 (xs.map (· ^ 2))) := by
    rw [← Real.sqrt_mul hr]
    exact Real.abs_le_sqrt ((ewma_sq_le b1 h0 xs).trans (ewma_le b1 b2 h0 h12 h2 _ hsq))
  have h3 : Real.sqrt (ewma b2 (xs.map (· ^ 2))) ≤ Real.sqrt (ewma b2 (xs.map (· ^ 2)) + epsRoot) + eps := by
    have := Real.sqrt_le_sqrt (by linarith : ewma b2 (xs.map (· ^ 2)) ≤ ewma b2 (xs.map (· ^ 2)) + epsRoot)
    linarith
  have h4 : 0 ≤ Real.sqrt (ewma b2 (xs.map (· ^ 2)) + epsRoot) + eps := by positivity
  rw [abs_div, abs_of_nonneg h4]
  refine div_le_of_le_mul₀ h4 (Real.sqrt_nonneg _) (h1.trans ?_)
  exact mul_le_mul_of_nonneg_left h3 (Real.sqrt_nonneg _)

theorem fading_map_mul (b c : ℝ) (xs : List ℝ) : fading b (xs.map (c * ·)) = c * fading b xs := by
  unfold fading
  rw [List.length_map, Finset.mul_sum]
  refine Finset.sum_congr rfl fun j hj => ?_
  rw [List.getD_eq_getElem?_getD, List.getD_eq_getElem?_getD, List.getElem?_map]
  cases xs[j]? with
  | none => simp
  | some x => simp; ring

theorem ewma_map_mul (b c : ℝ) (xs : List ℝ) : ewma b (xs.map (c * ·)) = c * ewma b xs := by
  unfold ewma
  rw [fading_map_mul, List.length_map, mul_div_assoc]

/-- Larger gradients have the effect of smaller constants. -/
theorem direction_scale (b1 b2 eps epsRoot c : ℝ) (hc : 0 < c) (xs : List ℝ) :
    direction b1 b2 (c * eps) (c ^ 2 * epsRoot) (xs.map (c * ·)) = direction b1 b2 eps epsRoot xs := by
  unfold direction
  have e : (xs.map (c * ·)).map (· ^ 2) = (xs.map (· ^ 2)).map (c ^ 2 * ·) := by
    rw [List.map_map, List.map_map]
    refine List.map_congr_left fun x _ => ?_
    simp only [Function.comp]
    ring
  rw [ewma_map_mul, e, ewma_map_mul, ← mul_add, Real.sqrt_mul (by positivity), Real.sqrt_sq hc.le, ← mul_add,
    mul_div_mul_left _ _ hc.ne']

theorem direction_single (b1 b2 eps epsRoot x : ℝ) :
    direction b1 b2 eps epsRoot [x] = x / (Real.sqrt (x ^ 2 + epsRoot) + eps) := by
  simp [direction, ewma, fading]

end Verif.Adam
