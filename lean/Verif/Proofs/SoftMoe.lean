import Verif.Model.SoftMoe
import Verif.Proofs.MoeDispatch
import Mathlib.Tactic.Positivity
import Mathlib.Tactic.FieldSimp
import Mathlib.Algebra.BigOperators.Field

/-! Helper lemmas for the soft router. -/

namespace Verif.Soft

open Verif Verif.Moe

theorem softmax_pos {ι : Type*} [Fintype ι] (x : ι → ℝ) (i : ι) : 0 < softmax x i := by
  unfold softmax
  have : 0 < ∑ j, Real.exp (x j) :=
    Finset.sum_pos (fun j _ => Real.exp_pos _) ⟨i, Finset.mem_univ i⟩
  exact div_pos (Real.exp_pos _) this

theorem softmax_sum {ι : Type*} [Fintype ι] [Nonempty ι] (x : ι → ℝ) : ∑ i, softmax x i = 1 := by
  unfold softmax
  have : 0 < ∑ j, Real.exp (x j) :=
    Finset.sum_pos (fun j _ => Real.exp_pos _) ⟨Classical.arbitrary ι, Finset.mem_univ _⟩
  rw [← Finset.sum_div, div_self (ne_of_gt this)]

theorem softmax_equiv {ι κ : Type*} [Fintype ι] [Fintype κ] (σ : ι ≃ κ) (x : κ → ℝ) (i : ι) :
    softmax (fun j => x (σ j)) i = softmax x (σ i) := by
  unfold softmax
  rw [Equiv.sum_comp σ (fun j => Real.exp (x j))]

/-- Softmax of logits in `[-a, a]` is at least `exp(-2a) / N`. -/
theorem softmax_lower {ι : Type*} [Fintype ι] (x : ι → ℝ) (a : ℝ) (h : ∀ j, |x j| ≤ a) (i : ι) :
    Real.exp (-2 * a) / Fintype.card ι ≤ softmax x i := by
  have hpos : 0 < ∑ j, Real.exp (x j) :=
    Finset.sum_pos (fun j _ => Real.exp_pos _) ⟨i, Finset.mem_univ i⟩
  have hcard : (0 : ℝ) < Fintype.card ι := by
    exact_mod_cast Fintype.card_pos_iff.2 ⟨i⟩
  have hsum : ∑ j, Real.exp (x j) ≤ Fintype.card ι * Real.exp a := by
    calc ∑ j, Real.exp (x j) ≤ ∑ _j : ι, Real.exp a :=
          Finset.sum_le_sum (fun j _ => Real.exp_le_exp.2 ((abs_le.1 (h j)).2))
      _ = _ := by rw [Finset.sum_const, Finset.card_univ, nsmul_eq_mul]
  unfold softmax
  rw [div_le_div_iff₀ hcard hpos]
  calc Real.exp (-2 * a) * ∑ j, Real.exp (x j)
      ≤ Real.exp (-2 * a) * (Fintype.card ι * Real.exp a) :=
        mul_le_mul_of_nonneg_left hsum (Real.exp_pos _).le
    _ = Real.exp (-a) * Fintype.card ι := by
        rw [mul_comm (Fintype.card ι : ℝ), ← mul_assoc, ← Real.exp_add]; congr 2; ring
    _ ≤ Real.exp (x i) * Fintype.card ι :=
        mul_le_mul_of_nonneg_right (Real.exp_le_exp.2 ((abs_le.1 (h i)).1)) hcard.le

end Verif.Soft
