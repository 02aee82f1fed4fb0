import Verif.Spec.Transport
import Mathlib.Analysis.Convex.StdSimplex
import Mathlib.Topology.Order.Compact
import Mathlib.Topology.Algebra.Order.Field

/-!
Nearest sparse probability vectors exist.
-/

namespace Verif.Spec

theorem isClosed_sparse (k n : Nat) :
    IsClosed {p : Fin n → ℝ | (Finset.univ.filter (fun i => p i ≠ 0)).card ≤ k} := by
  have : {p : Fin n → ℝ | (Finset.univ.filter (fun i => p i ≠ 0)).card ≤ k} =
      ⋃ T : {T : Finset (Fin n) // T.card ≤ k}, ⋂ i : {i : Fin n // i ∉ T.1}, {p | p i.1 = 0} := by
    ext p
    simp only [Set.mem_ofPred_eq, Set.mem_iUnion, Set.mem_iInter]
    constructor
    · intro h
      refine ⟨⟨_, h⟩, fun i => ?_⟩
      have := i.2
      simp only [Finset.mem_filter, Finset.mem_univ, true_and, not_not] at this
      exact this
    · rintro ⟨T, hT⟩
      refine le_trans (Finset.card_le_card ?_) T.2
      intro i hi
      by_contra hn
      exact (Finset.mem_filter.1 hi).2 (hT ⟨i, hn⟩)
  rw [this]
  refine isClosed_iUnion_of_finite fun T => isClosed_iInter fun i => ?_
  exact isClosed_eq (continuous_apply _) continuous_const

theorem nearestSparse_exists {k n : Nat} (hk : 0 < k) (hn : 0 < n) (x : Fin n → ℝ) :
    ∃ p, NearestSparse k x p := by
  have hset : {p : Fin n → ℝ | SparseProb k p} = stdSimplex ℝ (Fin n) ∩
      {p : Fin n → ℝ | (Finset.univ.filter (fun i => p i ≠ 0)).card ≤ k} := by
    ext p
    simp only [SparseProb, Set.mem_ofPred_eq, Set.mem_inter_iff, stdSimplex, and_assoc]
  have hc : IsCompact {p : Fin n → ℝ | SparseProb k p} := by
    rw [hset]
    exact (isCompact_stdSimplex ℝ (Fin n)).inter_right (isClosed_sparse k n)
  have hne : ({p : Fin n → ℝ | SparseProb k p}).Nonempty := by
    refine ⟨fun i => if i = ⟨0, hn⟩ then 1 else 0, fun i => by beta_reduce; split <;> norm_num, by simp, ?_⟩
    refine le_trans (Finset.card_le_card (t := {⟨0, hn⟩}) ?_) (by rw [Finset.card_singleton]; omega)
    intro i hi
    simp only [Finset.mem_filter, Finset.mem_univ, true_and, ne_eq, ite_eq_right_iff, one_ne_zero,
      imp_false, not_not] at hi
    simp [hi]
  have hf : Continuous (fun p : Fin n → ℝ => ∑ i, (p i - x i) ^ 2) := by fun_prop
  obtain ⟨p, hp, hmin⟩ := hc.exists_isMinOn hne hf.continuousOn
  exact ⟨p, hp, fun q hq => hmin hq⟩

end Verif.Spec
