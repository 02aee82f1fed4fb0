import Verif.Spec.Fewshot
import Mathlib.LinearAlgebra.Matrix.NonsingularInverse
import Mathlib.Algebra.Order.BigOperators.Ring.Finset
import Mathlib.Algebra.BigOperators.Field
import Mathlib.Algebra.BigOperators.Fin

namespace Verif.Fewshot

open Verif Matrix FewshotSpec

variable {N D C : Nat}

/-- Eigenvalues of `aᵀ * a` are not negative. -/
theorem eigs_nonneg {n m : Nat} (a : Matrix (Fin m) (Fin n) ℝ) (q : Matrix (Fin n) (Fin n) ℝ) (e : Fin n → ℝ)
    (hq : qᵀ * q = 1) (h : aᵀ * a = q * diagonal e * qᵀ) (k : Fin n) : 0 ≤ e k := by
  have h1 : (a * q)ᵀ * (a * q) = diagonal e := by
    rw [transpose_mul, Matrix.mul_assoc, ← Matrix.mul_assoc aᵀ, h]
    calc qᵀ * (q * diagonal e * qᵀ * q) = (qᵀ * q) * diagonal e * (qᵀ * q) := by simp only [Matrix.mul_assoc]
      _ = diagonal e := by rw [hq, Matrix.one_mul, Matrix.mul_one]
  have h2 : e k = ((a * q)ᵀ * (a * q)) k k := by rw [h1, diagonal_apply_eq]
  rw [h2, Matrix.mul_apply]
  exact Finset.sum_nonneg fun i _ => by rw [transpose_apply]; exact mul_self_nonneg _

/-- `q diag(1 / (e + l)) qᵀ` inverts `A + l`. -/
theorem resolvent {n : Nat} (A q : Matrix (Fin n) (Fin n) ℝ) (e : Fin n → ℝ) (l : ℝ) (hq : qᵀ * q = 1)
    (h : A = q * diagonal e * qᵀ) (hl : ∀ k, e k + l ≠ 0) :
    (A + l • (1 : Matrix (Fin n) (Fin n) ℝ)) * (q * diagonal (fun k => 1 / (e k + l)) * qᵀ) = 1 := by
  have hq' : q * qᵀ = 1 := mul_eq_one_comm.1 hq
  have h1 : A + l • (1 : Matrix (Fin n) (Fin n) ℝ) = q * diagonal (fun k => e k + l) * qᵀ := by
    have : diagonal (fun k => e k + l) = diagonal e + l • (1 : Matrix (Fin n) (Fin n) ℝ) := by
      ext i j
      by_cases hij : i = j
      · subst hij; simp
      · simp [hij]
    rw [this, Matrix.mul_add, Matrix.add_mul, ← h, Matrix.mul_smul, Matrix.smul_mul, Matrix.mul_one, hq']
  rw [h1]
  calc q * diagonal (fun k => e k + l) * qᵀ * (q * diagonal (fun k => 1 / (e k + l)) * qᵀ)
      = q * (diagonal (fun k => e k + l) * (qᵀ * q) * diagonal (fun k => 1 / (e k + l))) * qᵀ := by
        simp only [Matrix.mul_assoc]
    _ = q * diagonal (fun k => (e k + l) * (1 / (e k + l))) * qᵀ := by rw [hq, Matrix.mul_one, diagonal_mul_diagonal]
    _ = 1 := by
      have : (fun k => (e k + l) * (1 / (e k + l))) = fun _ => (1 : ℝ) := by
        funext k
        rw [mul_one_div_cancel (hl k)]
      rw [this, diagonal_one, Matrix.mul_one, hq']

theorem scaled {m n : Nat} (a : Matrix (Fin m) (Fin n) ℝ) (s : Fin n → ℝ) :
    (Matrix.of fun d k => a d k * s k) = a * diagonal s := by
  ext i j
  simp [Matrix.mul_diagonal]

/-- The weights solve the regularized normal equations. -/
theorem normal_equations (eigh : EighFn) (he : EighOk eigh) (x : Matrix (Fin N) (Fin D) ℝ) (y : Fin N → Int) (l : ℝ)
    (hl : 0 < l) :
    let X := whiten (colMean x) (colStd x) x
    (Xᵀ * X + l • (1 : Matrix _ _ ℝ)) * weights (precomputeCache eigh x y C) l = Xᵀ * targets y C := by
  intro X
  unfold precomputeCache
  simp only
  split
  · obtain ⟨h1, h2⟩ := he _ (Xᵀ * X) (by rw [IsSymm, transpose_mul, transpose_transpose])
    set e := (eigh _ (Xᵀ * X)).1 with hedef
    set q := (eigh _ (Xᵀ * X)).2 with hqdef
    have hpos : ∀ k, e k + l ≠ 0 := fun k => by
      have := eigs_nonneg X q e h1 h2 k
      linarith
    have := resolvent _ q e l h1 h2 hpos
    unfold weights
    simp only
    rw [scaled]
    calc (Xᵀ * X + l • (1 : Matrix _ _ ℝ)) * (q * diagonal (fun k => 1 / (e k + l)) * (qᵀ * (Xᵀ * targets y C)))
        = (Xᵀ * X + l • (1 : Matrix _ _ ℝ)) * (q * diagonal (fun k => 1 / (e k + l)) * qᵀ) * (Xᵀ * targets y C) := by
          simp only [Matrix.mul_assoc]
      _ = _ := by rw [this, Matrix.one_mul]
  · obtain ⟨h1, h2⟩ := he _ (X * Xᵀ) (by rw [IsSymm, transpose_mul, transpose_transpose])
    set e := (eigh _ (X * Xᵀ)).1 with hedef
    set q := (eigh _ (X * Xᵀ)).2 with hqdef
    have hpos : ∀ k, e k + l ≠ 0 := fun k => by
      have := eigs_nonneg Xᵀ q e h1 (by rw [transpose_transpose]; exact h2) k
      linarith
    have := resolvent _ q e l h1 h2 hpos
    unfold weights
    simp only
    rw [scaled]
    have hcomm : (Xᵀ * X + l • (1 : Matrix _ _ ℝ)) * Xᵀ = Xᵀ * (X * Xᵀ + l • (1 : Matrix _ _ ℝ)) := by
      rw [Matrix.add_mul, Matrix.mul_add, Matrix.mul_assoc, Matrix.smul_mul, Matrix.mul_smul, Matrix.one_mul, Matrix.mul_one]
    calc (Xᵀ * X + l • (1 : Matrix _ _ ℝ)) * (Xᵀ * q * diagonal (fun k => 1 / (e k + l)) * (qᵀ * targets y C))
        = (Xᵀ * X + l • (1 : Matrix _ _ ℝ)) * Xᵀ * ((q * diagonal (fun k => 1 / (e k + l)) * qᵀ) * targets y C) := by
          simp only [Matrix.mul_assoc]
      _ = Xᵀ * ((X * Xᵀ + l • (1 : Matrix _ _ ℝ)) * (q * diagonal (fun k => 1 / (e k + l)) * qᵀ)) * targets y C := by
          rw [hcomm]; simp only [Matrix.mul_assoc]
      _ = _ := by rw [this, Matrix.mul_one]

/-- The least squares objective for matrices. -/
noncomputable def matObjective {M : Nat} (X : Matrix (Fin N) (Fin M) ℝ) (Y : Matrix (Fin N) (Fin C) ℝ) (l : ℝ)
    (w : Matrix (Fin M) (Fin C) ℝ) : ℝ :=
  ∑ i, ∑ c, ((X * w) i c - Y i c) ^ 2 + l * ∑ d, ∑ c, w d c ^ 2

theorem objective_split {M : Nat} (X : Matrix (Fin N) (Fin M) ℝ) (Y : Matrix (Fin N) (Fin C) ℝ) (l : ℝ)
    (w v : Matrix (Fin M) (Fin C) ℝ) (h : (Xᵀ * X + l • (1 : Matrix _ _ ℝ)) * w = Xᵀ * Y) :
    matObjective X Y l v = matObjective X Y l w + ∑ i, ∑ c, ((X * (v - w)) i c) ^ 2 + l * ∑ d, ∑ c, (v - w) d c ^ 2 := by
  set u := v - w with hu
  have hv : v = w + u := by rw [hu]; abel
  have key : ∀ d c, ∑ i, X i d * ((X * w) i c - Y i c) = -(l * w d c) := by
    intro d c
    have h1 : (Xᵀ * (X * w)) d c + l * w d c = (Xᵀ * Y) d c := by
      rw [← h, Matrix.add_mul, Matrix.smul_mul, Matrix.one_mul, Matrix.mul_assoc]
      simp [Matrix.add_apply]
    rw [Matrix.mul_apply, Matrix.mul_apply] at h1
    simp only [transpose_apply] at h1
    simp only [mul_sub, Finset.sum_sub_distrib]
    linarith
  have cross : ∑ i, ∑ c, ((X * w) i c - Y i c) * (X * u) i c = -(l * ∑ d, ∑ c, w d c * u d c) := by
    calc ∑ i, ∑ c, ((X * w) i c - Y i c) * (X * u) i c
        = ∑ i, ∑ c, ∑ d, ((X * w) i c - Y i c) * (X i d * u d c) := by
          simp only [Matrix.mul_apply (M := X) (N := u), Finset.mul_sum]
      _ = ∑ d, ∑ c, ∑ i, ((X * w) i c - Y i c) * (X i d * u d c) := by
          rw [Finset.sum_comm]
          simp only [Finset.sum_comm (s := (Finset.univ : Finset (Fin N)))]
          rw [Finset.sum_comm]
      _ = ∑ d, ∑ c, u d c * ∑ i, X i d * ((X * w) i c - Y i c) := by
          simp only [Finset.mul_sum]
          refine Finset.sum_congr rfl fun d _ => Finset.sum_congr rfl fun c _ => Finset.sum_congr rfl fun i _ => ?_
          ring
      _ = -(l * ∑ d, ∑ c, w d c * u d c) := by
          simp only [key, Finset.mul_sum, ← Finset.sum_neg_distrib]
          refine Finset.sum_congr rfl fun d _ => Finset.sum_congr rfl fun c _ => ?_
          ring
  unfold matObjective
  rw [hv, Matrix.mul_add]
  have e1 : ∑ i, ∑ c, ((X * w + X * u) i c - Y i c) ^ 2 =
      ∑ i, ∑ c, ((X * w) i c - Y i c) ^ 2 + 2 * (∑ i, ∑ c, ((X * w) i c - Y i c) * (X * u) i c) +
        ∑ i, ∑ c, ((X * u) i c) ^ 2 := by
    simp only [Finset.mul_sum, ← Finset.sum_add_distrib, Matrix.add_apply]
    refine Finset.sum_congr rfl fun i _ => Finset.sum_congr rfl fun c _ => ?_
    ring
  have e2 : ∑ d, ∑ c, (w + u) d c ^ 2 = ∑ d, ∑ c, w d c ^ 2 + 2 * (∑ d, ∑ c, w d c * u d c) + ∑ d, ∑ c, u d c ^ 2 := by
    simp only [Finset.mul_sum, ← Finset.sum_add_distrib, Matrix.add_apply]
    refine Finset.sum_congr rfl fun i _ => Finset.sum_congr rfl fun c _ => ?_
    ring
  rw [e1, e2, cross]
  ring

theorem sum_list {α : Type} (l : List α) (f : α → ℝ) : ∑ i : Fin l.length, f l[i] = (l.map f).sum := by
  rw [← List.sum_ofFn]
  congr 1
  apply List.ext_getElem <;> simp

theorem colMean_eq (l : List (Example D)) : colMean (featuresOf l) = featMean l := by
  funext d
  unfold colMean featMean featuresOf
  rw [sum_list l fun e => e.1 d]

theorem colStd_eq (l : List (Example D)) : colStd (featuresOf l) = featStd l := by
  funext d
  unfold colStd featStd
  rw [colMean_eq]
  unfold featuresOf
  rw [sum_list l fun e => (e.1 d - featMean l d) ^ 2]

theorem whiten_mul (l m : List (Example D)) (w : Matrix (Fin (D + 1)) (Fin C) ℝ) (i : Fin m.length) (c : Fin C) :
    (whiten (featMean l) (featStd l) (featuresOf m) * w) i c = linear l w (m[i]).1 c := by
  rw [Matrix.mul_apply, Fin.sum_univ_castSucc]
  unfold whiten linear featuresOf
  simp only [Fin.snoc_castSucc, Fin.snoc_last]

theorem objective_eq (l : List (Example D)) (l2 : ℝ) (w : Matrix (Fin (D + 1)) (Fin C) ℝ) :
    matObjective (whiten (colMean (featuresOf l)) (colStd (featuresOf l)) (featuresOf l)) (targets (labelsOf l) C) l2 w =
      objective l l2 w := by
  unfold matObjective objective
  congr 1
  rw [← sum_list l, colMean_eq, colStd_eq]
  refine Finset.sum_congr rfl fun i _ => Finset.sum_congr rfl fun c _ => ?_
  rw [whiten_mul]
  congr 2
  unfold targets labelsOf
  split <;> norm_num

end Verif.Fewshot
