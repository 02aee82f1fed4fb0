import Verif.Proofs.FewshotRidge
import Verif.Proofs.EnsembleEval
import Mathlib.Analysis.Matrix.Spectrum

/-! C59: the linear regression of the few-shot evaluation (vmoe/evaluate/fewshot.py:353-418). -/

namespace Verif.Fewshot

open Verif Matrix FewshotSpec

variable {D C : Nat}

/-- C59: for every positive regularization and every set of training examples, with more or with fewer examples than
features, the weights are the only minimum of the regularized least squares objective. -/
theorem C59_minimum (eigh : EighFn) (he : EighOk eigh) (train : List (Example D)) (l2 : ℝ) (hl : 0 < l2)
    (v : Matrix (Fin (D + 1)) (Fin C) ℝ) :
    let w := weights (precomputeCache eigh (featuresOf train) (labelsOf train) C) l2
    objective train l2 w ≤ objective train l2 v ∧ (objective train l2 v = objective train l2 w → v = w) := by
  intro w
  have h := objective_split _ (targets (labelsOf train) C) l2 w v (normal_equations eigh he (featuresOf train) (labelsOf train) l2 hl)
  rw [objective_eq, objective_eq] at h
  have p1 : 0 ≤ ∑ i, ∑ c, ((whiten (colMean (featuresOf train)) (colStd (featuresOf train)) (featuresOf train) *
      (v - w)) i c) ^ 2 := Finset.sum_nonneg fun i _ => Finset.sum_nonneg fun c _ => sq_nonneg _
  have p2 : 0 ≤ ∑ d, ∑ c, (v - w) d c ^ 2 := Finset.sum_nonneg fun i _ => Finset.sum_nonneg fun c _ => sq_nonneg _
  have hh : objective train l2 v = objective train l2 w + ∑ i, ∑ c, ((whiten (colMean (featuresOf train))
      (colStd (featuresOf train)) (featuresOf train) * (v - w)) i c) ^ 2 + l2 * ∑ d, ∑ c, (v - w) d c ^ 2 := h
  constructor
  · rw [hh]
    have := mul_nonneg hl.le p2
    linarith
  · intro heq
    have h0 : ∑ d, ∑ c, (v - w) d c ^ 2 = 0 := by
      have := mul_nonneg hl.le p2
      have h1 : l2 * ∑ d, ∑ c, (v - w) d c ^ 2 = 0 := by linarith
      rcases mul_eq_zero.1 h1 with h1 | h1
      · exact absurd h1 hl.ne'
      · exact h1
    funext d c
    have h1 := (Finset.sum_eq_zero_iff_of_nonneg fun d _ => Finset.sum_nonneg fun c _ => sq_nonneg _).1 h0 d (Finset.mem_univ d)
    have h2 := (Finset.sum_eq_zero_iff_of_nonneg fun c _ => sq_nonneg _).1 h1 c (Finset.mem_univ c)
    have h3 : v d c - w d c = 0 := by
      have := pow_eq_zero_iff (two_ne_zero) |>.1 h2
      simpa using this
    linarith

/-- C59: a test example is assigned the first class with the highest value of the linear function. -/
theorem C59_prediction (hC : 0 < C) (eigh : EighFn) (train test : List (Example D)) (l2 : ℝ) (t : Fin test.length) :
    let cache := precomputeCache eigh (featuresOf train) (labelsOf train) C
    ∃ c, predict cache (featuresOf test) l2 t = some c ∧
      (∀ c', linear train (weights cache l2) (test[t]).1 c' ≤ linear train (weights cache l2) (test[t]).1 c) ∧
      ∀ c' < c, linear train (weights cache l2) (test[t]).1 c' < linear train (weights cache l2) (test[t]).1 c := by
  intro cache
  obtain ⟨c, h1, h2, h3⟩ := EnsembleEval.argmax_spec hC ((whiten cache.mean cache.std (featuresOf test) * weights cache l2) t)
  have hm : cache.mean = featMean train := by
    rw [← colMean_eq]
    simp only [cache, precomputeCache]
    split <;> rfl
  have hs : cache.std = featStd train := by
    rw [← colStd_eq]
    simp only [cache, precomputeCache]
    split <;> rfl
  refine ⟨c, h1, ?_⟩
  rw [hm, hs] at h2 h3
  simp only [whiten_mul] at h2 h3
  exact ⟨h2, h3⟩

/-- The value of `score`, for a function that predicts from the features. -/
theorem score_eq (eigh : EighFn) (train test : List (Example D)) (l2 : ℝ) :
    score eigh C train test l2 = (test.map fun e =>
      if (EnsembleEval.argmax (linear train (weights (precomputeCache eigh (featuresOf train) (labelsOf train) C) l2) e.1)).map
        (fun c : Fin C => ((c : Nat) : Int)) = some e.2 then (1 : ℝ) else 0).sum / test.length := by
  unfold score accuracy
  congr 1
  rw [← sum_list test]
  refine Finset.sum_congr rfl fun t _ => ?_
  have hm : (precomputeCache eigh (featuresOf train) (labelsOf train) C).mean = featMean train := by
    rw [← colMean_eq]
    simp only [precomputeCache]
    split <;> rfl
  have hs : (precomputeCache eigh (featuresOf train) (labelsOf train) C).std = featStd train := by
    rw [← colStd_eq]
    simp only [precomputeCache]
    split <;> rfl
  have hp : predict (precomputeCache eigh (featuresOf train) (labelsOf train) C) (featuresOf test) l2 t =
      EnsembleEval.argmax (linear train (weights (precomputeCache eigh (featuresOf train) (labelsOf train) C) l2) (test[t]).1) := by
    unfold predict
    congr 1
    funext c
    rw [hm, hs, whiten_mul]
  rw [hp]
  rfl

/-- C59: the accuracy is a fraction of the test examples. -/
theorem C59_accuracy (eigh : EighFn) (train test : List (Example D)) (l2 : ℝ) (ht : test ≠ []) :
    (∃ n ≤ test.length, score eigh C train test l2 = n / test.length) ∧
    0 ≤ score eigh C train test l2 ∧ score eigh C train test l2 ≤ 1 := by
  have hpos : (0 : ℝ) < test.length := by exact_mod_cast List.length_pos_iff.2 ht
  have key : ∀ (p : Example D → Prop) (_ : DecidablePred p) (l : List (Example D)), ∃ n ≤ l.length,
      (l.map fun e => if p e then (1 : ℝ) else 0).sum = n := by
    intro p _ l
    induction l with
    | nil => exact ⟨0, by simp, by simp⟩
    | cons a l ih =>
      obtain ⟨n, h1, h2⟩ := ih
      simp only [List.map_cons, List.sum_cons, h2, List.length_cons]
      split
      · exact ⟨n + 1, by omega, by push_cast; ring⟩
      · exact ⟨n, by omega, by simp⟩
  obtain ⟨n, h1, h2⟩ := key (fun e => (EnsembleEval.argmax (linear train (weights (precomputeCache eigh (featuresOf train)
    (labelsOf train) C) l2) e.1)).map (fun c : Fin C => ((c : Nat) : Int)) = some e.2) inferInstance test
  have h3 : score eigh C train test l2 = n / test.length := by
    rw [score_eq, h2]
  refine ⟨⟨n, h1, h3⟩, ?_, ?_⟩
  · rw [h3]; positivity
  · rw [h3, div_le_one hpos]
    exact_mod_cast h1

theorem featMean_perm {l l' : List (Example D)} (h : l.Perm l') : featMean l = featMean l' := by
  funext d
  unfold featMean
  rw [(h.map _).sum_eq, h.length_eq]

theorem featStd_perm {l l' : List (Example D)} (h : l.Perm l') : featStd l = featStd l' := by
  funext d
  unfold featStd
  rw [featMean_perm h, (h.map _).sum_eq, h.length_eq]

theorem linear_perm {l l' : List (Example D)} (h : l.Perm l') (w : Matrix (Fin (D + 1)) (Fin C) ℝ) : linear l w = linear l' w := by
  funext f c
  unfold linear
  rw [featMean_perm h, featStd_perm h]

theorem weights_perm (eigh eigh' : EighFn) (he : EighOk eigh) (he' : EighOk eigh') {l l' : List (Example D)} (h : l.Perm l')
    (l2 : ℝ) (hl : 0 < l2) :
    weights (precomputeCache eigh (featuresOf l) (labelsOf l) C) l2 =
      weights (precomputeCache eigh' (featuresOf l') (labelsOf l') C) l2 := by
  have hobj : ∀ w : Matrix (Fin (D + 1)) (Fin C) ℝ, objective l l2 w = objective l' l2 w := by
    intro w
    unfold objective
    rw [linear_perm h, (h.map _).sum_eq]
  set w := weights (precomputeCache eigh (featuresOf l) (labelsOf l) C) l2
  set w' := weights (precomputeCache eigh' (featuresOf l') (labelsOf l') C) l2
  have h1 : objective l l2 w ≤ objective l l2 w' := (C59_minimum eigh he l l2 hl w').1
  have h2 := C59_minimum eigh' he' l' l2 hl w
  rw [hobj, hobj] at h1
  exact h2.2 (le_antisymm h1 h2.1)

/-- C59: the accuracy depends neither on the order of the training and test examples nor on the eigendecomposition (which is
not unique). -/
theorem C59_order (eigh eigh' : EighFn) (he : EighOk eigh) (he' : EighOk eigh') (train train' test test' : List (Example D))
    (h : train.Perm train') (h' : test.Perm test') (l2 : ℝ) (hl : 0 < l2) :
    score eigh C train test l2 = score eigh' C train' test' l2 := by
  rw [score_eq, score_eq, weights_perm eigh eigh' he he' h l2 hl, linear_perm h, (h'.map _).sum_eq, h'.length_eq]

/-- C59: adding a constant vector to all features, of training and test examples, does not change the accuracy. -/
theorem C59_shift (eigh : EighFn) (he : EighOk eigh) (train test : List (Example D)) (hne : train ≠ []) (s : Fin D → ℝ) (l2 : ℝ)
    (hl : 0 < l2) :
    score eigh C (train.map fun e => (e.1 + s, e.2)) (test.map fun e => (e.1 + s, e.2)) l2 = score eigh C train test l2 := by
  have hpos : (train.length : ℝ) ≠ 0 := by
    have := List.length_pos_iff.2 hne
    exact_mod_cast this.ne'
  have hm : featMean (train.map fun e => (e.1 + s, e.2)) = featMean train + s := by
    funext d
    have : ∀ l : List (Example D), (l.map fun e => e.1 d + s d).sum = (l.map fun e => e.1 d).sum + l.length * s d := by
      intro l
      induction l with
      | nil => simp
      | cons a l ih => simp only [List.map_cons, List.sum_cons, ih, List.length_cons]; push_cast; ring
    unfold featMean
    simp only [List.map_map, Function.comp_def, List.length_map, Pi.add_apply, this]
    field_simp
  have hs : featStd (train.map fun e => (e.1 + s, e.2)) = featStd train := by
    funext d
    unfold featStd
    rw [hm]
    simp only [List.map_map, Function.comp_def, List.length_map, Pi.add_apply, add_sub_add_right_eq_sub]
  have hlin : ∀ (w : Matrix (Fin (D + 1)) (Fin C) ℝ) f, linear (train.map fun e => (e.1 + s, e.2)) w (f + s) = linear train w f := by
    intro w f
    funext c
    unfold linear
    rw [hm, hs]
    simp only [Pi.add_apply, add_sub_add_right_eq_sub]
  have hobj : ∀ w : Matrix (Fin (D + 1)) (Fin C) ℝ, objective (train.map fun e => (e.1 + s, e.2)) l2 w = objective train l2 w := by
    intro w
    unfold objective
    simp only [List.map_map, Function.comp_def, hlin]
  have hw : weights (precomputeCache eigh (featuresOf (train.map fun e => (e.1 + s, e.2)))
      (labelsOf (train.map fun e => (e.1 + s, e.2))) C) l2 =
      weights (precomputeCache eigh (featuresOf train) (labelsOf train) C) l2 := by
    have h1 := (C59_minimum (C := C) eigh he (train.map fun e => (e.1 + s, e.2)) l2 hl
      (weights (precomputeCache eigh (featuresOf train) (labelsOf train) C) l2)).1
    have h2 := C59_minimum (C := C) eigh he train l2 hl (weights (precomputeCache eigh
      (featuresOf (train.map fun e => (e.1 + s, e.2))) (labelsOf (train.map fun e => (e.1 + s, e.2))) C) l2)
    rw [hobj, hobj] at h1
    exact h2.2 (le_antisymm h1 h2.1)
  rw [score_eq, score_eq, hw]
  simp only [List.map_map, Function.comp_def, hlin, List.length_map]

/-- The contract of `eigh` can be met: every real symmetric matrix has such a decomposition. -/
example : ∃ eigh : EighFn, EighOk eigh := by
  classical
  refine ⟨fun n A => if h : A.IsHermitian then (h.eigenvalues, (h.eigenvectorUnitary : Matrix (Fin n) (Fin n) ℝ)) else (0, 0), ?_⟩
  intro n A hA
  have h : A.IsHermitian := by
    rw [IsHermitian, conjTranspose_eq_transpose_of_trivial]
    exact hA
  simp only [dif_pos h]
  constructor
  · have := Matrix.UnitaryGroup.star_mul_self h.eigenvectorUnitary
    rwa [Matrix.star_eq_conjTranspose, conjTranspose_eq_transpose_of_trivial] at this
  · have := h.spectral_theorem
    rw [Unitary.conjStarAlgAut_apply] at this
    rw [Matrix.star_eq_conjTranspose, conjTranspose_eq_transpose_of_trivial] at this
    exact this

end Verif.Fewshot
