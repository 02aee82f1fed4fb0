import Verif.Model.TowerLoss
import Verif.Props.LossGradients
import Mathlib.Analysis.SpecialFunctions.Sqrt

/-!
C155: what the parameters of a contrastive model learn from (vmoe/projects/contrastive/models.py, trainer.py).
-/

namespace Verif.Contrastive

open Verif Trainer ContrastiveSpec

variable {B D : Nat}

/-- The cosine of two vectors, with the small number in the denominator of the code. -/
noncomputable def cosine (u v : Fin D → ℝ) : ℝ := (∑ d, u d * v d) / ((length2 u + 1e-8) * (length2 v + 1e-8))

/-- The logit of image `i` and text `k`. -/
noncomputable def pairLogit (p : Params) (x y : Fin B → Fin D → ℝ) (i k : Fin B) : ℝ :=
  Real.exp p.s * cosine (x i) (y k) + p.b.getD 0

/-- Probability that image and text belong together, less one if they do. -/
noncomputable def excess (p : Params) (x y : Fin B → Fin D → ℝ) (i k : Fin B) : ℝ :=
  yes (pairLogit p x y i k) - (if i = k then 1 else 0)

/-- The loss of a batch by its pairs. -/
noncomputable def batchLoss (p : Params) (x y : Fin B → Fin D → ℝ) : ℝ :=
  (∑ i, ∑ k, pairLoss (decide (i = k)) (pairLogit p x y i k)) / B

theorem length2_add_pos (u : Fin D → ℝ) : 0 < length2 u + 1e-8 := by
  have : 0 ≤ length2 u := Real.sqrt_nonneg _
  norm_num
  linarith

theorem normalize_dot (u v : Fin D → ℝ) : ∑ d, normalize u d * normalize v d = cosine u v := by
  unfold cosine normalize
  rw [Finset.sum_div]
  refine Finset.sum_congr rfl fun d _ => ?_
  rw [div_mul_div_comm]
  rfl

theorem twoTower_logits (p : Params) (x y : Fin B → Fin D → ℝ) :
    twoTower p (some x) (some y) = .ok (.logits (pairLogit p x y)) := by
  unfold twoTower
  simp only [Option.map_some, normalize_dot]
  cases hb : p.b with
  | none =>
    simp only
    congr 2
    funext i k
    simp [pairLogit, hb, mul_comm]
  | some b =>
    simp only
    congr 2
    funext i k
    simp [pairLogit, hb, mul_comm]

/-- C155: the loss of a batch is the mean over its images of the losses of their pairs, with logits that are the cosine of the vectors
of the two encoders, scaled by `exp s`, plus the bias. -/
theorem C155_loss (p : Params) (x y : Fin B → Fin D → ℝ) : towerLoss p x y = .ok (batchLoss p x y) := by
  unfold towerLoss
  rw [twoTower_logits]
  simp only
  have h := mainLoss_ok (I := Nat) (T := Nat)
    (fun i k => if h : i < B ∧ k < B then pairLogit p x y ⟨i, h.1⟩ ⟨k, h.2⟩ else 0) B id id
  rw [List.map_id] at h
  rw [h]
  congr 1
  unfold pairsLoss batchLoss
  simp only [if_true]
  rw [Finset.sum_range]
  congr 1
  refine Finset.sum_congr rfl fun i _ => ?_
  rw [Finset.sum_range]
  refine Finset.sum_congr rfl fun k _ => ?_
  simp [Fin.ext_iff]

/-- The derivative of the loss along a curve of logits. -/
theorem batchLoss_deriv (l : ℝ → Fin B → Fin B → ℝ) (l' : Fin B → Fin B → ℝ)
    (h : ∀ i k, HasDerivAt (fun t => l t i k) (l' i k) 0) :
    HasDerivAt (fun t => (∑ i, ∑ k, pairLoss (decide (i = k)) (l t i k)) / (B : ℝ))
      ((∑ i, ∑ k, (yes (l 0 i k) - (if i = k then 1 else 0)) * l' i k) / B) 0 := by
  refine HasDerivAt.div_const (HasDerivAt.fun_sum fun i _ => ?_) _
  refine HasDerivAt.fun_sum fun k _ => ?_
  have := pairLoss_deriv (decide (i = k)) _ _ (h i k)
  simpa using this

/-- C155: the bias learns from the number of pairs: its gradient is the expected number of pairs that belong together, according to
the model, less the number that do, over the size of the batch. -/
theorem C155_bias (s b : ℝ) (x y : Fin B → Fin D → ℝ) :
    HasDerivAt (fun t => batchLoss ⟨s, some (b + t)⟩ x y)
      (((∑ i, ∑ k, yes (pairLogit ⟨s, some b⟩ x y i k)) - B) / B) 0 := by
  have := batchLoss_deriv (fun t => pairLogit ⟨s, some (b + t)⟩ x y) (fun _ _ => 1) (fun i k => by
    unfold pairLogit
    simp only [Option.getD_some]
    exact ((hasDerivAt_id (0 : ℝ)).const_add b).const_add _)
  refine this.congr_deriv ?_
  simp only [add_zero, mul_one, Finset.sum_sub_distrib, Finset.sum_ite_eq, Finset.mem_univ, if_true]
  simp

/-- Losses of pairs lie above their tangents. -/
theorem pairLoss_tangent (t : Bool) (l l' : ℝ) :
    pairLoss t l + (yes l - (if t then 1 else 0)) * (l' - l) ≤ pairLoss t l' := by
  have key := LossFn.sigmoidXent_tangent (C := 1) (fun _ => l) (fun _ => l') (fun _ => if t then 1 else 0) 0
  rw [LossFn.sigmoidXent_eq, LossFn.sigmoidXent_eq] at key
  have e : ∀ l : ℝ, pairLoss t l = Real.log (1 + Real.exp l) - (if t then 1 else 0) * l := by
    intro l
    cases t
    · rw [pairLoss_false]
      simp
    · rw [pairLoss_true]
      have : 1 + Real.exp (-l) = (1 + Real.exp l) / Real.exp l := by
        rw [Real.exp_neg]
        field_simp
        ring
      rw [this, Real.log_div (by positivity) (by positivity), Real.log_exp]
      simp
  rw [e, e]
  refine le_trans (le_of_eq ?_) key
  rw [show EnsembleEvalSpec.sigmoidProb (fun _ : Fin 1 => l) 0 = yes l by
    unfold EnsembleEvalSpec.sigmoidProb yes
    rw [Real.exp_neg]
    field_simp
    ring]

/-- C155: a bias with which the model expects as many pairs as there are gives the least loss of all biases. -/
theorem C155_best_bias (s b b' : ℝ) (x y : Fin B → Fin D → ℝ)
    (h : ∑ i, ∑ k, yes (pairLogit ⟨s, some b⟩ x y i k) = B) :
    batchLoss ⟨s, some b⟩ x y ≤ batchLoss ⟨s, some b'⟩ x y := by
  unfold batchLoss
  refine div_le_div_of_nonneg_right ?_ (by positivity)
  have hle : ∀ i k, pairLoss (decide (i = k)) (pairLogit ⟨s, some b⟩ x y i k) +
      (yes (pairLogit ⟨s, some b⟩ x y i k) - (if i = k then 1 else 0)) * (b' - b) ≤
        pairLoss (decide (i = k)) (pairLogit ⟨s, some b'⟩ x y i k) := by
    intro i k
    have := pairLoss_tangent (decide (i = k)) (pairLogit ⟨s, some b⟩ x y i k) (pairLogit ⟨s, some b'⟩ x y i k)
    have hd : pairLogit ⟨s, some b'⟩ x y i k - pairLogit ⟨s, some b⟩ x y i k = b' - b := by
      simp [pairLogit]
    rw [hd] at this
    simpa using this
  have := Finset.sum_le_sum fun i (_ : i ∈ Finset.univ) => Finset.sum_le_sum fun k (_ : k ∈ Finset.univ) => hle i k
  refine le_trans (le_of_eq ?_) this
  simp only [Finset.sum_add_distrib, ← Finset.sum_mul, Finset.sum_sub_distrib, h, Finset.sum_ite_eq, Finset.mem_univ, if_true]
  simp

/-- C155: the scale learns from the cosines: the gradient of its logarithm `s` is the mean over the images of the sum of the cosines,
weighted by probability less label, times the scale. -/
theorem C155_scale (s : ℝ) (b : Option ℝ) (x y : Fin B → Fin D → ℝ) :
    HasDerivAt (fun t => batchLoss ⟨s + t, b⟩ x y)
      (Real.exp s * (∑ i, ∑ k, excess ⟨s, b⟩ x y i k * cosine (x i) (y k)) / B) 0 := by
  have := batchLoss_deriv (fun t => pairLogit ⟨s + t, b⟩ x y) (fun i k => Real.exp s * cosine (x i) (y k)) (fun i k => by
    unfold pairLogit
    have h1 : HasDerivAt (fun t : ℝ => s + t) 1 0 := (hasDerivAt_id (0 : ℝ)).const_add s
    have h2 := ((h1.exp).mul_const (cosine (x i) (y k))).add_const (b.getD 0)
    refine h2.congr_deriv ?_
    simp)
  refine this.congr_deriv ?_
  congr 1
  rw [Finset.mul_sum]
  refine Finset.sum_congr rfl fun i _ => ?_
  rw [Finset.mul_sum]
  refine Finset.sum_congr rfl fun k _ => ?_
  simp only [excess, add_zero]
  ring

/-- How the cosine changes when the first vector moves. -/
theorem cosine_deriv (u v w : Fin D → ℝ) (hu : length2 u ≠ 0) :
    HasDerivAt (fun t : ℝ => cosine (fun d => u d + t * w d) v)
      ((∑ d, w d * v d) / ((length2 u + 1e-8) * (length2 v + 1e-8)) -
        cosine u v * ((∑ d, u d * w d) / (length2 u * (length2 u + 1e-8)))) 0 := by
  have hN := length2_add_pos u
  have hV := length2_add_pos v
  have hsq : 0 < ∑ d, u d ^ 2 := by
    by_contra h
    exact hu (Real.sqrt_eq_zero_of_nonpos (not_lt.1 h))
  have hline : ∀ d, HasDerivAt (fun t : ℝ => u d + t * w d) (w d) 0 := fun d => LossFn.line_deriv _ _
  have hq : HasDerivAt (fun t : ℝ => ∑ d, (u d + t * w d) ^ 2) (∑ d, 2 * u d * w d) 0 := by
    refine HasDerivAt.fun_sum fun d _ => ?_
    refine ((hline d).fun_pow 2).congr_deriv ?_
    simp
  have hlen : HasDerivAt (fun t : ℝ => length2 (fun d => u d + t * w d)) ((∑ d, u d * w d) / length2 u) 0 := by
    have := hq.sqrt (by simpa using hsq.ne')
    refine this.congr_deriv ?_
    simp only [zero_mul, add_zero, length2]
    rw [show (∑ d, 2 * u d * w d) = 2 * ∑ d, u d * w d by
      rw [Finset.mul_sum]; exact Finset.sum_congr rfl fun d _ => by ring]
    rw [mul_div_mul_left _ _ two_ne_zero]
  have hdot : HasDerivAt (fun t : ℝ => ∑ d, (u d + t * w d) * v d) (∑ d, w d * v d) 0 :=
    HasDerivAt.fun_sum fun d _ => (hline d).mul_const (v d)
  have hden := (hlen.add_const (1e-8 : ℝ)).mul_const (length2 v + 1e-8)
  have := hdot.fun_div hden (by simpa using ⟨by simpa using hN.ne', by simpa using hV.ne'⟩)
  refine this.congr_deriv ?_
  simp only [zero_mul, add_zero, cosine]
  field_simp

/-- C155: what the encoder of images learns: moving the vector of image `m` in the direction `w` changes the loss by the sum over the
texts of probability less label times the change of the cosine. -/
theorem C155_embedding (p : Params) (x y : Fin B → Fin D → ℝ) (m : Fin B) (w : Fin D → ℝ) (hx : length2 (x m) ≠ 0) :
    HasDerivAt (fun t => batchLoss p (Function.update x m fun d => x m d + t * w d) y)
      (Real.exp p.s * (∑ k, excess p x y m k * ((∑ d, w d * y k d) / ((length2 (x m) + 1e-8) * (length2 (y k) + 1e-8)) -
        cosine (x m) (y k) * ((∑ d, x m d * w d) / (length2 (x m) * (length2 (x m) + 1e-8))))) / B) 0 := by
  have h0 : Function.update x m (fun d => x m d + 0 * w d) = x := by
    simp
  have := batchLoss_deriv (fun t => pairLogit p (Function.update x m fun d => x m d + t * w d) y)
    (fun i k => if i = m then Real.exp p.s * ((∑ d, w d * y k d) / ((length2 (x m) + 1e-8) * (length2 (y k) + 1e-8)) -
        cosine (x m) (y k) * ((∑ d, x m d * w d) / (length2 (x m) * (length2 (x m) + 1e-8)))) else 0) (fun i k => by
    unfold pairLogit
    by_cases hi : i = m
    · subst hi
      simp only [Function.update_self, if_true]
      exact ((cosine_deriv (x i) (y k) w hx).const_mul _).add_const _
    · simp only [Function.update_of_ne hi, if_neg hi]
      exact hasDerivAt_const _ _)
  refine this.congr_deriv ?_
  congr 1
  rw [Finset.sum_eq_single m]
  · rw [Finset.mul_sum]
    refine Finset.sum_congr rfl fun k _ => ?_
    rw [if_pos rfl]
    simp only [h0, excess]
    ring
  · intro i _ hi
    exact Finset.sum_eq_zero fun k _ => by rw [if_neg hi, mul_zero]
  · intro h
    exact absurd (Finset.mem_univ m) h

theorem yes_bounds (l : ℝ) : 0 < yes l ∧ yes l < 1 := by
  unfold yes
  have := Real.exp_pos l
  exact ⟨by positivity, by rw [div_lt_one (by positivity)]; linarith⟩

theorem cosine_abs_lt (u v : Fin D → ℝ) : |cosine u v| < 1 := by
  rw [← normalize_dot]
  exact dot_lt_one _ _ (sum_sq_normalize u) (sum_sq_normalize v)

/-- C155: nothing is learned about the length of the vectors: along the vector itself the derivative of the loss is at most
`1e-8 * scale / length`. -/
theorem C155_length (p : Params) (x y : Fin B → Fin D → ℝ) (m : Fin B) (hx : length2 (x m) ≠ 0) :
    ∃ g, HasDerivAt (fun t => batchLoss p (Function.update x m fun d => x m d + t * x m d) y) g 0 ∧
      |g| ≤ 1e-8 * Real.exp p.s / length2 (x m) := by
  refine ⟨_, C155_embedding p x y m (x m) hx, ?_⟩
  have hl : 0 < length2 (x m) := lt_of_le_of_ne (Real.sqrt_nonneg _) (Ne.symm hx)
  have hN := length2_add_pos (x m)
  have hB : (0 : ℝ) < B := by
    have := m.pos
    exact_mod_cast this
  have hself : (∑ d, x m d * x m d) = length2 (x m) ^ 2 := by
    unfold length2
    rw [Real.sq_sqrt (Finset.sum_nonneg fun d _ => sq_nonneg _)]
    exact Finset.sum_congr rfl fun d _ => by ring
  have hterm : ∀ k, |excess p x y m k * ((∑ d, x m d * y k d) / ((length2 (x m) + 1e-8) * (length2 (y k) + 1e-8)) -
      cosine (x m) (y k) * ((∑ d, x m d * x m d) / (length2 (x m) * (length2 (x m) + 1e-8))))| ≤ 1e-8 / length2 (x m) := by
    intro k
    have e : (∑ d, x m d * y k d) / ((length2 (x m) + 1e-8) * (length2 (y k) + 1e-8)) -
      cosine (x m) (y k) * ((∑ d, x m d * x m d) / (length2 (x m) * (length2 (x m) + 1e-8))) =
        cosine (x m) (y k) * (1e-8 / (length2 (x m) + 1e-8)) := by
      rw [hself]
      change cosine (x m) (y k) - _ = _
      field_simp
      ring
    rw [e, abs_mul, abs_mul]
    have h1 : |excess p x y m k| ≤ 1 := by
      obtain ⟨h0, h1⟩ := yes_bounds (pairLogit p x y m k)
      unfold excess
      rw [abs_le]
      split <;> constructor <;> linarith
    have h2 := (cosine_abs_lt (x m) (y k)).le
    have h3 : |(1e-8 : ℝ) / (length2 (x m) + 1e-8)| ≤ 1e-8 / length2 (x m) := by
      rw [abs_of_pos (div_pos (by norm_num) hN)]
      exact div_le_div_of_nonneg_left (by norm_num) hl (by norm_num)
    calc _ ≤ 1 * (1 * ((1e-8 : ℝ) / length2 (x m))) :=
          mul_le_mul h1 (mul_le_mul h2 h3 (abs_nonneg _) zero_le_one) (by positivity) zero_le_one
      _ = _ := by ring
  rw [abs_div, abs_mul, abs_of_pos (Real.exp_pos _), abs_of_pos hB, div_le_iff₀ hB]
  have hs : |∑ k, excess p x y m k * ((∑ d, x m d * y k d) / ((length2 (x m) + 1e-8) * (length2 (y k) + 1e-8)) -
      cosine (x m) (y k) * ((∑ d, x m d * x m d) / (length2 (x m) * (length2 (x m) + 1e-8))))| ≤ B * (1e-8 / length2 (x m)) := by
    refine le_trans (Finset.abs_sum_le_sum_abs _ _) (le_trans (Finset.sum_le_sum fun k _ => hterm k) ?_)
    simp
  calc _ ≤ Real.exp p.s * (B * (1e-8 / length2 (x m))) := mul_le_mul_of_nonneg_left hs (Real.exp_pos _).le
    _ = _ := by ring

/-- C155: at the start of the training of the Soft MoE configurations (scale 10, bias -10) the model takes no image and text as
belonging together, whatever the encoders compute, and the loss is above log 2. -/
theorem C155_start (x y : Fin B → Fin D → ℝ) (hB : 0 < B) :
    (∀ i k, yes (pairLogit (initParams 10 (some (-10))) x y i k) < 1 / 2) ∧
      ∃ v, towerLoss (initParams 10 (some (-10))) x y = .ok v ∧ Real.log 2 < v := by
  have hneg : ∀ i k, pairLogit (initParams 10 (some (-10))) x y i k < 0 := by
    intro i k
    have := (abs_lt.1 (cosine_abs_lt (x i) (y k))).2
    simp only [pairLogit, initParams, Option.getD_some]
    rw [Real.exp_log (by norm_num)]
    linarith
  refine ⟨fun i k => ?_, _, C155_loss _ x y, ?_⟩
  · have h1 : Real.exp (pairLogit (initParams 10 (some (-10))) x y i k) < 1 := Real.exp_lt_one_iff.2 (hneg i k)
    have h2 := Real.exp_pos (pairLogit (initParams 10 (some (-10))) x y i k)
    unfold yes
    rw [div_lt_div_iff₀ (by positivity) (by norm_num)]
    linarith
  · have hBr : (0 : ℝ) < B := by exact_mod_cast hB
    unfold batchLoss
    rw [lt_div_iff₀ hBr]
    have hrow : ∀ i : Fin B, Real.log 2 < ∑ k, pairLoss (decide (i = k)) (pairLogit (initParams 10 (some (-10))) x y i k) := by
      intro i
      have h1 : Real.log 2 < pairLoss (decide (i = i)) (pairLogit (initParams 10 (some (-10))) x y i i) := by
        rw [decide_eq_true rfl, pairLoss_true]
        refine Real.log_lt_log (by norm_num) ?_
        have := Real.one_lt_exp_iff.2 (neg_pos.2 (hneg i i))
        linarith
      exact lt_of_lt_of_le h1 (Finset.single_le_sum (f := fun k => pairLoss (decide (i = k))
        (pairLogit (initParams 10 (some (-10))) x y i k)) (fun k _ => (pairLoss_pos _ _).le) (Finset.mem_univ i))
    have : (⟨0, hB⟩ : Fin B) ∈ Finset.univ := Finset.mem_univ _
    have := Finset.sum_lt_sum_of_nonempty ⟨_, this⟩ fun i (_ : i ∈ Finset.univ) => hrow i
    simpa [mul_comm] using this

/-- One image and one text with bias 0 and cosine nearly 0: the model expects half a pair, so the bias should be raised. -/
example : let x : Fin 1 → Fin 2 → ℝ := fun _ => ![1, 0]
    let y : Fin 1 → Fin 2 → ℝ := fun _ => ![0, 1]
    ((∑ i, ∑ k, yes (pairLogit ⟨0, some 0⟩ x y i k)) - (1 : ℕ)) / (1 : ℕ) = (-1 / 2 : ℝ) := by
  intro x y
  simp [x, y, pairLogit, cosine, yes, Fin.sum_univ_two]
  norm_num

/-- Two images and two texts, all cosines zero: with bias 0 the model expects two pairs, as there are. -/
example : let x : Fin 2 → Fin 2 → ℝ := fun _ => ![1, 0]
    let y : Fin 2 → Fin 2 → ℝ := fun _ => ![0, 1]
    ∑ i, ∑ k, yes (pairLogit ⟨0, some 0⟩ x y i k) = (2 : ℕ) := by
  intro x y
  simp [x, y, pairLogit, cosine, yes, Fin.sum_univ_two]
  norm_num

example : length2 (![3, 4] : Fin 2 → ℝ) ≠ 0 := by
  unfold length2
  simp [Fin.sum_univ_two]
  norm_num

end Verif.Contrastive
