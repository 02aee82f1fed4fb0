import Verif.Proofs.Contrastive

/-! C64: contrastive training (vmoe/projects/contrastive/models.py, trainer.py). -/

namespace Verif.Contrastive

open Verif ContrastiveSpec

variable {M N D : Nat}

/-- C64: without images and texts the model raises `ValueError`. -/
theorem C64_no_input (p : Params) : twoTower (M := M) (N := N) (D := D) p none none = .error .valueError := rfl

/-- C64: an embedding has a norm below one, and it is the encoder's vector divided by its length2 (up to 1e-8): its norm differs
from one by less than `1e-8 / norm`. -/
theorem C64_embedding (p : Params) (z : Fin M → Fin D → ℝ) :
    ∃ e, twoTower (N := N) p (some z) none = .ok (.images e) ∧ twoTower (M := N) p none (some z) = .ok (.texts e) ∧
      ∀ m, length2 (e m) < 1 ∧ (length2 (z m) ≠ 0 → 1 - length2 (e m) < 1e-8 / length2 (z m)) ∧
        ∃ a > 0, ∀ d, e m d = a * z m d := by
  refine ⟨fun m => normalize (z m), rfl, rfl, ?_⟩
  intro m
  have hn : 0 ≤ length2 (z m) := Real.sqrt_nonneg _
  have hpos : (0 : ℝ) < length2 (z m) + 1e-8 := by norm_num; linarith
  refine ⟨?_, ?_, ?_⟩
  · rw [norm_normalize, div_lt_one hpos]
    norm_num
  · intro h0
    have h1 : 0 < length2 (z m) := lt_of_le_of_ne hn (Ne.symm h0)
    rw [norm_normalize]
    have : 1 - length2 (z m) / (length2 (z m) + 1e-8) = 1e-8 / (length2 (z m) + 1e-8) := by field_simp; ring
    rw [this]
    apply div_lt_div_of_pos_left (by norm_num) h1
    norm_num
  · refine ⟨1 / (length2 (z m) + 1e-8), by positivity, ?_⟩
    intro d
    simp only [normalize, length2]
    rw [one_div_mul_eq_div]

/-- C64: with images and texts, every logit is the scaled dot product of the embeddings that the model returns for the images
alone and for the texts alone, plus the bias if there is one; it differs from the bias by less than the scale. -/
theorem C64_logits (p : Params) (x : Fin M → Fin D → ℝ) (y : Fin N → Fin D → ℝ) :
    ∃ (l : Fin M → Fin N → ℝ) (e : Fin M → Fin D → ℝ) (f : Fin N → Fin D → ℝ),
      twoTower p (some x) (some y) = .ok (.logits l) ∧
      twoTower (N := N) p (some x) none = .ok (.images e) ∧ twoTower (M := M) p none (some y) = .ok (.texts f) ∧
      ∀ m n, l m n = Real.exp p.s * (∑ d, e m d * f n d) + p.b.getD 0 ∧ |l m n - p.b.getD 0| < Real.exp p.s := by
  have bound : ∀ m n, |Real.exp p.s * ∑ d, normalize (x m) d * normalize (y n) d| < Real.exp p.s := by
    intro m n
    rw [abs_mul, abs_of_pos (Real.exp_pos _)]
    have := dot_lt_one _ _ (sum_sq_normalize (x m)) (sum_sq_normalize (y n))
    have := mul_lt_mul_of_pos_left this (Real.exp_pos p.s)
    linarith
  unfold twoTower
  cases hb : p.b with
  | none =>
    refine ⟨_, _, _, rfl, rfl, rfl, ?_⟩
    intro m n
    have := bound m n
    refine ⟨?_, ?_⟩
    · simp [mul_comm]
    · simpa [mul_comm] using this
  | some b =>
    refine ⟨_, _, _, rfl, rfl, rfl, ?_⟩
    intro m n
    have := bound m n
    refine ⟨?_, ?_⟩
    · simp [mul_comm]
    · simpa [mul_comm] using this

/-- C64: with the initial parameters the logits are within `scale_init` of `bias_init` (0 without bias). -/
theorem C64_initial (scaleInit : ℝ) (h : 0 < scaleInit) (biasInit : Option ℝ) (x : Fin M → Fin D → ℝ) (y : Fin N → Fin D → ℝ) :
    ∃ l, twoTower (initParams scaleInit biasInit) (some x) (some y) = .ok (.logits l) ∧
      ∀ m n, |l m n - biasInit.getD 0| < scaleInit := by
  obtain ⟨l, _, _, h1, _, _, h2⟩ := C64_logits (initParams scaleInit biasInit) x y
  refine ⟨l, h1, fun m n => ?_⟩
  have := (h2 m n).2
  simp only [initParams, Real.exp_log h] at this
  exact this

/-- C64: the loss of row `r` is the sum of the losses of its pairs, where only the text with the same number belongs to the
image; it is not negative. -/
theorem C64_loss (x : NdArray ℝ) (lead : List Nat) (n : Nat) (h : x.shape = lead ++ [n, n]) :
    ∃ y, sigmoidLoss x = .ok y ∧ y.shape = lead ++ [n] ∧ ∀ i r,
      y.get (i ++ [r]) = ∑ k ∈ Finset.range n, pairLoss (decide (r = k)) (x.get (i ++ [r, k])) ∧ 0 ≤ y.get (i ++ [r]) := by
  obtain ⟨y, h1, h2, h3⟩ := sigmoidLoss_ok x lead n h
  refine ⟨y, h1, h2, fun i r => ⟨h3 i r, ?_⟩⟩
  rw [h3]
  exact Finset.sum_nonneg fun k _ => (pairLoss_pos _ _).le

/-- C64: arrays whose last two axes differ, or with less than two axes, are rejected. -/
theorem C64_not_square (x : NdArray ℝ) :
    (∀ lead m n, x.shape = lead ++ [m, n] → m ≠ n → sigmoidLoss x = .error .valueError) ∧
    (x.shape.length < 2 → sigmoidLoss x = .error .valueError) := by
  constructor
  · intro lead m n h hne
    unfold sigmoidLoss
    have hr : x.shape.reverse = n :: m :: lead.reverse := by simp [h]
    rw [hr]
    simp only [ne_eq]
    rw [if_pos (Ne.symm hne)]
  · intro h
    unfold sigmoidLoss
    have hl : x.shape.reverse.length < 2 := by simpa using h
    match hs : x.shape.reverse with
    | [] => rfl
    | [_] => rfl
    | a :: b :: l => rw [hs] at hl; simp at hl

/-- C64: permuting images and texts in the same way permutes the losses, so their sum (and mean) stays. -/
theorem C64_permutation (x x' : NdArray ℝ) (lead : List Nat) (n : Nat) (h : x.shape = lead ++ [n, n])
    (h' : x'.shape = lead ++ [n, n]) (σ : Equiv.Perm Nat) (hσ : ∀ r, r < n ↔ σ r < n)
    (hx : ∀ i r k, r < n → k < n → x'.get (i ++ [r, k]) = x.get (i ++ [σ r, σ k])) :
    ∃ y y', sigmoidLoss x = .ok y ∧ sigmoidLoss x' = .ok y' ∧
      (∀ i r, r < n → y'.get (i ++ [r]) = y.get (i ++ [σ r])) ∧
      ∀ i, ∑ r ∈ Finset.range n, y'.get (i ++ [r]) = ∑ r ∈ Finset.range n, y.get (i ++ [r]) := by
  obtain ⟨y, h1, _, h3⟩ := sigmoidLoss_ok x lead n h
  obtain ⟨y', h1', _, h3'⟩ := sigmoidLoss_ok x' lead n h'
  have key : ∀ i r, r < n → y'.get (i ++ [r]) = y.get (i ++ [σ r]) := by
    intro i r hr
    rw [h3, h3']
    refine Finset.sum_equiv σ (fun k => by simpa using hσ k) ?_
    intro k hk
    rw [hx i r k hr (Finset.mem_range.1 hk)]
    congr 1
    simp
  refine ⟨y, y', h1, h1', key, fun i => ?_⟩
  refine Finset.sum_equiv σ (fun k => by simpa using hσ k) ?_
  intro r hr
  exact key i r (Finset.mem_range.1 hr)

/-- C64: exchanging the roles of images and texts does not change the total loss. -/
theorem C64_transpose (x x' : NdArray ℝ) (lead : List Nat) (n : Nat) (h : x.shape = lead ++ [n, n])
    (h' : x'.shape = lead ++ [n, n]) (hx : ∀ i r k, r < n → k < n → x'.get (i ++ [r, k]) = x.get (i ++ [k, r])) :
    ∃ y y', sigmoidLoss x = .ok y ∧ sigmoidLoss x' = .ok y' ∧
      ∀ i, ∑ r ∈ Finset.range n, y'.get (i ++ [r]) = ∑ r ∈ Finset.range n, y.get (i ++ [r]) := by
  obtain ⟨y, h1, _, h3⟩ := sigmoidLoss_ok x lead n h
  obtain ⟨y', h1', _, h3'⟩ := sigmoidLoss_ok x' lead n h'
  refine ⟨y, y', h1, h1', fun i => ?_⟩
  simp only [h3, h3']
  rw [Finset.sum_comm]
  apply Finset.sum_congr rfl
  intro r hr
  apply Finset.sum_congr rfl
  intro k hk
  rw [hx i k r (Finset.mem_range.1 hk) (Finset.mem_range.1 hr)]
  congr 1
  simp [eq_comm]

/-- C64: a loss below `log 2` means that the image is matched to the right text: the logit of its own text is positive and all
others are negative. -/
theorem C64_small_loss (x : NdArray ℝ) (lead : List Nat) (n : Nat) (h : x.shape = lead ++ [n, n]) (y : NdArray ℝ)
    (hy : sigmoidLoss x = .ok y) (i : List Nat) (r : Nat) (hr : r < n) (hl : y.get (i ++ [r]) < Real.log 2) :
    0 < x.get (i ++ [r, r]) ∧ ∀ k < n, k ≠ r → x.get (i ++ [r, k]) < 0 := by
  obtain ⟨y', h1, _, h3⟩ := sigmoidLoss_ok x lead n h
  rw [h1] at hy
  cases hy
  rw [h3] at hl
  have each : ∀ k < n, pairLoss (decide (r = k)) (x.get (i ++ [r, k])) < Real.log 2 := by
    intro k hk
    refine lt_of_le_of_lt ?_ hl
    exact Finset.single_le_sum (f := fun k => pairLoss (decide (r = k)) (x.get (i ++ [r, k])))
      (fun k _ => (pairLoss_pos _ _).le) (Finset.mem_range.2 hk)
  constructor
  · have := each r hr
    rw [decide_eq_true rfl, pairLoss_true, Real.log_lt_log_iff (by positivity) (by norm_num)] at this
    have : Real.exp (-x.get (i ++ [r, r])) < Real.exp 0 := by rw [Real.exp_zero]; linarith
    rw [Real.exp_lt_exp] at this
    linarith
  · intro k hk hne
    have := each k hk
    rw [decide_eq_false (Ne.symm hne), pairLoss_false, Real.log_lt_log_iff (by positivity) (by norm_num)] at this
    have : Real.exp (x.get (i ++ [r, k])) < Real.exp 0 := by rw [Real.exp_zero]; linarith
    rwa [Real.exp_lt_exp] at this

/-- A permutation of three numbers, and an array for it. -/
example : ∃ σ : Equiv.Perm Nat, (∀ r, r < 3 ↔ σ r < 3) ∧ σ 0 = 1 := by
  refine ⟨Equiv.swap 0 1, ?_, by simp⟩
  intro r
  by_cases h0 : r = 0
  · subst h0; simp
  · by_cases h1 : r = 1
    · subst h1; simp
    · rw [Equiv.swap_apply_of_ne_of_ne h0 h1]

/-- A single pair with logit 1 has a loss below `log 2`. -/
example : ∃ y, sigmoidLoss { shape := [1, 1], get := fun _ => 1 } = .ok y ∧ y.get ([] ++ [0]) < Real.log 2 := by
  obtain ⟨y, h1, _, h3⟩ := sigmoidLoss_ok { shape := [1, 1], get := fun _ => 1 } [] 1 rfl
  refine ⟨y, h1, ?_⟩
  rw [h3]
  simp only [Finset.sum_range_one, decide_true]
  rw [pairLoss_true, Real.log_lt_log_iff (by positivity) (by norm_num)]
  have : Real.exp (-1) < Real.exp 0 := Real.exp_lt_exp.2 (by norm_num)
  rw [Real.exp_zero] at this
  linarith

/-- Encoder outputs that are not zero. -/
example : length2 (fun _ : Fin 2 => (1 : ℝ)) ≠ 0 := by
  simp [length2]

end Verif.Contrastive
