import Verif.Model.ContrastiveStep
import Verif.Props.Contrastive
import Verif.Props.Trainer
import Mathlib.Analysis.SpecialFunctions.Log.Deriv
import Mathlib.Analysis.SpecialFunctions.ExpDeriv
import Mathlib.Analysis.Calculus.FDeriv.Add
import Mathlib.Analysis.Calculus.FDeriv.Mul

/-!
C91: the contrastive loss and its gradients with microsteps (vmoe/projects/contrastive/trainer.py).
-/

namespace Verif.Contrastive

open Verif Trainer ContrastiveSpec BatchSpec

variable {P I T R : Type}

/-- The mean over the images of the losses of the pairs of an image and a text which are kept; image `x` and text `y` belong
together when `x = y`. -/
noncomputable def pairsLoss (keep : Nat → Nat → Prop) [DecidableRel keep] (l : I → T → ℝ) (B : Nat) (img : Nat → I) (txt : Nat → T) :
    ℝ :=
  (∑ x ∈ Finset.range B, ∑ y ∈ Finset.range B, if keep x y then pairLoss (decide (x = y)) (l (img x) (txt y)) else 0) / B

/-- The positions `i`, `i + m`, ... of a batch. -/
theorem every_range {α : Type} (m i : Nat) (hi : i < m) (f : Nat → α) (k : Nat) :
    every m i ((List.range (k * m)).map f) = (List.range k).map fun a => f (i + a * m) := by
  rw [every_map]
  induction k with
  | zero => simp [every]
  | succ k ih =>
    rw [Nat.succ_mul, List.range_add, every_append m i _ _ (by simp), List.map_append, ih,
      every_short m i hi _ (by simp), List.range_succ, List.map_append]
    simp [Nat.add_comm]

theorem mainLoss_ok (l : I → T → ℝ) (B : Nat) (img : Nat → I) (txt : Nat → T) :
    mainLoss l ((List.range B).map img) ((List.range B).map txt) = .ok (pairsLoss (fun _ _ => True) l B img txt) := by
  obtain ⟨y, h1, _, h3⟩ := sigmoidLoss_ok (logitArray l ((List.range B).map img) ((List.range B).map txt)) [] B
    (by simp [logitArray])
  unfold mainLoss
  rw [h1]
  change Except.ok _ = _
  congr 1
  unfold pairsLoss
  simp only [List.length_map, List.length_range, if_true]
  congr 1
  refine Finset.sum_congr rfl fun x hx => ?_
  have := h3 [] x
  rw [List.nil_append] at this
  rw [this]
  refine Finset.sum_congr rfl fun y' hy => ?_
  rw [Finset.mem_range] at hx hy
  simp [logitArray, hx, hy]

/-- Sums over the positions of a batch, by microstep. -/
theorem sum_positions (m k : Nat) (f : Nat → ℝ) :
    ∑ x ∈ Finset.range (k * m), f x = ∑ i ∈ Finset.range m, ∑ a ∈ Finset.range k, f (i + a * m) := by
  induction k with
  | zero => simp
  | succ k ih =>
    rw [Nat.succ_mul, Finset.sum_range_add, ih, ← Finset.sum_add_distrib]
    refine Finset.sum_congr rfl fun i _ => ?_
    rw [Finset.sum_range_succ, Nat.add_comm i (k * m)]

/-- The mean over the microsteps of their losses is that of the pairs of the same microstep. -/
theorem pairsLoss_microsteps (m k : Nat) (hm : 0 < m) (l : I → T → ℝ) (img : Nat → I) (txt : Nat → T) :
    1 / (m : ℝ) * ∑ i ∈ Finset.range m, pairsLoss (fun _ _ => True) l k (fun a => img (i + a * m)) (fun a => txt (i + a * m)) =
      pairsLoss (fun x y => x % m = y % m) l (k * m) img txt := by
  unfold pairsLoss
  rw [← Finset.sum_div, sum_positions]
  simp only [if_true]
  have h : ∀ i ∈ Finset.range m, ∑ a ∈ Finset.range k, ∑ y ∈ Finset.range (k * m),
      (if (i + a * m) % m = y % m then pairLoss (decide (i + a * m = y)) (l (img (i + a * m)) (txt y)) else 0) =
      ∑ a ∈ Finset.range k, ∑ b ∈ Finset.range k, pairLoss (decide (a = b)) (l (img (i + a * m)) (txt (i + b * m))) := by
    intro i hi
    rw [Finset.mem_range] at hi
    refine Finset.sum_congr rfl fun a _ => ?_
    rw [sum_positions, Finset.sum_eq_single_of_mem i (Finset.mem_range.2 hi)]
    · refine Finset.sum_congr rfl fun b _ => ?_
      rw [if_pos (by simp)]
      congr 1
      rw [decide_eq_decide]
      constructor
      · intro h
        exact Nat.eq_of_mul_eq_mul_right hm (Nat.add_left_cancel h)
      · rintro rfl
        rfl
    · intro j hj hji
      rw [Finset.mem_range] at hj
      refine Finset.sum_eq_zero fun b _ => if_neg ?_
      rw [Nat.add_mul_mod_self_right, Nat.add_mul_mod_self_right, Nat.mod_eq_of_lt hi, Nat.mod_eq_of_lt hj]
      exact fun h => hji h.symm
  rw [Finset.sum_congr rfl h]
  push_cast
  rw [one_div_mul_eq_div, div_div]

theorem pairLoss_differentiable (b : Bool) : Differentiable ℝ (pairLoss b) := by
  have h1 : ∀ x : ℝ, 1 + Real.exp x ≠ 0 := fun x => by positivity
  have hy : Differentiable ℝ yes := by
    unfold yes
    exact Real.differentiable_exp.div (Real.differentiable_exp.const_add 1) h1
  unfold pairLoss
  cases b with
  | true =>
    simp only [if_true]
    exact (hy.log fun x => by unfold yes; positivity).neg
  | false =>
    simp only [Bool.false_eq_true, if_false]
    refine ((hy.const_sub 1).log fun x => ?_).neg
    unfold yes
    rw [one_sub_div (h1 x)]
    simp [h1 x]

theorem pairsLoss_differentiable [NormedAddCommGroup P] [NormedSpace ℝ P] (keep : Nat → Nat → Prop) [DecidableRel keep]
    (l : P → I → T → ℝ) (p : P) (hd : ∀ a b, DifferentiableAt ℝ (fun p => l p a b) p) (B : Nat) (img : Nat → I) (txt : Nat → T) :
    DifferentiableAt ℝ (fun p => pairsLoss keep (l p) B img txt) p := by
  unfold pairsLoss
  simp only [div_eq_mul_inv]
  refine DifferentiableAt.mul_const (𝔸 := ℝ) ?_ _
  refine DifferentiableAt.fun_sum fun x _ => DifferentiableAt.fun_sum fun y _ => ?_
  split
  · exact (pairLoss_differentiable _).differentiableAt.comp p (hd _ _)
  · exact differentiableAt_const _

variable [NormedAddCommGroup P] [NormedSpace ℝ P]

/-- The generators of the microsteps. -/
def rngsAt (split : R → R × R) (r : R) (i : Nat) : R := (fun r => (split r).2)^[i] r

theorem compute_ok (split : R → R × R) (logit : P → I → T → ℝ) (aux : P → R → List I → List T → ℝ) (params : P) (B : Nat)
    (img : Nat → I) (txt : Nat → T) (r : R) :
    computeGradsAndMetrics split (fun p _ => logit p) aux params ((List.range B).map img) ((List.range B).map txt) r =
      .ok (fderiv ℝ (fun p => pairsLoss (fun _ _ => True) (logit p) B img txt +
          aux p (split r).1 ((List.range B).map img) ((List.range B).map txt)) params, (split r).2,
        (pairsLoss (fun _ _ => True) (logit params) B img txt, pairsLoss (fun _ _ => True) (logit params) B img txt +
          aux params (split r).1 ((List.range B).map img) ((List.range B).map txt))) := by
  unfold computeGradsAndMetrics
  simp only [mainLoss_ok]

/-- C91: without microsteps the loss is that of all pairs of an image and a text of the batch, and the gradient is its
derivative (with the auxiliary loss of the model). -/
theorem C91_full_batch (devices : Nat) (split : R → R × R) (logit : P → I → T → ℝ) (aux : P → R → List I → List T → ℝ)
    (microsteps : Option Int) (hms : ∀ m, microsteps = some m → m ≤ 0) (params : P) (B : Nat) (img : Nat → I) (txt : Nat → T) (r : R) :
    stepGradsAndMetrics devices split (fun p _ => logit p) aux microsteps params ((List.range B).map img) ((List.range B).map txt) r =
      .ok (fderiv ℝ (fun p => pairsLoss (fun _ _ => True) (logit p) B img txt +
          aux p (split r).1 ((List.range B).map img) ((List.range B).map txt)) params, (split r).2,
        (pairsLoss (fun _ _ => True) (logit params) B img txt, pairsLoss (fun _ _ => True) (logit params) B img txt +
          aux params (split r).1 ((List.range B).map img) ((List.range B).map txt))) := by
  unfold stepGradsAndMetrics
  rw [C48_disabled devices _ microsteps hms, compute_ok]

/-- C91: with `m` microsteps the loss is that of the pairs whose image and text are in the same microstep, and the gradient is
its derivative, with the mean of the auxiliary losses of the microsteps. -/
theorem C91_microsteps (devices : Nat) (hdev : 0 < devices) (split : R → R × R) (logit : P → I → T → ℝ)
    (aux : P → R → List I → List T → ℝ) (m k : Nat) (hm : 0 < m) (hd : devices ∣ k * m) (hdvd : m ∣ k * m / devices) (params : P)
    (hdiff : ∀ a b, DifferentiableAt ℝ (fun p => logit p a b) params)
    (haux : ∀ r a b, DifferentiableAt ℝ (fun p => aux p r a b) params) (img : Nat → I) (txt : Nat → T) (r : R) :
    ∃ (auxMean : P → ℝ), (∀ p, auxMean p = 1 / (m : ℝ) * ∑ i ∈ Finset.range m, aux p (split (rngsAt split r i)).1
        ((List.range k).map fun a => img (i + a * m)) ((List.range k).map fun a => txt (i + a * m))) ∧
      stepGradsAndMetrics devices split (fun p _ => logit p) aux (some (m : Int)) params ((List.range (k * m)).map img)
        ((List.range (k * m)).map txt) r =
      .ok (fderiv ℝ (fun p => pairsLoss (fun x y => x % m = y % m) (logit p) (k * m) img txt + auxMean p) params,
        rngsAt split r m, (pairsLoss (fun x y => x % m = y % m) (logit params) (k * m) img txt,
          pairsLoss (fun x y => x % m = y % m) (logit params) (k * m) img txt + auxMean params)) := by
  refine ⟨_, fun p => rfl, ?_⟩
  have key := C48_microsteps devices hdev (computeGradsAndMetrics split (fun p _ => logit p) aux) m hm params
    ((List.range (k * m)).map img) ((List.range (k * m)).map txt) (by simp) (by simpa using hd) (by simpa using hdvd)
    (fun i => fderiv ℝ (fun p => pairsLoss (fun _ _ => True) (logit p) k (fun a => img (i + a * m)) (fun a => txt (i + a * m)) +
          aux p (split (rngsAt split r i)).1 ((List.range k).map fun a => img (i + a * m))
            ((List.range k).map fun a => txt (i + a * m))) params)
    (rngsAt split r)
    (fun i => (pairsLoss (fun _ _ => True) (logit params) k (fun a => img (i + a * m)) (fun a => txt (i + a * m)),
        pairsLoss (fun _ _ => True) (logit params) k (fun a => img (i + a * m)) (fun a => txt (i + a * m)) +
          aux params (split (rngsAt split r i)).1 ((List.range k).map fun a => img (i + a * m))
            ((List.range k).map fun a => txt (i + a * m))))
    (by
      intro i hi
      rw [every_range m i hi, every_range m i hi, compute_ok]
      congr 3
      unfold rngsAt
      rw [Function.iterate_succ_apply'])
  unfold stepGradsAndMetrics
  rw [show rngsAt split r 0 = r from rfl] at key
  rw [key]
  have hsum : ∀ {M : Type} [AddCommMonoid M] (f : Nat → M), ((List.range m).map f).sum = ∑ i ∈ Finset.range m, f i :=
    fun f => rfl
  have htotal : ∀ p, pairsLoss (fun x y => x % m = y % m) (logit p) (k * m) img txt + 1 / (m : ℝ) * ∑ i ∈ Finset.range m,
        aux p (split (rngsAt split r i)).1 ((List.range k).map fun a => img (i + a * m)) ((List.range k).map fun a => txt (i + a * m)) =
      1 / (m : ℝ) * ∑ i ∈ Finset.range m, (pairsLoss (fun _ _ => True) (logit p) k (fun a => img (i + a * m))
        (fun a => txt (i + a * m)) + aux p (split (rngsAt split r i)).1 ((List.range k).map fun a => img (i + a * m))
          ((List.range k).map fun a => txt (i + a * m))) := by
    intro p
    rw [← pairsLoss_microsteps m k hm, Finset.sum_add_distrib, mul_add]
  have hone : ∀ i, DifferentiableAt ℝ (fun p => pairsLoss (fun _ _ => True) (logit p) k (fun a => img (i + a * m))
        (fun a => txt (i + a * m)) + aux p (split (rngsAt split r i)).1 ((List.range k).map fun a => img (i + a * m))
          ((List.range k).map fun a => txt (i + a * m))) params :=
    fun i => (pairsLoss_differentiable _ logit params hdiff _ _ _).add (haux _ _ _)
  simp only [htotal]
  rw [hsum, hsum, fderiv_const_mul (DifferentiableAt.fun_sum fun i _ => hone i), fderiv_fun_sum fun i _ => hone i]
  congr 3
  ext
  · rw [Prod.smul_fst, Prod.fst_sum, smul_eq_mul, ← pairsLoss_microsteps m k hm]
  · rw [Prod.smul_snd, Prod.snd_sum, smul_eq_mul]

/-- C91: microsteps leave out the losses of the pairs of an image and a text of different microsteps: with more than one
microstep the reported loss of the same batch is smaller. -/
theorem C91_missing_pairs (m k : Nat) (hm : 0 < m) (l : I → T → ℝ) (img : Nat → I) (txt : Nat → T) :
    pairsLoss (fun _ _ => True) l (k * m) img txt = pairsLoss (fun x y => x % m = y % m) l (k * m) img txt +
      pairsLoss (fun x y => x % m ≠ y % m) l (k * m) img txt ∧
    (1 < m → 0 < k → 0 < pairsLoss (fun x y => x % m ≠ y % m) l (k * m) img txt) := by
  constructor
  · unfold pairsLoss
    rw [← add_div, ← Finset.sum_add_distrib]
    congr 1
    refine Finset.sum_congr rfl fun x _ => ?_
    rw [← Finset.sum_add_distrib]
    refine Finset.sum_congr rfl fun y _ => ?_
    by_cases h : x % m = y % m <;> simp [h]
  · intro h1 hk
    have hB : 1 < k * m := lt_of_lt_of_le h1 (Nat.le_mul_of_pos_left m hk)
    have hnn : ∀ x y, 0 ≤ if x % m ≠ y % m then pairLoss (decide (x = y)) (l (img x) (txt y)) else 0 := by
      intro x y
      split
      · exact (pairLoss_pos _ _).le
      · exact le_rfl
    unfold pairsLoss
    refine div_pos ?_ (by exact_mod_cast (by omega : 0 < k * m))
    refine Finset.sum_pos' (fun x _ => Finset.sum_nonneg fun y _ => hnn x y) ⟨0, Finset.mem_range.2 (by omega), ?_⟩
    refine Finset.sum_pos' (fun y _ => hnn 0 y) ⟨1, Finset.mem_range.2 hB, ?_⟩
    rw [if_pos (by beta_reduce; rw [Nat.zero_mod, Nat.mod_eq_of_lt h1]; exact Nat.zero_ne_one)]
    exact pairLoss_pos _ _

/-- C91 is false as "the number of microsteps only trades memory for time": for every model whose logits are those of pairs
and every batch, two or more microsteps report a smaller loss than the whole batch. -/
theorem C91_loss_counterexample (devices : Nat) (hdev : 0 < devices) (split : R → R × R) (logit : P → I → T → ℝ) (m k : Nat)
    (hm : 1 < m) (hk : 0 < k) (hd : devices ∣ k * m) (hdvd : m ∣ k * m / devices) (params : P)
    (hdiff : ∀ a b, DifferentiableAt ℝ (fun p => logit p a b) params) (img : Nat → I) (txt : Nat → T) (r : R) :
    ∃ g g' s s' loss loss',
      stepGradsAndMetrics devices split (fun p _ => logit p) (fun _ _ _ _ => 0) none params ((List.range (k * m)).map img)
        ((List.range (k * m)).map txt) r = .ok (g, s, (loss, loss)) ∧
      stepGradsAndMetrics devices split (fun p _ => logit p) (fun _ _ _ _ => 0) (some (m : Int)) params
        ((List.range (k * m)).map img) ((List.range (k * m)).map txt) r = .ok (g', s', (loss', loss')) ∧ loss' < loss := by
  obtain ⟨am, ham, h⟩ := C91_microsteps devices hdev split logit (fun _ _ _ _ => 0) m k (by omega) hd hdvd params hdiff
    (fun _ _ _ => differentiableAt_const _) img txt r
  have h0 : am params = 0 := by rw [ham]; simp
  have hf := C91_full_batch devices split logit (fun _ _ _ _ => 0) none (by simp) params (k * m) img txt r
  rw [h0, add_zero] at h
  simp only [add_zero] at hf
  refine ⟨_, _, _, _, _, _, hf, h, ?_⟩
  · obtain ⟨h1, h2⟩ := C91_missing_pairs m k (by omega) (logit params) img txt
    rw [h1]
    linarith [h2 hm hk]

/-- C91: a batch with more or fewer texts than images is an error (the losses need a square of logits). -/
theorem C91_rejects (devices : Nat) (split : R → R × R) (logit : P → R → I → T → ℝ) (aux : P → R → List I → List T → ℝ)
    (params : P) (images : List I) (texts : List T) (h : images.length ≠ texts.length) (r : R) :
    stepGradsAndMetrics devices split logit aux none params images texts r = .error .valueError := by
  unfold stepGradsAndMetrics
  rw [C48_disabled devices _ none (by simp)]
  have hm : mainLoss (logit params (split r).1) images texts = .error .valueError := by
    unfold mainLoss
    have : sigmoidLoss (logitArray (logit params (split r).1) images texts) = .error .valueError := by
      simp [sigmoidLoss, logitArray, Ne.symm h]
    rw [this]
    rfl
  unfold computeGradsAndMetrics
  simp only [hm]

/-- A linear model, four pairs on two devices, two microsteps: pairs 0 and 2, and 1 and 3. -/
example : ∃ g s loss, stepGradsAndMetrics (P := ℝ) (I := ℝ) (T := ℝ) (R := Nat) 2 (fun r => (r, r + 1)) (fun p _ a b => p * (a * b))
      (fun _ _ _ _ => 0) (some ((2 : Nat) : Int)) 1 ((List.range (2 * 2)).map fun i => (i : ℝ)) ((List.range (2 * 2)).map fun i => (i : ℝ)) 0
        = .ok (g, s, loss) ∧ s = 2 ∧
      loss.1 = pairsLoss (fun x y => x % 2 = y % 2) (fun a b : ℝ => 1 * (a * b)) (2 * 2) (fun i => (i : ℝ)) (fun i => (i : ℝ)) := by
  obtain ⟨am, _, h⟩ := C91_microsteps (P := ℝ) (I := ℝ) (T := ℝ) (R := Nat) 2 (by omega) (fun r => (r, r + 1))
    (fun p a b => p * (a * b)) (fun _ _ _ _ => 0) 2 2 (by omega) (by decide) (by decide) 1
    (fun a b => differentiableAt_id.mul_const _) (fun _ _ _ => differentiableAt_const _) (fun i => (i : ℝ)) (fun i => (i : ℝ)) 0
  exact ⟨_, _, _, h, rfl, rfl⟩

end Verif.Contrastive
