import Mathlib.Analysis.Calculus.Deriv.Add
import Mathlib.Analysis.Calculus.Deriv.Mul
import Mathlib.Analysis.Convex.Jensen
import Mathlib.Analysis.Convex.SpecificFunctions.Basic
import Mathlib.Analysis.SpecialFunctions.ExpDeriv
import Mathlib.Analysis.SpecialFunctions.Log.Deriv
import Verif.Props.ContrastiveStep
import Verif.Props.LossFn

/-! C150: the gradients of the losses of the configuration (vmoe/train/trainer.py:441-477,658-667). -/

namespace Verif.LossFn

open Verif EnsembleEval EnsembleEvalSpec

variable {C N : Nat}

/-- The main loss of a batch is `v`: the mean of the losses of the examples, for the loss of this name without arguments. -/
def MainLoss (name : String) (logits labels : Fin N → Row C) (v : ℝ) : Prop :=
  ∃ f loss, getLossFn name.toList [] = .ok f ∧ f.train (List.ofFn logits) (List.ofFn labels) = .ok loss ∧ v = mean loss

theorem mean_zip (g : Row C → Row C → ℝ) (X Y : Fin N → Row C) :
    zipRows g (List.ofFn X) (List.ofFn Y) = .ok (List.ofFn fun i => g (X i) (Y i)) := by
  unfold zipRows
  rw [if_pos (by simp)]
  congr 1
  apply List.ext_getElem
  · simp
  · intro i _ _
    simp

theorem main_softmax (X Y : Fin N → Row C) (v : ℝ) :
    MainLoss "softmax_xent" X Y v ↔ v = (∑ i, softmaxXent (X i) (Y i)) / N := by
  have h : ∀ f : LossFns C, getLossFn "softmax_xent".toList [] = .ok f →
      f.train (List.ofFn X) (List.ofFn Y) = .ok (List.ofFn fun i => softmaxXent (X i) (Y i)) := by
    intro f hf
    unfold getLossFn at hf
    rw [if_pos rfl] at hf
    rw [← Except.ok.inj hf]
    simp only [partialPlain, if_true, softmaxCrossEntropy]
    exact mean_zip _ X Y
  constructor
  · rintro ⟨f, loss, h1, h2, rfl⟩
    rw [h f h1] at h2
    rw [← Except.ok.inj h2, mean, List.sum_ofFn, List.length_ofFn]
  · rintro rfl
    obtain ⟨f, hf⟩ : ∃ f : LossFns C, getLossFn "softmax_xent".toList [] = .ok f := ⟨_, by unfold getLossFn; rw [if_pos rfl]⟩
    exact ⟨f, _, hf, h f hf, by rw [mean, List.sum_ofFn, List.length_ofFn]⟩

theorem main_sigmoid (X Y : Fin N → Row C) (v : ℝ) :
    MainLoss "sigmoid_xent" X Y v ↔ v = (∑ i, ∑ c, sigmoidXent (X i) (Y i) c) / N := by
  have hne : ¬ "sigmoid_xent".toList = "softmax_xent".toList := by decide
  have h : ∀ f : LossFns C, getLossFn "sigmoid_xent".toList [] = .ok f →
      f.train (List.ofFn X) (List.ofFn Y) = .ok (List.ofFn fun i => ∑ c, sigmoidXent (X i) (Y i) c) := by
    intro f hf
    unfold getLossFn at hf
    rw [if_neg hne, if_pos rfl] at hf
    rw [← Except.ok.inj hf]
    simp only [partialPlain, if_true, defaultSigmoidXent]
    exact mean_zip _ X Y
  constructor
  · rintro ⟨f, loss, h1, h2, rfl⟩
    rw [h f h1] at h2
    rw [← Except.ok.inj h2, mean, List.sum_ofFn, List.length_ofFn]
  · rintro rfl
    obtain ⟨f, hf⟩ : ∃ f : LossFns C, getLossFn "sigmoid_xent".toList [] = .ok f :=
      ⟨_, by unfold getLossFn; rw [if_neg hne, if_pos rfl]⟩
    exact ⟨f, _, hf, h f hf, by rw [mean, List.sum_ofFn, List.length_ofFn]⟩

/-- The cross entropy is the logarithm of the sum of the exponentials, less the logits of the labels. -/
theorem softmaxXent_eq (x y : Row C) :
    softmaxXent x y = (∑ c, y c) * Real.log (∑ c, Real.exp (x c)) - ∑ c, y c * x c := by
  unfold softmaxXent logSoftmax
  rw [Finset.sum_mul, ← Finset.sum_sub_distrib, ← Finset.sum_neg_distrib]
  exact Finset.sum_congr rfl fun c _ => by ring

theorem sigmoidXent_eq (x y : Row C) (c : Fin C) : sigmoidXent x y c = Real.log (1 + Real.exp (x c)) - y c * x c := by
  unfold sigmoidXent logSigmoid
  have h : Real.log (1 + Real.exp (x c)) = x c + Real.log (1 + Real.exp (-(x c))) := by
    have h1 : 1 + Real.exp (x c) = Real.exp (x c) * (1 + Real.exp (-(x c))) := by
      rw [mul_add, ← Real.exp_add, add_neg_cancel, Real.exp_zero]
      ring
    rw [h1, Real.log_mul (Real.exp_pos _).ne' (by positivity), Real.log_exp]
  simp only [Pi.neg_apply, neg_neg]
  rw [h]
  ring

theorem line_deriv (a d : ℝ) : HasDerivAt (fun t : ℝ => a + t * d) d 0 := by
  simpa using ((hasDerivAt_id (0 : ℝ)).mul_const d).const_add a

/-- The derivative of the cross entropy along a direction. -/
theorem softmaxXent_deriv (x y d : Row C) (hC : 0 < C) :
    HasDerivAt (fun t : ℝ => softmaxXent (fun c => x c + t * d c) y) (∑ c, (softmaxProb x c * (∑ c', y c') - y c) * d c) 0 := by
  have hpos : 0 < ∑ c, Real.exp (x c) := Finset.sum_pos (fun _ _ => Real.exp_pos _) ⟨⟨0, hC⟩, Finset.mem_univ _⟩
  have h1 : HasDerivAt (fun t : ℝ => ∑ c, Real.exp (x c + t * d c)) (∑ c, Real.exp (x c) * d c) 0 := by
    refine HasDerivAt.fun_sum fun c _ => ?_
    simpa using (line_deriv (x c) (d c)).exp
  have h2 : HasDerivAt (fun t : ℝ => ∑ c, y c * (x c + t * d c)) (∑ c, y c * d c) 0 :=
    HasDerivAt.fun_sum fun c _ => (line_deriv (x c) (d c)).const_mul _
  have h3 := ((h1.log (by simpa using hpos.ne')).const_mul (∑ c, y c)).sub h2
  simp only [softmaxXent_eq]
  refine h3.congr_deriv ?_
  simp only [zero_mul, add_zero, softmaxProb]
  rw [Finset.sum_div, Finset.mul_sum, ← Finset.sum_sub_distrib]
  exact Finset.sum_congr rfl fun c _ => by ring

theorem sigmoidXent_deriv (x y d : Row C) :
    HasDerivAt (fun t : ℝ => ∑ c, sigmoidXent (fun c => x c + t * d c) y c) (∑ c, (sigmoidProb x c - y c) * d c) 0 := by
  refine HasDerivAt.fun_sum fun c _ => ?_
  simp only [sigmoidXent_eq]
  have h1 : HasDerivAt (fun t : ℝ => 1 + Real.exp (x c + t * d c)) (Real.exp (x c) * d c) 0 := by
    simpa using ((line_deriv (x c) (d c)).exp).const_add 1
  have h3 := (h1.log (by positivity)).sub ((line_deriv (x c) (d c)).const_mul (y c))
  refine h3.congr_deriv ?_
  simp only [zero_mul, add_zero, sigmoidProb]
  rw [Real.exp_neg]
  have := Real.exp_pos (x c)
  field_simp
  ring

/-- C150: the gradient of the main loss with `softmax_xent` at the logit of class `c` of example `i` is the probability of the class,
times the total of the labels (which is usually one), less the label, over the number of examples. -/
theorem C150_softmax (hC : 0 < C) (Y : Fin N → Row C) :
    ∃ L : (Fin N → Row C) → ℝ, (∀ X, MainLoss "softmax_xent" X Y (L X)) ∧
      ∀ X D : Fin N → Row C, HasDerivAt (fun t : ℝ => L fun i c => X i c + t * D i c)
        ((∑ i, ∑ c, (softmaxProb (X i) c * (∑ c', Y i c') - Y i c) * D i c) / N) 0 := by
  refine ⟨fun X => (∑ i, softmaxXent (X i) (Y i)) / N, fun X => (main_softmax X Y _).2 rfl, fun X D => ?_⟩
  exact (HasDerivAt.fun_sum fun i _ => softmaxXent_deriv (X i) (Y i) (D i) hC).div_const _

/-- C150: and with `sigmoid_xent` the probability of the label less the label, over the number of examples. -/
theorem C150_sigmoid (Y : Fin N → Row C) :
    ∃ L : (Fin N → Row C) → ℝ, (∀ X, MainLoss "sigmoid_xent" X Y (L X)) ∧
      ∀ X D : Fin N → Row C, HasDerivAt (fun t : ℝ => L fun i c => X i c + t * D i c)
        ((∑ i, ∑ c, (sigmoidProb (X i) c - Y i c) * D i c) / N) 0 := by
  refine ⟨fun X => (∑ i, ∑ c, sigmoidXent (X i) (Y i) c) / N, fun X => (main_sigmoid X Y _).2 rfl, fun X D => ?_⟩
  exact (HasDerivAt.fun_sum fun i _ => sigmoidXent_deriv (X i) (Y i) (D i)).div_const _

theorem softmaxProb_sum (hC : 0 < C) (x : Row C) : ∑ c, softmaxProb x c = 1 := by
  have hpos : 0 < ∑ c, Real.exp (x c) := Finset.sum_pos (fun _ _ => Real.exp_pos _) ⟨⟨0, hC⟩, Finset.mem_univ _⟩
  unfold softmaxProb
  rw [← Finset.sum_div, div_self hpos.ne']

theorem softmaxProb_pos (hC : 0 < C) (x : Row C) (c : Fin C) : 0 < softmaxProb x c :=
  div_pos (Real.exp_pos _) (Finset.sum_pos (fun _ _ => Real.exp_pos _) ⟨⟨0, hC⟩, Finset.mem_univ _⟩)

/-- The cross entropy lies above its tangents. -/
theorem softmaxXent_tangent (hC : 0 < C) (x x' y : Row C) (hy : 0 ≤ ∑ c, y c) :
    softmaxXent x y + ∑ c, (softmaxProb x c * (∑ c', y c') - y c) * (x' c - x c) ≤ softmaxXent x' y := by
  have hpos : 0 < ∑ c, Real.exp (x c) := Finset.sum_pos (fun _ _ => Real.exp_pos _) ⟨⟨0, hC⟩, Finset.mem_univ _⟩
  have hjen := convexOn_exp.map_sum_le (t := Finset.univ) (w := softmaxProb x) (p := fun c => x' c - x c)
    (fun c _ => (softmaxProb_pos hC x c).le) (softmaxProb_sum hC x) (fun _ _ => Set.mem_univ _)
  have hsum : ∑ c, softmaxProb x c • Real.exp (x' c - x c) = (∑ c, Real.exp (x' c)) / ∑ c, Real.exp (x c) := by
    rw [Finset.sum_div]
    refine Finset.sum_congr rfl fun c _ => ?_
    rw [smul_eq_mul, softmaxProb, div_mul_eq_mul_div, ← Real.exp_add]
    congr 2
    ring
  rw [hsum] at hjen
  have hpos' : 0 < ∑ c, Real.exp (x' c) := Finset.sum_pos (fun _ _ => Real.exp_pos _) ⟨⟨0, hC⟩, Finset.mem_univ _⟩
  have hlog : ∑ c, softmaxProb x c • (x' c - x c) ≤ Real.log (∑ c, Real.exp (x' c)) - Real.log (∑ c, Real.exp (x c)) := by
    rw [← Real.log_div hpos'.ne' hpos.ne', Real.le_log_iff_exp_le (div_pos hpos' hpos)]
    exact hjen
  rw [softmaxXent_eq, softmaxXent_eq]
  have h2 : ∑ c, (softmaxProb x c * (∑ c', y c') - y c) * (x' c - x c) =
      (∑ c', y c') * ∑ c, softmaxProb x c • (x' c - x c) - (∑ c, y c * x' c - ∑ c, y c * x c) := by
    rw [Finset.mul_sum, ← Finset.sum_sub_distrib, ← Finset.sum_sub_distrib]
    exact Finset.sum_congr rfl fun c _ => by rw [smul_eq_mul]; ring
  rw [h2]
  have := mul_le_mul_of_nonneg_left hlog hy
  linarith

theorem sigmoidXent_tangent (x x' y : Row C) (c : Fin C) :
    sigmoidXent x y c + (sigmoidProb x c - y c) * (x' c - x c) ≤ sigmoidXent x' y c := by
  have h := softmaxXent_tangent (C := 2) (by norm_num) ![0, x c] ![0, x' c] ![1, 0] (by simp)
  rw [softmaxXent_eq, softmaxXent_eq] at h
  simp only [Fin.sum_univ_two, Matrix.cons_val_zero, Matrix.cons_val_one, softmaxProb, Real.exp_zero] at h
  rw [sigmoidXent_eq, sigmoidXent_eq]
  have h2 : sigmoidProb x c = Real.exp (x c) / (1 + Real.exp (x c)) := by
    unfold sigmoidProb
    rw [Real.exp_neg]
    have := Real.exp_pos (x c)
    field_simp
    ring
  rw [h2]
  linarith

/-- C150: the main loss lies above its tangents (it is convex in the logits), with labels that are not negative in total for
`softmax_xent`, and with any labels for `sigmoid_xent`. -/
theorem C150_convex (hC : 0 < C) (X X' Y : Fin N → Row C) (v v' : ℝ) :
    ((∀ i, 0 ≤ ∑ c, Y i c) → MainLoss "softmax_xent" X Y v → MainLoss "softmax_xent" X' Y v' →
      v + (∑ i, ∑ c, (softmaxProb (X i) c * (∑ c', Y i c') - Y i c) * (X' i c - X i c)) / N ≤ v') ∧
    (MainLoss "sigmoid_xent" X Y v → MainLoss "sigmoid_xent" X' Y v' →
      v + (∑ i, ∑ c, (sigmoidProb (X i) c - Y i c) * (X' i c - X i c)) / N ≤ v') := by
  refine ⟨fun hy h h' => ?_, fun h h' => ?_⟩
  · rw [main_softmax] at h h'
    rw [h, h', ← add_div, ← Finset.sum_add_distrib]
    exact div_le_div_of_nonneg_right (Finset.sum_le_sum fun i _ => softmaxXent_tangent hC _ _ _ (hy i)) (Nat.cast_nonneg N)
  · rw [main_sigmoid] at h h'
    rw [h, h', ← add_div, ← Finset.sum_add_distrib]
    refine div_le_div_of_nonneg_right (Finset.sum_le_sum fun i _ => ?_) (Nat.cast_nonneg N)
    rw [← Finset.sum_add_distrib]
    exact Finset.sum_le_sum fun c _ => sigmoidXent_tangent _ _ _ c

/-- C150: logits whose probabilities are the labels have the least loss. -/
theorem C150_minimum (hC : 0 < C) (X X' Y : Fin N → Row C) (v v' : ℝ) :
    ((∀ i c, softmaxProb (X i) c = Y i c) → MainLoss "softmax_xent" X Y v → MainLoss "softmax_xent" X' Y v' → v ≤ v') ∧
    ((∀ i c, sigmoidProb (X i) c = Y i c) → MainLoss "sigmoid_xent" X Y v → MainLoss "sigmoid_xent" X' Y v' → v ≤ v') := by
  refine ⟨fun hp h h' => ?_, fun hp h h' => ?_⟩
  · have hs : ∀ i, ∑ c, Y i c = 1 := fun i => by
      rw [← softmaxProb_sum hC (X i)]
      exact Finset.sum_congr rfl fun c _ => (hp i c).symm
    have := (C150_convex hC X X' Y v v').1 (fun i => by rw [hs i]; norm_num) h h'
    simp only [hs, hp, mul_one, sub_self, zero_mul, Finset.sum_const_zero, zero_div, add_zero] at this
    exact this
  · have := (C150_convex hC X X' Y v v').2 h h'
    simp only [hp, sub_self, zero_mul, Finset.sum_const_zero, zero_div, add_zero] at this
    exact this

/-- C150: with labels that are not negative and have total one, changing the logits by at most `δ` changes the main loss with
`softmax_xent` by at most `2 * δ`; and with labels between 0 and 1, that with `sigmoid_xent` by at most `C * δ`. -/
theorem C150_lipschitz (hC : 0 < C) (hN : 0 < N) (X X' Y : Fin N → Row C) (v v' δ : ℝ) (hδ : ∀ i c, |X' i c - X i c| ≤ δ) :
    ((∀ i c, 0 ≤ Y i c) → (∀ i, ∑ c, Y i c = 1) → MainLoss "softmax_xent" X Y v → MainLoss "softmax_xent" X' Y v' →
      |v' - v| ≤ 2 * δ) ∧
    ((∀ i c, 0 ≤ Y i c ∧ Y i c ≤ 1) → MainLoss "sigmoid_xent" X Y v → MainLoss "sigmoid_xent" X' Y v' → |v' - v| ≤ C * δ) := by
  have hN' : (0 : ℝ) < N := by exact_mod_cast hN
  have hδ0 : 0 ≤ δ := (abs_nonneg _).trans (hδ ⟨0, hN⟩ ⟨0, hC⟩)
  have hδ' : ∀ i c, |X i c - X' i c| ≤ δ := fun i c => by rw [abs_sub_comm]; exact hδ i c
  have bound : ∀ (w : Fin N → Fin C → ℝ) (A B : Fin N → Row C) (K : ℝ), (∀ i, ∑ c, |w i c| ≤ K) → (∀ i c, |A i c - B i c| ≤ δ) →
      -((∑ i, ∑ c, w i c * (A i c - B i c)) / N) ≤ K * δ := by
    intro w A B K hw hAB
    rw [neg_le, ← neg_mul, le_div_iff₀ hN', ← neg_le_neg_iff]
    have h1 : ∀ i, -∑ c, w i c * (A i c - B i c) ≤ K * δ := by
      intro i
      rw [← Finset.sum_neg_distrib]
      refine (Finset.sum_le_sum (g := fun c => |w i c| * δ) fun c _ => ?_).trans ?_
      · refine (neg_le_abs _).trans ?_
        rw [abs_mul]
        exact mul_le_mul_of_nonneg_left (hAB i c) (abs_nonneg _)
      · rw [← Finset.sum_mul]
        exact mul_le_mul_of_nonneg_right (hw i) hδ0
    have h2 := Finset.sum_le_sum (s := Finset.univ) fun i (_ : i ∈ Finset.univ) => h1 i
    rw [Finset.sum_neg_distrib, Finset.sum_const, Finset.card_univ, Fintype.card_fin, nsmul_eq_mul] at h2
    linarith
  refine ⟨fun hy hs h h' => ?_, fun hy h h' => ?_⟩
  · have hw : ∀ Z : Fin N → Row C, ∀ i, ∑ c, |softmaxProb (Z i) c * (∑ c', Y i c') - Y i c| ≤ 2 := by
      intro Z i
      rw [hs i]
      refine (Finset.sum_le_sum (g := fun c => softmaxProb (Z i) c + Y i c) fun c _ => ?_).trans ?_
      · rw [mul_one]
        refine (abs_sub _ _).trans ?_
        rw [abs_of_nonneg (softmaxProb_pos hC (Z i) c).le, abs_of_nonneg (hy i c)]
      · rw [Finset.sum_add_distrib, softmaxProb_sum hC, hs i]
        norm_num
    have hy' : ∀ i, 0 ≤ ∑ c, Y i c := fun i => by rw [hs i]; norm_num
    have t1 := (C150_convex hC X X' Y v v').1 hy' h h'
    have t2 := (C150_convex hC X' X Y v' v).1 hy' h' h
    have b1 := bound _ X' X 2 (hw X) hδ
    have b2 := bound _ X X' 2 (hw X') hδ'
    rw [abs_le]
    constructor <;> linarith
  · have hw : ∀ Z : Fin N → Row C, ∀ i, ∑ c, |sigmoidProb (Z i) c - Y i c| ≤ C := by
      intro Z i
      have h1 : ∀ c ∈ Finset.univ, |sigmoidProb (Z i) c - Y i c| ≤ 1 := by
        intro c _
        have hp : 0 ≤ sigmoidProb (Z i) c ∧ sigmoidProb (Z i) c ≤ 1 := by
          unfold sigmoidProb
          have := Real.exp_pos (-(Z i c))
          exact ⟨by positivity, (div_le_one (by positivity)).2 (by linarith)⟩
        rw [abs_le]
        constructor <;> linarith [hp.1, hp.2, (hy i c).1, (hy i c).2]
      simpa using Finset.sum_le_sum h1
    have t1 := (C150_convex hC X X' Y v v').2 h h'
    have t2 := (C150_convex hC X' X Y v' v).2 h' h
    have b1 := bound _ X' X C (hw X) hδ
    have b2 := bound _ X X' C (hw X') hδ'
    rw [abs_le]
    constructor <;> linarith

end Verif.LossFn

namespace Verif.LossFn

open Verif EnsembleEval EnsembleEvalSpec

/-- Two classes with logits 0 and 0: the labels 1/2 and 1/2 are the probabilities, so the loss is least. -/
example : (∀ (i : Fin 1) (c : Fin 2), softmaxProb ((fun _ _ => 0 : Fin 1 → Row 2) i) c = (1 / 2 : ℝ)) ∧
    MainLoss "softmax_xent" (fun (_ : Fin 1) (_ : Fin 2) => 0) (fun _ _ => 1 / 2) (Real.log 2) := by
  constructor
  · intro i c
    simp [softmaxProb]
  · rw [main_softmax]
    simp [softmaxXent_eq]

/-- The gradient of one example with logits 0 and 0 and label 0: pull the first logit up and the second down. -/
example : let x : Row 2 := fun _ => 0
    let y : Row 2 := fun c => if c = 0 then 1 else 0
    (softmaxProb x 0 * (∑ c', y c') - y 0 = -1 / 2 ∧ softmaxProb x 1 * (∑ c', y c') - y 1 = 1 / 2) ∧
      (sigmoidProb x 0 - y 0 = -1 / 2 ∧ sigmoidProb x 1 - y 1 = 1 / 2) := by
  intro x y
  simp [x, y, softmaxProb, sigmoidProb]
  norm_num

end Verif.LossFn

namespace Verif.Contrastive

open Verif Trainer ContrastiveSpec

variable {I T : Type}

theorem pairLoss_deriv (b : Bool) (l : ℝ → ℝ) (l' : ℝ) (h : HasDerivAt l l' 0) :
    HasDerivAt (fun t => pairLoss b (l t)) ((yes (l 0) - (if b then 1 else 0)) * l') 0 := by
  have hp := Real.exp_pos (l 0)
  cases b
  · simp only [pairLoss_false]
    have := ((h.exp).const_add 1).log (by positivity)
    refine this.congr_deriv ?_
    simp [yes]
    field_simp
  · simp only [pairLoss_true]
    have := ((h.neg.exp).const_add 1).log (by simp only [Pi.neg_apply]; positivity)
    refine this.congr_deriv ?_
    simp only [yes, Pi.neg_apply, Real.exp_neg]
    field_simp
    simp only [if_true]
    ring

/-- C150, contrastive training: the gradient of the main loss at the logit of image `i` and text `k` is the probability that they
belong together, less one if they do, over the number of pairs in the batch. -/
theorem C150_contrastive (B : Nat) (img : Nat → I) (txt : Nat → T) (logit : ℝ → I → T → ℝ) (logit' : I → T → ℝ)
    (h : ∀ a b, HasDerivAt (fun t => logit t a b) (logit' a b) 0) :
    ∃ L : ℝ → ℝ, (∀ t, mainLoss (logit t) ((List.range B).map img) ((List.range B).map txt) = .ok (L t)) ∧
      HasDerivAt L ((∑ i ∈ Finset.range B, ∑ k ∈ Finset.range B,
        (yes (logit 0 (img i) (txt k)) - (if i = k then 1 else 0)) * logit' (img i) (txt k)) / B) 0 := by
  refine ⟨_, fun t => mainLoss_ok (logit t) B img txt, ?_⟩
  simp only [pairsLoss, if_true]
  refine HasDerivAt.div_const (HasDerivAt.fun_sum fun i _ => ?_) _
  refine HasDerivAt.fun_sum fun k _ => ?_
  have := pairLoss_deriv (decide (i = k)) _ _ (h (img i) (txt k))
  simpa using this

/-- Shifting all logits of two images and two texts. -/
example : ∀ a b : Nat, HasDerivAt (fun t : ℝ => (a : ℝ) * b + t * 1) 1 0 := fun a b => LossFn.line_deriv _ _

end Verif.Contrastive
