import Mathlib.Analysis.Calculus.Deriv.Slope
import Mathlib.Analysis.Calculus.FDeriv.Add
import Mathlib.Analysis.Calculus.FDeriv.Comp
import Mathlib.Analysis.Calculus.FDeriv.Mul
import Mathlib.Analysis.Calculus.FDeriv.Pi
import Mathlib.Analysis.SpecialFunctions.ExpDeriv
import Mathlib.Analysis.SpecialFunctions.Log.Deriv
import Verif.Model.AttackLoss
import Verif.Props.Attack
import Verif.Props.ConfigOverride

/-! C105: the attacked loss and the direction of the attack (vmoe/projects/adversarial_attacks/restore.py, attacks.py). -/

namespace Verif.AttackLoss

open Verif EnsembleEval

variable {C B : Nat} {ι R V : Type}

/-! ### The loss -/

/-- C105: without auxiliary loss, the attacked loss is the training loss of the same name, example by example.  The other names,
also those of the losses of ensembles, are a `ValueError`. -/
theorem C105_training_loss (name : Key) (kwargs : PyDict Key Nat) :
    (name ∈ ["softmax_xent".toList, "sigmoid_xent".toList] →
      ∃ f g, getLossFn (C := C) name kwargs = .ok f ∧ LossFn.getLossFn name kwargs = .ok g ∧ f = g.train ∧ f = g.eval) ∧
    (name ∉ ["softmax_xent".toList, "sigmoid_xent".toList] → getLossFn (C := C) name kwargs = .error .valueError) := by
  unfold getLossFn LossFn.getLossFn
  constructor
  · intro h
    simp only [List.mem_cons, List.not_mem_nil, or_false] at h
    by_cases h1 : name = "softmax_xent".toList
    · rw [if_pos h1, if_pos h1]
      exact ⟨_, _, rfl, rfl, rfl, rfl⟩
    · rw [if_neg h1, if_neg h1, if_pos (h.resolve_left h1), if_pos (h.resolve_left h1)]
      exact ⟨_, _, rfl, rfl, rfl, rfl⟩
  · intro h
    simp only [List.mem_cons, List.not_mem_nil, or_false, not_or] at h
    rw [if_neg h.1, if_neg h.2]

example : "sigmoid_xent".toList ∈ ["softmax_xent".toList, "sigmoid_xent".toList] ∧
    "ensemble_softmax_xent".toList ∉ ["softmax_xent".toList, "sigmoid_xent".toList] := by decide

/-- C105: `attack_auxiliary_loss` adds the mean auxiliary loss of the model to the loss of every example (so once to the mean), and
needs a model that reports it; without the option the metrics do not matter. -/
theorem C105_auxiliary (name : Key) (opt : Option Bool) (options : PyDict Key Nat)
    (f : List (Row C) → List (Row C) → Metrics → Except PyErr (List ℝ))
    (h : lossFromConfig (some ⟨some name, opt, options⟩) = .ok f) :
    ∃ plain, getLossFn name options = .ok plain ∧
    ∀ logits labels metrics,
      (opt ≠ some true → f logits labels metrics = plain logits labels) ∧
      (opt = some true → ∀ loss, plain logits labels = .ok loss →
        (∀ aux, PyDict.get? metrics "auxiliary_loss".toList = some aux → ∃ total, f logits labels metrics = .ok total ∧
          total.length = loss.length ∧
          (∀ i (h1 : i < total.length) (h2 : i < loss.length), total[i] = loss[i] + mean aux) ∧
          (loss ≠ [] → mean total = mean loss + mean aux)) ∧
        (PyDict.get? metrics "auxiliary_loss".toList = none → f logits labels metrics = .error .keyError)) := by
  unfold lossFromConfig at h
  simp only at h
  split at h
  · cases h
  · rename_i plain hp
    refine ⟨plain, hp, ?_⟩
    have hf := Except.ok.inj h
    intro logits labels metrics
    rw [← hf]
    unfold withAuxiliary
    constructor
    · intro ho
      have : opt.getD false = false := by
        rcases opt with _ | _ | _
        · rfl
        · rfl
        · exact absurd rfl ho
      rw [this]
      generalize plain logits labels = r
      cases r <;> rfl
    · intro ho loss hl
      rw [hl, ho]
      constructor
      · intro aux ha
        refine ⟨loss.map fun l => l + mean aux, by simp only [Option.getD_some, if_true, ha], by simp, by intro i h1 h2; simp, ?_⟩
        intro hne
        have hl0 : (loss.length : ℝ) ≠ 0 := by
          exact_mod_cast (List.length_pos_of_ne_nil hne).ne'
        unfold mean
        rw [List.length_map, List.sum_map_add]
        simp only [List.map_id', List.map_const', List.sum_replicate, nsmul_eq_mul]
        field_simp
      · intro ha
        simp only [Option.getD_some, if_true, ha]

/-- C105: the configuration needs a loss with a name. -/
theorem C105_loss_needed (config : Option LossConfig) (h : ∀ c, config = some c → c.name = none) :
    lossFromConfig (C := C) config = .error .typeError := by
  unfold lossFromConfig
  cases config with
  | none => rfl
  | some c => simp [h c rfl]

example : lossFromConfig (C := C) none = .error .typeError ∧
    (∃ f, lossFromConfig (C := C) (some ⟨some "softmax_xent".toList, some true, []⟩) = .ok f) ∧
    lossFromConfig (C := C) (some ⟨none, some true, []⟩) = .error .typeError := by
  refine ⟨rfl, ?_, rfl⟩
  unfold lossFromConfig getLossFn
  simp

/-! ### The gradient -/

/-- The loss of a batch is a mean of the losses of its examples (used for the proofs below). -/
theorem loss_rows (hC : 0 < C) (config : LossConfig) (haux : config.attackAuxiliaryLoss ≠ some true)
    (lossFn : List (Row C) → List (Row C) → Metrics → Except PyErr (List ℝ)) (h : lossFromConfig (some config) = .ok lossFn) :
    (config.options ≠ [] → ∀ a b c, lossFn a b c = .error .typeError) ∧
    (config.options = [] → ∃ ell : Row C → Row C → ℝ, (∀ y, Differentiable ℝ fun x => ell x y) ∧
      (config.name = some "softmax_xent".toList → ell = softmaxXent) ∧
      ∀ logits labels metrics, lossFn logits labels metrics =
        if logits.length = labels.length then .ok (List.zipWith ell logits labels) else .error .typeError) := by
  obtain ⟨name, opt, options⟩ := config
  cases name with
  | none => cases h
  | some name =>
    obtain ⟨plain, hp, hf⟩ := C105_auxiliary name opt options lossFn h
    have hne : ∀ x : Row C, (∑ c, Real.exp (x c)) ≠ 0 := fun x =>
      (Finset.sum_pos (fun c _ => Real.exp_pos _) ⟨⟨0, hC⟩, Finset.mem_univ _⟩).ne'
    unfold getLossFn at hp
    by_cases h1 : name = "softmax_xent".toList
    · rw [if_pos h1] at hp
      have hp := Except.ok.inj hp
      constructor
      · intro ho a b c
        rw [(hf a b c).1 haux, ← hp]
        simp only at ho
        simp [LossFn.partialPlain, ho]
      · intro ho
        simp only at ho
        refine ⟨softmaxXent, ?_, fun _ => rfl, ?_⟩
        · intro y
          unfold softmaxXent logSoftmax
          have hlog : Differentiable ℝ fun x : Row C => Real.log (∑ c, Real.exp (x c)) := by
            apply Differentiable.log
            · fun_prop
            · exact hne
          fun_prop
        · intro logits labels metrics
          rw [(hf logits labels metrics).1 haux, ← hp, ho]
          simp [LossFn.partialPlain, LossFn.softmaxCrossEntropy, zipRows]
    · rw [if_neg h1] at hp
      by_cases h2 : name = "sigmoid_xent".toList
      · rw [if_pos h2] at hp
        have hp := Except.ok.inj hp
        constructor
        · intro ho a b c
          rw [(hf a b c).1 haux, ← hp]
          simp only at ho
          simp [LossFn.partialPlain, ho]
        · intro ho
          simp only at ho
          refine ⟨fun x y => ∑ c, sigmoidXent x y c, ?_, fun hn => absurd (Option.some.inj hn) h1, ?_⟩
          · intro y
            unfold sigmoidXent logSigmoid
            have hlog : ∀ (c : Fin C) (s : ℝ), Differentiable ℝ fun x : Row C => Real.log (1 + Real.exp (s * x c)) := by
              intro c s
              apply Differentiable.log
              · fun_prop
              · intro x
                have := Real.exp_pos (s * x c)
                positivity
            have h1 : ∀ c, Differentiable ℝ fun x : Row C => Real.log (1 + Real.exp (-(x c))) := by
              intro c
              simpa using hlog c (-1)
            have h2 : ∀ c, Differentiable ℝ fun x : Row C => Real.log (1 + Real.exp (-((-x) c))) := by
              intro c
              simpa using hlog c 1
            have : ∀ c, Differentiable ℝ fun x : Row C => -y c * -Real.log (1 + Real.exp (-(x c))) -
                (1 - y c) * -Real.log (1 + Real.exp (-((-x) c))) := by
              intro c
              exact (((h1 c).neg).const_mul _).sub (((h2 c).neg).const_mul _)
            exact Differentiable.fun_sum fun c _ => this c
          · intro logits labels metrics
            rw [(hf logits labels metrics).1 haux, ← hp, ho]
            simp [LossFn.partialPlain, LossFn.defaultSigmoidXent, zipRows]
      · rw [if_neg h2] at hp
        cases hp

variable [Fintype ι] [DecidableEq ι]

/-- The partial derivatives of a mean of functions of the single images. -/
theorem fderiv_mean (φ : Fin B → (ι → ℝ) → ℝ) (hφ : ∀ b, Differentiable ℝ (φ b)) (x : Fin B × ι → ℝ) (b : Fin B) (p : ι) :
    fderiv ℝ (fun x : Fin B × ι → ℝ => (∑ b, φ b fun p => x (b, p)) / B) x (Pi.single (b, p) 1) =
      fderiv ℝ (φ b) (fun p => x (b, p)) (Pi.single p 1) / B := by
  let L : Fin B → (Fin B × ι → ℝ) →L[ℝ] (ι → ℝ) := fun b =>
    ContinuousLinearMap.pi fun p => ContinuousLinearMap.proj (b, p)
  have hL : ∀ b' (y : Fin B × ι → ℝ), L b' y = fun p => y (b', p) := fun b' y => rfl
  have h1 : ∀ b', HasFDerivAt (fun x : Fin B × ι → ℝ => φ b' fun p => x (b', p))
      ((fderiv ℝ (φ b') fun p => x (b', p)).comp (L b')) x := by
    intro b'
    exact HasFDerivAt.comp x ((hφ b') (L b' x)).hasFDerivAt (L b').hasFDerivAt
  have h2 : HasFDerivAt (fun x : Fin B × ι → ℝ => (∑ b, φ b fun p => x (b, p)))
      (∑ b', (fderiv ℝ (φ b') fun p => x (b', p)).comp (L b')) x := HasFDerivAt.fun_sum fun b' _ => h1 b'
  have h3 : HasFDerivAt (fun x : Fin B × ι → ℝ => (∑ b, φ b fun p => x (b, p)) / B)
      ((B : ℝ)⁻¹ • ∑ b', (fderiv ℝ (φ b') fun p => x (b', p)).comp (L b')) x := by
    have := h2.const_mul ((B : ℝ)⁻¹)
    refine this.congr_of_eventuallyEq (Filter.Eventually.of_forall fun y => ?_)
    simp only
    ring
  rw [h3.fderiv]
  simp only [_root_.smul_apply, _root_.sum_apply, ContinuousLinearMap.comp_apply, smul_eq_mul]
  rw [Finset.sum_eq_single b]
  · have : L b (Pi.single (b, p) 1) = Pi.single p 1 := by
      rw [hL]
      funext q
      simp [Pi.single_apply]
    rw [this]
    ring
  · intro b' _ hb'
    have : L b' (Pi.single (b, p) 1) = 0 := by
      rw [hL]
      funext q
      simp [hb']
    rw [this, map_zero]
  · intro hb
    exact absurd (Finset.mem_univ b) hb

omit [Fintype ι] [DecidableEq ι] in
theorem mean_ofFn (ell : Row C → Row C → ℝ) (x y : Fin B → Row C) :
    mean (List.zipWith ell (List.ofFn x) (List.ofFn y)) = (∑ b, ell (x b) (y b)) / B := by
  have : List.zipWith ell (List.ofFn x) (List.ofFn y) = List.ofFn fun b => ell (x b) (y b) := by
    apply List.ext_getElem
    · simp
    · intro i h1 h2
      simp
  rw [this, mean, List.sum_ofFn, List.length_ofFn]

/-- The partial derivatives of the attacked loss when every row of logits depends on its own image. -/
theorem lossGrad_rows (ell : Row C → Row C → ℝ) (hell : ∀ y, Differentiable ℝ fun x => ell x y)
    (lossFn : List (Row C) → List (Row C) → Metrics → Except PyErr (List ℝ))
    (hl : ∀ logits labels metrics, lossFn logits labels metrics =
        if logits.length = labels.length then .ok (List.zipWith ell logits labels) else .error .typeError)
    (f : (ι → ℝ) → Row C) (hf : Differentiable ℝ f) (apply : Apply C B ι R)
    (happly : ∀ x r, (apply x r).1 = List.ofFn fun b => f fun p => x (b, p)) (labels : Fin B → Row C) (x : Fin B × ι → ℝ)
    (rng : Option R) (b : Fin B) (p : ι) :
    lossGrad apply lossFn (List.ofFn labels) x rng (b, p) =
      fderiv ℝ (fun v => ell (f v) (labels b)) (fun p => x (b, p)) (Pi.single p 1) / B := by
  unfold lossGrad
  have : batchLoss apply lossFn (List.ofFn labels) rng =
      fun x : Fin B × ι → ℝ => (∑ b, (fun v => ell (f v) (labels b)) fun p => x (b, p)) / B := by
    funext x
    unfold batchLoss
    rw [happly, hl, if_pos (by simp)]
    simp only
    rw [mean_ofFn]
  rw [this]
  exact fderiv_mean (fun b v => ell (f v) (labels b)) (fun b => (hell (labels b)).comp hf) x b p

theorem sign_div_pos (d : ℝ) {n : Nat} (hn : 0 < n) : SignType.sign (d / n) = SignType.sign d := by
  have hn' : (0 : ℝ) < n := by exact_mod_cast hn
  rw [div_eq_mul_inv, sign_mul, sign_pos (inv_pos.2 hn'), mul_one]

/-- The number of updates and the errors of a call. -/
theorem attack_ok {split : R → Nat → List R} {eps : ℝ} {n : Nat} {apply : Apply C B ι R}
    {lossFn : List (Row C) → List (Row C) → Metrics → Except PyErr (List ℝ)} {labels : List (Row C)}
    {images images' : Fin B × ι → ℝ} {rng rng' : Option R}
    (h : attack split eps n apply lossFn labels images rng = .ok (images', rng')) :
    n ≠ 0 ∧ (∃ l a b, lossFn a labels b = .ok l) ∧
    Attack.pgd split eps n (lossGrad apply lossFn labels) images rng = .ok (images', rng') ∧
    images' = Attack.pgdLoop (eps / n) (lossGrad apply lossFn labels) (rng.map fun r => split r (n + 1)) images n := by
  unfold attack at h
  split at h
  · cases h
  · rename_i hn
    simp only at h
    split at h
    · cases h
    · rename_i l hl
      refine ⟨hn, ⟨l, _, _, hl⟩, h, ?_⟩
      unfold Attack.pgd at h
      rw [if_neg hn] at h
      exact (Prod.mk.inj (Except.ok.inj h)).1.symm

/-- C105: if the logits of an image do not depend on the other images of the batch (no expert buffers shared, or all large enough)
and the auxiliary loss is not attacked, the attack treats every image as if it was alone: the attacked image is the same for
every batch, position in the batch, padding and random key. -/
theorem C105_independent (hC : 0 < C) (split split1 : R → Nat → List R) (eps : ℝ) (n : Nat) (config : LossConfig)
    (haux : config.attackAuxiliaryLoss ≠ some true)
    (lossFn : List (Row C) → List (Row C) → Metrics → Except PyErr (List ℝ)) (hl : lossFromConfig (some config) = .ok lossFn)
    (f : (ι → ℝ) → Row C) (hf : Differentiable ℝ f) (apply : Apply C B ι R)
    (happly : ∀ x r, (apply x r).1 = List.ofFn fun b => f fun p => x (b, p)) (apply1 : Apply C 1 ι R)
    (happly1 : ∀ x r, (apply1 x r).1 = [f fun p => x (0, p)]) (labels : Fin B → Row C) (images images' : Fin B × ι → ℝ)
    (rng rng' rng1 : Option R)
    (h : attack split eps n apply lossFn (List.ofFn labels) images rng = .ok (images', rng')) (b : Fin B) :
    ∃ image' rng1', attack split1 eps n apply1 lossFn [labels b] (fun q => images (b, q.2)) rng1 = .ok (image', rng1') ∧
      ∀ p, images' (b, p) = image' (0, p) := by
  obtain ⟨hn, ⟨l, a, c, hlab⟩, -, himg⟩ := attack_ok h
  obtain ⟨hopt, hrows⟩ := loss_rows hC config haux lossFn hl
  have ho : config.options = [] := by
    by_contra ho
    rw [hopt ho] at hlab
    cases hlab
  obtain ⟨ell, hell, -, hloss⟩ := hrows ho
  have happly1' : ∀ x r, (apply1 x r).1 = List.ofFn fun b => f fun p => x (b, p) := by
    intro x r
    rw [happly1]
    simp
  have hpos : 0 < B := Fin.pos b
  refine ⟨Attack.pgdLoop (eps / n) (lossGrad apply1 lossFn [labels b]) (rng1.map fun r => split1 r (n + 1))
    (fun q => images (b, q.2)) n, (rng1.map fun r => split1 r (n + 1)).bind (·.getLast?), ?_, ?_⟩
  · unfold attack
    rw [if_neg hn]
    simp only
    rw [hloss, happly1, if_pos (by simp)]
    simp only
    unfold Attack.pgd
    rw [if_neg hn]
  · rw [himg]
    have key : ∀ m p, Attack.pgdLoop (eps / n) (lossGrad apply lossFn (List.ofFn labels)) (rng.map fun r => split r (n + 1))
        images m (b, p) = Attack.pgdLoop (eps / n) (lossGrad apply1 lossFn [labels b]) (rng1.map fun r => split1 r (n + 1))
        (fun q => images (b, q.2)) m (0, p) := by
      intro m
      induction m with
      | zero => intro p; rfl
      | succ m ih =>
        intro p
        unfold Attack.pgdLoop Attack.pgdUpdate
        have e1 := lossGrad_rows ell hell lossFn hloss f hf apply happly labels
        have e2 := lossGrad_rows ell hell lossFn hloss f hf apply1 happly1' (fun _ => labels b)
        have e3 : List.ofFn (fun _ : Fin 1 => labels b) = [labels b] := by simp
        rw [e3] at e2
        rw [e1, e2, sign_div_pos _ hpos, sign_div_pos _ one_pos, ih p]
        have : (fun q => Attack.pgdLoop (eps / n) (lossGrad apply lossFn (List.ofFn labels))
            (rng.map fun r => split r (n + 1)) images m (b, q)) = fun q =>
            Attack.pgdLoop (eps / n) (lossGrad apply1 lossFn [labels b]) (rng1.map fun r => split1 r (n + 1))
            (fun q => images (b, q.2)) m (0, q) := by
          funext q
          exact ih q
        rw [this]
    exact key n

/-! ### The direction of the attack -/

theorem apply_eq_sum {κ : Type} [Fintype κ] [DecidableEq κ] (L : (κ → ℝ) →L[ℝ] ℝ) (d : κ → ℝ) :
    L d = ∑ p, d p * L (Pi.single p 1) := by
  conv_lhs => rw [pi_eq_sum_univ' d]
  rw [map_sum]
  refine Finset.sum_congr rfl fun p _ => ?_
  rw [map_smul, smul_eq_mul]

/-- C105: every update changes the images in the steepest direction: to first order, no change of the entries by at most the size
of an update increases the attacked loss more. -/
theorem C105_steepest (apply : Apply C B ι R) (lossFn : List (Row C) → List (Row C) → Metrics → Except PyErr (List ℝ))
    (labels : List (Row C)) (delta : ℝ) (rngs : Option (List R)) (i : Nat) (x : Fin B × ι → ℝ) (d : Fin B × ι → ℝ)
    (hd : ∀ p, |d p| ≤ delta) :
    fderiv ℝ (batchLoss apply lossFn labels (rngs.bind (·[i]?))) x d ≤
      fderiv ℝ (batchLoss apply lossFn labels (rngs.bind (·[i]?))) x
        (Attack.pgdUpdate delta (lossGrad apply lossFn labels) rngs i x - x) := by
  rw [apply_eq_sum _ d, apply_eq_sum _ (_ - x)]
  refine Finset.sum_le_sum fun p _ => ?_
  simp only [Pi.sub_apply, Attack.pgdUpdate, add_sub_cancel_left]
  change d p * lossGrad apply lossFn labels x (rngs.bind (·[i]?)) p ≤
    delta * (SignType.sign (lossGrad apply lossFn labels x (rngs.bind (·[i]?)) p) : ℝ) *
      lossGrad apply lossFn labels x (rngs.bind (·[i]?)) p
  generalize lossGrad apply lossFn labels x (rngs.bind (·[i]?)) p = g
  rw [mul_assoc, sign_mul_self]
  calc d p * g ≤ |d p * g| := le_abs_self _
    _ = |d p| * |g| := abs_mul _ _
    _ ≤ delta * |g| := mul_le_mul_of_nonneg_right (hd p) (abs_nonneg _)

example : ∀ p : Fin 2 × Fin 3, |(fun _ => -1 / 2 : Fin 2 × Fin 3 → ℝ) p| ≤ (1 / 2 : ℝ) := by
  intro p
  norm_num [abs_of_neg]

/-- C105: a small enough attack with one update makes the attacked loss of the batch larger, unless its gradient is zero.  Here the
loss does not depend on the random key. -/
theorem C105_increases (split : R → Nat → List R) (apply : Apply C B ι R)
    (lossFn : List (Row C) → List (Row C) → Metrics → Except PyErr (List ℝ)) (labels : List (Row C))
    (loss : (Fin B × ι → ℝ) → ℝ) (hloss : ∀ r, batchLoss apply lossFn labels r = loss) (images : Fin B × ι → ℝ)
    (hd : DifferentiableAt ℝ loss images) (hne : fderiv ℝ loss images ≠ 0) :
    ∃ bound : ℝ, 0 < bound ∧ ∀ eps, 0 < eps → eps < bound → ∀ (images' : Fin B × ι → ℝ) (rng rng' : Option R),
      attack split eps 1 apply lossFn labels images rng = .ok (images', rng') → loss images < loss images' := by
  let s : Fin B × ι → ℝ := fun p => SignType.sign (fderiv ℝ loss images (Pi.single p 1))
  have hs : 0 < fderiv ℝ loss images s := by
    rw [apply_eq_sum]
    have hp : ∀ p ∈ Finset.univ, 0 ≤ s p * fderiv ℝ loss images (Pi.single p 1) := by
      intro p _
      change 0 ≤ (SignType.sign (fderiv ℝ loss images (Pi.single p 1)) : ℝ) * _
      rw [sign_mul_self]
      exact abs_nonneg _
    rcases (Finset.sum_nonneg hp).lt_or_eq with h | h
    · exact h
    · exfalso
      apply hne
      have h0 := (Finset.sum_eq_zero_iff_of_nonneg hp).1 h.symm
      ext d
      rw [apply_eq_sum]
      refine (Finset.sum_eq_zero fun p _ => ?_).trans (by simp)
      have := h0 p (Finset.mem_univ p)
      change (SignType.sign (fderiv ℝ loss images (Pi.single p 1)) : ℝ) * _ = 0 at this
      rw [sign_mul_self, abs_eq_zero] at this
      rw [this, mul_zero]
  have hline : HasDerivAt (fun t : ℝ => loss (images + t • s)) (fderiv ℝ loss images s) 0 := by
    have h1 : HasDerivAt (fun t : ℝ => images + t • s) s 0 := by
      have := ((hasDerivAt_id (0 : ℝ)).smul_const s).const_add images
      simpa using this
    have h2 : HasFDerivAt loss (fderiv ℝ loss images) (images + (0 : ℝ) • s) := by
      simpa using hd.hasFDerivAt
    exact h2.comp_hasDerivAt (0 : ℝ) h1
  have hev := (hasDerivAt_iff_tendsto_slope.1 hline).eventually (lt_mem_nhds hs)
  rw [eventually_nhdsWithin_iff, Metric.eventually_nhds_iff] at hev
  obtain ⟨bound, hb, hball⟩ := hev
  refine ⟨bound, hb, ?_⟩
  intro eps h0 h1 images' rng rng' h
  obtain ⟨-, -, -, himg⟩ := attack_ok h
  have himg' : images' = images + eps • s := by
    rw [himg]
    funext p
    simp only [Attack.pgdLoop, Attack.pgdUpdate, lossGrad, hloss, Pi.add_apply, Pi.smul_apply, smul_eq_mul]
    norm_num [s]
  have hsl := hball (y := eps) (by
    rw [Real.dist_eq, sub_zero, abs_of_pos h0]
    exact h1) h0.ne'
  rw [slope_def_field] at hsl
  simp only [zero_smul, add_zero, sub_zero] at hsl
  have := (div_pos_iff_of_pos_right h0).1 hsl
  rw [himg']
  linarith

/-- A linear model with two classes: the logits of an image. -/
def linear (bias : Fin 2 → ℝ) (w : Fin 2 → ι → ℝ) (v : ι → ℝ) : Row 2 := fun c => bias c + ∑ p, w c p * v p

theorem softmaxXent_two (x : Row 2) (c : Fin 2) :
    softmaxXent x (Pi.single c 1) = Real.log (1 + Real.exp (x (1 - c) - x c)) := by
  have h : ∀ a b : ℝ, -(a - Real.log (Real.exp a + Real.exp b)) = Real.log (1 + Real.exp (b - a)) := by
    intro a b
    have e : Real.exp a + Real.exp b = Real.exp a * (1 + Real.exp (b - a)) := by
      rw [mul_add, ← Real.exp_add]
      congr 1
      · ring
      · congr 1
        ring
    have := Real.exp_pos (b - a)
    rw [e, Real.log_mul (Real.exp_pos a).ne' (by positivity), Real.log_exp]
    ring
  unfold softmaxXent logSoftmax
  fin_cases c
  · simp only [Fin.sum_univ_two, Pi.single_apply]
    simpa using h (x 0) (x 1)
  · simp only [Fin.sum_univ_two, Pi.single_apply]
    have := h (x 1) (x 0)
    rw [add_comm (Real.exp (x 1))] at this
    simpa using this

/-- C105: against a linear classifier with two classes the attack is the best possible one: every attacked image has the largest
loss of all images that differ from the original by at most `max_epsilon` in every entry. -/
theorem C105_linear_optimal (split : R → Nat → List R) (eps : ℝ) (n : Nat) (options : PyDict Key Nat)
    (lossFn : List (Row 2) → List (Row 2) → Metrics → Except PyErr (List ℝ))
    (hl : lossFromConfig (some ⟨some "softmax_xent".toList, none, options⟩) = .ok lossFn) (bias : Fin 2 → ℝ)
    (w : Fin 2 → ι → ℝ) (apply : Apply 2 B ι R)
    (happly : ∀ x r, (apply x r).1 = List.ofFn fun b => linear bias w fun p => x (b, p)) (label : Fin B → Fin 2)
    (images images' : Fin B × ι → ℝ) (rng rng' : Option R)
    (h : attack split eps n apply lossFn (List.ofFn fun b => Pi.single (label b) 1) images rng = .ok (images', rng'))
    (b : Fin B) (z : ι → ℝ) (hz : ∀ p, |z p - images (b, p)| ≤ eps) :
    softmaxXent (linear bias w z) (Pi.single (label b) 1) ≤
      softmaxXent (linear bias w fun p => images' (b, p)) (Pi.single (label b) 1) := by
  obtain ⟨hn, ⟨l, a, c, hlab⟩, -, himg⟩ := attack_ok h
  obtain ⟨hopt, hrows⟩ := loss_rows (by norm_num) ⟨some "softmax_xent".toList, none, options⟩ (by simp) lossFn hl
  have ho : options = [] := by
    by_contra ho
    rw [hopt ho] at hlab
    cases hlab
  obtain ⟨ell, hell, hname, hloss⟩ := hrows ho
  have hname := hname rfl
  subst hname
  have hpos : 0 < B := Fin.pos b
  let a : ι → ℝ := fun p => w (1 - label b) p - w (label b) p
  let t : (ι → ℝ) → ℝ := fun v => bias (1 - label b) - bias (label b) + ∑ p, a p * v p
  have hφ : ∀ v, softmaxXent (linear bias w v) (Pi.single (label b) 1) = Real.log (1 + Real.exp (t v)) := by
    intro v
    rw [softmaxXent_two]
    congr 3
    simp only [linear, t, a]
    rw [Finset.sum_congr rfl fun p _ => sub_mul _ _ _, Finset.sum_sub_distrib]
    ring
  have hlin : Differentiable ℝ (linear bias w) := by
    unfold linear
    fun_prop
  have hgrad : ∀ v p, fderiv ℝ (fun v => softmaxXent (linear bias w v) (Pi.single (label b) 1)) v (Pi.single p 1) =
      (1 + Real.exp (t v))⁻¹ * Real.exp (t v) * a p := by
    intro v p
    have h1 : (fun v => softmaxXent (linear bias w v) (Pi.single (label b) 1)) = fun v => Real.log (1 + Real.exp (t v)) := by
      funext v
      exact hφ v
    let A : (ι → ℝ) →L[ℝ] ℝ := ∑ p, a p • ContinuousLinearMap.proj (R := ℝ) (φ := fun _ : ι => ℝ) p
    have hA : ∀ v, A v = ∑ p, a p * v p := by
      intro v
      simp [A]
    have ht : HasFDerivAt t A v := by
      have : t = fun v => bias (1 - label b) - bias (label b) + A v := by
        funext v
        rw [hA]
      rw [this]
      exact A.hasFDerivAt.const_add _
    have he := Real.exp_pos (t v)
    have h2 : HasFDerivAt (fun v => Real.log (1 + Real.exp (t v))) ((1 + Real.exp (t v))⁻¹ • Real.exp (t v) • A) v :=
      (ht.exp.const_add 1).log (by positivity)
    rw [h1, h2.fderiv]
    simp only [_root_.smul_apply, smul_eq_mul, hA]
    rw [Finset.sum_eq_single p]
    · simp
      ring
    · intro q _ hq
      simp [hq]
    · intro hp
      exact absurd (Finset.mem_univ p) hp
  have hsign : ∀ x r p, SignType.sign (lossGrad apply lossFn (List.ofFn fun b => Pi.single (label b) 1) x r (b, p)) =
      SignType.sign (a p) := by
    intro x r p
    rw [lossGrad_rows softmaxXent hell lossFn hloss (linear bias w) hlin apply happly, sign_div_pos _ hpos, hgrad]
    have he := Real.exp_pos (t fun p => x (b, p))
    rw [sign_mul, sign_pos (by positivity), one_mul]
  have hloop : ∀ m p, Attack.pgdLoop (eps / n) (lossGrad apply lossFn (List.ofFn fun b => Pi.single (label b) 1))
      (rng.map fun r => split r (n + 1)) images m (b, p) = images (b, p) + eps / n * m * SignType.sign (a p) := by
    intro m p
    induction m with
    | zero => simp [Attack.pgdLoop]
    | succ m ih =>
      unfold Attack.pgdLoop Attack.pgdUpdate
      rw [hsign, ih]
      push_cast
      ring
  have hfinal : ∀ p, images' (b, p) = images (b, p) + eps * SignType.sign (a p) := by
    intro p
    have hn' : (n : ℝ) ≠ 0 := by exact_mod_cast hn
    rw [himg, hloop]
    congr 1
    field_simp
  rw [hφ, hφ]
  have hle : t z ≤ t fun p => images' (b, p) := by
    simp only [t]
    refine add_le_add le_rfl (Finset.sum_le_sum fun p _ => ?_)
    rw [hfinal]
    have h1 : a p * (z p - images (b, p)) ≤ eps * |a p| := by
      calc a p * (z p - images (b, p)) ≤ |a p * (z p - images (b, p))| := le_abs_self _
        _ = |z p - images (b, p)| * |a p| := by rw [abs_mul, mul_comm]
        _ ≤ eps * |a p| := mul_le_mul_of_nonneg_right (hz p) (abs_nonneg _)
    have h2 : a p * (eps * SignType.sign (a p)) = eps * |a p| := by
      rw [← sign_mul_self (a p)]
      ring
    linarith
  have he := Real.exp_pos (t z)
  exact Real.log_le_log (by positivity) (by linarith [Real.exp_le_exp.2 hle])

/-! ### Findings and examples -/

/-- A linear model on batches of two images with three entries: the hypotheses of `C105_independent` and `C105_linear_optimal`
can be met. -/
example : ∃ (f : List (Row 2) → List (Row 2) → Metrics → Except PyErr (List ℝ)) (apply : Apply 2 2 (Fin 3) Unit) (w : Fin 2 → Fin 3 → ℝ)
    (images' : Fin 2 × Fin 3 → ℝ), lossFromConfig (some ⟨some "softmax_xent".toList, none, []⟩) = .ok f ∧
    (∀ x r, (apply x r).1 = List.ofFn fun b => linear 0 w fun p => x (b, p)) ∧
    Differentiable ℝ (linear 0 w) ∧
    attack (fun _ n => List.replicate n ()) (1 / 10) 40 apply f (List.ofFn fun _ : Fin 2 => Pi.single 1 1) (fun _ => 0) none =
      .ok (images', none) := by
  have hf : ∃ f, lossFromConfig (C := 2) (some ⟨some "softmax_xent".toList, none, []⟩) = .ok f := by
    unfold lossFromConfig getLossFn
    simp
  obtain ⟨f, hf⟩ := hf
  let w : Fin 2 → Fin 3 → ℝ := fun c p => (c : ℕ) * (p : ℕ) - 1
  have h : ∃ images', attack (fun _ n => List.replicate n ()) (1 / 10) 40
      (fun (x : Fin 2 × Fin 3 → ℝ) (_ : Option Unit) => (List.ofFn fun b => linear 0 w fun p => x (b, p), [])) f
      (List.ofFn fun _ : Fin 2 => Pi.single 1 1) (fun _ => 0) none = .ok (images', none) := by
    unfold attack
    rw [if_neg (by norm_num)]
    simp only
    obtain ⟨ell, -, -, hl⟩ := (loss_rows (by norm_num) _ (by simp) f hf).2 rfl
    rw [hl, if_pos (by simp)]
    simp only
    unfold Attack.pgd
    rw [if_neg (by norm_num)]
    exact ⟨_, rfl⟩
  obtain ⟨images', h⟩ := h
  exact ⟨f, _, w, images', hf, fun _ _ => rfl, by unfold linear; fun_prop, h⟩

/-- A model with two images of one pixel whose auxiliary loss is the product of the pixels. -/
noncomputable def productAux : Apply 2 2 Unit Unit :=
  fun x _ => ([0, 0], [("auxiliary_loss".toList, [x (0, ()) * x (1, ())])])

/-- The two images, the second one is given. -/
def twoImages (second : ℝ) : Fin 2 × Unit → ℝ := fun p => if p.1 = 0 then 0 else second

/-- The attacked loss of this model, with auxiliary loss. -/
theorem productAux_loss (f : List (Row 2) → List (Row 2) → Metrics → Except PyErr (List ℝ))
    (h : lossFromConfig (some ⟨some "softmax_xent".toList, some true, []⟩) = .ok f) (r : Option Unit) :
    batchLoss productAux f [0, 0] r = fun x => x (0, ()) * x (1, ()) := by
  unfold lossFromConfig getLossFn at h
  simp only [if_true] at h
  have h := Except.ok.inj h
  funext x
  unfold batchLoss
  rw [← h]
  simp [withAuxiliary, productAux, LossFn.partialPlain, LossFn.softmaxCrossEntropy, zipRows, PyDict.get?, mean, softmaxXent]

theorem productAux_grad (f : List (Row 2) → List (Row 2) → Metrics → Except PyErr (List ℝ))
    (h : lossFromConfig (some ⟨some "softmax_xent".toList, some true, []⟩) = .ok f) (r : Option Unit) (x : Fin 2 × Unit → ℝ) :
    lossGrad productAux f [0, 0] x r (0, ()) = x (1, ()) := by
  unfold lossGrad
  rw [productAux_loss f h]
  have h1 : HasFDerivAt (fun x : Fin 2 × Unit → ℝ => x (0, ()) * x (1, ()))
      (x (0, ()) • ContinuousLinearMap.proj (R := ℝ) (φ := fun _ : Fin 2 × Unit => ℝ) (1, ()) +
        x (1, ()) • ContinuousLinearMap.proj (R := ℝ) (φ := fun _ : Fin 2 × Unit => ℝ) (0, ())) x :=
    (ContinuousLinearMap.proj (R := ℝ) (φ := fun _ : Fin 2 × Unit => ℝ) (0, ())).hasFDerivAt.mul
      (ContinuousLinearMap.proj (R := ℝ) (φ := fun _ : Fin 2 × Unit => ℝ) (1, ())).hasFDerivAt
  rw [h1.fderiv]
  simp

/-- The hypotheses of `C105_increases` for this model. -/
example : ∃ f, lossFromConfig (some ⟨some "softmax_xent".toList, some true, []⟩) = .ok f ∧
    (∀ r, batchLoss productAux f [0, 0] r = fun x => x (0, ()) * x (1, ())) ∧
    DifferentiableAt ℝ (fun x : Fin 2 × Unit → ℝ => x (0, ()) * x (1, ())) (twoImages 1) ∧
    fderiv ℝ (fun x : Fin 2 × Unit → ℝ => x (0, ()) * x (1, ())) (twoImages 1) ≠ 0 := by
  have hf : ∃ f, lossFromConfig (C := 2) (some ⟨some "softmax_xent".toList, some true, []⟩) = .ok f := by
    unfold lossFromConfig getLossFn
    simp
  obtain ⟨f, hf⟩ := hf
  refine ⟨f, hf, productAux_loss f hf, by fun_prop, fun h => ?_⟩
  have := productAux_grad f hf none (twoImages 1)
  unfold lossGrad at this
  rw [productAux_loss f hf, h] at this
  simp [twoImages] at this

/-- C105 (finding): with `attack_auxiliary_loss` the attacked image depends on the other images of the batch, although the logits
do not: the same image moves up or down. -/
theorem C105_auxiliary_counterexample :
    ∃ f, lossFromConfig (some ⟨some "softmax_xent".toList, some true, []⟩) = .ok f ∧
    ∃ up down, attack (fun _ n => List.replicate n ()) 1 1 productAux f [0, 0] (twoImages 1) none = .ok (up, none) ∧
      attack (fun _ n => List.replicate n ()) 1 1 productAux f [0, 0] (twoImages (-1)) none = .ok (down, none) ∧
      up (0, ()) = 1 ∧ down (0, ()) = -1 := by
  have hf : ∃ f, lossFromConfig (C := 2) (some ⟨some "softmax_xent".toList, some true, []⟩) = .ok f := by
    unfold lossFromConfig getLossFn
    simp
  obtain ⟨f, hf⟩ := hf
  have hok : ∀ x r, ∃ l, f (productAux x r).1 [0, 0] (productAux x r).2 = .ok l := by
    intro x r
    have h := hf
    unfold lossFromConfig getLossFn at h
    simp only [if_true] at h
    rw [← Except.ok.inj h]
    simp [withAuxiliary, productAux, LossFn.partialPlain, LossFn.softmaxCrossEntropy, zipRows, PyDict.get?]
  have key : ∀ second, attack (fun _ n => List.replicate n ()) 1 1 productAux f [0, 0] (twoImages second) none =
      .ok (Attack.pgdLoop (1 / (1 : ℕ)) (lossGrad productAux f [0, 0]) none (twoImages second) 1, none) := by
    intro second
    unfold attack
    rw [if_neg one_ne_zero]
    simp only
    obtain ⟨l, hl⟩ := hok (twoImages second) ((none : Option Unit).bind fun r => (List.replicate (1 + 1) r)[0]?)
    rw [hl]
    rfl
  refine ⟨f, hf, _, _, key 1, key (-1), ?_, ?_⟩
  · simp [Attack.pgdLoop, Attack.pgdUpdate, productAux_grad f hf, twoImages]
  · simp [Attack.pgdLoop, Attack.pgdUpdate, productAux_grad f hf, twoImages]

omit [Fintype ι] [DecidableEq ι] in
/-- C105: the attacked model is built with the arguments of the call string, those of the configuration in their place, and
`deterministic=True`; naming `deterministic` in either is a `TypeError`. -/
theorem C105_deterministic (conv : V → V → Option V) (true_ : V) (parsed config kwargs : List (FlatDict.Key × ConfigOverride.Cfg V))
    (hu : ConfigOverride.updateItems conv parsed config = .ok kwargs) :
    ("deterministic".toList ∉ PyDict.keys kwargs → ∃ r, modelKwargs conv true_ parsed config = .ok r ∧
      PyDict.get? r "deterministic".toList = some (.leaf (some true_)) ∧
      ∀ k, k ≠ "deterministic".toList → PyDict.get? r k = PyDict.get? kwargs k) ∧
    ("deterministic".toList ∈ PyDict.keys kwargs → modelKwargs conv true_ parsed config = .error .typeError) := by
  have happ : ∀ (d : List (FlatDict.Key × ConfigOverride.Cfg V)) (k : FlatDict.Key) (kv : FlatDict.Key × ConfigOverride.Cfg V),
      PyDict.get? (d ++ [kv]) k = match PyDict.get? d k with
        | some v => some v
        | none => if kv.1 = k then some kv.2 else none := by
    intro d k kv
    induction d with
    | nil =>
      by_cases h : kv.1 = k
      · simp [PyDict.get?, h]
      · simp [PyDict.get?, h]
    | cons a d ih =>
      by_cases h : a.1 = k
      · simp [PyDict.get?, h]
      · simp only [List.cons_append, PyDict.get?, h, if_false]
        exact ih
  unfold modelKwargs
  rw [hu]
  constructor
  · intro h
    refine ⟨kwargs ++ [("deterministic".toList, .leaf (some true_))], ?_, ?_, ?_⟩
    · change (if _ then _ else _) = _
      rw [if_neg h]
    · rw [happ, (PyDict.get?_eq_none kwargs _).2 h]
      simp
    · intro k hk
      rw [happ, if_neg fun e => hk e.symm]
      generalize PyDict.get? kwargs k = r
      cases r <;> rfl
  · intro h
    change (if _ then _ else _) = _
    rw [if_pos h]

example : modelKwargs (V := Nat) (fun _ v => some v) 1 [("a".toList, .leaf (some 5))] [("a".toList, .leaf (some 6))] =
      .ok [("a".toList, .leaf (some 6)), ("deterministic".toList, .leaf (some 1))] ∧
    modelKwargs (V := Nat) (fun _ v => some v) 1 [] [("deterministic".toList, .leaf (some 1))] = .error .typeError := by
  constructor <;> rfl

end Verif.AttackLoss
