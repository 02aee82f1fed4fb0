import Verif.Proofs.EnsembleEval

/-! C60: evaluation of ensembles (vmoe/evaluate/ensemble.py). -/

namespace Verif.EnsembleEval

open Verif EnsembleEvalSpec

variable {C : Nat}

/-- The value of `_ensemble_log_mean` for any normalization `f`, as the mean of `exp (f row)`. -/
theorem exp_logMean (rows : List (Row C)) (E B : Nat) (f : Row C → Row C) (hE : E ≠ 0) (h : rows.length = B * E) :
    ∃ out, logMean rows E f = .ok out ∧ out.length = B ∧ ∀ b (hb : b < out.length) c,
      Real.exp (out[b] c) = mean ((members E rows b).map fun m => Real.exp (f m c)) := by
  refine ⟨_, logMean_ok rows E B f hE h, by simp, ?_⟩
  intro b hb c
  have hbB : b < B := by simpa using hb
  have hl := members_length E rows B b h hbB
  rw [List.getElem_map, List.getElem_range]
  have := exp_log_mean ((members E rows b).map fun m => f m c) (by
    intro h0
    have := congrArg List.length h0
    simp [hl] at this
    exact hE this)
  simp only [List.map_map, Function.comp_def, List.length_map, hl] at this
  exact this

/-- C60: for mutually exclusive classes, the probability of every class is the mean of the probabilities that the members
give to this class for this example, and the probabilities of all classes sum to one. -/
theorem C60_softmax_mean (logits : List (Row C)) (E B : Nat) (hE : E ≠ 0) (h : logits.length = B * E) :
    ∃ out, logMean logits E logSoftmax = .ok out ∧ out.length = B ∧ ∀ b (hb : b < out.length),
      (∀ c, Real.exp (out[b] c) = mean ((members E logits b).map fun m => softmaxProb m c)) ∧
      (0 < C → ∑ c, Real.exp (out[b] c) = 1) := by
  obtain ⟨out, h1, h2, h3⟩ := exp_logMean logits E B logSoftmax hE h
  refine ⟨out, h1, h2, ?_⟩
  intro b hb
  have h4 : ∀ c, Real.exp (out[b] c) = mean ((members E logits b).map fun m => softmaxProb m c) := by
    intro c
    rw [h3 b hb c]
    simp only [exp_logSoftmax]
  refine ⟨h4, fun hC => ?_⟩
  simp only [h4, mean, List.length_map]
  rw [← Finset.sum_div, sum_map_sum]
  simp only [softmaxProb_sum hC]
  have hl := members_length E logits B b h (by omega)
  rw [List.map_const', List.sum_replicate, hl]
  have : (E : ℝ) ≠ 0 := by exact_mod_cast hE
  simp [this]

/-- C60: for independent labels, the probability of every label is the mean of the members' probabilities, and the two
numbers used by the loss are the probabilities of the label and of its absence. -/
theorem C60_sigmoid_mean (logits : List (Row C)) (E B : Nat) (hE : E ≠ 0) (h : logits.length = B * E) :
    ∃ out notOut, logMean logits E logSigmoid = .ok out ∧
      logMean (logits.map fun row => -row) E logSigmoid = .ok notOut ∧
      out.length = B ∧ notOut.length = B ∧ ∀ b (hb : b < out.length) (hb' : b < notOut.length) c,
        Real.exp (out[b] c) = mean ((members E logits b).map fun m => sigmoidProb m c) ∧
        Real.exp (notOut[b] c) = 1 - Real.exp (out[b] c) := by
  obtain ⟨out, h1, h2, h3⟩ := exp_logMean logits E B logSigmoid hE h
  obtain ⟨out', h1', h2', h3'⟩ := exp_logMean (logits.map fun row => -row) E B logSigmoid hE (by simpa using h)
  refine ⟨out, out', h1, h1', h2, h2', ?_⟩
  intro b hb hb' c
  have h4 : Real.exp (out[b] c) = mean ((members E logits b).map fun m => sigmoidProb m c) := by
    rw [h3 b hb c]
    simp only [exp_logSigmoid]
  refine ⟨h4, ?_⟩
  rw [h3' b hb' c, h4, members_map, List.map_map]
  simp only [Function.comp_def, exp_logSigmoid, sigmoidProb_neg, mean, List.length_map]
  have hl := members_length E logits B b h (by omega)
  have hpos : (0 : ℝ) < (members E logits b).length := by rw [hl]; exact_mod_cast Nat.pos_of_ne_zero hE
  have hs : ∀ l : List (Row C), (l.map fun m => 1 - sigmoidProb m c).sum = l.length - (l.map fun m => sigmoidProb m c).sum := by
    intro l
    induction l with
    | nil => simp
    | cons a l ih => simp only [List.map_cons, List.sum_cons, ih, List.length_cons]; push_cast; ring
  rw [hs, sub_div, div_self hpos.ne']

/-- C60: the order of the members does not matter. -/
theorem C60_order (rows rows' : List (Row C)) (E B : Nat) (f : Row C → Row C) (hE : E ≠ 0) (h : rows.length = B * E)
    (h' : rows'.length = B * E) (hperm : ∀ b < B, (members E rows b).Perm (members E rows' b)) :
    logMean rows E f = logMean rows' E f := by
  rw [logMean_ok rows E B f hE h, logMean_ok rows' E B f hE h']
  congr 1
  apply List.map_congr_left
  intro b hb
  funext c
  rw [((hperm b (List.mem_range.1 hb)).map _).sum_eq]

/-- C60: when all members agree, the ensemble is the single model. -/
theorem C60_agree (rows : List (Row C)) (E : Nat) (f : Row C → Row C) (hE : E ≠ 0) :
    logMean (repeatRows rows E) E f = .ok (rows.map f) := by
  rw [logMean_ok _ E rows.length f hE (repeat_length rows E)]
  congr 1
  apply List.ext_getElem (by simp)
  intro b hb hb'
  have hbl : b < rows.length := by simpa using hb
  rw [List.getElem_map, List.getElem_map, List.getElem_range]
  funext c
  rw [members_repeat rows E b hbl, List.map_replicate, List.sum_replicate, nsmul_eq_mul]
  have : (E : ℝ) ≠ 0 := by exact_mod_cast hE
  rw [Real.log_mul this (Real.exp_pos _).ne', Real.log_exp]
  ring

/-- C60: a number of rows that is no multiple of the number of members is rejected. -/
theorem C60_shape (rows : List (Row C)) (E : Nat) (f : Row C → Row C) (hE : E ≠ 0) (h : ¬ E ∣ rows.length) :
    logMean rows E f = .error .typeError :=
  logMean_error rows E f hE h

/-- C60: with non-negative labels, the loss of the ensemble is at most the mean of the training losses of its members for the
same example. -/
theorem C60_softmax_loss (logits labels : List (Row C)) (E : Nat) (hE : E ≠ 0) (h : logits.length = labels.length * E)
    (hy : ∀ y ∈ labels, ∀ c, 0 ≤ y c) :
    ∃ ev tr, softmaxEval logits labels E = .ok ev ∧ softmaxTrain logits labels E = .ok tr ∧ ev.length = labels.length ∧
      tr.length = labels.length * E ∧ ∀ b (hb : b < ev.length), ev[b] ≤ mean (members E tr b) := by
  unfold softmaxEval softmaxTrain
  rw [logMean_ok logits E labels.length logSoftmax hE h]
  change ∃ ev tr, zipRows _ _ _ = _ ∧ _
  unfold zipRows
  rw [if_pos (by simp), if_pos (by rw [h, repeat_length])]
  refine ⟨_, _, rfl, rfl, by simp, by simp [h, repeat_length], ?_⟩
  intro b hb
  have hbl : b < labels.length := by simpa using hb
  have hl := members_length E logits _ b h hbl
  rw [members_zipWith, members_repeat labels E b hbl, zipWith_replicate _ _ _ _ hl, List.getElem_zipWith, List.getElem_map,
    List.getElem_range]
  simp only [multiplyNoNan_eq, mean, List.length_map, softmaxXent]
  have e1 : ((members E logits b).map fun x => -∑ c, labels[b] c * logSoftmax x c).sum / (members E logits b).length =
      -∑ c, labels[b] c * mean ((members E logits b).map fun x => logSoftmax x c) := by
    simp only [mean, List.length_map]
    have : ∀ l : List (Row C), (l.map fun x => -∑ c, labels[b] c * logSoftmax x c).sum =
        -∑ c, labels[b] c * (l.map fun x => logSoftmax x c).sum := by
      intro l
      simp only [← List.sum_map_mul_left]
      rw [sum_map_sum l fun x c => labels[b] c * logSoftmax x c]
      induction l with
      | nil => simp
      | cons a l ih => simp only [List.map_cons, List.sum_cons, ih]; ring
    rw [this, neg_div, Finset.sum_div]
    simp only [mul_div_assoc]
  rw [e1]
  apply neg_le_neg
  apply Finset.sum_le_sum
  intro c _
  apply mul_le_mul_of_nonneg_left _ (hy _ (List.getElem_mem hbl) c)
  have := mean_le_log_mean ((members E logits b).map fun x => logSoftmax x c) (by
    intro h0
    have := congrArg List.length h0
    simp [hl] at this
    exact hE this)
  simpa only [List.map_map, Function.comp_def, List.length_map, hl] using this

/-- C60: with labels between zero and one, the loss of the ensemble of independent labels is at most the mean of the training
losses of its members for the same example. -/
theorem C60_sigmoid_loss (logits labels : List (Row C)) (E : Nat) (hE : E ≠ 0) (h : logits.length = labels.length * E)
    (hy : ∀ y ∈ labels, ∀ c, 0 ≤ y c ∧ y c ≤ 1) :
    ∃ ev tr, sigmoidEval logits labels E = .ok ev ∧ sigmoidTrain logits labels E = .ok tr ∧ ev.length = labels.length ∧
      tr.length = labels.length * E ∧ ∀ b (hb : b < ev.length), ev[b] ≤ mean (members E tr b) := by
  unfold sigmoidEval sigmoidTrain
  rw [logMean_ok logits E labels.length logSigmoid hE h,
    logMean_ok (logits.map fun row => -row) E labels.length logSigmoid hE (by simpa using h)]
  change ∃ ev tr, ((zipRows _ _ _ : Except PyErr _) >>= _) = _ ∧ _
  have z1 : ∀ (f : Row C → Row C → Row C) (g : Nat → Row C), zipRows f labels ((List.range labels.length).map g) =
      .ok (List.zipWith f labels ((List.range labels.length).map g)) := by
    intro f g
    unfold zipRows
    rw [if_pos (by simp)]
  rw [z1]
  change ∃ ev tr, ((zipRows _ _ _ : Except PyErr _) >>= _) = _ ∧ _
  rw [z1]
  change ∃ ev tr, zipRows _ _ _ = _ ∧ _
  unfold zipRows
  rw [if_pos (by simp), if_pos (by rw [h, repeat_length])]
  refine ⟨_, _, rfl, rfl, by simp, by simp [h, repeat_length], ?_⟩
  intro b hb
  have hbl : b < labels.length := by simpa using hb
  have hl := members_length E logits _ b h hbl
  rw [members_zipWith, members_repeat labels E b hbl, zipWith_replicate _ _ _ _ hl]
  simp only [List.getElem_zipWith, List.getElem_map, List.getElem_range, members_map, List.map_map, Function.comp_def,
    Pi.add_apply, Pi.mul_apply, Pi.sub_apply, Pi.one_apply, sigmoidXent]
  have e1 : mean ((members E logits b).map fun x =>
      ∑ c, (-labels[b] c * logSigmoid x c - (1 - labels[b] c) * logSigmoid (-x) c)) =
      -∑ c, (labels[b] c * mean ((members E logits b).map fun x => logSigmoid x c) +
        (1 - labels[b] c) * mean ((members E logits b).map fun x => logSigmoid (-x) c)) := by
    simp only [mean, List.length_map, ← mul_div_assoc, ← add_div]
    rw [← Finset.sum_div, ← neg_div]
    congr 1
    rw [← sum_map_sum, ← Finset.sum_neg_distrib]
    apply Finset.sum_congr rfl
    intro c _
    generalize members E logits b = l
    induction l with
    | nil => simp
    | cons a l ih => simp only [List.map_cons, List.sum_cons, ih]; ring
  rw [e1]
  apply neg_le_neg
  apply Finset.sum_le_sum
  intro c _
  have hc := hy _ (List.getElem_mem hbl) c
  have hne : ∀ f : Row C → ℝ, (members E logits b).map f ≠ [] := by
    intro f h0
    have := congrArg List.length h0
    simp [hl] at this
    exact hE this
  have a1 := mean_le_log_mean ((members E logits b).map fun x => logSigmoid x c) (hne _)
  have a2 := mean_le_log_mean ((members E logits b).map fun x => logSigmoid (-x) c) (hne _)
  simp only [List.map_map, Function.comp_def, List.length_map, hl] at a1 a2
  exact add_le_add (mul_le_mul_of_nonneg_left a1 hc.1) (mul_le_mul_of_nonneg_left a2 (by linarith [hc.2]))

/-- C60: the loss is the cross entropy of the ensemble's probabilities. -/
theorem C60_softmax_xent (logits labels : List (Row C)) (E : Nat) (hE : E ≠ 0) (h : logits.length = labels.length * E) :
    ∃ ev, softmaxEval logits labels E = .ok ev ∧ ev.length = labels.length ∧
      ∀ b (hb : b < ev.length) (hb' : b < labels.length),
        ev[b] = -∑ c, labels[b] c * Real.log (mean ((members E logits b).map fun m => softmaxProb m c)) := by
  unfold softmaxEval
  obtain ⟨out, h1, h2, h3⟩ := C60_softmax_mean logits E labels.length hE h
  rw [h1]
  change ∃ ev, zipRows _ _ _ = _ ∧ _
  unfold zipRows
  rw [if_pos h2.symm]
  refine ⟨_, rfl, by simp [h2], ?_⟩
  intro b hb hb'
  have hbo : b < out.length := by omega
  simp only [List.getElem_zipWith, multiplyNoNan_eq]
  congr 1
  apply Finset.sum_congr rfl
  intro c _
  rw [← (h3 b hbo).1 c, Real.log_exp]

/-- C60: the predicted class has the highest mean probability, and is the first such class. -/
theorem C60_prediction (hC : 0 < C) (logits : List (Row C)) (E B : Nat) (hE : E ≠ 0) (h : logits.length = B * E) :
    (∃ out, softmaxPred logits E = .ok out ∧ out.length = B ∧ ∀ b (hb : b < out.length),
      (∀ c, mean ((members E logits b).map fun m => softmaxProb m c) ≤
        mean ((members E logits b).map fun m => softmaxProb m out[b])) ∧
      ∀ c < out[b], mean ((members E logits b).map fun m => softmaxProb m c) <
        mean ((members E logits b).map fun m => softmaxProb m out[b])) ∧
    (∃ out, sigmoidPred logits E = .ok out ∧ out.length = B ∧ ∀ b (hb : b < out.length),
      (∀ c, mean ((members E logits b).map fun m => sigmoidProb m c) ≤
        mean ((members E logits b).map fun m => sigmoidProb m out[b])) ∧
      ∀ c < out[b], mean ((members E logits b).map fun m => sigmoidProb m c) <
        mean ((members E logits b).map fun m => sigmoidProb m out[b])) := by
  have key : ∀ (f : Row C → Row C) (p : Row C → Fin C → ℝ), (∀ m c, Real.exp (f m c) = p m c) →
      ∃ out, (do
        let logP ← logMean logits E f
        logP.mapM fun row => match argmax row with
          | some c => .ok c
          | none => .error .valueError : Except PyErr (List (Fin C))) = .ok out ∧ out.length = B ∧
        ∀ b (hb : b < out.length),
          (∀ c, mean ((members E logits b).map fun m => p m c) ≤ mean ((members E logits b).map fun m => p m out[b])) ∧
          ∀ c < out[b], mean ((members E logits b).map fun m => p m c) < mean ((members E logits b).map fun m => p m out[b]) := by
    intro f p hp
    obtain ⟨lp, h1, h2, h3⟩ := exp_logMean logits E B f hE h
    rw [h1]
    choose g hg1 hg2 hg3 using fun row => argmax_spec hC row
    refine ⟨lp.map g, ?_, by simpa using h2, ?_⟩
    · change List.mapM _ lp = _
      apply mapM_ok
      intro row _
      rw [hg1]
    · intro b hb
      have hb' : b < lp.length := by simpa using hb
      have e : ∀ c, mean ((members E logits b).map fun m => p m c) = Real.exp (lp[b] c) := by
        intro c
        rw [h3 b hb' c]
        simp only [hp]
      simp only [e, List.getElem_map]
      exact ⟨fun c => Real.exp_le_exp.2 (hg2 _ c), fun c hc => Real.exp_lt_exp.2 (hg3 _ c hc)⟩
  exact ⟨key logSoftmax softmaxProb exp_logSoftmax, key logSigmoid sigmoidProb exp_logSigmoid⟩

/-- Three examples, two members, two classes: the hypotheses hold, and the members of the second example are the rows 2
and 3. -/
example : ∃ logits : List (Row 2), logits.length = 3 * 2 ∧ members 2 logits 1 = [fun _ => 2, fun _ => 3] :=
  ⟨[fun _ => 0, fun _ => 1, fun _ => 2, fun _ => 3, fun _ => 4, fun _ => 5], rfl, rfl⟩

/-- The members of an example may be exchanged, not those of different examples. -/
example : ∀ b < 2, (members 2 [1, 2, 3, 4] b).Perm (members 2 [2, 1, 4, 3] b) := by decide

/-- One-hot labels. -/
example : ∀ y ∈ [(fun c => if c = 0 then 1 else 0 : Row 2)], ∀ c, 0 ≤ y c ∧ y c ≤ 1 := by
  intro y hy c
  simp only [List.mem_singleton] at hy
  subst hy
  dsimp only
  split <;> norm_num

end Verif.EnsembleEval
