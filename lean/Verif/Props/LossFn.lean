import Verif.Model.LossFn
import Verif.Proofs.EnsembleEval
import Verif.Props.EnsembleEval

/-! C95: the losses of the configuration (vmoe/train/trainer.py:441-477). -/

namespace Verif.LossFn

open Verif EnsembleEval EnsembleEvalSpec

variable {C : Nat}

theorem log_softmaxProb (x : Row C) (c : Fin C) : Real.log (softmaxProb x c) = logSoftmax x c := by
  rw [← exp_logSoftmax, Real.log_exp]

theorem log_sigmoidProb (x : Row C) (c : Fin C) : Real.log (sigmoidProb x c) = logSigmoid x c := by
  rw [← exp_logSigmoid, Real.log_exp]

theorem log_not_sigmoidProb (x : Row C) (c : Fin C) : Real.log (1 - sigmoidProb x c) = logSigmoid (-x) c := by
  rw [← sigmoidProb_neg, log_sigmoidProb]

theorem mapM_argmax (hC : 0 < C) (rows : List (Row C)) :
    ∃ out : List (Fin C), defaultLabelPred rows = .ok out ∧ out.length = rows.length ∧
      ∀ i (hi : i < rows.length) (ho : i < out.length),
        (∀ c, rows[i] c ≤ rows[i] out[i]) ∧ ∀ c < out[i], rows[i] c < rows[i] out[i] := by
  choose g hg1 hg2 hg3 using fun row => argmax_spec hC row
  refine ⟨rows.map g, ?_, by simp, ?_⟩
  · apply mapM_ok
    intro row _
    rw [hg1]
  · intro i hi ho
    simp only [List.getElem_map]
    exact ⟨hg2 _, hg3 _⟩

/-- C95: the names that exist, all others are a `ValueError`. -/
theorem C95_names (name : Key) (kwargs : PyDict Key Nat) :
    ((∃ f, getLossFn (C := C) name kwargs = .ok f) ↔ name ∈ ["softmax_xent".toList, "sigmoid_xent".toList,
      "ensemble_softmax_xent".toList, "ensemble_sigmoid_xent".toList]) ∧
    ((¬ ∃ f, getLossFn (C := C) name kwargs = .ok f) → getLossFn (C := C) name kwargs = .error .valueError) := by
  unfold getLossFn
  by_cases h1 : name = "softmax_xent".toList
  · rw [if_pos h1]
    exact ⟨⟨fun _ => by rw [h1]; simp, fun _ => ⟨_, rfl⟩⟩, fun h => absurd ⟨_, rfl⟩ h⟩
  by_cases h2 : name = "sigmoid_xent".toList
  · rw [if_neg h1, if_pos h2]
    exact ⟨⟨fun _ => by rw [h2]; simp, fun _ => ⟨_, rfl⟩⟩, fun h => absurd ⟨_, rfl⟩ h⟩
  by_cases h3 : name = "ensemble_softmax_xent".toList
  · rw [if_neg h1, if_neg h2, if_pos h3]
    exact ⟨⟨fun _ => by rw [h3]; simp, fun _ => ⟨_, rfl⟩⟩, fun h => absurd ⟨_, rfl⟩ h⟩
  by_cases h4 : name = "ensemble_sigmoid_xent".toList
  · rw [if_neg h1, if_neg h2, if_neg h3, if_pos h4]
    exact ⟨⟨fun _ => by rw [h4]; simp, fun _ => ⟨_, rfl⟩⟩, fun h => absurd ⟨_, rfl⟩ h⟩
  · rw [if_neg h1, if_neg h2, if_neg h3, if_neg h4]
    refine ⟨⟨?_, ?_⟩, fun _ => rfl⟩
    · rintro ⟨f, hf⟩
      cases hf
    · intro h
      simp only [List.mem_cons, List.not_mem_nil, or_false] at h
      rcases h with h | h | h | h
      · exact absurd h h1
      · exact absurd h h2
      · exact absurd h h3
      · exact absurd h h4

/-- C95: the plain losses.  Training and evaluation use the same loss, one number for each example: the cross-entropy of the
label with the probabilities of the model.  The prediction is the first of the classes with the highest probability. -/
theorem C95_plain (hC : 0 < C) (logits labels : List (Row C)) (h : logits.length = labels.length) :
    (∃ f loss out, getLossFn "softmax_xent".toList [] = .ok f ∧ f.train logits labels = .ok loss ∧
      f.eval logits labels = .ok loss ∧ f.pred logits = .ok out ∧ loss.length = labels.length ∧ out.length = labels.length ∧
      ∀ i (h1 : i < labels.length) (h2 : i < logits.length) (h3 : i < loss.length) (h4 : i < out.length),
        loss[i] = -∑ c, labels[i] c * Real.log (softmaxProb logits[i] c) ∧
        (∀ c, softmaxProb logits[i] c ≤ softmaxProb logits[i] out[i]) ∧
        ∀ c < out[i], softmaxProb logits[i] c < softmaxProb logits[i] out[i]) ∧
    (∃ f loss out, getLossFn "sigmoid_xent".toList [] = .ok f ∧ f.train logits labels = .ok loss ∧
      f.eval logits labels = .ok loss ∧ f.pred logits = .ok out ∧ loss.length = labels.length ∧ out.length = labels.length ∧
      ∀ i (h1 : i < labels.length) (h2 : i < logits.length) (h3 : i < loss.length) (h4 : i < out.length),
        loss[i] = -∑ c, (labels[i] c * Real.log (sigmoidProb logits[i] c) +
          (1 - labels[i] c) * Real.log (1 - sigmoidProb logits[i] c)) ∧
        (∀ c, sigmoidProb logits[i] c ≤ sigmoidProb logits[i] out[i]) ∧
        ∀ c < out[i], sigmoidProb logits[i] c < sigmoidProb logits[i] out[i]) := by
  obtain ⟨out, ho1, ho2, ho3⟩ := mapM_argmax hC logits
  have hsm : ∀ (x : Row C) (a b : Fin C), x a ≤ x b → softmaxProb x a ≤ softmaxProb x b := by
    intro x a b hab
    have hs : 0 < ∑ j, Real.exp (x j) := Finset.sum_pos (fun j _ => Real.exp_pos _) ⟨a, Finset.mem_univ a⟩
    exact div_le_div_of_nonneg_right (Real.exp_le_exp.2 hab) hs.le
  have hsm' : ∀ (x : Row C) (a b : Fin C), x a < x b → softmaxProb x a < softmaxProb x b := by
    intro x a b hab
    have hs : 0 < ∑ j, Real.exp (x j) := Finset.sum_pos (fun j _ => Real.exp_pos _) ⟨a, Finset.mem_univ a⟩
    exact div_lt_div_of_pos_right (Real.exp_lt_exp.2 hab) hs
  have hsg : ∀ (x : Row C) (a b : Fin C), x a ≤ x b → sigmoidProb x a ≤ sigmoidProb x b := by
    intro x a b hab
    have := Real.exp_pos (-(x b))
    exact one_div_le_one_div_of_le (by linarith) (by linarith [Real.exp_le_exp.2 (neg_le_neg hab)])
  have hsg' : ∀ (x : Row C) (a b : Fin C), x a < x b → sigmoidProb x a < sigmoidProb x b := by
    intro x a b hab
    have := Real.exp_pos (-(x b))
    exact one_div_lt_one_div_of_lt (by linarith) (by linarith [Real.exp_lt_exp.2 (neg_lt_neg hab)])
  constructor
  · refine ⟨_, List.zipWith softmaxXent logits labels, out, by rw [getLossFn, if_pos rfl], ?_, ?_, ho1, by simp [h], by omega, ?_⟩
    · simp [partialPlain, softmaxCrossEntropy, zipRows, h]
    · simp [partialPlain, softmaxCrossEntropy, zipRows, h]
    · intro i h1 h2 h3 h4
      obtain ⟨a, b⟩ := ho3 i h2 h4
      refine ⟨?_, fun c => hsm _ _ _ (a c), fun c hc => hsm' _ _ _ (b c hc)⟩
      rw [List.getElem_zipWith, softmaxXent]
      simp only [log_softmaxProb]
  · refine ⟨_, List.zipWith (fun x y => ∑ c, sigmoidXent x y c) logits labels, out,
      by rw [getLossFn, if_neg (by decide), if_pos rfl], ?_, ?_, ho1, by simp [h], by omega, ?_⟩
    · simp [partialPlain, defaultSigmoidXent, zipRows, h]
    · simp [partialPlain, defaultSigmoidXent, zipRows, h]
    · intro i h1 h2 h3 h4
      obtain ⟨a, b⟩ := ho3 i h2 h4
      refine ⟨?_, fun c => hsg _ _ _ (a c), fun c hc => hsg' _ _ _ (b c hc)⟩
      rw [List.getElem_zipWith, ← Finset.sum_neg_distrib]
      apply Finset.sum_congr rfl
      intro c _
      rw [log_sigmoidProb, log_not_sigmoidProb, sigmoidXent]
      ring

/-- `y log p ≤ y log y + p - y`. -/
theorem gibbs (y p : ℝ) (hy : 0 ≤ y) (hp : 0 < p) : y * Real.log p ≤ y * Real.log y + p - y := by
  rcases hy.eq_or_lt with rfl | hy
  · simp [hp.le]
  · have h1 := Real.log_le_sub_one_of_pos (div_pos hp hy)
    rw [Real.log_div hp.ne' hy.ne'] at h1
    have h2 := mul_le_mul_of_nonneg_left h1 hy.le
    have h3 : y * (p / y - 1) = p - y := by field_simp
    rw [h3] at h2
    linarith

theorem sigmoidProb_pos (x : Row C) (c : Fin C) : 0 < sigmoidProb x c := by
  have := Real.exp_pos (-(x c))
  unfold sigmoidProb
  positivity

theorem sigmoidProb_lt (x : Row C) (c : Fin C) : 0 < 1 - sigmoidProb x c := by
  rw [← sigmoidProb_neg]
  exact sigmoidProb_pos _ _

/-- C95: no model has a smaller loss than the one that predicts the label distribution.  For labels that are a distribution
over the classes the softmax loss is at least the entropy of the label, and for labels in `[0, 1]` the sigmoid loss is at
least the sum of the binary entropies. -/
theorem C95_lower_bound (hC : 0 < C) (logits labels : List (Row C)) (h : logits.length = labels.length) :
    ((∀ y ∈ labels, (∀ c, 0 ≤ y c) ∧ ∑ c, y c = 1) → ∃ f loss, getLossFn "softmax_xent".toList [] = .ok f ∧
      f.train logits labels = .ok loss ∧
      ∀ i (h1 : i < labels.length) (h3 : i < loss.length), -∑ c, labels[i] c * Real.log (labels[i] c) ≤ loss[i]) ∧
    ((∀ y ∈ labels, ∀ c, 0 ≤ y c ∧ y c ≤ 1) → ∃ f loss, getLossFn "sigmoid_xent".toList [] = .ok f ∧
      f.train logits labels = .ok loss ∧
      ∀ i (h1 : i < labels.length) (h3 : i < loss.length),
        -∑ c, (labels[i] c * Real.log (labels[i] c) + (1 - labels[i] c) * Real.log (1 - labels[i] c)) ≤ loss[i]) := by
  obtain ⟨⟨f, loss, out, a1, a2, a3, a4, a5, a6, a7⟩, ⟨f', loss', out', b1, b2, b3, b4, b5, b6, b7⟩⟩ :=
    C95_plain hC logits labels h
  constructor
  · intro hy
    refine ⟨f, loss, a1, a2, ?_⟩
    intro i h1 h3
    rw [(a7 i h1 (by omega) h3 (by omega)).1]
    obtain ⟨hy0, hy1⟩ := hy labels[i] (List.getElem_mem h1)
    apply neg_le_neg
    have hp : ∀ c, 0 < softmaxProb (logits[i]'(by omega)) c := by
      intro c
      rw [← exp_logSoftmax]
      exact Real.exp_pos _
    calc ∑ c, labels[i] c * Real.log (softmaxProb logits[i] c)
        ≤ ∑ c, (labels[i] c * Real.log (labels[i] c) + (softmaxProb logits[i] c - labels[i] c)) := by
          apply Finset.sum_le_sum
          intro c _
          have := gibbs (labels[i] c) _ (hy0 c) (hp c)
          linarith
      _ = _ := by
          rw [Finset.sum_add_distrib, Finset.sum_sub_distrib, softmaxProb_sum hC, hy1]
          ring
  · intro hy
    refine ⟨f', loss', b1, b2, ?_⟩
    intro i h1 h3
    rw [(b7 i h1 (by omega) h3 (by omega)).1]
    have hy0 := hy labels[i] (List.getElem_mem h1)
    apply neg_le_neg
    apply Finset.sum_le_sum
    intro c _
    have e1 := gibbs (labels[i] c) _ (hy0 c).1 (sigmoidProb_pos (logits[i]'(by omega)) c)
    have e2 := gibbs (1 - labels[i] c) _ (by linarith [(hy0 c).2]) (sigmoidProb_lt (logits[i]'(by omega)) c)
    linarith

theorem repeatRows_one (rows : List (Row C)) : repeatRows rows 1 = rows := by
  induction rows with
  | nil => rfl
  | cons a l ih => simp only [repeatRows, List.flatMap_cons] at *; rw [ih]; rfl

theorem logMean_one (rows : List (Row C)) (f : Row C → Row C) : logMean rows 1 f = .ok (rows.map f) := by
  have := C60_agree rows 1 f (by decide)
  rwa [repeatRows_one] at this

theorem zipRows_comm {α β γ : Type} (f : α → β → γ) (x : List α) (y : List β) :
    zipRows f x y = zipRows (fun b a => f a b) y x := by
  unfold zipRows
  by_cases h : x.length = y.length
  · rw [if_pos h, if_pos h.symm, List.zipWith_comm]
  · rw [if_neg h, if_neg (Ne.symm h)]

theorem zipRows_map {α α' β γ : Type} (f : α' → β → γ) (g : α → α') (x : List α) (y : List β) :
    zipRows f (x.map g) y = zipRows (fun a b => f (g a) b) x y := by
  unfold zipRows
  rw [List.length_map, List.zipWith_map_left]

theorem argmax_congr (x y : Row C) (h : ∀ a b, x a < x b ↔ y a < y b) : argmax x = argmax y := by
  unfold argmax
  congr 1
  funext best c
  cases best with
  | none => rfl
  | some b => simp only [h]

theorem pred_congr (g : Row C → Row C) (rows : List (Row C)) (h : ∀ x a b, g x a < g x b ↔ x a < x b) :
    ((rows.map g).mapM fun row => match argmax row with
      | some c => Except.ok c
      | none => .error .valueError : Except PyErr (List (Fin C))) = defaultLabelPred rows := by
  unfold defaultLabelPred
  induction rows with
  | nil => rfl
  | cons a l ih =>
    rw [List.map_cons, List.mapM_cons, List.mapM_cons, ih, argmax_congr (g a) a (h a)]
    cases argmax a <;> rfl

/-- C95: an ensemble of one member is the plain model: the losses and the prediction are the plain ones, for all logits and
labels, also those that are rejected. -/
theorem C95_ensemble_of_one :
    (∃ f g : LossFns C, getLossFn "ensemble_softmax_xent".toList [("ensemble_size".toList, 1)] = .ok f ∧
      getLossFn "softmax_xent".toList [] = .ok g ∧ (∀ x y, f.train x y = g.train x y) ∧ (∀ x y, f.eval x y = g.eval x y) ∧
      ∀ x, f.pred x = g.pred x) ∧
    (∃ f g : LossFns C, getLossFn "ensemble_sigmoid_xent".toList [("ensemble_size".toList, 1)] = .ok f ∧
      getLossFn "sigmoid_xent".toList [] = .ok g ∧ (∀ x y, f.train x y = g.train x y) ∧ (∀ x y, f.eval x y = g.eval x y) ∧
      ∀ x, f.pred x = g.pred x) := by
  have hl : ∀ (x : Row C) (a b : Fin C), logSoftmax x a < logSoftmax x b ↔ x a < x b := by
    intro x a b
    simp [logSoftmax]
  have hs : ∀ (x : Row C) (a b : Fin C), logSigmoid x a < logSigmoid x b ↔ x a < x b := by
    intro x a b
    have h1 := Real.exp_pos (-(x a))
    have h2 := Real.exp_pos (-(x b))
    simp only [logSigmoid, neg_lt_neg_iff]
    rw [Real.log_lt_log_iff (by linarith) (by linarith), add_lt_add_iff_left, Real.exp_lt_exp, neg_lt_neg_iff]
  constructor
  · refine ⟨_, _, by rw [getLossFn, if_neg (by decide), if_neg (by decide), if_pos rfl], by rw [getLossFn, if_pos rfl], ?_, ?_, ?_⟩
    · intro x y
      simp only [partialEnsemble, partialPlain, if_true, softmaxTrain, softmaxCrossEntropy, repeatRows_one]
    · intro x y
      simp only [partialEnsemble, partialPlain, if_true, softmaxEval, softmaxCrossEntropy, logMean_one]
      change zipRows _ _ _ = _
      rw [zipRows_comm, zipRows_map]
      congr 1
      funext a b
      simp only [softmaxXent, multiplyNoNan_eq]
    · intro x
      simp only [partialEnsemble, if_true, softmaxPred, logMean_one]
      exact pred_congr logSoftmax x hl
  · refine ⟨_, _, by rw [getLossFn, if_neg (by decide), if_neg (by decide), if_neg (by decide), if_pos rfl],
      by rw [getLossFn, if_neg (by decide), if_pos rfl], ?_, ?_, ?_⟩
    · intro x y
      simp only [partialEnsemble, partialPlain, if_true, sigmoidTrain, defaultSigmoidXent, repeatRows_one]
    · intro x y
      simp only [partialEnsemble, partialPlain, if_true, sigmoidEval, defaultSigmoidXent, logMean_one]
      change ((zipRows _ _ _ : Except PyErr _) >>= _) = _
      unfold zipRows
      by_cases hxy : x.length = y.length
      · rw [if_pos (by simp [hxy]), if_pos hxy]
        change ((if _ then _ else _ : Except PyErr _) >>= _) = _
        rw [if_pos (by simp [hxy])]
        change (if _ then _ else _ : Except PyErr _) = _
        rw [if_pos (by simp [hxy])]
        congr 1
        apply List.ext_getElem
        · simp [hxy]
        · intro i h1 h2
          simp only [List.getElem_zipWith, List.getElem_map, ← Finset.sum_neg_distrib]
          apply Finset.sum_congr rfl
          intro c _
          simp only [sigmoidXent, Pi.add_apply, Pi.mul_apply, Pi.sub_apply, Pi.one_apply]
          ring
      · rw [if_neg (by simpa using Ne.symm hxy), if_neg hxy]
        rfl
    · intro x
      simp only [partialEnsemble, if_true, sigmoidPred, logMean_one]
      exact pred_congr logSigmoid x hs

theorem repeatRows_get (labels : List (Row C)) (E b e : Nat) (hb : b < labels.length) (he : e < E) :
    (repeatRows labels E)[b * E + e]? = some labels[b] := by
  have h := congrArg (fun l : List (Row C) => l[e]?) (members_repeat labels E b hb)
  simp only [members_eq, List.getElem?_take, List.getElem?_drop, he, if_true, List.getElem?_replicate] at h
  exact h

/-- C95: the training loss of an ensemble is the list of the plain losses of its members: the one of member `e` for example
`b`, at position `b * E + e`, compares the logits of this position with the label of example `b`. -/
theorem C95_ensemble_train (logits labels : List (Row C)) (E : Nat) (h : logits.length = labels.length * E) :
    (∃ f loss, getLossFn "ensemble_softmax_xent".toList [("ensemble_size".toList, E)] = .ok f ∧
      f.train logits labels = .ok loss ∧ loss.length = labels.length * E ∧
      ∀ b (hb : b < labels.length) e, e < E → ∃ x, logits[b * E + e]? = some x ∧
        loss[b * E + e]? = some (-∑ c, labels[b] c * Real.log (softmaxProb x c))) ∧
    (∃ f loss, getLossFn "ensemble_sigmoid_xent".toList [("ensemble_size".toList, E)] = .ok f ∧
      f.train logits labels = .ok loss ∧ loss.length = labels.length * E ∧
      ∀ b (hb : b < labels.length) e, e < E → ∃ x, logits[b * E + e]? = some x ∧
        loss[b * E + e]? = some (-∑ c, (labels[b] c * Real.log (sigmoidProb x c) +
          (1 - labels[b] c) * Real.log (1 - sigmoidProb x c)))) := by
  have hr := repeat_length labels E
  have hlt : ∀ b e, b < labels.length → e < E → b * E + e < logits.length := by
    intro b e hb he
    rw [h]
    calc b * E + e < b * E + E := by omega
      _ = (b + 1) * E := by ring
      _ ≤ _ := Nat.mul_le_mul_right E hb
  constructor
  · refine ⟨_, List.zipWith softmaxXent logits (repeatRows labels E),
      by rw [getLossFn, if_neg (by decide), if_neg (by decide), if_pos rfl], ?_, by simp [h, hr], ?_⟩
    · simp [partialEnsemble, softmaxTrain, zipRows, h, hr]
    · intro b hb e he
      refine ⟨_, List.getElem?_eq_getElem (hlt b e hb he), ?_⟩
      rw [List.getElem?_zipWith, List.getElem?_eq_getElem (hlt b e hb he), repeatRows_get labels E b e hb he]
      simp only [softmaxXent, log_softmaxProb]
  · refine ⟨_, List.zipWith (fun x y => ∑ c, sigmoidXent x y c) logits (repeatRows labels E),
      by rw [getLossFn, if_neg (by decide), if_neg (by decide), if_neg (by decide), if_pos rfl], ?_, by simp [h, hr], ?_⟩
    · simp [partialEnsemble, sigmoidTrain, zipRows, h, hr]
    · intro b hb e he
      refine ⟨_, List.getElem?_eq_getElem (hlt b e hb he), ?_⟩
      rw [List.getElem?_zipWith, List.getElem?_eq_getElem (hlt b e hb he), repeatRows_get labels E b e hb he]
      simp only [Option.some.injEq]
      rw [← Finset.sum_neg_distrib]
      apply Finset.sum_congr rfl
      intro c _
      rw [log_sigmoidProb, log_not_sigmoidProb, sigmoidXent]
      ring

/-- C95: a wrong number of labels is an error, and the ensemble losses need `ensemble_size`, the plain ones do not accept
it; but `get_loss_fn` does not notice: the error comes with the first call, and the prediction of a plain loss works all the
same. -/
theorem C95_wrong_arguments (x y : List (Row C)) (n : Nat) (f : LossFns C) :
    (∀ name, name = "softmax_xent".toList ∨ name = "sigmoid_xent".toList → getLossFn name [("ensemble_size".toList, n)] = .ok f →
      f.train x y = .error .typeError ∧ f.eval x y = .error .typeError ∧
        ∀ g, getLossFn name [] = .ok g → f.pred x = g.pred x) ∧
    (∀ name, name = "ensemble_softmax_xent".toList ∨ name = "ensemble_sigmoid_xent".toList → getLossFn name [] = .ok f →
      f.train x y = .error .typeError ∧ f.eval x y = .error .typeError ∧ f.pred x = .error .typeError) ∧
    (∀ name, name = "softmax_xent".toList ∨ name = "sigmoid_xent".toList → getLossFn name [] = .ok f →
      x.length ≠ y.length → f.train x y = .error .typeError ∧ f.eval x y = .error .typeError) := by
  refine ⟨?_, ?_, ?_⟩
  · rintro name (rfl | rfl) hf
    · rw [getLossFn, if_pos rfl] at hf
      cases hf
      refine ⟨rfl, rfl, ?_⟩
      intro g hg
      rw [getLossFn, if_pos rfl] at hg
      cases hg
      rfl
    · rw [getLossFn, if_neg (by decide), if_pos rfl] at hf
      cases hf
      refine ⟨rfl, rfl, ?_⟩
      intro g hg
      rw [getLossFn, if_neg (by decide), if_pos rfl] at hg
      cases hg
      rfl
  · rintro name (rfl | rfl) hf
    · rw [getLossFn, if_neg (by decide), if_neg (by decide), if_pos rfl] at hf
      cases hf
      exact ⟨rfl, rfl, rfl⟩
    · rw [getLossFn, if_neg (by decide), if_neg (by decide), if_neg (by decide), if_pos rfl] at hf
      cases hf
      exact ⟨rfl, rfl, rfl⟩
  · rintro name (rfl | rfl) hf hxy
    · rw [getLossFn, if_pos rfl] at hf
      cases hf
      simp [partialPlain, softmaxCrossEntropy, zipRows, hxy]
    · rw [getLossFn, if_neg (by decide), if_pos rfl] at hf
      cases hf
      simp [partialPlain, defaultSigmoidXent, zipRows, hxy]

/-- C95 (options): with any options but none the losses of `softmax_xent` and `sigmoid_xent` fail when they are called, and
with any options but `ensemble_size` alone those of the ensembles fail, and their predictions too. -/
theorem C95_options (x y : List (Row C)) (kwargs : PyDict Key Nat) (f : LossFns C) :
    (∀ name, name = "softmax_xent".toList ∨ name = "sigmoid_xent".toList → getLossFn name kwargs = .ok f →
      PyDict.keys kwargs ≠ [] → f.train x y = .error .typeError ∧ f.eval x y = .error .typeError) ∧
    (∀ name, name = "ensemble_softmax_xent".toList ∨ name = "ensemble_sigmoid_xent".toList → getLossFn name kwargs = .ok f →
      PyDict.keys kwargs ≠ ["ensemble_size".toList] →
      f.train x y = .error .typeError ∧ f.eval x y = .error .typeError ∧ f.pred x = .error .typeError) := by
  have hp : ∀ {α : Type} (g : Except PyErr α), PyDict.keys kwargs ≠ [] → partialPlain kwargs g = .error .typeError := by
    intro α g h
    unfold partialPlain
    rw [if_neg]
    rintro rfl
    exact h rfl
  have he : ∀ {α : Type} (g : Nat → Except PyErr α), PyDict.keys kwargs ≠ ["ensemble_size".toList] →
      partialEnsemble kwargs g = .error .typeError := by
    intro α g h
    unfold partialEnsemble
    split
    · rw [if_neg]
      rintro rfl
      exact h rfl
    · rfl
  constructor
  · rintro name (rfl | rfl) hf hk
    · rw [getLossFn, if_pos rfl] at hf
      cases hf
      exact ⟨hp _ hk, hp _ hk⟩
    · rw [getLossFn, if_neg (by decide), if_pos rfl] at hf
      cases hf
      exact ⟨hp _ hk, hp _ hk⟩
  · rintro name (rfl | rfl) hf hk
    · rw [getLossFn, if_neg (by decide), if_neg (by decide), if_pos rfl] at hf
      cases hf
      exact ⟨he _ hk, he _ hk, he _ hk⟩
    · rw [getLossFn, if_neg (by decide), if_neg (by decide), if_neg (by decide), if_pos rfl] at hf
      cases hf
      exact ⟨he _ hk, he _ hk, he _ hk⟩

/-- An option with another name. -/
example : PyDict.keys [("size".toList, 2)] ≠ ["ensemble_size".toList] := by decide

/-- Two examples with three classes and one-hot labels meet the hypotheses of the plain losses. -/
example : ∃ logits labels : List (Row 3), logits.length = labels.length ∧ labels.length = 2 ∧
    (∀ y ∈ labels, (∀ c, 0 ≤ y c) ∧ ∑ c, y c = 1) ∧ ∀ y ∈ labels, ∀ c, 0 ≤ y c ∧ y c ≤ 1 := by
  refine ⟨[fun c => c, fun c => -c], [fun c => if c = 0 then 1 else 0, fun c => if c = 2 then 1 else 0], rfl, rfl, ?_, ?_⟩
  · intro y hy
    simp only [List.mem_cons, List.not_mem_nil, or_false] at hy
    rcases hy with rfl | rfl
    · exact ⟨fun c => by dsimp only; split <;> norm_num, by simp⟩
    · exact ⟨fun c => by dsimp only; split <;> norm_num, by simp⟩
  · intro y hy c
    simp only [List.mem_cons, List.not_mem_nil, or_false] at hy
    rcases hy with rfl | rfl <;> dsimp only <;> split <;> norm_num

/-- Two examples, three members: the shapes of `C95_ensemble_train`. -/
example : ∃ logits labels : List (Row 2), logits.length = labels.length * 3 ∧ labels.length = 2 :=
  ⟨[fun _ => 0, fun _ => 1, fun _ => 2, fun _ => 3, fun _ => 4, fun _ => 5], [fun _ => 1, fun _ => 0], rfl, rfl⟩

/-- A name of the configuration that does not exist. -/
example : getLossFn (C := 2) "softmax".toList [] = .error .valueError :=
  (C95_names _ _).2 (by rw [(C95_names _ _).1]; decide)

end Verif.LossFn
