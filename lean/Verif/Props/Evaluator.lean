import Verif.Proofs.Evaluator
import Verif.Props.DataPipeline
import Mathlib.Algebra.BigOperators.Group.List.Lemmas
import Mathlib.Tactic.IntervalCases

/-!
# Evaluation metrics (C34)
-/

namespace Verif.Evaluator

open Verif DataPipeline

variable {X L R : Type}

/-- Spec: the model, the loss and the prediction treat every example on its own, with no randomness. -/
structure PerExample (F : Fns X L R) (f : X → L) (loss : L → List ℝ → List ℝ) (pred : L → Nat) : Prop where
  apply : ∀ xs r, F.applyFn xs r = xs.map f
  loss : ∀ ls ys, F.lossFn ls ys = List.zipWith loss ls ys
  pred : ∀ ls, F.labelPredFn ls = ls.map pred

/-- Spec: the loss of an example. -/
def lossOf (f : X → L) (loss : L → List ℝ → List ℝ) (x : X) (y : List ℝ) : ℝ := (loss (f x) y).sum

/-- Spec: the label weight of the predicted class, zero if there is no such class. -/
def correctOf (f : X → L) (pred : L → Nat) (x : X) (y : List ℝ) : ℝ := (y[pred (f x)]?).getD 0

/-- The accumulated values are the sums over all examples in all batches, weighted by their validity. -/
theorem C34_batches (F : Fns X L R) (f : X → L) (loss : L → List ℝ → List ℝ) (pred : L → Nat)
    (hF : PerExample F f loss pred) (s : EvalState R) (batches : List (List (X × List ℝ × ℝ))) :
    let s' := evaluateDataset F s (batches.map toBatch)
    s'.num = s.num + (batches.flatten.map fun e => e.2.2).sum ∧
    s'.sumLoss = s.sumLoss + (batches.flatten.map fun e => e.2.2 * lossOf f loss e.1 e.2.1).sum ∧
    s'.sumCorrect = s.sumCorrect + (batches.flatten.map fun e => e.2.2 * correctOf f pred e.1 e.2.1).sum := by
  intro s'
  induction batches generalizing s with
  | nil => simp [s', evaluateDataset]
  | cons b bs ih =>
    have e1 : (evaluateStep F s (toBatch b)).num = s.num + (b.map fun e => e.2.2).sum := by
      simp [evaluateStep, EvalState.update, toBatch]
    have e2 : (evaluateStep F s (toBatch b)).sumLoss =
        s.sumLoss + (b.map fun e => e.2.2 * lossOf f loss e.1 e.2.1).sum := by
      simp only [evaluateStep, EvalState.update, toBatch, maskedLoss, hF.apply, hF.loss, List.map_map]
      rw [zipWith_map_map, zipWith_map_map]
      rfl
    have e3 : (evaluateStep F s (toBatch b)).sumCorrect =
        s.sumCorrect + (b.map fun e => e.2.2 * correctOf f pred e.1 e.2.1).sum := by
      simp only [evaluateStep, EvalState.update, toBatch, correctArray, hF.apply, hF.pred, List.map_map]
      rw [zip_map_map, zipWith_map_map, List.map_map]
      congr 2
      apply List.map_congr_left
      intro e _
      simp only [Function.comp]
      rw [sum_masked_oneHot]
      rfl
    obtain ⟨h1, h2, h3⟩ := ih (evaluateStep F s (toBatch b))
    have e0 : s' = evaluateDataset F (evaluateStep F s (toBatch b)) (bs.map toBatch) := rfl
    rw [e0, h1, h2, h3, e1, e2, e3]
    simp only [List.flatten_cons, List.map_append, List.sum_append, add_assoc, and_self]

/-- Spec: the random keys of batch number `k`, when keys are split in keys to use and keys to keep. -/
def keysOf (split : R → R × R) (rngs : R) (k : Nat) : R := (split ((fun r => (split r).2)^[k] rngs)).1

/-- With a model that uses random numbers, batch number `k` is evaluated with the `k`-th keys (never
with those of another batch), and the last keys are kept in the state. -/
theorem C34_random_batches (F : Fns X L R) (f : R → X → L) (loss : L → List ℝ → List ℝ) (pred : L → Nat)
    (happly : ∀ xs r, F.applyFn xs r = xs.map (f r))
    (hloss : ∀ ls ys, F.lossFn ls ys = List.zipWith loss ls ys) (hpred : ∀ ls, F.labelPredFn ls = ls.map pred)
    (s : EvalState R) (batches : List (List (X × List ℝ × ℝ))) :
    let s' := evaluateDataset F s (batches.map toBatch)
    let sumOf := fun q : R → X → List ℝ → ℝ => ∑ k : Fin batches.length,
      (batches[k].map fun e => e.2.2 * q (keysOf F.rngSplit s.rngs k) e.1 e.2.1).sum
    s'.rngs = (fun r => (F.rngSplit r).2)^[batches.length] s.rngs ∧
    s'.sumLoss = s.sumLoss + sumOf (fun r => lossOf (f r) loss) ∧
    s'.sumCorrect = s.sumCorrect + sumOf (fun r => correctOf (f r) pred) := by
  induction batches generalizing s with
  | nil => simp [evaluateDataset]
  | cons b bs ih =>
    let F₁ : Fns X L R := { F with applyFn := fun xs _ => xs.map (f (F.rngSplit s.rngs).1) }
    have hstep : evaluateStep F s (toBatch b) = evaluateStep F₁ s (toBatch b) := by
      simp only [evaluateStep, happly, F₁]
    obtain ⟨-, e2, e3⟩ := C34_batches F₁ (f (F.rngSplit s.rngs).1) loss pred
      ⟨fun _ _ => rfl, hloss, hpred⟩ s [b]
    have hone : evaluateDataset F₁ s ([b].map toBatch) = evaluateStep F s (toBatch b) := hstep.symm
    rw [hone] at e2 e3
    simp only [List.flatten_cons, List.flatten_nil, List.append_nil] at e2 e3
    have er : (evaluateStep F s (toBatch b)).rngs = (F.rngSplit s.rngs).2 := rfl
    intro s' sumOf
    obtain ⟨h1, h2, h3⟩ := ih (evaluateStep F s (toBatch b))
    have e0 : s' = evaluateDataset F (evaluateStep F s (toBatch b)) (bs.map toBatch) := rfl
    have hsum : ∀ q : R → X → List ℝ → ℝ, sumOf q =
        (b.map fun e => e.2.2 * q (F.rngSplit s.rngs).1 e.1 e.2.1).sum +
        ∑ k : Fin bs.length, (bs[k].map fun e => e.2.2 *
          q (keysOf F.rngSplit (F.rngSplit s.rngs).2 k) e.1 e.2.1).sum := by
      intro q
      exact Fin.sum_univ_succ (n := bs.length) (fun k => ((b :: bs)[k].map fun e => e.2.2 *
        q (keysOf F.rngSplit s.rngs k) e.1 e.2.1).sum)
    rw [er] at h1 h2 h3
    refine ⟨?_, ?_, ?_⟩
    · rw [e0, h1]
      rfl
    · rw [e0, h2, e2, add_assoc]
      exact congrArg _ (hsum (fun r => lossOf (f r) loss)).symm
    · rw [e0, h3, e3, add_assoc]
      exact congrArg _ (hsum (fun r => correctOf (f r) pred)).symm

-- Non-vacuity: keys are numbers, `split n = (2 n, 2 n + 1)`; two batches use the keys 2 and 6.
example :
    let F : Fns ℝ ℝ Nat := ⟨fun r => (2 * r, 2 * r + 1), fun xs r => xs.map (· + (r : ℝ)),
      fun ls ys => List.zipWith (fun l y => [l - y.sum]) ls ys, fun ls => ls.map fun _ => 1⟩
    (evaluateDataset F (initState 1) ([[(3, [0, 1], 1)], [(3, [0, 1], 1)]].map toBatch)).sumLoss = 12 := by
  intro F
  refine ((C34_random_batches F (fun r x => x + (r : ℝ)) (fun l y => [l - y.sum]) (fun _ => 1)
    (fun _ _ => rfl) (fun _ _ => rfl) (fun _ => rfl) (initState 1)
    [[(3, [0, 1], 1)], [(3, [0, 1], 1)]]).2.1).trans ?_
  simp [initState, Fin.sum_univ_succ, keysOf, lossOf, F]
  norm_num

/-- Whatever the batch size, the number of processes, the order of the parallel map and the arrangement of the
examples in the global batches, the metrics are the sums over the valid examples of all processes. -/
theorem C34_metrics (F : Fns Tensor L R) (f : Tensor → L) (loss : L → List ℝ → List ℝ) (pred : L → Nat)
    (hF : PerExample F f loss pred) (rngs : R)
    (nums : List Nat) (P batchSize dc b : Nat)
    (hbs : batchSizePerProcess batchSize P dc = .ok b) (hb : 0 < b)
    (process : Data → Except PyErr Data) (g : Data → Data) (x y : Data → Tensor) (v : Data → Bool)
    (spec : PyDict String TensorSpec) (si sl : TensorSpec)
    (hspec : PyDict.get? spec "image" = some si ∧ PyDict.get? spec "labels" = some sl ∧
      PyDict.get? spec validKey = some ⟨true, []⟩)
    (sched : Nat → List Data → List Data) (hs : ∀ p l, (sched p l).Perm l)
    (srcs : Nat → Source)
    (hsrc : ∀ p < P, (srcs p).processIndex = p ∧ (srcs p).nums = nums ∧ (srcs p).processCount = P ∧
      (srcs p).deviceCount = dc ∧ nums[p]? = some (srcs p).examples.length)
    (hproc : ∀ p < P, ∀ d ∈ (srcs p).examples, process d = .ok (g d) ∧
      PyDict.get? (g d) "image" = some (x d) ∧ PyDict.get? (g d) "labels" = some (y d) ∧
      (PyDict.get? (g d) validKey).getD (Tensor.bool true) = Tensor.bool (v d))
    (loc : Nat → List (List Data))
    (hloc : ∀ p < P, getEvalDataset (srcs p) batchSize none process spec (sched p) = .ok (loc p))
    (G : List (List Data)) (hlen : ∀ p < P, G.length = (loc p).length)
    (hG : ∀ j (h : j < G.length),
      G[j].Perm ((List.range P).flatMap fun p => ((loc p)[j]?).getD [])) :
    ∃ s, evaluateData F (initState rngs) G = .ok s ∧
      s.num = ∑ p ∈ Finset.range P, ((srcs p).examples.map fun d => if v d then (1 : ℝ) else 0).sum ∧
      s.sumLoss = ∑ p ∈ Finset.range P,
        ((srcs p).examples.map fun d => if v d then lossOf f loss (x d) (y d).data else 0).sum ∧
      s.sumCorrect = ∑ p ∈ Finset.range P,
        ((srcs p).examples.map fun d => if v d then correctOf f pred (x d) (y d).data else 0).sum := by
  obtain ⟨k, -, -, hk⟩ := C33_padding nums batchSize P dc b hbs hb process g spec
  -- the contents of the local batches
  have hflat : ∀ p < P, ∃ n, (loc p).flatten =
      sched p ((srcs p).examples.map fun d => maskFn (g d)) ++ List.replicate n (fakeElem spec) := by
    intro p hp
    obtain ⟨h0, h1, h2, h3, h4⟩ := hsrc p hp
    obtain ⟨bs, e1, -, -, e4⟩ := hk (srcs p) (sched p) (hs p) h1 h2 h3 (by rw [h0]; exact h4)
      fun d hd => (hproc p hp d hd).1
    rw [hloc p hp] at e1
    injection e1 with e1
    exact ⟨_, e1 ▸ e4⟩
  -- reading elements
  let rd : Data → Tensor × List ℝ × ℝ := fun d =>
    (((PyDict.get? d "image").getD ⟨false, [], []⟩), ((PyDict.get? d "labels").getD ⟨false, [], []⟩).data,
      (((PyDict.get? d validKey).getD ⟨false, [], []⟩).data.headD 0))
  have hreal : ∀ p < P, ∀ d ∈ (srcs p).examples, readExample (maskFn (g d)) = .ok (rd (maskFn (g d))) ∧
      rd (maskFn (g d)) = (x d, (y d).data, if v d then 1 else 0) := by
    intro p hp d hd
    obtain ⟨-, h1, h2, h3⟩ := hproc p hp d hd
    obtain ⟨m1, m2, -, -⟩ := C33_masks (g d) spec hspec.2.2
    have i1 : PyDict.get? (maskFn (g d)) "image" = some (x d) := by rw [m2 _ (by decide), h1]
    have i2 : PyDict.get? (maskFn (g d)) "labels" = some (y d) := by rw [m2 _ (by decide), h2]
    rw [h3] at m1
    constructor
    · simp only [readExample, getKey, i1, i2, m1, rd]
      rfl
    · simp only [i1, i2, m1, rd]
      rfl
  have hfake : readExample (fakeElem spec) = .ok (rd (fakeElem spec)) ∧ (rd (fakeElem spec)).2.2 = 0 := by
    have i1 : PyDict.get? (fakeElem spec) "image" = some si.zeros := by rw [get?_fakeElem, hspec.1]; rfl
    have i2 : PyDict.get? (fakeElem spec) "labels" = some sl.zeros := by rw [get?_fakeElem, hspec.2.1]; rfl
    obtain ⟨-, -, m3, -⟩ := C33_masks [] spec hspec.2.2
    constructor
    · simp only [readExample, getKey, i1, i2, m3, rd]
      rfl
    · simp only [m3, rd]
      rfl
  have hmemloc : ∀ p < P, ∀ d ∈ (loc p).flatten, readExample d = .ok (rd d) := by
    intro p hp d hd
    obtain ⟨n, e⟩ := hflat p hp
    rw [e, List.mem_append] at hd
    rcases hd with hd | hd
    · rw [(hs p _).mem_iff, List.mem_map] at hd
      obtain ⟨d', hd', rfl⟩ := hd
      exact (hreal p hp d' hd').1
    · rw [List.eq_of_mem_replicate hd]
      exact hfake.1
  have hmemG : ∀ bt ∈ G, ∀ d ∈ bt, readExample d = .ok (rd d) := by
    intro bt hbt d hd
    obtain ⟨j, hj, rfl⟩ := List.getElem_of_mem hbt
    rw [(hG j hj).mem_iff, List.mem_flatMap] at hd
    obtain ⟨p, hp, hd⟩ := hd
    rw [List.mem_range] at hp
    apply hmemloc p hp
    have hj' : j < (loc p).length := hlen p hp ▸ hj
    rw [List.getElem?_eq_getElem hj', Option.getD_some] at hd
    exact List.mem_flatten.2 ⟨_, List.getElem_mem hj', hd⟩
  -- sums over the global batches
  have hsum : ∀ φ : Data → ℝ, φ (fakeElem spec) = 0 →
      (G.flatten.map φ).sum =
        ∑ p ∈ Finset.range P, ((srcs p).examples.map fun d => φ (maskFn (g d))).sum := by
    intro φ hφ
    rw [sum_flatten_map]
    have : ∀ j ∈ Finset.range G.length, (((G[j]?).getD []).map φ).sum =
        ∑ p ∈ Finset.range P, ((((loc p)[j]?).getD []).map φ).sum := by
      intro j hj
      rw [Finset.mem_range] at hj
      rw [List.getElem?_eq_getElem hj, Option.getD_some, ((hG j hj).map φ).sum_eq, sum_flatMap_range]
    rw [Finset.sum_congr rfl this, Finset.sum_comm]
    apply Finset.sum_congr rfl
    intro p hp
    rw [Finset.mem_range] at hp
    rw [hlen p hp, ← sum_flatten_map]
    obtain ⟨n, e⟩ := hflat p hp
    rw [e, List.map_append, List.sum_append, ((hs p _).map φ).sum_eq, List.map_replicate, hφ, List.map_map]
    simp [Function.comp_def]
  have hmap : (G.mapM fun bt => bt.mapM readExample) = .ok (G.map fun bt => bt.map rd) :=
    mapM_ok_eq fun bt hbt => mapM_ok_eq (hmemG bt hbt)
  obtain ⟨r1, r2, r3⟩ := C34_batches F f loss pred hF (initState rngs) (G.map fun bt => bt.map rd)
  have hfl : (G.map fun bt => bt.map rd).flatten = G.flatten.map rd := by rw [List.map_flatten]
  rw [hfl, List.map_map (l := G.flatten)] at r1 r2 r3
  refine ⟨evaluateDataset F (initState rngs) ((G.map fun bt => bt.map rd).map toBatch), ?_, ?_, ?_, ?_⟩
  · unfold evaluateData
    rw [hmap]
    rfl
  · rw [r1, hsum _ (by simp [hfake.2])]
    simp only [initState, zero_add]
    apply Finset.sum_congr rfl
    intro p hp
    congr 1
    apply List.map_congr_left
    intro d hd
    simp only [Function.comp, (hreal p (Finset.mem_range.1 hp) d hd).2]
  · rw [r2, hsum _ (by simp [hfake.2])]
    simp only [initState, zero_add]
    apply Finset.sum_congr rfl
    intro p hp
    congr 1
    apply List.map_congr_left
    intro d hd
    simp only [Function.comp, (hreal p (Finset.mem_range.1 hp) d hd).2]
    by_cases hv : v d <;> simp [hv]
  · rw [r3, hsum _ (by simp [hfake.2])]
    simp only [initState, zero_add]
    apply Finset.sum_congr rfl
    intro p hp
    congr 1
    apply List.map_congr_left
    intro d hd
    simp only [Function.comp, (hreal p (Finset.mem_range.1 hp) d hd).2]
    by_cases hv : v d <;> simp [hv]

/-- A per-example model with two classes, and a batch with one valid and one fake example. -/
example :
    let F : Fns ℝ ℝ Unit := ⟨fun r => (r, r), fun xs _ => xs.map (· + 1),
      fun ls ys => List.zipWith (fun l y => [l - y.sum]) ls ys, fun ls => ls.map fun _ => 1⟩
    PerExample F (· + 1) (fun l y => [l - y.sum]) (fun _ => 1) ∧
    (evaluateDataset F (initState ()) [toBatch [(3, [0, 1], 1), (7, [0, 1], 0)]]).num = 1 ∧
    (evaluateDataset F (initState ()) [toBatch [(3, [0, 1], 1), (7, [0, 1], 0)]]).sumCorrect = 1 := by
  refine ⟨⟨fun _ _ => rfl, fun _ _ => rfl, fun _ => rfl⟩, ?_, ?_⟩
  · simp [evaluateDataset, evaluateStep, EvalState.update, toBatch, initState]
  · simp [evaluateDataset, evaluateStep, EvalState.update, toBatch, initState, correctArray, oneHot,
      List.range_succ]

/-- The hypotheses of `C34_metrics` for two processes with two examples and one example, and one global batch of
four, one of them fake. -/
example (e : Data) (he : e = [("image", ⟨false, [1], [5]⟩), ("labels", ⟨false, [2], [0, 1]⟩)]) :
    let spec : PyDict String TensorSpec := [("image", ⟨false, [1]⟩), ("labels", ⟨false, [2]⟩), (validKey, ⟨true, []⟩)]
    let srcs : Nat → Source := fun p => ⟨p, 2, 2, [2, 1], if p = 0 then [e, e] else [e]⟩
    let loc : Nat → List (List Data) := fun p =>
      if p = 0 then [[maskFn e, maskFn e]] else [[maskFn e, fakeElem spec]]
    let G : List (List Data) := [[maskFn e, fakeElem spec, maskFn e, maskFn e]]
    batchSizePerProcess 4 2 2 = .ok 2 ∧
    (PyDict.get? spec "image" = some ⟨false, [1]⟩ ∧ PyDict.get? spec "labels" = some ⟨false, [2]⟩ ∧
      PyDict.get? spec validKey = some ⟨true, []⟩) ∧
    (∀ p < 2, (srcs p).processIndex = p ∧ (srcs p).nums = [2, 1] ∧ (srcs p).processCount = 2 ∧
      (srcs p).deviceCount = 2 ∧ [2, 1][p]? = some (srcs p).examples.length) ∧
    (∀ p < 2, ∀ d ∈ (srcs p).examples, PyDict.get? d "image" = some ⟨false, [1], [5]⟩ ∧
      PyDict.get? d "labels" = some ⟨false, [2], [0, 1]⟩ ∧
      (PyDict.get? d validKey).getD (Tensor.bool true) = Tensor.bool true) ∧
    (∀ p < 2, getEvalDataset (srcs p) 4 none .ok spec id = .ok (loc p)) ∧
    (∀ p < 2, G.length = (loc p).length) ∧
    (∀ j (h : j < G.length), G[j].Perm ((List.range 2).flatMap fun p => ((loc p)[j]?).getD [])) := by
  intro spec srcs loc G
  refine ⟨rfl, ⟨rfl, rfl, rfl⟩, ?_, ?_, ?_, ?_, ?_⟩
  · intro p hp
    interval_cases p <;> exact ⟨rfl, rfl, rfl, rfl, rfl⟩
  · intro p hp d hd
    have : d = e := by interval_cases p <;> simpa [srcs] using hd
    subst this he
    exact ⟨rfl, rfl, rfl⟩
  · intro p hp
    have hm : ∀ l : List Data, (l.mapM fun d => (do return maskFn (← Except.ok d) : Except PyErr Data)) =
        .ok (l.map maskFn) := fun l => mapM_ok_eq fun _ _ => rfl
    have hn : ∀ (p n : Nat), [2, 1][p]? = some n → numFake p 2 [2, 1] = .ok (2 - n) := fun p (n : Nat) (h : [2, 1][p]? = some n) => by
      rw [numFake_ok h (by decide)]
      rfl
    have hbs : batchSizePerProcess 4 2 2 = .ok 2 := rfl
    have hbatch : ∀ a b : Data, batch 2 [a, b] = [[a, b]] := fun a b => by simp [batch, List.range_succ]
    unfold getEvalDataset
    interval_cases p
    · change (batchSizePerProcess 4 2 2 >>= _) = _
      rw [hbs]
      change ((([e, e] : List Data).mapM fun d => (do return maskFn (← Except.ok d) : Except PyErr Data)) >>=
        fun m => numFake 0 2 [2, 1] >>= fun n => .ok (batch 2 (addFakes n spec m))) = _
      rw [hm, hn 0 2 rfl]
      exact congrArg Except.ok (hbatch _ _)
    · change (batchSizePerProcess 4 2 2 >>= _) = _
      rw [hbs]
      change ((([e] : List Data).mapM fun d => (do return maskFn (← Except.ok d) : Except PyErr Data)) >>=
        fun m => numFake 1 2 [2, 1] >>= fun n => .ok (batch 2 (addFakes n spec m))) = _
      rw [hm, hn 1 1 rfl]
      exact congrArg Except.ok (hbatch _ _)
  · intro p hp
    interval_cases p <;> rfl
  · intro j hj
    have : j = 0 := by simp [G] at hj; exact hj
    subst this
    change [maskFn e, fakeElem spec, maskFn e, maskFn e].Perm ([maskFn e, maskFn e, maskFn e, fakeElem spec])
    refine (List.Perm.cons _ ?_)
    exact (List.perm_append_comm (l₁ := [fakeElem spec]) (l₂ := [maskFn e, maskFn e]))

/-- If the outputs depend on the other examples of the batch, as they do for a sparse mixture of experts with
limited capacity, then the metrics do depend on the batching and on the fake examples: here the outputs are
those of a model in which all examples after the first one of a batch are dropped. -/
theorem C34_batch_dependent_counterexample :
    ∃ (F : Fns ℝ ℝ Unit) (e₁ e₂ : ℝ × List ℝ × ℝ), e₁.2.2 = 1 ∧ e₂.2.2 = 1 ∧
      (evaluateDataset F (initState ()) [toBatch [e₁], toBatch [e₂]]).sumCorrect = 2 ∧
      (evaluateDataset F (initState ()) [toBatch [e₁, e₂]]).sumCorrect = 1 := by
  refine ⟨⟨fun r => (r, r), fun xs _ => xs.take 1 ++ (xs.drop 1).map fun _ => 0,
      fun ls _ => ls.map fun _ => [0], fun ls => by classical exact ls.map fun l => if l = 0 then 0 else 1⟩,
    (1, [0, 1], 1), (1, [0, 1], 1), rfl, rfl, ?_, ?_⟩
  · simp [evaluateDataset, evaluateStep, EvalState.update, toBatch, initState, correctArray, oneHot,
      List.range_succ]
    norm_num
  · simp [evaluateDataset, evaluateStep, EvalState.update, toBatch, initState, correctArray, oneHot,
      List.range_succ]

end Verif.Evaluator
