import Verif.Model.TowerMetrics
import Verif.Props.ContrastiveStep

/-!
C154: the auxiliary losses of the encoders are part of the loss of a classifier, and not of the contrastive loss
(vmoe/train/trainer.py, vmoe/projects/contrastive/trainer.py, models.py).
-/

namespace Verif.TowerMetrics

open Verif

variable {P I T R : Type} {G : Nat}

/-- The mean over the groups of the sum of the auxiliary losses of the blocks. -/
noncomputable def blocksAux (blocks : PyDict Key (Block G)) : ℝ :=
  (∑ g, (blocks.map fun kv => kv.2.aux g).sum) / G

theorem get?_set_self {ν : Type} (d : PyDict Key ν) (k : Key) (v : ν) : PyDict.get? (PyDict.set d k v) k = some v := by
  induction d with
  | nil => simp [PyDict.set, PyDict.get?]
  | cons e d ih =>
    obtain ⟨k', v'⟩ := e
    by_cases h : k' = k <;> simp [PyDict.set, PyDict.get?, h, ih]

theorem get?_set_ne {ν : Type} (d : PyDict Key ν) (k k' : Key) (v : ν) (h : k ≠ k') :
    PyDict.get? (PyDict.set d k v) k' = PyDict.get? d k' := by
  induction d with
  | nil => simp [PyDict.set, PyDict.get?, h]
  | cons e d ih =>
    obtain ⟨a, v'⟩ := e
    by_cases h1 : a = k
    · subst h1
      simp [PyDict.set, PyDict.get?, h]
    · by_cases h2 : a = k'
      · subst h2
        simp [PyDict.set, PyDict.get?, h1]
      · simp [PyDict.set, PyDict.get?, h1, h2, ih]

theorem get?_itemsMean (d : Metrics) (k : Key) : PyDict.get? (itemsMean d) k = (PyDict.get? d k).map treeMean := by
  induction d with
  | nil => simp [itemsMean, PyDict.get?]
  | cons e d ih =>
    obtain ⟨k', v'⟩ := e
    by_cases h : k' = k <;> simp [itemsMean, PyDict.get?, h, ih]

theorem get?_map {ν μ : Type} (d : PyDict Key ν) (f : Key × ν → μ) (k : Key) :
    PyDict.get? (d.map fun kv => (kv.1, f kv)) k = (PyDict.get? d k).map fun v => f (k, v) := by
  induction d with
  | nil => simp [PyDict.get?]
  | cons e d ih =>
    obtain ⟨k', v'⟩ := e
    by_cases h : k' = k
    · subst h
      simp [PyDict.get?]
    · simp [PyDict.get?, h, ih]

theorem main_ne_aux : ("main_loss".toList : Key) ≠ "auxiliary_loss".toList := by decide +kernel

theorem mean_single (x : ℝ) : mean [x] = x := by simp [mean]

/-- What a step adds to the main loss. -/
theorem stepMetrics_eq (metrics : Metrics) (losses : List ℝ) (aux : ℝ)
    (h : auxiliaryLoss (itemsMean (PyDict.set metrics "main_loss".toList (.array losses))) = .ok aux) :
    ∃ m, stepMetrics metrics losses = .ok (m, mean losses + aux) ∧
      PyDict.get? m "total_loss".toList = some (.array [mean losses + aux]) ∧
      PyDict.get? m "main_loss".toList = some (.array [mean losses]) ∧
      ∀ k, k ≠ "total_loss".toList → k ≠ "main_loss".toList → PyDict.get? m k = (PyDict.get? metrics k).map treeMean := by
  unfold stepMetrics
  simp only [h]
  refine ⟨_, rfl, get?_set_self _ _ _, ?_, fun k h1 h2 => ?_⟩
  · rw [get?_set_ne _ _ _ _ (by decide +kernel), get?_itemsMean, get?_set_self]
    simp [treeMean]
  · rw [get?_set_ne _ _ _ _ (Ne.symm h1), get?_itemsMean, get?_set_ne _ _ _ _ (Ne.symm h2)]

theorem twoTower_no_aux (img txt : Option Metrics) (s : ℝ) :
    PyDict.get? (twoTowerMetrics img txt s) "auxiliary_loss".toList = none := by
  have h1 : ("img".toList : Key) ≠ "auxiliary_loss".toList := by decide +kernel
  have h2 : ("txt".toList : Key) ≠ "auxiliary_loss".toList := by decide +kernel
  have h3 : ("scale".toList : Key) ≠ "auxiliary_loss".toList := by decide +kernel
  unfold twoTowerMetrics
  cases img <;> cases txt <;>
    simp only [get?_set_ne _ _ _ _ h1, get?_set_ne _ _ _ _ h2, get?_set_ne _ _ _ _ h3] <;> rfl

/-- The metrics of an encoder have the auxiliary losses of its blocks in `auxiliary_loss`. -/
theorem encoder_aux (blocks : PyDict Key (Block G)) :
    PyDict.get? (encoderMetrics blocks) "auxiliary_loss".toList =
      some (.array (List.ofFn (blocks.map fun kv => kv.2.aux).sum)) := by
  unfold encoderMetrics Encoder.finalMetrics
  rw [get?_map]
  erw [get?_set_self]
  rfl

theorem mean_blocks (blocks : PyDict Key (Block G)) :
    mean (List.ofFn (blocks.map fun kv => kv.2.aux).sum) = blocksAux blocks := by
  unfold mean blocksAux
  rw [List.sum_ofFn, List.length_ofFn]
  congr 1
  refine Finset.sum_congr rfl fun g _ => ?_
  induction blocks with
  | nil => simp
  | cons e d ih => simp [ih]

/-- C154: the total loss of a contrastive step is the mean of the losses of the images, whatever the metrics of the two encoders:
their auxiliary losses are reported under `img` and `txt`, and are not added. -/
theorem C154_contrastive (img txt : Metrics) (s : ℝ) (losses : List ℝ) :
    ∃ m, stepMetrics (twoTowerMetrics (some img) (some txt) s) losses = .ok (m, mean losses) ∧
      PyDict.get? m "total_loss".toList = some (.array [mean losses]) ∧
      PyDict.get? m "main_loss".toList = some (.array [mean losses]) ∧
      PyDict.get? m "img".toList = some (treeMean (.dict img)) ∧
      PyDict.get? m "txt".toList = some (treeMean (.dict txt)) ∧
      PyDict.get? m "scale".toList = some (.array [Real.exp s]) := by
  obtain ⟨m, h1, h2, h3, h4⟩ := stepMetrics_eq (twoTowerMetrics (some img) (some txt) s) losses 0 (by
    unfold auxiliaryLoss
    rw [get?_itemsMean, get?_set_ne _ _ _ _ main_ne_aux, twoTower_no_aux]
    rfl)
  rw [add_zero] at h1 h2
  refine ⟨m, h1, h2, h3, ?_, ?_, ?_⟩
  · rw [h4 _ (by decide +kernel) (by decide +kernel)]
    unfold twoTowerMetrics
    rw [get?_set_ne _ _ _ _ (by decide +kernel), get?_set_ne _ _ _ _ (by decide +kernel), get?_set_self]
    rfl
  · rw [h4 _ (by decide +kernel) (by decide +kernel)]
    unfold twoTowerMetrics
    rw [get?_set_ne _ _ _ _ (by decide +kernel), get?_set_self]
    rfl
  · rw [h4 _ (by decide +kernel) (by decide +kernel)]
    unfold twoTowerMetrics
    rw [get?_set_self]
    simp [treeMean, mean]

/-- C154: the total loss of the step of a classifier is the mean of the losses of the examples plus the mean over the groups of the
sum of the auxiliary losses of all MoE blocks. -/
theorem C154_classifier (blocks : PyDict Key (Block G)) (losses : List ℝ) :
    ∃ m, stepMetrics (encoderMetrics blocks) losses = .ok (m, mean losses + blocksAux blocks) ∧
      PyDict.get? m "total_loss".toList = some (.array [mean losses + blocksAux blocks]) ∧
      PyDict.get? m "main_loss".toList = some (.array [mean losses]) ∧
      PyDict.get? m "auxiliary_loss".toList = some (.array [blocksAux blocks]) := by
  obtain ⟨m, h1, h2, h3, h4⟩ := stepMetrics_eq (encoderMetrics blocks) losses (blocksAux blocks) (by
    unfold auxiliaryLoss
    rw [get?_itemsMean, get?_set_ne _ _ _ _ main_ne_aux, encoder_aux]
    simp only [Option.map_some, treeMean, mean_single, mean_blocks])
  refine ⟨m, h1, h2, h3, ?_⟩
  rw [h4 _ (by decide +kernel) (by decide +kernel), encoder_aux]
  simp [treeMean, mean_blocks]

/-- Spec: the entries of the array at a path of names. -/
def entriesAt : List Key → Metric → Option (List ℝ)
  | [], .array x => some x
  | [], .dict _ => none
  | _ :: _, .array _ => none
  | k :: path, .dict items => (PyDict.get? items k).bind (entriesAt path)

theorem entriesAt_mean (path : List Key) (m : Metric) :
    entriesAt path (treeMean m) = (entriesAt path m).map fun x : List ℝ => [x.sum / (x.length : ℝ)] := by
  induction path generalizing m with
  | nil => cases m <;> simp [treeMean, entriesAt, mean]
  | cons k path ih =>
    cases m with
    | array x => simp [treeMean, entriesAt]
    | dict items =>
      simp only [treeMean, entriesAt, get?_itemsMean]
      cases PyDict.get? items k with
      | none => rfl
      | some m => exact ih m

/-- C154: what is reported of the encoders: at every path below `img` and `txt`, and at no other, the mean of the entries of
the array that the encoder has at this path. -/
theorem C154_reported (img txt : Metrics) (s : ℝ) (losses : List ℝ) :
    ∃ m, stepMetrics (twoTowerMetrics (some img) (some txt) s) losses = .ok (m, mean losses) ∧ ∀ path,
      entriesAt ("img".toList :: path) (.dict m) = (entriesAt path (.dict img)).map (fun x : List ℝ => [x.sum / (x.length : ℝ)]) ∧
      entriesAt ("txt".toList :: path) (.dict m) = (entriesAt path (.dict txt)).map (fun x : List ℝ => [x.sum / (x.length : ℝ)]) := by
  obtain ⟨m, h1, -, -, h2, h3, -⟩ := C154_contrastive img txt s losses
  refine ⟨m, h1, fun path => ⟨?_, ?_⟩⟩
  · rw [entriesAt, h2, Option.bind_some, entriesAt_mean]
  · rw [entriesAt, h3, Option.bind_some, entriesAt_mean]

/-- C154: what is reported of a block of a classifier: below its name, the mean over the groups of its auxiliary loss, and the
means of its other metrics. -/
theorem C154_block (blocks : PyDict Key (Block G)) (losses : List ℝ) (name : Key) (b : Block G)
    (hb : PyDict.get? blocks name = some b)
    (h1 : name ≠ "auxiliary_loss".toList) (h2 : name ≠ "main_loss".toList) (h3 : name ≠ "total_loss".toList) :
    ∃ m total, stepMetrics (encoderMetrics blocks) losses = .ok (m, total) ∧
      entriesAt [name, "auxiliary_loss".toList] (.dict m) = some [(∑ g, b.aux g) / G] ∧
      ∀ k path, k ≠ "auxiliary_loss".toList → entriesAt (name :: k :: path) (.dict m) =
        (entriesAt (k :: path) (.dict b.others)).map (fun x : List ℝ => [x.sum / (x.length : ℝ)]) := by
  obtain ⟨m, e1, -, -, e4⟩ := stepMetrics_eq (encoderMetrics blocks) losses (blocksAux blocks) (by
    unfold auxiliaryLoss
    rw [get?_itemsMean, get?_set_ne _ _ _ _ main_ne_aux, encoder_aux]
    simp only [Option.map_some, treeMean, mean_single, mean_blocks])
  have hm : PyDict.get? m name = some (treeMean b.metric) := by
    rw [e4 name h3 h2]
    unfold encoderMetrics Encoder.finalMetrics
    rw [get?_map]
    erw [get?_set_ne _ _ _ _ (Ne.symm h1), get?_map, hb]
    rfl
  refine ⟨m, _, e1, ?_, fun k path hk => ?_⟩
  · rw [entriesAt, hm, Option.bind_some, entriesAt_mean]
    unfold Block.metric
    rw [entriesAt]
    erw [get?_set_self]
    rw [Option.bind_some, entriesAt]
    simp [List.sum_ofFn]
  · rw [entriesAt, hm, Option.bind_some, entriesAt_mean]
    unfold Block.metric
    rw [entriesAt]
    erw [get?_set_ne _ _ _ _ (Ne.symm hk)]
    rw [entriesAt]

/-- C154: the claim that the auxiliary losses of the encoders are added to the contrastive loss is false whenever their total is not
zero. -/
theorem C154_contrastive_counterexample {G' : Nat} (img : PyDict Key (Block G)) (txt : PyDict Key (Block G')) (s : ℝ)
    (losses : List ℝ) (haux : blocksAux img + blocksAux txt ≠ 0) :
    ∀ m total, stepMetrics (twoTowerMetrics (some (encoderMetrics img)) (some (encoderMetrics txt)) s) losses = .ok (m, total) →
      total ≠ mean losses + (blocksAux img + blocksAux txt) := by
  intro m total h
  obtain ⟨m', h', -⟩ := C154_contrastive (encoderMetrics img) (encoderMetrics txt) s losses
  rw [h'] at h
  injection h with h
  injection h with _ h
  rw [← h]
  intro h0
  exact haux (by linarith)

/-- C154: with the routers of the Soft MoE configurations nothing is lost, because their auxiliary losses are zero. -/
theorem C154_soft_configurations {G' : Nat} (img : PyDict Key (Block G)) (txt : PyDict Key (Block G')) (s : ℝ) (losses : List ℝ)
    (himg : ∀ kv ∈ img, ∃ r, ∀ g, kv.2.aux g = routerAux r) (htxt : ∀ kv ∈ txt, ∃ r, ∀ g, kv.2.aux g = routerAux r) :
    ∃ m, stepMetrics (twoTowerMetrics (some (encoderMetrics img)) (some (encoderMetrics txt)) s) losses =
      .ok (m, mean losses + (blocksAux img + blocksAux txt)) := by
  have hz : ∀ {G : Nat} (d : PyDict Key (Block G)), (∀ kv ∈ d, ∃ r, ∀ g, kv.2.aux g = routerAux r) → blocksAux d = 0 := by
    intro G d hd
    unfold blocksAux
    rw [Finset.sum_eq_zero, zero_div]
    intro g _
    refine List.sum_eq_zero fun x hx => ?_
    obtain ⟨kv, hkv, rfl⟩ := List.mem_map.1 hx
    obtain ⟨r, hr⟩ := hd kv hkv
    show kv.2.aux g = 0
    rw [hr]
    cases r <;> rfl
  obtain ⟨m, h, -⟩ := C154_contrastive (encoderMetrics img) (encoderMetrics txt) s losses
  refine ⟨m, ?_⟩
  rw [h, hz img himg, hz txt htxt]
  simp

/-- The auxiliary loss of a step with the metrics of two encoders, which may depend on the parameters, the generators and the
batch. -/
noncomputable def stepAux (img txt : P → R → List I → List T → Metrics) (s : P → ℝ) (p : P) (r : R) (a : List I) (b : List T) : ℝ :=
  match auxiliaryLoss (itemsMean (PyDict.set (twoTowerMetrics (some (img p r a b)) (some (txt p r a b)) (s p))
    "main_loss".toList (.array []))) with
  | .ok x => x
  | .error _ => 0

theorem stepAux_zero (img txt : P → R → List I → List T → Metrics) (s : P → ℝ) : stepAux img txt s = fun _ _ _ _ => 0 := by
  funext p r a b
  unfold stepAux auxiliaryLoss
  rw [get?_itemsMean, get?_set_ne _ _ _ _ main_ne_aux, twoTower_no_aux]
  rfl

variable [NormedAddCommGroup P] [NormedSpace ℝ P]

/-- C154: so the auxiliary losses never change what a contrastive step learns: loss and gradient are those of the pairs of images and
texts alone, for any metrics of the encoders, and two models with the same logits have the same gradients. -/
theorem C154_step (devices : Nat) (split : R → R × R) (logit : P → I → T → ℝ) (img txt : P → R → List I → List T → Metrics)
    (s : P → ℝ) (microsteps : Option Int) (hms : ∀ m, microsteps = some m → m ≤ 0) (params : P) (B : Nat) (a : Nat → I)
    (b : Nat → T) (r : R) :
    Contrastive.stepGradsAndMetrics devices split (fun p _ => logit p) (stepAux img txt s) microsteps params
        ((List.range B).map a) ((List.range B).map b) r =
      .ok (fderiv ℝ (fun p => Contrastive.pairsLoss (fun _ _ => True) (logit p) B a b) params, (split r).2,
        (Contrastive.pairsLoss (fun _ _ => True) (logit params) B a b,
          Contrastive.pairsLoss (fun _ _ => True) (logit params) B a b)) := by
  rw [Contrastive.C91_full_batch devices split logit (stepAux img txt s) microsteps hms params B a b r, stepAux_zero]
  simp

/-- C154: the same with microsteps, whatever their number. -/
theorem C154_step_same (devices : Nat) (split : R → R × R) (logit : P → R → I → T → ℝ)
    (img txt img' txt' : P → R → List I → List T → Metrics) (s : P → ℝ) (microsteps : Option Int) :
    Contrastive.stepGradsAndMetrics devices split logit (stepAux img txt s) microsteps =
      Contrastive.stepGradsAndMetrics devices split logit (stepAux img' txt' s) microsteps := by
  rw [stepAux_zero, stepAux_zero]

/-- An encoder with one MoE block and two groups with auxiliary losses 1 and 3. -/
noncomputable def exBlocks : PyDict Key (Block 2) := [("encoderblock_1".toList, ⟨![1, 3], []⟩)]

example : blocksAux exBlocks = 2 := by
  unfold blocksAux exBlocks
  simp [Fin.sum_univ_two]
  norm_num

/-- The classifier reports the mean auxiliary loss of its block. -/
example : ∃ m total, stepMetrics (encoderMetrics exBlocks) [5, 7] = .ok (m, total) ∧
    entriesAt ["encoderblock_1".toList, "auxiliary_loss".toList] (.dict m) = some [2] := by
  obtain ⟨m, t, h1, h2, -⟩ := C154_block exBlocks [5, 7] "encoderblock_1".toList ⟨![1, 3], []⟩ rfl (by decide +kernel)
    (by decide +kernel) (by decide +kernel)
  refine ⟨m, t, h1, ?_⟩
  rw [h2]
  norm_num [Fin.sum_univ_two]

/-- What a contrastive step reports of an encoder for images with this block. -/
example : ∃ m, stepMetrics (twoTowerMetrics (some (encoderMetrics exBlocks)) (some []) 0) [5, 7] = .ok (m, mean [5, 7]) ∧
    entriesAt ["img".toList, "auxiliary_loss".toList] (.dict m) = some [2] := by
  obtain ⟨m, h1, h2⟩ := C154_reported (encoderMetrics exBlocks) [] 0 [5, 7]
  refine ⟨m, h1, ?_⟩
  rw [(h2 ["auxiliary_loss".toList]).1, entriesAt, encoder_aux, Option.bind_some, entriesAt]
  simp [exBlocks]
  norm_num

/-- The classifier adds 2 to its loss. -/
example : ∃ m, stepMetrics (encoderMetrics exBlocks) [5, 7] = .ok (m, 8) := by
  obtain ⟨m, h, -⟩ := C154_classifier exBlocks [5, 7]
  refine ⟨m, ?_⟩
  rw [h]
  congr 2
  simp [mean, blocksAux, exBlocks, Fin.sum_univ_two]
  norm_num

/-- The contrastive step does not. -/
example : ∃ m, stepMetrics (twoTowerMetrics (some (encoderMetrics exBlocks)) (some (encoderMetrics exBlocks)) 0) [5, 7] = .ok (m, 6) := by
  obtain ⟨m, h, -⟩ := C154_contrastive (encoderMetrics exBlocks) (encoderMetrics exBlocks) 0 [5, 7]
  refine ⟨m, ?_⟩
  rw [h]
  congr 2
  simp [mean]
  norm_num

example : ∃ kv ∈ ([("encoderblock_6".toList, ⟨fun _ => 0, []⟩)] : PyDict Key (Block 2)), ∃ r, ∀ g, kv.2.aux g = routerAux r :=
  ⟨_, List.mem_singleton_self _, .soft none (some 1), fun _ => rfl⟩

end Verif.TowerMetrics
