import Verif.Model.EvalRun
import Verif.Props.Evaluator
import Verif.Props.DataShare
import Verif.Props.Prefetch
import Verif.Props.BatchSpec
import Verif.Props.VmoeModel

/-! C122: the result of an evaluation does not depend on how it is distributed (vmoe/evaluate/evaluator.py,
vmoe/data/input_pipeline.py, vmoe/data/builder.py, vmoe/data/pjit_utils.py). -/

namespace Verif.EvalRun

open Verif DataPipeline Evaluator

variable {L R : Type}

/-- Spec: in batches of `n` examples, the model, the loss and the prediction treat every example on its own. -/
structure PerExampleOn (n : Nat) (F : Fns Tensor L R) (f : Tensor → L) (loss : L → List ℝ → List ℝ) (pred : L → Nat) : Prop where
  apply : ∀ xs r, xs.length = n → F.applyFn xs r = xs.map f
  loss : ∀ ls ys, F.lossFn ls ys = List.zipWith loss ls ys
  pred : ∀ ls, F.labelPredFn ls = ls.map pred

/-- Spec: an example becomes an image, the weights of its classes and whether it counts. -/
def Reads (process : Data → Except PyErr Data) (x y : Data → Tensor) (v : Data → Bool) (d : Data) : Prop :=
  ∃ d', process d = .ok d' ∧ PyDict.get? d' "image" = some (x d) ∧ PyDict.get? d' "labels" = some (y d) ∧
    (PyDict.get? d' validKey).getD (Tensor.bool true) = Tensor.bool (v d)

/-- Spec: the elements have images, labels and a mask of validity, which is a boolean. -/
def SpecOk (spec : PyDict String TensorSpec) : Prop :=
  (∃ si, PyDict.get? spec "image" = some si) ∧ (∃ sl, PyDict.get? spec "labels" = some sl) ∧
    PyDict.get? spec validKey = some ⟨true, []⟩

/-- Spec: the sum of a quantity over the examples that count. -/
noncomputable def total (split : List Data) (v : Data → Bool) (q : Data → ℝ) : ℝ := (split.map fun d => if v d then q d else 0).sum

theorem evaluateDataset_congr (F F' : Fns Tensor L R) (n : Nat) (hr : F.rngSplit = F'.rngSplit)
    (ha : ∀ xs r, xs.length = n → F.applyFn xs r = F'.applyFn xs r) (hl : F.lossFn = F'.lossFn)
    (hp : F.labelPredFn = F'.labelPredFn) (bs : List (Batch Tensor)) (hn : ∀ b ∈ bs, b.image.length = n) (s : EvalState R) :
    evaluateDataset F s bs = evaluateDataset F' s bs := by
  induction bs generalizing s with
  | nil => rfl
  | cons b bs ih =>
    have h1 : evaluateStep F s b = evaluateStep F' s b := by
      unfold evaluateStep
      rw [hr, hl, hp]
      simp only [ha b.image _ (hn b (by simp))]
    change evaluateDataset F (evaluateStep F s b) bs = evaluateDataset F' (evaluateStep F' s b) bs
    rw [h1]
    exact ih (fun b hb => hn b (by simp [hb])) _

theorem evaluateData_congr (F F' : Fns Tensor L R) (n : Nat) (hr : F.rngSplit = F'.rngSplit)
    (ha : ∀ xs r, xs.length = n → F.applyFn xs r = F'.applyFn xs r) (hl : F.lossFn = F'.lossFn)
    (hp : F.labelPredFn = F'.labelPredFn) (G : List (List Data)) (hn : ∀ b ∈ G, b.length = n) (s : EvalState R) :
    evaluateData F s G = evaluateData F' s G := by
  unfold evaluateData
  rcases h : (G.mapM fun b => b.mapM readExample) with e | bs
  · rw [h]; rfl
  · rw [h]
    change Except.ok _ = Except.ok _
    congr 1
    apply evaluateDataset_congr F F' n hr ha hl hp
    intro b hb
    obtain ⟨l, hl, rfl⟩ := List.mem_map.1 hb
    obtain ⟨i, hi, rfl⟩ := List.getElem_of_mem hl
    have hlen := (mapM_getElem? h).1
    obtain ⟨c, h1, h2⟩ := (mapM_getElem? h).2 i G[i] (List.getElem?_eq_getElem (by omega))
    rw [List.getElem?_eq_getElem hi] at h1
    injection h1 with h1
    rw [h1]
    simp only [toBatch, List.length_map, (mapM_getElem? h2).1]
    exact hn _ (List.getElem_mem _)

/-- C122: on every cluster of `P` processes with `perProcess` devices each, for every batch size that is a multiple of the number
of devices and every order of the parallel pipelines, the evaluation succeeds, with the sums over all examples of the split that
count, each exactly once. -/
theorem C122_metrics (F : Fns Tensor L R) (f : Tensor → L) (loss : L → List ℝ → List ℝ) (pred : L → Nat) (rngs : R)
    (split : List Data) (process : Data → Except PyErr Data) (x y : Data → Tensor) (v : Data → Bool)
    (hproc : ∀ d ∈ split, Reads process x y v d) (spec : PyDict String TensorSpec) (hspec : SpecOk spec)
    (mesh : List Prefetch.Device) (P perProcess : Nat) (hcl : BatchSpec.Cluster mesh P perProcess)
    (batchSize : Nat) (hpos : 0 < batchSize) (hdvd : mesh.length ∣ batchSize)
    (hF : PerExampleOn batchSize F f loss pred)
    (sched : Nat → List Data → List Data) (hs : ∀ p l, (sched p l).Perm l) :
    ∃ s, evalRun F rngs split mesh P batchSize process spec sched = .ok s ∧
      s.num = total split v (fun _ => 1) ∧
      s.sumLoss = total split v (fun d => lossOf f loss (x d) (y d).data) ∧
      s.sumCorrect = total split v (fun d => correctOf f pred (x d) (y d).data) := by
  obtain ⟨hnd, hdev, hloc, hlen, hP, hpp⟩ := hcl
  obtain ⟨⟨si, hsi⟩, ⟨sl, hsl⟩, hsv⟩ := hspec
  obtain ⟨c, hc⟩ := hdvd
  have hPd : P ∣ batchSize := ⟨perProcess * c, by rw [hc, hlen, Nat.mul_assoc]⟩
  have hbs : batchSizePerProcess batchSize P mesh.length = .ok (perProcess * c) := by
    unfold batchSizePerProcess
    rw [if_neg]
    · congr 1
      rw [hc, hlen, Nat.mul_assoc, Nat.mul_div_cancel_left _ hP]
    · push Not
      exact ⟨Nat.mod_eq_zero_of_dvd hPd, Nat.mod_eq_zero_of_dvd ⟨c, hc⟩⟩
  have hb : 0 < perProcess * c := by
    rcases Nat.eq_zero_or_pos (perProcess * c) with h | h
    · rw [hc, hlen, Nat.mul_assoc, h] at hpos
      omega
    · exact h
  -- the values of the processing function
  let g : Data → Data := fun d => match process d with
    | .ok d' => d'
    | .error _ => []
  have hg : ∀ d ∈ split, process d = .ok (g d) ∧ PyDict.get? (g d) "image" = some (x d) ∧
      PyDict.get? (g d) "labels" = some (y d) ∧ (PyDict.get? (g d) validKey).getD (Tensor.bool true) = Tensor.bool (v d) := by
    intro d hd
    obtain ⟨d', h1, h2⟩ := hproc d hd
    have : g d = d' := by simp only [g, h1]
    rw [this]
    exact ⟨h1, h2⟩
  obtain ⟨k, batches, -, -, hbat, -⟩ := DataShare.C96_evaluation split P mesh.length batchSize (perProcess * c) hP hbs hb process g
    (fun d hd => (hg d hd).1) spec sched hs
  -- the local batches
  have hl : localBatches split mesh P batchSize process spec sched = .ok ((List.range P).map batches) := by
    unfold localBatches
    apply mapM_ok_eq
    intro p hp
    exact (hbat p (List.mem_range.1 hp)).1
  have hget : ∀ p < P, (((List.range P).map batches)[p]?).getD [] = batches p := by
    intro p hp
    simp [hp]
  -- the global batches
  have hrows : ∀ j < k, ∀ p < P,
      (((((List.range P).map batches)[p]?).getD [])[j]?).getD [] ∈ batches p := by
    intro j hj p hp
    rw [hget p hp]
    have hj' : j < (batches p).length := by rw [(hbat p hp).2.1]; exact hj
    rw [List.getElem?_eq_getElem hj', Option.getD_some]
    exact List.getElem_mem hj'
  have hex : ∀ j, j < k → ∃ out, globalBatch mesh P ((List.range P).map batches) j = .ok out ∧ out.length = batchSize ∧
      out.Perm ((List.range P).flatMap fun p => ((batches p)[j]?).getD []) := by
    intro j hj
    have hB : ∀ p < P, ((((((List.range P).map batches)[p]?).getD [])[j]?).getD []).length = perProcess * c :=
      fun p hp => (hbat p hp).2.2 _ (hrows j hj p hp)
    obtain ⟨out, ho⟩ := Prefetch.C36_global_exists mesh P perProcess hpp hloc hlen _ (perProcess * c) hB ⟨c, rfl⟩
    obtain ⟨h1, h2, -⟩ := Prefetch.C36_global mesh hnd P hdev _ (perProcess * c) hB out ho
    refine ⟨out, ho, ?_, ?_⟩
    · rw [h1, hc, hlen, Nat.mul_comm, Nat.mul_assoc]
    · refine h2.trans (List.Perm.of_eq ?_)
      apply List.flatMap_congr
      intro p hp
      rw [hget p (List.mem_range.1 hp)]
  choose! G hG1 hG2 hG3 using hex
  have hGm : (List.range k).mapM (globalBatch mesh P ((List.range P).map batches)) = .ok ((List.range k).map G) := by
    apply mapM_ok_eq
    intro j hj
    exact hG1 j (List.mem_range.1 hj)
  have hrun : evalRun F rngs split mesh P batchSize process spec sched =
      evaluateData F (initState rngs) ((List.range k).map G) := by
    unfold evalRun
    rw [hl]
    change (((List.range ((((List.range P).map batches)[0]?).getD []).length).mapM
      (globalBatch mesh P ((List.range P).map batches))) >>= _ : Except PyErr _) = _
    rw [hget 0 hP, (hbat 0 hP).2.1, hGm]
    rfl
  let F' : Fns Tensor L R := { F with applyFn := fun xs _ => xs.map f }
  have hcongr : evaluateData F (initState rngs) ((List.range k).map G) = evaluateData F' (initState rngs) ((List.range k).map G) := by
    apply evaluateData_congr F F' batchSize rfl (fun xs r h => hF.apply xs r h) rfl rfl
    intro b hb
    obtain ⟨j, hj, rfl⟩ := List.mem_map.1 hb
    exact hG2 j (List.mem_range.1 hj)
  have hshare := DataShare.C96_shares split P hP
  obtain ⟨s, e0, e1, e2, e3⟩ := C34_metrics F' f loss pred ⟨fun _ _ => rfl, hF.loss, hF.pred⟩ rngs
    (DataShare.numExamples split.length P) P batchSize mesh.length (perProcess * c) hbs hb process g x y v spec si sl
    ⟨hsi, hsl, hsv⟩ sched hs (DataShare.sourceOf split P mesh.length)
    (fun p hp => ⟨rfl, rfl, rfl, rfl, hshare.2.2 p hp⟩)
    (fun p hp d hd => hg d (List.mem_of_mem_drop (List.mem_of_mem_take hd)))
    batches (fun p hp => (hbat p hp).1) ((List.range k).map G)
    (fun p hp => by rw [List.length_map, List.length_range, (hbat p hp).2.1])
    (fun j hj => by
      simp only [List.length_map, List.length_range] at hj
      simpa using hG3 j hj)
  have hsum : ∀ q : Data → ℝ, ∑ p ∈ Finset.range P, ((DataShare.sourceOf split P mesh.length p).examples.map q).sum =
      (split.map q).sum := by
    intro q
    rw [← sum_flatMap_range q P fun p => (DataShare.sourceOf split P mesh.length p).examples]
    conv_rhs => rw [← hshare.1]
    rfl
  refine ⟨s, by rw [hrun, hcongr, e0], ?_, ?_, ?_⟩
  · rw [e1, hsum]; rfl
  · rw [e2, hsum]; rfl
  · rw [e3, hsum]; rfl

/-- C122: two evaluations of the same split by the same model accumulate the same values, whatever the numbers of processes and
devices, the order of the devices in the meshes, the batch sizes, the orders of the pipelines and the random keys. -/
theorem C122_distribution (F : Fns Tensor L R) (f : Tensor → L) (loss : L → List ℝ → List ℝ) (pred : L → Nat)
    (split : List Data) (process : Data → Except PyErr Data) (x y : Data → Tensor) (v : Data → Bool)
    (hproc : ∀ d ∈ split, Reads process x y v d) (spec : PyDict String TensorSpec) (hspec : SpecOk spec)
    (mesh mesh' : List Prefetch.Device) (P P' perProcess perProcess' : Nat) (hcl : BatchSpec.Cluster mesh P perProcess)
    (hcl' : BatchSpec.Cluster mesh' P' perProcess') (n n' : Nat) (hpos : 0 < n) (hpos' : 0 < n')
    (hdvd : mesh.length ∣ n) (hdvd' : mesh'.length ∣ n') (hF : PerExampleOn n F f loss pred) (hF' : PerExampleOn n' F f loss pred)
    (rngs rngs' : R) (sched sched' : Nat → List Data → List Data) (hs : ∀ p l, (sched p l).Perm l)
    (hs' : ∀ p l, (sched' p l).Perm l) :
    ∃ s s', evalRun F rngs split mesh P n process spec sched = .ok s ∧
      evalRun F rngs' split mesh' P' n' process spec sched' = .ok s' ∧
      s.num = s'.num ∧ s.sumLoss = s'.sumLoss ∧ s.sumCorrect = s'.sumCorrect := by
  obtain ⟨s, h0, h1, h2, h3⟩ := C122_metrics F f loss pred rngs split process x y v hproc spec hspec mesh P perProcess hcl n hpos
    hdvd hF sched hs
  obtain ⟨s', h0', h1', h2', h3'⟩ := C122_metrics F f loss pred rngs' split process x y v hproc spec hspec mesh' P' perProcess' hcl'
    n' hpos' hdvd' hF' sched' hs'
  exact ⟨s, s', h0, h0', by rw [h1, h1'], by rw [h2, h2'], by rw [h3, h3']⟩

/-! The whole model: a vision transformer with MoE layers. -/

open Verif.Vmoe Verif.Vit Verif.Encoder

variable {ph pw D c r H W T E : Nat} {Q : Type}

/-- Spec: the model as it is used by an evaluation, where `img` takes the image from the array of an example; a batch on which it
raises an exception has no predictions here (the theorems are about models that run). -/
noncomputable def modelOn {M : Type} (model : List (Image H W D) → Except PyErr (Out r × M)) (img : Tensor → Image H W D)
    (xs : List Tensor) : List (List ℝ ⊕ Vec r) :=
  match model (xs.map img) with
  | .ok (out, _) => Out.rows out
  | .error _ => []

/-- C122: for a vision transformer whose router adds no noise and whose groups of tokens do not mix images, the accumulated values
of an evaluation do not depend on processes, devices, batch size, order of the examples and random keys. -/
theorem C122_model (p : Params ph pw D c r) (classifier : List Char) (num_classes : Option Nat)
    (position_emb : Option (Option PosEmb)) (cfg : MoeConfig c Q) (params : Nat → MoeParams c E Q)
    (blocks : Nat → BlockFns (Seq T c)) (dense : Nat → Seq T c → Seq T c) (aux : LayerMetrics → ℝ) (post : Seq T c → Seq T c)
    (pe : List (Vec c)) (numLayers : Nat) (moeLayers : List Int) (hn : cfg.router.noiseless) (hsep : cfg.separates T E)
    (img : Tensor → Image H W D) (loss : (List ℝ ⊕ Vec r) → List ℝ → List ℝ) (pred : (List ℝ ⊕ Vec r) → Nat)
    (rngSplit : R → R × R)
    (split : List Data) (process : Data → Except PyErr Data) (x y : Data → Tensor) (v : Data → Bool)
    (hproc : ∀ d ∈ split, Reads process x y v d) (spec : PyDict String TensorSpec) (hspec : SpecOk spec)
    (mesh mesh' : List Prefetch.Device) (P P' perProcess perProcess' : Nat) (hcl : BatchSpec.Cluster mesh P perProcess)
    (hcl' : BatchSpec.Cluster mesh' P' perProcess') (n n' : Nat) (hpos : 0 < n) (hpos' : 0 < n')
    (hdvd : mesh.length ∣ n) (hdvd' : mesh'.length ∣ n')
    (hrun : ∀ images : List (Image H W D), images.length = n ∨ images.length = n' →
      ∃ q, visionTransformer p classifier num_classes position_emb
        (encoder T cfg params blocks dense aux post pe numLayers moeLayers) images = .ok q)
    (rngs rngs' : R) (sched sched' : Nat → List Data → List Data) (hs : ∀ p l, (sched p l).Perm l)
    (hs' : ∀ p l, (sched' p l).Perm l) :
    let F : Fns Tensor (List ℝ ⊕ Vec r) R := ⟨rngSplit, fun xs _ => modelOn (visionTransformer p classifier num_classes position_emb
        (encoder T cfg params blocks dense aux post pe numLayers moeLayers)) img xs,
      fun ls ys => List.zipWith loss ls ys, fun ls => ls.map pred⟩
    ∃ s s', evalRun F rngs split mesh P n process spec sched = .ok s ∧
      evalRun F rngs' split mesh' P' n' process spec sched' = .ok s' ∧
      s.num = s'.num ∧ s.sumLoss = s'.sumLoss ∧ s.sumCorrect = s'.sumCorrect := by
  intro F
  obtain ⟨f, hf⟩ := C119_model (H := H) (W := W) p classifier num_classes position_emb cfg params blocks dense aux post pe numLayers
    moeLayers hn hsep
  have hper : ∀ m, m = n ∨ m = n' → PerExampleOn m F (fun t => f (img t)) loss pred := by
    intro m hm
    refine ⟨?_, fun _ _ => rfl, fun _ => rfl⟩
    intro xs _ hxs
    obtain ⟨⟨out, mt⟩, hq⟩ := hrun (xs.map img) (by rw [List.length_map, hxs]; exact hm)
    change modelOn _ img xs = _
    unfold modelOn
    rw [hq]
    simp only
    rw [hf _ _ _ hq, List.map_map]
    rfl
  exact C122_distribution F (fun t => f (img t)) loss pred split process x y v hproc spec hspec mesh mesh' P P' perProcess perProcess'
    hcl hcl' n n' hpos hpos' hdvd hdvd' (hper n (.inl rfl)) (hper n' (.inr rfl)) rngs rngs' sched sched' hs hs'

/-! Non-vacuity, with three examples: one process with one device and batches of two, and two processes with two devices each and
batches of four. -/

/-- An example. -/
noncomputable def exData (a : ℝ) : Data := [("image", ⟨false, [1], [a]⟩), ("labels", ⟨false, [2], [0, 1]⟩)]

/-- The types of its arrays. -/
def exSpec : PyDict String TensorSpec := [("image", ⟨false, [1]⟩), ("labels", ⟨false, [2]⟩), (validKey, ⟨true, []⟩)]

/-- Two processes with two devices each, not in order. -/
def exMesh : List Prefetch.Device := [⟨0, 0⟩, ⟨2, 1⟩, ⟨1, 0⟩, ⟨3, 1⟩]

theorem exSpec_ok : SpecOk exSpec := ⟨⟨_, rfl⟩, ⟨_, rfl⟩, rfl⟩

theorem exReads (d : Data) (h : ∃ a, d = exData a) : Reads .ok (fun d => (PyDict.get? d "image").getD ⟨false, [], []⟩)
    (fun d => (PyDict.get? d "labels").getD ⟨false, [], []⟩) (fun _ => true) d := by
  obtain ⟨a, rfl⟩ := h
  exact ⟨_, rfl, rfl, rfl, rfl⟩

theorem exCluster : BatchSpec.Cluster exMesh 2 2 := by
  refine ⟨by decide, by decide, by decide, rfl, by decide, by decide⟩

theorem exCluster1 : BatchSpec.Cluster [⟨0, 0⟩] 1 1 := by
  refine ⟨by decide, by decide, by decide, rfl, by decide, by decide⟩

/-- The first pixel and the second one. -/
noncomputable def exImg (t : Tensor) : Image 2 1 1 := fun i _ _ => if i = 0 then t.data.headD 0 else 0

example (p : Params 1 1 1 1 1) (params : Nat → MoeParams 1 2 Unit) (blocks : Nat → BlockFns (Seq 2 1))
    (dense : Nat → Seq 2 1 → Seq 2 1) (loss : (List ℝ ⊕ Vec 1) → List ℝ → List ℝ) (pred : (List ℝ ⊕ Vec 1) → Nat) :
    let F : Fns Tensor (List ℝ ⊕ Vec 1) Nat := ⟨fun n => (n, n + 1), fun xs _ => modelOn (visionTransformer p "gap".toList (some 3) none
        (encoder 2 exSeparate params blocks dense (fun _ => 0) id [0, 0] 2 [0])) exImg xs,
      fun ls ys => List.zipWith loss ls ys, fun ls => ls.map pred⟩
    ∃ s s', evalRun F 0 [exData 1, exData 2, exData 3] [⟨0, 0⟩] 1 2 .ok exSpec (fun _ l => l) = .ok s ∧
      evalRun F 7 [exData 1, exData 2, exData 3] exMesh 2 4 .ok exSpec (fun _ l => l.reverse) = .ok s' ∧
      s.num = s'.num ∧ s.sumLoss = s'.sumLoss ∧ s.sumCorrect = s'.sumCorrect :=
  C122_model p "gap".toList (some 3) none exSeparate params blocks dense (fun _ => 0) id [0, 0] 2 [0] (.inl rfl) (.inl rfl) exImg loss
    pred _ _ .ok _ _ _ (by
      intro d hd
      apply exReads
      simp only [List.mem_cons, List.not_mem_nil, or_false] at hd
      rcases hd with h | h | h <;> exact ⟨_, h⟩) exSpec exSpec_ok _ _ _ _ _ _ exCluster1 exCluster 2 4 (by decide) (by decide)
    (by decide) (by decide) (fun images _ => exRuns p params blocks dense images) 0 7 _ _ (fun _ _ => List.Perm.refl _)
    (fun _ l => l.reverse_perm)

/-! Without these conditions the order of the examples matters. -/

/-- A model that is one MoE layer without room for all tokens of its groups, which take two images of one token. -/
noncomputable def exTightModel (xs : List Tensor) : List ℝ :=
  match moeLayer exTight (⟨fun _ _ => 0, fun _ => (), fun _ _ _ => 0⟩ : MoeParams 1 1 Unit) (xs.map fun t => (fun _ _ => t.data.headD 0 : Seq 1 1)) with
  | .ok (y, _) => y.map fun s => s 0 0
  | .error _ => []

/-- The sum of the predictions is accumulated as the loss. -/
noncomputable def exTightFns : Fns Tensor ℝ Unit :=
  ⟨fun r => (r, r), fun xs _ => exTightModel xs, fun ls ys => List.zipWith (fun l _ => [l]) ls ys, fun ls => ls.map fun _ => 0⟩

theorem exTight_value (a b : ℝ) : exTightModel [⟨false, [1], [a]⟩, ⟨false, [1], [b]⟩] = [a, 0] := by
  obtain ⟨m, h⟩ := tight_value ⟨fun _ _ => 0, fun _ => (), fun _ _ _ => 0⟩ (fun _ _ => a) (fun _ _ => b)
  unfold exTightModel
  have h' : moeLayer exTight (⟨fun _ _ => 0, fun _ => (), fun _ _ _ => 0⟩ : MoeParams 1 1 Unit) ([⟨false, [1], [a]⟩, ⟨false, [1], [b]⟩].map
      fun t : Tensor => (fun _ _ => t.data.headD 0 : Seq 1 1)) = .ok ([fun _ _ => a, 0], m) := h
  rw [h']
  rfl

theorem exRead (a : ℝ) : readExample (maskFn (exData a)) = .ok (⟨false, [1], [a]⟩, [0, 1], 1) := rfl

theorem exEvaluate (a b : ℝ) :
    ∃ s, evaluateData exTightFns (initState ()) [[maskFn (exData a), maskFn (exData b)]] = .ok s ∧ s.sumLoss = a := by
  have h : ([[maskFn (exData a), maskFn (exData b)]].mapM fun l => l.mapM readExample) =
      .ok [[(⟨false, [1], [a]⟩, [0, 1], 1), (⟨false, [1], [b]⟩, [0, 1], 1)]] := rfl
  refine ⟨_, by unfold evaluateData; rw [h]; rfl, ?_⟩
  simp [evaluateDataset, evaluateStep, EvalState.update, initState, toBatch, exTightFns, exTight_value, maskedLoss]

/-- C122, limit.  With groups over several images and little room, the metrics depend on the order in which the parallel input
pipeline gives the examples, which is not determined: here the second of two images is dropped. -/
theorem C122_order_counterexample : ∃ (s s' : EvalState Unit) (sched : List Data → List Data), (∀ l, (sched l).Perm l) ∧
    exTight.router.noiseless ∧ BatchSpec.Cluster [⟨0, 0⟩] 1 1 ∧
    evalRun exTightFns () [exData 1, exData 2] [⟨0, 0⟩] 1 2 .ok exSpec (fun _ l => l) = .ok s ∧
    evalRun exTightFns () [exData 1, exData 2] [⟨0, 0⟩] 1 2 .ok exSpec (fun _ l => sched l) = .ok s' ∧
    s.sumLoss ≠ s'.sumLoss := by
  obtain ⟨s, h1, h2⟩ := exEvaluate 1 2
  obtain ⟨s', h1', h2'⟩ := exEvaluate 2 1
  refine ⟨s, s', List.reverse, fun l => l.reverse_perm, .inl rfl, exCluster1, ?_, ?_, ?_⟩
  · exact h1
  · exact h1'
  · rw [h2, h2']; norm_num

end Verif.EvalRun
