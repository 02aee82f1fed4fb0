import Verif.Model.EnsembleLoss
import Verif.Props.EnsembleModel
import Verif.Props.LossFn
import Verif.Props.TotalLoss
import Mathlib.Analysis.Calculus.Deriv.Add
import Mathlib.Analysis.Calculus.Deriv.Mul

/-!
Property C170: training an ensemble is training its members.
-/

namespace Verif.EnsembleLoss

open Verif Verif.Encoder Verif.Vit Verif.Vmoe Verif.EnsembleEval Verif.EnsembleBlock Verif.ModelLoss Filter Topology

variable {ph pw D c r H W T n M : Nat} {P : Type}

/-- The plain model with the parameters of member `m`: everything of the ensemble in common, the routers of the member, and experts
`m * n, ..., m * n + n - 1`; groups of `s` tokens. -/
noncomputable def member (net : EnsembleNet ph pw D c r T (M * n) P) (s : Nat) (m : Fin M) : Net ph pw D c r T n P where
  params := net.params
  classifier := net.classifier
  numClasses := net.numClasses
  positionEmb := none
  cfg := net.cfg.plain s
  kernel := fun i h j => (net.layers i).kernel m h j
  experts := fun i j => (net.layers i).experts (expertPos m j)
  blocks := net.blocks
  dense := net.dense
  post := net.post
  posParams := net.posParams
  numLayers := net.numLayers
  moeLayers := net.moeLayers

/-- An ensemble of `M` members with groups of `s * M` tokens, at least one MoE layer, and with the capacity of the plain models. -/
structure Ensemble (net : EnsembleNet ph pw D c r T (M * n) P) (s : Nat) : Prop where
  members : 0 < M
  tokens : 0 < T
  width : 0 < c
  size : net.cfg.size = some (M : Int)
  groups : net.cfg.groupSize = s * M
  capacity : net.cfg.sameCapacity M n s
  moe : ∃ b < net.numLayers, (b : Int) ∈ net.moeLayers

/-- Row of a matrix with `C` columns. -/
noncomputable def rowOf (C : Nat) : List ℝ ⊕ Vec r → Row C
  | .inl l => fun c => l.getD c 0
  | .inr v => fun c => if h : c.1 < r then v ⟨c.1, h⟩ else 0

theorem logitRows_eq (C : Nat) (out : Out r) : logitRows C out = (Out.rows out).map (rowOf C) := by
  cases out <;> simp [logitRows, Out.rows, rowOf]

theorem interleaved_sum {B : Nat} {X : List ℝ} {xs : Fin M → List ℝ} (h : Interleaved B X xs) : X.sum = ∑ m, (xs m).sum := by
  obtain ⟨f, rfl, hxs⟩ := interleaved_ofFn h
  simp only [hxs, List.sum_ofFn]
  rw [← Fintype.sum_equiv finProdFinEquiv (fun i => f (finProdFinEquiv i)) f fun _ => rfl, Fintype.sum_prod_type, Finset.sum_comm]
  refine Finset.sum_congr rfl fun m _ => Finset.sum_congr rfl fun b _ => ?_
  unfold memberRows
  congr 1
  apply Fin.ext
  change m.1 + M * b.1 = b.1 * M + m.1
  rw [Nat.mul_comm, Nat.add_comm]

theorem repeat_interleaved {C : Nat} (labels : List (Row C)) :
    Interleaved (M := M) labels.length (repeatRows labels M) (fun _ => labels) := by
  refine ⟨repeat_length labels M, fun _ => rfl, fun b hb m => ?_⟩
  rw [LossFn.repeatRows_get labels M b m hb m.2, List.getElem?_eq_getElem hb]

theorem mainLoss_ok {C : Nat} {X : Type} {name : LossFn.Key} {kwargs : PyDict LossFn.Key Nat} {run : Except PyErr (Out r × X)}
    {labels : List (Row C)} {v : ℝ} (h : mainLoss name kwargs run labels = .ok v) :
    ∃ fns out x l, LossFn.getLossFn (C := C) name kwargs = .ok fns ∧ run = .ok (out, x) ∧
      fns.train (logitRows C out) labels = .ok l ∧ v = l.sum / l.length := by
  unfold mainLoss at h
  split at h
  · cases h
  split at h
  · cases h
  split at h
  · cases h
  rename_i _ fns hf _ out x _ l hl
  exact ⟨fns, out, x, l, hf, rfl, hl, (Except.ok.inj h).symm⟩

/-- The losses of one row, of the two plain losses and of the losses for ensembles. -/
theorem losses_cases {C : Nat} (name : LossFn.Key) (h : name = "softmax_xent".toList ∨ name = "sigmoid_xent".toList) :
    ∃ g : Row C → Row C → ℝ,
      (∃ f, LossFn.getLossFn (C := C) name [] = .ok f ∧ ∀ x y, f.train x y = zipRows g x y) ∧
      ∀ M, ∃ f, LossFn.getLossFn (C := C) ("ensemble_".toList ++ name) [("ensemble_size".toList, M)] = .ok f ∧
        ∀ x y, f.train x y = zipRows g x (repeatRows y M) := by
  rcases h with rfl | rfl
  · exact ⟨softmaxXent, ⟨_, rfl, fun _ _ => rfl⟩, fun M => ⟨_, rfl, fun _ _ => rfl⟩⟩
  · exact ⟨fun x y => ∑ c, sigmoidXent x y c, ⟨_, rfl, fun _ _ => rfl⟩, fun M => ⟨_, rfl, fun _ _ => rfl⟩⟩

theorem rows_length {E : Nat} (net : Net ph pw D c r T E P) (z : Nat → Nat → Nat → Nat → ℝ) (images : List (Image H W D)) (out : Out r)
    (ms : PyDict (List Char) (Metric LayerMetrics ℝ)) (h : net.run z images = .ok (out, ms)) : (Out.rows out).length = images.length := by
  have e : (images.map fun i => (i, ())).map Prod.fst = images := by rw [List.map_map]; exact List.map_id _
  have hv : totalLoss net (fun _ (_ : Unit) => 0) z (images.map fun i => (i, ())) = .ok
      ((losses (fun _ (_ : Unit) => (0 : ℝ)) out ((images.map fun i => (i, ())).map Prod.snd)).sum /
        (losses (fun _ (_ : Unit) => (0 : ℝ)) out ((images.map fun i => (i, ())).map Prod.snd)).length + auxiliary ms) := by
    unfold totalLoss
    rw [e, h]
  obtain ⟨out', ms', -, hr, hrun, -⟩ := TotalLoss.C162_total _ _ _ _ _ hv
  rw [e, h] at hrun
  obtain ⟨rfl, rfl⟩ := Prod.mk.inj (Except.ok.inj hrun)
  simpa using hr

theorem rows_interleaved (net : EnsembleNet ph pw D c r T (M * n) P) (s : Nat) (hnet : Ensemble net s) (images : List (Image H W D))
    (outs : Fin M → Out r) (ms : Fin M → PyDict (List Char) (Metric LayerMetrics ℝ))
    (h : ∀ m, (member net s m).run (fun i => (net.layers i).z m) images = .ok (outs m, ms m)) (C : Nat) :
    ∃ out, net.run images = .ok (out, ()) ∧ Interleaved images.length (logitRows C out) (fun m => logitRows C (outs m)) := by
  obtain ⟨out, hout, hlen, hrows⟩ := C124_model net.params net.classifier net.numClasses net.cfg s hnet.members hnet.size hnet.groups
    hnet.capacity hnet.tokens hnet.width net.layers net.blocks net.dense meanAux net.post net.posParams net.numLayers net.moeLayers
    hnet.moe images outs ms h
  refine ⟨out, hout, ?_⟩
  simp only [logitRows_eq]
  exact interleaved_map ⟨hlen, fun m => rows_length _ _ _ _ _ (h m), fun b hb m => (hrows b hb m).1⟩ _

/-- C170.  If the `M` plain models with the parameters of the members have losses `v m` on a batch, then the ensemble has the mean of
these losses, with the corresponding loss for ensembles of `M` members. -/
theorem C170_loss {C : Nat} (net : EnsembleNet ph pw D c r T (M * n) P) (s : Nat) (hnet : Ensemble net s) (name : LossFn.Key)
    (hname : name = "softmax_xent".toList ∨ name = "sigmoid_xent".toList) (images : List (Image H W D)) (labels : List (Row C))
    (v : Fin M → ℝ)
    (h : ∀ m, mainLoss name [] ((member net s m).run (fun i => (net.layers i).z m) images) labels = .ok (v m)) :
    mainLoss ("ensemble_".toList ++ name) [("ensemble_size".toList, M)] (net.run images) labels = .ok ((∑ m, v m) / M) := by
  obtain ⟨g, ⟨f, hf, hft⟩, hens⟩ := losses_cases (C := C) name hname
  obtain ⟨fe, hfe, hfet⟩ := hens M
  choose fns outs x l hfns hrun htrain hv using fun m => mainLoss_ok (h m)
  obtain ⟨out, hout, hrowsI⟩ := rows_interleaved net s hnet images outs x hrun C
  have hl : ∀ m, l m = List.zipWith g (logitRows C (outs m)) labels ∧ (logitRows C (outs m)).length = labels.length := by
    intro m
    have e := htrain m
    rw [show fns m = f from Except.ok.inj ((hfns m).symm.trans hf), hft] at e
    unfold zipRows at e
    split_ifs at e with hc
    exact ⟨(Except.ok.inj e).symm, hc⟩
  have hi : images.length = labels.length := by rw [← (hl ⟨0, hnet.members⟩).2, hrowsI.2.1]
  rw [hi] at hrowsI
  have hz := interleaved_zipWith hrowsI (repeat_interleaved labels) g
  have hM : (M : ℝ) ≠ 0 := by exact_mod_cast hnet.members.ne'
  unfold mainLoss
  rw [hfe, hout]
  simp only
  rw [hfet]
  unfold zipRows
  rw [if_pos (by rw [hrowsI.1, (repeat_interleaved labels).1])]
  simp only
  congr 1
  rw [interleaved_sum hz, hz.1, Finset.sum_div, Finset.sum_div]
  refine Finset.sum_congr rfl fun m _ => ?_
  rw [hv m, (hl m).1, hz.2.1 m, Nat.cast_mul, div_div]

/-- C170.  So if the parameters move along a curve, then the derivative of the loss of the ensemble is the mean of the derivatives
of the losses of the plain models. -/
theorem C170_gradient {C : Nat} (net : ℝ → EnsembleNet ph pw D c r T (M * n) P) (s : Nat) (hnet : ∀ t, Ensemble (net t) s)
    (name : LossFn.Key) (hname : name = "softmax_xent".toList ∨ name = "sigmoid_xent".toList) (images : List (Image H W D))
    (labels : List (Row C)) (t₀ : ℝ) (l : Fin M → ℝ → ℝ) (d : Fin M → ℝ)
    (h : ∀ m, ∀ᶠ t in 𝓝 t₀, mainLoss name [] ((member (net t) s m).run (fun i => ((net t).layers i).z m) images) labels = .ok (l m t))
    (hd : ∀ m, HasDerivAt (l m) (d m) t₀) :
    ∃ L : ℝ → ℝ, (∀ᶠ t in 𝓝 t₀,
        mainLoss ("ensemble_".toList ++ name) [("ensemble_size".toList, M)] ((net t).run images) labels = .ok (L t)) ∧
      HasDerivAt L ((∑ m, d m) / M) t₀ := by
  refine ⟨fun t => (∑ m, l m t) / M, ?_, (HasDerivAt.fun_sum fun m _ => hd m).div_const _⟩
  filter_upwards [eventually_all.2 h] with t ht
  exact C170_loss (net t) s (hnet t) name hname images labels (fun m => l m t) ht

/-- C170.  If only the routers and the experts of one member move, the derivative of the loss of the ensemble is the derivative of
the loss of that plain model, divided by the number of members, whatever the parameters of the other members are. -/
theorem C170_own {C : Nat} (net : EnsembleNet ph pw D c r T (M * n) P) (layers : ℝ → Nat → EnsembleParams (M * n) P) (s : Nat)
    (hnet : Ensemble net s) (name : LossFn.Key) (hname : name = "softmax_xent".toList ∨ name = "sigmoid_xent".toList)
    (images : List (Image H W D)) (labels : List (Row C)) (t₀ : ℝ) (m : Fin M)
    (hother : ∀ t i (m' : Fin M), m' ≠ m → (layers t i).kernel m' = (net.layers i).kernel m' ∧
      (layers t i).z m' = (net.layers i).z m' ∧
      ∀ j : Fin n, (layers t i).experts (expertPos m' j) = (net.layers i).experts (expertPos m' j))
    (hruns : ∀ m', m' ≠ m → ∃ v, mainLoss name [] ((member net s m').run (fun i => (net.layers i).z m') images) labels = .ok v)
    (l : ℝ → ℝ) (d : ℝ)
    (h : ∀ᶠ t in 𝓝 t₀, mainLoss name []
      ((member { net with layers := layers t } s m).run (fun i => (layers t i).z m) images) labels = .ok (l t))
    (hd : HasDerivAt l d t₀) :
    ∃ L : ℝ → ℝ, (∀ᶠ t in 𝓝 t₀,
        mainLoss ("ensemble_".toList ++ name) [("ensemble_size".toList, M)]
          (EnsembleNet.run { net with layers := layers t } images) labels = .ok (L t)) ∧
      HasDerivAt L (d / M) t₀ := by
  choose! v hv using hruns
  have := C170_gradient (fun t => { net with layers := layers t }) s
    (fun t => ⟨hnet.members, hnet.tokens, hnet.width, hnet.size, hnet.groups, hnet.capacity, hnet.moe⟩) name hname images labels t₀
    (fun m' t => if m' = m then l t else v m') (fun m' => if m' = m then d else 0) ?_ ?_
  · simpa using this
  · intro m'
    by_cases hm : m' = m
    · subst hm
      simpa using h
    · refine Eventually.of_forall fun t => ?_
      rw [if_neg hm, ← hv m' hm]
      have e1 : member { net with layers := layers t } s m' = member net s m' := by
        unfold member
        simp only [(hother t _ m' hm).1, (hother t _ m' hm).2.2]
      have e2 : (fun i => (layers t i).z m') = fun i => (net.layers i).z m' := funext fun i => (hother t i m' hm).2.1
      simp only [e1, e2]
  · intro m'
    by_cases hm : m' = m
    · simpa [hm] using hd
    · simpa [hm] using hasDerivAt_const t₀ (v m')

/-- C170.  At evaluation, the loss of the ensemble for an example is at most the mean of the losses of the plain models for this
example, if the labels are between 0 and 1. -/
theorem C170_evaluation {C : Nat} (net : EnsembleNet ph pw D c r T (M * n) P) (s : Nat) (hnet : Ensemble net s) (name : LossFn.Key)
    (hname : name = "softmax_xent".toList ∨ name = "sigmoid_xent".toList) (images : List (Image H W D)) (labels : List (Row C))
    (hlabels : ∀ y ∈ labels, ∀ c, 0 ≤ y c ∧ y c ≤ 1) (outs : Fin M → Out r)
    (ms : Fin M → PyDict (List Char) (Metric LayerMetrics ℝ)) (l : Fin M → List ℝ)
    (h : ∀ m, (member net s m).run (fun i => (net.layers i).z m) images = .ok (outs m, ms m))
    (f : LossFn.LossFns C) (hf : LossFn.getLossFn name [] = .ok f)
    (hl : ∀ m, f.eval (logitRows C (outs m)) labels = .ok (l m)) :
    ∃ g out ev, LossFn.getLossFn ("ensemble_".toList ++ name) [("ensemble_size".toList, M)] = .ok g ∧
      net.run images = .ok (out, ()) ∧ g.eval (logitRows C out) labels = .ok ev ∧ ev.length = labels.length ∧
      ∀ b (hb : b < ev.length) (hb' : ∀ m, b < (l m).length), ev[b] ≤ (∑ m, (l m)[b]'(hb' m)) / M := by
  obtain ⟨out, hout, hI⟩ := rows_interleaved net s hnet images outs ms h C
  have hM0 : M ≠ 0 := hnet.members.ne'
  have key : ∀ (g : Row C → Row C → ℝ), (∀ m, zipRows g (logitRows C (outs m)) labels = .ok (l m)) →
      (logitRows C out).length = labels.length * M ∧
      ∀ (ev tr : List ℝ), zipRows g (logitRows C out) (repeatRows labels M) = .ok tr →
        (∀ b (hb : b < ev.length), ev[b] ≤ EnsembleEvalSpec.mean (EnsembleEvalSpec.members M tr b)) → ev.length = labels.length →
        ∀ b (hb : b < ev.length) (hb' : ∀ m, b < (l m).length), ev[b] ≤ (∑ m, (l m)[b]'(hb' m)) / M := by
    intro g hg
    have hl : ∀ m, l m = List.zipWith g (logitRows C (outs m)) labels ∧ (logitRows C (outs m)).length = labels.length := by
      intro m
      have e := hg m
      unfold zipRows at e
      split_ifs at e with hc
      exact ⟨(Except.ok.inj e).symm, hc⟩
    have hi : images.length = labels.length := by rw [← (hl ⟨0, hnet.members⟩).2, hI.2.1]
    have hI' := hI
    rw [hi] at hI'
    refine ⟨hI'.1, fun ev tr htr hev hlen b hb hb' => (hev b hb).trans (le_of_eq ?_)⟩
    unfold zipRows at htr
    rw [if_pos (by rw [hI'.1, repeat_length])] at htr
    have hz := interleaved_zipWith hI' (repeat_interleaved labels) g
    rw [Except.ok.inj htr] at hz
    have hmem : EnsembleEvalSpec.members M tr b = List.ofFn fun m => (l m)[b]'(hb' m) := by
      unfold EnsembleEvalSpec.members
      rw [← List.map_coe_finRange_eq_range, List.filterMap_map, List.ofFn_eq_map]
      rw [← List.filterMap_eq_map]
      apply List.filterMap_congr
      intro m _
      have := hz.2.2 b (by omega) m
      simp only [Function.comp_apply, this, ← (hl m).1, List.getElem?_eq_getElem (hb' m)]
    rw [hmem, EnsembleEvalSpec.mean, List.sum_ofFn, List.length_ofFn]
  rcases hname with rfl | rfl
  · cases hf
    obtain ⟨hlen, hk⟩ := key softmaxXent hl
    obtain ⟨ev, tr, h1, h2, h3, -, h5⟩ := C60_softmax_loss (logitRows C out) labels M hM0 hlen fun y hy c => (hlabels y hy c).1
    exact ⟨_, out, ev, rfl, hout, h1, h3, hk ev tr h2 h5 h3⟩
  · cases hf
    obtain ⟨hlen, hk⟩ := key (fun x y => ∑ c, sigmoidXent x y c) hl
    obtain ⟨ev, tr, h1, h2, h3, -, h5⟩ := C60_sigmoid_loss (logitRows C out) labels M hM0 hlen hlabels
    exact ⟨_, out, ev, rfl, hout, h1, h3, hk ev tr h2 h5 h3⟩

/-- C170, limit.  An ensemble of several members without MoE layers has one prediction per image, but the loss expects one for each
member: training on a batch of more than one image fails. -/
theorem C170_no_moe {C E E' : Nat} (net : EnsembleNet ph pw D c r T E P) (cfg' : MoeConfig c P) (params' : Nat → MoeParams c E' P)
    (hM : 2 ≤ M) (hsize : net.cfg.size = some (M : Int)) (hno : ∀ b < net.numLayers, (b : Int) ∉ net.moeLayers) (name : LossFn.Key)
    (hname : name = "softmax_xent".toList ∨ name = "sigmoid_xent".toList) (images : List (Image H W D)) (labels : List (Row C))
    (himages : 2 ≤ images.length) (hlabels : labels.length = images.length)
    (q : Out r × PyDict (List Char) (Metric LayerMetrics ℝ))
    (h : visionTransformer net.params net.classifier net.numClasses none (encoder T cfg' params' net.blocks net.dense meanAux net.post
      net.posParams net.numLayers net.moeLayers) images = .ok q) :
    mainLoss ("ensemble_".toList ++ name) [("ensemble_size".toList, M)] (net.run images) labels = .error .typeError := by
  obtain ⟨g, -, hens⟩ := losses_cases (C := C) name hname
  obtain ⟨fe, hfe, hfet⟩ := hens M
  obtain ⟨out, ms⟩ := q
  obtain ⟨out', hout, hrows⟩ := C124_no_moe net.params net.classifier net.numClasses net.cfg cfg' (by omega) hsize net.layers params'
    net.blocks net.dense meanAux net.post net.posParams net.numLayers net.moeLayers hno images out ms h
  have hlen : (Out.rows out).length = images.length := by
    let plain : Net ph pw D c r T E' P := ⟨net.params, net.classifier, net.numClasses, none, cfg', fun i => (params' i).kernel,
      fun i => (params' i).experts, net.blocks, net.dense, net.post, net.posParams, net.numLayers, net.moeLayers⟩
    exact rows_length plain (fun i => (params' i).z) images out ms h
  unfold mainLoss
  rw [hfe, show net.run images = .ok (out', ()) from hout]
  simp only
  rw [hfet]
  unfold zipRows
  rw [if_neg]
  rw [logitRows_eq, List.length_map, hrows, hlen, repeat_length, hlabels]
  intro e
  have : images.length * 2 ≤ images.length * M := Nat.mul_le_mul_left _ hM
  omega

/-! Non-vacuity: two members with one expert each; expert `e` returns the number `w e` for every token; images of one pixel. -/

/-- Groups of one token of each member, one place per expert. -/
noncomputable def exCfg : EnsembleConfig 1 ℝ where
  fl := id
  cdf := fun _ => 0
  bf := id
  router := exTightRouter
  groupSize := 2
  size := some 2
  oob := fun _ => 0
  mlp := fun w _ _ => w

/-- The ensemble with experts `w`; the logits are the sum of the residual stream and zero. -/
noncomputable def exNet (w : Fin (2 * 1) → ℝ) : EnsembleNet 1 1 1 1 1 1 (2 * 1) ℝ where
  params := ⟨0, 0, 0, fun _ => 0, id, fun _ v => [v 0, 0]⟩
  classifier := "gap".toList
  numClasses := some 2
  cfg := exCfg
  layers := fun _ => ⟨fun _ _ _ => 0, w, fun _ _ _ _ => 0⟩
  blocks := fun _ => ⟨fun _ => 0, id⟩
  dense := fun _ => id
  post := id
  posParams := [0]
  numLayers := 1
  moeLayers := [0]

theorem exNet_ok (w : Fin (2 * 1) → ℝ) : Ensemble (M := 2) (n := 1) (exNet w) 1 :=
  ⟨by decide, by decide, by decide, rfl, rfl, C124_capacity exCfg 1 (by decide) (by decide) (.inl ⟨0, rfl⟩), ⟨0, Nat.one_pos, List.mem_singleton.2 rfl⟩⟩

theorem kept_one (gates : Fin 1 → Fin 1 → ℝ) (s : Fin 1) (e : Fin 1) : Spec.Kept (by decide) false gates 1 1 s e := by
  unfold Spec.Kept Spec.slot Spec.HigherPriority Spec.Requests Spec.ItemBefore
  simp only [rank_one, Nat.lt_irrefl, false_or, true_and, Nat.lt_one_iff, Finset.card_eq_zero,
    Finset.filter_eq_empty_iff, Finset.mem_univ, forall_true_left, Bool.false_eq_true, if_false]
  intro x
  have : x = s := Subsingleton.elim _ _
  simp [this]

theorem exLayer (p : MoeParams 1 1 ℝ) (a : Seq 1 1) :
    ∃ m, moeLayer (exCfg.plain 1) p [a] = .ok ([fun _ _ => p.experts 0], m) := by
  obtain ⟨out, m, h, ho⟩ := MoeBlock.C72_block_output exCfg.fl exCfg.cdf exCfg.bf exTightRouter 1 p.kernel p.z
    exCfg.oob p.experts exCfg.mlp [a].get (by decide) ⟨1, rfl⟩ (by decide) Nat.one_pos (le_refl 1) (Or.inl rfl) 1 rfl
  refine ⟨.topExperts _ m, ?_⟩
  have hstd : MoeBlock.usedStd exTightRouter 1 = 0 := if_pos rfl
  have hval : ∀ (k : Fin 1) (t i : Fin 1), out k t i = p.experts 0 := by
    intro k t i
    have h1 := ho k t i
    simp only [hstd] at h1
    rw [h1, Finset.filter_true_of_mem, Fin.sum_univ_one, gates_token _ _ _ _ _ (by decide), gate_one, one_mul]
    · rfl
    · intro e _
      exact kept_one _ _ _
  have hl : List.ofFn out = [fun _ _ => p.experts 0] := by
    have e0 : out 0 = fun _ _ => p.experts 0 := by
      funext t i
      exact hval 0 t i
    rw [← e0]
    rfl
  rw [← hl]
  have h' : MoeBlock.mlpMoeBlock (exCfg.plain 1).fl (exCfg.plain 1).cdf (exCfg.plain 1).bf exTightRouter (exCfg.plain 1).groupSize
    p.kernel p.z (exCfg.plain 1).oob p.experts (exCfg.plain 1).mlp [a].get = .ok (out, m) := h
  unfold moeLayer
  rw [show (exCfg.plain 1).router = .topExperts exTightRouter from rfl]
  simp only
  rw [h']
  rfl

theorem exRun (w : Fin (2 * 1) → ℝ) (m : Fin 2) (img : Image 1 1 1) :
    ∃ ms, (member (M := 2) (n := 1) (exNet w) 1 m).run (fun i => ((exNet w).layers i).z m) [img] =
      .ok (.logits [[w (expertPos m 0), 0]], ms) := by
  obtain ⟨mm, hl⟩ := exLayer ⟨fun _ _ => 0, fun j => w (expertPos m j), fun _ _ _ => 0⟩ (fun _ _ => 0)
  have hpre : [fun (t : Fin 1) => (tokens (exNet w).params "gap".toList img).getD t 0].mapM (addPos none [0]) =
      .ok [fun _ _ => 0] := by
    have h0 : tokens (exNet w).params "gap".toList img = [0] := by
      have hc : ∀ i j, conv (exNet w).params img i j = 0 := by
        intro i j
        funext f
        simp [conv, exNet]
      unfold tokens
      rw [if_neg (by decide)]
      simp [hc, convSize]
    rw [h0]
    have h1 : addPos (T := 1) none [(0 : Vec 1)] (fun t => [(0 : Vec 1)].getD t 0) = .ok fun _ _ => 0 := by
      unfold addPos
      have : addPositionEmb ((none : Option (Option PosEmb)).getD none) [(0 : Vec 1)]
          (List.ofFn fun t : Fin 1 => [(0 : Vec 1)].getD t 0) = .ok [0 + 0] := rfl
      rw [this]
      simp only [add_zero]
      congr 1
      funext t
      have : t = 0 := Subsingleton.elim _ _
      subst this
      rfl
    simp only [List.mapM_cons, List.mapM_nil, h1]
    rfl
  unfold Net.run visionTransformer
  rw [show encoderPosEmb (member (M := 2) (n := 1) (exNet w) 1 m).positionEmb (convSize 1 1) (convSize 1 1) = .ok none from rfl]
  simp only
  unfold encoder encoderMoe
  have hpre' : ((([img].map (tokens (member (M := 2) (n := 1) (exNet w) 1 m).params (member (M := 2) (n := 1) (exNet w) 1 m).classifier)).map
      fun l (t : Fin 1) => l.getD t 0).mapM (addPos none (member (M := 2) (n := 1) (exNet w) 1 m).posParams)) = .ok [fun _ _ => 0] := hpre
  rw [hpre']
  simp only
  rw [show (member (M := 2) (n := 1) (exNet w) 1 m).numLayers = 1 from rfl, show List.range 1 = [0] from rfl, loop, if_pos (by
    exact List.mem_singleton.2 rfl)]
  unfold moeBlock
  simp only
  have hl' : moeLayer (member (M := 2) (n := 1) (exNet w) 1 m).cfg ⟨(member (M := 2) (n := 1) (exNet w) 1 m).kernel 0,
      (member (M := 2) (n := 1) (exNet w) 1 m).experts 0, ((exNet w).layers 0).z m⟩
      ((attention ((member (M := 2) (n := 1) (exNet w) 1 m).blocks 0) [fun _ _ => 0]).map ((member (M := 2) (n := 1) (exNet w) 1 m).blocks 0).norm) =
        .ok ([fun _ _ => w (expertPos m 0)], mm) := by
    have : ((attention ((member (M := 2) (n := 1) (exNet w) 1 m).blocks 0) [fun _ _ => 0]).map
        ((member (M := 2) (n := 1) (exNet w) 1 m).blocks 0).norm) = [fun _ _ => 0] := by
      change [(0 : Seq 1 1) + fun _ _ => 0] = _
      rw [zero_add]
    rw [this]
    exact hl
  rw [hl']
  simp only
  rw [loop]
  have hz : List.zipWith (fun x1 x2 => x1 + x2) (attention ((member (M := 2) (n := 1) (exNet w) 1 m).blocks 0) [fun _ _ => 0])
      [fun (_ : Fin 1) (_ : Fin 1) => w (expertPos m 0)] = [fun _ _ => w (expertPos m 0)] := by
    change [((0 : Seq 1 1) + fun _ _ => 0) + fun _ _ => w (expertPos m 0)] = _
    rw [zero_add]
    congr 1
    funext t f
    exact zero_add _
  rw [hz]
  simp only
  rw [show (member (M := 2) (n := 1) (exNet w) 1 m).classifier = "gap".toList from rfl, if_neg (by decide), if_pos rfl]
  simp only
  refine ⟨_, congrArg Except.ok (Prod.ext ?_ rfl)⟩
  change Out.logits [[mean [fun _ => w (expertPos m 0)] 0, 0]] = _
  simp [mean]

/-- The label: class 0. -/
def exLabel : Row 2 := fun c => if c = 0 then 1 else 0

theorem exMember (w : Fin (2 * 1) → ℝ) (m : Fin 2) (img : Image 1 1 1) :
    mainLoss "softmax_xent".toList [] ((member (M := 2) (n := 1) (exNet w) 1 m).run (fun i => ((exNet w).layers i).z m) [img]) [exLabel] =
      .ok (Real.log (Real.exp (w (expertPos m 0)) + 1) - w (expertPos m 0)) := by
  obtain ⟨ms, h⟩ := exRun w m img
  unfold mainLoss
  rw [h, show LossFn.getLossFn (C := 2) "softmax_xent".toList [] = .ok ⟨fun x y => LossFn.partialPlain [] (LossFn.softmaxCrossEntropy x y),
    fun x y => LossFn.partialPlain [] (LossFn.softmaxCrossEntropy x y), LossFn.defaultLabelPred⟩ from rfl]
  simp only
  have : LossFn.partialPlain [] (LossFn.softmaxCrossEntropy (logitRows 2 (Out.logits (r := 1) [[w (expertPos m 0), 0]])) [exLabel]) =
      .ok [softmaxXent (fun c : Fin 2 => [w (expertPos m 0), 0].getD c 0) exLabel] := rfl
  rw [this]
  simp [softmaxXent, logSoftmax, exLabel, Fin.sum_univ_two]

theorem exDeriv : HasDerivAt (fun t => Real.log (Real.exp t + 1) - t) (-1 / 2) 0 := by
  have h1 : HasDerivAt (fun t => Real.exp t + 1) (Real.exp 0) 0 := (Real.hasDerivAt_exp 0).add_const 1
  have h2 : HasDerivAt (fun t => Real.log (Real.exp t + 1) - t) (Real.exp 0 / (Real.exp 0 + 1) - 1) 0 :=
    (h1.log (by positivity)).sub (hasDerivAt_id (0 : ℝ))
  refine h2.congr_deriv ?_
  rw [Real.exp_zero]
  norm_num

/-- The loss of the ensemble is the mean of `log (exp w + 1) - w` for the two experts. -/
example (w : Fin (2 * 1) → ℝ) (img : Image 1 1 1) :
    mainLoss "ensemble_softmax_xent".toList [("ensemble_size".toList, 2)] ((exNet w).run [img]) [exLabel] =
      .ok ((∑ m : Fin 2, (Real.log (Real.exp (w (expertPos m 0)) + 1) - w (expertPos m 0))) / 2) := by
  have := C170_loss (exNet w) 1 (exNet_ok w) "softmax_xent".toList (.inl rfl) [img] [exLabel] _ fun m => exMember w m img
  exact_mod_cast this

/-- The loss of the ensemble at evaluation is at most the mean of the losses of the members. -/
example (w : Fin (2 * 1) → ℝ) (img : Image 1 1 1) : ∃ g out ev,
    LossFn.getLossFn "ensemble_softmax_xent".toList [("ensemble_size".toList, 2)] = .ok g ∧ (exNet w).run [img] = .ok (out, ()) ∧
      g.eval (logitRows 2 out) [exLabel] = .ok [ev] ∧
      ev ≤ (∑ m : Fin 2, softmaxXent (fun c : Fin 2 => [w (expertPos m 0), 0].getD c 0) exLabel) / 2 := by
  choose ms h using fun m => exRun w m img
  obtain ⟨g, out, ev, h1, h2, h3, h4, h5⟩ := C170_evaluation (exNet w) 1 (exNet_ok w) "softmax_xent".toList (.inl rfl) [img] [exLabel]
    (by
      intro y hy c
      rw [List.mem_singleton.1 hy]
      unfold exLabel
      split_ifs <;> norm_num) _ ms
    (fun m => [softmaxXent (fun c : Fin 2 => [w (expertPos m 0), 0].getD c 0) exLabel]) h _ rfl (fun m => rfl)
  obtain ⟨e, rfl⟩ := List.length_eq_one_iff.1 h4
  refine ⟨g, out, e, h1, h2, h3, ?_⟩
  have := h5 0 (by simp) (fun _ => by simp)
  simpa using this

/-- Both experts move from 0 on: the derivative is -1/2, as for each member. -/
example (img : Image 1 1 1) : ∃ L : ℝ → ℝ, (∀ᶠ t in 𝓝 0,
      mainLoss "ensemble_softmax_xent".toList [("ensemble_size".toList, 2)] ((exNet fun _ => t).run [img]) [exLabel] = .ok (L t)) ∧
    HasDerivAt L (-1 / 2) 0 := by
  have := C170_gradient (fun t => exNet fun _ => t) 1 (fun _ => exNet_ok _) "softmax_xent".toList (.inl rfl) [img] [exLabel] 0
    (fun _ t => Real.log (Real.exp t + 1) - t) (fun _ => -1 / 2) (fun m => Eventually.of_forall fun t => exMember _ m img)
    (fun _ => exDeriv)
  obtain ⟨L, h1, h2⟩ := this
  refine ⟨L, h1, h2.congr_deriv ?_⟩
  rw [Fin.sum_univ_two]
  norm_num

/-- Only the expert of the first member moves: the derivative is half of that of the member. -/
example (img : Image 1 1 1) : ∃ L : ℝ → ℝ, (∀ᶠ t in 𝓝 0,
      mainLoss "ensemble_softmax_xent".toList [("ensemble_size".toList, 2)]
        ((exNet fun e => if e = 0 then t else 5).run [img]) [exLabel] = .ok (L t)) ∧
    HasDerivAt L (-1 / 4) 0 := by
  have := C170_own (M := 2) (n := 1) (exNet fun e => if e = 0 then 0 else 5)
    (fun t _ => ⟨fun _ _ _ => 0, fun e => if e = 0 then t else 5, fun _ _ _ _ => 0⟩) 1 (exNet_ok _) "softmax_xent".toList (.inl rfl) [img]
    [exLabel] 0 0 ?_ (fun m' _ => ⟨_, exMember _ m' img⟩) (fun t => Real.log (Real.exp t + 1) - t) (-1 / 2)
    (Eventually.of_forall fun t => exMember (fun e => if e = 0 then t else 5) 0 img) exDeriv
  · obtain ⟨L, h1, h2⟩ := this
    refine ⟨L, h1, ?_⟩
    convert h2 using 1
    norm_num
  · intro t i m' hm
    refine ⟨rfl, rfl, fun j => ?_⟩
    have : expertPos m' j ≠ (0 : Fin (2 * 1)) := by
      fin_cases m' <;> fin_cases j <;> first | exact absurd rfl hm | decide
    simp only [exNet, if_neg this]

/-- The same ensemble without MoE layers: training on two images fails. -/
example (w : Fin (2 * 1) → ℝ) (a b : Image 1 1 1) :
    mainLoss "ensemble_softmax_xent".toList [("ensemble_size".toList, 2)]
      (EnsembleNet.run { exNet w with numLayers := 0, moeLayers := [] } [a, b]) [exLabel, exLabel] = .error .typeError := by
  have hrun : ∃ q, visionTransformer (exNet w).params "gap".toList (some 2) none (encoder 1 (exCfg.plain 1)
      (fun _ => ⟨fun _ _ => 0, fun j => w (expertPos 0 j), fun _ _ _ => 0⟩ : Nat → MoeParams 1 1 ℝ) (exNet w).blocks (exNet w).dense
      meanAux id [0] 0 []) [a, b] = .ok q := ⟨_, rfl⟩
  obtain ⟨q, hq⟩ := hrun
  exact C170_no_moe { exNet w with numLayers := 0, moeLayers := [] } _ _ le_rfl rfl (by simp) "softmax_xent".toList (.inl rfl) [a, b]
    [exLabel, exLabel] le_rfl rfl q hq

end Verif.EnsembleLoss
