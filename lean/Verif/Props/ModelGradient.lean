import Verif.Proofs.ModelGradient
import Verif.Props.MicrostepGroups

/-!
C163: the total loss of a model with MoE layers is differentiable where no gates are tied.
-/

namespace Verif.ModelGradient

open Verif Verif.Spec Verif.Encoder Verif.Vit Verif.Vmoe Verif.ModelLoss Verif.BatchParts
open scoped Topology

variable {ph pw D c r H W T E : Nat} {P L Θ : Type} [NormedAddCommGroup Θ] [NormedSpace ℝ Θ] [NormedAddCommGroup P] [NormedSpace ℝ P]
  {θ₀ : Θ}

/-- The options of a model, and its parts as functions of parameters in `Θ`. -/
structure Family (Θ : Type) (ph pw D c r T E : Nat) (P : Type) where
  params : Θ → Params ph pw D c r
  classifier : List Char
  numClasses : Option Nat
  positionEmb : Option (Option PosEmb)
  cfg : MoeConfig c P
  kernel : Θ → Nat → Fin c → Fin E → ℝ
  experts : Θ → Nat → Fin E → P
  blocks : Θ → Nat → BlockFns (Seq T c)
  dense : Θ → Nat → Seq T c → Seq T c
  post : Θ → Seq T c → Seq T c
  posParams : Θ → List (Vec c)
  numLayers : Nat
  moeLayers : List Int

/-- The model with parameters `θ`. -/
def Family.net (F : Family Θ ph pw D c r T E P) (θ : Θ) : Net ph pw D c r T E P :=
  ⟨F.params θ, F.classifier, F.numClasses, F.positionEmb, F.cfg, F.kernel θ, F.experts θ, F.blocks θ, F.dense θ, F.post θ,
    F.posParams θ, F.numLayers, F.moeLayers⟩

/-- All layers other than the MoE layers, the experts and the loss are differentiable functions of their parameters and inputs,
the parameters of the routers and the embeddings are differentiable in `θ` (usually they are components of it), and nothing is
rounded. -/
structure Family.Smooth (F : Family Θ ph pw D c r T E P) (loss : List ℝ ⊕ Vec r → L → ℝ) : Prop where
  unrounded : Unrounded F.cfg.router
  cdf : Differentiable ℝ F.cfg.cdf
  cdf_lt : ∀ a, F.cfg.cdf a < 1
  mlp : Differentiable ℝ fun a : P × (Fin c → ℝ) => F.cfg.mlp a.1 a.2
  kernel : ∀ i, Differentiable ℝ fun θ => F.kernel θ i
  experts : ∀ i, Differentiable ℝ fun θ => F.experts θ i
  attn : ∀ i, Differentiable ℝ fun q : Θ × Seq T c => (F.blocks q.1 i).attn q.2
  norm : ∀ i, Differentiable ℝ fun q : Θ × Seq T c => (F.blocks q.1 i).norm q.2
  dense : ∀ i, Differentiable ℝ fun q : Θ × Seq T c => F.dense q.1 i q.2
  post : Differentiable ℝ fun q : Θ × Seq T c => F.post q.1 q.2
  patch : ∀ u v d f, Differentiable ℝ fun θ => (F.params θ).kernel u v d f
  bias : ∀ f, Differentiable ℝ fun θ => (F.params θ).bias f
  cls : Differentiable ℝ fun θ => (F.params θ).cls
  posLength : ∃ N, ∀ θ, (F.posParams θ).length = N
  pos : ∀ k, Differentiable ℝ fun θ => (F.posParams θ).getD k 0
  mapHead : Differentiable ℝ fun q : Θ × Seq T c => (F.params q.1).mapHead (List.ofFn q.2)
  preLogits : Differentiable ℝ fun q : Θ × Vec c => (F.params q.1).preLogits q.2
  features : F.numClasses = none ∨ F.numClasses = some 0 → ∀ label, Differentiable ℝ fun v : Vec r => loss (.inr v) label
  logits : ∀ n, F.numClasses = some (n + 1) → ∀ label,
    Differentiable ℝ fun q : Θ × Vec r => loss (.inl ((F.params q.1).head (n + 1) q.2)) label

/-- On these images and with this noise, the gates of no MoE layer of the model have ties. -/
def NoTiesOn (net : Net ph pw D c r T E P) (z : Nat → Nat → Nat → Nat → ℝ) (images : List (Image H W D)) : Prop :=
  ∀ pos x, encoderPosEmb net.positionEmb (convSize H ph) (convSize W pw) = .ok pos →
    ((images.map (tokens net.params net.classifier)).map fun l (t : Fin T) => l.getD t 0).mapM (addPos pos net.posParams) = .ok x →
    NoTiesAlong net.cfg (fun i => ⟨net.kernel i, net.experts i, z i⟩) net.blocks net.dense net.moeLayers (List.range net.numLayers) x

section embedding

theorem token_diff (F : Family Θ ph pw D c r T E P) (loss : List ℝ ⊕ Vec r → L → ℝ) (hF : F.Smooth loss) (image : Image H W D) (k : Nat) :
    Differentiable ℝ fun θ => (tokens (F.params θ) F.classifier image).getD k 0 := by
  have hx : ∀ k, Differentiable ℝ fun θ => ((List.range (convSize H ph * convSize W pw)).map
      (fun k => conv (F.params θ) image (k / convSize W pw) (k % convSize W pw))).getD k 0 := by
    intro k
    by_cases hk : k < convSize H ph * convSize W pw
    · have : (fun θ => ((List.range (convSize H ph * convSize W pw)).map
          (fun k => conv (F.params θ) image (k / convSize W pw) (k % convSize W pw))).getD k 0) =
          fun θ => conv (F.params θ) image (k / convSize W pw) (k % convSize W pw) := by
        funext θ
        rw [List.getD_eq_getElem _ _ (by simpa using hk)]
        simp
      rw [this]
      refine differentiable_pi.2 fun f => ?_
      unfold conv
      refine Differentiable.add ?_ (hF.bias f)
      exact Differentiable.fun_sum fun u _ => Differentiable.fun_sum fun v _ => Differentiable.fun_sum fun d _ =>
        (hF.patch u v d f).const_mul _
    · have : (fun θ => ((List.range (convSize H ph * convSize W pw)).map
          (fun k => conv (F.params θ) image (k / convSize W pw) (k % convSize W pw))).getD k 0) = fun _ => 0 := by
        funext θ
        rw [List.getD_eq_default]
        simpa using hk
      rw [this]
      exact differentiable_const _
  unfold tokens
  simp only
  split_ifs
  · cases k with
    | zero => simpa using hF.cls
    | succ k => simpa using hx k
  · exact hx k

theorem getD_zipWith {n : Nat} (v : Fin n → Vec c) (p : List (Vec c)) (t : Fin n) :
    (List.zipWith (· + ·) (List.ofFn v) p).getD t 0 = if (t : Nat) < p.length then v t + p.getD t 0 else 0 := by
  split_ifs with h
  · rw [List.getD_eq_getElem _ _ (by simp [h]), List.getD_eq_getElem _ _ h]
    simp
  · rw [List.getD_eq_default]
    simp only [List.length_zipWith, List.length_ofFn]
    omega

/-- Adding the position embedding, learned or fixed. -/
theorem pos_diff (pos : Option (Option PosEmb)) (pe : Θ → List (Vec c)) (N : Nat) (hN : ∀ θ, (pe θ).length = N)
    (hpe : ∀ k, Differentiable ℝ fun θ => (pe θ).getD k 0) (v : Θ → Seq T c) (hv : Differentiable ℝ v) (y0)
    (h : addPos pos (pe θ₀) (v θ₀) = .ok y0) : ∃ e : Θ → Seq T c, Differentiable ℝ e ∧ ∀ θ, addPos pos (pe θ) (v θ) = .ok (e θ) := by
  have hvt : ∀ t, Differentiable ℝ fun θ => v θ t := fun t => differentiable_pi.1 hv t
  have hadd : ∀ (q : Θ → List (Vec c)) (M : Nat), (∀ θ, (q θ).length = M) → (∀ k, Differentiable ℝ fun θ => (q θ).getD k 0) →
      Differentiable ℝ fun θ (t : Fin T) => (List.zipWith (· + ·) (List.ofFn (v θ)) (q θ)).getD t 0 := by
    intro q M hM hq
    refine differentiable_pi.2 fun t => ?_
    simp only [getD_zipWith, hM]
    split_ifs
    · exact (hvt t).add (hq t)
    · exact differentiable_const _
  unfold addPos addPositionEmb at h ⊢
  simp only [List.length_ofFn] at h ⊢
  by_cases h1 : ((pos.getD none).getD {}).name.getD "learned".toList = "none".toList
  · simp only [if_pos h1]
    refine ⟨v, hv, fun θ => ?_⟩
    congr 1
    funext t
    simp
  simp only [if_neg h1] at h ⊢
  by_cases h2 : ((pos.getD none).getD {}).name.getD "learned".toList = "learned".toList
  · simp only [if_pos h2]
    exact ⟨_, hadd pe N hN hpe, fun θ => rfl⟩
  simp only [if_neg h2] at h ⊢
  by_cases h3 : ((pos.getD none).getD {}).name.getD "learned".toList = "sincos2d".toList
  swap
  · rw [if_neg h3] at h; cases h
  simp only [if_pos h3] at h ⊢
  rcases hh : ((pos.getD none).getD {}).h with _ | a
  · rw [hh] at h; cases h
  rcases hw : ((pos.getD none).getD {}).w with _ | b
  · rw [hh, hw] at h; cases h
  rw [hh, hw] at h
  simp only at h ⊢
  by_cases h4 : c % 4 ≠ 0 ∨ c < 8
  · rw [if_pos h4] at h; cases h
  simp only [if_neg h4] at h ⊢
  by_cases h5 : T = a * b
  · simp only [if_pos h5]
    exact ⟨_, hadd (fun _ => posembed (((pos.getD none).getD {}).temperature.getD defaultTemperature) a b c) _ (fun _ => rfl)
      (fun k => differentiable_const _), fun θ => rfl⟩
  simp only [if_neg h5] at h ⊢
  by_cases h6 : T = a * b + 1
  swap
  · rw [if_neg h6] at h; cases h
  simp only [if_pos h6]
  refine ⟨_, ?_, fun θ => rfl⟩
  subst h6
  refine differentiable_pi.2 fun t => ?_
  have hsplit : ∀ θ, (List.ofFn (v θ)).take 1 = [v θ 0] ∧ (List.ofFn (v θ)).drop 1 = List.ofFn fun i : Fin (a * b) => v θ i.succ := by
    intro θ
    rw [List.ofFn_succ]
    exact ⟨rfl, rfl⟩
  simp only [(hsplit _).1, (hsplit _).2, List.cons_append, List.nil_append]
  refine Fin.cases ?_ (fun i => ?_) t
  · simpa using hvt 0
  · simp only [Fin.val_succ, List.getD_cons_succ, getD_zipWith]
    split_ifs
    · exact (hvt i.succ).add_const _
    · exact differentiable_const _

end embedding

theorem mapM_ok {A V : Type} (f : A → Except PyErr V) (l : List A) (y : List V) (h : l.mapM f = .ok y) :
    ∀ a ∈ l, ∃ v, f a = .ok v := by
  induction l generalizing y with
  | nil => simp
  | cons b l ih =>
    rw [List.mapM_cons] at h
    obtain ⟨v, hv, h⟩ := ebind h
    obtain ⟨w, hw, h⟩ := ebind h
    intro a ha
    rcases List.mem_cons.1 ha with rfl | ha
    · exact ⟨v, hv⟩
    · exact ih w hw a ha

/-- The row of the output for a sequence after the encoder (for a classifier that is one of the four names). -/
noncomputable def row (net : Net ph pw D c r T E P) (v : Seq T c) : List ℝ ⊕ Vec r :=
  let pooled : Vec c :=
    if net.classifier = "token".toList ∨ net.classifier = "0".toList then (List.ofFn v).headD 0
    else if net.classifier = "gap".toList then Vit.mean (List.ofFn v)
    else net.params.mapHead (List.ofFn v)
  match net.numClasses with
  | none => .inr (net.params.preLogits pooled)
  | some 0 => .inr (net.params.preLogits pooled)
  | some (n + 1) => .inl (net.params.head (n + 1) (net.params.preLogits pooled))

theorem row_diff (F : Family Θ ph pw D c r T E P) (loss : List ℝ ⊕ Vec r → L → ℝ) (hF : F.Smooth loss) (label : L) :
    Differentiable ℝ fun q : Θ × Seq T c => loss (row (F.net q.1) q.2) label := by
  have hpool : Differentiable ℝ fun q : Θ × Seq T c =>
      if F.classifier = "token".toList ∨ F.classifier = "0".toList then (List.ofFn q.2).headD 0
      else if F.classifier = "gap".toList then Vit.mean (List.ofFn q.2)
      else (F.params q.1).mapHead (List.ofFn q.2) := by
    split_ifs
    · rcases T with _ | T
      · simp
      · simp only [List.ofFn_succ, List.headD_cons]
        exact differentiable_pi.1 differentiable_snd 0
    · refine differentiable_pi.2 fun f => ?_
      unfold Vit.mean
      simp only [List.map_ofFn, List.sum_ofFn, List.length_ofFn]
      intro q
      refine diff_div_const (DifferentiableAt.fun_sum fun t _ => ?_) _
      exact differentiableAt_pi.1 (differentiableAt_pi.1 differentiableAt_snd t) f
    · exact hF.mapHead
  have hpre := hF.preLogits.comp (differentiable_fst.prodMk hpool)
  unfold row
  rcases hn : F.numClasses with _ | _ | n
  · have e : ∀ θ, (F.net θ).numClasses = none := fun θ => hn
    simp only [e]
    exact (hF.features (Or.inl hn) label).comp hpre
  · have e : ∀ θ, (F.net θ).numClasses = some 0 := fun θ => hn
    simp only [e]
    exact (hF.features (Or.inr hn) label).comp hpre
  · have e : ∀ θ, (F.net θ).numClasses = some (n + 1) := fun θ => hn
    simp only [e]
    exact (hF.logits n hn label).comp (differentiable_fst.prodMk hpre)

/-- C163.  If the total loss of a batch can be computed with parameters `θ₀`, and in no MoE layer the gates have ties, then it can
be computed with all parameters and is differentiable at `θ₀`: the routing, the places in the experts and the auxiliary losses do
not keep it from having a gradient. -/
theorem C163_differentiable (F : Family Θ ph pw D c r T E P) (loss : List ℝ ⊕ Vec r → L → ℝ) (hF : F.Smooth loss)
    (z : Nat → Nat → Nat → Nat → ℝ) (batch : List (Image H W D × L)) (θ₀ : Θ) (v : ℝ)
    (h : totalLoss (F.net θ₀) loss z batch = .ok v) (ht : NoTiesOn (F.net θ₀) z (batch.map Prod.fst)) :
    ∃ ℓ : Θ → ℝ, (∀ θ, totalLoss (F.net θ) loss z batch = .ok (ℓ θ)) ∧ DifferentiableAt ℝ ℓ θ₀ := by
  obtain ⟨N, hN⟩ := hF.posLength
  unfold totalLoss at h
  split at h
  · cases h
  rename_i o0 m0 h0
  clear h
  unfold Net.run visionTransformer at h0
  rcases hpos : encoderPosEmb F.positionEmb (convSize H ph) (convSize W pw) with err | pos
  · rw [show (F.net θ₀).positionEmb = F.positionEmb from rfl, hpos] at h0
    cases h0
  rw [show (F.net θ₀).positionEmb = F.positionEmb from rfl, hpos] at h0
  simp only at h0
  split at h0
  · cases h0
  rename_i x1 d1 e1
  have hcls : (F.classifier = "token".toList ∨ F.classifier = "0".toList) ∨ F.classifier = "gap".toList ∨
      F.classifier = "map".toList := by
    by_contra hc
    push Not at hc
    obtain ⟨c1, c2, c3⟩ := hc
    rw [show (F.net θ₀).classifier = F.classifier from rfl, if_neg (by tauto), if_neg c2, if_neg c3] at h0
    cases h0
  clear h0
  unfold encoder at e1
  split at e1
  · cases e1
  rename_i x2 d2 e2
  clear e1
  unfold encoderMoe at e2
  split at e2
  · cases e2
  rename_i x3 e3
  split at e2
  · cases e2
  rename_i x4 d4 e4
  clear e2
  have hx3 := ht pos x3 hpos e3
  have hmm : ∀ θ, ((List.map (tokens (F.params θ) F.classifier) (batch.map Prod.fst)).map fun l (t : Fin T) => l.getD t 0).mapM
      (addPos pos (F.posParams θ)) = (batch.map Prod.fst).mapM
        fun image => addPos pos (F.posParams θ) fun t => (tokens (F.params θ) F.classifier image).getD t 0 := by
    intro θ
    rw [List.mapM_map, List.mapM_map]
    rfl
  obtain ⟨f, hf, hfd⟩ := mapM_diff (θ₀ := θ₀)
    (fun θ image => addPos pos (F.posParams θ) fun t : Fin T => (tokens (F.params θ) F.classifier image).getD t 0) (batch.map Prod.fst) (by
      intro image himage
      have e3' := (hmm θ₀).symm.trans e3
      obtain ⟨y0, hy0⟩ := mapM_ok _ _ _ e3' image himage
      exact pos_diff (θ₀ := θ₀) pos F.posParams N hN hF.pos
        (fun θ t => (tokens (F.params θ) F.classifier image).getD t 0)
        (differentiable_pi.2 fun t => token_diff F loss hF image t) y0 hy0)
  have hx3' : x3 = f θ₀ := by
    have := ((hmm θ₀).symm.trans e3).symm.trans (hf θ₀)
    exact Except.ok.inj this
  subst hx3'
  obtain ⟨y, m, hym, hy, hm⟩ := loop_diff (θ₀ := θ₀) F.cfg hF.unrounded hF.cdf hF.cdf_lt hF.mlp z hF.kernel hF.experts hF.attn hF.norm
    hF.dense F.moeLayers (List.range F.numLayers) f (fun _ => []) hfd ⟨[], by simp, fun _ => rfl⟩ _ e4 hx3
  have hp := hy.map (fun θ v => F.post θ v) hF.post
  have hrun : ∀ θ, ∃ o, (F.net θ).run z (batch.map Prod.fst) = .ok (o, finalMetrics meanAux (m θ)) ∧
      Out.rows o = ((y θ).map (F.post θ)).map (row (F.net θ)) := by
    intro θ
    have henc : encoder T F.cfg (fun i => ⟨F.kernel θ i, F.experts θ i, z i⟩) (F.blocks θ) (F.dense θ) meanAux (F.post θ)
        (F.posParams θ) F.numLayers F.moeLayers pos ((batch.map Prod.fst).map (tokens (F.params θ) F.classifier)) =
        .ok (((y θ).map (F.post θ)).map List.ofFn, finalMetrics meanAux (m θ)) := by
      unfold encoder encoderMoe
      rw [hmm θ, hf θ]
      simp only
      rw [hym θ]
    unfold Net.run visionTransformer
    rw [show (F.net θ).positionEmb = F.positionEmb from rfl, hpos]
    simp only
    have henc' : encoder T (F.net θ).cfg (fun i => ⟨(F.net θ).kernel i, (F.net θ).experts i, z i⟩) (F.net θ).blocks (F.net θ).dense
        meanAux (F.net θ).post (F.net θ).posParams (F.net θ).numLayers (F.net θ).moeLayers pos
        ((batch.map Prod.fst).map (tokens (F.net θ).params (F.net θ).classifier)) = _ := henc
    rw [henc']
    simp only
    rw [show (F.net θ).classifier = F.classifier from rfl, show (F.net θ).numClasses = F.numClasses from rfl]
    have hrow : ∀ pool : List (Vec c) → Vec c, (∀ l, pool l = if F.classifier = "token".toList ∨ F.classifier = "0".toList then l.headD 0
        else if F.classifier = "gap".toList then Vit.mean l else (F.net θ).params.mapHead l) → ∀ x : List (Seq T c),
        Out.rows (finish (F.net θ).params.head F.numClasses (((x.map List.ofFn).map pool).map (F.net θ).params.preLogits)) =
          x.map (row (F.net θ)) := by
      intro pool hpool x
      rcases hn : F.numClasses with _ | _ | n <;>
        simp only [finish, Out.rows, List.map_map] <;> refine List.map_congr_left fun v _ => ?_ <;>
        simp only [Function.comp, hpool, row, show (F.net θ).numClasses = F.numClasses from rfl, hn,
          show (F.net θ).classifier = F.classifier from rfl]
    by_cases c1 : F.classifier = "token".toList ∨ F.classifier = "0".toList
    · simp only [if_pos c1]
      exact ⟨_, rfl, hrow (fun l => l.headD 0) (fun l => by rw [if_pos c1]) _⟩
    · by_cases c2 : F.classifier = "gap".toList
      · simp only [if_neg c1, if_pos c2]
        exact ⟨_, rfl, hrow Vit.mean (fun l => by rw [if_neg c1, if_pos c2]) _⟩
      · have c3 : F.classifier = "map".toList := by tauto
        simp only [if_neg c1, if_neg c2, if_pos c3]
        exact ⟨_, rfl, hrow (F.net θ).params.mapHead (fun l => by rw [if_neg c1, if_neg c2]) _⟩
  choose o ho hrows using hrun
  refine ⟨fun θ => (losses loss (o θ) (batch.map Prod.snd)).sum / (losses loss (o θ) (batch.map Prod.snd)).length +
    auxiliary (finalMetrics meanAux (m θ)), ?_, ?_⟩
  · intro θ
    unfold totalLoss
    rw [ho θ]
  · refine DifferentiableAt.add ?_ hm.total
    obtain ⟨h, hd, he⟩ := hp
    have hl : ∀ θ, losses loss (o θ) (batch.map Prod.snd) =
        List.ofFn fun i : Fin (batch.map Prod.fst).length => loss (row (F.net θ) (h θ i)) (batch.get (i.cast (by simp))).2 := by
      intro θ
      have he' : (y θ).map (F.post θ) = List.ofFn (h θ) := he θ
      rw [losses_rows, hrows, he']
      apply List.ext_getElem
      · simp
      · intro i h1 h2
        simp
    simp only [hl, List.sum_ofFn, List.length_ofFn]
    refine diff_div_const (DifferentiableAt.fun_sum fun i _ => ?_) _
    exact (row_diff F loss hF _ (θ₀, h θ₀ i)).fun_comp' θ₀ (differentiableAt_id.prodMk (differentiableAt_pi.1 hd i))

/-- C163.  So gradients are gradients of the loss that is reported: with the derivative `G` at `θ₀`, a small enough step in any
direction along which `G` is negative makes the total loss of the batch smaller, with the same noise. -/
theorem C163_descent (F : Family Θ ph pw D c r T E P) (loss : List ℝ ⊕ Vec r → L → ℝ) (hF : F.Smooth loss)
    (z : Nat → Nat → Nat → Nat → ℝ) (batch : List (Image H W D × L)) (θ₀ : Θ) (v : ℝ)
    (h : totalLoss (F.net θ₀) loss z batch = .ok v) (ht : NoTiesOn (F.net θ₀) z (batch.map Prod.fst)) :
    ∃ G : Θ →L[ℝ] ℝ, (∀ ℓ : Θ → ℝ, (∀ θ, totalLoss (F.net θ) loss z batch = .ok (ℓ θ)) → HasFDerivAt ℓ G θ₀) ∧
      ∀ d, G d < 0 → ∃ ε : ℝ, 0 < ε ∧ ∀ η : ℝ, 0 < η → η < ε → ∃ v', totalLoss (F.net (θ₀ + η • d)) loss z batch = .ok v' ∧ v' < v := by
  obtain ⟨ℓ, hℓ, hd⟩ := C163_differentiable F loss hF z batch θ₀ v h ht
  refine ⟨fderiv ℝ ℓ θ₀, ?_, ?_⟩
  · intro ℓ' hℓ'
    have : ℓ' = ℓ := funext fun θ => Except.ok.inj ((hℓ' θ).symm.trans (hℓ θ))
    rw [this]
    exact hd.hasFDerivAt
  · intro d hG
    have hv : ℓ θ₀ = v := Except.ok.inj ((hℓ θ₀).symm.trans h)
    have hl : HasDerivAt (fun η : ℝ => ℓ (θ₀ + η • d)) (fderiv ℝ ℓ θ₀ d) 0 := by
      have h1 : HasDerivAt (fun η : ℝ => θ₀ + η • d) d 0 := by
        simpa using ((hasDerivAt_id (0 : ℝ)).smul_const d).const_add θ₀
      have h2 : HasFDerivAt ℓ (fderiv ℝ ℓ θ₀) (θ₀ + (0 : ℝ) • d) := by simpa using hd.hasFDerivAt
      exact h2.comp_hasDerivAt 0 h1
    have h3 := hl.tendsto_slope_zero_right
    have h4 : ∀ᶠ η in 𝓝[>] (0 : ℝ), η⁻¹ • (ℓ (θ₀ + (0 + η) • d) - ℓ (θ₀ + (0 : ℝ) • d)) < 0 := h3.eventually_lt_const hG
    obtain ⟨ε, hε, h5⟩ := mem_nhdsGT_iff_exists_Ioo_subset.1 h4
    refine ⟨ε, hε, fun η h0 h1 => ⟨_, hℓ _, ?_⟩⟩
    have h6 : η⁻¹ • (ℓ (θ₀ + (0 + η) • d) - ℓ (θ₀ + (0 : ℝ) • d)) < 0 := h5 ⟨h0, h1⟩
    simp only [zero_add, zero_smul, add_zero, smul_eq_mul, hv] at h6
    have h7 : 0 < η⁻¹ := inv_pos.2 h0
    by_contra hn
    exact absurd h6 (not_lt.2 (mul_nonneg h7.le (by linarith)))

open BatchSpec Trainer MicrostepGroups in
/-- C163.  Microsteps: if the total loss of every microstep can be computed and there are no ties, and `fn` computes its value and its
derivative (`jax.value_and_grad`), then the accumulated gradient is the gradient of the total loss over the reordered batch. -/
theorem C163_microsteps {R : Type} (F : Family Θ ph pw D c r T E P) (loss : List ℝ ⊕ Vec r → L → ℝ) (hF : F.Smooth loss)
    (devices m n : Nat) (hdev : 0 < devices) (hm : 0 < m) (hn : 0 < n) (zs : Nat → Nat → Nat → Nat → Nat → ℝ)
    (batch : List (Image H W D × L)) (hlen : batch.length = n * m) (hd : devices ∣ batch.length)
    (hmd : m ∣ batch.length / devices) (θ : Θ) (hv : ∀ j < m, ∃ v, totalLoss (F.net θ) loss (zs j) (every m j batch) = .ok v)
    (ht : ∀ j < m, NoTiesOn (F.net θ) (zs j) ((every m j batch).map Prod.fst))
    (fn : GradFn Θ (Image H W D) L R (Θ →L[ℝ] ℝ) ℝ) (rs : Nat → R)
    (hfn : ∀ j < m, ∀ ℓ : Θ → ℝ, (∀ θ', totalLoss (F.net θ') loss (zs j) (every m j batch) = .ok (ℓ θ')) →
      fn θ (every m j (batch.map Prod.fst)) (every m j (batch.map Prod.snd)) (rs j) = .ok (fderiv ℝ ℓ θ, rs (j + 1), ℓ θ)) :
    ∃ (grad : Θ →L[ℝ] ℝ) (total : Θ → ℝ),
      accumulate devices fn (some (m : Int)) θ (batch.map Prod.fst) (batch.map Prod.snd) (rs 0) = .ok (grad, rs m, total θ) ∧
      (∀ θ', totalLoss (F.net θ') loss (allNoise (n * T / F.cfg.groupSize) zs) (reordered m batch) = .ok (total θ')) ∧
      HasFDerivAt total grad θ := by
  have hex : ∀ j, ∃ ℓ : Θ → ℝ, j < m →
      (∀ θ', totalLoss (F.net θ') loss (zs j) (every m j batch) = .ok (ℓ θ')) ∧ DifferentiableAt ℝ ℓ θ := by
    intro j
    by_cases hj : j < m
    · obtain ⟨v, hv⟩ := hv j hj
      obtain ⟨ℓ, h1, h2⟩ := C163_differentiable F loss hF (zs j) (every m j batch) θ v hv (ht j hj)
      exact ⟨ℓ, fun _ => ⟨h1, h2⟩⟩
    · exact ⟨fun _ => 0, fun h => absurd h hj⟩
  choose ℓ hℓ using hex
  exact C162_gradient F.net F.cfg.groupSize (fun _ => rfl) loss devices m n hdev hm hn zs batch hlen hd hmd ℓ
    (fun j hj => (hℓ j hj).1) θ (fun j => fderiv ℝ (ℓ j) θ) (fun j hj => (hℓ j hj).2.hasFDerivAt) fn rs
    fun j hj => hfn j hj (ℓ j) (hℓ j hj).1

/-! Non-vacuity: a model of two layers with one parameter `θ`, used by the head, the router, the experts, the dense layer and the
position embedding.  The first layer has two experts and all three auxiliary losses. -/

/-- Best expert only, noise, all losses with weight one, groups of two tokens, one place per expert. -/
noncomputable def exRouter : MoeBlock.RouterConfig :=
  ⟨1, 1, 1, 1, 1, ⟨"einsum", false, some 1, none, "ceil", none, false⟩, false⟩

noncomputable def exFamily : Family ℝ 1 1 1 1 1 2 2 ℝ where
  params := fun θ => ⟨fun _ _ _ _ => θ, fun _ => θ, 0, fun _ => 0, id, fun _ v => [θ * v 0]⟩
  classifier := "gap".toList
  numClasses := some 1
  positionEmb := none
  cfg := ⟨id, LoadNoise.normCdf, id, .topExperts exRouter, 2, 0, fun p v i => p * v i⟩
  kernel := fun θ _ _ e => θ * (e : Nat)
  experts := fun θ _ _ => θ
  blocks := fun θ _ => ⟨fun v => θ • v, id⟩
  dense := fun θ _ v => θ • v
  post := fun _ => id
  posParams := fun θ => [fun _ => θ, 0]
  numLayers := 2
  moeLayers := [0]

/-- Squared error of the logit. -/
def exLoss : List ℝ ⊕ Vec 1 → ℝ → ℝ
  | .inl l, y => (l.headD 0 - y) ^ 2
  | .inr v, y => (v 0 - y) ^ 2

theorem exSmooth : exFamily.Smooth exLoss where
  unrounded := rfl
  cdf := fun x => (LoadNoise.hasDerivAt_normCdf x).differentiableAt
  cdf_lt := LoadNoise.normCdf_lt_one
  mlp := by
    show Differentiable ℝ fun a : ℝ × (Fin 1 → ℝ) => fun i => a.1 * a.2 i
    fun_prop
  kernel := fun i => by
    show Differentiable ℝ fun (θ : ℝ) (_ : Fin 1) (e : Fin 2) => θ * ((e : Nat) : ℝ)
    fun_prop
  experts := fun i => by
    show Differentiable ℝ fun (θ : ℝ) (_ : Fin 2) => θ
    fun_prop
  attn := fun i => by
    show Differentiable ℝ fun q : ℝ × Seq 2 1 => q.1 • q.2
    fun_prop
  norm := fun i => differentiable_snd
  dense := fun i => by
    show Differentiable ℝ fun q : ℝ × Seq 2 1 => q.1 • q.2
    fun_prop
  post := differentiable_snd
  patch := fun _ _ _ _ => differentiable_id
  bias := fun _ => differentiable_id
  cls := differentiable_const _
  posLength := ⟨2, fun _ => rfl⟩
  pos := fun k => by
    match k with
    | 0 =>
      show Differentiable ℝ fun (θ : ℝ) (_ : Fin 1) => θ
      fun_prop
    | 1 => exact differentiable_const _
    | k + 2 => exact differentiable_const _
  mapHead := differentiable_const _
  preLogits := differentiable_snd
  features := fun _ y => by
    show Differentiable ℝ fun v : Fin 1 → ℝ => (v 0 - y) ^ 2
    fun_prop
  logits := fun n _ y => by
    show Differentiable ℝ fun q : ℝ × (Fin 1 → ℝ) => (q.1 * q.2 0 - y) ^ 2
    fun_prop

theorem exRuns (θ : ℝ) (z : Nat → Nat → Nat → Nat → ℝ) (batch : List (Image 2 1 1 × ℝ)) :
    ∃ v, totalLoss (exFamily.net θ) exLoss z batch = .ok v := by
  have hmoe : ∀ x : List (Seq 2 1), ∃ q, moeLayer (E := 2) exFamily.cfg ⟨exFamily.kernel θ 0, exFamily.experts θ 0, z 0⟩ x = .ok q := by
    intro x
    obtain ⟨out, m, h, -⟩ := MoeBlock.C72_block_output exFamily.cfg.fl exFamily.cfg.cdf exFamily.cfg.bf exRouter 2
      (exFamily.kernel θ 0) (z 0) exFamily.cfg.oob (exFamily.experts θ 0) exFamily.cfg.mlp x.get (by decide)
      ⟨x.length, Nat.mul_comm _ _⟩ (by decide) Nat.one_pos (by decide : 1 ≤ 2) (Or.inl rfl) 1 rfl
    refine ⟨(List.ofFn out, .topExperts _ m), ?_⟩
    have h' : MoeBlock.mlpMoeBlock exFamily.cfg.fl exFamily.cfg.cdf exFamily.cfg.bf exRouter exFamily.cfg.groupSize
      (exFamily.kernel θ 0) (z 0) exFamily.cfg.oob (exFamily.experts θ 0) exFamily.cfg.mlp x.get = .ok (out, m) := h
    unfold moeLayer
    rw [show exFamily.cfg.router = .topExperts exRouter from rfl]
    simp only
    rw [h']
    rfl
  have hpre : ∀ x : List (Seq 2 1), ∃ y, x.mapM (addPos none (exFamily.posParams θ)) = .ok y := by
    intro x
    refine ⟨_, DataPipeline.mapM_ok_eq
      (g := fun v (t : Fin 2) => (List.zipWith (· + ·) (List.ofFn v) (exFamily.posParams θ)).getD t 0) ?_⟩
    intro v _
    rfl
  have henc : ∀ x, ∃ y m, encoder 2 exFamily.cfg
      (fun i => ⟨exFamily.kernel θ i, exFamily.experts θ i, z i⟩) (exFamily.blocks θ) (exFamily.dense θ) meanAux
        (exFamily.post θ) (exFamily.posParams θ) 2 [0] none x = .ok (y, m) := by
    intro x
    unfold encoder encoderMoe
    obtain ⟨y, hy⟩ := hpre (x.map fun l t => l.getD t 0)
    rw [hy]
    simp only
    rw [show List.range 2 = [0, 1] from rfl, loop, if_pos (by simp)]
    unfold moeBlock
    simp only
    obtain ⟨⟨q, mq⟩, hq⟩ := hmoe ((attention (exFamily.blocks θ 0) y).map (exFamily.blocks θ 0).norm)
    rw [hq]
    simp only
    rw [loop, if_neg (by simp), loop]
    exact ⟨_, _, rfl⟩
  obtain ⟨y, m, hy⟩ := henc ((batch.map Prod.fst).map (tokens (exFamily.params θ) "gap".toList))
  unfold totalLoss Net.run visionTransformer
  rw [show encoderPosEmb (exFamily.net θ).positionEmb (convSize 2 1) (convSize 1 1) = .ok none from rfl]
  simp only
  have hy' : encoder 2 (exFamily.net θ).cfg (fun i => ⟨(exFamily.net θ).kernel i, (exFamily.net θ).experts i, z i⟩)
    (exFamily.net θ).blocks (exFamily.net θ).dense meanAux (exFamily.net θ).post (exFamily.net θ).posParams (exFamily.net θ).numLayers
    (exFamily.net θ).moeLayers none ((batch.map Prod.fst).map (tokens (exFamily.net θ).params (exFamily.net θ).classifier)) = _ := hy
  rw [hy', show (exFamily.net θ).classifier = "gap".toList from rfl]
  simp only
  rw [if_neg (by decide), if_pos trivial]
  exact ⟨_, rfl⟩

/-- With `θ = 1`, no noise drawn and images without negative values, there are no ties. -/
theorem exNoTies (images : List (Image 2 1 1)) (hpix : ∀ im ∈ images, ∀ a b d, 0 ≤ im a b d) :
    NoTiesOn (exFamily.net 1) (fun _ _ _ _ => 0) images := by
  intro pos x hp hx
  have hp' : pos = none := (Except.ok.inj hp).symm
  subst hp'
  have hpos : ∀ v ∈ x, ∀ t f, 0 < v t f := by
    rw [DataPipeline.mapM_ok_eq (f := addPos none (exFamily.net 1).posParams)
      (g := fun v (t : Fin 2) => (List.zipWith (· + ·) (List.ofFn v) (exFamily.posParams 1)).getD t 0) fun v _ => rfl] at hx
    have hx := (Except.ok.inj hx).symm
    subst hx
    intro v hv t f
    simp only [List.mem_map] at hv
    obtain ⟨_, ⟨_, ⟨im, him, rfl⟩, rfl⟩, rfl⟩ := hv
    have hc : ∀ i j : Nat, ∀ f, 0 < conv (exFamily.net 1).params im i j f := by
      intro i j f
      unfold conv pixel
      refine add_pos_of_nonneg_of_pos ?_ one_pos
      refine Finset.sum_nonneg fun u _ => Finset.sum_nonneg fun v _ => Finset.sum_nonneg fun d _ => mul_nonneg ?_ zero_le_one
      split_ifs
      · exact hpix im him _ _ _
      · exact le_rfl
    have htok : tokens (exFamily.net 1).params (exFamily.net 1).classifier im =
        [conv (exFamily.net 1).params im 0 0, conv (exFamily.net 1).params im 1 0] := by
      unfold tokens
      rw [show (exFamily.net 1).classifier = "gap".toList from rfl, if_neg (by decide)]
      rfl
    simp only [htok]
    match t with
    | 0 =>
      show 0 < conv (exFamily.net 1).params im 0 0 f + 1
      exact add_pos (hc 0 0 f) one_pos
    | 1 =>
      show 0 < conv (exFamily.net 1).params im 1 0 f + 0
      simpa using hc 1 0 f
  rw [show (exFamily.net 1).numLayers = 2 from rfl, show List.range 2 = [0, 1] from rfl, show (exFamily.net 1).moeLayers = [0] from rfl]
  unfold NoTiesAlong
  rw [if_pos (by simp)]
  refine ⟨?_, ?_⟩
  · have hy : ∀ v ∈ (attention ((exFamily.net 1).blocks 0) x).map ((exFamily.net 1).blocks 0).norm, ∀ t f, 0 < v t f := by
      intro v hv t f
      simp only [attention, List.mem_map] at hv
      obtain ⟨_, ⟨w, hw, rfl⟩, rfl⟩ := hv
      show 0 < ((1 : ℝ) • w + w) t f
      simpa using hpos w hw t f
    generalize (attention ((exFamily.net 1).blocks 0) x).map ((exFamily.net 1).blocks 0).norm = y at hy
    unfold NoTiesAt
    rw [show (exFamily.net 1).cfg.router = .topExperts exRouter from rfl]
    simp only
    intro hE g
    refine ⟨fun s => ?_, fun hb => by cases hb⟩
    have hlt : (g : Nat) * 2 + s < y.length * 2 := in_group (S := 2) ⟨y.length, Nat.mul_comm _ _⟩ g.2 s.2
    have htok : 0 < tokenOf y.get (g * 2 + s) 0 := by
      unfold tokenOf
      rw [dif_pos ⟨by omega, by omega⟩]
      exact hy _ (List.get_mem _ _) _ _
    have hl : ∀ e : Fin 2, (∑ h, tokenOf y.get (g * 2 + s) h * (exFamily.net 1).kernel 0 h e) + MoeBlock.usedStd exRouter 2 * 0 =
        tokenOf y.get (g * 2 + s) 0 * ((e : Nat) : ℝ) := by
      intro e
      show (∑ h, tokenOf y.get (g * 2 + s) h * (1 * ((e : Nat) : ℝ))) + _ = _
      simp
    intro a b hab
    unfold tokenGates at hab
    have hw : expWeights (fun e : Fin 2 => tokenOf y.get (g * 2 + s) 0 * ((e : Nat) : ℝ)) a =
        expWeights (fun e : Fin 2 => tokenOf y.get (g * 2 + s) 0 * ((e : Nat) : ℝ)) b := by
      have := hab
      change expWeights (fun e : Fin 2 => (∑ h, tokenOf y.get (g * 2 + s) h * (exFamily.net 1).kernel 0 h e) +
        MoeBlock.usedStd exRouter 2 * 0) a = expWeights (fun e : Fin 2 => (∑ h, tokenOf y.get (g * 2 + s) h *
        (exFamily.net 1).kernel 0 h e) + MoeBlock.usedStd exRouter 2 * 0) b at this
      simpa only [hl] using this
    by_contra hne
    have hval : (a : Nat) ≠ b := fun h => hne (Fin.ext h)
    rcases lt_or_gt_of_ne hval with h | h
    · exact absurd hw ((weights_lt _ a b).2 (mul_lt_mul_of_pos_left (by exact_mod_cast h) htok)).ne
    · exact absurd hw ((weights_lt _ b a).2 (mul_lt_mul_of_pos_left (by exact_mod_cast h) htok)).ne'
  · intro y m _
    unfold NoTiesAlong
    rw [if_neg (by simp)]
    trivial

example (batch : List (Image 2 1 1 × ℝ)) (hpix : ∀ im ∈ batch.map Prod.fst, ∀ a b d, 0 ≤ im a b d) :
    ∃ ℓ : ℝ → ℝ, (∀ θ, totalLoss (exFamily.net θ) exLoss (fun _ _ _ _ => 0) batch = .ok (ℓ θ)) ∧ DifferentiableAt ℝ ℓ 1 := by
  obtain ⟨v, hv⟩ := exRuns 1 (fun _ _ _ _ => 0) batch
  exact C163_differentiable exFamily exLoss exSmooth _ batch 1 v hv (exNoTies _ hpix)

example (batch : List (Image 2 1 1 × ℝ)) (hpix : ∀ im ∈ batch.map Prod.fst, ∀ a b d, 0 ≤ im a b d) (v : ℝ)
    (hv : totalLoss (exFamily.net 1) exLoss (fun _ _ _ _ => 0) batch = .ok v) :
    ∃ G : ℝ →L[ℝ] ℝ, ∀ d, G d < 0 → ∃ ε : ℝ, 0 < ε ∧ ∀ η : ℝ, 0 < η → η < ε →
      ∃ v', totalLoss (exFamily.net (1 + η • d)) exLoss (fun _ _ _ _ => 0) batch = .ok v' ∧ v' < v := by
  obtain ⟨G, -, h⟩ := C163_descent exFamily exLoss exSmooth _ batch 1 v hv (exNoTies _ hpix)
  exact ⟨G, h⟩

open BatchSpec Trainer MicrostepGroups in
/-- Two images in two microsteps; the state of the generator is the number of the microstep. -/
example (a b : Image 2 1 1 × ℝ) (hpix : ∀ im ∈ [a.1, b.1], ∀ i j d, 0 ≤ im i j d) :
    ∃ (fn : GradFn ℝ (Image 2 1 1) ℝ Nat (ℝ →L[ℝ] ℝ) ℝ) (grad : ℝ →L[ℝ] ℝ) (total : ℝ → ℝ),
      accumulate 1 fn (some 2) 1 [a.1, b.1] [a.2, b.2] 0 = .ok (grad, 2, total 1) ∧
      (∀ θ, totalLoss (exFamily.net θ) exLoss (allNoise 1 fun _ _ _ _ _ => 0) (reordered 2 [a, b]) = .ok (total θ)) ∧
      HasFDerivAt total grad 1 := by
  have hr : ∀ j, ∃ ℓ : ℝ → ℝ, ∀ θ, totalLoss (exFamily.net θ) exLoss (fun _ _ _ _ => 0) (every 2 j [a, b]) = .ok (ℓ θ) := by
    intro j
    choose ℓ hℓ using fun θ => exRuns θ (fun _ _ _ _ => 0) (every 2 j [a, b])
    exact ⟨ℓ, hℓ⟩
  choose ℓ hℓ using hr
  refine ⟨fun θ _ _ j => .ok (fderiv ℝ (ℓ j) θ, j + 1, ℓ j θ), ?_⟩
  refine C163_microsteps exFamily exLoss exSmooth 1 2 1 one_pos two_pos one_pos (fun _ _ _ _ _ => 0) [a, b] rfl (one_dvd _) (by simp) 1
    (fun j _ => ⟨_, hℓ j 1⟩) (fun j hj => exNoTies _ ?_) _ id ?_
  · intro im him
    have : im ∈ [a.1, b.1] := by
      interval_cases j
      · simp [every, List.zipIdx] at him ⊢
        exact Or.inl him
      · simp [every, List.zipIdx] at him ⊢
        exact Or.inr him
    exact hpix im this
  · intro j _ ℓ' hℓ'
    have : ℓ' = ℓ j := funext fun θ => Except.ok.inj ((hℓ' θ).symm.trans (hℓ j θ))
    rw [this]
    rfl

/-! At a tie the total loss of a smooth model can jump. -/

/-- One token with value one, one layer with two experts of which the best one is used; the parameter is the logit of expert 1.
Expert 0 returns zero, expert 1 two. -/
noncomputable def exTie : Family ℝ 1 1 1 1 1 1 2 ℝ where
  params := fun _ => ⟨fun _ _ _ _ => 0, fun _ => 1, 0, fun _ => 0, id, fun _ v => [v 0]⟩
  classifier := "gap".toList
  numClasses := some 1
  positionEmb := none
  cfg := ⟨id, LoadNoise.normCdf, id, .topExperts RoutingStability.exCfg, 1, 0, RoutingStability.exMlp⟩
  kernel := fun θ _ _ e => θ * (e : Nat)
  experts := fun _ _ => ![-1, 1]
  blocks := fun _ _ => ⟨fun _ => 0, id⟩
  dense := fun _ _ => id
  post := fun _ => id
  posParams := fun _ => [0]
  numLayers := 1
  moeLayers := [0]

/-- The logit. -/
def exLogit : List ℝ ⊕ Vec 1 → ℝ → ℝ
  | .inl l, _ => l.headD 0
  | .inr v, _ => v 0

theorem exTie_smooth : exTie.Smooth exLogit where
  unrounded := rfl
  cdf := fun x => (LoadNoise.hasDerivAt_normCdf x).differentiableAt
  cdf_lt := LoadNoise.normCdf_lt_one
  mlp := by
    show Differentiable ℝ fun a : ℝ × (Fin 1 → ℝ) => fun i => a.1 + a.2 i
    fun_prop
  kernel := fun i => by
    show Differentiable ℝ fun (θ : ℝ) (_ : Fin 1) (e : Fin 2) => θ * ((e : Nat) : ℝ)
    fun_prop
  experts := fun i => differentiable_const _
  attn := fun i => differentiable_const _
  norm := fun i => differentiable_snd
  dense := fun i => differentiable_snd
  post := differentiable_snd
  patch := fun _ _ _ _ => differentiable_const _
  bias := fun _ => differentiable_const _
  cls := differentiable_const _
  posLength := ⟨1, fun _ => rfl⟩
  pos := fun k => by
    show Differentiable ℝ fun _ : ℝ => ([0] : List (Vec 1)).getD k 0
    exact differentiable_const _
  mapHead := differentiable_const _
  preLogits := differentiable_snd
  features := fun _ y => by
    show Differentiable ℝ fun v : Fin 1 → ℝ => v 0
    fun_prop
  logits := fun n _ y => by
    show Differentiable ℝ fun q : ℝ × (Fin 1 → ℝ) => q.2 0
    fun_prop

open RoutingStability in
/-- C163 needs the hypothesis about ties: the total loss of `exTie` is not even continuous at zero, where the two experts are tied. -/
theorem C163_tie_counterexample (image : Image 1 1 1) : ∃ ℓ : ℝ → ℝ,
    (∀ θ, totalLoss (exTie.net θ) exLogit (fun _ _ _ _ => 0) [(image, 0)] = .ok (ℓ θ)) ∧ ¬ ContinuousAt ℓ 0 := by
  have hb := fun θ : ℝ => MoeBlock.C72_block_output id LoadNoise.normCdf id exCfg 1 (exTie.kernel θ 0) (fun _ _ _ => 0)
    (0 : Fin 1 → ℝ) ![-1, 1] exMlp (fun (_ : Fin 1) (_ : Fin 1) (_ : Fin 1) => (1 : ℝ)) (by decide) (by decide) (by decide) (by decide)
    (by decide) (Or.inl rfl) 1 (by rfl)
  choose o m hrun hout using hb
  have hker : ∀ θ : ℝ, exTie.kernel θ 0 = fun _ => ![0, θ] := by
    intro θ
    funext i e
    show θ * ((e : Nat) : ℝ) = _
    fin_cases e <;> simp
  have hl : ∀ θ, totalLoss (exTie.net θ) exLogit (fun _ _ _ _ => 0) [(image, 0)] = .ok (1 + o θ 0 0 0) := by
    intro θ
    have hmoe : moeLayer (T := 1) (exTie.net θ).cfg ⟨(exTie.net θ).kernel 0, (exTie.net θ).experts 0, fun _ _ _ => 0⟩
        [fun _ _ => 1] = .ok (List.ofFn (o θ), .topExperts _ (m θ)) := by
      rw [layer_experts (n := 1) (exTie.net θ).cfg exCfg rfl _ (h := fun _ _ _ => 1) (by simp)]
      have h1 : MoeBlock.mlpMoeBlock (exTie.net θ).cfg.fl (exTie.net θ).cfg.cdf (exTie.net θ).cfg.bf exCfg (exTie.net θ).cfg.groupSize
        ((exTie.net θ).kernel 0) (fun _ _ _ => 0) (exTie.net θ).cfg.oob ((exTie.net θ).experts 0) (exTie.net θ).cfg.mlp
        (fun (_ : Fin 1) (_ : Fin 1) (_ : Fin 1) => (1 : ℝ)) = .ok (o θ, m θ) := hrun θ
      rw [h1]
      rfl
    have haux : meanAux (.topExperts _ (m θ)) = 0 := by
      unfold meanAux
      have : ∀ g, (m θ).auxiliaryLoss g = 0 := by
        intro g
        obtain ⟨-, -, a3, -⟩ := MoeBlock.C72_metrics _ _ _ _ _ _ _ _ _ _ _ _ _ (hrun θ) (by decide) g
        rw [(a3 (Or.inl rfl)).2]
        simp [exCfg]
      simp [this]
    have htok : tokens (exTie.net θ).params (exTie.net θ).classifier image = [fun _ => 1] := by
      unfold tokens
      rw [show (exTie.net θ).classifier = "gap".toList from rfl, if_neg (by decide)]
      show [conv (exTie.net θ).params image 0 0] = _
      congr 1
      funext f
      unfold conv
      show (∑ u : Fin 1, ∑ v : Fin 1, ∑ d : Fin 1, pixel image (0 * 1 + u) (0 * 1 + v) d * (0 : ℝ)) + 1 = 1
      simp
    have hpre : [fun (t : Fin 1) => ([fun _ => 1] : List (Vec 1)).getD t 0].mapM (addPos none (exTie.net θ).posParams) =
        .ok [fun _ _ => 1] := by
      show Except.ok [_] = _
      congr 2
      funext t f
      fin_cases t
      show (1 : ℝ) + 0 = 1
      norm_num
    have henc : encoder 1 (exTie.net θ).cfg (fun i => ⟨(exTie.net θ).kernel i, (exTie.net θ).experts i, fun _ _ _ => 0⟩)
        (exTie.net θ).blocks (exTie.net θ).dense meanAux (exTie.net θ).post (exTie.net θ).posParams (exTie.net θ).numLayers
        (exTie.net θ).moeLayers none [[fun _ => 1]] =
        .ok ([[fun f => 1 + o θ 0 0 f]], finalMetrics meanAux [(blockName 0, .topExperts _ (m θ))]) := by
      unfold encoder encoderMoe
      rw [show List.map (fun (l : List (Vec 1)) (t : Fin 1) => l.getD t 0) [[fun _ => 1]] =
        [fun (t : Fin 1) => ([fun _ => 1] : List (Vec 1)).getD t 0] from rfl, hpre]
      simp only
      rw [show (exTie.net θ).numLayers = 1 from rfl, show List.range 1 = [0] from rfl,
        show (exTie.net θ).moeLayers = [0] from rfl, loop, if_pos (by simp)]
      unfold moeBlock
      simp only
      have hatt : (attention ((exTie.net θ).blocks 0) [fun _ _ => 1]).map ((exTie.net θ).blocks 0).norm =
          [fun (_ : Fin 1) (_ : Fin 1) => (1 : ℝ)] := by
        show [(0 : Seq 1 1) + _] = _
        rw [zero_add]
      rw [hatt, hmoe]
      simp only
      rw [loop]
      have hsum : List.zipWith (· + ·) (attention ((exTie.net θ).blocks 0) [fun _ _ => 1]) (List.ofFn (o θ)) =
          [fun (_ : Fin 1) (f : Fin 1) => 1 + o θ 0 0 f] := by
        show [((0 : Seq 1 1) + _) + o θ 0] = _
        rw [zero_add]
        congr 1
        funext t f
        fin_cases t
        rfl
      rw [hsum]
      rfl
    unfold totalLoss Net.run visionTransformer
    rw [show encoderPosEmb (exTie.net θ).positionEmb (convSize 1 1) (convSize 1 1) = .ok none from rfl]
    simp only [List.map_cons, List.map_nil]
    rw [htok, henc]
    simp only
    rw [show (exTie.net θ).classifier = "gap".toList from rfl, if_neg (by decide), if_pos rfl]
    simp only
    rw [auxiliary_final]
    simp only [List.map_cons, List.map_nil, haux, List.sum_cons, List.sum_nil, add_zero]
    have : ∀ y, (Vit.mean ([fun f => y f] : List (Vec 1))) = y := by
      intro y
      funext f
      simp [Vit.mean]
    rw [this]
    show Except.ok ((1 + o θ 0 0 0 + 0) / ((1 : Nat) : ℝ)) = _
    simp
  refine ⟨_, hl, fun hc => ?_⟩
  have hval : ∀ θ, o θ 0 0 0 = ∑ e ∈ Finset.univ.filter (fun e => Kept (by decide : 0 < 2) false
        (tokenGates 1 (fun _ => ![0, θ]) (MoeBlock.usedStd exCfg 2) (fun _ _ _ => 0)
          (fun (_ : Fin 1) (_ : Fin 1) (_ : Fin 1) => (1 : ℝ)) 0) 1 1 0 e),
      tokenGates 1 (fun _ => ![0, θ]) (MoeBlock.usedStd exCfg 2) (fun _ _ _ => 0)
        (fun (_ : Fin 1) (_ : Fin 1) (_ : Fin 1) => (1 : ℝ)) 0 0 e * ((![-1, 1] : Fin 2 → ℝ) e + 1) := by
    intro θ
    rw [← hker θ]
    exact hout θ 0 0 0
  have h0 : o 0 0 0 0 = 0 := by
    rw [hval]
    apply Finset.sum_eq_zero
    intro e he
    simp only [Finset.mem_filter, Finset.mem_univ, true_and, exKept] at he
    have : e = 0 := by
      by_contra hne
      have h1 : e = 1 := by omega
      subst h1
      have := he 0
      simp only [exGates _ _ 0 rfl] at this
      exact this (Or.inr ⟨by simp, by decide⟩)
    subst this
    simp
  have h1 : ∀ θ : ℝ, 0 < θ → 1 ≤ o θ 0 0 0 := by
    intro ε hε
    have hpos : 1 < Real.exp ε := Real.one_lt_exp_iff.2 hε
    rw [hval]
    have hk : (Finset.univ.filter (fun e => Kept (by decide : 0 < 2) false
        (tokenGates 1 (fun _ => ![0, ε]) (MoeBlock.usedStd exCfg 2) (fun _ _ _ => 0)
          (fun (_ : Fin 1) (_ : Fin 1) (_ : Fin 1) => (1 : ℝ)) 0) 1 1 0 e)) = {1} := by
      ext e
      simp only [Finset.mem_filter, Finset.mem_univ, true_and, exKept, exGates _ _ 0 rfl, Finset.mem_singleton]
      constructor
      · intro he
        by_contra hne
        have h0 : e = 0 := by omega
        subst h0
        refine he 1 (Or.inl ?_)
        apply div_lt_div_of_pos_right _ (by positivity)
        simpa using hε
      · rintro rfl e' (h | h)
        · rw [div_lt_div_iff_of_pos_right (by positivity)] at h
          fin_cases e'
          · simp at h; linarith
          · simp at h
        · have h2 : e' = 0 := by omega
          subst h2
          have := h.1
          rw [div_left_inj' (by positivity)] at this
          simp at this
          linarith
    simp only [hk, Finset.sum_singleton, exGates _ _ 0 rfl]
    simp only [Matrix.cons_val_one, Matrix.cons_val_zero, mul_zero, one_mul, Real.exp_zero, Matrix.cons_val_fin_one]
    rw [div_mul_eq_mul_div, le_div_iff₀ (by positivity)]
    linarith
  have hlim := hc.tendsto.comp (tendsto_one_div_add_atTop_nhds_zero_nat (𝕜 := ℝ))
  rw [h0] at hlim
  have := ge_of_tendsto' hlim fun n => add_le_add_right (h1 (1 / ((n : ℝ) + 1)) (by positivity)) 1
  norm_num at this

end Verif.ModelGradient
