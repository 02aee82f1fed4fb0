import Verif.Model.SoftLoss
import Verif.Props.ModelGradient
import Verif.Props.SoftGradient
import Verif.Props.SoftModel

/-!
C166: the total loss of a model with the soft router has a gradient everywhere, and microsteps compute it.
-/

namespace Verif.SoftLoss

open Verif Verif.Spec Verif.Encoder Verif.Vit Verif.Vmoe Verif.BatchParts Verif.SoftModel
open Verif.ModelGradient (DiffList list_fn mapM_diff mapM_ok pos_diff token_diff row row_diff diff_div_const)

variable {ph pw D c r H W T p n : Nat} {P L Θ : Type} [NormedAddCommGroup Θ] [NormedSpace ℝ Θ] [NormedAddCommGroup P] [NormedSpace ℝ P]
  {θ₀ : Θ}

/-- The options of a model with the soft router, and its parts as functions of parameters in `Θ`.  `p` is the number of slots of an
expert. -/
structure Family (Θ : Type) (ph pw D c r T p : Nat) (P : Type) where
  params : Θ → Params ph pw D c r
  classifier : List Char
  numClasses : Option Nat
  positionEmb : Option (Option PosEmb)
  cfg : Config c P
  mu : Θ → Nat → Fin c → Fin cfg.router.numExperts → Fin p → ℝ
  scale : Θ → Nat → ℝ
  experts : Θ → Nat → Fin cfg.router.numExperts → P
  blocks : Θ → Nat → BlockFns (Seq T c)
  dense : Θ → Nat → Seq T c → Seq T c
  post : Θ → Seq T c → Seq T c
  posParams : Θ → List (Vec c)
  numLayers : Nat
  moeLayers : List Int

/-- The model with parameters `θ`. -/
noncomputable def Family.net (F : Family Θ ph pw D c r T p P) (θ : Θ) : Net ph pw D c r T P :=
  ⟨F.params θ, F.classifier, F.numClasses, F.positionEmb, F.cfg, fun i => SoftRouter.muOf (F.mu θ i), F.scale θ, F.experts θ,
    F.blocks θ, F.dense θ, F.post θ, F.posParams θ, F.numLayers, F.moeLayers⟩

/-- All layers other than the routers and the loss are differentiable functions of their parameters and inputs (the experts
continuously so), and the parameters of the routers and the embeddings are differentiable in `θ` (usually they are components of
it). -/
structure Family.Smooth (F : Family Θ ph pw D c r T p P) (loss : List ℝ ⊕ Vec r → L → ℝ) : Prop where
  eps : 0 < F.cfg.eps
  mlp : ContDiff ℝ 1 fun a : P × (Fin c → ℝ) => F.cfg.mlp a.1 a.2
  mu : ∀ i, Differentiable ℝ fun θ => F.mu θ i
  scale : ∀ i, Differentiable ℝ fun θ => F.scale θ i
  experts : ∀ i, Differentiable ℝ fun θ => F.experts θ i
  attn : ∀ i, Differentiable ℝ fun q : Θ × Seq T c => (F.blocks q.1 i).attn q.2
  norm : ∀ i, Differentiable ℝ fun q : Θ × Seq T c => (F.blocks q.1 i).norm q.2
  dense : ∀ i, Differentiable ℝ fun q : Θ × Seq T c => F.dense q.1 i q.2
  post : Differentiable ℝ fun q : Θ × Seq T c => F.post q.1 q.2
  patch : ∀ u v d f, Differentiable ℝ fun θ => (F.params θ).kernel u v d f
  bias : ∀ f, Differentiable ℝ fun θ => (F.params θ).bias f
  cls : Differentiable ℝ fun θ => (F.params θ).cls
  posLength : ∃ N, ∀ θ, (F.posParams θ).length = N
  pos : ∀ k, Differentiable ℝ fun θ => (F.posParams θ).getD k 0
  mapHead : Differentiable ℝ fun q : Θ × Seq T c => (F.params q.1).mapHead (List.ofFn q.2)
  preLogits : Differentiable ℝ fun q : Θ × Vec c => (F.params q.1).preLogits q.2
  features : F.numClasses = none ∨ F.numClasses = some 0 → ∀ label, Differentiable ℝ fun v : Vec r => loss (.inr v) label
  logits : ∀ n, F.numClasses = some (n + 1) → ∀ label,
    Differentiable ℝ fun q : Θ × Vec r => loss (.inl ((F.params q.1).head (n + 1) q.2)) label

/-- The same model with a trivial router, for what the embedding and the head have in common. -/
noncomputable def Family.base (F : Family Θ ph pw D c r T p P) : ModelGradient.Family Θ ph pw D c r T 0 ℝ where
  params := F.params
  classifier := F.classifier
  numClasses := F.numClasses
  positionEmb := F.positionEmb
  cfg := ⟨id, fun _ => 0, id, .topExperts ModelGradient.exRouter, 0, 0, fun _ v => v⟩
  kernel := fun _ _ _ _ => 0
  experts := fun _ _ _ => 0
  blocks := F.blocks
  dense := F.dense
  post := F.post
  posParams := F.posParams
  numLayers := F.numLayers
  moeLayers := F.moeLayers

theorem Family.Smooth.base {F : Family Θ ph pw D c r T p P} {loss : List ℝ ⊕ Vec r → L → ℝ} (hF : F.Smooth loss) :
    F.base.Smooth loss where
  unrounded := rfl
  cdf := differentiable_const _
  cdf_lt := fun _ => zero_lt_one
  mlp := differentiable_snd
  kernel := fun _ => differentiable_const _
  experts := fun _ => differentiable_const _
  attn := hF.attn
  norm := hF.norm
  dense := hF.dense
  post := hF.post
  patch := hF.patch
  bias := hF.bias
  cls := hF.cls
  posLength := hF.posLength
  pos := hF.pos
  mapHead := hF.mapHead
  preLogits := hF.preLogits
  features := hF.features
  logits := hF.logits

section layer

/-- The layer on `n` sequences. -/
noncomputable def block (cfg : Config c P) (q : LayerParams cfg.router.numExperts P) (x : Fin n → Seq T c) :
    Except PyErr (Fin n → Seq T c) := do
  let groups ← MoeBlock.regroup x cfg.groupSize
  let outputs ← SoftRouter.layer cfg.fl cfg.eps cfg.router q.mu q.scale q.rng q.experts cfg.mlp groups
  MoeBlock.ungroup (B := n) (T := T) outputs

omit [NormedAddCommGroup P] [NormedSpace ℝ P] in
theorem moeLayer_fn (cfg : Config c P) (q : LayerParams cfg.router.numExperts P) {l : List (Seq T c)} {h : Fin n → Seq T c}
    (hl : l = List.ofFn h) : moeLayer cfg q l = (block cfg q h >>= fun y => .ok (List.ofFn y, 0)) := by
  obtain ⟨hn, rfl⟩ := list_fn hl
  subst hn
  unfold SoftModel.moeLayer block
  simp only [bind_assoc]
  rfl

theorem block_diff (cfg : Config c P) (he : 0 < cfg.eps) (hmlp : ContDiff ℝ 1 fun a : P × (Fin c → ℝ) => cfg.mlp a.1 a.2)
    (rng : Option SoftRouter.Normal) {mu : Θ → Fin c → Fin cfg.router.numExperts → Fin p → ℝ} {scale : Θ → ℝ}
    {experts : Θ → Fin cfg.router.numExperts → P} (hmu : DifferentiableAt ℝ mu θ₀) (hsc : DifferentiableAt ℝ scale θ₀)
    (hp : DifferentiableAt ℝ experts θ₀) {x : Θ → Fin n → Seq T c} (hx : DifferentiableAt ℝ x θ₀) (y0)
    (h : block cfg ⟨SoftRouter.muOf (mu θ₀), scale θ₀, experts θ₀, rng⟩ (x θ₀) = .ok y0) :
    ∃ y : Θ → Fin n → Seq T c, (∀ θ, block cfg ⟨SoftRouter.muOf (mu θ), scale θ, experts θ, rng⟩ (x θ) = .ok (y θ)) ∧
      DifferentiableAt ℝ y θ₀ := by
  unfold block at h
  obtain ⟨xg, h1, h⟩ := ebind h
  obtain ⟨yg, h2, -⟩ := ebind h
  have hS : 0 < cfg.groupSize ∧ n * T % cfg.groupSize = 0 := by
    by_contra hn
    unfold MoeBlock.regroup at h1
    rw [dif_neg hn] at h1
    cases h1
  obtain ⟨hp', -, -, hr⟩ := (SoftRouter.C100_runs _ _ _ _ _ _ _ _ _).1 ⟨yg, h2⟩
  obtain ⟨F, hF, hFd⟩ := SoftRouter.C156_smooth (G := n * T / cfg.groupSize) (p := p) (k := 1) cfg.fl cfg.eps he cfg.router rng hp' hr
    cfg.mlp hmlp
  have hreg : ∀ θ, ∃ w, MoeBlock.regroup (x θ) cfg.groupSize = .ok w := by
    intro θ
    unfold MoeBlock.regroup
    rw [dif_pos hS]
    exact ⟨_, rfl⟩
  choose w hw using hreg
  have hwd : DifferentiableAt ℝ w θ₀ := by
    refine differentiableAt_pi.2 fun g => differentiableAt_pi.2 fun s => ?_
    have e : (fun θ => w θ g s) = fun θ => tokenOf (x θ) (g * cfg.groupSize + s) := by
      funext θ
      have := hw θ
      rw [MoeBlock.regroup_eq (x θ) cfg.groupSize hS.1 (Nat.dvd_of_mod_eq_zero hS.2)] at this
      rw [← Except.ok.inj this]
    rw [e]
    exact differentiableAt_pi.2 fun f => ModelGradient.diff_token hx _ f
  refine ⟨fun θ b t => F (experts θ, scale θ, mu θ, w θ)
    ((Moe.rowMajor b t).cast (Nat.div_mul_cancel (Nat.dvd_of_mod_eq_zero hS.2)).symm).divNat
    ((Moe.rowMajor b t).cast (Nat.div_mul_cancel (Nat.dvd_of_mod_eq_zero hS.2)).symm).modNat, ?_, ?_⟩
  · intro θ
    unfold block
    rw [hw θ]
    change (SoftRouter.layer cfg.fl cfg.eps cfg.router (SoftRouter.muOf (mu θ)) (scale θ) rng (experts θ) cfg.mlp (w θ) >>= _ :
      Except PyErr _) = _
    rw [hF (experts θ, scale θ, mu θ, w θ)]
    change MoeBlock.ungroup _ = _
    unfold MoeBlock.ungroup
    rw [dif_pos hS]
  · have hd : DifferentiableAt ℝ (fun θ => F (experts θ, scale θ, mu θ, w θ)) θ₀ :=
      ((hFd.differentiable (by simp)) _).fun_comp' θ₀ (hp.prodMk (hsc.prodMk (hmu.prodMk hwd)))
    exact differentiableAt_pi.2 fun b => differentiableAt_pi.2 fun t => differentiableAt_pi.1 (differentiableAt_pi.1 hd _) _

/-- A layer with the soft router, as a function of its parameters and inputs. -/
theorem layer_diff (cfg : Config c P) (he : 0 < cfg.eps) (hmlp : ContDiff ℝ 1 fun a : P × (Fin c → ℝ) => cfg.mlp a.1 a.2)
    (rng : Option SoftRouter.Normal) {mu : Θ → Fin c → Fin cfg.router.numExperts → Fin p → ℝ} {scale : Θ → ℝ}
    {experts : Θ → Fin cfg.router.numExperts → P} (hmu : DifferentiableAt ℝ mu θ₀) (hsc : DifferentiableAt ℝ scale θ₀)
    (hp : DifferentiableAt ℝ experts θ₀) {f : Θ → List (Seq T c)} (hf : DiffList θ₀ n f) (res)
    (h : moeLayer cfg ⟨SoftRouter.muOf (mu θ₀), scale θ₀, experts θ₀, rng⟩ (f θ₀) = .ok res) :
    ∃ y : Θ → List (Seq T c), (∀ θ, moeLayer cfg ⟨SoftRouter.muOf (mu θ), scale θ, experts θ, rng⟩ (f θ) = .ok (y θ, 0)) ∧
      DiffList θ₀ n y := by
  obtain ⟨x, hx, hfx⟩ := hf
  rw [moeLayer_fn cfg _ (hfx θ₀)] at h
  obtain ⟨y0, h0, -⟩ := ebind h
  obtain ⟨y, hy, hyd⟩ := block_diff (θ₀ := θ₀) cfg he hmlp rng hmu hsc hp hx y0 h0
  refine ⟨fun θ => List.ofFn (y θ), fun θ => ?_, y, hyd, fun _ => rfl⟩
  rw [moeLayer_fn cfg _ (hfx θ), hy θ]
  rfl

theorem loop_diff (cfg : Config c P) (he : 0 < cfg.eps) (hmlp : ContDiff ℝ 1 fun a : P × (Fin c → ℝ) => cfg.mlp a.1 a.2)
    (rng : Nat → Option SoftRouter.Normal) {mu : Θ → Nat → Fin c → Fin cfg.router.numExperts → Fin p → ℝ} {scale : Θ → Nat → ℝ}
    {experts : Θ → Nat → Fin cfg.router.numExperts → P} (hmu : ∀ i, Differentiable ℝ fun θ => mu θ i)
    (hsc : ∀ i, Differentiable ℝ fun θ => scale θ i) (hp : ∀ i, Differentiable ℝ fun θ => experts θ i)
    {blocks : Θ → Nat → BlockFns (Seq T c)} {dense : Θ → Nat → Seq T c → Seq T c}
    (hattn : ∀ i, Differentiable ℝ fun q : Θ × Seq T c => (blocks q.1 i).attn q.2)
    (hnorm : ∀ i, Differentiable ℝ fun q : Θ × Seq T c => (blocks q.1 i).norm q.2)
    (hdense : ∀ i, Differentiable ℝ fun q : Θ × Seq T c => dense q.1 i q.2) (ids : List Int) (l : List Nat) :
    ∀ (f : Θ → List (Seq T c)) (d : PyDict (List Char) ℝ), DiffList θ₀ n f → (∀ e ∈ d, e.2 = 0) → ∀ res,
      loop ⟨blocks θ₀, dense θ₀, fun i => moeLayer cfg ⟨SoftRouter.muOf (mu θ₀ i), scale θ₀ i, experts θ₀ i, rng i⟩⟩ ids l (f θ₀) d =
        .ok res →
      ∃ (y : Θ → List (Seq T c)) (m : PyDict (List Char) ℝ),
        (∀ θ, loop ⟨blocks θ, dense θ, fun i => moeLayer cfg ⟨SoftRouter.muOf (mu θ i), scale θ i, experts θ i, rng i⟩⟩ ids l (f θ) d =
          .ok (y θ, m)) ∧ DiffList θ₀ n y ∧ ∀ e ∈ m, e.2 = 0 := by
  induction l with
  | nil =>
    intro f d hf hd res _
    exact ⟨f, d, fun θ => by rw [loop], hf, hd⟩
  | cons b rest ih =>
    intro f d hf hd res h
    have hatt : DiffList θ₀ n fun θ => attention (blocks θ b) (f θ) :=
      hf.map (fun θ v => (blocks θ b).attn v + v) ((hattn b).add differentiable_snd)
    have hno : DiffList θ₀ n fun θ => (attention (blocks θ b) (f θ)).map (blocks θ b).norm :=
      hatt.map (fun θ v => (blocks θ b).norm v) (hnorm b)
    rw [loop] at h
    by_cases hb : (b : Int) ∈ ids
    · rw [if_pos hb] at h
      simp only at h
      split at h
      · cases h
      rename_i x1 m1 e1
      have e1' := e1
      unfold moeBlock at e1'
      simp only at e1'
      split at e1'
      · cases e1'
      rename_i x2 m2 e2
      obtain ⟨y, hym, hy⟩ := layer_diff (θ₀ := θ₀) cfg he hmlp (rng b) ((hmu b) θ₀) ((hsc b) θ₀) ((hp b) θ₀) hno _ e2
      have hblock : ∀ θ, moeBlock (blocks θ b) (moeLayer cfg ⟨SoftRouter.muOf (mu θ b), scale θ b, experts θ b, rng b⟩) (f θ) =
          .ok (List.zipWith (· + ·) (attention (blocks θ b) (f θ)) (y θ), 0) := by
        intro θ
        unfold moeBlock
        simp only
        rw [hym θ]
      have h0 := hblock θ₀
      rw [e1] at h0
      cases h0
      obtain ⟨y', m', hym', hy', hm'⟩ := ih (fun θ => List.zipWith (· + ·) (attention (blocks θ b) (f θ)) (y θ))
        (d.set (blockName b) 0) (hatt.add hy) (by
          intro e hmem
          rcases mem_set _ _ _ _ hmem with h | h
          · exact hd e h
          · rw [h]) _ h
      refine ⟨y', m', ?_, hy', hm'⟩
      intro θ
      rw [loop, if_pos hb]
      simp only
      rw [hblock θ]
      exact hym' θ
    · rw [if_neg hb] at h
      obtain ⟨y', m', hym', hy', hm'⟩ := ih (fun θ => denseBlock (blocks θ b) (dense θ b) (f θ)) d
        (hatt.add (hno.map (fun θ v => dense θ b v) (hdense b))) hd _ h
      refine ⟨y', m', ?_, hy', hm'⟩
      intro θ
      rw [loop, if_neg hb]
      exact hym' θ

end layer

theorem auxiliary_zero (d : PyDict (List Char) ℝ) (h : ∀ e ∈ d, e.2 = 0) : auxiliary (finalMetrics id d) = 0 := by
  unfold auxiliary finalMetrics
  rw [PyDict.get?_set, if_pos rfl]
  simp only [id]
  exact List.sum_eq_zero fun x hx => by
    obtain ⟨e, he, rfl⟩ := List.mem_map.1 hx
    exact h e he

theorem diff_at (F : Family Θ ph pw D c r T p P) (loss : List ℝ ⊕ Vec r → L → ℝ) (hF : F.Smooth loss)
    (rng : Nat → Option SoftRouter.Normal) (batch : List (Image H W D × L)) (θ₀ : Θ) (v : ℝ)
    (h : totalLoss (F.net θ₀) loss rng batch = .ok v) :
    ∃ ℓ : Θ → ℝ, (∀ θ, totalLoss (F.net θ) loss rng batch = .ok (ℓ θ)) ∧ DifferentiableAt ℝ ℓ θ₀ := by
  obtain ⟨N, hN⟩ := hF.posLength
  unfold totalLoss at h
  split at h
  · cases h
  rename_i o0 m0 h0
  clear h
  unfold Net.run visionTransformer at h0
  rcases hpos : encoderPosEmb F.positionEmb (convSize H ph) (convSize W pw) with err | pos
  · rw [show (F.net θ₀).positionEmb = F.positionEmb from rfl, hpos] at h0
    cases h0
  rw [show (F.net θ₀).positionEmb = F.positionEmb from rfl, hpos] at h0
  simp only at h0
  split at h0
  · cases h0
  rename_i x1 d1 e1
  have hcls : (F.classifier = "token".toList ∨ F.classifier = "0".toList) ∨ F.classifier = "gap".toList ∨
      F.classifier = "map".toList := by
    by_contra hc
    push Not at hc
    obtain ⟨c1, c2, c3⟩ := hc
    rw [show (F.net θ₀).classifier = F.classifier from rfl, if_neg (by tauto), if_neg c2, if_neg c3] at h0
    cases h0
  clear h0
  unfold SoftModel.encoder at e1
  split at e1
  · cases e1
  rename_i x2 d2 e2
  clear e1
  unfold encoderMoe at e2
  split at e2
  · cases e2
  rename_i x3 e3
  split at e2
  · cases e2
  rename_i x4 d4 e4
  clear e2
  have hmm : ∀ θ, ((List.map (tokens (F.params θ) F.classifier) (batch.map Prod.fst)).map fun l (t : Fin T) => l.getD t 0).mapM
      (addPos pos (F.posParams θ)) = (batch.map Prod.fst).mapM
        fun image => addPos pos (F.posParams θ) fun t => (tokens (F.params θ) F.classifier image).getD t 0 := by
    intro θ
    rw [List.mapM_map, List.mapM_map]
    rfl
  obtain ⟨f, hf, hfd⟩ := mapM_diff (θ₀ := θ₀)
    (fun θ image => addPos pos (F.posParams θ) fun t : Fin T => (tokens (F.params θ) F.classifier image).getD t 0) (batch.map Prod.fst) (by
      intro image himage
      have e3' := (hmm θ₀).symm.trans e3
      obtain ⟨y0, hy0⟩ := mapM_ok _ _ _ e3' image himage
      exact pos_diff (θ₀ := θ₀) pos F.posParams N hN hF.pos
        (fun θ t => (tokens (F.params θ) F.classifier image).getD t 0)
        (differentiable_pi.2 fun t => token_diff F.base loss hF.base image t) y0 hy0)
  have hx3' : x3 = f θ₀ := by
    have := ((hmm θ₀).symm.trans e3).symm.trans (hf θ₀)
    exact Except.ok.inj this
  subst hx3'
  obtain ⟨y, m, hym, hy, hm⟩ := loop_diff (θ₀ := θ₀) F.cfg hF.eps hF.mlp rng hF.mu hF.scale hF.experts hF.attn hF.norm hF.dense
    F.moeLayers (List.range F.numLayers) f [] hfd (by simp) _ e4
  have hp := hy.map (fun θ v => F.post θ v) hF.post
  have hrun : ∀ θ, ∃ o, (F.net θ).run rng (batch.map Prod.fst) = .ok (o, finalMetrics id m) ∧
      Out.rows o = ((y θ).map (F.post θ)).map (row (F.base.net θ)) := by
    intro θ
    have henc : SoftModel.encoder T F.cfg (fun i => ⟨SoftRouter.muOf (F.mu θ i), F.scale θ i, F.experts θ i, rng i⟩) (F.blocks θ) (F.dense θ)
        (F.post θ) (F.posParams θ) F.numLayers F.moeLayers pos ((batch.map Prod.fst).map (tokens (F.params θ) F.classifier)) =
        .ok (((y θ).map (F.post θ)).map List.ofFn, finalMetrics id m) := by
      unfold SoftModel.encoder encoderMoe
      rw [hmm θ, hf θ]
      simp only
      rw [hym θ]
    unfold Net.run visionTransformer
    rw [show (F.net θ).positionEmb = F.positionEmb from rfl, hpos]
    simp only
    have henc' : SoftModel.encoder T (F.net θ).cfg (fun i => ⟨(F.net θ).mu i, (F.net θ).scale i, (F.net θ).experts i, rng i⟩)
        (F.net θ).blocks (F.net θ).dense (F.net θ).post (F.net θ).posParams (F.net θ).numLayers (F.net θ).moeLayers pos
        ((batch.map Prod.fst).map (tokens (F.net θ).params (F.net θ).classifier)) = _ := henc
    rw [henc']
    simp only
    rw [show (F.net θ).classifier = F.classifier from rfl, show (F.net θ).numClasses = F.numClasses from rfl]
    have hrow : ∀ pool : List (Vec c) → Vec c, (∀ l, pool l = if F.classifier = "token".toList ∨ F.classifier = "0".toList then l.headD 0
        else if F.classifier = "gap".toList then Vit.mean l else (F.net θ).params.mapHead l) → ∀ x : List (Seq T c),
        Out.rows (finish (F.net θ).params.head F.numClasses (((x.map List.ofFn).map pool).map (F.net θ).params.preLogits)) =
          x.map (row (F.base.net θ)) := by
      intro pool hpool x
      rcases hn : F.numClasses with _ | _ | n <;>
        simp only [finish, Out.rows, List.map_map] <;> refine List.map_congr_left fun v _ => ?_ <;>
        simp only [Function.comp, hpool, row, show (F.base.net θ).numClasses = F.numClasses from rfl, hn,
          show (F.base.net θ).classifier = F.classifier from rfl] <;> rfl
    by_cases c1 : F.classifier = "token".toList ∨ F.classifier = "0".toList
    · simp only [if_pos c1]
      exact ⟨_, rfl, hrow (fun l => l.headD 0) (fun l => by rw [if_pos c1]) _⟩
    · by_cases c2 : F.classifier = "gap".toList
      · simp only [if_neg c1, if_pos c2]
        exact ⟨_, rfl, hrow Vit.mean (fun l => by rw [if_neg c1, if_pos c2]) _⟩
      · have c3 : F.classifier = "map".toList := by tauto
        simp only [if_neg c1, if_neg c2, if_pos c3]
        exact ⟨_, rfl, hrow (F.net θ).params.mapHead (fun l => by rw [if_neg c1, if_neg c2]) _⟩
  choose o ho hrows using hrun
  refine ⟨fun θ => (ModelLoss.losses loss (o θ) (batch.map Prod.snd)).sum / (ModelLoss.losses loss (o θ) (batch.map Prod.snd)).length +
    auxiliary (finalMetrics id m), ?_, ?_⟩
  · intro θ
    unfold totalLoss
    rw [ho θ]
  · refine DifferentiableAt.add ?_ (differentiableAt_const _)
    obtain ⟨h, hd, he⟩ := hp
    have hl : ∀ θ, ModelLoss.losses loss (o θ) (batch.map Prod.snd) =
        List.ofFn fun i : Fin (batch.map Prod.fst).length => loss (row (F.base.net θ) (h θ i)) (batch.get (i.cast (by simp))).2 := by
      intro θ
      have he' : (y θ).map (F.post θ) = List.ofFn (h θ) := he θ
      rw [losses_rows, hrows, he']
      apply List.ext_getElem
      · simp
      · intro i h1 h2
        simp
    simp only [hl, List.sum_ofFn, List.length_ofFn]
    refine diff_div_const (DifferentiableAt.fun_sum fun i _ => ?_) _
    exact (row_diff F.base loss hF.base _ (θ₀, h θ₀ i)).fun_comp' θ₀ (differentiableAt_id.prodMk (differentiableAt_pi.1 hd i))

/-- C166.  If the total loss of a batch can be computed with some parameters, it can be computed with all and has a gradient
everywhere, with any fixed noise: with the soft router there are no ties to except. -/
theorem C166_differentiable (F : Family Θ ph pw D c r T p P) (loss : List ℝ ⊕ Vec r → L → ℝ) (hF : F.Smooth loss)
    (rng : Nat → Option SoftRouter.Normal) (batch : List (Image H W D × L)) (θ₀ : Θ) (v : ℝ)
    (h : totalLoss (F.net θ₀) loss rng batch = .ok v) :
    ∃ ℓ : Θ → ℝ, (∀ θ, totalLoss (F.net θ) loss rng batch = .ok (ℓ θ)) ∧ Differentiable ℝ ℓ := by
  obtain ⟨ℓ, hℓ, -⟩ := diff_at F loss hF rng batch θ₀ v h
  refine ⟨ℓ, hℓ, fun θ => ?_⟩
  obtain ⟨ℓ', hℓ', hd⟩ := diff_at F loss hF rng batch θ _ (hℓ θ)
  have : ℓ' = ℓ := funext fun θ => Except.ok.inj ((hℓ' θ).symm.trans (hℓ θ))
  rwa [this] at hd

section images

omit [NormedAddCommGroup P] [NormedSpace ℝ P] in
theorem layer_rng (cfg : Config c P) (hn : cfg.router.deterministic = true ∨ cfg.router.noiseStd ≤ 0)
    (mu : SoftRouter.Mu) (scale : ℝ) (experts : Fin cfg.router.numExperts → P) (rng rng' : Option SoftRouter.Normal) :
    moeLayer (T := T) cfg ⟨mu, scale, experts, rng⟩ = moeLayer cfg ⟨mu, scale, experts, rng'⟩ := by
  have h : ∀ q : Option SoftRouter.Normal, SoftRouter.noise cfg.router q = .ok fun _ _ _ _ => 0 := by
    intro q
    unfold SoftRouter.noise
    rw [if_neg]
    rintro ⟨h1, h2⟩
    rcases hn with h | h
    · rw [h] at h1; cases h1
    · linarith
  funext x
  unfold SoftModel.moeLayer SoftRouter.layer SoftRouter.call
  simp only [h]

omit [NormedAddCommGroup P] [NormedSpace ℝ P] in
theorem run_rng (net : Net ph pw D c r T P) (hn : net.cfg.router.deterministic = true ∨ net.cfg.router.noiseStd ≤ 0)
    (rng rng' : Nat → Option SoftRouter.Normal) (images : List (Image H W D)) : net.run rng images = net.run rng' images := by
  unfold Net.run SoftModel.encoder
  have h : (fun i => SoftModel.moeLayer (T := T) net.cfg ⟨net.mu i, net.scale i, net.experts i, rng i⟩) =
      fun i => SoftModel.moeLayer net.cfg ⟨net.mu i, net.scale i, net.experts i, rng' i⟩ :=
    funext fun i => layer_rng net.cfg hn _ _ _ _ _
  rw [h]

omit [NormedAddCommGroup P] [NormedSpace ℝ P] in
theorem layer_aux (cfg : Config c P) (q : LayerParams cfg.router.numExperts P) (x y : List (Seq T c)) (m : ℝ)
    (h : moeLayer cfg q x = .ok (y, m)) : m = 0 := by
  unfold SoftModel.moeLayer at h
  obtain ⟨_, -, h⟩ := ebind h
  obtain ⟨_, -, h⟩ := ebind h
  obtain ⟨_, -, h⟩ := ebind h
  cases h
  rfl

theorem loop_aux {V : Type} [Add V] (layers : Layers V ℝ) (h0 : ∀ i x y m, layers.moe i x = .ok (y, m) → m = 0) (ids : List Int)
    (l : List Nat) : ∀ (x : List V) (d : PyDict (List Char) ℝ), (∀ e ∈ d, e.2 = 0) → ∀ y m, loop layers ids l x d = .ok (y, m) →
      ∀ e ∈ m, e.2 = 0 := by
  induction l with
  | nil =>
    intro x d hd y m h
    rw [loop] at h
    cases h
    exact hd
  | cons b rest ih =>
    intro x d hd y m h
    rw [loop] at h
    split at h
    · split at h
      · cases h
      rename_i x1 m1 e1
      unfold moeBlock at e1
      simp only at e1
      split at e1
      · cases e1
      rename_i x2 m2 e2
      cases e1
      refine ih _ _ ?_ y m h
      intro e hmem
      rcases mem_set _ _ _ _ hmem with h | h
      · exact hd e h
      · rw [h]; exact h0 b _ _ _ e2
    · exact ih _ _ hd y m h

omit [NormedAddCommGroup P] [NormedSpace ℝ P] in
theorem run_aux (net : Net ph pw D c r T P) (rng : Nat → Option SoftRouter.Normal) (images : List (Image H W D)) (o m)
    (h : net.run rng images = .ok (o, m)) : auxiliary m = 0 := by
  unfold Net.run visionTransformer at h
  split at h
  · cases h
  split at h
  · cases h
  rename_i x1 d1 e1
  have hm : m = d1 := by
    simp only at h
    split_ifs at h <;> cases h <;> rfl
  subst hm
  unfold SoftModel.encoder at e1
  split at e1
  · cases e1
  rename_i x2 d2 e2
  cases e1
  unfold encoderMoe at e2
  split at e2
  · cases e2
  split at e2
  · cases e2
  rename_i x4 d4 e4
  cases e2
  exact auxiliary_zero _ (loop_aux _ (fun i x y m hm => layer_aux net.cfg _ x y m hm) _ _ _ _ (by simp) _ _ e4)

omit [NormedAddCommGroup P] [NormedSpace ℝ P] in
/-- C166.  With groups that are whole sequences and without noise there is one prediction for every image, and the total loss of a
batch is the mean of the losses of the predictions, without any auxiliary term, and with any state of the generators. -/
theorem C166_images (net : Net ph pw D c r T P) (loss : List ℝ ⊕ Vec r → L → ℝ) (hS : net.cfg.groupSize = T) (hT : 0 < T)
    (hn : net.cfg.router.deterministic = true ∨ net.cfg.router.noiseStd ≤ 0) :
    ∃ f : Image H W D → List ℝ ⊕ Vec r, (∀ rng images out m, net.run rng images = .ok (out, m) → Out.rows out = images.map f) ∧
      ∀ rng batch v, totalLoss net loss rng batch = .ok v → v = BatchSpec.mean (fun e => loss (f e.1) e.2) batch := by
  obtain ⟨f, hf⟩ := C134_model (H := H) (W := W) net.params net.classifier net.numClasses net.positionEmb net.cfg
    (fun i => ⟨net.mu i, net.scale i, net.experts i, none⟩) net.blocks net.dense net.post net.posParams net.numLayers net.moeLayers
    hS hT hn
  have hf' : ∀ rng images out m, net.run rng images = .ok (out, m) → Out.rows out = images.map f := by
    intro rng images out m h
    rw [run_rng net hn rng (fun _ => none)] at h
    exact hf images out m h
  refine ⟨f, hf', ?_⟩
  intro rng batch v h
  unfold totalLoss at h
  split at h
  · cases h
  rename_i o m e
  have := Except.ok.inj h
  rw [← this, run_aux net rng _ o m e, losses_rows, hf' rng _ o m e]
  have hz : List.zipWith loss ((batch.map Prod.fst).map f) (batch.map Prod.snd) = batch.map fun e => loss (f e.1) e.2 := by
    simp [List.zipWith_map, List.zipWith_self]
  rw [hz]
  unfold BatchSpec.mean
  rw [List.length_map, smul_eq_mul, add_zero]
  ring

end images

open BatchSpec in
theorem mean_every {α : Type} (m : Nat) (hm : 0 < m) (batch : List α) (hmi : m ∣ batch.length) (f : α → ℝ) :
    (1 / (m : ℝ)) * ((List.range m).map fun i => BatchSpec.mean f (every m i batch)).sum = BatchSpec.mean f batch := by
  obtain ⟨k, hk⟩ := hmi
  have h1 : ((List.range m).map fun i => BatchSpec.mean f (every m i batch)) =
      (List.range m).map fun i => (1 / (k : ℝ)) • ((every m i batch).map f).sum := by
    apply List.map_congr_left
    intro i hi
    unfold BatchSpec.mean
    rw [Trainer.every_length m i (List.mem_range.1 hi) k batch (by rw [hk, Nat.mul_comm])]
  have h2 : ((List.range m).map fun i => (1 / (k : ℝ)) • ((every m i batch).map f).sum).sum = (1 / (k : ℝ)) • (batch.map f).sum := by
    rw [← ((Trainer.every_perm m hm batch).map f).sum_eq]
    generalize List.range m = is
    induction is with
    | nil => simp
    | cons i is ih => rw [List.map_cons, List.sum_cons, ih, List.flatMap_cons, List.map_append, List.sum_append, smul_add]
  rw [h1, h2]
  unfold BatchSpec.mean
  rw [hk]
  push_cast
  simp only [smul_eq_mul]
  rw [← mul_assoc, div_mul_div_comm, one_mul]

open BatchSpec Trainer in
/-- C166.  Microsteps: with groups that are whole sequences and without noise, the gradient that
`accumulate_gradients_and_metrics` returns is the gradient of the total loss of the whole batch, and the reported total loss is its
value, if the gradient function computes value and derivative for every microstep. -/
theorem C166_microsteps {R : Type} (F : Family Θ ph pw D c r T p P) (loss : List ℝ ⊕ Vec r → L → ℝ) (hF : F.Smooth loss)
    (hS : F.cfg.groupSize = T) (hT : 0 < T) (hn : F.cfg.router.deterministic = true ∨ F.cfg.router.noiseStd ≤ 0)
    (devices m : Nat) (hdev : 0 < devices) (hm : 0 < m) (rng : Nat → Option SoftRouter.Normal)
    (rngs : Nat → Nat → Option SoftRouter.Normal) (batch : List (Image H W D × L)) (hd : devices ∣ batch.length)
    (hmd : m ∣ batch.length / devices) (θ : Θ) (v : ℝ) (hb : totalLoss (F.net θ) loss rng batch = .ok v)
    (hv : ∀ j < m, ∃ v, totalLoss (F.net θ) loss (rngs j) (every m j batch) = .ok v)
    (fn : GradFn Θ (Image H W D) L R (Θ →L[ℝ] ℝ) ℝ) (rs : Nat → R)
    (hfn : ∀ j < m, ∀ ℓ : Θ → ℝ, (∀ θ', totalLoss (F.net θ') loss (rngs j) (every m j batch) = .ok (ℓ θ')) →
      fn θ (every m j (batch.map Prod.fst)) (every m j (batch.map Prod.snd)) (rs j) = .ok (fderiv ℝ ℓ θ, rs (j + 1), ℓ θ)) :
    ∃ (grad : Θ →L[ℝ] ℝ) (total : Θ → ℝ),
      accumulate devices fn (some (m : Int)) θ (batch.map Prod.fst) (batch.map Prod.snd) (rs 0) = .ok (grad, rs m, total θ) ∧
      (∀ θ', totalLoss (F.net θ') loss rng batch = .ok (total θ')) ∧ HasFDerivAt total grad θ := by
  obtain ⟨total, ht, -⟩ := C166_differentiable F loss hF rng batch θ v hb
  have hex : ∀ j, ∃ ℓ : Θ → ℝ, j < m →
      (∀ θ', totalLoss (F.net θ') loss (rngs j) (every m j batch) = .ok (ℓ θ')) ∧ DifferentiableAt ℝ ℓ θ := by
    intro j
    by_cases hj : j < m
    · obtain ⟨v, hv⟩ := hv j hj
      obtain ⟨ℓ, h1, h2⟩ := C166_differentiable F loss hF (rngs j) (every m j batch) θ v hv
      exact ⟨ℓ, fun _ => ⟨h1, h2 θ⟩⟩
    · exact ⟨fun _ => 0, fun h => absurd h hj⟩
  choose ℓ hℓ using hex
  have hmi : m ∣ batch.length := by
    obtain ⟨k, hk⟩ := hd
    rw [hk, Nat.mul_div_cancel_left _ hdev] at hmd
    rw [hk]; exact Dvd.dvd.mul_left hmd _
  have hmean : total = fun θ' => 1 / (m : ℝ) * ((List.range m).map fun j => ℓ j θ').sum := by
    funext θ'
    obtain ⟨f, -, hf⟩ := C166_images (H := H) (W := W) (F.net θ') loss hS hT hn
    rw [hf rng batch _ (ht θ'), ← mean_every m hm batch hmi]
    congr 2
    refine List.map_congr_left fun j hj => ?_
    exact (hf (rngs j) _ _ ((hℓ j (List.mem_range.1 hj)).1 θ')).symm
  refine ⟨(1 / (m : ℝ)) • ((List.range m).map fun j => fderiv ℝ (ℓ j) θ).sum, total, ?_, ht, ?_⟩
  · have := C48_microsteps devices hdev fn m hm θ (batch.map Prod.fst) (batch.map Prod.snd) (by simp) (by simpa using hd)
      (by simpa using hmd) (fun j => fderiv ℝ (ℓ j) θ) rs (fun j => ℓ j θ) fun j hj => hfn j hj (ℓ j) (hℓ j hj).1
    rw [this, hmean]
    rfl
  · rw [hmean]
    have hsum : ∀ k ≤ m, HasFDerivAt (fun θ' => ((List.range k).map fun j => ℓ j θ').sum)
        ((List.range k).map fun j => fderiv ℝ (ℓ j) θ).sum θ := by
      intro k hk
      induction k with
      | zero => simpa using hasFDerivAt_const (0 : ℝ) θ
      | succ k ih =>
        simp only [List.range_succ, List.map_append, List.sum_append, List.map_cons, List.map_nil, List.sum_cons, List.sum_nil,
          add_zero]
        exact (ih (by omega)).add (hℓ k (by omega)).2.hasFDerivAt
    exact (hsum m le_rfl).const_mul _

/-! Non-vacuity: a model of two layers with one parameter `θ`, used by the head, the router, the experts, the dense layer and the
position embedding.  The first layer has two experts with one slot; groups are images of two tokens. -/

/-- With noise of standard deviation `std` unless `det`. -/
noncomputable def exFamily (std : ℝ) (det : Bool) : Family ℝ 1 1 1 1 1 2 1 ℝ where
  params := fun θ => ⟨fun _ _ _ _ => θ, fun _ => θ, 0, fun _ => 0, id, fun _ v => [θ * v 0]⟩
  classifier := "gap".toList
  numClasses := some 1
  positionEmb := none
  cfg := ⟨id, 1, ⟨2, some 1, none, std, det⟩, 2, fun p v i => p * v i⟩
  mu := fun θ _ _ e _ => θ * (e : Nat)
  scale := fun θ _ => θ
  experts := fun θ _ _ => θ
  blocks := fun θ _ => ⟨fun v => θ • v, id⟩
  dense := fun θ _ v => θ • v
  post := fun _ => id
  posParams := fun θ => [fun _ => θ, 0]
  numLayers := 2
  moeLayers := [0]

theorem exSmooth (std : ℝ) (det : Bool) : (exFamily std det).Smooth ModelGradient.exLoss where
  eps := one_pos
  mlp := by
    show ContDiff ℝ 1 fun a : ℝ × (Fin 1 → ℝ) => fun i => a.1 * a.2 i
    fun_prop
  mu := fun i => by
    show Differentiable ℝ fun (θ : ℝ) (_ : Fin 1) (e : Fin 2) (_ : Fin 1) => θ * ((e : Nat) : ℝ)
    fun_prop
  scale := fun i => differentiable_id
  experts := fun i => by
    show Differentiable ℝ fun (θ : ℝ) (_ : Fin 2) => θ
    fun_prop
  attn := ModelGradient.exSmooth.attn
  norm := ModelGradient.exSmooth.norm
  dense := ModelGradient.exSmooth.dense
  post := ModelGradient.exSmooth.post
  patch := ModelGradient.exSmooth.patch
  bias := ModelGradient.exSmooth.bias
  cls := ModelGradient.exSmooth.cls
  posLength := ModelGradient.exSmooth.posLength
  pos := ModelGradient.exSmooth.pos
  mapHead := ModelGradient.exSmooth.mapHead
  preLogits := ModelGradient.exSmooth.preLogits
  features := ModelGradient.exSmooth.features
  logits := ModelGradient.exSmooth.logits

theorem exRuns (std : ℝ) (det : Bool) (θ : ℝ) (rng : Nat → Option SoftRouter.Normal) (hr : det = false → 0 < std → ∀ i, rng i ≠ none)
    (batch : List (Image 2 1 1 × ℝ)) : ∃ v, totalLoss ((exFamily std det).net θ) ModelGradient.exLoss rng batch = .ok v := by
  obtain ⟨⟨o, m⟩, h⟩ := C134_runs (ph := 1) (pw := 1) (D := 1) (r := 1) (H := 2) (W := 1) ((exFamily std det).params θ) "gap".toList (some 1)
    (exFamily std det).cfg (fun i => ⟨SoftRouter.muOf ((exFamily std det).mu θ i), θ, (exFamily std det).experts θ i, rng i⟩)
    ((exFamily std det).blocks θ) ((exFamily std det).dense θ) ((exFamily std det).post θ) ((exFamily std det).posParams θ) 2 [0] rfl
    (by decide) (by simp) (fun i _ _ => ⟨rfl, rfl, rfl, fun h1 h2 => hr h1 h2 i⟩) (batch.map Prod.fst)
  have h' : ((exFamily std det).net θ).run rng (batch.map Prod.fst) = .ok (o, m) := h
  unfold totalLoss
  rw [h']
  exact ⟨_, rfl⟩

/-- The loss of a batch of any size has a gradient at any parameter, with noise too. -/
example (z : SoftRouter.Normal) (batch : List (Image 2 1 1 × ℝ)) : ∃ ℓ : ℝ → ℝ,
    (∀ θ, totalLoss ((exFamily 1 false).net θ) ModelGradient.exLoss (fun _ => some z) batch = .ok (ℓ θ)) ∧ Differentiable ℝ ℓ := by
  obtain ⟨v, hv⟩ := exRuns 1 false 0 (fun _ => some z) (fun _ _ _ => by simp) batch
  exact C166_differentiable (exFamily 1 false) _ (exSmooth 1 false) _ batch 0 v hv

open BatchSpec Trainer in
/-- Four images on two devices, in two microsteps. -/
example (a b d e : Image 2 1 1 × ℝ) (θ : ℝ) : ∃ (fn : GradFn ℝ (Image 2 1 1) ℝ Unit (ℝ →L[ℝ] ℝ) ℝ) (grad : ℝ →L[ℝ] ℝ) (total : ℝ → ℝ),
    accumulate 2 fn (some 2) θ ([a, b, d, e].map Prod.fst) ([a, b, d, e].map Prod.snd) () = .ok (grad, (), total θ) ∧
      (∀ θ', totalLoss ((exFamily 0 true).net θ') ModelGradient.exLoss (fun _ => none) [a, b, d, e] = .ok (total θ')) ∧
      HasFDerivAt total grad θ := by
  have hrun : ∀ batch : List (Image 2 1 1 × ℝ), ∃ ℓ : ℝ → ℝ, ∀ θ,
      totalLoss ((exFamily 0 true).net θ) ModelGradient.exLoss (fun _ => none) batch = .ok (ℓ θ) := by
    intro batch
    choose ℓ hℓ using fun θ => exRuns 0 true θ (fun _ => none) (fun h => by cases h) batch
    exact ⟨ℓ, hℓ⟩
  choose ℓ hℓ using hrun
  refine ⟨fun p im lab _ => .ok (fderiv ℝ (ℓ (im.zip lab)) p, (), ℓ (im.zip lab) p), ?_⟩
  refine C166_microsteps (exFamily 0 true) ModelGradient.exLoss (exSmooth 0 true) rfl (by decide) (Or.inl rfl) 2 2 (by decide) (by decide)
    (fun _ => none) (fun _ _ => none) [a, b, d, e] (by simp) (by simp) θ _ (hℓ _ θ) (fun j _ => ⟨_, hℓ _ θ⟩) _ (fun _ => ()) ?_
  intro j hj ℓ' hℓ'
  have hz : (every 2 j ([a, b, d, e].map Prod.fst)).zip (every 2 j ([a, b, d, e].map Prod.snd)) = every 2 j [a, b, d, e] := by
    rw [every_map, every_map, List.zip_map', List.map_id']
  have : ℓ' = ℓ (every 2 j [a, b, d, e]) := funext fun θ => Except.ok.inj ((hℓ' θ).symm.trans (hℓ _ θ))
  simp only [hz, this]

end Verif.SoftLoss
