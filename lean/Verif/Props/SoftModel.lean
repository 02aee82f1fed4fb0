import Verif.Model.SoftModel
import Verif.Props.SoftRouter
import Verif.Props.VmoeModel

/-!
C134: with the soft router, the prediction for an image does not depend on the other images of its batch.
-/

namespace Verif.SoftModel

open Verif Verif.Encoder Verif.Vit Verif.Spec Verif.Vmoe

variable {T c : Nat} {P : Type}

/-- The layer with groups that are whole sequences: it runs exactly when the router does, and every sequence is a group. -/
theorem layer_eq (cfg : Config c P) (hS : cfg.groupSize = T) (hT : 0 < T) (p : LayerParams cfg.router.numExperts P)
    (x : List (Seq T c)) :
    ∃ xg : Fin (x.length * T / cfg.groupSize) → Fin cfg.groupSize → Fin c → ℝ,
      (∀ (b : Fin x.length) (h : b.1 < x.length * T / cfg.groupSize) (s : Fin cfg.groupSize),
        xg ⟨b, h⟩ s = x.get b (s.cast hS)) ∧
      (∀ err, SoftRouter.layer cfg.fl cfg.eps cfg.router p.mu p.scale p.rng p.experts cfg.mlp xg = .error err →
        moeLayer cfg p x = .error err) ∧
      ∀ yg, SoftRouter.layer cfg.fl cfg.eps cfg.router p.mu p.scale p.rng p.experts cfg.mlp xg = .ok yg →
        ∃ out : Fin x.length → Seq T c, moeLayer cfg p x = .ok (List.ofFn out, 0) ∧
          ∀ (b : Fin x.length) (h : b.1 < x.length * T / cfg.groupSize) (s : Fin cfg.groupSize),
            out b (s.cast hS) = yg ⟨b, h⟩ s := by
  subst hS
  have hdiv : cfg.groupSize ∣ x.length * cfg.groupSize := Nat.dvd_mul_left _ _
  refine ⟨fun g s => tokenOf x.get (g * cfg.groupSize + s), ?_, ?_, ?_⟩
  · intro b h s
    exact MoeBlock.tokenOf_tokenNumber x.get b s
  · intro err h
    unfold moeLayer
    rw [MoeBlock.regroup_eq x.get cfg.groupSize hT hdiv]
    change (SoftRouter.layer cfg.fl cfg.eps cfg.router p.mu p.scale p.rng p.experts cfg.mlp _ >>= _ : Except PyErr _) = _
    rw [h]
    rfl
  · intro yg h
    obtain ⟨out, ho, hout⟩ := MoeBlock.ungroup_eq (B := x.length) (T := cfg.groupSize) yg hT hdiv
    refine ⟨out, ?_, ?_⟩
    · unfold moeLayer
      rw [MoeBlock.regroup_eq x.get cfg.groupSize hT hdiv]
      change (SoftRouter.layer cfg.fl cfg.eps cfg.router p.mu p.scale p.rng p.experts cfg.mlp _ >>= _ : Except PyErr _) = _
      rw [h]
      change (MoeBlock.ungroup yg >>= _ : Except PyErr _) = _
      rw [ho]
      rfl
    · intro b hb s
      have h1 : tokenNumber cfg.groupSize b s / cfg.groupSize = b := by
        unfold tokenNumber
        rw [Nat.mul_comm, Nat.mul_add_div hT, Nat.div_eq_of_lt s.2, Nat.add_zero]
      have h2 : tokenNumber cfg.groupSize b s % cfg.groupSize = s := mod_sequence b s
      have := hout b s (by rw [h1]; exact hb) (Nat.mod_lt _ hT)
      rw [show (s.cast rfl : Fin cfg.groupSize) = s from rfl, this]
      congr 1
      · congr 1
      · exact Fin.ext h2

/-- C134.  Without noise a layer with the soft router treats every image of a batch by itself if groups are whole sequences. -/
theorem C134_layer (cfg : Config c P) (p : LayerParams cfg.router.numExperts P) (hS : cfg.groupSize = T) (hT : 0 < T)
    (hn : cfg.router.deterministic = true ∨ cfg.router.noiseStd ≤ 0) : Pointwise (moeLayer (T := T) cfg p) := by
  -- the output for a batch with a single sequence
  refine ⟨fun v => match moeLayer cfg p [v] with
    | .ok (y, _) => y.headD 0
    | .error _ => 0, ?_⟩
  intro x y m h
  obtain ⟨xg, hx, herr, hok⟩ := layer_eq cfg hS hT p x
  rcases hl : SoftRouter.layer cfg.fl cfg.eps cfg.router p.mu p.scale p.rng p.experts cfg.mlp xg with err | yg
  · rw [herr err hl] at h
    cases h
  obtain ⟨out, ho, hout⟩ := hok yg hl
  rw [ho] at h
  cases h
  apply ofFn_get_map
  intro b
  obtain ⟨xg1, hx1, -, hok1⟩ := layer_eq cfg hS hT p [x.get b]
  obtain ⟨yg1, hl1, heq⟩ := SoftRouter.C100_batch cfg.fl cfg.eps cfg.router hn p.mu p.scale p.rng p.rng p.experts cfg.mlp xg xg1
    yg hl
  obtain ⟨out1, ho1, hout1⟩ := hok1 yg1 hl1
  have hlen : ∀ n, n * T / cfg.groupSize = n := fun n => by rw [hS]; exact Nat.mul_div_cancel n hT
  have hb : b.1 < x.length * T / cfg.groupSize := by rw [hlen]; exact b.2
  have h0 : (0 : Nat) < [x.get b].length * T / cfg.groupSize := by rw [hlen]; simp
  have hg : xg ⟨b, hb⟩ = xg1 ⟨0, h0⟩ := by
    funext s
    rw [hx b hb s]
    exact (hx1 ⟨0, by simp⟩ h0 s).symm
  have hy := heq _ _ hg
  simp only [ho1]
  funext t
  have e1 := hout b hb (t.cast hS.symm)
  have e2 := hout1 ⟨0, by simp⟩ h0 (t.cast hS.symm)
  have e3 : (List.ofFn out1).headD 0 = out1 ⟨0, by simp⟩ := by
    rfl
  rw [e3]
  exact e1.trans ((congrFun hy _).trans e2.symm)

theorem encoder_pointwise (cfg : Config c P) (params : Nat → LayerParams cfg.router.numExperts P)
    (blocks : Nat → BlockFns (Seq T c)) (dense : Nat → Seq T c → Seq T c) (post : Seq T c → Seq T c) (pe : List (Vec c))
    (numLayers : Nat) (moeLayers : List Int) (hS : cfg.groupSize = T) (hT : 0 < T)
    (hn : cfg.router.deterministic = true ∨ cfg.router.noiseStd ≤ 0) (pos : Option (Option PosEmb)) :
    Pointwise (encoder T cfg params blocks dense post pe numLayers moeLayers pos) := by
  obtain ⟨g, hg⟩ := encoderMoe_pointwise (⟨blocks, dense, fun i => moeLayer cfg (params i)⟩ : Layers (Seq T c) ℝ) id
    post pe numLayers moeLayers (fun i _ => C134_layer cfg (params i) hS hT hn) pos
  refine ⟨fun l => List.ofFn (g (fun t : Fin T => l.getD t 0)), ?_⟩
  intro x y m h
  unfold encoder at h
  split at h
  · cases h
  rename_i y' m' h'
  cases h
  rw [hg _ _ _ h']
  simp only [List.map_map]
  rfl

variable {ph pw D r H W : Nat}

/-- C134.  With the soft router, without noise, and with groups that are whole sequences, there is one function of a single image
that gives its prediction in every batch, of every size and at every position. -/
theorem C134_model (p : Params ph pw D c r) (classifier : List Char) (num_classes : Option Nat)
    (position_emb : Option (Option PosEmb)) (cfg : Config c P) (params : Nat → LayerParams cfg.router.numExperts P)
    (blocks : Nat → BlockFns (Seq T c)) (dense : Nat → Seq T c → Seq T c) (post : Seq T c → Seq T c) (pe : List (Vec c))
    (numLayers : Nat) (moeLayers : List Int) (hS : cfg.groupSize = T) (hT : 0 < T)
    (hn : cfg.router.deterministic = true ∨ cfg.router.noiseStd ≤ 0) :
    ∃ f : Image H W D → List ℝ ⊕ Vec r, ∀ images out m,
      visionTransformer p classifier num_classes position_emb
        (encoder T cfg params blocks dense post pe numLayers moeLayers) images = .ok (out, m) →
      Out.rows out = images.map f :=
  visionTransformer_pointwise p classifier num_classes position_emb _
    (encoder_pointwise cfg params blocks dense post pe numLayers moeLayers hS hT hn)

/-- What a layer with the soft router needs: stored vectors of the right shape, and a key if there is noise. -/
def Fits (cfg : Config c P) (p : LayerParams cfg.router.numExperts P) : Prop :=
  SoftRouter.numSlots cfg.fl cfg.router cfg.groupSize = .ok p.mu.slots ∧ p.mu.dim = c ∧
    p.mu.experts = cfg.router.numExperts ∧ (cfg.router.deterministic = false → 0 < cfg.router.noiseStd → p.rng ≠ none)

/-- C134.  Whether the layer runs depends on its parameters only, not on the batch. -/
theorem C134_layer_runs (cfg : Config c P) (p : LayerParams cfg.router.numExperts P) (hS : cfg.groupSize = T) (hT : 0 < T)
    (x : List (Seq T c)) : (∃ q, moeLayer cfg p x = .ok q) ↔ Fits cfg p := by
  obtain ⟨xg, -, herr, hok⟩ := layer_eq cfg hS hT p x
  rw [Fits, ← SoftRouter.C100_runs cfg.fl cfg.eps cfg.router p.mu p.scale p.rng p.experts cfg.mlp xg]
  constructor
  · rintro ⟨q, hq⟩
    rcases hl : SoftRouter.layer cfg.fl cfg.eps cfg.router p.mu p.scale p.rng p.experts cfg.mlp xg with err | yg
    · rw [herr err hl] at hq
      cases hq
    · exact ⟨_, rfl⟩
  · rintro ⟨yg, hl⟩
    obtain ⟨out, ho, -⟩ := hok yg hl
    exact ⟨_, ho⟩

/-- The loop over the blocks runs if all the sparse layers do. -/
theorem loop_runs {V M : Type} [Add V] (layers : Layers V M) (moeLayers : List Int) :
    ∀ (l : List Nat) (_ : ∀ i ∈ l, (i : Int) ∈ moeLayers → ∀ x, ∃ q, layers.moe i x = .ok q) (x : List V)
      (m : PyDict (List Char) M), ∃ q, loop layers moeLayers l x m = .ok q
  | [], _, x, m => ⟨_, rfl⟩
  | b :: l, h, x, m => by
    rw [loop]
    split
    · rename_i hb
      unfold moeBlock
      simp only
      obtain ⟨⟨q, mq⟩, hq⟩ := h b List.mem_cons_self hb ((attention (layers.fns b) x).map (layers.fns b).norm)
      rw [hq]
      simp only
      exact loop_runs layers moeLayers l (fun i hi => h i (List.mem_cons_of_mem _ hi)) _ _
    · exact loop_runs layers moeLayers l (fun i hi => h i (List.mem_cons_of_mem _ hi)) _ _

/-- C134.  With learned position embeddings, a known classifier and sparse layers whose parameters fit, the model gives predictions
for every batch, of any size. -/
theorem C134_runs (p : Params ph pw D c r) (classifier : List Char) (num_classes : Option Nat) (cfg : Config c P)
    (params : Nat → LayerParams cfg.router.numExperts P) (blocks : Nat → BlockFns (Seq T c)) (dense : Nat → Seq T c → Seq T c)
    (post : Seq T c → Seq T c) (pe : List (Vec c)) (numLayers : Nat) (moeLayers : List Int) (hS : cfg.groupSize = T)
    (hT : 0 < T) (hc : classifier ∈ ["token".toList, "0".toList, "gap".toList, "map".toList])
    (hfit : ∀ i < numLayers, (i : Int) ∈ moeLayers → Fits cfg (params i)) (images : List (Image H W D)) :
    ∃ q, visionTransformer p classifier num_classes none
      (encoder T cfg params blocks dense post pe numLayers moeLayers) images = .ok q := by
  have henc : ∀ x, ∃ y m, encoder T cfg params blocks dense post pe numLayers moeLayers none x = .ok (y, m) := by
    intro x
    unfold encoder encoderMoe
    have hpre : ∀ x : List (Seq T c), ∃ y, x.mapM (addPos none pe) = .ok y := by
      intro x
      refine ⟨_, DataPipeline.mapM_ok_eq (g := fun v (t : Fin T) => (List.zipWith (· + ·) (List.ofFn v) pe).getD t 0) ?_⟩
      intro v _
      rfl
    obtain ⟨y, hy⟩ := hpre (x.map fun l t => l.getD t 0)
    rw [hy]
    simp only
    obtain ⟨⟨q, mq⟩, hq⟩ := loop_runs (⟨blocks, dense, fun i => moeLayer cfg (params i)⟩ : Layers (Seq T c) ℝ) moeLayers
      (List.range numLayers) (fun i hi hm x => (C134_layer_runs cfg (params i) hS hT x).2 (hfit i (List.mem_range.1 hi) hm)) y []
    rw [hq]
    exact ⟨_, _, rfl⟩
  obtain ⟨y, m, hy⟩ := henc (images.map (tokens p classifier))
  unfold visionTransformer
  simp only [encoderPosEmb]
  rw [hy]
  simp only [List.mem_cons, List.not_mem_nil, or_false] at hc
  rcases hc with h | h | h | h <;> subst h <;> exact ⟨_, rfl⟩

/-! Without these conditions other images matter. -/

theorem moeLayer_of (cfg : Config c P) (p : LayerParams cfg.router.numExperts P) (x : List (Seq T c))
    (xg : Fin (x.length * T / cfg.groupSize) → Fin cfg.groupSize → Fin c → ℝ) (yg) (out : Fin x.length → Seq T c)
    (h1 : MoeBlock.regroup x.get cfg.groupSize = .ok xg)
    (h2 : SoftRouter.layer cfg.fl cfg.eps cfg.router p.mu p.scale p.rng p.experts cfg.mlp xg = .ok yg)
    (h3 : MoeBlock.ungroup (B := x.length) (T := T) yg = .ok out) : moeLayer cfg p x = .ok (List.ofFn out, 0) := by
  unfold moeLayer
  rw [h1]
  change (SoftRouter.layer cfg.fl cfg.eps cfg.router p.mu p.scale p.rng p.experts cfg.mlp _ >>= _ : Except PyErr _) = _
  rw [h2]
  change (MoeBlock.ungroup yg >>= _ : Except PyErr _) = _
  rw [h3]
  rfl

/-- One expert with one slot, no noise, groups of two tokens. -/
def exMixed : Config 1 Unit := ⟨id, 1, ⟨1, some 1, none, 0, true⟩, 2, fun _ v => v⟩

/-- C134, limit.  With groups over several images the prediction for an image depends on the other images of the group: all of
them are mixed in the slots.  Here there are two images of one token. -/
theorem C134_groups_counterexample : ∃ (p : LayerParams exMixed.router.numExperts Unit) (a b b' : Seq 1 1) (y y' : List (Seq 1 1)),
    moeLayer exMixed p [a, b] = .ok (y, 0) ∧ moeLayer exMixed p [a, b'] = .ok (y', 0) ∧ y[0]? ≠ y'[0]? := by
  let p : LayerParams exMixed.router.numExperts Unit := ⟨⟨1, 1, 1, fun _ _ _ => 0⟩, 0, fun _ => (), none⟩
  have key : ∀ a b : Seq 1 1, ∃ y, moeLayer exMixed p [a, b] = .ok (y, 0) ∧ ∃ v, y[0]? = some v ∧ v 0 0 = (a 0 0 + b 0 0) / 2 := by
    intro a b
    have hdiv : 2 ∣ [a, b].length * 1 := ⟨1, rfl⟩
    have hreg := MoeBlock.regroup_eq [a, b].get 2 Nat.two_pos hdiv
    obtain ⟨yg, hl⟩ := (SoftRouter.C100_runs exMixed.fl exMixed.eps exMixed.router p.mu p.scale p.rng p.experts exMixed.mlp
      (fun (g : Fin ([a, b].length * 1 / 2)) (s : Fin 2) => tokenOf [a, b].get (g * 2 + s))).2
        ⟨rfl, rfl, rfl, fun h => by cases h⟩
    obtain ⟨q, hq, -, -, rfl, -, hval⟩ := (SoftRouter.C100_layer _ _ _ _ _ _ _ _ _ _).1 hl
    obtain ⟨out, ho, hout⟩ := MoeBlock.ungroup_eq (B := [a, b].length) (T := 1) yg Nat.two_pos hdiv
    refine ⟨List.ofFn out, ?_, out 0, rfl, ?_⟩
    · exact moeLayer_of exMixed p [a, b] _ yg out hreg hl ho
    · have h0 := hout 0 0 (by simp [tokenNumber]) (by simp [tokenNumber])
      rw [h0, hval]
      simp only [SoftRouter.output, SoftRouter.share, exMixed, p, tokenNumber]
      have hc : (Finset.univ : Finset (Fin exMixed.router.numExperts × Fin p.mu.slots)).card = 1 := rfl
      simp only [exMixed, p] at hc
      have t0 : tokenOf [a, b].get 0 = a 0 := rfl
      have t1 : tokenOf [a, b].get 1 = b 0 := rfl
      simp [hc, t0, t1]
      ring
  obtain ⟨y, hy, v, hv, hv'⟩ := key (fun _ _ => 0) (fun _ _ => 0)
  obtain ⟨z, hz, w, hw, hw'⟩ := key (fun _ _ => 0) (fun _ _ => 1)
  refine ⟨p, _, _, _, y, z, hy, hz, ?_⟩
  rw [hv, hw]
  intro e
  have := congrFun (congrFun (Option.some.inj e) 0) 0
  rw [hv', hw'] at this
  norm_num at this

/-! Non-vacuity: a model with a sparse and a dense layer, images of 2×1 pixels and patches of one pixel. -/

example : Fits exMixed ⟨⟨1, 1, 1, fun _ _ _ => 3⟩, 2, fun _ => (), none⟩ := ⟨rfl, rfl, rfl, fun h => by cases h⟩

example (p : Params 1 1 1 1 1) (blocks : Nat → BlockFns (Seq 2 1)) (dense : Nat → Seq 2 1 → Seq 2 1) :
    ∃ f : Image 2 1 1 → List ℝ ⊕ Vec 1, ∀ images, ∃ out m,
      visionTransformer p "gap".toList (some 3) none
        (encoder 2 exMixed (fun _ => ⟨⟨1, 1, 1, fun _ _ _ => 3⟩, 2, fun _ => (), none⟩) blocks dense id [0, 0] 2 [0])
          images = .ok (out, m) ∧ Out.rows out = images.map f := by
  obtain ⟨f, hf⟩ := C134_model (H := 2) (W := 1) p "gap".toList (some 3) none exMixed
    (fun _ => ⟨⟨1, 1, 1, fun _ _ _ => 3⟩, 2, fun _ => (), none⟩) blocks dense id [0, 0] 2 [0] rfl Nat.two_pos (.inl rfl)
  refine ⟨f, fun images => ?_⟩
  obtain ⟨⟨out, m⟩, h⟩ := C134_runs p "gap".toList (some 3) exMixed
    (fun _ => ⟨⟨1, 1, 1, fun _ _ _ => 3⟩, 2, fun _ => (), none⟩) blocks dense id [0, 0] 2 [0] rfl Nat.two_pos (by simp)
    (fun _ _ _ => ⟨rfl, rfl, rfl, fun h => by cases h⟩) images
  exact ⟨out, m, h, hf _ _ _ h⟩

end Verif.SoftModel
