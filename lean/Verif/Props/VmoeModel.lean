import Verif.Model.VmoeModel
import Verif.Props.Encoder
import Verif.Props.Vit
import Verif.Props.ExpertChoiceBlock
import Verif.Proofs.DataPipeline

/-!
C119: when the prediction for an image does not depend on the other images of its batch.
-/

namespace Verif.Vmoe

open Verif Verif.Encoder Verif.Vit Verif.Spec Verif.Moe

variable {T c E : Nat} {P : Type}

/-- A function on batches that treats every item by itself, whatever the size of the batch. -/
def Pointwise {V W M : Type} (f : List V → Except PyErr (List W × M)) : Prop :=
  ∃ g : V → W, ∀ x y m, f x = .ok (y, m) → y = x.map g

/-- No noise is added to the gates. -/
def Router.noiseless : Router → Prop
  | .topExperts r => r.deterministic = true ∨ r.noiseStd = 0
  | .topItems r => r.deterministic = true ∨ r.noiseStd = 0

/-- Groups do not mix images: a group is a whole sequence, or (item choice) every expert has room for the whole group. -/
def MoeConfig.separates (cfg : MoeConfig c P) (T E : Nat) : Prop :=
  cfg.groupSize = T ∨ ∃ r cap, cfg.router = .topExperts r ∧ cfg.groupSize ≤ cap ∧
    resolveCapacity cfg.fl (cfg.groupSize * r.numSelected) E r.dispatcher.capacity r.dispatcher.capacityFactor
      r.dispatcher.ceilOrRound r.dispatcher.multipleOf = .ok cap

/-- Gates of one token without noise. -/
noncomputable def gate (kernel : Fin c → Fin E → ℝ) (v : Fin c → ℝ) : Fin E → ℝ := expWeights fun e => ∑ h, v h * kernel h e

theorem gates_sequence {B : Nat} (kernel : Fin c → Fin E → ℝ) (z : Nat → Nat → Nat → ℝ) (x : Fin B → Seq T c) (b : Fin B)
    (t : Fin T) : tokenGates T kernel 0 z x (tokenNumber T b t / T) = fun s => gate kernel (x b s) := by
  have hT : 0 < T := Nat.lt_of_le_of_lt (Nat.zero_le _) t.2
  have h1 : tokenNumber T b t / T = b := by
    unfold tokenNumber
    rw [Nat.mul_comm, Nat.mul_add_div hT, Nat.div_eq_of_lt t.2, Nat.add_zero]
  funext s
  unfold tokenGates gate
  rw [h1]
  have : tokenOf x (b.1 * T + s.1) = x b s := MoeBlock.tokenOf_tokenNumber x b s
  rw [this]
  simp

theorem gates_token {B S : Nat} (kernel : Fin c → Fin E → ℝ) (z : Nat → Nat → Nat → ℝ) (x : Fin B → Seq T c) (b : Fin B)
    (t : Fin T) (hS : 0 < S) : tokenGates S kernel 0 z x (tokenNumber T b t / S) ⟨tokenNumber T b t % S, Nat.mod_lt _ hS⟩ =
      gate kernel (x b t) := by
  unfold tokenGates gate
  simp only
  rw [Nat.div_add_mod', MoeBlock.tokenOf_tokenNumber]
  simp

theorem mod_sequence {B : Nat} (b : Fin B) (t : Fin T) : tokenNumber T b t % T = t := by
  unfold tokenNumber
  rw [Nat.mul_comm, Nat.mul_add_mod, Nat.mod_eq_of_lt t.2]

theorem kept_sequence {B S : Nat} (hs : S = T) (hS : 0 < S) (hE : 0 < E) (bp : Bool) (K cap : Nat) (kernel : Fin c → Fin E → ℝ)
    (z : Nat → Nat → Nat → ℝ) (x : Fin B → Seq T c) (b : Fin B) (t : Fin T) (e : Fin E) :
    Kept hE bp (tokenGates S kernel 0 z x (tokenNumber T b t / S)) K cap ⟨tokenNumber T b t % S, Nat.mod_lt _ hS⟩ e ↔
      Kept hE bp (fun s => gate kernel (x b s)) K cap t e := by
  subst hs
  have ht : (⟨tokenNumber S b t % S, Nat.mod_lt _ hS⟩ : Fin S) = t := Fin.ext (mod_sequence b t)
  rw [gates_sequence, ht]

theorem rank_sequence {B S : Nat} (hs : S = T) (hS : 0 < S) (kernel : Fin c → Fin E → ℝ)
    (z : Nat → Nat → Nat → ℝ) (x : Fin B → Seq T c) (b : Fin B) (t : Fin T) (e : Fin E) :
    itemRank (tokenGates S kernel 0 z x (tokenNumber T b t / S)) ⟨tokenNumber T b t % S, Nat.mod_lt _ hS⟩ e =
      itemRank (fun s => gate kernel (x b s)) t e := by
  subst hs
  have ht : (⟨tokenNumber S b t % S, Nat.mod_lt _ hS⟩ : Fin S) = t := Fin.ext (mod_sequence b t)
  rw [gates_sequence, ht]

theorem kept_full {S K cap : Nat} (hE : 0 < E) (bp : Bool) (gates : Fin S → Fin E → ℝ) (hcap : S ≤ cap) (s : Fin S) (e : Fin E) :
    Kept hE bp gates K cap s e ↔ choiceRank (fun _ : Fin 1 => gates s) 0 e < K := by
  have h0 : choiceRank (fun _ : Fin 1 => gates s) 0 e = choiceRank gates s e := rfl
  rw [h0]
  refine ⟨fun h => h.1, fun h => ⟨h, ?_⟩⟩
  have h2 := slot_lt_card hE bp gates K e h
  have h3 : (requesters gates K e).card ≤ S := by
    have := Finset.card_le_univ (requesters gates K e)
    simpa using this
  omega

/-- What a successful call says about its arguments. -/
theorem success {B H O S : Nat} {fl : ℚ → ℚ} {cdf bf : ℝ → ℝ} {cfg : MoeBlock.RouterConfig} {kernel : Fin H → Fin E → ℝ}
    {z : Nat → Nat → Nat → ℝ} {oob : Fin O → ℝ} {params : Fin E → P} {mlp : P → (Fin H → ℝ) → Fin O → ℝ}
    {x : Fin B → Fin T → Fin H → ℝ} {r} (h : MoeBlock.mlpMoeBlock fl cdf bf cfg S kernel z oob params mlp x = .ok r) :
    (0 < S ∧ S ∣ B * T) ∧ (1 ≤ cfg.numSelected ∧ cfg.numSelected ≤ E) ∧
      (cfg.dispatcher.name = "einsum" ∨ cfg.dispatcher.name = "indices") ∧
      ∃ cap, resolveCapacity fl (S * cfg.numSelected) E cfg.dispatcher.capacity cfg.dispatcher.capacityFactor
        cfg.dispatcher.ceilOrRound cfg.dispatcher.multipleOf = .ok cap := by
  have herr := MoeBlock.C72_block_errors fl cdf bf cfg S kernel z oob params mlp x
  simp only at herr
  rw [h] at herr
  have hd : 0 < S ∧ S ∣ B * T := by by_contra hn; exact absurd (herr.1 hn) (by simp)
  have hk : 1 ≤ cfg.numSelected ∧ cfg.numSelected ≤ E := by
    by_contra hn; exact absurd (herr.2.1 hd hn) (by simp)
  obtain ⟨he1, he2⟩ := herr.2.2 hd hk
  rcases hcap : resolveCapacity fl (S * cfg.numSelected) E cfg.dispatcher.capacity
      cfg.dispatcher.capacityFactor cfg.dispatcher.ceilOrRound cfg.dispatcher.multipleOf with err | cap
  · exact absurd (he1 err hcap) (by simp)
  refine ⟨hd, hk, ?_, cap, rfl⟩
  by_contra hn
  push Not at hn
  exact absurd ((he2 cap hcap).1 hn) (by simp)

theorem usedStd_zero (r : MoeBlock.RouterConfig) (h : r.deterministic = true ∨ r.noiseStd = 0) : MoeBlock.usedStd r E = 0 := by
  unfold MoeBlock.usedStd
  rcases h with h | h
  · rw [if_pos h]
  · rw [h]; simp

theorem sigma_zero (r : ExpertChoice.RouterConfig) (h : r.deterministic = true ∨ r.noiseStd = 0) : ExpertChoice.sigma r E = 0 := by
  unfold ExpertChoice.sigma
  rcases h with h | h
  · rw [if_pos h]
  · rw [h]; simp

theorem ofFn_get_map {V W : Type} (x : List V) (y : Fin x.length → W) (g : V → W) (h : ∀ b, y b = g (x.get b)) :
    List.ofFn y = x.map g := by
  have : y = fun b => g (x.get b) := funext h
  rw [this, show (fun b => g (x.get b)) = g ∘ x.get from rfl, ← List.map_ofFn, List.ofFn_get]

/-- C119.  Without noise, a MoE layer treats every image of the batch by itself, if the groups are whole sequences, or if every
expert has room for its whole group (only with the router where items choose). -/
theorem C119_layer (cfg : MoeConfig c P) (p : MoeParams c E P) (hn : cfg.router.noiseless) (hs : cfg.separates T E) :
    Pointwise (moeLayer (T := T) cfg p) := by
  rcases hr : cfg.router with r | r
  · rw [hr] at hn
    by_cases hex : ∃ x : List (Seq T c), ∃ q, moeLayer cfg p x = .ok q
    · obtain ⟨x0, q0, h0⟩ := hex
      have hok : ∃ q, MoeBlock.mlpMoeBlock cfg.fl cfg.cdf cfg.bf r cfg.groupSize p.kernel p.z cfg.oob p.experts cfg.mlp
          x0.get = .ok q := by
        unfold moeLayer at h0
        rw [hr] at h0
        simp only at h0
        split at h0
        · cases h0
        · rename_i y m hy; exact ⟨_, hy⟩
      obtain ⟨q, hq⟩ := hok
      obtain ⟨⟨hS, -⟩, ⟨hk1, hk2⟩, hname, cap, hcap⟩ := success hq
      have hE : 0 < E := Nat.lt_of_lt_of_le hk1 hk2
      have hstd := usedStd_zero (E := E) r hn
      -- the output of the block in a batch where it succeeds
      have key : ∀ (x : List (Seq T c)) y m, moeLayer cfg p x = .ok (y, m) → ∃ out : Fin x.length → Seq T c,
          y = List.ofFn out ∧ ∀ (b : Fin x.length) (t : Fin T) i, out b t i =
            ∑ e ∈ Finset.univ.filter (fun e => Kept hE r.dispatcher.batchPriority
                (tokenGates cfg.groupSize p.kernel 0 p.z x.get (tokenNumber T b t / cfg.groupSize)) r.numSelected cap
                ⟨tokenNumber T b t % cfg.groupSize, Nat.mod_lt _ hS⟩ e),
              gate p.kernel (x.get b t) e * MoeBlock.castData cfg.bf r.dispatcher.bfloat16 (cfg.mlp (p.experts e)
                (MoeBlock.castData cfg.bf r.dispatcher.bfloat16 (x.get b t))) i := by
        intro x y m h
        unfold moeLayer at h
        rw [hr] at h
        simp only at h
        split at h
        · cases h
        rename_i out m' hy
        cases h
        obtain ⟨⟨-, hdiv⟩, -⟩ := success hy
        obtain ⟨o1, m1, e1, f1⟩ := MoeBlock.C72_block_output cfg.fl cfg.cdf cfg.bf r cfg.groupSize p.kernel p.z cfg.oob
          p.experts cfg.mlp x.get hS hdiv hE hk1 hk2 hname cap hcap
        rw [hy] at e1
        cases e1
        refine ⟨out, rfl, ?_⟩
        intro b t i
        have f2 := f1 b t i
        simp only [hstd] at f2
        rw [f2]
        apply Finset.sum_congr rfl
        intro e _
        rw [gates_token _ _ _ _ _ hS]
        unfold MoeBlock.castData
        by_cases hb : r.dispatcher.bfloat16 = true <;> simp [hb]
      rcases hs with hs | ⟨r', cap', hr', hle, hcap'⟩
      · refine ⟨fun v t i => ∑ e ∈ Finset.univ.filter (fun e => Kept hE r.dispatcher.batchPriority
            (fun s => gate p.kernel (v s)) r.numSelected cap t e),
              gate p.kernel (v t) e * MoeBlock.castData cfg.bf r.dispatcher.bfloat16 (cfg.mlp (p.experts e)
                (MoeBlock.castData cfg.bf r.dispatcher.bfloat16 (v t))) i, ?_⟩
        intro x y m h
        obtain ⟨out, rfl, ho⟩ := key x y m h
        apply ofFn_get_map
        intro b
        funext t i
        rw [ho b t i]
        apply Finset.sum_congr _ fun _ _ => rfl
        ext e
        simp only [Finset.mem_filter, Finset.mem_univ, true_and]
        exact kept_sequence hs hS hE _ _ _ _ _ _ _ _ _
      · rw [hr] at hr'
        cases hr'
        rw [hcap] at hcap'
        cases hcap'
        refine ⟨fun v t i => ∑ e ∈ Finset.univ.filter (fun e =>
            choiceRank (fun _ : Fin 1 => gate p.kernel (v t)) 0 e < r.numSelected),
              gate p.kernel (v t) e * MoeBlock.castData cfg.bf r.dispatcher.bfloat16 (cfg.mlp (p.experts e)
                (MoeBlock.castData cfg.bf r.dispatcher.bfloat16 (v t))) i, ?_⟩
        intro x y m h
        obtain ⟨out, rfl, ho⟩ := key x y m h
        apply ofFn_get_map
        intro b
        funext t i
        rw [ho b t i]
        apply Finset.sum_congr _ fun _ _ => rfl
        ext e
        simp only [Finset.mem_filter, Finset.mem_univ, true_and]
        rw [kept_full hE _ _ hle, gates_token _ _ _ _ _ hS]
    · refine ⟨id, ?_⟩
      intro x y m h
      exact absurd ⟨x, _, h⟩ hex
  · rw [hr] at hn
    have hs' : cfg.groupSize = T := by
      rcases hs with h | ⟨r', _, h, _⟩
      · exact h
      · rw [hr] at h; cases h
    by_cases hex : ∃ x : List (Seq T c), ∃ q, moeLayer cfg p x = .ok q
    · obtain ⟨x0, q0, h0⟩ := hex
      have hok : ∃ q, ExpertChoice.mlpMoeBlock cfg.fl cfg.bf r cfg.groupSize p.kernel p.z p.experts cfg.mlp x0.get = .ok q := by
        unfold moeLayer at h0
        rw [hr] at h0
        simp only at h0
        split at h0
        · cases h0
        · rename_i y m hy; exact ⟨_, hy⟩
      obtain ⟨q, hq⟩ := hok
      obtain ⟨⟨hS, -⟩, hE, d, hd, hname, hk, cap, hcap, hC⟩ := ExpertChoice.success hq
      have hstd := sigma_zero (E := E) r hn
      refine ⟨fun v t i => ∑ e ∈ Finset.univ.filter (fun e => itemRank (fun s => gate p.kernel (v s)) t e < cap),
        gate p.kernel (v t) e * MoeBlock.castData cfg.bf (decide (d.bfloat16 = some true)) (cfg.mlp (p.experts e)
          (MoeBlock.castData cfg.bf (decide (d.bfloat16 = some true)) (v t))) i, ?_⟩
      intro x y m h
      unfold moeLayer at h
      rw [hr] at h
      simp only at h
      split at h
      · cases h
      rename_i out m' hy
      cases h
      obtain ⟨⟨-, hdiv⟩, -⟩ := ExpertChoice.success hy
      obtain ⟨o1, m1, e1, f1, -⟩ := ExpertChoice.C78_block_output cfg.fl cfg.bf r cfg.groupSize p.kernel p.z
          p.experts cfg.mlp x.get hS hdiv hE d hd cap hcap hname hC hk
      rw [hy] at e1
      cases e1
      apply ofFn_get_map
      intro b
      funext t i
      have f2 := f1 b t i
      simp only [hstd] at f2
      rw [f2]
      apply Finset.sum_congr
      · ext e
        simp only [Finset.mem_filter, Finset.mem_univ, true_and]
        rw [rank_sequence hs' hS]
      intro e _
      rw [gates_token _ _ _ _ _ hS]
      unfold MoeBlock.castData
      by_cases hb : d.bfloat16 = some true <;> simp [hb]
    · refine ⟨id, ?_⟩
      intro x y m h
      exact absurd ⟨x, _, h⟩ hex

theorem loop_pointwise {V M : Type} [Add V] (layers : Layers V M) (ids : List Int)
    (hp : ∀ i : Nat, (i : Int) ∈ ids → Pointwise (layers.moe i)) (blocks : List Nat) :
    ∃ g : V → V, ∀ x ms y ms', loop layers ids blocks x ms = .ok (y, ms') → y = x.map g := by
  induction blocks with
  | nil =>
    refine ⟨id, ?_⟩
    intro x ms y ms' h
    rw [loop] at h
    cases h
    simp
  | cons b rest ih =>
    obtain ⟨g, hg⟩ := ih
    by_cases hb : (b : Int) ∈ ids
    · obtain ⟨f, hf⟩ := hp b hb
      refine ⟨fun v => g ((layers.fns b).attn v + v + f ((layers.fns b).norm ((layers.fns b).attn v + v))), ?_⟩
      intro x ms y ms' h
      rw [loop, if_pos hb] at h
      unfold moeBlock attention at h
      simp only at h
      split at h
      · cases h
      rename_i x' m hm
      split at hm
      · cases hm
      rename_i y' m' hm'
      cases hm
      have e1 := hf _ _ _ hm'
      have e2 := hg _ _ _ _ h
      rw [e2, e1]
      simp only [List.zipWith_map, List.map_map]
      rw [List.zipWith_self, List.map_map]
      rfl
    · refine ⟨fun v => g ((layers.fns b).attn v + v + layers.mlp b ((layers.fns b).norm ((layers.fns b).attn v + v))), ?_⟩
      intro x ms y ms' h
      rw [loop, if_neg hb] at h
      have e2 := hg _ _ _ _ h
      rw [e2]
      unfold denseBlock attention
      simp only [List.zipWith_map, List.map_map]
      rw [List.zipWith_self, List.map_map]
      rfl

/-- The value of a result. -/
def valueOf {V : Type} (d : V) : Except PyErr V → V
  | .ok v => v
  | .error _ => d

theorem mapM_value {V W : Type} (d : W) (f : V → Except PyErr W) (x : List V) (y : List W) (h : x.mapM f = .ok y) :
    y = x.map fun v => valueOf d (f v) := by
  induction x generalizing y with
  | nil => cases h; rfl
  | cons a x ih =>
    rw [List.mapM_cons] at h
    obtain ⟨b, hb, h⟩ := ebind h
    obtain ⟨l, hl, h⟩ := ebind h
    cases h
    rw [List.map_cons, hb, ih l hl]
    rfl

theorem encoderMoe_pointwise {M : Type} (layers : Layers (Seq T c) M) (aux : M → ℝ) (post : Seq T c → Seq T c)
    (pe : List (Vec c)) (numLayers : Nat) (moeLayers : List Int)
    (hp : ∀ i : Nat, (i : Int) ∈ moeLayers → Pointwise (layers.moe i)) (pos : Option (Option PosEmb)) :
    ∃ g : Seq T c → Seq T c, ∀ x y m, encoderMoe layers aux (addPos pos pe) post numLayers moeLayers x = .ok (y, m) →
      y = x.map g := by
  obtain ⟨g, hg⟩ := loop_pointwise layers moeLayers hp (List.range numLayers)
  refine ⟨fun v => post (g (valueOf 0 (addPos pos pe v))), ?_⟩
  intro x y m h'
  unfold encoderMoe at h'
  split at h'
  · cases h'
  rename_i x1 hx1
  split at h'
  · cases h'
  rename_i x2 ms hx2
  cases h'
  have e1 := hg _ _ _ _ hx2
  have e2 := mapM_value 0 _ _ _ hx1
  rw [e1, e2]
  simp only [List.map_map]
  rfl

theorem encoder_pointwise (cfg : MoeConfig c P) (params : Nat → MoeParams c E P) (blocks : Nat → BlockFns (Seq T c))
    (dense : Nat → Seq T c → Seq T c) (aux : LayerMetrics → ℝ) (post : Seq T c → Seq T c) (pe : List (Vec c)) (numLayers : Nat)
    (moeLayers : List Int) (hn : cfg.router.noiseless) (hs : cfg.separates T E) (pos : Option (Option PosEmb)) :
    Pointwise (encoder T cfg params blocks dense aux post pe numLayers moeLayers pos) := by
  obtain ⟨g, hg⟩ := encoderMoe_pointwise (⟨blocks, dense, fun i => moeLayer cfg (params i)⟩ : Layers (Seq T c) LayerMetrics) aux
    post pe numLayers moeLayers (fun i _ => C119_layer cfg (params i) hn hs) pos
  refine ⟨fun l => List.ofFn (g (fun t : Fin T => l.getD t 0)), ?_⟩
  intro x y m h
  unfold encoder at h
  split at h
  · cases h
  rename_i y' m' h'
  cases h
  rw [hg _ _ _ h']
  simp only [List.map_map]
  rfl

/-- The predictions for the images of a batch, in order: logits, or representations. -/
def Out.rows {r : Nat} : Out r → List (List ℝ ⊕ Vec r)
  | .logits x => x.map .inl
  | .features x => x.map .inr

variable {ph pw D r H W : Nat}

theorem visionTransformer_pointwise {M : Type} (p : Params ph pw D c r) (classifier : List Char) (num_classes : Option Nat)
    (position_emb : Option (Option PosEmb))
    (enc : Option (Option PosEmb) → List (List (Vec c)) → Except PyErr (List (List (Vec c)) × M))
    (henc : ∀ pos, Pointwise (enc pos)) :
    ∃ f : Image H W D → List ℝ ⊕ Vec r, ∀ images out m,
      visionTransformer p classifier num_classes position_emb enc images = .ok (out, m) → Out.rows out = images.map f := by
  rcases hpos : encoderPosEmb position_emb (convSize H ph) (convSize W pw) with err | pos
  · refine ⟨fun _ => .inl [], ?_⟩
    intro images out m h
    unfold visionTransformer at h
    rw [hpos] at h
    cases h
  obtain ⟨g, hg⟩ := henc pos
  -- the part after the encoder
  have hpool : ∃ q : List (Vec c) → Vec c, ∀ (x : List (List (Vec c))) y,
      (if classifier = "token".toList ∨ classifier = "0".toList then .ok (x.map (·.headD 0))
        else if classifier = "gap".toList then .ok (x.map mean)
        else if classifier = "map".toList then .ok (x.map p.mapHead)
        else .error .valueError : Except PyErr (List (Vec c))) = .ok y → y = x.map q := by
    by_cases h1 : classifier = "token".toList ∨ classifier = "0".toList
    · refine ⟨(·.headD 0), fun x y h => ?_⟩
      rw [if_pos h1] at h; cases h; rfl
    · by_cases h2 : classifier = "gap".toList
      · refine ⟨mean, fun x y h => ?_⟩
        rw [if_neg h1, if_pos h2] at h; cases h; rfl
      · by_cases h3 : classifier = "map".toList
        · refine ⟨p.mapHead, fun x y h => ?_⟩
          rw [if_neg h1, if_neg h2, if_pos h3] at h; cases h; rfl
        · refine ⟨fun _ => 0, fun x y h => ?_⟩
          rw [if_neg h1, if_neg h2, if_neg h3] at h; cases h
  obtain ⟨q, hq⟩ := hpool
  have hfin : ∃ w : Vec r → List ℝ ⊕ Vec r, ∀ x : List (Vec r), Out.rows (finish p.head num_classes x) = x.map w := by
    match num_classes with
    | none => exact ⟨.inr, fun x => rfl⟩
    | some 0 => exact ⟨.inr, fun x => rfl⟩
    | some (n + 1) =>
      refine ⟨fun v => .inl (p.head (n + 1) v), fun x => ?_⟩
      simp [finish, Out.rows]
  obtain ⟨w, hw⟩ := hfin
  refine ⟨fun img => w (p.preLogits (q (g (tokens p classifier img)))), ?_⟩
  intro images out m h
  unfold visionTransformer at h
  rw [hpos] at h
  simp only at h
  split at h
  · cases h
  rename_i x ms henc
  split at h
  · cases h
  rename_i y hy
  cases h
  rw [hw, hq x y hy, hg _ _ _ henc]
  simp only [List.map_map]
  rfl

/-- C119.  Without noise in the routers, and with groups that are whole sequences, or room in every expert for its whole group,
there is one function of a single image that gives its prediction in every batch, of every size and at every position. -/
theorem C119_model (p : Params ph pw D c r) (classifier : List Char) (num_classes : Option Nat)
    (position_emb : Option (Option PosEmb)) (cfg : MoeConfig c P) (params : Nat → MoeParams c E P)
    (blocks : Nat → BlockFns (Seq T c)) (dense : Nat → Seq T c → Seq T c) (aux : LayerMetrics → ℝ) (post : Seq T c → Seq T c)
    (pe : List (Vec c)) (numLayers : Nat) (moeLayers : List Int) (hn : cfg.router.noiseless) (hs : cfg.separates T E) :
    ∃ f : Image H W D → List ℝ ⊕ Vec r, ∀ images out m,
      visionTransformer p classifier num_classes position_emb
        (encoder T cfg params blocks dense aux post pe numLayers moeLayers) images = .ok (out, m) →
      Out.rows out = images.map f :=
  visionTransformer_pointwise p classifier num_classes position_emb _
    (encoder_pointwise cfg params blocks dense aux post pe numLayers moeLayers hn hs)

/-- C119.  So the prediction for an image is the same in any two batches where the model runs. -/
theorem C119_batches (p : Params ph pw D c r) (classifier : List Char) (num_classes : Option Nat)
    (position_emb : Option (Option PosEmb)) (cfg : MoeConfig c P) (params : Nat → MoeParams c E P)
    (blocks : Nat → BlockFns (Seq T c)) (dense : Nat → Seq T c → Seq T c) (aux : LayerMetrics → ℝ) (post : Seq T c → Seq T c)
    (pe : List (Vec c)) (numLayers : Nat) (moeLayers : List Int) (hn : cfg.router.noiseless) (hs : cfg.separates T E)
    (images images' : List (Image H W D)) (out out' m m')
    (h : visionTransformer p classifier num_classes position_emb
        (encoder T cfg params blocks dense aux post pe numLayers moeLayers) images = .ok (out, m))
    (h' : visionTransformer p classifier num_classes position_emb
        (encoder T cfg params blocks dense aux post pe numLayers moeLayers) images' = .ok (out', m'))
    (i j : Nat) (hi : i < images.length) (hj : images[i]? = images'[j]?) :
    (Out.rows out)[i]? = (Out.rows out')[j]? ∧ (Out.rows out)[i]? ≠ none := by
  obtain ⟨f, hf⟩ := C119_model (H := H) (W := W) p classifier num_classes position_emb cfg params blocks dense aux post pe
    numLayers moeLayers hn hs
  rw [hf _ _ _ h, hf _ _ _ h', List.getElem?_map, List.getElem?_map, hj]
  refine ⟨rfl, ?_⟩
  rw [← hj, List.getElem?_eq_getElem hi]
  simp

/-! Without these conditions the position of an image in the batch matters. -/

/-- One expert with one place, no noise. -/
noncomputable def exTightRouter : MoeBlock.RouterConfig :=
  ⟨1, 0, 0, 0, 0, ⟨"einsum", false, some 1, none, "ceil", none, false⟩, true⟩

/-- The same, for groups of two tokens. -/
noncomputable def exTight : MoeConfig 1 Unit where
  fl := id
  cdf := id
  bf := id
  router := .topExperts exTightRouter
  groupSize := 2
  oob := fun _ => 0
  mlp := fun _ v => v

theorem rank_one {S : Nat} (gates : Fin S → Fin 1 → ℝ) (s : Fin S) (e : Fin 1) : choiceRank gates s e = 0 := by
  unfold choiceRank
  rw [Finset.card_eq_zero, Finset.filter_eq_empty_iff]
  intro e' _
  have : e' = e := Subsingleton.elim _ _
  subst this
  simp

theorem kept_first (gates : Fin 2 → Fin 1 → ℝ) (s : Fin 2) (e : Fin 1) :
    Kept (by decide) false gates 1 1 s e ↔ s = 0 := by
  unfold Kept slot HigherPriority Requests ItemBefore
  simp only [rank_one, Nat.lt_irrefl, false_or, true_and, Nat.lt_one_iff, Finset.card_eq_zero,
    Finset.filter_eq_empty_iff, Finset.mem_univ, forall_true_left, Bool.false_eq_true, if_false]
  constructor
  · intro h
    have := @h 0
    fin_cases s
    · rfl
    · simp at this
  · rintro rfl x
    exact Fin.not_lt_zero x

theorem gate_one (kernel : Fin 1 → Fin 1 → ℝ) (v : Fin 1 → ℝ) (e : Fin 1) : gate kernel v e = 1 := by
  unfold gate expWeights
  have : e = 0 := Subsingleton.elim _ _
  subst this
  rw [Fin.sum_univ_one]
  exact div_self (Real.exp_pos _).ne'

theorem tight_value (p : MoeParams 1 1 Unit) (a b : Seq 1 1) :
    ∃ m, moeLayer exTight p [a, b] = .ok ([a, 0], m) := by
  obtain ⟨out, m, h, ho⟩ := MoeBlock.C72_block_output exTight.fl exTight.cdf exTight.bf exTightRouter 2 p.kernel p.z
    exTight.oob p.experts exTight.mlp [a, b].get (by decide) ⟨1, rfl⟩ (by decide) Nat.one_pos (le_refl 1) (Or.inl rfl) 1 rfl
  refine ⟨.topExperts _ m, ?_⟩
  have hstd : MoeBlock.usedStd exTightRouter 1 = 0 := if_pos rfl
  have hval : ∀ (k : Fin 2) (t i : Fin 1), out k t i = if k = 0 then [a, b].get k t i else 0 := by
    intro k t i
    have h1 := ho k t i
    simp only [hstd] at h1
    rw [h1]
    have hk : (⟨tokenNumber 1 k t % 2, Nat.mod_lt _ (by decide)⟩ : Fin 2) = k := by
      apply Fin.ext
      have := k.2
      have := t.2
      simp only [tokenNumber]
      omega
    have hkept : ∀ e, Kept (E := 1) (by decide) exTightRouter.dispatcher.batchPriority
        (tokenGates 2 p.kernel 0 p.z [a, b].get (tokenNumber 1 k t / 2)) exTightRouter.numSelected 1
        ⟨tokenNumber 1 k t % 2, Nat.mod_lt _ (by decide)⟩ e ↔ k = 0 := by
      intro e
      rw [hk]
      exact kept_first _ k e
    simp only [hkept]
    by_cases h0 : k = 0
    · rw [if_pos h0, Finset.filter_true_of_mem (fun _ _ => h0), Fin.sum_univ_one, gates_token _ _ _ _ _ (by decide), gate_one,
        one_mul]
      rfl
    · rw [if_neg h0, Finset.filter_false_of_mem (fun _ _ => h0)]
      rfl
  have hl : List.ofFn out = [a, 0] := by
    have e0 : out 0 = a := by
      funext t i
      exact hval 0 t i
    have e1 : out 1 = 0 := by
      funext t i
      exact hval 1 t i
    rw [← e0, ← e1]
    rfl
  rw [← hl]
  have h' : MoeBlock.mlpMoeBlock exTight.fl exTight.cdf exTight.bf exTightRouter exTight.groupSize p.kernel p.z
    exTight.oob p.experts exTight.mlp [a, b].get = .ok (out, m) := h
  unfold moeLayer
  rw [show exTight.router = .topExperts exTightRouter from rfl]
  simp only
  rw [h']
  rfl

/-- C119, limit.  With groups over several images and little room, the same image gets different results at different positions:
here the second one of two images of one token is dropped. -/
theorem C119_position_counterexample : ∃ (p : MoeParams 1 1 Unit) (a : Seq 1 1) (y y' : List (Seq 1 1)) (m m' : LayerMetrics),
    exTight.router.noiseless ∧ moeLayer exTight p [a, 0] = .ok (y, m) ∧ moeLayer exTight p [0, a] = .ok (y', m') ∧
      y[0]? ≠ y'[1]? := by
  obtain ⟨m, h⟩ := tight_value ⟨fun _ _ => 0, fun _ => (), fun _ _ _ => 0⟩ (fun _ _ => 1) 0
  obtain ⟨m', h'⟩ := tight_value ⟨fun _ _ => 0, fun _ => (), fun _ _ _ => 0⟩ 0 (fun _ _ => 1)
  refine ⟨⟨fun _ _ => 0, fun _ => (), fun _ _ _ => 0⟩, fun _ _ => 1, _, _, m, m', .inl rfl, h, h', ?_⟩
  simp only [List.getElem?_cons_zero, List.getElem?_cons_succ, ne_eq, Option.some.injEq]
  intro e
  have := congrFun (congrFun e 0) 0
  simp at this

/-! Non-vacuity: a model with a MoE layer and a dense layer, images of 2×1 pixels and patches of one pixel; it runs on every
batch. -/

/-- Two experts, groups of two tokens (one image), one place per expert. -/
noncomputable def exSeparate : MoeConfig 1 Unit :=
  { exTight with router := .topExperts { exTightRouter with numSelected := 2 } }

example : exSeparate.router.noiseless ∧ exSeparate.separates 2 2 := ⟨.inl rfl, .inl rfl⟩

theorem exRuns (p : Params 1 1 1 1 1) (params : Nat → MoeParams 1 2 Unit) (blocks : Nat → BlockFns (Seq 2 1))
    (dense : Nat → Seq 2 1 → Seq 2 1) (images : List (Image 2 1 1)) :
    ∃ q, visionTransformer p "gap".toList (some 3) none
      (encoder 2 exSeparate params blocks dense (fun _ => 0) id [0, 0] 2 [0]) images = .ok q := by
  have hmoe : ∀ (i : Nat) (x : List (Seq 2 1)), ∃ q, moeLayer exSeparate (params i) x = .ok q := by
    intro i x
    obtain ⟨out, m, h, -⟩ := MoeBlock.C72_block_output exSeparate.fl exSeparate.cdf exSeparate.bf
      { exTightRouter with numSelected := 2 } 2 (params i).kernel (params i).z exSeparate.oob (params i).experts exSeparate.mlp
      x.get (by decide) ⟨x.length, Nat.mul_comm _ _⟩ (by decide) Nat.two_pos (le_refl 2) (Or.inl rfl) 1 rfl
    refine ⟨(List.ofFn out, .topExperts _ m), ?_⟩
    have h' : MoeBlock.mlpMoeBlock exSeparate.fl exSeparate.cdf exSeparate.bf { exTightRouter with numSelected := 2 }
      exSeparate.groupSize (params i).kernel (params i).z exSeparate.oob (params i).experts exSeparate.mlp x.get =
        .ok (out, m) := h
    unfold moeLayer
    rw [show exSeparate.router = .topExperts { exTightRouter with numSelected := 2 } from rfl]
    simp only
    rw [h']
    rfl
  have hpre : ∀ x : List (Seq 2 1), ∃ y, x.mapM (addPos none [0, 0]) = .ok y := by
    intro x
    refine ⟨_, DataPipeline.mapM_ok_eq (g := fun v (t : Fin 2) => (List.zipWith (· + ·) (List.ofFn v) [0, 0]).getD t 0) ?_⟩
    intro v _
    rfl
  have henc : ∀ x, ∃ y m, encoder 2 exSeparate params blocks dense (fun _ => 0) id [0, 0] 2 [0] none x = .ok (y, m) := by
    intro x
    unfold encoder encoderMoe
    obtain ⟨y, hy⟩ := hpre (x.map fun l t => l.getD t 0)
    rw [hy]
    simp only
    rw [show List.range 2 = [0, 1] from rfl, loop, if_pos (by simp)]
    unfold moeBlock
    simp only
    obtain ⟨⟨q, mq⟩, hq⟩ := hmoe 0 ((attention (blocks 0) y).map (blocks 0).norm)
    rw [hq]
    simp only
    rw [loop, if_neg (by simp), loop]
    exact ⟨_, _, rfl⟩
  obtain ⟨y, m, hy⟩ := henc (images.map (tokens p "gap".toList))
  unfold visionTransformer
  rw [show encoderPosEmb none (convSize 2 1) (convSize 1 1) = .ok none from rfl]
  simp only
  rw [hy]
  simp only
  rw [if_neg (by decide), if_pos trivial]
  exact ⟨_, rfl⟩

end Verif.Vmoe
