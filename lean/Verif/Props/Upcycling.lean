import Verif.Model.Upcycling
import Verif.Props.VmoeModel
import Verif.Props.Mapping
import Verif.Props.InitRules

/-!
C125: a sparse model whose experts are copies of the MLPs of a dense model.
-/

namespace Verif.Upcycling

open Verif Verif.Vmoe Verif.Encoder Verif.Vit Verif.Spec Verif.Moe FlatDict MappingSpec TreeSpec

variable {T c E : Nat} {P : Type}

/-- The numbers of items that each expert can take, if the layer can be made. -/
def Capacity (cfg : MoeConfig c P) (E cap : Nat) : Prop :=
  match cfg.router with
  | .topExperts r => resolveCapacity cfg.fl (cfg.groupSize * r.numSelected) E r.dispatcher.capacity r.dispatcher.capacityFactor
      r.dispatcher.ceilOrRound r.dispatcher.multipleOf = .ok cap
  | .topItems r => ∃ d, r.dispatcher = some d ∧ ExpertChoice.asked cfg.fl cfg.groupSize E d = .ok cap

/-- Numbers are not rounded to bfloat16 on the way to the experts. -/
def Unrounded (cfg : MoeConfig c P) : Prop :=
  match cfg.router with
  | .topExperts r => r.dispatcher.bfloat16 = false
  | .topItems r => ∀ d, r.dispatcher = some d → d.bfloat16 ≠ some true

/-- Every item asks for every expert (trivially so where the experts choose). -/
def AllSelected (cfg : MoeConfig c P) (E : Nat) : Prop :=
  match cfg.router with
  | .topExperts r => r.numSelected = E
  | .topItems _ => True

theorem gates_pos {B S H : Nat} (kernel : Fin H → Fin E → ℝ) (sigma : ℝ) (z : Nat → Nat → Nat → ℝ) (x : Fin B → Fin T → Fin H → ℝ)
    (g : Nat) (s : Fin S) (e : Fin E) : 0 < tokenGates S kernel sigma z x g s e := by
  unfold tokenGates expWeights
  exact div_pos (Real.exp_pos _) (Finset.sum_pos (fun _ _ => Real.exp_pos _) ⟨e, Finset.mem_univ _⟩)

theorem gates_sum {B S H : Nat} (hE : 0 < E) (kernel : Fin H → Fin E → ℝ) (sigma : ℝ) (z : Nat → Nat → Nat → ℝ)
    (x : Fin B → Fin T → Fin H → ℝ) (g : Nat) (s : Fin S) : ∑ e, tokenGates S kernel sigma z x g s e = 1 := by
  unfold tokenGates expWeights
  rw [← Finset.sum_div]
  exact div_self (Finset.sum_pos (fun _ _ => Real.exp_pos _) ⟨⟨0, hE⟩, Finset.mem_univ _⟩).ne'

/-- What the sum of some of the gates is. -/
theorem some_gates {B S H : Nat} (hE : 0 < E) (kernel : Fin H → Fin E → ℝ) (sigma : ℝ) (z : Nat → Nat → Nat → ℝ)
    (x : Fin B → Fin T → Fin H → ℝ) (g : Nat) (s : Fin S) (A : Finset (Fin E)) :
    0 ≤ ∑ e ∈ A, tokenGates S kernel sigma z x g s e ∧ ∑ e ∈ A, tokenGates S kernel sigma z x g s e ≤ 1 ∧
      (A = Finset.univ → ∑ e ∈ A, tokenGates S kernel sigma z x g s e = 1) ∧
      (A ≠ Finset.univ → ∑ e ∈ A, tokenGates S kernel sigma z x g s e < 1) := by
  have hp := fun e => gates_pos kernel sigma z x g s e
  have h1 := gates_sum hE kernel sigma z x g s
  refine ⟨Finset.sum_nonneg fun e _ => (hp e).le, ?_, ?_, ?_⟩
  · rw [← h1]
    exact Finset.sum_le_sum_of_subset_of_nonneg (Finset.subset_univ _) fun e _ _ => (hp e).le
  · rintro rfl
    exact h1
  · intro hA
    rw [← h1]
    have hne : ∃ e, e ∉ A := by
      by_contra hn
      push Not at hn
      exact hA (Finset.eq_univ_iff_forall.2 hn)
    obtain ⟨e, he⟩ := hne
    exact Finset.sum_lt_sum_of_subset (Finset.subset_univ _) (Finset.mem_univ e) he (hp e) fun e _ _ => (hp e).le

theorem rank_lt {S : Nat} (gates : Fin S → Fin E → ℝ) (s : Fin S) (e : Fin E) : choiceRank gates s e < E := by
  unfold choiceRank
  refine lt_of_lt_of_eq (Finset.card_lt_univ_of_notMem (x := e) ?_) (by simp)
  simp

theorem itemRank_lt {S : Nat} (gates : Fin S → Fin E → ℝ) (s : Fin S) (e : Fin E) : itemRank gates s e < S := by
  unfold itemRank
  refine lt_of_lt_of_eq (Finset.card_lt_univ_of_notMem (x := s) ?_) (by simp)
  simp

/-- With fewer selected experts than experts, the least preferred expert is not asked for. -/
theorem not_all_requested {S K : Nat} (hK : K < E) (gates : Fin S → Fin E → ℝ) (s : Fin S) :
    ∃ e, ¬ choiceRank gates s e < K := by
  by_contra hn
  push Not at hn
  -- the ranks are different numbers
  have hinj : Function.Injective fun e => choiceRank gates s e := by
    intro a b hab
    by_contra hne
    have key : ∀ a b : Fin E, (gates s b < gates s a ∨ (gates s a = gates s b ∧ a < b)) →
        choiceRank gates s a < choiceRank gates s b := by
      intro a b h
      unfold choiceRank
      apply Finset.card_lt_card
      rw [Finset.ssubset_iff_of_subset]
      · exact ⟨a, by simpa using h, by simp⟩
      · intro e he
        simp only [Finset.mem_filter, Finset.mem_univ, true_and] at he ⊢
        rcases he with he | ⟨he1, he2⟩ <;> rcases h with h | ⟨h1, h2⟩
        · exact .inl (h.trans he)
        · exact .inl (h1 ▸ he)
        · exact .inl (he1 ▸ h)
        · exact .inr ⟨he1.trans h1, he2.trans h2⟩
    rcases lt_trichotomy (gates s a) (gates s b) with h | h | h
    · exact absurd hab (key b a (.inl h)).ne'
    · rcases lt_or_gt_of_ne hne with h' | h'
      · exact absurd hab (key a b (.inr ⟨h, h'⟩)).ne
      · exact absurd hab (key b a (.inr ⟨h.symm, h'⟩)).ne'
    · exact absurd hab (key a b (.inl h)).ne
  have := Fintype.card_le_of_injective (fun e : Fin E => (⟨choiceRank gates s e, hn e⟩ : Fin K)) (by
    intro a b h
    exact hinj (Fin.mk.inj h))
  simp at this
  omega

/-- C125.  If all experts are the same, then a MoE layer is this expert, scaled for every token by a weight between 0 and 1.
The weight is 1 if every token asks for all experts and there is room for all of them; it is less than 1 whenever fewer experts
are selected than there are. -/
theorem C125_layer (cfg : MoeConfig c P) (p : MoeParams c E P) (f : (Fin c → ℝ) → Fin c → ℝ) (hp : ∀ e, cfg.mlp (p.experts e) = f) (hu : Unrounded cfg)
    (x y : List (Seq T c)) (m : LayerMetrics) (h : moeLayer cfg p x = .ok (y, m)) :
    ∃ w : Fin x.length → Fin T → ℝ, y = List.ofFn (fun b t => w b t • f (x.get b t)) ∧
      ∀ b t, 0 ≤ w b t ∧ w b t ≤ 1 ∧
        (AllSelected cfg E → ∀ cap, Capacity cfg E cap → cfg.groupSize ≤ cap → w b t = 1) ∧
        (∀ r, cfg.router = .topExperts r → r.numSelected < E → w b t < 1) := by
  unfold AllSelected Capacity Unrounded at *
  rcases hr : cfg.router with r | r
  · simp only [hr] at hu ⊢
    unfold moeLayer at h
    rw [hr] at h
    simp only at h
    split at h
    · cases h
    rename_i out m' hy
    cases h
    obtain ⟨⟨hS, hdiv⟩, ⟨hk1, hk2⟩, hname, cap, hcap⟩ := success hy
    have hE : 0 < E := Nat.lt_of_lt_of_le hk1 hk2
    obtain ⟨o1, m1, e1, f1⟩ := MoeBlock.C72_block_output cfg.fl cfg.cdf cfg.bf r cfg.groupSize p.kernel p.z cfg.oob
      p.experts cfg.mlp x.get hS hdiv hE hk1 hk2 hname cap hcap
    rw [hy] at e1
    cases e1
    refine ⟨fun b t => ∑ e ∈ Finset.univ.filter (fun e => Kept hE r.dispatcher.batchPriority
        (tokenGates cfg.groupSize p.kernel (MoeBlock.usedStd r E) p.z x.get (tokenNumber T b t / cfg.groupSize)) r.numSelected cap
        ⟨tokenNumber T b t % cfg.groupSize, Nat.mod_lt _ hS⟩ e),
      tokenGates cfg.groupSize p.kernel (MoeBlock.usedStd r E) p.z x.get (tokenNumber T b t / cfg.groupSize)
        ⟨tokenNumber T b t % cfg.groupSize, Nat.mod_lt _ hS⟩ e, ?_, ?_⟩
    · congr 1
      funext b t i
      have f2 := f1 b t i
      simp only [hu, hp, Bool.false_eq_true, if_false] at f2
      rw [f2, Pi.smul_apply, smul_eq_mul, Finset.sum_mul]
    · intro b t
      obtain ⟨g1, g2, g3, g4⟩ := some_gates hE p.kernel (MoeBlock.usedStd r E) p.z x.get (tokenNumber T b t / cfg.groupSize)
        ⟨tokenNumber T b t % cfg.groupSize, Nat.mod_lt _ hS⟩ (Finset.univ.filter (fun e => Kept hE r.dispatcher.batchPriority
          (tokenGates cfg.groupSize p.kernel (MoeBlock.usedStd r E) p.z x.get (tokenNumber T b t / cfg.groupSize)) r.numSelected cap
          ⟨tokenNumber T b t % cfg.groupSize, Nat.mod_lt _ hS⟩ e))
      refine ⟨g1, g2, ?_, ?_⟩
      · intro hall cap' hcap' hle
        rw [hcap] at hcap'
        cases hcap'
        apply g3
        rw [Finset.filter_eq_self]
        intro e _
        rw [kept_full hE _ _ hle, hall]
        exact rank_lt _ _ _
      · rintro r' hr' hlt
        cases hr'
        apply g4
        intro hA
        obtain ⟨e, he⟩ := not_all_requested hlt
          (tokenGates cfg.groupSize p.kernel (MoeBlock.usedStd r E) p.z x.get (tokenNumber T b t / cfg.groupSize))
          ⟨tokenNumber T b t % cfg.groupSize, Nat.mod_lt _ hS⟩
        rw [Finset.filter_eq_self] at hA
        exact he (hA e (Finset.mem_univ e)).1
  · simp only [hr] at hu ⊢
    unfold moeLayer at h
    rw [hr] at h
    simp only at h
    split at h
    · cases h
    rename_i out m' hy
    cases h
    obtain ⟨⟨hS, hdiv⟩, hE, d, hd, hname, hk, cap, hcap, hC⟩ := ExpertChoice.success hy
    obtain ⟨o1, m1, e1, f1, -⟩ := ExpertChoice.C78_block_output cfg.fl cfg.bf r cfg.groupSize p.kernel p.z
      p.experts cfg.mlp x.get hS hdiv hE d hd cap hcap hname hC hk
    rw [hy] at e1
    cases e1
    have hb := hu d hd
    refine ⟨fun b t => ∑ e ∈ Finset.univ.filter (fun e => itemRank
        (tokenGates cfg.groupSize p.kernel (ExpertChoice.sigma r E) p.z x.get (tokenNumber T b t / cfg.groupSize))
        ⟨tokenNumber T b t % cfg.groupSize, Nat.mod_lt _ hS⟩ e < cap),
      tokenGates cfg.groupSize p.kernel (ExpertChoice.sigma r E) p.z x.get (tokenNumber T b t / cfg.groupSize)
        ⟨tokenNumber T b t % cfg.groupSize, Nat.mod_lt _ hS⟩ e, ?_, ?_⟩
    · congr 1
      funext b t i
      have f2 := f1 b t i
      simp only [hb, hp, if_false] at f2
      rw [f2, Pi.smul_apply, smul_eq_mul, Finset.sum_mul]
    · intro b t
      obtain ⟨g1, g2, g3, g4⟩ := some_gates hE p.kernel (ExpertChoice.sigma r E) p.z x.get (tokenNumber T b t / cfg.groupSize)
        ⟨tokenNumber T b t % cfg.groupSize, Nat.mod_lt _ hS⟩ (Finset.univ.filter (fun e => itemRank
        (tokenGates cfg.groupSize p.kernel (ExpertChoice.sigma r E) p.z x.get (tokenNumber T b t / cfg.groupSize))
        ⟨tokenNumber T b t % cfg.groupSize, Nat.mod_lt _ hS⟩ e < cap))
      refine ⟨g1, g2, ?_, ?_⟩
      · rintro - cap' ⟨d', hd', hcap'⟩ hle
        rw [hd] at hd'
        cases hd'
        rw [hcap] at hcap'
        cases hcap'
        apply g3
        rw [Finset.filter_eq_self]
        intro e _
        exact lt_of_lt_of_le (itemRank_lt _ _ _) hle
      · intro r' hr'
        cases hr'

/-- A MoE layer of equal experts that takes every token to all of them is this expert on every token. -/
theorem layer_dense (cfg : MoeConfig c P) (p : MoeParams c E P) (f : (Fin c → ℝ) → Fin c → ℝ) (hp : ∀ e, cfg.mlp (p.experts e) = f) (hu : Unrounded cfg)
    (hall : AllSelected cfg E) (cap : Nat) (hcap : Capacity cfg E cap) (hle : cfg.groupSize ≤ cap)
    (x y : List (Seq T c)) (m : LayerMetrics) (h : moeLayer cfg p x = .ok (y, m)) :
    y = x.map fun v t => f (v t) := by
  obtain ⟨w, rfl, hw⟩ := C125_layer cfg p f hp hu x y m h
  apply ofFn_get_map
  intro b
  funext t
  rw [(hw b t).2.2.1 hall cap hcap hle, one_smul]

/-- C125, limit.  With fewer selected experts than experts, the layer is not the dense MLP: it gives something else in every
batch with a token where the MLP is not zero. -/
theorem C125_fewer_experts (cfg : MoeConfig c P) (p : MoeParams c E P) (f : (Fin c → ℝ) → Fin c → ℝ)
    (hp : ∀ e, cfg.mlp (p.experts e) = f) (hu : Unrounded cfg) (rc : MoeBlock.RouterConfig) (hr : cfg.router = .topExperts rc)
    (hK : rc.numSelected < E) (x y : List (Seq T c)) (m : LayerMetrics) (h : moeLayer cfg p x = .ok (y, m))
    (v : Seq T c) (hv : v ∈ x) (t : Fin T) (hf : f (v t) ≠ 0) : y ≠ x.map fun v t => f (v t) := by
  obtain ⟨w, rfl, hw⟩ := C125_layer cfg p f hp hu x y m h
  obtain ⟨b, rfl⟩ := List.mem_iff_get.1 hv
  have hlt := (hw b t).2.2.2 rc hr hK
  intro heq
  have h1 : (List.ofFn fun b t => w b t • f (x.get b t))[b.1]? = (x.map fun v t => f (v t))[b.1]? := by rw [heq]
  rw [List.getElem?_ofFn, dif_pos b.2, List.getElem?_map, List.getElem?_eq_getElem b.2] at h1
  have h2 := congrFun (Option.some.inj h1) t
  have h3 : w b t • f (x.get b t) = f (x.get b t) := h2
  apply hf
  funext i
  have h4 := congrFun h3 i
  rw [Pi.smul_apply, smul_eq_mul] at h4
  have h5 : (w b t - 1) * f (x.get b t) i = 0 := by linarith
  rcases mul_eq_zero.1 h5 with h6 | h6
  · linarith
  · exact h6

theorem loop_dense {V M : Type} [Add V] (layers : Layers V M) (ids : List Int)
    (hd : ∀ i : Nat, (i : Int) ∈ ids → ∀ x y m, layers.moe i x = .ok (y, m) → y = x.map (layers.mlp i)) (blocks : List Nat) :
    ∀ x ms y ms', loop layers ids blocks x ms = .ok (y, ms') → ∀ n, loop layers [] blocks x n = .ok (y, n) := by
  induction blocks with
  | nil =>
    intro x ms y ms' h n
    rw [loop] at h
    cases h
    rfl
  | cons b rest ih =>
    intro x ms y ms' h n
    rw [loop, if_neg (by simp)]
    by_cases hb : (b : Int) ∈ ids
    · rw [loop, if_pos hb] at h
      unfold moeBlock at h
      simp only at h
      split at h
      · cases h
      rename_i x' m hm
      split at hm
      · cases hm
      rename_i y' m' hm'
      cases hm
      have e1 := hd b hb _ _ _ hm'
      have e2 := ih _ _ _ _ h n
      rw [← e2, e1]
      rfl
    · rw [loop, if_neg hb] at h
      exact ih _ _ _ _ h n

variable {ph pw D r H W : Nat}

/-- C125.  If the experts of every MoE layer are copies of the MLP that the dense model has in that block, every token asks for
all the experts and there is room for all the tokens, then the sparse model makes the predictions of the dense model, whatever
the kernels and the noise of the routers are. -/
theorem C125_model (p : Params ph pw D c r) (classifier : List Char) (num_classes : Option Nat)
    (position_emb : Option (Option PosEmb)) (cfg : MoeConfig c P) (params : Nat → MoeParams c E P) (f : Nat → (Fin c → ℝ) → Fin c → ℝ)
    (blocks : Nat → BlockFns (Seq T c)) (aux : LayerMetrics → ℝ) (post : Seq T c → Seq T c)
    (pe : List (Vec c)) (numLayers : Nat) (moeLayers : List Int)
    (hp : ∀ i : Nat, (i : Int) ∈ moeLayers → ∀ e, cfg.mlp ((params i).experts e) = f i) (hu : Unrounded cfg) (hall : AllSelected cfg E)
    (cap : Nat) (hcap : Capacity cfg E cap) (hle : cfg.groupSize ≤ cap) (images : List (Image H W D)) (out m)
    (h : visionTransformer p classifier num_classes position_emb
        (encoder T cfg params blocks (fun i v t => f i (v t)) aux post pe numLayers moeLayers) images = .ok (out, m)) :
    ∃ m', visionTransformer p classifier num_classes position_emb
        (encoder T cfg params blocks (fun i v t => f i (v t)) aux post pe numLayers []) images = .ok (out, m') := by
  unfold visionTransformer at h ⊢
  split at h
  · cases h
  rename_i pos hpos
  split at h
  · cases h
  rename_i x ms henc
  have henc' : ∃ m', encoder T cfg params blocks (fun i v t => f i (v t)) aux post pe numLayers [] pos
      (images.map (tokens p classifier)) = .ok (x, m') := by
    unfold encoder encoderMoe at henc ⊢
    split at henc
    · cases henc
    rename_i y' m' h'
    cases henc
    split at h'
    · cases h'
    rename_i x1 hx1
    split at h'
    · cases h'
    rename_i x2 ms2 hx2
    cases h'
    have := loop_dense (⟨blocks, fun i v t => f i (v t), fun i => moeLayer cfg (params i)⟩ : Layers (Seq T c) LayerMetrics)
      moeLayers (fun i hi x y m hm => layer_dense cfg (params i) (f i) (hp i hi) hu hall cap hcap hle x y m hm) _ _ _ _ _ hx2 []
    refine ⟨finalMetrics aux [], ?_⟩
    rw [this]
  obtain ⟨m', hm'⟩ := henc'
  rw [hm']
  refine ⟨m', ?_⟩
  simp only at h ⊢
  generalize (if classifier = "token".toList ∨ classifier = "0".toList then Except.ok (x.map (·.headD 0))
        else if classifier = "gap".toList then .ok (x.map mean)
        else if classifier = "map".toList then .ok (x.map p.mapHead)
        else .error .valueError : Except PyErr (List (Vec c))) = pooled at h ⊢
  rcases pooled with err | y
  · cases h
  · cases h
    rfl

/-! The copies are made by the rule `expand_tile` (vmoe/initialization/mapping.py:39-43). -/

/-- The arrays of a dense MLP: parameter `k` is in the tree at the path `path k`. -/
def mlpParams {ι D α : Type} (zero : NdArray α) (tree : List (Key × FlatDict.Tree (Mapping.Arr D α))) (path : ι → List Key)
    (k : ι) : NdArray α :=
  match leafOf tree (path k) with
  | some v => v.value
  | none => zero

/-- The arrays of one expert: parameter `k` of all experts is in the tree at the path `path k`. -/
def expertParams {ι D α : Type} (zero : NdArray α) (tree : List (Key × FlatDict.Tree (Mapping.Arr D α))) (path : ι → List Key)
    (e : Nat) (k : ι) : NdArray α :=
  match leafOf tree (path k) with
  | some v => expertOf v.value e
  | none => zero

/-- C125.  An array of the checkpoint that a rule `expand_tile` with axis 0 and `E` repetitions maps to an array of the model is
afterwards the parameter of each of the `E` experts. -/
theorem C125_initialized {D α : Type} [DecidableEq D] (env : Mapping.Env D α) (rules : List Mapping.Rule) (flags : Mapping.Flags)
    (hf : flags.raiseShape = true) (source target l : List (Key × FlatDict.Tree (Mapping.Arr D α))) (hs : ItemsOk source)
    (ht : ItemsOk target) (h : Mapping.mapStateDict env rules flags source target = .ok (.node l)) (src dst : List Key)
    (x t : Mapping.Arr D α) (hx : leafOf source src = some x) (htl : leafOf target dst = some t) (hd : x.dtype = t.dtype)
    (a : Mapping.Action) (E : Nat) (hk : a.kind = .single (.expandTile [0] [E])) (hg : GoesTo rules (join src) (join dst) a) :
    ∃ v, leafOf l dst = some v ∧ v.value.shape = E :: x.value.shape ∧ v.dtype = t.dtype ∧
      ∀ e < E, NdArray.Same (expertOf v.value e) x.value := by
  obtain ⟨l', hl, -, hass⟩ := Mapping.C54_assignment env rules flags source target ht _ h
  cases hl
  obtain ⟨v, hv, hcase⟩ := hass dst t htl
  have hget := Mapping.get?_of_leafOf source hs src x hx
  have hmem : join src ∈ PyDict.keys (flatten source) := by
    by_contra hn
    rw [(PyDict.get?_eq_none _ _).2 hn] at hget
    cases hget
  rcases hcase with ⟨hno, -⟩ | ⟨k, a', s, x', hkm, hga, huniq, hak, hgx, happ⟩ | ⟨k, ks, a', axis, xs, hiff, -, hst, -⟩
  · exact absurd hg (hno _ hmem a)
  · have hk' := huniq _ hmem a hg
    subst hk'
    have haa : a' = a := by
      rw [(Mapping.handledBy_iff _ _ _).1 hga.1, (Mapping.handledBy_iff _ _ _).1 hg.1]
    subst haa
    rw [hk] at hak
    cases hak
    rw [hget] at hgx
    cases hgx
    obtain ⟨y, hy, hsh, hyg⟩ := InitRules.C56_tile_experts x.value E
    have hcall : (Mapping.Tx.single (.expandTile [0] [E]) x t).call env = .ok ⟨x.dtype, y, false⟩ := by
      unfold Mapping.Tx.call
      simp only
      rw [hy]
      rfl
    obtain ⟨-, hval⟩ := Mapping.C56_no_broadcast env flags hf _ _ hcall
    obtain ⟨hshape, hvg⟩ := hval v happ
    obtain ⟨hdt, hvs⟩ := Mapping.C56_target_shape env flags _ v happ
    have hvs' : v.value.shape = E :: x.value.shape := by rw [hvs, ← hshape]; exact hsh
    refine ⟨v, hv, hvs', hdt, ?_⟩
    intro e he
    refine ⟨?_, ?_⟩
    · change v.value.shape.tail = _
      rw [hvs']
      rfl
    · intro idx hidx
      change NdArray.Valid v.value.shape.tail idx at hidx
      rw [hvs'] at hidx
      change v.value.get (e :: idx) = _
      rw [hvg]
      exact (if_pos hd).trans (hyg e idx he hidx)
  · obtain ⟨ax, hax⟩ := hst _ ((hiff _).2 ⟨hmem, a, hg⟩) a hg
    rw [hk] at hax
    cases hax

/-- C125 (upcycling).  A sparse model is initialized from the checkpoint of a dense model with rules that copy the arrays of the
MLP of each MoE block to all the experts of the block.  Then, if every token asks for all experts and there is room for all the
tokens, it makes the predictions of the dense model. -/
theorem C125_upcycled {ι D' : Type} [DecidableEq D'] (env : Mapping.Env D' ℝ) (rules : List Mapping.Rule) (flags : Mapping.Flags)
    (hf : flags.raiseShape = true) (source target l : List (Key × FlatDict.Tree (Mapping.Arr D' ℝ))) (hs : ItemsOk source)
    (ht : ItemsOk target) (hmap : Mapping.mapStateDict env rules flags source target = .ok (.node l)) (zero : NdArray ℝ)
    (p : Params ph pw D c r) (classifier : List Char) (num_classes : Option Nat)
    (position_emb : Option (Option PosEmb)) (cfg : MoeConfig c (ι → NdArray ℝ))
    (hmlp : ∀ a b : ι → NdArray ℝ, (∀ k, NdArray.Same (a k) (b k)) → cfg.mlp a = cfg.mlp b)
    (kernel : Nat → Fin c → Fin E → ℝ) (z : Nat → Nat → Nat → Nat → ℝ)
    (blocks : Nat → BlockFns (Seq T c)) (aux : LayerMetrics → ℝ) (post : Seq T c → Seq T c)
    (pe : List (Vec c)) (numLayers : Nat) (moeLayers : List Int) (src dst : Nat → ι → List Key)
    (hrule : ∀ i : Nat, (i : Int) ∈ moeLayers → ∀ k, ∃ x t a, leafOf source (src i k) = some x ∧ leafOf target (dst i k) = some t ∧
      x.dtype = t.dtype ∧ a.kind = .single (.expandTile [0] [E]) ∧ GoesTo rules (join (src i k)) (join (dst i k)) a)
    (hu : Unrounded cfg) (hall : AllSelected cfg E)
    (cap : Nat) (hcap : Capacity cfg E cap) (hle : cfg.groupSize ≤ cap) (images : List (Image H W D)) (out m)
    (h : visionTransformer p classifier num_classes position_emb
        (encoder T cfg (fun i => ⟨kernel i, fun e => expertParams zero l (dst i) e, z i⟩) blocks
          (fun i v t => cfg.mlp (mlpParams zero source (src i)) (v t)) aux post pe numLayers moeLayers) images = .ok (out, m)) :
    ∃ m', visionTransformer p classifier num_classes position_emb
        (encoder T cfg (fun i => ⟨kernel i, fun e => expertParams zero l (dst i) e, z i⟩) blocks
          (fun i v t => cfg.mlp (mlpParams zero source (src i)) (v t)) aux post pe numLayers []) images = .ok (out, m') := by
  apply C125_model p classifier num_classes position_emb cfg _ (fun i => cfg.mlp (mlpParams zero source (src i))) blocks aux post
    pe numLayers moeLayers _ hu hall cap hcap hle images out m h
  intro i hi e
  apply hmlp
  intro k
  obtain ⟨x, t, a, hx, htl, hd, hk, hg⟩ := hrule i hi k
  obtain ⟨v, hv, -, -, hsame⟩ := C125_initialized env rules flags hf source target l hs ht hmap (src i k) (dst i k) x t hx htl hd a
    E hk hg
  unfold expertParams mlpParams
  simp only [hv, hx]
  exact hsame e e.2

/-! An example: a dense model with one block whose MLP multiplies by 3, in the checkpoint under `k`; the sparse model has two
experts, under `m`. -/

/-- The MLP multiplies by its only parameter, an array without axes. -/
noncomputable def exMlp (a : Unit → NdArray ℝ) (v : Fin 1 → ℝ) : Fin 1 → ℝ :=
  open Classical in if (a ()).shape = [] then fun i => (a ()).get [] * v i else v

theorem exMlp_same (a b : Unit → NdArray ℝ) (h : ∀ k, NdArray.Same (a k) (b k)) : exMlp a = exMlp b := by
  funext v
  unfold exMlp
  have h1 := (h ()).1
  by_cases hs : (a ()).shape = []
  · rw [if_pos hs, if_pos (h1 ▸ hs), (h ()).2 [] (by rw [hs]; exact .nil)]
  · rw [if_neg hs, if_neg (h1 ▸ hs)]

/-- Both experts are selected, each has room for the groups of two tokens, and there is noise. -/
noncomputable def exConfig (K : Nat) : MoeConfig 1 (Unit → NdArray ℝ) where
  fl := id
  cdf := id
  bf := id
  router := .topExperts ⟨K, 1, 0, 0, 0, ⟨"einsum", false, some 2, none, "ceil", none, false⟩, false⟩
  groupSize := 2
  oob := fun _ => 0
  mlp := exMlp

noncomputable def exSource : List (Key × FlatDict.Tree (Mapping.Arr Nat ℝ)) := [("k".toList, .leaf ⟨0, ⟨[], fun _ => 3⟩, false⟩)]

noncomputable def exTarget : List (Key × FlatDict.Tree (Mapping.Arr Nat ℝ)) := [("m".toList, .leaf ⟨0, ⟨[2], fun _ => 0⟩, false⟩)]

noncomputable def exEnv : Mapping.Env Nat ℝ :=
  { promote := fun a _ => a, cast := fun _ x => x, sqrt := id, zoom := fun x _ => x,
    noise := fun _ => { shape := [], get := fun _ => 0 }, float := id }

def exRules : List Mapping.Rule :=
  [{ search := fun k => k == "k".toList, action := { rename := fun _ => "m".toList, kind := .single (.expandTile [0] [2]) } }]

theorem exGoes : GoesTo exRules "k".toList "m".toList { rename := fun _ => "m".toList, kind := .single (.expandTile [0] [2]) } :=
  ⟨(Mapping.handledBy_iff _ _ _).2 rfl, by simp, rfl⟩

theorem exSource_ok : ItemsOk exSource := by
  simp only [exSource, ItemsOk, Tree.Ok, PyDict.keys]
  decide

theorem exTarget_ok : ItemsOk exTarget := by
  simp only [exTarget, ItemsOk, Tree.Ok, PyDict.keys]
  decide

theorem exMapped : ∃ l, Mapping.mapStateDict exEnv exRules {} exSource exTarget = .ok (.node l) := by
  have hkeys : PyDict.keys (flatten exSource) = ["k".toList] := rfl
  have hk : ∀ k ∈ PyDict.keys (flatten exSource), k = "k".toList := by
    intro k h
    rw [hkeys] at h
    simpa using h
  have s1 : PyDict.get? (flatten exSource) "k".toList = some (.leaf ⟨0, ⟨[], fun _ => 3⟩, false⟩) := rfl
  have t1 : PyDict.get? (flatten exTarget) "m".toList = some (.leaf ⟨0, ⟨[2], fun _ => 0⟩, false⟩) := rfl
  have hgt : ∀ dst a, GoesTo exRules "k".toList dst a → dst = "m".toList ∧
      a = { rename := fun _ => "m".toList, kind := .single (.expandTile [0] [2]) } := by
    intro dst a h
    have ha := (Mapping.handledBy_iff _ _ _).1 h.1
    have : Mapping.act exRules "k".toList = { rename := fun _ => "m".toList, kind := .single (.expandTile [0] [2]) } := rfl
    rw [this] at ha
    subst ha
    exact ⟨h.2.2.symm, rfl⟩
  obtain ⟨q, hq⟩ : ∃ q, Mapping.mapStateDict exEnv exRules {} exSource exTarget = .ok q := by
    refine Mapping.C54_success _ _ _ _ _ exSource_ok exTarget_ok ?_ ?_ ?_ ?_ ?_ ?_
    · intro _ k h
      rw [hk k h]
      exact ⟨_, [], [], rfl, rfl, by simp⟩
    · intro k h dst a hg
      rw [hk k h] at hg ⊢
      obtain ⟨rfl, rfl⟩ := hgt dst a hg
      exact .inl ⟨_, _, s1, t1, by simp⟩
    · intro k h k' h' dst a a' hne
      exact absurd ((hk k h).trans (hk k' h').symm) hne
    · intro _ dst t hd
      refine ⟨"k".toList, by rw [hkeys]; simp, ?_⟩
      by_cases hm : dst = "m".toList
      · subst hm
        exact ⟨_, exGoes⟩
      · have hn : dst ∉ PyDict.keys (flatten exTarget) := by
          rw [show PyDict.keys (flatten exTarget) = ["m".toList] from rfl]
          simpa using hm
        rw [(PyDict.get?_eq_none _ _).2 hn] at hd
        cases hd
    · intro k h dst a s x t hg ha hx ht
      rw [hk k h] at hg hx
      obtain ⟨rfl, rfl⟩ := hgt dst a hg
      rw [s1] at hx
      rw [t1] at ht
      cases hx
      cases ht
      cases ha
      exact ⟨_, rfl⟩
    · intro k ks dst a axis xs t hm _ hg ha
      have h := ((hm k).1 (by simp)).1
      rw [hk k h] at hg
      obtain ⟨rfl, rfl⟩ := hgt dst a hg
      cases ha
  obtain ⟨l, rfl, -⟩ := Mapping.C54_assignment _ _ _ _ _ exTarget_ok _ hq
  exact ⟨l, hq⟩

theorem exLayer_runs (K : Nat) (h1 : 0 < K) (h2 : K ≤ 2) (p : MoeParams 1 2 (Unit → NdArray ℝ)) (x : List (Seq 2 1)) :
    ∃ y m, moeLayer (exConfig K) p x = .ok (y, m) := by
  obtain ⟨out, m, h, -⟩ := MoeBlock.C72_block_output (exConfig K).fl (exConfig K).cdf (exConfig K).bf
    ⟨K, 1, 0, 0, 0, ⟨"einsum", false, some 2, none, "ceil", none, false⟩, false⟩ 2 p.kernel p.z (exConfig K).oob p.experts (exConfig K).mlp
    x.get (by decide) ⟨x.length, Nat.mul_comm _ _⟩ (by decide) h1 h2 (Or.inl rfl) 2 rfl
  refine ⟨List.ofFn out, .topExperts _ m, ?_⟩
  have h' : MoeBlock.mlpMoeBlock (exConfig K).fl (exConfig K).cdf (exConfig K).bf
      ⟨K, 1, 0, 0, 0, ⟨"einsum", false, some 2, none, "ceil", none, false⟩, false⟩ (exConfig K).groupSize p.kernel p.z (exConfig K).oob
      p.experts (exConfig K).mlp x.get = .ok (out, m) := h
  unfold moeLayer
  rw [show (exConfig K).router = .topExperts ⟨K, 1, 0, 0, 0, ⟨"einsum", false, some 2, none, "ceil", none, false⟩, false⟩ from rfl]
  simp only
  rw [h']
  rfl

/-- The hypotheses of `C125_upcycled` are met: with any kernel and noise of the router, the initialized model with two selected
experts makes the predictions of the dense model. -/
example (p : Params 1 1 1 1 1) (kernel : Nat → Fin 1 → Fin 2 → ℝ) (z : Nat → Nat → Nat → Nat → ℝ)
    (blocks : Nat → BlockFns (Seq 2 1)) (images : List (Image 2 1 1)) :
    ∃ l out m m', Mapping.mapStateDict exEnv exRules {} exSource exTarget = .ok (.node l) ∧
      visionTransformer p "gap".toList (some 3) none
        (encoder 2 (exConfig 2) (fun i => ⟨kernel i, fun e => expertParams ⟨[], fun _ => 0⟩ l (fun _ => ["m".toList]) e, z i⟩) blocks
          (fun _ v t => exMlp (mlpParams ⟨[], fun _ => 0⟩ exSource (fun _ => ["k".toList])) (v t)) (fun _ => 0) id [0, 0] 1 [0])
        images = .ok (out, m) ∧
      visionTransformer p "gap".toList (some 3) none
        (encoder 2 (exConfig 2) (fun i => ⟨kernel i, fun e => expertParams ⟨[], fun _ => 0⟩ l (fun _ => ["m".toList]) e, z i⟩) blocks
          (fun _ v t => exMlp (mlpParams ⟨[], fun _ => 0⟩ exSource (fun _ => ["k".toList])) (v t)) (fun _ => 0) id [0, 0] 1 [])
        images = .ok (out, m') := by
  obtain ⟨l, hl⟩ := exMapped
  have hruns : ∃ out m, visionTransformer p "gap".toList (some 3) none
        (encoder 2 (exConfig 2) (fun i => ⟨kernel i, fun e => expertParams ⟨[], fun _ => 0⟩ l (fun _ => ["m".toList]) e, z i⟩) blocks
          (fun _ v t => exMlp (mlpParams ⟨[], fun _ => 0⟩ exSource (fun _ => ["k".toList])) (v t)) (fun _ => 0) id [0, 0] 1 [0])
        images = .ok (out, m) := by
    have hpre : ∀ x : List (Seq 2 1), ∃ y, x.mapM (addPos none [0, 0]) = .ok y := by
      intro x
      refine ⟨_, DataPipeline.mapM_ok_eq (g := fun v (t : Fin 2) => (List.zipWith (· + ·) (List.ofFn v) [0, 0]).getD t 0) ?_⟩
      intro v _
      rfl
    have henc : ∀ x, ∃ y m, encoder 2 (exConfig 2)
        (fun i => ⟨kernel i, fun e => expertParams ⟨[], fun _ => 0⟩ l (fun _ => ["m".toList]) e, z i⟩) blocks
        (fun _ v t => exMlp (mlpParams ⟨[], fun _ => 0⟩ exSource (fun _ => ["k".toList])) (v t)) (fun _ => 0) id [0, 0] 1 [0]
        none x = .ok (y, m) := by
      intro x
      unfold encoder encoderMoe
      obtain ⟨y, hy⟩ := hpre (x.map fun l t => l.getD t 0)
      rw [hy]
      simp only
      rw [show List.range 1 = [0] from rfl, loop, if_pos (by simp)]
      unfold moeBlock
      simp only
      obtain ⟨q, mq, hq⟩ := exLayer_runs 2 (by decide) (le_refl 2)
        ⟨kernel 0, fun e => expertParams ⟨[], fun _ => 0⟩ l (fun _ => ["m".toList]) e, z 0⟩
        ((attention (blocks 0) y).map (blocks 0).norm)
      rw [hq]
      simp only
      rw [loop]
      exact ⟨_, _, rfl⟩
    obtain ⟨y, m, hy⟩ := henc (images.map (tokens p "gap".toList))
    unfold visionTransformer
    rw [show encoderPosEmb none (convSize 2 1) (convSize 1 1) = .ok none from rfl]
    simp only
    rw [hy]
    simp only
    rw [if_neg (by decide), if_pos trivial]
    exact ⟨_, _, rfl⟩
  obtain ⟨out, m, h⟩ := hruns
  obtain ⟨m', h'⟩ := C125_upcycled (ι := Unit) exEnv exRules {} rfl exSource exTarget l exSource_ok exTarget_ok hl ⟨[], fun _ => 0⟩ p
    "gap".toList (some 3) none (exConfig 2) exMlp_same kernel z blocks (fun _ => 0) id [0, 0] 1 [0] (fun _ _ => ["k".toList])
    (fun _ _ => ["m".toList]) (fun _ _ _ => ⟨_, _, _, rfl, rfl, rfl, rfl, exGoes⟩) rfl rfl 2 rfl (le_refl 2) images out m h
  exact ⟨l, out, m, m', hl, h, h'⟩

/-- `C125_fewer_experts`: with one of the two experts selected, the batch with the token 1 gets something else. -/
example (kernel : Fin 1 → Fin 2 → ℝ) (z : Nat → Nat → Nat → ℝ) : ∃ y m,
    moeLayer (exConfig 1) ⟨kernel, fun _ _ => ⟨[], fun _ => 3⟩, z⟩ [(fun _ _ => 1 : Seq 2 1)] = .ok (y, m) ∧ y ≠ [fun _ _ => 3] := by
  obtain ⟨y, m, h⟩ := exLayer_runs 1 (by decide) (by decide) ⟨kernel, fun _ _ => ⟨[], fun _ => 3⟩, z⟩ [(fun _ _ => 1 : Seq 2 1)]
  refine ⟨y, m, h, ?_⟩
  have hval : exMlp (fun _ => ⟨[], fun _ => 3⟩) (fun _ => 1) = fun _ => 3 := by
    unfold exMlp
    rw [if_pos rfl]
    simp
  have := C125_fewer_experts (exConfig 1) ⟨kernel, fun _ _ => ⟨[], fun _ => 3⟩, z⟩ (exMlp fun _ => ⟨[], fun _ => 3⟩) (fun _ => rfl) rfl _ rfl
    (by decide) _ y m h (fun _ _ => 1) (by simp) 0 (by
      rw [hval]
      intro h0
      have := congrFun h0 0
      simp at this)
  simp only [List.map_cons, List.map_nil, hval] at this
  exact this

end Verif.Upcycling
