import Verif.Props.VmoeModel

/-!
C120: what the images at the end of a batch (such as the padding of the last batch of an evaluation) do to the ones before them.
-/

namespace Verif.Vmoe

open Verif Verif.Encoder Verif.Vit Verif.Spec Verif.Moe

variable {T c E : Nat} {P : Type}

/-- A function on batches where the first results only depend on the first items. -/
def Causal {V W M : Type} (f : List V → Except PyErr (List W × M)) : Prop :=
  ∀ n x x' y y' m m', x.take n = x'.take n → f x = .ok (y, m) → f x' = .ok (y', m') → y.take n = y'.take n

theorem kept_causal {S cap : Nat} (hE : 0 < E) (gates gates' : Fin S → Fin E → ℝ) (s : Fin S) (e : Fin E)
    (h : ∀ s' ≤ s, gates s' = gates' s') : Kept hE false gates 1 cap s e ↔ Kept hE false gates' 1 cap s e := by
  have hr : ∀ s' ≤ s, choiceRank gates s' e = choiceRank gates' s' e := by
    intro s' hs'
    unfold choiceRank
    rw [h s' hs']
  have hslot : ∀ g : Fin S → Fin E → ℝ, choiceRank g s e = 0 → slot hE false g 1 s e =
      (Finset.univ.filter fun s' : Fin S => s' < s ∧ choiceRank g s' e = 0).card := by
    intro g h0
    unfold slot Requests HigherPriority ItemBefore
    congr 1
    ext s'
    simp only [Finset.mem_filter, Finset.mem_univ, true_and, h0, Bool.false_eq_true, if_false]
    constructor
    · rintro ⟨h1, h2 | h2⟩
      · omega
      · exact ⟨h2.2, h2.1⟩
    · rintro ⟨h1, h2⟩
      exact ⟨by omega, .inr ⟨h2, h1⟩⟩
  unfold Kept Requests
  rw [← hr s le_rfl]
  refine and_congr_right fun h1 => ?_
  have h0 : choiceRank gates s e = 0 := by omega
  rw [hslot gates h0, hslot gates' (by rw [← hr s le_rfl]; exact h0)]
  have : (Finset.univ.filter fun s' : Fin S => s' < s ∧ choiceRank gates s' e = 0) =
      (Finset.univ.filter fun s' : Fin S => s' < s ∧ choiceRank gates' s' e = 0) := by
    ext s'
    simp only [Finset.mem_filter, Finset.mem_univ, true_and]
    refine and_congr_right fun h2 => ?_
    rw [hr s' h2.le]
  rw [this]

theorem tokenOf_prefix {M : Type*} [Inhabited M] {T n j : Nat} (x x' : List (Fin T → M)) (h : x.take n = x'.take n)
    (hj : j < n * T) : tokenOf x.get j = tokenOf x'.get j := by
  have hT : 0 < T := by
    rcases Nat.eq_zero_or_pos T with h0 | h0
    · subst h0; simp at hj
    · exact h0
  have hlt : j / T < n := by rw [Nat.div_lt_iff_lt_mul hT]; exact hj
  have hm : j % T < T := Nat.mod_lt _ hT
  have hget : x[j / T]? = x'[j / T]? := by
    have := congrArg (·[j / T]?) h
    simpa [List.getElem?_take, hlt] using this
  unfold tokenOf
  by_cases h1 : j / T < x.length
  · have h2 : j / T < x'.length := by
      rw [List.getElem?_eq_getElem h1] at hget
      exact (List.getElem?_eq_some_iff.1 hget.symm).1
    rw [dif_pos ⟨h1, hm⟩, dif_pos ⟨h2, hm⟩]
    rw [List.getElem?_eq_getElem h1, List.getElem?_eq_getElem h2] at hget
    simp only [List.get_eq_getElem]
    rw [Option.some.inj hget]
  · have h2 : ¬ j / T < x'.length := by
      intro h2
      rw [List.getElem?_eq_none (by omega), List.getElem?_eq_getElem h2] at hget
      cases hget
    rw [dif_neg (fun h => h1 h.1), dif_neg (fun h => h2 h.1)]

/-- C120.  In a MoE layer where every item chooses one expert, without batch priority (and without noise), the results for the
first images do not depend on the images after them. -/
theorem C120_layer (cfg : MoeConfig c P) (p : MoeParams c E P) (r : MoeBlock.RouterConfig) (hr : cfg.router = .topExperts r)
    (hn : r.deterministic = true ∨ r.noiseStd = 0) (hK : r.numSelected = 1) (hbp : r.dispatcher.batchPriority = false) :
    Causal (moeLayer (T := T) cfg p) := by
  intro n x x' y y' m m' hx h h'
  have hstd := usedStd_zero (E := E) r hn
  unfold moeLayer at h h'
  rw [hr] at h h'
  simp only at h h'
  split at h
  · cases h
  rename_i out m1 hy
  cases h
  split at h'
  · cases h'
  rename_i out' m1' hy'
  cases h'
  obtain ⟨⟨hS, hdiv⟩, ⟨hk1, hk2⟩, hname, cap, hcap⟩ := success hy
  obtain ⟨⟨-, hdiv'⟩, -⟩ := success hy'
  have hE : 0 < E := Nat.lt_of_lt_of_le hk1 hk2
  obtain ⟨o1, q1, e1, f1⟩ := MoeBlock.C72_block_output cfg.fl cfg.cdf cfg.bf r cfg.groupSize p.kernel p.z cfg.oob
    p.experts cfg.mlp x.get hS hdiv hE hk1 hk2 hname cap hcap
  rw [hy] at e1
  cases e1
  obtain ⟨o2, q2, e2, f2⟩ := MoeBlock.C72_block_output cfg.fl cfg.cdf cfg.bf r cfg.groupSize p.kernel p.z cfg.oob
    p.experts cfg.mlp x'.get hS hdiv' hE hk1 hk2 hname cap hcap
  rw [hy'] at e2
  cases e2
  apply List.ext_getElem?
  intro b
  rw [List.getElem?_take, List.getElem?_take]
  split
  swap
  · rfl
  rename_i hb
  have hget : x[b]? = x'[b]? := by
    have := congrArg (·[b]?) hx
    simpa [List.getElem?_take, hb] using this
  by_cases h1 : b < x.length
  · have h2 : b < x'.length := by
      rw [List.getElem?_eq_getElem h1] at hget
      exact (List.getElem?_eq_some_iff.1 hget.symm).1
    rw [List.getElem?_ofFn, List.getElem?_ofFn, dif_pos h1, dif_pos h2]
    congr 1
    funext t i
    have g1 := f1 ⟨b, h1⟩ t i
    have g2 := f2 ⟨b, h2⟩ t i
    simp only [hstd] at g1 g2
    rw [g1, g2]
    have hv : x.get ⟨b, h1⟩ = x'.get ⟨b, h2⟩ := by
      rw [List.getElem?_eq_getElem h1, List.getElem?_eq_getElem h2] at hget
      exact Option.some.inj hget
    have hgates : ∀ s ≤ (⟨tokenNumber T b t % cfg.groupSize, Nat.mod_lt _ hS⟩ : Fin cfg.groupSize),
        tokenGates cfg.groupSize p.kernel 0 p.z x.get (tokenNumber T b t / cfg.groupSize) s =
          tokenGates cfg.groupSize p.kernel 0 p.z x'.get (tokenNumber T b t / cfg.groupSize) s := by
      intro s hs
      unfold tokenGates
      rw [tokenOf_prefix x x' hx]
      have h3 : tokenNumber T b t / cfg.groupSize * cfg.groupSize + s.1 ≤ tokenNumber T b t := by
        have h4 := Nat.div_add_mod' (tokenNumber T b t) cfg.groupSize
        have h5 : s.1 ≤ tokenNumber T b t % cfg.groupSize := hs
        omega
      have h6 : tokenNumber T b t < n * T := by
        unfold tokenNumber
        have := Nat.mul_le_mul_right T (Nat.succ_le_of_lt hb)
        have := t.2
        rw [Nat.succ_mul] at *
        omega
      omega
    rw [hK, hbp]
    apply Finset.sum_congr
    · ext e
      simp only [Finset.mem_filter, Finset.mem_univ, true_and]
      exact kept_causal hE _ _ _ e hgates
    · intro e _
      rw [hgates _ le_rfl, hv]
  · have h2 : ¬ b < x'.length := by
      intro h2
      rw [List.getElem?_eq_none (by omega), List.getElem?_eq_getElem h2] at hget
      cases hget
    rw [List.getElem?_ofFn, List.getElem?_ofFn, dif_neg h1, dif_neg h2]

theorem loop_causal {V M : Type} [Add V] (layers : Layers V M) (ids : List Int)
    (hp : ∀ i : Nat, (i : Int) ∈ ids → Causal (layers.moe i)) (blocks : List Nat) (n : Nat) :
    ∀ x x' ms ms' y y' q q', x.take n = x'.take n → loop layers ids blocks x ms = .ok (y, q) →
      loop layers ids blocks x' ms' = .ok (y', q') → y.take n = y'.take n := by
  induction blocks with
  | nil =>
    intro x x' ms ms' y y' q q' hx h h'
    rw [loop] at h h'
    cases h
    cases h'
    exact hx
  | cons b rest ih =>
    intro x x' ms ms' y y' q q' hx h h'
    have hatt : (attention (layers.fns b) x).take n = (attention (layers.fns b) x').take n := by
      unfold attention
      rw [← List.map_take, ← List.map_take, hx]
    by_cases hb : (b : Int) ∈ ids
    · rw [loop, if_pos hb] at h h'
      unfold moeBlock at h h'
      simp only at h h'
      split at h
      · cases h
      rename_i x1 m1 h1
      split at h1
      · cases h1
      rename_i y1 k1 hm1
      cases h1
      split at h'
      · cases h'
      rename_i x2 m2 h2
      split at h2
      · cases h2
      rename_i y2 k2 hm2
      cases h2
      refine ih _ _ _ _ _ _ _ _ ?_ h h'
      rw [List.take_zipWith, List.take_zipWith, hatt]
      congr 1
      refine hp b hb n _ _ _ _ _ _ ?_ hm1 hm2
      rw [← List.map_take, ← List.map_take, hatt]
    · rw [loop, if_neg hb] at h h'
      refine ih _ _ _ _ _ _ _ _ ?_ h h'
      unfold denseBlock
      simp only
      rw [List.take_zipWith, List.take_zipWith, hatt]
      congr 1
      rw [← List.map_take, ← List.map_take, ← List.map_take, ← List.map_take, hatt]

variable {ph pw D r H W : Nat}

/-- C120.  With one expert per item, without batch priority and noise, the predictions of the whole model for the first images do
not depend on the images after them: padding at the end of a batch changes nothing. -/
theorem C120_model (p : Params ph pw D c r) (classifier : List Char) (num_classes : Option Nat)
    (position_emb : Option (Option PosEmb)) (cfg : MoeConfig c P) (params : Nat → MoeParams c E P)
    (blocks : Nat → BlockFns (Seq T c)) (dense : Nat → Seq T c → Seq T c) (aux : LayerMetrics → ℝ) (post : Seq T c → Seq T c)
    (pe : List (Vec c)) (numLayers : Nat) (moeLayers : List Int) (rc : MoeBlock.RouterConfig)
    (hr : cfg.router = .topExperts rc) (hn : rc.deterministic = true ∨ rc.noiseStd = 0) (hK : rc.numSelected = 1)
    (hbp : rc.dispatcher.batchPriority = false) (images padding padding' : List (Image H W D)) (out out' m m')
    (h : visionTransformer p classifier num_classes position_emb
        (encoder T cfg params blocks dense aux post pe numLayers moeLayers) (images ++ padding) = .ok (out, m))
    (h' : visionTransformer p classifier num_classes position_emb
        (encoder T cfg params blocks dense aux post pe numLayers moeLayers) (images ++ padding') = .ok (out', m')) :
    (Out.rows out).take images.length = (Out.rows out').take images.length := by
  unfold visionTransformer at h h'
  rcases hpos : encoderPosEmb position_emb (convSize H ph) (convSize W pw) with err | pos
  · rw [hpos] at h; cases h
  rw [hpos] at h h'
  simp only at h h'
  split at h
  · cases h
  rename_i x ms henc
  split at h'
  · cases h'
  rename_i x' ms' henc'
  have hx : x.take images.length = x'.take images.length := by
    unfold encoder encoderMoe at henc henc'
    split at henc
    · cases henc
    rename_i y1 k1 h1
    cases henc
    split at henc'
    · cases henc'
    rename_i y2 k2 h2
    cases henc'
    split at h1
    · cases h1
    rename_i u1 hu1
    split at h1
    · cases h1
    rename_i v1 w1 hv1
    cases h1
    split at h2
    · cases h2
    rename_i u2 hu2
    split at h2
    · cases h2
    rename_i v2 w2 hv2
    cases h2
    have e1 := mapM_value 0 _ _ _ hu1
    have e2 := mapM_value 0 _ _ _ hu2
    have hu : u1.take images.length = u2.take images.length := by
      rw [e1, e2]
      simp only [List.map_append, List.map_map]
      rw [List.take_left' (by simp), List.take_left' (by simp)]
    have := loop_causal (⟨blocks, dense, fun i => moeLayer cfg (params i)⟩ : Layers (Seq T c) LayerMetrics) moeLayers
      (fun i _ => C120_layer cfg (params i) rc hr hn hK hbp) (List.range numLayers) images.length _ _ _ _ _ _ _ _ hu hv1 hv2
    rw [← List.map_take, ← List.map_take, ← List.map_take, ← List.map_take, this]
  have hrows : ∀ y : List (Vec r), ∃ w : Vec r → List ℝ ⊕ Vec r, ∀ y, Out.rows (finish p.head num_classes y) = y.map w := by
    intro _
    match num_classes with
    | none => exact ⟨.inr, fun x => rfl⟩
    | some 0 => exact ⟨.inr, fun x => rfl⟩
    | some (n + 1) =>
      refine ⟨fun v => .inl (p.head (n + 1) v), fun x => ?_⟩
      simp [finish, Out.rows]
  obtain ⟨w, hw⟩ := hrows []
  have hpool : ∀ (q : List (Vec c) → Vec c), ((x.map q).map p.preLogits |>.map w).take images.length =
      ((x'.map q).map p.preLogits |>.map w).take images.length := by
    intro q
    simp only [← List.map_take, hx]
  by_cases h1 : classifier = "token".toList ∨ classifier = "0".toList
  · rw [if_pos h1] at h h'
    cases h; cases h'
    rw [hw, hw]; exact hpool _
  · by_cases h2 : classifier = "gap".toList
    · rw [if_neg h1, if_pos h2] at h h'
      cases h; cases h'
      rw [hw, hw]; exact hpool _
    · by_cases h3 : classifier = "map".toList
      · rw [if_neg h1, if_neg h2, if_pos h3] at h h'
        cases h; cases h'
        rw [hw, hw]; exact hpool _
      · rw [if_neg h1, if_neg h2, if_neg h3] at h
        cases h

/-! With batch priority, or with two experts per item, padding does change the results. -/

/-- Options of a router with one place per expert. -/
noncomputable def exPadRouter (K : Nat) (bp : Bool) : MoeBlock.RouterConfig :=
  ⟨K, 0, 0, 0, 0, ⟨"einsum", bp, some 1, none, "ceil", none, false⟩, true⟩

/-- A layer with groups of two tokens, where every expert returns one. -/
noncomputable def exPad (K : Nat) (bp : Bool) : MoeConfig 1 Unit where
  fl := id
  cdf := id
  bf := id
  router := .topExperts (exPadRouter K bp)
  groupSize := 2
  oob := fun _ => 0
  mlp := fun _ _ _ => 1

/-- Images of one token with one feature; the logits of the two experts are the feature and zero. -/
def exPadParams : MoeParams 1 2 Unit := ⟨fun _ e => if e = 0 then 1 else 0, fun _ => (), fun _ _ _ => 0⟩

/-- An image of one token. -/
def one (a : ℝ) : Seq 1 1 := fun _ _ => a

/-- Gates of two such images. -/
noncomputable def exGates (a b : ℝ) : Fin 2 → Fin 2 → ℝ := ![gate exPadParams.kernel (one a 0), gate exPadParams.kernel (one b 0)]

theorem two_gates (x : Fin 2 → Seq 1 1) (s : Fin 2) :
    tokenGates 2 exPadParams.kernel 0 (fun _ _ _ => 0) x 0 s = gate exPadParams.kernel (x s 0) := by
  have h1 := gates_token (S := 2) exPadParams.kernel (fun _ _ _ => 0) x s 0 (by decide)
  have hd : tokenNumber 1 s (0 : Fin 1) / 2 = 0 := by
    have := s.2
    simp only [tokenNumber, Fin.val_zero]
    omega
  have hm : (⟨tokenNumber 1 s (0 : Fin 1) % 2, Nat.mod_lt _ (by decide)⟩ : Fin 2) = s := by
    apply Fin.ext
    have := s.2
    simp only [tokenNumber, Fin.val_zero]
    omega
  rw [hd, hm] at h1
  exact h1

theorem two_value (K : Nat) (h0 : 0 < K) (hK : K ≤ 2) (bp : Bool) (x : Fin 2 → Seq 1 1) : ∃ (out : Fin 2 → Seq 1 1) (m : _),
    MoeBlock.mlpMoeBlock (P := Unit) id id id (exPadRouter K bp) 2 exPadParams.kernel (fun _ _ _ => 0) (fun _ => 0)
      exPadParams.experts (fun _ _ _ => (1 : ℝ)) x = .ok (out, m) ∧
    ∀ i, out 0 0 i = ∑ e ∈ Finset.univ.filter (fun e => Kept (by decide) bp (fun s => gate exPadParams.kernel (x s 0)) K 1 0 e),
      gate exPadParams.kernel (x 0 0) e := by
  obtain ⟨out, m, h, ho⟩ := MoeBlock.C72_block_output (P := Unit) id id id (exPadRouter K bp) 2 exPadParams.kernel (fun _ _ _ => 0)
    (fun _ => 0) exPadParams.experts (fun _ _ _ => (1 : ℝ)) x (by decide) ⟨1, rfl⟩ (by decide) h0 hK (Or.inl rfl) 1
    rfl
  have hstd : MoeBlock.usedStd (exPadRouter K bp) 2 = 0 := if_pos rfl
  refine ⟨out, m, h, ?_⟩
  intro i
  have h1 := ho 0 0 i
  simp only [hstd] at h1
  rw [h1]
  have hg : tokenGates 2 exPadParams.kernel 0 (fun _ _ _ => 0) x (tokenNumber 1 (0 : Fin 2) (0 : Fin 1) / 2) =
      fun s => gate exPadParams.kernel (x s 0) := by
    funext s
    rw [← two_gates x s]
    congr 1
  have hs : (⟨tokenNumber 1 (0 : Fin 2) (0 : Fin 1) % 2, Nat.mod_lt _ (by decide)⟩ : Fin 2) = 0 := rfl
  rw [hg, hs]
  apply Finset.sum_congr
  · rfl
  · intro e _
    rw [show (exPadRouter K bp).dispatcher.bfloat16 = false from rfl]
    simp

theorem exPad_value (K : Nat) (h0 : 0 < K) (hK : K ≤ 2) (bp : Bool) (a b : ℝ) :
    ∃ y m, moeLayer (exPad K bp) exPadParams [one a, one b] = .ok (y, m) ∧
      y[0]? = some (one (∑ e ∈ Finset.univ.filter (fun e => Kept (by decide) bp (exGates a b) K 1 0 e), exGates a b 0 e)) := by
  obtain ⟨out, m, h, ho⟩ := two_value K h0 hK bp [one a, one b].get
  have hg : (fun s : Fin 2 => gate exPadParams.kernel ([one a, one b].get s 0)) = exGates a b := by
    funext s
    refine Fin.cases ?_ (fun s => ?_) s
    · rfl
    · refine Fin.cases ?_ (fun s => s.elim0) s
      rfl
  refine ⟨List.ofFn out, .topExperts _ m, ?_, ?_⟩
  · have h' : MoeBlock.mlpMoeBlock (exPad K bp).fl (exPad K bp).cdf (exPad K bp).bf (exPadRouter K bp) (exPad K bp).groupSize
      exPadParams.kernel exPadParams.z (exPad K bp).oob exPadParams.experts (exPad K bp).mlp [one a, one b].get =
        .ok (out, m) := h
    unfold moeLayer
    rw [show (exPad K bp).router = .topExperts (exPadRouter K bp) from rfl]
    simp only
    rw [h']
    rfl
  · have e0 : out 0 = one (∑ e ∈ Finset.univ.filter (fun e => Kept (by decide) bp (exGates a b) K 1 0 e), exGates a b 0 e) := by
      funext t i
      have ht : t = 0 := Subsingleton.elim _ _
      subst ht
      rw [ho i]
      rw [hg]
      rfl
    rw [← e0]
    rfl

theorem exGates_eq (a b : ℝ) : exGates a b 0 0 = Real.exp a / (Real.exp a + 1) ∧ exGates a b 0 1 = 1 / (Real.exp a + 1) ∧
    exGates a b 1 0 = Real.exp b / (Real.exp b + 1) ∧ exGates a b 1 1 = 1 / (Real.exp b + 1) := by
  unfold exGates gate expWeights exPadParams one
  simp [Fin.sum_univ_two]

theorem rank_two (g : Fin 2 → Fin 2 → ℝ) (s : Fin 2) : choiceRank g s 0 = (if g s 0 < g s 1 then 1 else 0) ∧
    choiceRank g s 1 = (if g s 1 ≤ g s 0 then 1 else 0) := by
  unfold choiceRank
  constructor
  · rw [Finset.card_filter, Fin.sum_univ_two]
    simp
  · rw [Finset.card_filter, Fin.sum_univ_two]
    simp [le_iff_lt_or_eq, eq_comm]

theorem slot_two (bp : Bool) (g : Fin 2 → Fin 2 → ℝ) (K : Nat) (e : Fin 2) : slot (by decide) bp g K 0 e =
    if choiceRank g 1 e < K ∧ (choiceRank g 1 e < choiceRank g 0 e ∨ choiceRank g 1 e = choiceRank g 0 e ∧ bp = true ∧
      topGate (by decide) g 0 < topGate (by decide) g 1) then 1 else 0 := by
  unfold slot
  rw [Finset.card_filter, Fin.sum_univ_two]
  have h0 : ¬ (Requests g K 0 e ∧ HigherPriority (by decide) bp g e 0 0) := by
    unfold HigherPriority ItemBefore
    cases bp <;> simp
  rw [if_neg h0, Nat.zero_add]
  unfold Requests HigherPriority ItemBefore
  cases bp <;> simp

theorem top_two (g : Fin 2 → Fin 2 → ℝ) (s : Fin 2) : topGate (by decide) g s = max (g s 0) (g s 1) := by
  unfold topGate
  apply le_antisymm
  · apply Finset.sup'_le
    intro e _
    refine Fin.cases ?_ (fun e => ?_) e
    · exact le_max_left _ _
    · refine Fin.cases ?_ (fun e => e.elim0) e
      exact le_max_right _ _
  · exact max_le (Finset.le_sup' (g s) (Finset.mem_univ 0)) (Finset.le_sup' (g s) (Finset.mem_univ 1))

/-- Sum of the gates of the kept requests of the first of two items. -/
theorem kept_sum (bp : Bool) (g : Fin 2 → Fin 2 → ℝ) (K : Nat) :
    (∑ e ∈ Finset.univ.filter (fun e => Kept (by decide) bp g K 1 0 e), g 0 e) =
      (if Kept (by decide) bp g K 1 0 0 then g 0 0 else 0) + (if Kept (by decide) bp g K 1 0 1 then g 0 1 else 0) := by
  rw [Finset.sum_filter, Fin.sum_univ_two]

theorem kept_iff (bp : Bool) (g : Fin 2 → Fin 2 → ℝ) (K : Nat) (e : Fin 2) : Kept (by decide) bp g K 1 0 e ↔
    choiceRank g 0 e < K ∧ ¬ (choiceRank g 1 e < K ∧ (choiceRank g 1 e < choiceRank g 0 e ∨
      choiceRank g 1 e = choiceRank g 0 e ∧ bp = true ∧ topGate (by decide) g 0 < topGate (by decide) g 1)) := by
  unfold Kept Requests
  rw [slot_two]
  refine and_congr_right fun _ => ?_
  split
  · simp_all
  · simp_all

/-- C120, limit.  With batch priority (even if every item chooses only one expert), or with two experts per item (even without
batch priority), the result for an image depends on the padding after it. -/
theorem C120_padding_counterexample : ∀ K bp, (K = 1 ∧ bp = true) ∨ (K = 2 ∧ bp = false) →
    ∃ (image padding padding' : Seq 1 1) (y y' : List (Seq 1 1)) (m m' : LayerMetrics),
      moeLayer (exPad K bp) exPadParams [image, padding] = .ok (y, m) ∧
      moeLayer (exPad K bp) exPadParams [image, padding'] = .ok (y', m') ∧ y[0]? ≠ y'[0]? := by
  have hA : 1 < Real.exp 1 := Real.one_lt_exp_iff.2 one_pos
  rintro K bp (⟨rfl, rfl⟩ | ⟨rfl, rfl⟩)
  · obtain ⟨y, m, h, hy⟩ := exPad_value 1 (by decide) (by decide) true 0 0
    obtain ⟨y', m', h', hy'⟩ := exPad_value 1 (by decide) (by decide) true 0 1
    refine ⟨_, _, _, y, y', m, m', h, h', ?_⟩
    rw [hy, hy', kept_sum, kept_sum]
    obtain ⟨a1, a2, a3, a4⟩ := exGates_eq 0 0
    obtain ⟨b1, b2, b3, b4⟩ := exGates_eq 0 1
    generalize Real.exp 1 = A at *
    rw [Real.exp_zero] at a1 a2 a3 a4 b1 b2
    have l1 : (1 : ℝ) / (1 + 1) < A / (A + 1) := by rw [div_lt_div_iff₀ (by norm_num) (by linarith)]; linarith
    have l2 : 1 / (A + 1) < A / (A + 1) := by rw [div_lt_div_iff_of_pos_right (by linarith)]; exact hA
    have r1 : choiceRank (exGates 0 0) 0 0 = 0 := by rw [(rank_two _ 0).1, a1, a2, if_neg (lt_irrefl _)]
    have k1 : Kept (by decide) true (exGates 0 0) 1 1 0 0 := by
      rw [kept_iff, top_two, top_two, r1, a1, a2, a3, a4]
      simp
    have r2 : choiceRank (exGates 0 0) 0 1 = 1 := by rw [(rank_two _ 0).2, a1, a2, if_pos le_rfl]
    have k2 : ¬ Kept (by decide) true (exGates 0 0) 1 1 0 1 := by
      rw [kept_iff, r2]
      simp
    have r3 : choiceRank (exGates 0 1) 0 0 = 0 := by rw [(rank_two _ 0).1, b1, b2, if_neg (lt_irrefl _)]
    have r4 : choiceRank (exGates 0 1) 1 0 = 0 := by rw [(rank_two _ 1).1, b3, b4, if_neg (not_lt.2 l2.le)]
    have k3 : ¬ Kept (by decide) true (exGates 0 1) 1 1 0 0 := by
      rw [kept_iff, top_two, top_two, r3, r4, b1, b2, b3, b4, max_self, max_eq_left l2.le]
      simp only [l1]
      simp
    have r5 : choiceRank (exGates 0 1) 0 1 = 1 := by rw [(rank_two _ 0).2, b1, b2, if_pos le_rfl]
    have k4 : ¬ Kept (by decide) true (exGates 0 1) 1 1 0 1 := by
      rw [kept_iff, r5]
      simp
    rw [if_pos k1, if_neg k2, if_neg k3, if_neg k4, a1]
    intro e
    have := congrFun (congrFun (Option.some.inj e) 0) 0
    norm_num [one] at this
  · obtain ⟨y, m, h, hy⟩ := exPad_value 2 (by decide) (by decide) false 1 1
    obtain ⟨y', m', h', hy'⟩ := exPad_value 2 (by decide) (by decide) false 1 (-1)
    refine ⟨_, _, _, y, y', m, m', h, h', ?_⟩
    rw [hy, hy', kept_sum, kept_sum]
    obtain ⟨a1, a2, a3, a4⟩ := exGates_eq 1 1
    obtain ⟨b1, b2, b3, b4⟩ := exGates_eq 1 (-1)
    have hB : Real.exp (-1) < 1 := Real.exp_lt_one_iff.2 (by norm_num)
    have hB0 : 0 < Real.exp (-1) := Real.exp_pos _
    generalize Real.exp 1 = A at *
    generalize Real.exp (-1) = B at *
    have l2 : 1 / (A + 1) < A / (A + 1) := by rw [div_lt_div_iff_of_pos_right (by linarith)]; exact hA
    have l3 : B / (B + 1) < 1 / (B + 1) := by rw [div_lt_div_iff_of_pos_right (by linarith)]; exact hB
    have r1 : choiceRank (exGates 1 1) 0 0 = 0 := by rw [(rank_two _ 0).1, a1, a2, if_neg (not_lt.2 l2.le)]
    have r1' : choiceRank (exGates 1 1) 1 0 = 0 := by rw [(rank_two _ 1).1, a3, a4, if_neg (not_lt.2 l2.le)]
    have r2 : choiceRank (exGates 1 1) 0 1 = 1 := by rw [(rank_two _ 0).2, a1, a2, if_pos l2.le]
    have r2' : choiceRank (exGates 1 1) 1 1 = 1 := by rw [(rank_two _ 1).2, a3, a4, if_pos l2.le]
    have k1 : Kept (by decide) false (exGates 1 1) 2 1 0 0 := by rw [kept_iff, r1, r1']; simp
    have k2 : Kept (by decide) false (exGates 1 1) 2 1 0 1 := by rw [kept_iff, r2, r2']; simp
    have r3 : choiceRank (exGates 1 (-1)) 0 0 = 0 := by rw [(rank_two _ 0).1, b1, b2, if_neg (not_lt.2 l2.le)]
    have r3' : choiceRank (exGates 1 (-1)) 1 0 = 1 := by rw [(rank_two _ 1).1, b3, b4, if_pos l3]
    have r4 : choiceRank (exGates 1 (-1)) 0 1 = 1 := by rw [(rank_two _ 0).2, b1, b2, if_pos l2.le]
    have r4' : choiceRank (exGates 1 (-1)) 1 1 = 0 := by rw [(rank_two _ 1).2, b3, b4, if_neg (not_le.2 l3)]
    have k3 : Kept (by decide) false (exGates 1 (-1)) 2 1 0 0 := by rw [kept_iff, r3, r3']; simp
    have k4 : ¬ Kept (by decide) false (exGates 1 (-1)) 2 1 0 1 := by rw [kept_iff, r4, r4']; simp
    rw [if_pos k1, if_pos k2, if_pos k3, if_neg k4, a1, a2, b1]
    intro e
    have := congrFun (congrFun (Option.some.inj e) 0) 0
    have hp : 0 < 1 / (A + 1) := by apply div_pos <;> linarith
    simp only [one] at this
    linarith

-- Non-vacuity: the router of `C119`, which has one expert per item and no batch priority.
example : exTight.router = .topExperts exTightRouter ∧ exTightRouter.deterministic = true ∧ exTightRouter.numSelected = 1 ∧
    exTightRouter.dispatcher.batchPriority = false := ⟨rfl, rfl, rfl, rfl⟩

-- It runs, and the first image is not affected by the second one.
example (p : MoeParams 1 1 Unit) (a b b' : Seq 1 1) : ∃ m m', moeLayer exTight p [a, b] = .ok ([a, 0], m) ∧
    moeLayer exTight p [a, b'] = .ok ([a, 0], m') := by
  obtain ⟨m, h⟩ := tight_value p a b
  obtain ⟨m', h'⟩ := tight_value p a b'
  exact ⟨m, m', h, h'⟩

end Verif.Vmoe
