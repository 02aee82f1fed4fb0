import Verif.Props.VmoeModel
import Verif.Props.SoftMoe

/-!
C126: the numbers of the experts do not matter.
-/

namespace Verif.Relabel

open Verif Verif.Vmoe Verif.Encoder Verif.Vit Verif.Spec Verif.Moe Verif.Aux

variable {T c E : Nat} {P : Type}

/-- The noise with the columns of the experts exchanged. -/
def renumberNoise (σ : Equiv.Perm (Fin E)) (z : Nat → Nat → Nat → ℝ) (g s n : Nat) : ℝ :=
  if h : n < E then z g s (σ ⟨n, h⟩) else z g s n

/-- The same layer with its experts in another order: expert `e` is the old expert `σ e`, with its column of the router. -/
def renumber (σ : Equiv.Perm (Fin E)) (p : MoeParams c E P) : MoeParams c E P :=
  ⟨fun h e => p.kernel h (σ e), fun e => p.experts (σ e), renumberNoise σ p.z⟩

/-- No token has the same gate for two experts. -/
def NoTies {S : Nat} (gates : Fin S → Fin E → ℝ) : Prop := ∀ s, Function.Injective (gates s)

variable {S K : Nat}

theorem rank_renumber (σ : Equiv.Perm (Fin E)) (gates : Fin S → Fin E → ℝ) (hn : NoTies gates) (s : Fin S) (e : Fin E) :
    choiceRank (fun s e => gates s (σ e)) s e = choiceRank gates s (σ e) := by
  unfold choiceRank
  apply Finset.card_equiv σ
  intro e'
  simp only [Finset.mem_filter, Finset.mem_univ, true_and]
  constructor
  · rintro (h | ⟨h, h'⟩)
    · exact .inl h
    · exact absurd (σ.injective (hn s h)) h'.ne
  · rintro (h | ⟨h, h'⟩)
    · exact .inl h
    · exact absurd (hn s h) h'.ne

theorem topGate_renumber (σ : Equiv.Perm (Fin E)) (hE : 0 < E) (gates : Fin S → Fin E → ℝ) (s : Fin S) :
    topGate hE (fun s e => gates s (σ e)) s = topGate hE gates s := by
  unfold topGate
  apply le_antisymm
  · apply Finset.sup'_le
    intro e _
    exact Finset.le_sup' (gates s) (Finset.mem_univ (σ e))
  · apply Finset.sup'_le
    intro e _
    have := Finset.le_sup' (fun e => gates s (σ e)) (Finset.mem_univ (σ.symm e))
    simpa using this

theorem kept_renumber (σ : Equiv.Perm (Fin E)) (hE : 0 < E) (bp : Bool) (gates : Fin S → Fin E → ℝ) (hn : NoTies gates)
    (cap : Nat) (s : Fin S) (e : Fin E) :
    Kept hE bp (fun s e => gates s (σ e)) K cap s e ↔ Kept hE bp gates K cap s (σ e) := by
  have hs : slot hE bp (fun s e => gates s (σ e)) K s e = slot hE bp gates K s (σ e) := by
    unfold slot
    congr 1
    ext s'
    simp only [Finset.mem_filter, Finset.mem_univ, true_and]
    unfold HigherPriority ItemBefore Requests
    simp only [rank_renumber σ gates hn, topGate_renumber σ hE gates]
  unfold Kept Requests
  rw [hs, rank_renumber σ gates hn]

theorem gates_renumber {B H : Nat} (σ : Equiv.Perm (Fin E)) (kernel : Fin H → Fin E → ℝ) (std : ℝ) (z : Nat → Nat → Nat → ℝ)
    (x : Fin B → Fin T → Fin H → ℝ) (g : Nat) :
    tokenGates S (fun h e => kernel h (σ e)) std (renumberNoise σ z) x g = fun s e => tokenGates S kernel std z x g s (σ e) := by
  funext s e
  unfold tokenGates expWeights
  have hz : ∀ e : Fin E, renumberNoise σ z g s e = z g s (σ e) := by
    intro e
    unfold renumberNoise
    rw [dif_pos e.2]
  simp only [hz]
  congr 1
  exact Equiv.sum_comp σ fun e => Real.exp ((∑ h, tokenOf x (g * S + s) h * kernel h e) + std * z g s e)

theorem sum_renumber (σ : Equiv.Perm (Fin E)) (A B : Fin E → Prop) [DecidablePred A] [DecidablePred B] (h : ∀ e, A e ↔ B (σ e))
    (f : Fin E → ℝ) : ∑ e ∈ Finset.univ.filter A, f (σ e) = ∑ e ∈ Finset.univ.filter B, f e := by
  apply Finset.sum_equiv σ
  · intro e
    simp [h e]
  · intro e _
    rfl

theorem mean_renumber (σ : Equiv.Perm (Fin E)) (f : Fin E → ℝ) : Aux.mean (fun e => f (σ e)) = Aux.mean f := by
  unfold Aux.mean
  rw [Equiv.sum_comp σ f]

theorem std_renumber (σ : Equiv.Perm (Fin E)) (f : Fin E → ℝ) : Aux.std (fun e => f (σ e)) = Aux.std f := by
  unfold Aux.std
  rw [mean_renumber σ f, mean_renumber σ fun e => (f e - Aux.mean f) ^ 2]

theorem importance_renumber (σ : Equiv.Perm (Fin E)) (gates : Fin S → Fin E → ℝ) :
    importanceLoss (fun s e => gates s (σ e)) = importanceLoss gates := by
  unfold importanceLoss
  simp only
  rw [std_renumber σ fun e => ∑ s, gates s e, mean_renumber σ fun e => ∑ s, gates s e]

theorem topK_renumber (σ : Equiv.Perm (Fin E)) (gates : Fin S → Fin E → ℝ) (hn : NoTies gates) (hK : K ≤ E) (s : Fin S)
    (k : Fin K) : topKIdx (fun e => gates s (σ e)) K hK k = σ.symm (topKIdx (gates s) K hK k) := by
  rw [topK_eq_iff_choiceRank (fun s e => gates s (σ e)) hK s k, rank_renumber σ gates hn, Equiv.apply_symm_apply,
    ← topK_eq_iff_choiceRank gates hK s k]

theorem gshard_renumber (σ : Equiv.Perm (Fin E)) (hE : 0 < E) (gates : Fin S → Fin E → ℝ) (hn : NoTies gates) :
    gshardLoss hE (fun s e => gates s (σ e)) = gshardLoss hE gates := by
  unfold gshardLoss argmax
  simp only
  have h1 : ∀ s e, (if topKIdx (fun e => gates s (σ e)) 1 hE 0 = e then (1 : ℝ) else 0) =
      if topKIdx (gates s) 1 hE 0 = σ e then 1 else 0 := by
    intro s e
    rw [topK_renumber σ gates hn]
    congr 1
    rw [Equiv.symm_apply_eq]
  simp only [h1]
  rw [mean_renumber σ fun e => Aux.mean (fun s => if topKIdx (gates s) 1 hE 0 = e then (1 : ℝ) else 0) * Aux.mean fun s => gates s e]

theorem load_renumber (σ : Equiv.Perm (Fin E)) (cdf : ℝ → ℝ) (logits noisy : Fin S → Fin E → ℝ) (hn : NoTies noisy) (std' : ℝ)
    (h0 : 0 < K) (hK : K ≤ E) :
    loadLoss cdf (fun s e => logits s (σ e)) (fun s e => noisy s (σ e)) std' K h0 hK = loadLoss cdf logits noisy std' K h0 hK := by
  unfold loadLoss
  simp only
  have h1 : ∀ s, (∑ e, (if e = topKIdx (fun e => noisy s (σ e)) K hK ⟨K - 1, by omega⟩ then (1 : ℝ) else 0) * noisy s (σ e)) =
      ∑ e, (if e = topKIdx (noisy s) K hK ⟨K - 1, by omega⟩ then 1 else 0) * noisy s e := by
    intro s
    rw [topK_renumber σ noisy hn]
    simp
  simp only [h1]
  rw [std_renumber σ fun e => Aux.mean fun s => 1 - cdf (((∑ e, (if e = topKIdx (noisy s) K hK ⟨K - 1, by omega⟩ then (1 : ℝ) else 0) *
      noisy s e) - logits s e) / std'),
    mean_renumber σ fun e => Aux.mean fun s => 1 - cdf (((∑ e, (if e = topKIdx (noisy s) K hK ⟨K - 1, by omega⟩ then (1 : ℝ) else 0) *
      noisy s e) - logits s e) / std')]

/-- The gates of the groups of a batch have no ties, where ties would matter: where items choose. -/
def NoTiesAt (cfg : MoeConfig c P) (p : MoeParams c E P) (x : List (Seq T c)) : Prop :=
  match cfg.router with
  | .topExperts r => ∀ g : Fin (x.length * T / cfg.groupSize), NoTies (tokenGates cfg.groupSize p.kernel (MoeBlock.usedStd r E) p.z x.get g)
  | .topItems _ => True

/-- Two layers report the same metrics. -/
inductive SameReport : LayerMetrics → LayerMetrics → Prop
  | topExperts (G : Nat) (m : MoeBlock.Metrics G) : SameReport (.topExperts G m) (.topExperts G m)
  | topItems (G S E : Nat) (r r' : ExpertChoice.RouterOutput G S E) (hm : r.metrics = r'.metrics)
      (ha : r.auxiliaryLoss = r'.auxiliaryLoss) : SameReport (.topItems G S E r) (.topItems G S E r')

theorem softmax_renumber (σ : Equiv.Perm (Fin E)) (l : Fin E → ℝ) :
    Soft.softmax (fun e => l (σ e)) = fun e => Soft.softmax l (σ e) := by
  funext e
  unfold Soft.softmax
  rw [Equiv.sum_comp σ fun e => Real.exp (l e)]

theorem noTies_logits {l : Fin S → Fin E → ℝ} (h : NoTies fun s => Soft.softmax (l s)) : NoTies l := by
  intro s e e' he
  apply h s
  simp only [Soft.softmax, he]

theorem gatesAndMetrics_renumber {G H : Nat} (σ : Equiv.Perm (Fin E)) (cdf : ℝ → ℝ) (cfg : MoeBlock.RouterConfig)
    (kernel : Fin H → Fin E → ℝ) (z : Nat → Nat → Nat → ℝ) (x : Fin G → Fin S → Fin H → ℝ) (gates m)
    (h : MoeBlock.gatesAndMetrics cdf cfg kernel z x = .ok (gates, m)) (hn : ∀ g, NoTies (gates g)) :
    MoeBlock.gatesAndMetrics cdf cfg (fun h e => kernel h (σ e)) (renumberNoise σ z) x = .ok (fun g s e => gates g s (σ e), m) := by
  have hz : ∀ g s (e : Fin E), renumberNoise σ z g s e = z g s (σ e) := by
    intro g s e
    unfold renumberNoise
    rw [dif_pos e.2]
  have hl : MoeBlock.gateLogits (fun h e => kernel h (σ e)) x = fun g s e => MoeBlock.gateLogits kernel x g s (σ e) := rfl
  unfold MoeBlock.gatesAndMetrics at h ⊢
  split at h
  · rename_i hk
    rw [dif_pos hk]
    have hE : 0 < E := Nat.lt_of_lt_of_le hk.2 hk.1
    simp only at h ⊢
    split at h
    · rename_i hdet
      rw [if_pos hdet]
      cases h
      simp only [hl, softmax_renumber σ (MoeBlock.gateLogits kernel x _ _)]
      simp only [importance_renumber σ fun s => Soft.softmax (MoeBlock.gateLogits kernel x _ s),
        gshard_renumber σ hE (fun s => Soft.softmax (MoeBlock.gateLogits kernel x _ s)) (hn _)]
    · rename_i hdet
      rw [if_neg hdet]
      cases h
      simp only [hl, hz, softmax_renumber σ (MoeBlock.gateLogits kernel x _ _)]
      simp only [importance_renumber σ fun s => Soft.softmax (MoeBlock.gateLogits kernel x _ s)]
      have h0 : ∀ (g : Fin G) (s : Fin S), Soft.softmax (fun e => MoeBlock.gateLogits kernel x g s (σ e) +
          1 / (E : ℝ) * cfg.noiseStd * z g s (σ e)) = fun e => Soft.softmax
            (fun e => MoeBlock.gateLogits kernel x g s e + 1 / (E : ℝ) * cfg.noiseStd * z g s e) (σ e) :=
        fun g s => softmax_renumber σ fun e => MoeBlock.gateLogits kernel x g s e + 1 / (E : ℝ) * cfg.noiseStd * z g s e
      simp only [h0]
      have h1 : ∀ g : Fin G, gshardLoss hE (fun s e =>
          Soft.softmax (fun e => MoeBlock.gateLogits kernel x g s e + 1 / (E : ℝ) * cfg.noiseStd * z g s e) (σ e)) =
          gshardLoss hE fun s => Soft.softmax fun e => MoeBlock.gateLogits kernel x g s e + 1 / (E : ℝ) * cfg.noiseStd * z g s e :=
        fun g => gshard_renumber σ hE _ (hn g)
      have h2 : ∀ g : Fin G, loadLoss cdf (fun s e => MoeBlock.gateLogits kernel x g s (σ e)) (fun s e =>
          MoeBlock.gateLogits kernel x g s (σ e) + 1 / (E : ℝ) * cfg.noiseStd * z g s (σ e)) (1 / (E : ℝ) * cfg.noiseStd)
          cfg.numSelected hk.2 hk.1 = loadLoss cdf (MoeBlock.gateLogits kernel x g) (fun s e =>
          MoeBlock.gateLogits kernel x g s e + 1 / (E : ℝ) * cfg.noiseStd * z g s e) (1 / (E : ℝ) * cfg.noiseStd)
          cfg.numSelected hk.2 hk.1 :=
        fun g => load_renumber σ cdf (MoeBlock.gateLogits kernel x g) (fun s e =>
          MoeBlock.gateLogits kernel x g s e + 1 / (E : ℝ) * cfg.noiseStd * z g s e) (noTies_logits (hn g)) _ hk.2 hk.1
      simp only [h1, h2]
  · cases h

/-- C126.  A MoE layer where items choose does exactly the same with its experts in another order (outputs, metrics and errors),
if no token has the same gate for two experts. -/
theorem C126_items_choose (cfg : MoeConfig c P) (rc : MoeBlock.RouterConfig) (hr : cfg.router = .topExperts rc)
    (p : MoeParams c E P) (σ : Equiv.Perm (Fin E)) (x : List (Seq T c)) (hn : NoTiesAt cfg p x) :
    moeLayer cfg (renumber σ p) x = moeLayer cfg p x := by
  unfold NoTiesAt at hn
  rw [hr] at hn
  simp only at hn
  unfold moeLayer
  rw [hr]
  simp only
  have key : MoeBlock.mlpMoeBlock cfg.fl cfg.cdf cfg.bf rc cfg.groupSize (renumber σ p).kernel (renumber σ p).z cfg.oob
      (renumber σ p).experts cfg.mlp x.get =
      MoeBlock.mlpMoeBlock cfg.fl cfg.cdf cfg.bf rc cfg.groupSize p.kernel p.z cfg.oob p.experts cfg.mlp x.get := by
    have e1 := MoeBlock.C72_block_errors cfg.fl cfg.cdf cfg.bf rc cfg.groupSize p.kernel p.z cfg.oob p.experts cfg.mlp x.get
    have e2 := MoeBlock.C72_block_errors cfg.fl cfg.cdf cfg.bf rc cfg.groupSize (renumber σ p).kernel (renumber σ p).z cfg.oob
      (renumber σ p).experts cfg.mlp x.get
    simp only at e1 e2
    by_cases hd : 0 < cfg.groupSize ∧ cfg.groupSize ∣ x.length * T
    swap
    · rw [e1.1 hd, e2.1 hd]
    by_cases hk : 1 ≤ rc.numSelected ∧ rc.numSelected ≤ E
    swap
    · rw [e1.2.1 hd hk, e2.2.1 hd hk]
    have e1 := e1.2.2 hd hk
    have e2 := e2.2.2 hd hk
    rcases hcap : resolveCapacity cfg.fl (cfg.groupSize * rc.numSelected) E rc.dispatcher.capacity
      rc.dispatcher.capacityFactor rc.dispatcher.ceilOrRound rc.dispatcher.multipleOf with err | cap
    · rw [e1.1 err hcap, e2.1 err hcap]
    by_cases hname : rc.dispatcher.name = "einsum" ∨ rc.dispatcher.name = "indices"
    swap
    · have hname' : rc.dispatcher.name ≠ "einsum" ∧ rc.dispatcher.name ≠ "indices" := by
        push Not at hname
        exact hname
      rw [(e1.2 cap hcap).1 hname', (e2.2 cap hcap).1 hname']
    have hE : 0 < E := Nat.lt_of_lt_of_le hk.1 hk.2
    obtain ⟨o1, m1, h1, f1⟩ := MoeBlock.C72_block_output cfg.fl cfg.cdf cfg.bf rc cfg.groupSize p.kernel p.z cfg.oob
      p.experts cfg.mlp x.get hd.1 hd.2 hE hk.1 hk.2 hname cap hcap
    obtain ⟨o2, m2, h2, f2⟩ := MoeBlock.C72_block_output cfg.fl cfg.cdf cfg.bf rc cfg.groupSize (renumber σ p).kernel
      (renumber σ p).z cfg.oob (renumber σ p).experts cfg.mlp x.get hd.1 hd.2 hE hk.1 hk.2 hname cap hcap
    have hout : o2 = o1 := by
      funext b t i
      have hg : tokenNumber T b t / cfg.groupSize < x.length * T / cfg.groupSize :=
        Nat.div_lt_div_of_lt_of_dvd hd.2 (MoeBlock.tokenNumber_lt b t)
      have hn' := hn ⟨_, hg⟩
      have g1 := f1 b t i
      have g2 := f2 b t i
      simp only at g1 g2
      rw [g1, g2]
      change ∑ e ∈ Finset.univ.filter (fun e => Kept hE rc.dispatcher.batchPriority (tokenGates cfg.groupSize
        (fun h e => p.kernel h (σ e)) (MoeBlock.usedStd rc E) (renumberNoise σ p.z) x.get (tokenNumber T b t / cfg.groupSize))
        rc.numSelected cap ⟨tokenNumber T b t % cfg.groupSize, Nat.mod_lt _ hd.1⟩ e), tokenGates cfg.groupSize
        (fun h e => p.kernel h (σ e)) (MoeBlock.usedStd rc E) (renumberNoise σ p.z) x.get (tokenNumber T b t / cfg.groupSize)
        ⟨tokenNumber T b t % cfg.groupSize, Nat.mod_lt _ hd.1⟩ e * _ = _
      rw [gates_renumber]
      exact sum_renumber σ _ _ (fun e => kept_renumber σ hE rc.dispatcher.batchPriority _ hn' (K := rc.numSelected) cap
        ⟨tokenNumber T b t % cfg.groupSize, Nat.mod_lt _ hd.1⟩ e) fun e => tokenGates cfg.groupSize p.kernel
        (MoeBlock.usedStd rc E) p.z x.get (tokenNumber T b t / cfg.groupSize)
        ⟨tokenNumber T b t % cfg.groupSize, Nat.mod_lt _ hd.1⟩ e * (if rc.dispatcher.bfloat16 = true then
          cfg.bf (cfg.mlp (p.experts e) (fun i => if rc.dispatcher.bfloat16 = true then cfg.bf (x.get b t i) else x.get b t i) i)
        else cfg.mlp (p.experts e) (fun i => if rc.dispatcher.bfloat16 = true then cfg.bf (x.get b t i) else x.get b t i) i)
    have hm : m2 = m1 := by
      obtain ⟨m, hm⟩ := MoeBlock.gates_eq cfg.cdf rc p.kernel p.z
        (fun (g : Fin (x.length * T / cfg.groupSize)) (s : Fin cfg.groupSize) => tokenOf x.get (g * cfg.groupSize + s)) hk.1 hk.2
      have hm' := gatesAndMetrics_renumber σ _ _ _ _ _ _ _ hm hn
      unfold MoeBlock.mlpMoeBlock at h1 h2
      rw [MoeBlock.regroup_eq x.get cfg.groupSize hd.1 hd.2] at h1 h2
      simp only at h1 h2
      rw [hm] at h1
      have hm'' : MoeBlock.gatesAndMetrics cfg.cdf rc (renumber σ p).kernel (renumber σ p).z
        (fun (g : Fin (x.length * T / cfg.groupSize)) (s : Fin cfg.groupSize) => tokenOf x.get (g * cfg.groupSize + s)) = _ := hm'
      rw [hm''] at h2
      simp only at h1 h2
      split at h1
      · cases h1
      split at h1
      · cases h1
      split at h2
      · cases h2
      split at h2
      · cases h2
      cases h1
      cases h2
      rfl
    rw [h1, h2, hout, hm]
  rw [key]

theorem itemsMetrics_renumber (σ : Equiv.Perm (Fin E)) (gates : Fin S → Fin E → ℝ) (cap : Nat) (hC : cap ≤ S) (hC0 : 0 < cap)
    (hE : 0 < E) :
    topItemsMetrics (fun s e => gates s (σ e)) cap hC hC0 hE = topItemsMetrics gates cap hC hC0 hE := by
  have hw : numExpertsPerItem (topItemsEinsum (fun s e => gates s (σ e)) cap hC).dispatchWeights =
      numExpertsPerItem (topItemsEinsum gates cap hC).dispatchWeights := by
    funext s
    unfold numExpertsPerItem
    exact Equiv.sum_comp σ fun e => ∑ i, if (topItemsEinsum gates cap hC).dispatchWeights s e i then 1 else 0
  have hne : (Finset.univ : Finset (Fin E × Fin cap)).Nonempty := ⟨(⟨0, hE⟩, ⟨0, hC0⟩), Finset.mem_univ _⟩
  have hinf : Finset.univ.inf' hne (fun p : Fin E × Fin cap => topKVal (fun s => gates s (σ p.1)) cap hC p.2) =
      Finset.univ.inf' hne fun p : Fin E × Fin cap => topKVal (fun s => gates s p.1) cap hC p.2 := by
    apply le_antisymm
    · apply Finset.le_inf'
      rintro ⟨e, i⟩ _
      have := Finset.inf'_le (fun p : Fin E × Fin cap => topKVal (fun s => gates s (σ p.1)) cap hC p.2)
        (Finset.mem_univ (σ.symm e, i))
      rw [Equiv.apply_symm_apply] at this
      exact this
    · apply Finset.le_inf'
      rintro ⟨e, i⟩ _
      exact Finset.inf'_le (fun p : Fin E × Fin cap => topKVal (fun s => gates s p.1) cap hC p.2) (Finset.mem_univ (σ e, i))
  have hsup : Finset.univ.sup' hne (fun p : Fin E × Fin cap => topKVal (fun s => gates s (σ p.1)) cap hC p.2) =
      Finset.univ.sup' hne fun p : Fin E × Fin cap => topKVal (fun s => gates s p.1) cap hC p.2 := by
    apply le_antisymm
    · apply Finset.sup'_le
      rintro ⟨e, i⟩ _
      exact Finset.le_sup' (fun p : Fin E × Fin cap => topKVal (fun s => gates s p.1) cap hC p.2) (Finset.mem_univ (σ e, i))
    · apply Finset.sup'_le
      rintro ⟨e, i⟩ _
      have := Finset.le_sup' (fun p : Fin E × Fin cap => topKVal (fun s => gates s (σ p.1)) cap hC p.2)
        (Finset.mem_univ (σ.symm e, i))
      rw [Equiv.apply_symm_apply] at this
      exact this
  unfold topItemsMetrics
  simp only [hw, hinf, hsup]

/-- Two results are the same error, or the same array with metrics that are the same by `R`. -/
inductive Alike {A M : Type} (R : M → M → Prop) : Except PyErr (A × M) → Except PyErr (A × M) → Prop
  | error (err : PyErr) : Alike R (.error err) (.error err)
  | ok (y : A) (m m' : M) (h : R m m') : Alike R (.ok (y, m)) (.ok (y, m'))

/-- C126.  A MoE layer where experts choose gives the same array, metrics, auxiliary loss and errors with its experts in another
order; here equal gates do no harm. -/
theorem C126_experts_choose (cfg : MoeConfig c P) (rc : ExpertChoice.RouterConfig) (hr : cfg.router = .topItems rc)
    (p : MoeParams c E P) (σ : Equiv.Perm (Fin E)) (x : List (Seq T c)) :
    Alike SameReport (moeLayer cfg p x) (moeLayer cfg (renumber σ p) x) := by
  unfold moeLayer
  rw [hr]
  simp only
  have e1 := ExpertChoice.C78_block_errors cfg.fl cfg.bf rc cfg.groupSize p.kernel p.z p.experts cfg.mlp x.get
  have e2 := ExpertChoice.C78_block_errors cfg.fl cfg.bf rc cfg.groupSize (renumber σ p).kernel (renumber σ p).z
    (renumber σ p).experts cfg.mlp x.get
  simp only at e1 e2
  by_cases hdv : 0 < cfg.groupSize ∧ cfg.groupSize ∣ x.length * T
  swap
  · rw [e1.1 hdv, e2.1 hdv]
    exact .error _
  have e1 := e1.2 hdv
  have e2 := e2.2 hdv
  rcases hd : rc.dispatcher with _ | d
  · rw [e1.1 hd, e2.1 hd]
    exact .error _
  have e1 := e1.2 d hd
  have e2 := e2.2 d hd
  rcases hcap : ExpertChoice.asked cfg.fl cfg.groupSize E d with err | cap
  · rw [e1.1 err hcap, e2.1 err hcap]
    exact .error _
  have e1 := e1.2 cap hcap
  have e2 := e2.2 cap hcap
  by_cases hname : d.name = "einsum"
  swap
  · rw [e1.1 hname, e2.1 hname]
    exact .error _
  by_cases hC : cap ≤ cfg.groupSize
  swap
  · rw [e1.2.1 hname (by omega), e2.2.1 hname (by omega)]
    exact .error _
  rcases hk : d.otherKeys with _ | _
  swap
  · rw [e1.2.2.1 hname hC hk, e2.2.2.1 hname hC hk]
    exact .error _
  rcases Nat.eq_zero_or_pos E with hE | hE
  · rw [e1.2.2.2.1 hname hC hk hE, e2.2.2.2.1 hname hC hk hE]
    exact .error _
  obtain ⟨o1, r1, h1, f1, a1, m1⟩ := ExpertChoice.C78_block_output cfg.fl cfg.bf rc cfg.groupSize p.kernel p.z p.experts
    cfg.mlp x.get hdv.1 hdv.2 hE d hd cap hcap hname hC hk
  obtain ⟨o2, r2, h2, f2, a2, m2⟩ := ExpertChoice.C78_block_output cfg.fl cfg.bf rc cfg.groupSize (renumber σ p).kernel
    (renumber σ p).z (renumber σ p).experts cfg.mlp x.get hdv.1 hdv.2 hE d hd cap hcap hname hC hk
  have hout : o2 = o1 := by
    funext b t i
    have g1 := f1 b t i
    have g2 := f2 b t i
    simp only at g1 g2
    rw [g1, g2]
    change ∑ e ∈ Finset.univ.filter (fun e => itemRank (tokenGates cfg.groupSize
      (fun h e => p.kernel h (σ e)) (ExpertChoice.sigma rc E) (renumberNoise σ p.z) x.get (tokenNumber T b t / cfg.groupSize))
      ⟨tokenNumber T b t % cfg.groupSize, Nat.mod_lt _ hdv.1⟩ e < cap), tokenGates cfg.groupSize
      (fun h e => p.kernel h (σ e)) (ExpertChoice.sigma rc E) (renumberNoise σ p.z) x.get (tokenNumber T b t / cfg.groupSize)
      ⟨tokenNumber T b t % cfg.groupSize, Nat.mod_lt _ hdv.1⟩ e * _ = _
    rw [gates_renumber]
    exact sum_renumber σ _ (fun e => itemRank (tokenGates cfg.groupSize p.kernel (ExpertChoice.sigma rc E) p.z x.get
        (tokenNumber T b t / cfg.groupSize)) ⟨tokenNumber T b t % cfg.groupSize, Nat.mod_lt _ hdv.1⟩ e < cap)
      (fun e => Iff.rfl) fun e => tokenGates cfg.groupSize p.kernel
      (ExpertChoice.sigma rc E) p.z x.get (tokenNumber T b t / cfg.groupSize)
      ⟨tokenNumber T b t % cfg.groupSize, Nat.mod_lt _ hdv.1⟩ e * (if d.bfloat16 = some true then
        cfg.bf (cfg.mlp (p.experts e) (fun i => if d.bfloat16 = some true then cfg.bf (x.get b t i) else x.get b t i) i)
      else cfg.mlp (p.experts e) (fun i => if d.bfloat16 = some true then cfg.bf (x.get b t i) else x.get b t i) i)
  rw [h1, h2, hout]
  refine .ok _ _ _ (.topItems _ _ _ _ _ ?_ ?_)
  · funext g
    rw [m1, m2]
    change _ = topItemsMetrics (tokenGates cfg.groupSize (fun h e => p.kernel h (σ e)) (ExpertChoice.sigma rc E)
      (renumberNoise σ p.z) x.get g) cap _ _ _
    rw [gates_renumber, itemsMetrics_renumber]
  · rw [a1, a2]

theorem layer_renumber (cfg : MoeConfig c P) (p : MoeParams c E P) (σ : Equiv.Perm (Fin E)) (x : List (Seq T c))
    (hn : NoTiesAt cfg p x) : Alike SameReport (moeLayer cfg p x) (moeLayer cfg (renumber σ p) x) := by
  rcases hr : cfg.router with rc | rc
  · rw [C126_items_choose cfg rc hr p σ x hn]
    rcases hl : moeLayer cfg p x with err | ⟨y, m⟩
    · exact .error _
    · refine .ok _ _ _ ?_
      unfold moeLayer at hl
      rw [hr] at hl
      simp only at hl
      split at hl
      · cases hl
      · cases hl
        exact .topExperts _ _
  · exact C126_experts_choose cfg rc hr p σ x

/-- No layer of the model meets a token with the same gate for two experts; the batch goes through the blocks in order. -/
def NoTiesAlong (cfg : MoeConfig c P) (params : Nat → MoeParams c E P) (blocks : Nat → BlockFns (Seq T c))
    (dense : Nat → Seq T c → Seq T c) (moeLayers : List Int) : List Nat → List (Seq T c) → Prop
  | [], _ => True
  | b :: rest, x =>
    if (b : Int) ∈ moeLayers then
      NoTiesAt cfg (params b) ((attention (blocks b) x).map (blocks b).norm) ∧
        ∀ y m, moeBlock (blocks b) (moeLayer cfg (params b)) x = .ok (y, m) →
          NoTiesAlong cfg params blocks dense moeLayers rest y
    else NoTiesAlong cfg params blocks dense moeLayers rest (denseBlock (blocks b) (dense b) x)

/-- Two dictionaries have the same keys in the same order, with related values. -/
def SameItems {M : Type} (R : M → M → Prop) (d d' : PyDict (List Char) M) : Prop :=
  List.Forall₂ (fun kv kv' => kv.1 = kv'.1 ∧ R kv.2 kv'.2) d d'

/-- Two entries of the metrics of the model are the same. -/
inductive SameEntry : Metric LayerMetrics ℝ → Metric LayerMetrics ℝ → Prop
  | block (m m' : LayerMetrics) (h : SameReport m m') : SameEntry (.block m) (.block m')
  | total (a : ℝ) : SameEntry (.total a) (.total a)

theorem sameItems_set {M : Type} {R : M → M → Prop} {d d' : PyDict (List Char) M} (h : SameItems R d d') (k : List Char)
    {m m' : M} (hm : R m m') : SameItems R (d.set k m) (d'.set k m') := by
  induction h with
  | nil => exact .cons ⟨rfl, hm⟩ .nil
  | @cons a b l l' hab hl ih =>
    obtain ⟨k1, v1⟩ := a
    obtain ⟨k2, v2⟩ := b
    obtain ⟨hk, hv⟩ := hab
    simp only at hk hv
    subst hk
    unfold PyDict.set
    split
    · exact .cons ⟨rfl, hm⟩ hl
    · exact .cons ⟨rfl, hv⟩ ih

theorem loop_renumber (cfg : MoeConfig c P) (params : Nat → MoeParams c E P) (σ : Nat → Equiv.Perm (Fin E))
    (blocks : Nat → BlockFns (Seq T c)) (dense : Nat → Seq T c → Seq T c) (moeLayers : List Int) (ids : List Nat) :
    ∀ (x : List (Seq T c)) (ms ms' : PyDict (List Char) LayerMetrics), SameItems SameReport ms ms' →
    NoTiesAlong cfg params blocks dense moeLayers ids x →
    Alike (SameItems SameReport) (loop ⟨blocks, dense, fun i => moeLayer cfg (params i)⟩ moeLayers ids x ms)
      (loop ⟨blocks, dense, fun i => moeLayer cfg (renumber (σ i) (params i))⟩ moeLayers ids x ms') := by
  induction ids with
  | nil =>
    intro x ms ms' hms _
    exact .ok _ _ _ hms
  | cons b rest ih =>
    intro x ms ms' hms hn
    rw [NoTiesAlong] at hn
    rw [loop, loop]
    by_cases hb : (b : Int) ∈ moeLayers
    · rw [if_pos hb] at hn
      rw [if_pos hb, if_pos hb]
      have hl := layer_renumber cfg (params b) (σ b) _ hn.1
      have hn2 := hn.2
      unfold moeBlock at hn2 ⊢
      simp only at hn2 ⊢
      generalize (moeLayer cfg (params b) ((attention (blocks b) x).map (blocks b).norm)) = r1 at hl hn2 ⊢
      generalize (moeLayer cfg (renumber (σ b) (params b)) ((attention (blocks b) x).map (blocks b).norm)) = r2 at hl ⊢
      cases hl with
      | error err => exact .error _
      | ok y m m' hm => exact ih _ _ _ (sameItems_set hms _ hm) (hn2 _ _ rfl)
    · rw [if_neg hb] at hn
      rw [if_neg hb, if_neg hb]
      exact ih _ _ _ hms hn

theorem final_renumber (aux : LayerMetrics → ℝ) (haux : ∀ m m', SameReport m m' → aux m = aux m')
    {ms ms' : PyDict (List Char) LayerMetrics} (h : SameItems SameReport ms ms') :
    SameItems SameEntry (finalMetrics aux ms) (finalMetrics aux ms') := by
  unfold finalMetrics
  have hs : (ms.map fun kv => aux kv.2).sum = (ms'.map fun kv => aux kv.2).sum := by
    congr 1
    induction h with
    | nil => rfl
    | cons hab _ ih => rw [List.map_cons, List.map_cons, ih, haux _ _ hab.2]
  rw [hs]
  apply sameItems_set
  · unfold SameItems
    rw [List.forall₂_map_left_iff, List.forall₂_map_right_iff]
    exact h.imp fun a b hab => ⟨hab.1, .block _ _ hab.2⟩
  · exact .total _

variable {ph pw D r H W : Nat}

/-- C126.  The whole model with the experts of every MoE layer in another order (each layer in its own) gives the same
predictions, the same metrics and the same total auxiliary loss, or the same error, if no token has the same gate for two experts
of a layer where items choose. -/
theorem C126_model (q : Params ph pw D c r) (classifier : List Char) (num_classes : Option Nat)
    (position_emb : Option (Option PosEmb)) (cfg : MoeConfig c P) (params : Nat → MoeParams c E P)
    (σ : Nat → Equiv.Perm (Fin E)) (blocks : Nat → BlockFns (Seq T c)) (dense : Nat → Seq T c → Seq T c)
    (aux : LayerMetrics → ℝ) (haux : ∀ m m', SameReport m m' → aux m = aux m') (post : Seq T c → Seq T c)
    (pe : List (Vec c)) (numLayers : Nat) (moeLayers : List Int) (images : List (Image H W D))
    (hn : ∀ pos x, encoderPosEmb position_emb (convSize H ph) (convSize W pw) = .ok pos →
      ((images.map (tokens q classifier)).map fun l (t : Fin T) => l.getD t 0).mapM (addPos pos pe) = .ok x →
      NoTiesAlong cfg params blocks dense moeLayers (List.range numLayers) x) :
    Alike (SameItems SameEntry)
      (visionTransformer q classifier num_classes position_emb
        (encoder T cfg params blocks dense aux post pe numLayers moeLayers) images)
      (visionTransformer q classifier num_classes position_emb
        (encoder T cfg (fun i => renumber (σ i) (params i)) blocks dense aux post pe numLayers moeLayers) images) := by
  unfold visionTransformer
  rcases hpos : encoderPosEmb position_emb (convSize H ph) (convSize W pw) with err | pos
  · exact .error _
  simp only
  have henc : Alike (SameItems SameEntry)
      (encoder T cfg params blocks dense aux post pe numLayers moeLayers pos (images.map (tokens q classifier)))
      (encoder T cfg (fun i => renumber (σ i) (params i)) blocks dense aux post pe numLayers moeLayers pos
        (images.map (tokens q classifier))) := by
    unfold encoder encoderMoe
    generalize hx : List.mapM (addPos pos pe) _ = xs
    rcases xs with err | x
    · exact .error _
    simp only
    have hl := loop_renumber cfg params σ blocks dense moeLayers (List.range numLayers) x [] [] .nil (hn pos x hpos hx)
    generalize (loop (⟨blocks, dense, fun i => moeLayer cfg (params i)⟩ : Layers (Seq T c) LayerMetrics) moeLayers
      (List.range numLayers) x []) = r1 at hl ⊢
    generalize (loop (⟨blocks, dense, fun i => moeLayer cfg (renumber (σ i) (params i))⟩ : Layers (Seq T c) LayerMetrics) moeLayers
      (List.range numLayers) x []) = r2 at hl ⊢
    cases hl with
    | error err => exact .error _
    | ok y m m' hm => exact .ok _ _ _ (final_renumber aux haux hm)
  generalize (encoder T cfg params blocks dense aux post pe numLayers moeLayers pos (images.map (tokens q classifier))) = r1 at henc ⊢
  generalize (encoder T cfg (fun i => renumber (σ i) (params i)) blocks dense aux post pe numLayers moeLayers pos
        (images.map (tokens q classifier))) = r2 at henc ⊢
  cases henc with
  | error err => exact .error _
  | ok y m m' hm =>
    simp only
    generalize (if classifier = "token".toList ∨ classifier = "0".toList then Except.ok (y.map (·.headD 0))
        else if classifier = "gap".toList then .ok (y.map mean)
        else if classifier = "map".toList then .ok (y.map q.mapHead)
        else .error .valueError : Except PyErr (List (Vec c))) = pooled
    rcases pooled with err | v
    · exact .error _
    · exact .ok _ _ _ hm

/-! Two experts with equal gates: items prefer the first one, so then the order matters. -/

/-- Two experts that multiply by their number, one selected, groups of one token. -/
noncomputable def exConfig : MoeConfig 1 ℝ where
  fl := id
  cdf := fun _ => 0
  bf := id
  router := .topExperts ⟨1, 0, 0, 0, 0, ⟨"einsum", false, some 1, none, "ceil", none, false⟩, true⟩
  groupSize := 1
  oob := 0
  mlp := fun a v i => a * v i

theorem exLayer (p : MoeParams 1 2 ℝ) (first : Fin 2)
    (hf : ∀ e, choiceRank (tokenGates 1 p.kernel 0 p.z [(fun _ _ => 1 : Seq 1 1)].get 0) 0 e = 0 ↔ e = first) :
    ∃ m, moeLayer exConfig p [(fun _ _ => 1 : Seq 1 1)] = .ok ([fun _ _ =>
      tokenGates 1 p.kernel 0 p.z [(fun _ _ => 1 : Seq 1 1)].get 0 0 first * p.experts first], m) := by
  obtain ⟨out, m, h, hout⟩ := MoeBlock.C72_block_output exConfig.fl exConfig.cdf exConfig.bf
    ⟨1, 0, 0, 0, 0, ⟨"einsum", false, some 1, none, "ceil", none, false⟩, true⟩ 1 p.kernel p.z exConfig.oob p.experts exConfig.mlp
    [(fun _ _ => 1 : Seq 1 1)].get (by decide) ⟨1, rfl⟩ (by decide) (le_refl 1) (by decide) (Or.inl rfl) 1 rfl
  refine ⟨.topExperts _ m, ?_⟩
  have h' : MoeBlock.mlpMoeBlock exConfig.fl exConfig.cdf exConfig.bf
      ⟨1, 0, 0, 0, 0, ⟨"einsum", false, some 1, none, "ceil", none, false⟩, true⟩ exConfig.groupSize p.kernel p.z exConfig.oob
      p.experts exConfig.mlp [(fun _ _ => 1 : Seq 1 1)].get = .ok (out, m) := h
  unfold moeLayer
  rw [show exConfig.router = .topExperts ⟨1, 0, 0, 0, 0, ⟨"einsum", false, some 1, none, "ceil", none, false⟩, true⟩ from rfl]
  simp only
  rw [h']
  simp only
  have hv : out = fun _ _ _ => tokenGates 1 p.kernel 0 p.z [(fun _ _ => 1 : Seq 1 1)].get 0 0 first * p.experts first := by
    funext b t i
    have := hout b t i
    simp only at this
    rw [this]
    have hb : b = ⟨0, by decide⟩ := Fin.ext (Nat.lt_one_iff.1 b.2)
    have ht : t = 0 := Subsingleton.elim _ _
    subst hb ht
    have hfil : (Finset.univ.filter fun e => Kept (by decide : 0 < 2) false (tokenGates 1 p.kernel 0 p.z
        [(fun _ _ => 1 : Seq 1 1)].get 0) 1 1 (0 : Fin 1) e) = {first} := by
      ext e
      simp only [Finset.mem_filter, Finset.mem_univ, true_and, Finset.mem_singleton]
      unfold Kept Requests
      have hslot : slot (by decide : 0 < 2) false (tokenGates 1 p.kernel 0 p.z [(fun _ _ => 1 : Seq 1 1)].get 0) 1 0 e = 0 := by
        unfold slot
        rw [Finset.card_eq_zero, Finset.filter_eq_empty_iff]
        intro s _ hs
        have : s = 0 := Subsingleton.elim _ _
        subst this
        obtain ⟨-, hs | ⟨-, hs⟩⟩ := hs
        · exact lt_irrefl _ hs
        · unfold ItemBefore at hs
          simp at hs
      rw [hslot, ← hf e]
      omega
    have hstd : MoeBlock.usedStd ⟨1, 0, 0, 0, 0, ⟨"einsum", false, some 1, none, "ceil", none, false⟩, true⟩ 2 = 0 := by
      unfold MoeBlock.usedStd
      simp
    rw [hstd]
    refine (Finset.sum_congr hfil fun _ _ => rfl).trans ?_
    rw [Finset.sum_singleton]
    change _ * (p.experts first * 1) = _
    rw [mul_one]
    rfl
  rw [hv]
  rfl

/-- C126, limit.  Where items choose and a token has the same gate for two experts, the order of the experts changes the result. -/
theorem C126_ties_counterexample : ∃ (p : MoeParams 1 2 ℝ) (y y' : List (Seq 1 1)) (m m' : LayerMetrics),
    moeLayer exConfig p [fun _ _ => 1] = .ok (y, m) ∧
    moeLayer exConfig (renumber (Equiv.swap 0 1) p) [fun _ _ => 1] = .ok (y', m') ∧ y ≠ y' := by
  have hr : ∀ (z : Nat → Nat → Nat → ℝ) (e : Fin 2), choiceRank (tokenGates 1 (fun (_ : Fin 1) (_ : Fin 2) => (0 : ℝ)) 0 z
      [(fun _ _ => 1 : Seq 1 1)].get 0) 0 e = 0 ↔ e = 0 := by
    intro z e
    unfold choiceRank
    rw [Finset.card_eq_zero, Finset.filter_eq_empty_iff]
    have hg : ∀ e e' : Fin 2, tokenGates 1 (fun (_ : Fin 1) (_ : Fin 2) => (0 : ℝ)) 0 z [(fun _ _ => 1 : Seq 1 1)].get 0 0 e =
        tokenGates 1 (fun (_ : Fin 1) (_ : Fin 2) => (0 : ℝ)) 0 z [(fun _ _ => 1 : Seq 1 1)].get 0 0 e' := by
      intro e e'
      unfold tokenGates expWeights
      simp
    constructor
    · intro h
      have := h (Finset.mem_univ 0)
      push Not at this
      have := this.2 (hg 0 e)
      exact le_antisymm this (Fin.zero_le _)
    · rintro rfl e' _ (h | ⟨-, h⟩)
      · rw [hg 0 e'] at h
        exact lt_irrefl _ h
      · exact absurd h (by simp)
  let p : MoeParams 1 2 ℝ := ⟨fun _ _ => 0, fun e => e.1 + 1, fun _ _ _ => 0⟩
  obtain ⟨m, h⟩ := exLayer p 0 (hr _)
  obtain ⟨m', h'⟩ := exLayer (renumber (Equiv.swap 0 1) p) 0 (hr _)
  refine ⟨p, _, _, m, m', h, h', ?_⟩
  intro heq
  have h0 := congrFun (congrFun (List.cons.inj heq).1 0) 0
  have e1 : p.experts 0 = 1 := by simp [p]
  have e2 : (renumber (Equiv.swap 0 1) p).experts 0 = 2 := by
    change p.experts (Equiv.swap 0 1 0) = 2
    rw [Equiv.swap_apply_left]
    simp [p]
    norm_num
  simp only [e1, e2] at h0
  have hgv : ∀ (z : Nat → Nat → Nat → ℝ), tokenGates 1 (fun (_ : Fin 1) (_ : Fin 2) => (0 : ℝ)) 0 z [(fun _ _ => 1 : Seq 1 1)].get 0 0 0 = 1 / 2 := by
    intro z
    unfold tokenGates expWeights
    simp
  have q1 := hgv p.z
  have q2 := hgv (renumber (Equiv.swap 0 1) p).z
  change tokenGates 1 (fun (_ : Fin 1) (_ : Fin 2) => (0 : ℝ)) 0 p.z _ 0 0 0 * 1 =
    tokenGates 1 (fun (_ : Fin 1) (_ : Fin 2) => (0 : ℝ)) 0 (renumber (Equiv.swap 0 1) p).z _ 0 0 0 * 2 at h0
  rw [q1, q2] at h0
  norm_num at h0

/-- The router prefers the second expert. -/
noncomputable def exParams (z : Nat → Nat → Nat → ℝ) : MoeParams 1 2 ℝ := ⟨fun _ e => e.1, fun e => e.1 + 1, z⟩

theorem exNoTies (z : Nat → Nat → Nat → ℝ) (x : List (Seq 1 1)) (hx : ∀ v ∈ x, v = fun _ _ => 1) :
    NoTiesAt exConfig (exParams z) x := by
  intro g s e e' he
  have hstd : MoeBlock.usedStd ⟨1, 0, 0, 0, 0, ⟨"einsum", false, some 1, none, "ceil", none, false⟩, true⟩ 2 = 0 := by
    unfold MoeBlock.usedStd
    simp
  have hg : g.1 < x.length := by
    have := g.2
    simpa [exConfig] using this
  have hs : s.1 = 0 := Nat.lt_one_iff.1 s.2
  have htok : tokenOf x.get (g.1 * 1 + s.1) 0 = 1 := by
    have := MoeBlock.tokenOf_tokenNumber x.get ⟨g.1, hg⟩ (0 : Fin 1)
    have h1 : tokenNumber 1 (⟨g.1, hg⟩ : Fin x.length) (0 : Fin 1) = g.1 * 1 + s.1 := by
      unfold tokenNumber
      simp [hs]
    rw [h1] at this
    rw [this, hx _ (List.get_mem _ _)]
  change expWeights _ e = expWeights _ e' at he
  unfold expWeights at he
  have hpos : (0 : ℝ) < ∑ e : Fin 2, Real.exp ((∑ h : Fin 1, tokenOf x.get (g.1 * 1 + s.1) h * (exParams z).kernel h e) +
      MoeBlock.usedStd ⟨1, 0, 0, 0, 0, ⟨"einsum", false, some 1, none, "ceil", none, false⟩, true⟩ 2 * z g s e) :=
    Finset.sum_pos (fun _ _ => Real.exp_pos _) ⟨0, Finset.mem_univ _⟩
  have h2 := (div_left_inj' hpos.ne').1 he
  have h3 := Real.exp_injective h2
  rw [hstd] at h3
  simp only [zero_mul, add_zero, Fin.sum_univ_one] at h3
  change tokenOf x.get (g.1 * 1 + s.1) 0 * (e.1 : ℝ) = tokenOf x.get (g.1 * 1 + s.1) 0 * (e'.1 : ℝ) at h3
  rw [htok, one_mul, one_mul] at h3
  exact Fin.ext (Nat.cast_injective h3)

/-- The hypotheses of `C126_items_choose` are met. -/
example (z : Nat → Nat → Nat → ℝ) (B : Nat) :
    moeLayer exConfig (renumber (Equiv.swap 0 1) (exParams z)) (List.replicate B (fun _ _ => 1 : Seq 1 1)) =
      moeLayer exConfig (exParams z) (List.replicate B (fun _ _ => 1 : Seq 1 1)) :=
  C126_items_choose exConfig _ rfl _ _ _ (exNoTies z _ fun _ hv => List.eq_of_mem_replicate hv)

/-- The hypotheses of `C126_model` are met: a model with two MoE blocks whose normalization gives ones, the experts of the second
block are exchanged. -/
example (q : Params 1 1 1 1 1) (attn : Nat → Seq 1 1 → Seq 1 1) (z : Nat → Nat → Nat → Nat → ℝ) (images : List (Image 1 1 1)) :
    Alike (SameItems SameEntry)
      (visionTransformer q "gap".toList (some 3) none (encoder 1 exConfig (fun i => exParams (z i))
        (fun i => ⟨attn i, fun _ _ _ => 1⟩) (fun _ v => v) (fun _ => 0) id [0] 2 [0, 1]) images)
      (visionTransformer q "gap".toList (some 3) none (encoder 1 exConfig
        (fun i => renumber (if i = 1 then Equiv.swap 0 1 else Equiv.refl _) (exParams (z i)))
        (fun i => ⟨attn i, fun _ _ _ => 1⟩) (fun _ v => v) (fun _ => 0) id [0] 2 [0, 1]) images) := by
  apply C126_model q _ _ _ exConfig (fun i => exParams (z i)) (fun i => if i = 1 then Equiv.swap 0 1 else Equiv.refl _)
  · intro _ _ _
    rfl
  · intro pos x _ _
    have hall : ∀ (ids : List Nat) (x : List (Seq 1 1)), NoTiesAlong exConfig (fun i => exParams (z i))
        (fun i => ⟨attn i, fun _ _ _ => 1⟩) (fun _ v => v) [0, 1] ids x := by
      intro ids
      induction ids with
      | nil => intro x; trivial
      | cons b rest ih =>
        intro x
        rw [NoTiesAlong]
        split
        · refine ⟨exNoTies _ _ ?_, fun y m _ => ih y⟩
          intro v hv
          obtain ⟨_, _, rfl⟩ := List.mem_map.1 hv
          rfl
        · exact ih _
    exact hall _ _

end Verif.Relabel
