import Verif.Model.ExpertChoiceBlock
import Verif.Props.MoeBlock
import Verif.Props.MoeExpertChoice
import Verif.Props.MoeCapacity

/-!
Property C78: the MoE block with expert-choice routing end to end (vmoe/nn/vit_moe.py:48-124 with the
router of vmoe/nn/routing.py:186-244).
-/

namespace Verif.ExpertChoice

open Verif Verif.Moe Verif.Spec Verif.Soft Verif.MoeBlock

variable {B T H O E G S : Nat} {P : Type*}

/-- Standard deviation of the noise that is used: none in deterministic mode, otherwise the
configured value divided by the number of experts. -/
noncomputable def sigma (cfg : RouterConfig) (E : Nat) : ℝ :=
  if cfg.deterministic then 0 else cfg.noiseStd / E

/-- The capacity that the options `d` ask for, for groups of `S` tokens and `E` experts: rounding
mode `ceil` and multiples of 4 unless configured otherwise. -/
def asked (fl : ℚ → ℚ) (S E : Nat) (d : ItemsDispatcher) : Except PyErr Nat :=
  resolveCapacity fl S E d.capacity d.capacityFactor (d.ceilOrRound.getD "ceil")
    (d.multipleOf.getD (some 4))

theorem resolve_pos {fl : ℚ → ℚ} {n e : Nat} {c : Option Nat} {f : Option ℚ} {mode : String}
    {m : Option Int} {cap : Nat} (h : resolveCapacity fl n e c f mode m = .ok cap) : 0 < cap := by
  unfold resolveCapacity at h
  split at h
  · cases h
  split at h
  · cases h; exact Nat.succ_pos _
  · rename_i f' _ _
    rcases hc : computeCapacity fl n e f' mode m with err | v
    · rw [hc] at h; cases h
    · rw [hc] at h
      obtain ⟨_, he, r, hr, h1⟩ := C10_success_only_if fl n e f' mode m v hc
      obtain ⟨c', hc', hrc, -⟩ := (C10_capacity fl n e f' mode m he r hr).2 h1
      rw [hc] at hc'
      cases hc'
      cases h
      omega
  · split at h <;> cases h

theorem gates_eq (cfg : RouterConfig) (kernel : Fin H → Fin E → ℝ) (z : Nat → Nat → Nat → ℝ)
    (x : Fin G → Fin S → Fin H → ℝ) :
    computeGatesSoftmax cfg kernel z x = fun g s => expWeights (fun e =>
      (∑ h, x g s h * kernel h e) + sigma cfg E * z g s e) := by
  unfold computeGatesSoftmax
  simp only
  split
  · rename_i h
    funext g s e
    have : sigma cfg E = 0 := by
      unfold sigma
      rcases h with h | h
      · rw [if_pos h]
      · rw [h]; simp
    simp only [this, zero_mul, add_zero]
    rfl
  · rename_i h
    funext g s e
    have hd : ¬ cfg.deterministic = true := fun hd => h (Or.inl hd)
    simp only [sigma, if_neg hd, one_div_mul_eq_div]
    rfl

theorem create_ok (fl : ℚ → ℚ) (cfg : RouterConfig) (gates : Fin G → Fin S → Fin E → ℝ)
    (d : ItemsDispatcher) (hd : cfg.dispatcher = some d) (cap : Nat) (hcap : asked fl S E d = .ok cap)
    (hname : d.name = "einsum") (hC : cap ≤ S) (hk : d.otherKeys = false) (hE : 0 < E) :
    createDispatcherAndMetrics fl cfg gates = .ok
      { capacity := cap
        weights := fun g => topItemsEinsum (gates g) cap hC
        useBfloat16 := d.bfloat16.getD false
        metrics := fun g => topItemsMetrics (gates g) cap hC (resolve_pos hcap) hE
        auxiliaryLoss := 0 } := by
  have hcap' := hcap
  unfold asked at hcap'
  unfold createDispatcherAndMetrics
  simp only [hd, hcap', hname, ne_eq, not_true_eq_false, if_false]
  rw [dif_pos hC, hk, if_neg (by decide), dif_pos ⟨resolve_pos hcap, hE⟩]

/-- C78: with options `d` that ask for `cap` places per expert, no more than the group size, the
block returns for every token the sum, over the experts that have it among their `cap` highest gates
of the group (ties to the earlier token), of its gate times what the expert computes from it.  The
gates are the softmax over the experts of the gating logits plus noise of the configured size; groups
are consecutive tokens.  With `bfloat16`, exactly inputs and outputs of the experts are rounded. -/
theorem C78_block_output (fl : ℚ → ℚ) (bf : ℝ → ℝ) (cfg : RouterConfig) (S : Nat)
    (kernel : Fin H → Fin E → ℝ) (z : Nat → Nat → Nat → ℝ)
    (params : Fin E → P) (mlp : P → (Fin H → ℝ) → Fin O → ℝ) (x : Fin B → Fin T → Fin H → ℝ)
    (hS : 0 < S) (hdiv : S ∣ B * T) (hE : 0 < E) (d : ItemsDispatcher)
    (hd : cfg.dispatcher = some d) (cap : Nat) (hcap : asked fl S E d = .ok cap)
    (hname : d.name = "einsum") (hC : cap ≤ S) (hk : d.otherKeys = false) :
    ∃ out r, mlpMoeBlock fl bf cfg S kernel z params mlp x = .ok (out, r) ∧
      (∀ (b : Fin B) (t : Fin T),
        let n := tokenNumber T b t
        let gates := tokenGates S kernel (sigma cfg E) z x (n / S)
        let round := fun {D : Nat} (v : Fin D → ℝ) (i : Fin D) =>
          if d.bfloat16 = some true then bf (v i) else v i
        ∀ i, out b t i =
          ∑ e ∈ Finset.univ.filter (fun e => itemRank gates ⟨n % S, Nat.mod_lt _ hS⟩ e < cap),
            gates ⟨n % S, Nat.mod_lt _ hS⟩ e * round (mlp (params e) (round (x b t))) i) ∧
      r.auxiliaryLoss = 0 ∧
      ∀ g : Fin (B * T / S), r.metrics g =
        topItemsMetrics (tokenGates S kernel (sigma cfg E) z x g) cap hC (resolve_pos hcap) hE := by
  have hg := gates_eq cfg kernel z (fun (g : Fin (B * T / S)) (s : Fin S) => tokenOf x (g * S + s))
  have hcr := create_ok fl cfg (computeGatesSoftmax cfg kernel z
    (fun (g : Fin (B * T / S)) (s : Fin S) => tokenOf x (g * S + s))) d hd cap hcap hname hC hk hE
  obtain ⟨out, hout, ho⟩ := ungroup_eq (B := B) (T := T)
    (sparseMoe (einsumDispatch (fun g : Fin (B * T / S) => topItemsEinsum (computeGatesSoftmax cfg
        kernel z (fun (g : Fin (B * T / S)) (s : Fin S) => tokenOf x (g * S + s)) g) cap hC))
      (fun y => einsumCombine (fun g : Fin (B * T / S) => topItemsEinsum (computeGatesSoftmax cfg
        kernel z (fun (g : Fin (B * T / S)) (s : Fin S) => tokenOf x (g * S + s)) g) cap hC)
        (fun e i => castData bf (d.bfloat16.getD false) (y e i)))
      params mlp (fun (g : Fin (B * T / S)) (s : Fin S) =>
        castData bf (d.bfloat16.getD false) (tokenOf x (g * S + s)))) hS hdiv
  have hrun : mlpMoeBlock fl bf cfg S kernel z params mlp x = .ok (out,
      { capacity := cap
        weights := fun g => topItemsEinsum (computeGatesSoftmax cfg kernel z
          (fun (g : Fin (B * T / S)) (s : Fin S) => tokenOf x (g * S + s)) g) cap hC
        useBfloat16 := d.bfloat16.getD false
        metrics := fun g => topItemsMetrics (computeGatesSoftmax cfg kernel z
          (fun (g : Fin (B * T / S)) (s : Fin S) => tokenOf x (g * S + s)) g) cap hC
            (resolve_pos hcap) hE
        auxiliaryLoss := 0 }) := by
    unfold mlpMoeBlock
    rw [regroup_eq x S hS hdiv]
    simp only [hcr, hout]
  refine ⟨out, _, hrun, ?_, rfl, ?_⟩
  · intro b t n gates round i
    have hlt := tokenNumber_lt b t
    have h1 : tokenNumber T b t / S < B * T / S := by
      rw [Nat.div_lt_iff_lt_mul hS, Nat.div_mul_cancel hdiv]; exact hlt
    have hl := C08_moe_layer (computeGatesSoftmax cfg kernel z
        (fun (g : Fin (B * T / S)) (s : Fin S) => tokenOf x (g * S + s))) cap hC params
      (fun p v => castData bf (d.bfloat16.getD false) (mlp p v))
      (fun (g : Fin (B * T / S)) (s : Fin S) =>
        castData bf (d.bfloat16.getD false) (tokenOf x (g * S + s)))
      ⟨tokenNumber T b t / S, h1⟩ ⟨tokenNumber T b t % S, Nat.mod_lt _ hS⟩
    rw [ho b t h1 (Nat.mod_lt _ hS)]
    refine (congrFun hl i).trans ?_
    rw [Finset.sum_apply]
    have hx : tokenOf x (tokenNumber T b t / S * S + tokenNumber T b t % S) = x b t := by
      rw [Nat.div_add_mod', tokenOf_tokenNumber]
    have hr : ∀ {D : Nat} (v : Fin D → ℝ), castData bf (d.bfloat16.getD false) v = round v := by
      intro D v
      unfold castData
      funext i
      rcases hb : d.bfloat16 with _ | _ | _ <;> simp [hb, round]
    have hgt : computeGatesSoftmax cfg kernel z
        (fun (g : Fin (B * T / S)) (s : Fin S) => tokenOf x (g * S + s))
        ⟨tokenNumber T b t / S, h1⟩ = gates := by rw [hg]; rfl
    rw [hgt]
    apply Finset.sum_congr rfl
    intro e _
    rw [Pi.smul_apply, smul_eq_mul, hr, hr]
    have hx' : (fun (g : Fin (B * T / S)) (s : Fin S) => tokenOf x (g * S + s)) ⟨_, h1⟩
        ⟨_, Nat.mod_lt (tokenNumber T b t) hS⟩ = x b t := hx
    rw [← hx']
  · intro g
    simp only [hg]
    rfl

/-- C78: in every group every expert processes exactly `cap` tokens, whatever the gates are. -/
theorem C78_balanced (fl : ℚ → ℚ) (bf : ℝ → ℝ) (cfg : RouterConfig) (S : Nat)
    (kernel : Fin H → Fin E → ℝ) (z : Nat → Nat → Nat → ℝ)
    (params : Fin E → P) (mlp : P → (Fin H → ℝ) → Fin O → ℝ) (x : Fin B → Fin T → Fin H → ℝ)
    (d : ItemsDispatcher) (hd : cfg.dispatcher = some d) (out r)
    (h : mlpMoeBlock fl bf cfg S kernel z params mlp x = .ok (out, r)) :
    asked fl S E d = .ok r.capacity ∧ r.capacity ≤ S ∧
    ∀ (g : Fin (B * T / S)) (e : Fin E), (Finset.univ.filter (fun s =>
      ∃ c, (r.weights g).dispatchWeights s e c = true)).card = r.capacity := by
  unfold mlpMoeBlock at h
  split at h
  · cases h
  rename_i xg _
  unfold createDispatcherAndMetrics at h
  simp only [hd] at h
  rcases hcap : resolveCapacity fl S E d.capacity d.capacityFactor (d.ceilOrRound.getD "ceil")
    (d.multipleOf.getD (some 4)) with err | cap
  · simp only [hcap] at h; cases h
  simp only [hcap] at h
  by_cases hn : d.name ≠ "einsum"
  · simp only [if_pos hn] at h; cases h
  simp only [if_neg hn] at h
  by_cases hC : cap ≤ S
  · simp only [dif_pos hC] at h
    by_cases hk : d.otherKeys = true
    · simp only [if_pos hk] at h; cases h
    simp only [if_neg hk] at h
    by_cases h0 : 0 < cap ∧ 0 < E
    · simp only [dif_pos h0] at h
      split at h
      · cases h
      cases h
      exact ⟨hcap, hC, fun g e => (C08_every_expert_full _ cap hC e).2.2⟩
    · simp only [dif_neg h0] at h; cases h
  · simp only [dif_neg hC] at h; cases h

/-- C78: the block fails exactly in these cases: the group size does not divide the number of tokens
(TypeError), no dispatcher options (TypeError), wrong capacity options (error of the capacity
computation), a dispatcher other than `einsum` (ValueError), capacity above the group size
(ValueError), options that the dispatcher does not know such as `batch_priority` (TypeError), no
experts (ValueError). -/
theorem C78_block_errors (fl : ℚ → ℚ) (bf : ℝ → ℝ) (cfg : RouterConfig) (S : Nat)
    (kernel : Fin H → Fin E → ℝ) (z : Nat → Nat → Nat → ℝ)
    (params : Fin E → P) (mlp : P → (Fin H → ℝ) → Fin O → ℝ) (x : Fin B → Fin T → Fin H → ℝ) :
    let res := mlpMoeBlock fl bf cfg S kernel z params mlp x
    (¬ (0 < S ∧ S ∣ B * T) → res = .error .typeError) ∧
    (0 < S ∧ S ∣ B * T →
      (cfg.dispatcher = none → res = .error .typeError) ∧
      (∀ d, cfg.dispatcher = some d →
        (∀ err, asked fl S E d = .error err → res = .error err) ∧
        (∀ cap, asked fl S E d = .ok cap →
          (d.name ≠ "einsum" → res = .error .valueError) ∧
          (d.name = "einsum" → S < cap → res = .error .valueError) ∧
          (d.name = "einsum" → cap ≤ S → d.otherKeys = true → res = .error .typeError) ∧
          (d.name = "einsum" → cap ≤ S → d.otherKeys = false → E = 0 → res = .error .valueError) ∧
          (d.name = "einsum" → cap ≤ S → d.otherKeys = false → 0 < E → ∃ r, res = .ok r)))) := by
  intro res
  refine ⟨?_, ?_⟩
  · intro h
    have h' : ¬ (0 < S ∧ B * T % S = 0) := fun h2 => h ⟨h2.1, Nat.dvd_of_mod_eq_zero h2.2⟩
    simp only [res, mlpMoeBlock, regroup, dif_neg h']
  · rintro ⟨hS, hdiv⟩
    have hreg := regroup_eq x S hS hdiv
    refine ⟨?_, ?_⟩
    · intro hn
      simp only [res, mlpMoeBlock]
      rw [hreg]
      simp only [createDispatcherAndMetrics, hn]
    · intro d hd
      refine ⟨?_, ?_⟩
      · intro err herr
        unfold asked at herr
        simp only [res, mlpMoeBlock]
        rw [hreg]
        simp only [createDispatcherAndMetrics, hd, herr]
      · intro cap hcap
        have hcap' := hcap
        unfold asked at hcap'
        refine ⟨?_, ?_, ?_, ?_, ?_⟩
        · intro hname
          simp only [res, mlpMoeBlock]
          rw [hreg]
          simp only [createDispatcherAndMetrics, hd, hcap', if_pos hname]
        · intro hname hC
          have hC' : ¬ cap ≤ S := by omega
          simp only [res, mlpMoeBlock]
          rw [hreg]
          simp only [createDispatcherAndMetrics, hd, hcap', hname, ne_eq, not_true_eq_false, if_false,
            dif_neg hC']
        · intro hname hC hk
          simp only [res, mlpMoeBlock]
          rw [hreg]
          simp only [createDispatcherAndMetrics, hd, hcap', hname, ne_eq, not_true_eq_false, if_false,
            dif_pos hC, hk, if_true]
        · intro hname hC hk hE
          have hE' : ¬ (0 < cap ∧ 0 < E) := by omega
          simp only [res, mlpMoeBlock]
          rw [hreg]
          simp only [createDispatcherAndMetrics, hd, hcap', hname, ne_eq, not_true_eq_false, if_false,
            dif_pos hC, hk, Bool.false_eq_true, dif_neg hE']
        · intro hname hC hk hE
          obtain ⟨out, r, h, -⟩ := C78_block_output fl bf cfg S kernel z params mlp x hS hdiv hE d hd
            cap hcap hname hC hk
          exact ⟨_, h⟩

/-- What a successful call says about its arguments. -/
theorem success {fl : ℚ → ℚ} {bf : ℝ → ℝ} {cfg : RouterConfig} {S : Nat}
    {kernel : Fin H → Fin E → ℝ} {z : Nat → Nat → Nat → ℝ}
    {params : Fin E → P} {mlp : P → (Fin H → ℝ) → Fin O → ℝ} {x : Fin B → Fin T → Fin H → ℝ} {res}
    (h : mlpMoeBlock fl bf cfg S kernel z params mlp x = .ok res) :
    (0 < S ∧ S ∣ B * T) ∧ 0 < E ∧ ∃ d, cfg.dispatcher = some d ∧ d.name = "einsum" ∧
      d.otherKeys = false ∧ ∃ cap, asked fl S E d = .ok cap ∧ cap ≤ S := by
  have herr := C78_block_errors fl bf cfg S kernel z params mlp x
  simp only at herr
  rw [h] at herr
  obtain ⟨e1, e2⟩ := herr
  have hS : 0 < S ∧ S ∣ B * T := by by_contra hn; exact absurd (e1 hn) (by simp)
  obtain ⟨e3, e4⟩ := e2 hS
  rcases hd : cfg.dispatcher with _ | d
  · exact absurd (e3 hd) (by simp)
  obtain ⟨e5, e6⟩ := e4 d hd
  rcases hc : asked fl S E d with err | cap
  · exact absurd (e5 err hc) (by simp)
  obtain ⟨e7, e8, e9, e10, -⟩ := e6 cap hc
  have hname : d.name = "einsum" := by by_contra hn; exact absurd (e7 hn) (by simp)
  have hC : cap ≤ S := by by_contra hn; exact absurd (e8 hname (by omega)) (by simp)
  have hk : d.otherKeys = false := by
    by_contra hn
    exact absurd (e9 hname hC (by simpa using hn)) (by simp)
  have hE : 0 < E := by
    by_contra hn; exact absurd (e10 hname hC hk (by omega)) (by simp)
  exact ⟨hS, hE, d, rfl, hname, hk, cap, hc, hC⟩

/-- C78: the output of a token depends only on the tokens of its own group, whatever the rest of the
batch (and even the number of sequences) is. -/
theorem C78_group_local {B' : Nat} (fl : ℚ → ℚ) (bf : ℝ → ℝ) (cfg : RouterConfig) (S : Nat)
    (kernel : Fin H → Fin E → ℝ) (z : Nat → Nat → Nat → ℝ) (params : Fin E → P)
    (mlp : P → (Fin H → ℝ) → Fin O → ℝ) (x : Fin B → Fin T → Fin H → ℝ)
    (x' : Fin B' → Fin T → Fin H → ℝ) (out r out' r')
    (h : mlpMoeBlock fl bf cfg S kernel z params mlp x = .ok (out, r))
    (h' : mlpMoeBlock fl bf cfg S kernel z params mlp x' = .ok (out', r'))
    (b : Fin B) (b' : Fin B') (hb : b.1 = b'.1) (t : Fin T)
    (hg : ∀ n, n / S = tokenNumber T b t / S → tokenOf x n = tokenOf x' n) :
    out b t = out' b' t := by
  obtain ⟨hS, hE, d, hd, hname, hk, cap, hc, hC⟩ := success h
  obtain ⟨hS', -⟩ := success h'
  obtain ⟨o1, m1, e1, f1, -⟩ := C78_block_output fl bf cfg S kernel z params mlp x hS.1 hS.2 hE d hd
    cap hc hname hC hk
  obtain ⟨o2, m2, e2, f2, -⟩ := C78_block_output fl bf cfg S kernel z params mlp x' hS'.1 hS'.2 hE d
    hd cap hc hname hC hk
  rw [h] at e1
  rw [h'] at e2
  cases e1
  cases e2
  funext i
  have hnum : tokenNumber T b t = tokenNumber T b' t := by unfold tokenNumber; rw [hb]
  have hx : x b t = x' b' t := by
    rw [← tokenOf_tokenNumber x b t, ← tokenOf_tokenNumber x' b' t, ← hnum]
    exact hg _ rfl
  have hgates := tokenGates_congr S kernel (sigma cfg E) z x x' (tokenNumber T b t / S) (by
    intro s hs
    apply hg
    rw [Nat.mul_comm, Nat.mul_add_div hS.1, Nat.div_eq_of_lt hs, Nat.add_zero])
  have r1 := f1 b t i
  have r2 := f2 b' t i
  simp only at r1 r2
  rw [r1, r2]
  simp only [← hnum, hgates, hx]

/-- C78: a token that is among the `cap` highest gates of no expert gets the zero vector, whatever
the experts compute; and no token is amplified: if every expert maps it to a value bounded by `c`, so
does the block. -/
theorem C78_bounded (fl : ℚ → ℚ) (bf : ℝ → ℝ) (cfg : RouterConfig) (S : Nat)
    (kernel : Fin H → Fin E → ℝ) (z : Nat → Nat → Nat → ℝ)
    (params : Fin E → P) (mlp : P → (Fin H → ℝ) → Fin O → ℝ) (x : Fin B → Fin T → Fin H → ℝ) (out r)
    (h : mlpMoeBlock fl bf cfg S kernel z params mlp x = .ok (out, r))
    (b : Fin B) (t : Fin T) (i : Fin O) :
    (∀ hS : 0 < S, (∀ e, r.capacity ≤ itemRank (tokenGates S kernel (sigma cfg E) z x
        (tokenNumber T b t / S)) ⟨tokenNumber T b t % S, Nat.mod_lt _ hS⟩ e) → out b t i = 0) ∧
    (cfg.dispatcher.bind (·.bfloat16) ≠ some true →
      ∀ c, (∀ e, |mlp (params e) (x b t) i| ≤ c) → |out b t i| ≤ c) := by
  obtain ⟨hS, hE, d, hd, hname, hk, cap, hcap, hC⟩ := success h
  obtain ⟨hr, -, -⟩ := C78_balanced fl bf cfg S kernel z params mlp x d hd out r h
  have hrc : r.capacity = cap := by rw [hcap] at hr; exact (Except.ok.inj hr).symm
  obtain ⟨o1, m1, e1, f1, -⟩ := C78_block_output fl bf cfg S kernel z params mlp x hS.1 hS.2 hE d hd
    cap hcap hname hC hk
  rw [h] at e1
  cases e1
  have r1 := f1 b t i
  refine ⟨?_, ?_⟩
  · intro hS' hno
    rw [hrc] at hno
    simp only at r1
    rw [r1]
    apply Finset.sum_eq_zero
    intro e he
    rw [Finset.mem_filter] at he
    exact absurd he.2 (not_lt.2 (hno e))
  · intro hbf c hc
    rw [hd] at hbf
    have hbf' : ¬ d.bfloat16 = some true := hbf
    simp only [if_neg hbf'] at r1
    have hc0 : 0 ≤ c := (abs_nonneg _).trans (hc ⟨0, hE⟩)
    rw [r1]
    refine (Finset.abs_sum_le_sum_abs _ _).trans ?_
    set gt := tokenGates S kernel (sigma cfg E) z x (tokenNumber T b t / S)
      ⟨tokenNumber T b t % S, Nat.mod_lt _ hS.1⟩ with hgt
    have hpos : ∀ e, 0 < gt e := fun e => expWeights_pos e
    have hsum : ∑ e, gt e = 1 := expWeights_sum hE _
    refine (Finset.sum_le_sum (g := fun e => gt e * c) ?_).trans ?_
    · intro e _
      rw [abs_mul, abs_of_pos (hpos e)]
      exact mul_le_mul_of_nonneg_left (hc e) (hpos e).le
    · rw [← Finset.sum_mul]
      have : ∑ e ∈ Finset.univ.filter (fun e => itemRank
          (tokenGates S kernel (sigma cfg E) z x (tokenNumber T b t / S))
          ⟨tokenNumber T b t % S, Nat.mod_lt _ hS.1⟩ e < cap), gt e ≤ 1 := by
        rw [← hsum]
        exact Finset.sum_le_univ_sum_of_nonneg (fun e => (hpos e).le)
      nlinarith

/-- Options of the examples: capacity factor 2, rounded up to a multiple of 4 by default. -/
noncomputable def exRouter : RouterConfig :=
  { noiseStd := 1
    deterministic := false
    dispatcher := some
      { name := "einsum", capacity := none, capacityFactor := some 2, ceilOrRound := none
        multipleOf := none, bfloat16 := none, otherKeys := false } }

theorem exAsked : asked id 8 3
    { name := "einsum", capacity := none, capacityFactor := some 2, ceilOrRound := none
      multipleOf := none, bfloat16 := none, otherKeys := false } = .ok 8 := by
  decide +kernel

-- Non-vacuity: 4 sequences of 4 tokens in 2 groups of 8 tokens, 3 experts; each wants 16/3 tokens,
-- rounded up to 8.  The block runs.
example (kernel : Fin 2 → Fin 3 → ℝ) (x : Fin 4 → Fin 4 → Fin 2 → ℝ) :
    ∃ out r, mlpMoeBlock (P := Unit) id id exRouter 8 kernel (fun _ _ _ => 0)
      (fun _ => ()) (fun _ v => v) x = .ok (out, r) ∧ r.capacity = 8 ∧ r.auxiliaryLoss = 0 := by
  obtain ⟨out, r, h, -, ha, -⟩ := C78_block_output (P := Unit) id id exRouter 8 kernel
    (fun _ _ _ => 0) (fun _ => ()) (fun _ v => v) x (by decide) (by decide) (by decide) _ rfl 8 exAsked
    rfl (by decide) rfl
  have hb := (C78_balanced (P := Unit) id id exRouter 8 kernel (fun _ _ _ => 0) (fun _ => ())
    (fun _ v => v) x _ rfl out r h).1
  exact ⟨out, r, h, (Except.ok.inj (exAsked.symm.trans hb)).symm, ha⟩

-- The default rounding to a multiple of 4 can ask for more places than there are tokens: groups of 6
-- tokens, 3 experts, capacity factor 3 (every expert takes every token) give 8 places.
example (kernel : Fin 2 → Fin 3 → ℝ) (x : Fin 3 → Fin 4 → Fin 2 → ℝ) :
    mlpMoeBlock (P := Unit) id id ⟨1, some
      ⟨"einsum", none, some 3, none, none, none, false⟩, false⟩ 6 kernel (fun _ _ _ => 0)
      (fun _ => ()) (fun _ v => v) x = .error .valueError :=
  (((C78_block_errors (P := Unit) id id _ 6 kernel (fun _ _ _ => 0) (fun _ => ()) (fun _ v => v)
    x).2 ⟨by decide, by decide⟩).2 _ rfl).2 8 (by decide +kernel) |>.2.1 rfl (by decide)

end Verif.ExpertChoice
