import Verif.Model.MoeBlock
import Verif.Spec.Tokens
import Verif.Props.MoeRouting
import Verif.Props.MoeCapacity
import Mathlib.Algebra.BigOperators.Field

/-!
Property C72: the MoE block of the vision transformer end to end (vmoe/nn/vit_moe.py:48-124 with the
router of vmoe/nn/routing.py:31-131).
-/

namespace Verif.MoeBlock

open Verif Verif.Moe Verif.Spec Verif.Aux Verif.Soft

variable {B T H O E G S K : Nat} {P : Type*}

/-- Standard deviation of the noise that is used: none in deterministic mode, otherwise the
configured value divided by the number of experts. -/
noncomputable def usedStd (cfg : RouterConfig) (E : Nat) : ℝ :=
  if cfg.deterministic then 0 else cfg.noiseStd / E

theorem applyLayer_eq (hE : 0 < E) (fl : ℚ → ℚ) (bf : ℝ → ℝ) (cfg : RouterConfig)
    (gates : Fin G → Fin S → Fin E → ℝ) (useBf : Bool) (oob : Fin O → ℝ) (params : Fin E → P)
    (mlp : P → (Fin H → ℝ) → Fin O → ℝ) (x : Fin G → Fin S → Fin H → ℝ) (cap : Nat)
    (hcap : resolveCapacity fl (S * cfg.numSelected) E cfg.dispatcher.capacity
      cfg.dispatcher.capacityFactor cfg.dispatcher.ceilOrRound cfg.dispatcher.multipleOf = .ok cap)
    (hname : cfg.dispatcher.name = "einsum" ∨ cfg.dispatcher.name = "indices")
    (h0 : 0 < cfg.numSelected) (hK : cfg.numSelected ≤ E) :
    ∃ d, createDispatcher fl cfg gates = .ok d ∧ ∀ g s, applyLayer bf useBf oob params mlp d x g s =
      ∑ e ∈ Finset.univ.filter (fun e =>
        Kept hE cfg.dispatcher.batchPriority (gates g) cfg.numSelected cap s e),
        gates g s e • castData bf useBf (mlp (params e) (castData bf useBf (x g s))) := by
  have hn : ¬ (cfg.dispatcher.name ≠ "einsum" ∧ cfg.dispatcher.name ≠ "indices") := by tauto
  unfold createDispatcher
  simp only [hcap, if_neg hn]
  rw [dif_pos ⟨h0, hK⟩]
  rcases hname with h | h
  · rw [if_pos h]
    refine ⟨_, rfl, ?_⟩
    intro g s
    exact C06_moe_layer_einsum hE gates h0 hK cap cfg.dispatcher.batchPriority params
      (fun p v => castData bf useBf (mlp p v)) (fun g s => castData bf useBf (x g s)) g s
  · have h' : ¬ cfg.dispatcher.name = "einsum" := by rw [h]; decide
    rw [if_neg h']
    refine ⟨_, rfl, ?_⟩
    intro g s
    exact C06_moe_layer_indices hE gates h0 hK cap cfg.dispatcher.batchPriority oob params
      (fun p v => castData bf useBf (mlp p v)) (fun g s => castData bf useBf (x g s)) g s

theorem gates_eq (cdf : ℝ → ℝ) (cfg : RouterConfig) (kernel : Fin H → Fin E → ℝ)
    (z : Nat → Nat → Nat → ℝ) (x : Fin G → Fin S → Fin H → ℝ)
    (h0 : 0 < cfg.numSelected) (hK : cfg.numSelected ≤ E) :
    ∃ m, gatesAndMetrics cdf cfg kernel z x = .ok (fun g s => expWeights (fun e =>
      (∑ h, x g s h * kernel h e) + usedStd cfg E * z g s e), m) := by
  unfold gatesAndMetrics
  rw [dif_pos ⟨hK, h0⟩]
  simp only
  split
  · rename_i h
    refine ⟨_, congrArg Except.ok (Prod.ext ?_ rfl)⟩
    funext g s e
    have : usedStd cfg E = 0 := by
      unfold usedStd
      rcases h with h | h
      · rw [if_pos h]
      · rw [h]; simp
    simp only [this, zero_mul, add_zero]
    rfl
  · rename_i h
    refine ⟨_, congrArg Except.ok (Prod.ext ?_ rfl)⟩
    funext g s e
    have hd : ¬ cfg.deterministic = true := fun hd => h (Or.inl hd)
    simp only [usedStd, if_neg hd, one_div_mul_eq_div]
    rfl

theorem regroup_eq {M : Type*} [Inhabited M] (x : Fin B → Fin T → M) (S : Nat) (hS : 0 < S)
    (hdiv : S ∣ B * T) :
    regroup x S = .ok (fun g s => tokenOf x (g * S + s)) := by
  have hm : B * T % S = 0 := Nat.mod_eq_zero_of_dvd hdiv
  unfold regroup
  rw [dif_pos ⟨hS, hm⟩]
  congr 1
  funext g s
  have hlt : g.1 * S + s.1 < B * T := by
    exact lt_of_lt_of_eq (rowMajor g s).2 (Nat.div_mul_cancel hdiv)
  have hT : 0 < T := by
    rcases Nat.eq_zero_or_pos T with h | h
    · subst h; simp at hlt
    · exact h
  have h1 : (g.1 * S + s.1) / T < B := by
    rw [Nat.div_lt_iff_lt_mul hT]; exact hlt
  have h2 : (g.1 * S + s.1) % T < T := Nat.mod_lt _ hT
  unfold tokenOf
  rw [dif_pos ⟨h1, h2⟩]
  rfl

theorem ungroup_eq {M : Type*} (y : Fin (B * T / S) → Fin S → M) (hS : 0 < S)
    (hdiv : S ∣ B * T) :
    ∃ out, ungroup y = .ok out ∧ ∀ (b : Fin B) (t : Fin T)
      (h1 : tokenNumber T b t / S < B * T / S) (h2 : tokenNumber T b t % S < S),
      out b t = y ⟨tokenNumber T b t / S, h1⟩ ⟨tokenNumber T b t % S, h2⟩ := by
  have hm : B * T % S = 0 := Nat.mod_eq_zero_of_dvd hdiv
  unfold ungroup
  rw [dif_pos ⟨hS, hm⟩]
  refine ⟨_, rfl, ?_⟩
  intro b t h1 h2
  rfl

theorem tokenNumber_lt (b : Fin B) (t : Fin T) : tokenNumber T b t < B * T :=
  (rowMajor b t).2

theorem tokenOf_tokenNumber {M : Type*} [Inhabited M] (x : Fin B → Fin T → M) (b : Fin B)
    (t : Fin T) : tokenOf x (tokenNumber T b t) = x b t := by
  have hT : 0 < T := Nat.lt_of_le_of_lt (Nat.zero_le _) t.2
  have h1 : (b.1 * T + t.1) / T = b := by
    rw [Nat.mul_comm, Nat.mul_add_div hT, Nat.div_eq_of_lt t.2, Nat.add_zero]
  have h2 : (b.1 * T + t.1) % T = t := by
    rw [Nat.mul_comm, Nat.mul_add_mod, Nat.mod_eq_of_lt t.2]
  unfold tokenOf tokenNumber
  rw [dif_pos ⟨by rw [h1]; exact b.2, by rw [h2]; exact t.2⟩]
  have e1 : (⟨(b.1 * T + t.1) / T, by rw [h1]; exact b.2⟩ : Fin B) = b := Fin.ext h1
  have e2 : (⟨(b.1 * T + t.1) % T, by rw [h2]; exact t.2⟩ : Fin T) = t := Fin.ext h2
  rw [e1, e2]

/-- C72: if the group size divides the number of tokens, `1 ≤ K ≤ E`, and the capacity options give
capacity `cap`, the block returns for token `t` of sequence `b` the sum over the experts that keep
the token of its gate (softmax over the experts of the gating logits, plus noise of the configured
size) times what the expert computes from that token.  Groups, priorities and slots are those of the
specification: groups are consecutive tokens, across sequences.  With `bfloat16`, exactly the inputs
and outputs of the experts are rounded. -/
theorem C72_block_output (fl : ℚ → ℚ) (cdf bf : ℝ → ℝ) (cfg : RouterConfig) (S : Nat)
    (kernel : Fin H → Fin E → ℝ) (z : Nat → Nat → Nat → ℝ) (oob : Fin O → ℝ)
    (params : Fin E → P) (mlp : P → (Fin H → ℝ) → Fin O → ℝ) (x : Fin B → Fin T → Fin H → ℝ)
    (hS : 0 < S) (hdiv : S ∣ B * T) (hE : 0 < E) (h0 : 0 < cfg.numSelected)
    (hK : cfg.numSelected ≤ E)
    (hname : cfg.dispatcher.name = "einsum" ∨ cfg.dispatcher.name = "indices") (cap : Nat)
    (hcap : resolveCapacity fl (S * cfg.numSelected) E cfg.dispatcher.capacity
      cfg.dispatcher.capacityFactor cfg.dispatcher.ceilOrRound cfg.dispatcher.multipleOf = .ok cap) :
    ∃ out m, mlpMoeBlock fl cdf bf cfg S kernel z oob params mlp x = .ok (out, m) ∧
      ∀ (b : Fin B) (t : Fin T),
        let n := tokenNumber T b t
        let gates := tokenGates S kernel (usedStd cfg E) z x (n / S)
        let round := fun {D : Nat} (v : Fin D → ℝ) (i : Fin D) =>
          if cfg.dispatcher.bfloat16 then bf (v i) else v i
        ∀ i, out b t i =
          ∑ e ∈ Finset.univ.filter (fun e => Kept hE cfg.dispatcher.batchPriority gates
              cfg.numSelected cap ⟨n % S, Nat.mod_lt _ hS⟩ e),
            gates ⟨n % S, Nat.mod_lt _ hS⟩ e * round (mlp (params e) (round (x b t))) i := by
  obtain ⟨m, hm⟩ := gates_eq cdf cfg kernel z (fun (g : Fin (B * T / S)) (s : Fin S) =>
    tokenOf x (g * S + s)) h0 hK
  obtain ⟨d, hd, hl⟩ := applyLayer_eq hE fl bf cfg (fun (g : Fin (B * T / S)) (s : Fin S) =>
    expWeights (fun e => (∑ h, tokenOf x (g * S + s) h * kernel h e) + usedStd cfg E * z g s e))
    cfg.dispatcher.bfloat16 oob params mlp (fun g s => tokenOf x (g * S + s)) cap hcap hname h0 hK
  obtain ⟨out, hout, ho⟩ := ungroup_eq (B := B) (T := T)
    (applyLayer bf cfg.dispatcher.bfloat16 oob params mlp d
      (fun g s => tokenOf x (g * S + s))) hS hdiv
  refine ⟨out, m, ?_, ?_⟩
  · unfold mlpMoeBlock
    rw [regroup_eq x S hS hdiv]
    simp only [hm, hd, hout]
  · intro b t n gates round i
    have hlt := tokenNumber_lt b t
    have h1 : tokenNumber T b t / S < B * T / S := by
      rw [Nat.div_lt_iff_lt_mul hS, Nat.div_mul_cancel hdiv]; exact hlt
    rw [ho b t h1 (Nat.mod_lt _ hS), hl, Finset.sum_apply]
    have hx : tokenOf x (tokenNumber T b t / S * S + tokenNumber T b t % S) = x b t := by
      rw [Nat.div_add_mod', tokenOf_tokenNumber]
    apply Finset.sum_congr rfl
    intro e _
    have hr : ∀ {D : Nat} (v : Fin D → ℝ), castData bf cfg.dispatcher.bfloat16 v = round v := by
      intro D v
      unfold castData
      funext i
      by_cases hb : cfg.dispatcher.bfloat16 = true <;> simp [hb, round]
    rw [Pi.smul_apply, smul_eq_mul, hr, hr]
    have hx' : (fun (g : Fin (B * T / S)) (s : Fin S) => tokenOf x (g * S + s)) ⟨_, h1⟩
        ⟨_, Nat.mod_lt (tokenNumber T b t) hS⟩ = x b t := hx
    rw [← hx']
    rfl

/-- C72: the block fails exactly in these cases: the group size does not divide the number of tokens
(TypeError), the number of selected experts is not between 1 and the number of experts (ValueError),
the capacity options are wrong (error of the capacity computation), unknown dispatcher name
(ValueError). -/
theorem C72_block_errors (fl : ℚ → ℚ) (cdf bf : ℝ → ℝ) (cfg : RouterConfig) (S : Nat)
    (kernel : Fin H → Fin E → ℝ) (z : Nat → Nat → Nat → ℝ) (oob : Fin O → ℝ)
    (params : Fin E → P) (mlp : P → (Fin H → ℝ) → Fin O → ℝ) (x : Fin B → Fin T → Fin H → ℝ) :
    let cap := resolveCapacity fl (S * cfg.numSelected) E cfg.dispatcher.capacity
      cfg.dispatcher.capacityFactor cfg.dispatcher.ceilOrRound cfg.dispatcher.multipleOf
    let r := mlpMoeBlock fl cdf bf cfg S kernel z oob params mlp x
    (¬ (0 < S ∧ S ∣ B * T) → r = .error .typeError) ∧
    (0 < S ∧ S ∣ B * T → ¬ (1 ≤ cfg.numSelected ∧ cfg.numSelected ≤ E) → r = .error .valueError) ∧
    (0 < S ∧ S ∣ B * T → 1 ≤ cfg.numSelected ∧ cfg.numSelected ≤ E →
      (∀ err, cap = .error err → r = .error err) ∧
      (∀ c, cap = .ok c →
        (cfg.dispatcher.name ≠ "einsum" ∧ cfg.dispatcher.name ≠ "indices" →
          r = .error .valueError) ∧
        (cfg.dispatcher.name = "einsum" ∨ cfg.dispatcher.name = "indices" →
          ∃ out, r = .ok out))) := by
  intro cap r
  refine ⟨?_, ?_, ?_⟩
  · intro h
    have h' : ¬ (0 < S ∧ B * T % S = 0) := fun h2 => h ⟨h2.1, Nat.dvd_of_mod_eq_zero h2.2⟩
    simp only [r, mlpMoeBlock, regroup, dif_neg h']
  · rintro ⟨hS, hdiv⟩ hn
    have hn' : ¬ (cfg.numSelected ≤ E ∧ 1 ≤ cfg.numSelected) := by tauto
    simp only [r, mlpMoeBlock]
    rw [regroup_eq x S hS hdiv]
    simp only [gatesAndMetrics, dif_neg hn']
  · rintro ⟨hS, hdiv⟩ ⟨h0, hK⟩
    obtain ⟨m, hm⟩ := gates_eq cdf cfg kernel z (fun (g : Fin (B * T / S)) (s : Fin S) =>
      tokenOf x (g * S + s)) h0 hK
    refine ⟨?_, ?_⟩
    · intro err herr
      have hcap : resolveCapacity fl (S * cfg.numSelected) E cfg.dispatcher.capacity
        cfg.dispatcher.capacityFactor cfg.dispatcher.ceilOrRound cfg.dispatcher.multipleOf =
          .error err := herr
      simp only [r, mlpMoeBlock]
      rw [regroup_eq x S hS hdiv]
      simp only [hm, createDispatcher, hcap]
    · intro c hc
      have hcap : resolveCapacity fl (S * cfg.numSelected) E cfg.dispatcher.capacity
        cfg.dispatcher.capacityFactor cfg.dispatcher.ceilOrRound cfg.dispatcher.multipleOf =
          .ok c := hc
      refine ⟨?_, ?_⟩
      · intro hname
        simp only [r, mlpMoeBlock]
        rw [regroup_eq x S hS hdiv]
        simp only [hm, createDispatcher, hcap, if_pos hname]
      · intro hname
        obtain ⟨out, m, h, -⟩ := C72_block_output fl cdf bf cfg S kernel z oob params mlp x hS hdiv
          (Nat.lt_of_lt_of_le h0 hK) h0 hK hname c hcap
        exact ⟨_, h⟩

theorem tokenGates_congr {B' T' : Nat} (S : Nat) (kernel : Fin H → Fin E → ℝ) (sigma : ℝ)
    (z : Nat → Nat → Nat → ℝ) (x : Fin B → Fin T → Fin H → ℝ) (x' : Fin B' → Fin T' → Fin H → ℝ)
    (g : Nat) (h : ∀ s < S, tokenOf x (g * S + s) = tokenOf x' (g * S + s)) :
    tokenGates S kernel sigma z x g = tokenGates S kernel sigma z x' g := by
  funext s
  unfold tokenGates
  rw [h s s.2]

/-- C72: the output of a token depends only on the tokens of its own group, whatever the rest of the
batch (and even the number of sequences) is. -/
theorem C72_group_local {B' : Nat} (fl : ℚ → ℚ) (cdf bf : ℝ → ℝ) (cfg : RouterConfig) (S : Nat)
    (kernel : Fin H → Fin E → ℝ) (z : Nat → Nat → Nat → ℝ) (oob : Fin O → ℝ) (params : Fin E → P)
    (mlp : P → (Fin H → ℝ) → Fin O → ℝ) (x : Fin B → Fin T → Fin H → ℝ)
    (x' : Fin B' → Fin T → Fin H → ℝ) (out m out' m')
    (h : mlpMoeBlock fl cdf bf cfg S kernel z oob params mlp x = .ok (out, m))
    (h' : mlpMoeBlock fl cdf bf cfg S kernel z oob params mlp x' = .ok (out', m'))
    (b : Fin B) (b' : Fin B') (hb : b.1 = b'.1) (t : Fin T)
    (hg : ∀ n, n / S = tokenNumber T b t / S → tokenOf x n = tokenOf x' n) :
    out b t = out' b' t := by
  have herr := C72_block_errors fl cdf bf cfg S kernel z oob params mlp x
  have herr' := C72_block_errors fl cdf bf cfg S kernel z oob params mlp x'
  simp only at herr herr'
  rw [h] at herr
  rw [h'] at herr'
  have hd : 0 < S ∧ S ∣ B * T := by by_contra hn; exact absurd (herr.1 hn) (by simp)
  have hd' : 0 < S ∧ S ∣ B' * T := by by_contra hn; exact absurd (herr'.1 hn) (by simp)
  have hk : 1 ≤ cfg.numSelected ∧ cfg.numSelected ≤ E := by
    by_contra hn; exact absurd (herr.2.1 hd hn) (by simp)
  have hE : 0 < E := Nat.lt_of_lt_of_le hk.1 hk.2
  obtain ⟨he1, he2⟩ := herr.2.2 hd hk
  rcases hcap : resolveCapacity fl (S * cfg.numSelected) E cfg.dispatcher.capacity
      cfg.dispatcher.capacityFactor cfg.dispatcher.ceilOrRound cfg.dispatcher.multipleOf with err | c
  · exact absurd (he1 err hcap) (by simp)
  have hname : cfg.dispatcher.name = "einsum" ∨ cfg.dispatcher.name = "indices" := by
    by_contra hn
    push Not at hn
    exact absurd ((he2 c hcap).1 hn) (by simp)
  obtain ⟨o1, m1, e1, f1⟩ := C72_block_output fl cdf bf cfg S kernel z oob params mlp x hd.1 hd.2 hE
    hk.1 hk.2 hname c hcap
  obtain ⟨o2, m2, e2, f2⟩ := C72_block_output fl cdf bf cfg S kernel z oob params mlp x' hd'.1 hd'.2
    hE hk.1 hk.2 hname c hcap
  rw [h] at e1
  rw [h'] at e2
  cases e1
  cases e2
  funext i
  have hnum : tokenNumber T b t = tokenNumber T b' t := by unfold tokenNumber; rw [hb]
  have hx : x b t = x' b' t := by
    rw [← tokenOf_tokenNumber x b t, ← tokenOf_tokenNumber x' b' t, ← hnum]
    exact hg _ rfl
  have hgates := tokenGates_congr S kernel (usedStd cfg E) z x x' (tokenNumber T b t / S) (by
    intro s hs
    apply hg
    rw [Nat.mul_comm, Nat.mul_add_div hd.1, Nat.div_eq_of_lt hs, Nat.add_zero])
  have r1 := f1 b t i
  have r2 := f2 b' t i
  simp only at r1 r2
  rw [r1, r2]
  simp only [← hnum, hgates, hx]

/-- C72: when groups are whole sequences (`group_size` = tokens per sequence), the output for a
sequence does not depend on the other sequences of the batch. -/
theorem C72_sequences_independent (fl : ℚ → ℚ) (cdf bf : ℝ → ℝ) (cfg : RouterConfig)
    (kernel : Fin H → Fin E → ℝ) (z : Nat → Nat → Nat → ℝ) (oob : Fin O → ℝ) (params : Fin E → P)
    (mlp : P → (Fin H → ℝ) → Fin O → ℝ) (x x' : Fin B → Fin T → Fin H → ℝ) (out m out' m')
    (h : mlpMoeBlock fl cdf bf cfg T kernel z oob params mlp x = .ok (out, m))
    (h' : mlpMoeBlock fl cdf bf cfg T kernel z oob params mlp x' = .ok (out', m'))
    (b : Fin B) (hb : x b = x' b) : out b = out' b := by
  funext t
  refine C72_group_local fl cdf bf cfg T kernel z oob params mlp x x' out m out' m' h h' b b rfl t ?_
  intro n hn
  have hT : 0 < T := Nat.lt_of_le_of_lt (Nat.zero_le _) t.2
  have h1 : tokenNumber T b t / T = b := by
    unfold tokenNumber
    rw [Nat.mul_comm, Nat.mul_add_div hT, Nat.div_eq_of_lt t.2, Nat.add_zero]
  rw [h1] at hn
  have hlt : n / T < B := by rw [hn]; exact b.2
  have hmod : n % T < T := Nat.mod_lt _ hT
  unfold tokenOf
  rw [dif_pos ⟨hlt, hmod⟩, dif_pos ⟨hlt, hmod⟩]
  have : (⟨n / T, hlt⟩ : Fin B) = b := Fin.ext hn
  rw [this, hb]

theorem expWeights_pos {l : Fin E → ℝ} (e : Fin E) : 0 < expWeights l e := by
  have : 0 < ∑ e', Real.exp (l e') :=
    Finset.sum_pos (fun _ _ => Real.exp_pos _) ⟨e, Finset.mem_univ _⟩
  exact div_pos (Real.exp_pos _) this

theorem expWeights_sum (hE : 0 < E) (l : Fin E → ℝ) : ∑ e, expWeights l e = 1 := by
  have : 0 < ∑ e', Real.exp (l e') :=
    Finset.sum_pos (fun _ _ => Real.exp_pos _) ⟨⟨0, hE⟩, Finset.mem_univ _⟩
  unfold expWeights
  rw [← Finset.sum_div, div_self this.ne']

/-- C72: the block never amplifies: if every expert maps the token to a vector bounded by `c`, so is
the output of the block. -/
theorem C72_bounded (fl : ℚ → ℚ) (cdf bf : ℝ → ℝ) (cfg : RouterConfig) (S : Nat)
    (kernel : Fin H → Fin E → ℝ) (z : Nat → Nat → Nat → ℝ) (oob : Fin O → ℝ)
    (params : Fin E → P) (mlp : P → (Fin H → ℝ) → Fin O → ℝ) (x : Fin B → Fin T → Fin H → ℝ) (out m)
    (hbf : cfg.dispatcher.bfloat16 = false)
    (h : mlpMoeBlock fl cdf bf cfg S kernel z oob params mlp x = .ok (out, m))
    (b : Fin B) (t : Fin T) (i : Fin O) (c : ℝ) (hc : ∀ e, |mlp (params e) (x b t) i| ≤ c) :
    |out b t i| ≤ c := by
  have herr := C72_block_errors fl cdf bf cfg S kernel z oob params mlp x
  simp only at herr
  rw [h] at herr
  have hd : 0 < S ∧ S ∣ B * T := by by_contra hn; exact absurd (herr.1 hn) (by simp)
  have hk : 1 ≤ cfg.numSelected ∧ cfg.numSelected ≤ E := by
    by_contra hn; exact absurd (herr.2.1 hd hn) (by simp)
  have hE : 0 < E := Nat.lt_of_lt_of_le hk.1 hk.2
  obtain ⟨he1, he2⟩ := herr.2.2 hd hk
  rcases hcap : resolveCapacity fl (S * cfg.numSelected) E cfg.dispatcher.capacity
      cfg.dispatcher.capacityFactor cfg.dispatcher.ceilOrRound cfg.dispatcher.multipleOf with err | cp
  · exact absurd (he1 err hcap) (by simp)
  have hname : cfg.dispatcher.name = "einsum" ∨ cfg.dispatcher.name = "indices" := by
    by_contra hn
    push Not at hn
    exact absurd ((he2 cp hcap).1 hn) (by simp)
  obtain ⟨o1, m1, e1, f1⟩ := C72_block_output fl cdf bf cfg S kernel z oob params mlp x hd.1 hd.2 hE
    hk.1 hk.2 hname cp hcap
  rw [h] at e1
  cases e1
  have r1 := f1 b t i
  simp only [hbf, Bool.false_eq_true, if_false] at r1
  have hc0 : 0 ≤ c := (abs_nonneg _).trans (hc ⟨0, hE⟩)
  rw [r1]
  refine (Finset.abs_sum_le_sum_abs _ _).trans ?_
  set gt := tokenGates S kernel (usedStd cfg E) z x (tokenNumber T b t / S)
    ⟨tokenNumber T b t % S, Nat.mod_lt _ hd.1⟩ with hgt
  have hpos : ∀ e, 0 < gt e := fun e => expWeights_pos e
  have hsum : ∑ e, gt e = 1 := expWeights_sum hE _
  refine (Finset.sum_le_sum (g := fun e => gt e * c) ?_).trans ?_
  · intro e _
    rw [abs_mul, abs_of_pos (hpos e)]
    exact mul_le_mul_of_nonneg_left (hc e) (hpos e).le
  · rw [← Finset.sum_mul]
    have : ∑ e ∈ Finset.univ.filter (fun e => Kept hE cfg.dispatcher.batchPriority
        (tokenGates S kernel (usedStd cfg E) z x (tokenNumber T b t / S)) cfg.numSelected cp
        ⟨tokenNumber T b t % S, Nat.mod_lt _ hd.1⟩ e), gt e ≤ 1 := by
      rw [← hsum]
      exact Finset.sum_le_univ_sum_of_nonneg (fun e => (hpos e).le)
    nlinarith

/-- C72: metrics.  In deterministic mode or without noise there is no load loss, and the auxiliary
loss of a group has the GShard and importance terms, both computed on the noise-free gates.  In
stochastic mode the importance term still uses the noise-free gates, the GShard term the noisy ones,
and the load loss is added.  Terms whose weight is not positive are left out. -/
theorem C72_metrics (fl : ℚ → ℚ) (cdf bf : ℝ → ℝ) (cfg : RouterConfig) (S : Nat)
    (kernel : Fin H → Fin E → ℝ) (z : Nat → Nat → Nat → ℝ) (oob : Fin O → ℝ)
    (params : Fin E → P) (mlp : P → (Fin H → ℝ) → Fin O → ℝ) (x : Fin B → Fin T → Fin H → ℝ) (out m)
    (h : mlpMoeBlock fl cdf bf cfg S kernel z oob params mlp x = .ok (out, m)) (hE : 0 < E)
    (g : Fin (B * T / S)) :
    let pos := fun w l : ℝ => if 0 < w then w * l else 0
    let clean := tokenGates S kernel 0 z x g
    let noisy := tokenGates S kernel (usedStd cfg E) z x g
    m.importanceLoss g = importanceLoss clean ∧
    m.gshardLoss g = gshardLoss hE noisy ∧
    (cfg.deterministic = true ∨ cfg.noiseStd = 0 → m.loadLoss = none ∧
      m.auxiliaryLoss g = pos cfg.gshardLossWeight (m.gshardLoss g) +
        pos cfg.importanceLossWeight (m.importanceLoss g)) ∧
    (cfg.deterministic = false → cfg.noiseStd ≠ 0 → ∃ load, m.loadLoss = some load ∧
      m.auxiliaryLoss g = pos cfg.gshardLossWeight (m.gshardLoss g) +
        pos cfg.importanceLossWeight (m.importanceLoss g) + pos cfg.loadLossWeight (load g) ∧
      ∃ (h0 : 0 < cfg.numSelected) (hK : cfg.numSelected ≤ E),
        let logits := fun (s : Fin S) e => ∑ h, tokenOf x (g * S + s) h * kernel h e
        load g = loadLoss cdf logits
          (fun s e => logits s e + cfg.noiseStd / E * z g s e) (cfg.noiseStd / E) cfg.numSelected h0
          hK) := by
  intro pos clean noisy
  have herr := C72_block_errors fl cdf bf cfg S kernel z oob params mlp x
  simp only at herr
  rw [h] at herr
  have hd : 0 < S ∧ S ∣ B * T := by by_contra hn; exact absurd (herr.1 hn) (by simp)
  have hk : 1 ≤ cfg.numSelected ∧ cfg.numSelected ≤ E := by
    by_contra hn; exact absurd (herr.2.1 hd hn) (by simp)
  have hws : ∀ a b c d : ℝ, weightedSum [(a, b), (c, d)] = pos a b + pos c d := by
    intro a b c d
    unfold weightedSum
    by_cases ha : 0 < a <;> by_cases hc : 0 < c <;> simp [ha, hc, pos, mul_comm]
  have hws3 : ∀ a b c d e f : ℝ,
      weightedSum [(a, b), (c, d), (e, f)] = pos a b + pos c d + pos e f := by
    intro a b c d e f
    unfold weightedSum
    by_cases ha : 0 < a <;> by_cases hc : 0 < c <;> by_cases he : 0 < e <;>
      simp [ha, hc, he, pos, mul_comm, add_assoc]
  have hclean : (fun s => softmax (gateLogits kernel
      (fun (g : Fin (B * T / S)) (s : Fin S) => tokenOf x (g * S + s)) g s)) = clean := by
    funext s
    simp only [clean, tokenGates, zero_mul, add_zero]
    rfl
  unfold mlpMoeBlock at h
  rw [regroup_eq x S hd.1 hd.2] at h
  simp only at h
  unfold gatesAndMetrics at h
  rw [dif_pos ⟨hk.2, hk.1⟩] at h
  simp only at h
  by_cases hdet : cfg.deterministic = true ∨ cfg.noiseStd = 0
  · rw [if_pos hdet] at h
    simp only at h
    have hstd : usedStd cfg E = 0 := by
      unfold usedStd
      rcases hdet with h | h
      · rw [if_pos h]
      · rw [h]; simp
    have hnoisy : noisy = clean := by simp only [noisy, clean, hstd]
    split at h
    · cases h
    split at h
    · cases h
    cases h
    refine ⟨?_, ?_, ?_, ?_⟩
    · simp only [hclean]
    · simp only [hclean, hnoisy]
    · intro _
      exact ⟨rfl, hws _ _ _ _⟩
    · intro h1 h2
      rcases hdet with h3 | h3
      · rw [h1] at h3; cases h3
      · exact absurd h3 h2
  · rw [if_neg hdet] at h
    simp only at h
    have hnd : ¬ cfg.deterministic = true := fun h => hdet (Or.inl h)
    have hstd : usedStd cfg E = cfg.noiseStd / E := by unfold usedStd; rw [if_neg hnd]
    have hone : 1 / (E : ℝ) * cfg.noiseStd = cfg.noiseStd / E := by ring
    split at h
    · cases h
    split at h
    · cases h
    cases h
    refine ⟨?_, ?_, ?_, ?_⟩
    · simp only [hclean]
    · simp only [hone, noisy, hstd]
      rfl
    · intro h; exact absurd h hdet
    · intro _ _
      refine ⟨_, rfl, hws3 _ _ _ _ _ _, hk.1, hk.2, ?_⟩
      simp only [hone]
      rfl

/-- Options of the examples: three selected experts out of four, capacity 8. -/
noncomputable def exRouter : RouterConfig :=
  { numSelected := 3
    noiseStd := 1
    gshardLossWeight := 0
    importanceLossWeight := 1
    loadLossWeight := 1
    deterministic := false
    dispatcher :=
      { name := "indices"
        batchPriority := true
        capacity := some 8
        capacityFactor := none
        ceilOrRound := "ceil"
        multipleOf := some 4
        bfloat16 := false } }

-- Non-vacuity: 3 sequences of 4 tokens in 2 groups of 6 tokens, 4 experts.
example : 0 < 6 ∧ 6 ∣ 3 * 4 ∧ 0 < exRouter.numSelected ∧ exRouter.numSelected ≤ 4 ∧
    (exRouter.dispatcher.name = "einsum" ∨ exRouter.dispatcher.name = "indices") ∧
    resolveCapacity id (6 * exRouter.numSelected) 4 exRouter.dispatcher.capacity
      exRouter.dispatcher.capacityFactor exRouter.dispatcher.ceilOrRound
      exRouter.dispatcher.multipleOf = .ok 8 := by
  refine ⟨by decide, by decide, by decide, by decide, Or.inr rfl, by simp [resolveCapacity, exRouter]⟩

-- The block does run on that configuration.
example (kernel : Fin 2 → Fin 4 → ℝ) (x : Fin 3 → Fin 4 → Fin 2 → ℝ) :
    ∃ r, mlpMoeBlock (P := Unit) id id id exRouter 6 kernel (fun _ _ _ => 0) (fun _ => 0)
      (fun _ => ()) (fun _ v => v) x = .ok r := by
  obtain ⟨out, m, h, -⟩ := C72_block_output (P := Unit) id id id exRouter 6 kernel (fun _ _ _ => 0)
    (fun _ => 0) (fun _ => ()) (fun _ v => v) x (by decide) (by decide) (by decide) (by decide)
    (by decide) (Or.inr rfl) 8 (by simp [resolveCapacity, exRouter])
  exact ⟨_, h⟩

end Verif.MoeBlock
