import Verif.Props.ExpertChoiceBlock
import Verif.Props.RouterGradient

/-!
C158: what router and experts learn from the outputs of a block whose experts choose their tokens
(vmoe/nn/routing.py:186-244, vmoe/moe.py:330-385, vmoe/nn/vit_moe.py:101-124).
-/

namespace Verif.ExpertChoice

open Verif Verif.Moe Verif.MoeBlock Verif.Spec Verif.RoutingStability Verif.RouterGradient
open scoped Topology

variable {B T H O E : Nat} {P : Type}

/-- Spec: expert `e` has token `t` of sequence `b` among its `cap` best of the group. -/
def Taken (S cap : Nat) (hS : 0 < S) (kernel : Fin H → Fin E → ℝ) (sigma : ℝ) (z : Nat → Nat → Nat → ℝ)
    (x : Fin B → Fin T → Fin H → ℝ) (b : Fin B) (t : Fin T) (e : Fin E) : Prop :=
  itemRank (tokenGates S kernel sigma z x (tokenNumber T b t / S)) ⟨tokenNumber T b t % S, Nat.mod_lt _ hS⟩ e < cap

noncomputable instance (S cap : Nat) (hS : 0 < S) (kernel : Fin H → Fin E → ℝ) (sigma : ℝ) (z : Nat → Nat → Nat → ℝ)
    (x : Fin B → Fin T → Fin H → ℝ) (b : Fin B) (t : Fin T) (e : Fin E) : Decidable (Taken S cap hS kernel sigma z x b t e) := by
  unfold Taken
  infer_instance

/-- Spec: the gate of a token for an expert. -/
noncomputable def gateOf (S : Nat) (hS : 0 < S) (kernel : Fin H → Fin E → ℝ) (sigma : ℝ) (z : Nat → Nat → Nat → ℝ)
    (x : Fin B → Fin T → Fin H → ℝ) (b : Fin B) (t : Fin T) (e : Fin E) : ℝ :=
  tokenGates S kernel sigma z x (tokenNumber T b t / S) ⟨tokenNumber T b t % S, Nat.mod_lt _ hS⟩ e

/-- The output of the block as a function of everything that is learned. -/
theorem output_of_success (fl : ℚ → ℚ) (bf : ℝ → ℝ) (cfg : RouterConfig) (S : Nat) (kernel : Fin H → Fin E → ℝ)
    (z : Nat → Nat → Nat → ℝ) (params : Fin E → P) (mlp : P → (Fin H → ℝ) → Fin O → ℝ) (x : Fin B → Fin T → Fin H → ℝ)
    (out : Fin B → Fin T → Fin O → ℝ) (r : RouterOutput (B * T / S) S E)
    (h : mlpMoeBlock fl bf cfg S kernel z params mlp x = .ok (out, r)) :
    ∃ (hS : 0 < S), S ∣ B * T ∧ 0 < r.capacity ∧ r.capacity ≤ S ∧ 0 < E ∧
      ∀ (kernel : Fin H → Fin E → ℝ) (params : Fin E → P), ∃ out r',
        mlpMoeBlock fl bf cfg S kernel z params mlp x = .ok (out, r') ∧ r'.capacity = r.capacity ∧
        ∀ b t i, out b t i = ∑ e ∈ Finset.univ.filter (fun e =>
            itemRank (tokenGates S kernel (sigma cfg E) z x (tokenNumber T b t / S)) ⟨tokenNumber T b t % S, Nat.mod_lt _ hS⟩ e
              < r.capacity), gateOf S hS kernel (sigma cfg E) z x b t e *
            (if (cfg.dispatcher.bind (·.bfloat16)) = some true
              then bf (mlp (params e) (fun h => bf (x b t h)) i) else mlp (params e) (x b t) i) := by
  obtain ⟨⟨hS, hdiv⟩, hE, d, hd, hname, hk, cap, hcap, hC⟩ := success h
  have hc : ∀ (kernel : Fin H → Fin E → ℝ) (params : Fin E → P) out r', mlpMoeBlock fl bf cfg S kernel z params mlp x = .ok (out, r') → r'.capacity = cap := by
    intro kernel params out r' h'
    have := (C78_balanced fl bf cfg S kernel z params mlp x d hd out r' h').1
    rw [hcap] at this
    exact (Except.ok.inj this).symm
  have hr := hc _ _ _ _ h
  refine ⟨hS, hdiv, hr ▸ resolve_pos hcap, hr ▸ hC, hE, fun kernel params => ?_⟩
  obtain ⟨o, r', ho, hval, -⟩ := C78_block_output fl bf cfg S kernel z params mlp x hS hdiv hE d hd cap hcap hname hC hk
  refine ⟨o, r', ho, (hc _ _ _ _ ho).trans hr.symm, fun b t i => ?_⟩
  rw [hr]
  refine (hval b t i).trans ?_
  refine Finset.sum_congr rfl fun e _ => ?_
  rw [hd]
  by_cases hb : d.bfloat16 = some true
  · simp [hb, gateOf]
  · simp [hb, gateOf]

/-- What an expert answers for a token, rounded if the dispatcher is. -/
noncomputable def answer (bf : ℝ → ℝ) (cfg : RouterConfig) (mlp : P → (Fin H → ℝ) → Fin O → ℝ) (p : P) (u : Fin H → ℝ) (i : Fin O) : ℝ :=
  if (cfg.dispatcher.bind (·.bfloat16)) = some true then bf (mlp p (fun h => bf (u h)) i) else mlp p u i

/-- C158: if no other token of its group has the same gate for an expert, the output of a token is differentiable in the kernel
of the router.  The logit of expert `k` has the derivative `gate k * (y k - out)` if `k` takes the token and `gate k * (0 - out)` if not, as for
tokens that choose their experts. -/
theorem C158_token (fl : ℚ → ℚ) (bf : ℝ → ℝ) (cfg : RouterConfig) (S : Nat) (kernel : Fin H → Fin E → ℝ)
    (z : Nat → Nat → Nat → ℝ) (params : Fin E → P) (mlp : P → (Fin H → ℝ) → Fin O → ℝ) (x : Fin B → Fin T → Fin H → ℝ)
    (out0 : Fin B → Fin T → Fin O → ℝ) (r : RouterOutput (B * T / S) S E)
    (h : mlpMoeBlock fl bf cfg S kernel z params mlp x = .ok (out0, r)) (hS : 0 < S) (b : Fin B) (t : Fin T)
    (hties : ∀ (s : Fin S) (e : Fin E), s.1 ≠ tokenNumber T b t % S →
      tokenGates S kernel (sigma cfg E) z x (tokenNumber T b t / S) s e ≠ gateOf S hS kernel (sigma cfg E) z x b t e) :
    ∃ out : (Fin H → Fin E → ℝ) → Fin B → Fin T → Fin O → ℝ,
      (∀ kernel, ∃ r, mlpMoeBlock fl bf cfg S kernel z params mlp x = .ok (out kernel, r)) ∧ out kernel = out0 ∧
      ∀ (i : Fin O) (v : Fin H → Fin E → ℝ),
        HasDerivAt (fun τ : ℝ => out (fun h e => kernel h e + τ * v h e) b t i)
          (∑ k, gateOf S hS kernel (sigma cfg E) z x b t k *
            ((if Taken S r.capacity hS kernel (sigma cfg E) z x b t k then answer bf cfg mlp (params k) (x b t) i else 0) -
              out0 b t i) * ∑ h, x b t h * v h k) 0 := by
  obtain ⟨hS', -, -, -, hE, hall⟩ := output_of_success fl bf cfg S kernel z params mlp x out0 r h
  have hall' := fun kernel => hall kernel params
  choose out r' hout hcap hval using hall'
  have h0 : out kernel = out0 := congrArg Prod.fst (Except.ok.inj ((hout kernel).symm.trans h))
  refine ⟨out, fun k => ⟨r' k, hout k⟩, h0, fun i v => ?_⟩
  let y : Fin E → ℝ := fun k => answer bf cfg mlp (params k) (x b t) i
  let g := tokenNumber T b t / S
  let s : Fin S := ⟨tokenNumber T b t % S, Nat.mod_lt _ hS⟩
  let gates := tokenGates S kernel (sigma cfg E) z x g
  let line : ℝ → Fin S → Fin E → ℝ := fun τ => tokenGates S (fun h e => kernel h e + τ * v h e) (sigma cfg E) z x g
  have hx : tokenOf x (g * S + s) = x b t := by
    show tokenOf x (tokenNumber T b t / S * S + tokenNumber T b t % S) = x b t
    rw [Nat.div_add_mod', tokenOf_tokenNumber]
  have hzero : line 0 = gates := by
    simp only [line, zero_mul, add_zero]
    rfl
  have hcont : ∀ s e, ContinuousAt (fun τ => line τ s e) 0 := fun s e =>
    (hasDerivAt_gates S kernel v (sigma cfg E) z x g s e).continuousAt
  let taken := Finset.univ.filter fun k => itemRank gates s k < r.capacity
  have hrank : ∀ᶠ τ in 𝓝 (0 : ℝ), ∀ e, itemRank (line τ) s e = itemRank gates s e := by
    rw [Filter.eventually_all]
    intro e
    have : ∀ᶠ τ in 𝓝 (0 : ℝ), ∀ s' : Fin S, ((line τ s e < line τ s' e ∨ (line τ s' e = line τ s e ∧ s' < s)) ↔
        (gates s e < gates s' e ∨ (gates s' e = gates s e ∧ s' < s))) := by
      rw [Filter.eventually_all]
      intro s'
      by_cases hss : s' = s
      · subst hss
        exact Filter.Eventually.of_forall fun τ => by simp
      · have hne : gates s' e ≠ gates s e := hties s' e fun hv => hss (Fin.ext hv)
        rcases lt_or_gt_of_ne hne with hlt | hlt
        · have hev := (hcont s' e).eventually_lt (hcont s e) (by rw [hzero]; exact hlt)
          filter_upwards [hev] with τ hτ
          constructor
          · rintro (h1 | h1)
            · exact absurd h1 hτ.asymm
            · exact absurd h1.1 hτ.ne
          · rintro (h1 | h1)
            · exact absurd h1 hlt.asymm
            · exact absurd h1.1 hlt.ne
        · have hev := (hcont s e).eventually_lt (hcont s' e) (by rw [hzero]; exact hlt)
          filter_upwards [hev] with τ hτ
          exact ⟨fun _ => Or.inl hlt, fun _ => Or.inl hτ⟩
    filter_upwards [this] with τ hτ
    unfold itemRank
    congr 1
    ext s'
    simp only [Finset.mem_filter, Finset.mem_univ, true_and]
    exact hτ s'
  have hev : ∀ᶠ τ in 𝓝 (0 : ℝ), out (fun h e => kernel h e + τ * v h e) b t i = ∑ e ∈ taken, line τ s e * y e := by
    filter_upwards [hrank] with τ hτ
    refine (hval _ b t i).trans ?_
    refine Finset.sum_congr ?_ fun _ _ => rfl
    ext e
    simp only [taken, Finset.mem_filter, Finset.mem_univ, true_and]
    exact iff_of_eq (congrArg (· < r.capacity) (hτ e))
  have hnow : out0 b t i = ∑ e ∈ taken, gates s e * y e := by
    rw [← h0]
    exact hval kernel b t i
  have hd : HasDerivAt (fun τ : ℝ => ∑ e ∈ taken, line τ s e * y e)
      (∑ e ∈ taken, gates s e * ((∑ h, tokenOf x (g * S + s) h * v h e) -
        ∑ k, gates s k * ∑ h, tokenOf x (g * S + s) h * v h k) * y e) 0 :=
    HasDerivAt.fun_sum fun e _ => (hasDerivAt_gates S kernel v (sigma cfg E) z x g s e).mul_const (y e)
  refine (hd.congr_of_eventuallyEq hev).congr_deriv ?_
  rw [hx, hnow]
  have h1 : ∀ k, gates s k * ((if itemRank gates s k < r.capacity then y k else 0) -
      ∑ e ∈ taken, gates s e * y e) * (∑ h, x b t h * v h k) =
      (if itemRank gates s k < r.capacity then gates s k * (∑ h, x b t h * v h k) * y k else 0) -
      (gates s k * ∑ h, x b t h * v h k) * ∑ e ∈ taken, gates s e * y e := by
    intro k
    split_ifs <;> ring
  have h2 : ∀ e, gates s e * ((∑ h, x b t h * v h e) - ∑ k, gates s k * ∑ h, x b t h * v h k) * y e =
      gates s e * (∑ h, x b t h * v h e) * y e - (∑ k, gates s k * ∑ h, x b t h * v h k) * (gates s e * y e) := by
    intro e
    ring
  have h3 : (∑ k, gateOf S hS kernel (sigma cfg E) z x b t k *
      ((if Taken S r.capacity hS kernel (sigma cfg E) z x b t k then answer bf cfg mlp (params k) (x b t) i else 0) -
        ∑ e ∈ taken, gates s e * y e) * ∑ h, x b t h * v h k) =
      ∑ k, gates s k * ((if itemRank gates s k < r.capacity then y k else 0) - ∑ e ∈ taken, gates s e * y e) *
        (∑ h, x b t h * v h k) := by
    refine Finset.sum_congr rfl fun k _ => ?_
    by_cases hk : itemRank gates s k < r.capacity
    · rw [if_pos hk, if_pos (show Taken S r.capacity hS kernel (sigma cfg E) z x b t k from hk)]
      rfl
    · rw [if_neg hk, if_neg (show ¬ Taken S r.capacity hS kernel (sigma cfg E) z x b t k from hk)]
      rfl
  rw [h3]
  simp only [h1, h2]
  rw [Finset.sum_sub_distrib, Finset.sum_sub_distrib, ← Finset.mul_sum, ← Finset.sum_mul, ← Finset.sum_filter]

/-- C158: a token that no expert takes has output zero and says nothing to the router. -/
theorem C158_ignored (fl : ℚ → ℚ) (bf : ℝ → ℝ) (cfg : RouterConfig) (S : Nat) (kernel : Fin H → Fin E → ℝ)
    (z : Nat → Nat → Nat → ℝ) (params : Fin E → P) (mlp : P → (Fin H → ℝ) → Fin O → ℝ) (x : Fin B → Fin T → Fin H → ℝ)
    (out0 : Fin B → Fin T → Fin O → ℝ) (r : RouterOutput (B * T / S) S E)
    (h : mlpMoeBlock fl bf cfg S kernel z params mlp x = .ok (out0, r)) (hS : 0 < S) (b : Fin B) (t : Fin T)
    (hties : ∀ (s : Fin S) (e : Fin E), s.1 ≠ tokenNumber T b t % S →
      tokenGates S kernel (sigma cfg E) z x (tokenNumber T b t / S) s e ≠ gateOf S hS kernel (sigma cfg E) z x b t e)
    (hno : ∀ e, ¬ Taken S r.capacity hS kernel (sigma cfg E) z x b t e) :
    ∃ out : (Fin H → Fin E → ℝ) → Fin B → Fin T → Fin O → ℝ,
      (∀ kernel, ∃ r, mlpMoeBlock fl bf cfg S kernel z params mlp x = .ok (out kernel, r)) ∧
      ∀ (i : Fin O) (v : Fin H → Fin E → ℝ), out0 b t i = 0 ∧
        HasDerivAt (fun τ : ℝ => out (fun h e => kernel h e + τ * v h e) b t i) 0 0 := by
  obtain ⟨out, h1, -, h3⟩ := C158_token fl bf cfg S kernel z params mlp x out0 r h hS b t hties
  refine ⟨out, h1, fun i v => ?_⟩
  have hz : out0 b t i = 0 := (C78_bounded fl bf cfg S kernel z params mlp x out0 r h b t i).1 hS fun e => not_lt.1 (hno e)
  refine ⟨hz, (h3 i v).congr_deriv ?_⟩
  refine Finset.sum_eq_zero fun k _ => ?_
  rw [if_neg (hno k), hz]
  ring

/-- The number of the tokens of a group that satisfy a condition. -/
theorem card_group (S g : Nat) (hS : 0 < S) (hg : g < B * T / S) (p : Fin S → Prop) [DecidablePred p]
    (q : Fin B × Fin T → Prop) [DecidablePred q]
    (hpq : ∀ (b : Fin B) (t : Fin T), tokenNumber T b t / S = g → (q (b, t) ↔ p ⟨tokenNumber T b t % S, Nat.mod_lt _ hS⟩)) :
    (Finset.univ.filter fun bt : Fin B × Fin T => tokenNumber T bt.1 bt.2 / S = g ∧ q bt).card = (Finset.univ.filter p).card := by
  have hlt : ∀ s : Fin S, g * S + s < B * T := by
    intro s
    have h1 : (g + 1) * S ≤ B * T := (Nat.mul_le_mul_right S hg).trans (Nat.div_mul_le_self _ _)
    have h2 : (g + 1) * S = g * S + S := by ring
    have h3 := s.2
    omega
  refine Finset.card_bij (fun bt _ => (⟨tokenNumber T bt.1 bt.2 % S, Nat.mod_lt _ hS⟩ : Fin S)) ?_ ?_ ?_
  · rintro ⟨b, t⟩ hbt
    simp only [Finset.mem_filter, Finset.mem_univ, true_and] at hbt ⊢
    exact (hpq b t hbt.1).1 hbt.2
  · rintro ⟨b, t⟩ h1 ⟨b', t'⟩ h2 he
    simp only [Finset.mem_filter, Finset.mem_univ, true_and] at h1 h2
    have h3 : tokenNumber T b t = tokenNumber T b' t' := by
      rw [← Nat.div_add_mod (tokenNumber T b t) S, ← Nat.div_add_mod (tokenNumber T b' t') S, h1.1, h2.1]
      congr 1
      exact congrArg Fin.val he
    have hid := tokenOf_tokenNumber (fun (b : Fin B) (t : Fin T) => some (b, t)) b t
    rw [h3, tokenOf_tokenNumber] at hid
    exact (Option.some.inj hid).symm
  · intro s hs
    simp only [Finset.mem_filter, Finset.mem_univ, true_and] at hs
    have hT : 0 < T := by
      rcases Nat.eq_zero_or_pos T with h | h
      · subst h
        exact absurd (hlt s) (by simp)
      · exact h
    have hb : (g * S + s) / T < B := (Nat.div_lt_iff_lt_mul hT).2 (hlt s)
    have hn : tokenNumber T ((g * S + s) / T) ((g * S + s) % T) = g * S + s := by
      unfold tokenNumber
      exact Nat.div_add_mod' _ _
    have hdiv : (g * S + s) / S = g := by
      rw [Nat.mul_comm, Nat.mul_add_div hS, Nat.div_eq_of_lt s.2, Nat.add_zero]
    have hmod : (g * S + s) % S = s := by
      rw [Nat.mul_comm, Nat.mul_add_mod, Nat.mod_eq_of_lt s.2]
    have hs' : (⟨tokenNumber T ((g * S + s) / T) ((g * S + s) % T) % S, Nat.mod_lt _ hS⟩ : Fin S) = s := by
      apply Fin.ext
      show tokenNumber T ((g * S + s) / T) ((g * S + s) % T) % S = s
      rw [hn, hmod]
    refine ⟨(⟨(g * S + s) / T, hb⟩, ⟨(g * S + s) % T, Nat.mod_lt _ hT⟩), ?_, hs'⟩
    simp only [Finset.mem_filter, Finset.mem_univ, true_and]
    have h1 : tokenNumber T ((g * S + s) / T) ((g * S + s) % T) / S = g := by rw [hn, hdiv]
    refine ⟨h1, (hpq _ _ h1).2 ?_⟩
    exact hs'.symm ▸ hs

/-- C158: no expert is ever idle.  In every group there are exactly `capacity` tokens (at least one) whose outputs change when what an expert
computes changes by a constant, as with its last bias; they change by the constant times their gates, which are positive. -/
theorem C158_no_idle_expert (fl : ℚ → ℚ) (bf : ℝ → ℝ) (cfg : RouterConfig) (S : Nat) (kernel : Fin H → Fin E → ℝ)
    (z : Nat → Nat → Nat → ℝ) (params params' : Fin E → P) (mlp : P → (Fin H → ℝ) → Fin O → ℝ) (x : Fin B → Fin T → Fin H → ℝ)
    (out : Fin B → Fin T → Fin O → ℝ) (r : RouterOutput (B * T / S) S E)
    (h : mlpMoeBlock fl bf cfg S kernel z params mlp x = .ok (out, r)) (hbf : cfg.dispatcher.bind (·.bfloat16) ≠ some true)
    (e : Fin E) (hother : ∀ k, k ≠ e → params' k = params k) (i : Fin O) (δ : ℝ) (hδ : δ ≠ 0)
    (hchange : ∀ u, mlp (params' e) u i = mlp (params e) u i + δ) :
    ∃ (out' : Fin B → Fin T → Fin O → ℝ) (r' : RouterOutput (B * T / S) S E) (hS : 0 < S),
      mlpMoeBlock fl bf cfg S kernel z params' mlp x = .ok (out', r') ∧ 0 < r.capacity ∧
      (∀ b t, out' b t i - out b t i =
        if Taken S r.capacity hS kernel (sigma cfg E) z x b t e
          then gateOf S hS kernel (sigma cfg E) z x b t e * δ else 0) ∧
      (∀ b t, 0 < gateOf S hS kernel (sigma cfg E) z x b t e) ∧
      ∀ g < B * T / S, (Finset.univ.filter fun bt : Fin B × Fin T =>
        tokenNumber T bt.1 bt.2 / S = g ∧ out' bt.1 bt.2 i ≠ out bt.1 bt.2 i).card = r.capacity := by
  obtain ⟨hS, -, hpos, hle, -, hall⟩ := output_of_success fl bf cfg S kernel z params mlp x out r h
  obtain ⟨o, r1, h1, -, hv⟩ := hall kernel params
  obtain ⟨out', r', h2, -, hv'⟩ := hall kernel params'
  obtain rfl : o = out := congrArg Prod.fst (Except.ok.inj (h1.symm.trans h))
  have hgate : ∀ b t, 0 < gateOf S hS kernel (sigma cfg E) z x b t e := fun b t => by
    unfold gateOf tokenGates
    exact expWeights_pos e
  have hdiff : ∀ b t, out' b t i - o b t i = if Taken S r.capacity hS kernel (sigma cfg E) z x b t e
      then gateOf S hS kernel (sigma cfg E) z x b t e * δ else 0 := by
    intro b t
    rw [hv, hv', ← Finset.sum_sub_distrib]
    simp only [if_neg hbf]
    have hterm : ∀ k, gateOf S hS kernel (sigma cfg E) z x b t k * mlp (params' k) (x b t) i -
        gateOf S hS kernel (sigma cfg E) z x b t k * mlp (params k) (x b t) i =
        if k = e then gateOf S hS kernel (sigma cfg E) z x b t e * δ else 0 := by
      intro k
      by_cases hk : k = e
      · subst hk
        rw [if_pos rfl, hchange]
        ring
      · rw [if_neg hk, hother k hk, sub_self]
    simp only [hterm]
    rw [Finset.sum_ite_eq']
    simp only [Finset.mem_filter, Finset.mem_univ, true_and]
    rfl
  refine ⟨out', r', hS, h2, hpos, hdiff, hgate, fun g hg => ?_⟩
  have := card_group (B := B) (T := T) S g hS hg
    (fun s => itemRank (tokenGates S kernel (sigma cfg E) z x g) s e < r.capacity)
    (fun bt => out' bt.1 bt.2 i ≠ o bt.1 bt.2 i) (by
      intro b t hbt
      have h3 := hdiff b t
      constructor
      · intro hne
        by_contra hnt
        apply hne
        rw [if_neg (show ¬ Taken S r.capacity hS kernel (sigma cfg E) z x b t e by unfold Taken; rw [hbt]; exact hnt)] at h3
        linarith
      · intro ht heq
        rw [if_pos (show Taken S r.capacity hS kernel (sigma cfg E) z x b t e by unfold Taken; rw [hbt]; exact ht)] at h3
        have h4 : gateOf S hS kernel (sigma cfg E) z x b t e * δ ≠ 0 := mul_ne_zero (hgate b t).ne' hδ
        apply h4
        rw [← h3]
        show out' b t i - o b t i = 0
        have : out' b t i = o b t i := heq
        rw [this, sub_self])
  rw [card_itemRank_lt _ _ hle] at this
  exact this

/-- A router without noise whose experts take one token of each group. -/
noncomputable def oneEach : RouterConfig :=
  { noiseStd := 0, deterministic := true
    dispatcher := some
      { name := "einsum", capacity := some 1, capacityFactor := none, ceilOrRound := none
        multipleOf := none, bfloat16 := none, otherKeys := false } }

/-- Two tokens, 0 and 1, one group, two experts with the kernel (0, 1): the block runs, no two tokens have the same gate for an expert, so
the hypotheses of the theorems above hold for the second token. -/
example : ∃ out r, mlpMoeBlock (B := 1) (T := 2) (H := 1) (O := 1) (E := 2) (P := ℝ) id id oneEach 2 (fun _ => ![0, 1]) (fun _ _ _ => 0)
      ![5, 7] (fun p u i => u i + p) (fun _ t _ => (t : ℝ)) = .ok (out, r) ∧ r.capacity = 1 ∧
    ∀ (s : Fin 2) (e : Fin 2), s.1 ≠ tokenNumber 2 (0 : Fin 1) (1 : Fin 2) % 2 →
      tokenGates 2 (fun _ => ![0, 1]) (sigma oneEach 2) (fun _ _ _ => 0) (fun (_ : Fin 1) (t : Fin 2) (_ : Fin 1) => (t : ℝ))
        (tokenNumber 2 (0 : Fin 1) (1 : Fin 2) / 2) s e ≠
      gateOf 2 (by decide) (fun _ => ![0, 1]) (sigma oneEach 2) (fun _ _ _ => 0)
        (fun (_ : Fin 1) (t : Fin 2) (_ : Fin 1) => (t : ℝ)) 0 1 e := by
  obtain ⟨out, r, h, -⟩ := C78_block_output (B := 1) (T := 2) (H := 1) (O := 1) (E := 2) (P := ℝ) id id oneEach 2 (fun _ => ![0, 1])
    (fun _ _ _ => 0) ![5, 7] (fun p u i => u i + p) (fun _ t _ => (t : ℝ)) (by decide) (by decide) (by decide) _ rfl 1
    (by decide +kernel) rfl (by decide) rfl
  have hc := (C78_balanced _ _ _ _ _ _ _ _ _ _ rfl out r h).1
  have h1 : asked id 2 2 { name := "einsum", capacity := some 1, capacityFactor := none, ceilOrRound := none
                           multipleOf := none, bfloat16 := none, otherKeys := false } = .ok 1 := by decide +kernel
  refine ⟨out, r, h, (Except.ok.inj (h1.symm.trans hc)).symm, ?_⟩
  intro s e hs
  have hs0 : s = 0 := by
    have : tokenNumber 2 (0 : Fin 1) (1 : Fin 2) % 2 = 1 := rfl
    omega
  subst hs0
  have hexp : (1 : ℝ) < Real.exp 1 := Real.one_lt_exp_iff.2 one_pos
  have hn : tokenNumber 2 (0 : Fin 1) (1 : Fin 2) = 1 := rfl
  have t0 : tokenOf (fun (_ : Fin 1) (t : Fin 2) (_ : Fin 1) => (t : ℝ)) 0 = fun _ => 0 := by
    funext i
    simp [tokenOf]
  have t1 : tokenOf (fun (_ : Fin 1) (t : Fin 2) (_ : Fin 1) => (t : ℝ)) 1 = fun _ => 1 := by
    funext i
    simp [tokenOf]
  unfold gateOf tokenGates expWeights
  simp only [hn]
  norm_num [t0, t1, sigma, oneEach]
  fin_cases e
  · simp
    intro h
    linarith
  · simp
    intro h
    field_simp at h
    linarith

end Verif.ExpertChoice
