import Verif.Props.RoutingStability
import Verif.Props.BalanceGradients

/-!
C152: what a router learns from the outputs of its block (vmoe/nn/routing.py:73-110, vmoe/nn/vit_moe.py:101-124): the gates
that weight the experts are the softmax over all the experts, taken before the choice of the experts.
-/

namespace Verif.RouterGradient

open Verif Verif.Moe Verif.MoeBlock Verif.Spec Verif.RoutingStability
open scoped Topology

variable {B T H O E : Nat}

/-- The gates of a token whose logits change along a direction. -/
theorem tokenGates_line (S : Nat) (kernel v : Fin H → Fin E → ℝ) (sigma : ℝ) (z : Nat → Nat → Nat → ℝ) (x : Fin B → Fin T → Fin H → ℝ)
    (g : Nat) (s : Fin S) (τ : ℝ) (e : Fin E) : tokenGates S (fun h e => kernel h e + τ * v h e) sigma z x g s e =
    Soft.softmax (fun e => ((∑ h, tokenOf x (g * S + s) h * kernel h e) + sigma * z g s e) + τ * ∑ h, tokenOf x (g * S + s) h * v h e) e := by
  have : ∀ e, (∑ h, tokenOf x (g * S + s) h * (kernel h e + τ * v h e)) + sigma * z g s e =
      ((∑ h, tokenOf x (g * S + s) h * kernel h e) + sigma * z g s e) + τ * ∑ h, tokenOf x (g * S + s) h * v h e := by
    intro e
    rw [Finset.mul_sum]
    simp only [mul_add, Finset.sum_add_distrib]
    have : ∀ h, tokenOf x (g * S + s) h * (τ * v h e) = τ * (tokenOf x (g * S + s) h * v h e) := fun h => by ring
    simp only [this]
    ring
  unfold tokenGates expWeights Soft.softmax
  simp only [this]

theorem hasDerivAt_gates (S : Nat) (kernel v : Fin H → Fin E → ℝ) (sigma : ℝ) (z : Nat → Nat → Nat → ℝ) (x : Fin B → Fin T → Fin H → ℝ)
    (g : Nat) (s : Fin S) (e : Fin E) : HasDerivAt (fun τ : ℝ => tokenGates S (fun h e => kernel h e + τ * v h e) sigma z x g s e)
    (tokenGates S kernel sigma z x g s e * ((∑ h, tokenOf x (g * S + s) h * v h e) -
      ∑ k, tokenGates S kernel sigma z x g s k * ∑ h, tokenOf x (g * S + s) h * v h k)) 0 := by
  have h := Aux.hasDerivAt_softmax (fun e => (∑ h, tokenOf x (g * S + s) h * kernel h e) + sigma * z g s e)
    (fun e => ∑ h, tokenOf x (g * S + s) h * v h e) e
  simp only [← tokenGates_line] at h
  exact h

/-- C152: if there are no ties in the group of a token, its output is differentiable in the kernel of the router, also when the experts
compute in bfloat16.  The logit of an expert `k` has the derivative `gate k * (y k - out)` if `k` keeps the token and `gate k * (0 - out)` if not,
where `y k` is what the expert returns and `out` the output of the block. -/
theorem C152_token {P : Type} (fl : ℚ → ℚ) (cdf bf : ℝ → ℝ) (cfg : RouterConfig) (S : Nat) (kernel : Fin H → Fin E → ℝ)
    (z : Nat → Nat → Nat → ℝ) (oob : Fin O → ℝ) (params : Fin E → P) (mlp : P → (Fin H → ℝ) → Fin O → ℝ)
    (x : Fin B → Fin T → Fin H → ℝ) (hS : 0 < S) (hdiv : S ∣ B * T) (hE : 0 < E) (h0 : 0 < cfg.numSelected) (hK : cfg.numSelected ≤ E)
    (hname : cfg.dispatcher.name = "einsum" ∨ cfg.dispatcher.name = "indices") (cap : Nat)
    (hcap : resolveCapacity fl (S * cfg.numSelected) E cfg.dispatcher.capacity
      cfg.dispatcher.capacityFactor cfg.dispatcher.ceilOrRound cfg.dispatcher.multipleOf = .ok cap)
    (b : Fin B) (t : Fin T)
    (hties : NoTies hE cfg.dispatcher.batchPriority (tokenGates S kernel (usedStd cfg E) z x (tokenNumber T b t / S))) :
    ∃ out : (Fin H → Fin E → ℝ) → Fin B → Fin T → Fin O → ℝ,
      (∀ kernel, ∃ m, mlpMoeBlock fl cdf bf cfg S kernel z oob params mlp x = .ok (out kernel, m)) ∧
      let n := tokenNumber T b t
      let gates := tokenGates S kernel (usedStd cfg E) z x (n / S)
      let s : Fin S := ⟨n % S, Nat.mod_lt _ hS⟩
      let round := fun {D : Nat} (v : Fin D → ℝ) (i : Fin D) => if cfg.dispatcher.bfloat16 then bf (v i) else v i
      ∀ (i : Fin O) (v : Fin H → Fin E → ℝ),
        HasDerivAt (fun τ : ℝ => out (fun h e => kernel h e + τ * v h e) b t i)
          (∑ k, gates s k * ((if Kept hE cfg.dispatcher.batchPriority gates cfg.numSelected cap s k
            then round (mlp (params k) (round (x b t))) i else 0) - out kernel b t i) * ∑ h, x b t h * v h k) 0 := by
  have h := fun kernel => C72_block_output fl cdf bf cfg S kernel z oob params mlp x hS hdiv hE h0 hK hname cap hcap
  choose out m hout hval using h
  refine ⟨out, fun k => ⟨m k, hout k⟩, ?_⟩
  intro n gates s round i v
  have hx : tokenOf x (n / S * S + s) = x b t := by
    show tokenOf x (n / S * S + n % S) = x b t
    rw [Nat.div_add_mod', tokenOf_tokenNumber]
  let y : Fin E → ℝ := fun k => round (mlp (params k) (round (x b t))) i
  let kept := Finset.univ.filter fun k => Kept hE cfg.dispatcher.batchPriority gates cfg.numSelected cap s k
  have hev : ∀ᶠ τ in 𝓝 (0 : ℝ), out (fun h e => kernel h e + τ * v h e) b t i =
      ∑ e ∈ kept, tokenGates S (fun h e => kernel h e + τ * v h e) (usedStd cfg E) z x (n / S) s e * y e := by
    have hzero : tokenGates S (fun h e => kernel h e + (0 : ℝ) * v h e) (usedStd cfg E) z x (n / S) = gates := by
      simp only [zero_mul, add_zero]
      rfl
    have h := eventually_kept (q0 := (0 : ℝ)) hE cfg.dispatcher.batchPriority
      (fun τ => tokenGates S (fun h e => kernel h e + τ * v h e) (usedStd cfg E) z x (n / S))
      (fun s e => (hasDerivAt_gates S kernel v (usedStd cfg E) z x (n / S) s e).continuousAt) (by
        rw [hzero]
        exact hties)
    filter_upwards [h] with τ hτ
    rw [hzero] at hτ
    refine (hval _ b t i).trans ?_
    refine Finset.sum_congr ?_ fun _ _ => rfl
    ext e
    simp only [kept, Finset.mem_filter, Finset.mem_univ, true_and]
    exact (hτ cfg.numSelected cap s e).symm
  have hnow : out kernel b t i = ∑ e ∈ kept, gates s e * y e := hval kernel b t i
  have hd : HasDerivAt (fun τ : ℝ => ∑ e ∈ kept, tokenGates S (fun h e => kernel h e + τ * v h e) (usedStd cfg E) z x (n / S) s e * y e)
      (∑ e ∈ kept, gates s e * ((∑ h, tokenOf x (n / S * S + s) h * v h e) -
        ∑ k, gates s k * ∑ h, tokenOf x (n / S * S + s) h * v h k) * y e) 0 :=
    HasDerivAt.fun_sum fun e _ => (hasDerivAt_gates S kernel v (usedStd cfg E) z x (n / S) s e).mul_const (y e)
  refine (hd.congr_of_eventuallyEq hev).congr_deriv ?_
  rw [hx, hnow]
  have h1 : ∀ k, gates s k * ((if Kept hE cfg.dispatcher.batchPriority gates cfg.numSelected cap s k then y k else 0) -
      ∑ e ∈ kept, gates s e * y e) * (∑ h, x b t h * v h k) =
      (if Kept hE cfg.dispatcher.batchPriority gates cfg.numSelected cap s k then gates s k * (∑ h, x b t h * v h k) * y k else 0) -
      (gates s k * ∑ h, x b t h * v h k) * ∑ e ∈ kept, gates s e * y e := by
    intro k
    split_ifs <;> ring
  have h2 : ∀ e, gates s e * ((∑ h, x b t h * v h e) - ∑ k, gates s k * ∑ h, x b t h * v h k) * y e =
      gates s e * (∑ h, x b t h * v h e) * y e - (∑ k, gates s k * ∑ h, x b t h * v h k) * (gates s e * y e) := by
    intro e
    ring
  show _ = ∑ k, gates s k * ((if Kept hE cfg.dispatcher.batchPriority gates cfg.numSelected cap s k then y k else 0) -
      ∑ e ∈ kept, gates s e * y e) * (∑ h, x b t h * v h k)
  simp only [h1, h2]
  rw [Finset.sum_sub_distrib, Finset.sum_sub_distrib, ← Finset.mul_sum, ← Finset.sum_mul, ← Finset.sum_filter]

/-- C152: a token that no expert keeps says nothing to the router, in any direction. -/
theorem C152_dropped {P : Type} (fl : ℚ → ℚ) (cdf bf : ℝ → ℝ) (cfg : RouterConfig) (S : Nat) (kernel : Fin H → Fin E → ℝ)
    (z : Nat → Nat → Nat → ℝ) (oob : Fin O → ℝ) (params : Fin E → P) (mlp : P → (Fin H → ℝ) → Fin O → ℝ)
    (x : Fin B → Fin T → Fin H → ℝ) (hS : 0 < S) (hdiv : S ∣ B * T) (hE : 0 < E) (h0 : 0 < cfg.numSelected) (hK : cfg.numSelected ≤ E)
    (hname : cfg.dispatcher.name = "einsum" ∨ cfg.dispatcher.name = "indices") (cap : Nat)
    (hcap : resolveCapacity fl (S * cfg.numSelected) E cfg.dispatcher.capacity
      cfg.dispatcher.capacityFactor cfg.dispatcher.ceilOrRound cfg.dispatcher.multipleOf = .ok cap)
    (b : Fin B) (t : Fin T)
    (hties : NoTies hE cfg.dispatcher.batchPriority (tokenGates S kernel (usedStd cfg E) z x (tokenNumber T b t / S)))
    (hdrop : ∀ e, ¬ Kept hE cfg.dispatcher.batchPriority (tokenGates S kernel (usedStd cfg E) z x (tokenNumber T b t / S))
      cfg.numSelected cap ⟨tokenNumber T b t % S, Nat.mod_lt _ hS⟩ e) :
    ∃ out : (Fin H → Fin E → ℝ) → Fin B → Fin T → Fin O → ℝ,
      (∀ kernel, ∃ m, mlpMoeBlock fl cdf bf cfg S kernel z oob params mlp x = .ok (out kernel, m)) ∧
      ∀ (i : Fin O) (v : Fin H → Fin E → ℝ), HasDerivAt (fun τ : ℝ => out (fun h e => kernel h e + τ * v h e) b t i) 0 0 := by
  obtain ⟨out, hout, hd⟩ := C152_token fl cdf bf cfg S kernel z oob params mlp x hS hdiv hE h0 hK hname cap hcap b t hties
  refine ⟨out, hout, fun i v => (hd i v).congr_deriv ?_⟩
  obtain ⟨o, m, ho, hval⟩ := C72_block_output fl cdf bf cfg S kernel z oob params mlp x hS hdiv hE h0 hK hname cap hcap
  obtain ⟨m', hm'⟩ := hout kernel
  have hoo : out kernel = o := congrArg Prod.fst (Except.ok.inj (hm'.symm.trans ho))
  have hzero : out kernel b t i = 0 := by
    rw [hoo]
    refine (hval b t i).trans ?_
    rw [Finset.filter_false_of_mem fun e _ => hdrop e, Finset.sum_empty]
  refine Finset.sum_eq_zero fun k _ => ?_
  rw [if_neg (hdrop k), hzero]
  ring

/-- C152: a single expert that keeps a token is weighted by its gate, which the router can change: unless the features of the token
or what the expert returns for it are zero, raising the logit of the expert changes the output, and so does raising the logit of any other
expert, in the other direction. -/
theorem C152_single {P : Type} (fl : ℚ → ℚ) (cdf bf : ℝ → ℝ) (cfg : RouterConfig) (S : Nat) (kernel : Fin H → Fin E → ℝ)
    (z : Nat → Nat → Nat → ℝ) (oob : Fin O → ℝ) (params : Fin E → P) (mlp : P → (Fin H → ℝ) → Fin O → ℝ)
    (x : Fin B → Fin T → Fin H → ℝ) (hS : 0 < S) (hdiv : S ∣ B * T) (hE : 0 < E) (h0 : 0 < cfg.numSelected) (hK : cfg.numSelected ≤ E)
    (hname : cfg.dispatcher.name = "einsum" ∨ cfg.dispatcher.name = "indices") (cap : Nat)
    (hcap : resolveCapacity fl (S * cfg.numSelected) E cfg.dispatcher.capacity
      cfg.dispatcher.capacityFactor cfg.dispatcher.ceilOrRound cfg.dispatcher.multipleOf = .ok cap)
    (b : Fin B) (t : Fin T)
    (hties : NoTies hE cfg.dispatcher.batchPriority (tokenGates S kernel (usedStd cfg E) z x (tokenNumber T b t / S)))
    (e : Fin E) (honly : ∀ k, Kept hE cfg.dispatcher.batchPriority (tokenGates S kernel (usedStd cfg E) z x (tokenNumber T b t / S))
      cfg.numSelected cap ⟨tokenNumber T b t % S, Nat.mod_lt _ hS⟩ k ↔ k = e) :
    ∃ out : (Fin H → Fin E → ℝ) → Fin B → Fin T → Fin O → ℝ,
      (∀ kernel, ∃ m, mlpMoeBlock fl cdf bf cfg S kernel z oob params mlp x = .ok (out kernel, m)) ∧
      let n := tokenNumber T b t
      let gates := tokenGates S kernel (usedStd cfg E) z x (n / S) ⟨n % S, Nat.mod_lt _ hS⟩
      ∀ (i : Fin O) (k : Fin E),
        HasDerivAt (fun τ : ℝ => out (fun h e' => kernel h e' + τ * if e' = k then x b t h else 0) b t i)
          ((if k = e then 1 - gates e else - gates k) * (∑ h, x b t h ^ 2) * out kernel b t i) 0 := by
  obtain ⟨out, hout, hd⟩ := C152_token fl cdf bf cfg S kernel z oob params mlp x hS hdiv hE h0 hK hname cap hcap b t hties
  refine ⟨out, hout, ?_⟩
  intro n gates i k
  refine (hd i (fun h e' => if e' = k then x b t h else 0)).congr_deriv ?_
  obtain ⟨o, m, ho, hval⟩ := C72_block_output fl cdf bf cfg S kernel z oob params mlp x hS hdiv hE h0 hK hname cap hcap
  obtain ⟨m', hm'⟩ := hout kernel
  have hoo : out kernel = o := congrArg Prod.fst (Except.ok.inj (hm'.symm.trans ho))
  have hnow := hval b t i
  rw [← hoo] at hnow
  simp only at hnow
  rw [Finset.filter_congr (q := fun k => k = e) (fun k _ => honly k), Finset.filter_eq', if_pos (Finset.mem_univ _),
    Finset.sum_singleton] at hnow
  rw [Finset.sum_eq_single k (fun k' _ hk' => by simp [hk']) (fun hk' => absurd (Finset.mem_univ _) hk')]
  have hsq : (∑ h, x b t h * if k = k then x b t h else 0) = ∑ h, x b t h ^ 2 := by
    refine Finset.sum_congr rfl fun h _ => ?_
    rw [if_pos rfl, sq]
  rw [hsq]
  by_cases hk : k = e
  · subst hk
    rw [if_pos ((honly k).2 rfl), if_pos rfl]
    linear_combination (-(∑ h, x b t h ^ 2)) * hnow
  · rw [if_neg (fun h => hk ((honly k).1 h)), if_neg hk]
    ring

/-- C152: the gates of the factors above are between 0 and 1, strictly if there are two experts, so with one expert selected its router is
trained like the others. -/
theorem C152_gate (S : Nat) (kernel : Fin H → Fin E → ℝ) (sigma : ℝ) (z : Nat → Nat → Nat → ℝ) (x : Fin B → Fin T → Fin H → ℝ)
    (g : Nat) (s : Fin S) (e : Fin E) (h2 : 2 ≤ E) : 0 < tokenGates S kernel sigma z x g s e ∧ tokenGates S kernel sigma z x g s e < 1 := by
  have : Nontrivial (Fin E) := Fin.nontrivial_iff_two_le.2 h2
  obtain ⟨e', he'⟩ := exists_ne e
  unfold tokenGates expWeights
  generalize (fun e => (∑ h, tokenOf x (g * S + s) h * kernel h e) + sigma * z g s e) = l
  have hpos : 0 < ∑ e', Real.exp (l e') := Finset.sum_pos (fun _ _ => Real.exp_pos _) ⟨e, Finset.mem_univ _⟩
  refine ⟨div_pos (Real.exp_pos _) hpos, ?_⟩
  rw [div_lt_one hpos]
  exact Finset.single_lt_sum he' (Finset.mem_univ e) (Finset.mem_univ e') (Real.exp_pos _) fun _ _ _ => (Real.exp_pos _).le

/-- C152: so for a loss of the outputs that is differentiable, the derivative in the kernel of the router is the sum over the tokens, the experts
and the features of the output of the derivatives above times the derivatives of the loss; the block has no other path to the router. -/
theorem C152_loss {P : Type} (fl : ℚ → ℚ) (cdf bf : ℝ → ℝ) (cfg : RouterConfig) (S : Nat) (kernel : Fin H → Fin E → ℝ)
    (z : Nat → Nat → Nat → ℝ) (oob : Fin O → ℝ) (params : Fin E → P) (mlp : P → (Fin H → ℝ) → Fin O → ℝ)
    (x : Fin B → Fin T → Fin H → ℝ) (hS : 0 < S) (hdiv : S ∣ B * T) (hE : 0 < E) (h0 : 0 < cfg.numSelected) (hK : cfg.numSelected ≤ E)
    (hname : cfg.dispatcher.name = "einsum" ∨ cfg.dispatcher.name = "indices") (cap : Nat)
    (hcap : resolveCapacity fl (S * cfg.numSelected) E cfg.dispatcher.capacity
      cfg.dispatcher.capacityFactor cfg.dispatcher.ceilOrRound cfg.dispatcher.multipleOf = .ok cap)
    (hties : ∀ (b : Fin B) (t : Fin T), NoTies hE cfg.dispatcher.batchPriority
      (tokenGates S kernel (usedStd cfg E) z x (tokenNumber T b t / S)))
    (loss : (Fin B → Fin T → Fin O → ℝ) → ℝ) (D : (Fin B → Fin T → Fin O → ℝ) →L[ℝ] ℝ) :
    ∃ out : (Fin H → Fin E → ℝ) → Fin B → Fin T → Fin O → ℝ,
      (∀ kernel, ∃ m, mlpMoeBlock fl cdf bf cfg S kernel z oob params mlp x = .ok (out kernel, m)) ∧
      let gates := fun (b : Fin B) (t : Fin T) => tokenGates S kernel (usedStd cfg E) z x (tokenNumber T b t / S)
      let s : Fin B → Fin T → Fin S := fun b t => ⟨tokenNumber T b t % S, Nat.mod_lt _ hS⟩
      let round := fun {D : Nat} (v : Fin D → ℝ) (i : Fin D) => if cfg.dispatcher.bfloat16 then bf (v i) else v i
      (HasFDerivAt loss D (out kernel) → ∀ v : Fin H → Fin E → ℝ,
        HasDerivAt (fun τ : ℝ => loss (out fun h e => kernel h e + τ * v h e))
          (∑ h, ∑ k, (∑ b, ∑ t, gates b t (s b t) k * x b t h * D (Pi.single b (Pi.single t fun i =>
            (if Kept hE cfg.dispatcher.batchPriority (gates b t) cfg.numSelected cap (s b t) k
              then round (mlp (params k) (round (x b t))) i else 0) - out kernel b t i))) * v h k) 0) := by
  have h := fun kernel => C72_block_output fl cdf bf cfg S kernel z oob params mlp x hS hdiv hE h0 hK hname cap hcap
  choose out m hout hval using h
  refine ⟨out, fun k => ⟨m k, hout k⟩, ?_⟩
  intro gates s round hL v
  let y : Fin B → Fin T → Fin E → Fin O → ℝ := fun b t k i =>
    (if Kept hE cfg.dispatcher.batchPriority (gates b t) cfg.numSelected cap (s b t) k
      then round (mlp (params k) (round (x b t))) i else 0) - out kernel b t i
  have hone : ∀ b t i, HasDerivAt (fun τ : ℝ => out (fun h e => kernel h e + τ * v h e) b t i)
      (∑ k, gates b t (s b t) k * y b t k i * ∑ h, x b t h * v h k) 0 := by
    intro b t i
    obtain ⟨out', hout', hd⟩ := C152_token fl cdf bf cfg S kernel z oob params mlp x hS hdiv hE h0 hK hname cap hcap b t (hties b t)
    have hoo : out' = out := by
      funext k
      obtain ⟨m', hm'⟩ := hout' k
      exact congrArg Prod.fst (Except.ok.inj (hm'.symm.trans (hout k)))
    rw [hoo] at hd
    exact hd i v
  have hall : HasDerivAt (fun τ : ℝ => out fun h e => kernel h e + τ * v h e)
      (fun b t i => ∑ k, gates b t (s b t) k * y b t k i * ∑ h, x b t h * v h k) 0 :=
    hasDerivAt_pi.2 fun b => hasDerivAt_pi.2 fun t => hasDerivAt_pi.2 fun i => hone b t i
  have hzero : (fun h e => kernel h e + (0 : ℝ) * v h e) = kernel := by
    funext h e
    ring
  have hL' : HasFDerivAt loss D ((fun τ : ℝ => out fun h e => kernel h e + τ * v h e) 0) := by
    beta_reduce
    rw [hzero]
    exact hL
  refine (hL'.comp_hasDerivAt (0 : ℝ) hall).congr_deriv ?_
  have hsplit : (fun b t i => ∑ k, gates b t (s b t) k * y b t k i * ∑ h, x b t h * v h k) =
      ∑ h, ∑ k, ∑ b, ∑ t, (gates b t (s b t) k * x b t h * v h k) • (Pi.single b (Pi.single t (y b t k)) : Fin B → Fin T → Fin O → ℝ) := by
    funext b t i
    simp only [Finset.sum_apply, Pi.smul_apply, smul_eq_mul]
    have hb : ∀ h k, (∑ b', ∑ t', gates b' t' (s b' t') k * x b' t' h * v h k *
        (Pi.single b' (Pi.single t' (y b' t' k)) : Fin B → Fin T → Fin O → ℝ) b t i) = gates b t (s b t) k * x b t h * v h k * y b t k i := by
      intro h k
      rw [Finset.sum_eq_single b, Finset.sum_eq_single t]
      · rw [Pi.single_eq_same, Pi.single_eq_same]
      · intro t' _ ht'
        rw [Pi.single_eq_same, Pi.single_eq_of_ne ht'.symm, Pi.zero_apply, mul_zero]
      · exact fun hn => absurd (Finset.mem_univ _) hn
      · intro b' _ hb'
        refine Finset.sum_eq_zero fun t' _ => ?_
        rw [Pi.single_eq_of_ne hb'.symm, Pi.zero_apply, Pi.zero_apply, mul_zero]
      · exact fun hn => absurd (Finset.mem_univ _) hn
    simp only [hb]
    rw [Finset.sum_comm]
    refine Finset.sum_congr rfl fun k _ => ?_
    rw [Finset.mul_sum]
    refine Finset.sum_congr rfl fun h _ => ?_
    ring
  rw [hsplit]
  simp only [map_sum, map_smul, smul_eq_mul]
  refine Finset.sum_congr rfl fun h _ => Finset.sum_congr rfl fun k _ => ?_
  rw [Finset.sum_mul]
  refine Finset.sum_congr rfl fun b _ => ?_
  rw [Finset.sum_mul]
  refine Finset.sum_congr rfl fun t _ => ?_
  show _ = gates b t (s b t) k * x b t h * D (Pi.single b (Pi.single t (y b t k))) * v h k
  ring

/-- The second expert keeps the token of the example of C131. -/
theorem exOnly (k : Fin 2) : Kept (by decide : 0 < 2) exCfg.dispatcher.batchPriority (tokenGates 1 (fun _ : Fin 1 => ![0, 1])
    (usedStd exCfg 2) (fun _ _ _ => 0) (fun (_ : Fin 1) (_ : Fin 1) (_ : Fin 1) => (1 : ℝ)) 0) exCfg.numSelected 1 0 k ↔ k = 1 := by
  refine (exKept _ k).trans ?_
  simp only [exGates _ _ 0 rfl]
  constructor
  · intro he
    by_contra hne
    have h0 : k = 0 := by omega
    subst h0
    refine he 1 (Or.inl ?_)
    apply div_lt_div_of_pos_right _ (by positivity)
    simp
  · rintro rfl e' (h | h)
    · rw [div_lt_div_iff_of_pos_right (by positivity)] at h
      fin_cases e'
      · simp at h
        linarith
      · simp at h
    · have h2 : e' = 0 := by omega
      subst h2
      have := h.1
      rw [div_left_inj' (by positivity)] at this
      have h3 : (1 : ℝ) < Real.exp 1 := Real.one_lt_exp_iff.2 one_pos
      simp at this
      linarith

/-- One token, one of two experts selected: raising the logit of the selected expert raises the output, raising that of the other one lowers
it by the same amount. -/
example : ∃ out : (Fin 1 → Fin 2 → ℝ) → Fin 1 → Fin 1 → Fin 1 → ℝ, ∃ d : ℝ, 0 < d ∧
    (∀ kernel, ∃ m, mlpMoeBlock id id id exCfg 1 kernel (fun _ _ _ => 0) (fun _ => 0) ![-1, 1] exMlp (fun _ _ _ => 1) = .ok (out kernel, m)) ∧
    HasDerivAt (fun τ : ℝ => out (fun _ e' => ![0, 1] e' + τ * if e' = 1 then 1 else 0) 0 0 0) d 0 ∧
    HasDerivAt (fun τ : ℝ => out (fun _ e' => ![0, 1] e' + τ * if e' = 0 then 1 else 0) 0 0 0) (-d) 0 := by
  obtain ⟨out, hout, hd⟩ := C152_single id id id exCfg 1 (fun _ : Fin 1 => ![0, 1]) (fun _ _ _ => 0) (fun _ => 0) ![-1, 1] exMlp
    (fun (_ : Fin 1) (_ : Fin 1) (_ : Fin 1) => (1 : ℝ)) (by decide) (by decide) (by decide) (by decide) (by decide) (Or.inl rfl) 1 rfl
    0 0 (exNoTies 0 0) 1 exOnly
  obtain ⟨o, m, ho, hval⟩ := C72_block_output id id id exCfg 1 (fun _ : Fin 1 => ![0, 1]) (fun _ _ _ => 0) (fun _ => 0) ![-1, 1] exMlp
    (fun (_ : Fin 1) (_ : Fin 1) (_ : Fin 1) => (1 : ℝ)) (by decide) (by decide) (by decide) (by decide) (by decide) (Or.inl rfl) 1 rfl
  obtain ⟨m', hm'⟩ := hout fun _ => ![0, 1]
  have hoo : out (fun _ => ![0, 1]) = o := congrArg Prod.fst (Except.ok.inj (hm'.symm.trans ho))
  have hnow := hval 0 0 0
  rw [← hoo] at hnow
  have hfilter : (Finset.univ.filter fun e => Kept (by decide : 0 < 2) exCfg.dispatcher.batchPriority (tokenGates 1 (fun _ : Fin 1 => ![0, 1])
      (usedStd exCfg 2) (fun _ _ _ => 0) (fun (_ : Fin 1) (_ : Fin 1) (_ : Fin 1) => (1 : ℝ)) (tokenNumber 1 (0 : Fin 1) (0 : Fin 1) / 1))
      exCfg.numSelected 1 ⟨tokenNumber 1 (0 : Fin 1) (0 : Fin 1) % 1, Nat.mod_lt _ (by decide)⟩ e) = {1} := by
    ext e
    simp only [Finset.mem_filter, Finset.mem_univ, true_and, Finset.mem_singleton]
    exact exOnly e
  rw [Finset.sum_congr hfilter fun _ _ => rfl, Finset.sum_singleton] at hnow
  have hgate := fun k => C152_gate 1 (fun _ : Fin 1 => ![0, 1]) (usedStd exCfg 2) (fun _ _ _ => 0)
    (fun (_ : Fin 1) (_ : Fin 1) (_ : Fin 1) => (1 : ℝ)) 0 0 k (le_refl 2)
  have hsum : tokenGates 1 (fun _ : Fin 1 => ![0, 1]) (usedStd exCfg 2) (fun _ _ _ => 0) (fun (_ : Fin 1) (_ : Fin 1) (_ : Fin 1) => (1 : ℝ)) 0 0 0 +
      tokenGates 1 (fun _ : Fin 1 => ![0, 1]) (usedStd exCfg 2) (fun _ _ _ => 0) (fun (_ : Fin 1) (_ : Fin 1) (_ : Fin 1) => (1 : ℝ)) 0 0 1 = 1 := by
    rw [exGates _ _ 0 rfl, exGates _ _ 0 rfl, ← add_div, div_self (by positivity)]
  have hpos : 0 < out (fun _ => ![0, 1]) 0 0 0 := by
    rw [hnow]
    refine mul_pos (hgate 1).1 ?_
    show (0 : ℝ) < 1 + 1
    norm_num
  have h1 := hd 0 1
  have h0 := hd 0 0
  simp only [if_true, Fin.isValue, zero_ne_one, if_false, one_pow, Finset.sum_const, Finset.card_univ, Fintype.card_fin, one_smul, mul_one] at h1 h0
  refine ⟨out, _, ?_, hout, h1, h0.congr_deriv ?_⟩
  · exact mul_pos (sub_pos.2 (hgate 1).2) hpos
  · have : tokenGates 1 (fun _ : Fin 1 => ![0, 1]) (usedStd exCfg 2) (fun _ _ _ => 0) (fun (_ : Fin 1) (_ : Fin 1) (_ : Fin 1) => (1 : ℝ)) 0 0 0 =
        1 - tokenGates 1 (fun _ : Fin 1 => ![0, 1]) (usedStd exCfg 2) (fun _ _ _ => 0) (fun (_ : Fin 1) (_ : Fin 1) (_ : Fin 1) => (1 : ℝ)) 0 0 1 := by
      linarith
    rw [← neg_mul]
    congr 1
    exact congrArg Neg.neg this

/-- Two tokens for one expert with room for one: the second token is dropped and does not matter to the router. -/
example : ∃ out : (Fin 1 → Fin 1 → ℝ) → Fin 1 → Fin 2 → Fin 1 → ℝ,
    (∀ kernel, ∃ m, mlpMoeBlock id id id exCfg 2 kernel (fun _ _ _ => 0) (fun _ => 0) ![1] exMlp (fun _ _ _ => 1) = .ok (out kernel, m)) ∧
    ∀ (i : Fin 1) (v : Fin 1 → Fin 1 → ℝ), HasDerivAt (fun τ : ℝ => out (fun _ _ => 3 + τ * v 0 0) 0 1 i) 0 0 := by
  obtain ⟨out, hout, hd⟩ := C152_dropped id id id exCfg 2 (fun (_ : Fin 1) (_ : Fin 1) => 3) (fun _ _ _ => 0) (fun _ => 0) ![1] exMlp
    (fun (_ : Fin 1) (_ : Fin 2) (_ : Fin 1) => (1 : ℝ)) (by decide) (by decide) (by decide) (by decide) (by decide) (Or.inl rfl) 1 rfl 0 1
    ⟨fun s => Function.injective_of_subsingleton _, fun h => by cases h⟩ (by
      intro e
      obtain rfl : e = 0 := Subsingleton.elim _ _
      generalize tokenGates 2 (fun (_ : Fin 1) (_ : Fin 1) => (3 : ℝ)) _ _ _ _ = gates
      have hr : ∀ s, choiceRank gates s 0 = 0 := by
        intro s
        unfold choiceRank
        rw [Finset.card_eq_zero, Finset.filter_eq_empty_iff]
        intro e' _
        obtain rfl : e' = 0 := Subsingleton.elim _ _
        simp
      rintro ⟨-, h⟩
      rw [Nat.lt_one_iff, slot, Finset.card_eq_zero, Finset.filter_eq_empty_iff] at h
      refine h (Finset.mem_univ 0) ⟨?_, Or.inr ⟨by rw [hr, hr], ?_⟩⟩
      · unfold Requests
        rw [hr]
        decide
      · show ItemBefore _ false _ _ _
        simp only [ItemBefore, Bool.false_eq_true, if_false]
        decide)
  refine ⟨out, hout, fun i v => ?_⟩
  have h := hd i v
  have hv : ∀ τ : ℝ, (fun (h e : Fin 1) => (3 : ℝ) + τ * v h e) = fun _ _ => 3 + τ * v 0 0 := by
    intro τ
    funext h e
    obtain rfl : h = 0 := Subsingleton.elim _ _
    obtain rfl : e = 0 := Subsingleton.elim _ _
    rfl
  simp only [hv] at h
  exact h

end Verif.RouterGradient
