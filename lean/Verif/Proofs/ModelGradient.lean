import Mathlib.Analysis.Calculus.FDeriv.Add
import Mathlib.Analysis.Calculus.FDeriv.Mul
import Mathlib.Analysis.Calculus.FDeriv.Pi
import Mathlib.Analysis.Calculus.FDeriv.Pow
import Mathlib.Analysis.Calculus.FDeriv.Prod
import Mathlib.Analysis.SpecialFunctions.ExpDeriv
import Verif.Props.RoutingStability
import Verif.Props.LoadGradient
import Verif.Proofs.BatchParts

/-!
Derivatives of models with MoE layers at parameters for which no gates are tied.
-/

namespace Verif.ModelGradient

open Verif Verif.Spec Verif.Moe Verif.Encoder Verif.Vit Verif.Vmoe Verif.ModelLoss Verif.BatchParts Verif.RoutingStability
open scoped Topology

variable {B T S H O E K : Nat} {P Θ : Type} [NormedAddCommGroup Θ] [NormedSpace ℝ Θ] {θ₀ : Θ}

section gates

theorem diff_div {f g : Θ → ℝ} (hf : DifferentiableAt ℝ f θ₀) (hg : DifferentiableAt ℝ g θ₀) (h0 : g θ₀ ≠ 0) :
    DifferentiableAt ℝ (fun θ => f θ / g θ) θ₀ := by
  simp only [div_eq_mul_inv]
  exact hf.mul (hg.fun_inv h0)

theorem diff_div_const {f : Θ → ℝ} (hf : DifferentiableAt ℝ f θ₀) (a : ℝ) : DifferentiableAt ℝ (fun θ => f θ / a) θ₀ := by
  simp only [div_eq_mul_inv]
  exact hf.mul_const _

theorem diff_token {x : Θ → Fin B → Fin T → Fin H → ℝ} (hx : DifferentiableAt ℝ x θ₀) (n : Nat) (h : Fin H) :
    DifferentiableAt ℝ (fun θ => tokenOf (x θ) n h) θ₀ := by
  unfold tokenOf
  split_ifs with hn
  · have h1 := differentiableAt_pi.1 hx ⟨n / T, hn.1⟩
    have h2 := differentiableAt_pi.1 h1 ⟨n % T, hn.2⟩
    exact differentiableAt_pi.1 h2 h
  · exact differentiableAt_const _

theorem diff_logits {x : Θ → Fin B → Fin T → Fin H → ℝ} {kernel : Θ → Fin H → Fin E → ℝ} (hk : DifferentiableAt ℝ kernel θ₀)
    (hx : DifferentiableAt ℝ x θ₀) (n : Nat) (e : Fin E) :
    DifferentiableAt ℝ (fun θ => ∑ h, tokenOf (x θ) n h * kernel θ h e) θ₀ :=
  DifferentiableAt.fun_sum fun h _ => (diff_token hx n h).mul (differentiableAt_pi.1 (differentiableAt_pi.1 hk h) e)

theorem diff_weights {l : Θ → Fin E → ℝ} (hl : ∀ e, DifferentiableAt ℝ (fun θ => l θ e) θ₀) (e : Fin E) :
    DifferentiableAt ℝ (fun θ => expWeights (l θ) e) θ₀ := by
  unfold expWeights
  refine diff_div (hl e).exp (DifferentiableAt.fun_sum fun e' _ => (hl e').exp) ?_
  have : 0 < ∑ e', Real.exp (l θ₀ e') := Finset.sum_pos (fun e' _ => Real.exp_pos _) ⟨e, Finset.mem_univ _⟩
  exact this.ne'

theorem diff_gates {x : Θ → Fin B → Fin T → Fin H → ℝ} {kernel : Θ → Fin H → Fin E → ℝ} (hk : DifferentiableAt ℝ kernel θ₀)
    (hx : DifferentiableAt ℝ x θ₀) (sigma : ℝ) (z : Nat → Nat → Nat → ℝ) (g : Nat) (s : Fin S) (e : Fin E) :
    DifferentiableAt ℝ (fun θ => tokenGates S (kernel θ) sigma z (x θ) g s e) θ₀ :=
  diff_weights (fun e' => (diff_logits hk hx _ e').add_const _) e

end gates

section losses

/-- The squared coefficient of variation of positive numbers. -/
theorem diff_cv (hE : 0 < E) (q : Θ → Fin E → ℝ) (hq : ∀ e, DifferentiableAt ℝ (fun θ => q θ e) θ₀)
    (hpos : ∀ θ, 0 < ∑ e, q θ e) : DifferentiableAt ℝ (fun θ => (Aux.std (q θ) / Aux.mean (q θ)) ^ 2) θ₀ := by
  have hE' : (0 : ℝ) < E := by exact_mod_cast hE
  have hval : ∀ θ, (Aux.std (q θ) / Aux.mean (q θ)) ^ 2 = E * (∑ e, q θ e ^ 2) / (∑ e, q θ e) ^ 2 - 1 := by
    intro θ
    have := hpos θ
    rw [Aux.cv_sq, Aux.variance_eq hE]
    unfold Aux.mean
    field_simp
  simp only [hval]
  have h1 : DifferentiableAt ℝ (fun θ => (E : ℝ) * ∑ e, q θ e ^ 2) θ₀ :=
    (DifferentiableAt.fun_sum fun e _ => (hq e).fun_pow 2).const_mul _
  have h2 : DifferentiableAt ℝ (fun θ => (∑ e, q θ e) ^ 2) θ₀ := (DifferentiableAt.fun_sum fun e _ => hq e).fun_pow 2
  exact (diff_div h1 h2 (pow_ne_zero 2 (hpos θ₀).ne')).sub_const 1

theorem diff_importance (hS : 0 < S) (hE : 0 < E) (gates : Θ → Fin S → Fin E → ℝ)
    (hg : ∀ s e, DifferentiableAt ℝ (fun θ => gates θ s e) θ₀) (hpos : ∀ θ s e, 0 < gates θ s e) :
    DifferentiableAt ℝ (fun θ => Aux.importanceLoss (gates θ)) θ₀ :=
  diff_cv hE (fun θ e => ∑ s, gates θ s e) (fun e => DifferentiableAt.fun_sum fun s _ => hg s e) fun θ =>
    Finset.sum_pos (fun e _ => Finset.sum_pos (fun s _ => hpos θ s e) ⟨⟨0, hS⟩, Finset.mem_univ _⟩) ⟨⟨0, hE⟩, Finset.mem_univ _⟩

theorem diff_gshard (hE : 0 < E) (gates : Θ → Fin S → Fin E → ℝ)
    (hg : ∀ s e, DifferentiableAt ℝ (fun θ => gates θ s e) θ₀) (hinj : ∀ s, Function.Injective (gates θ₀ s)) :
    DifferentiableAt ℝ (fun θ => Aux.gshardLoss hE (gates θ)) θ₀ := by
  have hev := eventually_rows gates (fun s e => (hg s e).continuousAt) hinj
  have hd : DifferentiableAt ℝ (fun θ => E * ∑ e, ((Finset.univ.filter (fun s => (∀ e', gates θ₀ s e' ≤ gates θ₀ s e) ∧
      ∀ e' < e, gates θ₀ s e' < gates θ₀ s e)).card : ℝ) / S * ((∑ s, gates θ s e) / S)) θ₀ := by
    refine DifferentiableAt.const_mul (DifferentiableAt.fun_sum fun e _ => DifferentiableAt.const_mul ?_ _) _
    exact diff_div_const (DifferentiableAt.fun_sum fun s _ => hg s e) _
  refine hd.congr_of_eventuallyEq ?_
  filter_upwards [hev] with θ hθ
  rw [Aux.C16_gshard_value]
  have h1 : ∀ s a b, gates θ s a < gates θ s b ↔ gates θ₀ s a < gates θ₀ s b := fun s a b => (hθ s a b).symm
  have h2 : ∀ s a b, gates θ s a ≤ gates θ s b ↔ gates θ₀ s a ≤ gates θ₀ s b := by
    intro s a b
    rw [← not_lt, ← not_lt, h1]
  simp only [h1, h2]

theorem weights_lt (l : Fin E → ℝ) (a b : Fin E) : expWeights l a < expWeights l b ↔ l a < l b :=
  Aux.softmax_lt_iff l a b

theorem weights_injective {l : Fin E → ℝ} (h : Function.Injective (expWeights l)) : Function.Injective l := by
  intro a b hab
  apply h
  unfold expWeights
  rw [hab]

theorem diff_load (hS : 0 < S) (cdf : ℝ → ℝ) (hcdf : Differentiable ℝ cdf) (hlt : ∀ a, cdf a < 1) (l n : Θ → Fin S → Fin E → ℝ)
    (hl : ∀ s e, DifferentiableAt ℝ (fun θ => l θ s e) θ₀) (hn : ∀ s e, DifferentiableAt ℝ (fun θ => n θ s e) θ₀)
    (hinj : ∀ s, Function.Injective (n θ₀ s)) (σ : ℝ) (h0 : 0 < K) (hK : K ≤ E) :
    DifferentiableAt ℝ (fun θ => Aux.loadLoss cdf (l θ) (n θ) σ K h0 hK) θ₀ := by
  have hE : 0 < E := h0.trans_le hK
  have hev := eventually_rows n (fun s e => (hn s e).continuousAt) hinj
  let k := fun s => topKIdx (n θ₀ s) K hK ⟨K - 1, by omega⟩
  have hd := diff_cv (θ₀ := θ₀) hE (fun θ e => (∑ s, (1 - cdf ((n θ s (k s) - l θ s e) / σ))) / S) (by
    intro e
    refine diff_div_const (DifferentiableAt.fun_sum fun s _ => ?_) _
    refine DifferentiableAt.const_sub ?_ _
    exact (hcdf _).fun_comp' θ₀ (diff_div_const ((hn s (k s)).sub (hl s e)) _)) (by
    intro θ
    have hS' : (0 : ℝ) < S := by exact_mod_cast hS
    refine Finset.sum_pos (fun e _ => div_pos (Finset.sum_pos (fun s _ => ?_) ⟨⟨0, hS⟩, Finset.mem_univ _⟩) hS')
      ⟨⟨0, hE⟩, Finset.mem_univ _⟩
    linarith [hlt ((n θ s (k s) - l θ s e) / σ)])
  refine hd.congr_of_eventuallyEq ?_
  filter_upwards [hev] with θ hθ
  have h1 : ∀ s, topKIdx (n θ s) K hK ⟨K - 1, by omega⟩ = k s := by
    intro s
    rw [Moe.topK_eq_iff_choiceRank (n θ) hK, ← choiceRank_same hθ]
    exact (Moe.topK_eq_iff_choiceRank (n θ₀) hK s _ _).1 rfl
  unfold Aux.loadLoss
  simp only [h1, ite_mul, one_mul, zero_mul, Finset.sum_ite_eq', Finset.mem_univ, if_true]
  rfl

end losses

section block

variable [NormedAddCommGroup P] [NormedSpace ℝ P]

theorem diff_fixed (hS : 0 < S) (sigma : ℝ) (z : Nat → Nat → Nat → ℝ) (mlp : P → (Fin H → ℝ) → Fin O → ℝ)
    (hmlp : Differentiable ℝ fun a : P × (Fin H → ℝ) => mlp a.1 a.2) (kept : Fin B → Fin T → Finset (Fin E))
    {kernel : Θ → Fin H → Fin E → ℝ} {params : Θ → Fin E → P} {x : Θ → Fin B → Fin T → Fin H → ℝ}
    (hk : DifferentiableAt ℝ kernel θ₀) (hp : DifferentiableAt ℝ params θ₀) (hx : DifferentiableAt ℝ x θ₀) :
    DifferentiableAt ℝ (fun θ => fixedRouting S hS sigma z (fun a => a) mlp kept (kernel θ, params θ, x θ)) θ₀ := by
  refine differentiableAt_pi.2 fun b => differentiableAt_pi.2 fun t => differentiableAt_pi.2 fun i => ?_
  unfold fixedRouting
  refine DifferentiableAt.fun_sum fun e _ => (diff_gates hk hx sigma z _ _ e).mul ?_
  have h1 : DifferentiableAt ℝ (fun θ => (params θ e, x θ b t)) θ₀ :=
    (differentiableAt_pi.1 hp e).prodMk (differentiableAt_pi.1 (differentiableAt_pi.1 hx b) t)
  have h2 : DifferentiableAt ℝ (fun θ => mlp (params θ e) (x θ b t)) θ₀ :=
    (hmlp (params θ₀ e, x θ₀ b t)).fun_comp' θ₀ h1
  exact differentiableAt_pi.1 h2 i

theorem gates_pos {S : Nat} (kernel : Fin H → Fin E → ℝ) (sigma : ℝ) (z : Nat → Nat → Nat → ℝ) (x : Fin B → Fin T → Fin H → ℝ)
    (g : Nat) (s : Fin S) (e : Fin E) : 0 < tokenGates S kernel sigma z x g s e :=
  div_pos (Real.exp_pos _) (Finset.sum_pos (fun _ _ => Real.exp_pos _) ⟨e, Finset.mem_univ _⟩)

/-- Item choice: output and auxiliary losses near parameters without ties. -/
theorem experts_diff (fl : ℚ → ℚ) (cdf bf : ℝ → ℝ) (cfg : MoeBlock.RouterConfig) (hbf : cfg.dispatcher.bfloat16 = false)
    (hcdf : Differentiable ℝ cdf) (hlt : ∀ a, cdf a < 1) (z : Nat → Nat → Nat → ℝ) (oob : Fin O → ℝ)
    (mlp : P → (Fin H → ℝ) → Fin O → ℝ) (hmlp : Differentiable ℝ fun a : P × (Fin H → ℝ) => mlp a.1 a.2)
    {kernel : Θ → Fin H → Fin E → ℝ} {params : Θ → Fin E → P} {x : Θ → Fin B → Fin T → Fin H → ℝ}
    (hk : DifferentiableAt ℝ kernel θ₀) (hp : DifferentiableAt ℝ params θ₀) (hx : DifferentiableAt ℝ x θ₀) (res)
    (h : MoeBlock.mlpMoeBlock fl cdf bf cfg S (kernel θ₀) z oob (params θ₀) mlp (x θ₀) = .ok res)
    (hties : ∀ (hE : 0 < E) (g : Fin (B * T / S)), NoTies hE cfg.dispatcher.batchPriority
      (tokenGates S (kernel θ₀) (MoeBlock.usedStd cfg E) z (x θ₀) g)) :
    ∃ (y : Θ → Fin B → Fin T → Fin O → ℝ) (m : Θ → MoeBlock.Metrics (B * T / S)),
      (∀ θ, MoeBlock.mlpMoeBlock fl cdf bf cfg S (kernel θ) z oob (params θ) mlp (x θ) = .ok (y θ, m θ)) ∧
      DifferentiableAt ℝ y θ₀ ∧ ∀ g, DifferentiableAt ℝ (fun θ => (m θ).auxiliaryLoss g) θ₀ := by
  obtain ⟨⟨hS, hdiv⟩, ⟨h0, hKE⟩, hname, cap, hcap⟩ := Vmoe.success h
  have hE : 0 < E := Nat.lt_of_lt_of_le h0 hKE
  have hall := fun θ => MoeBlock.C72_block_output fl cdf bf cfg S (kernel θ) z oob (params θ) mlp (x θ) hS hdiv hE h0 hKE hname
    cap hcap
  choose y m hym _ using hall
  refine ⟨y, m, hym, ?_, ?_⟩
  · obtain ⟨kept, -, hev⟩ := C131_block fl cdf bf cfg S hS hE (kernel θ₀) z oob (params θ₀) mlp (x θ₀) _ _ (hym θ₀)
      (fun b t => hties hE ⟨_, group_lt hS hdiv (MoeBlock.tokenNumber_lt b t)⟩)
    have hc : ContinuousAt (fun θ => (kernel θ, params θ, x θ)) θ₀ :=
      hk.continuousAt.prodMk (hp.continuousAt.prodMk hx.continuousAt)
    refine (diff_fixed hS (MoeBlock.usedStd cfg E) z mlp hmlp kept hk hp hx).congr_of_eventuallyEq ?_
    filter_upwards [hc.eventually hev] with θ hθ
    obtain ⟨m', hm'⟩ := hθ
    rw [hym θ] at hm'
    have := congrArg Prod.fst (Except.ok.inj hm')
    simp only [hbf, Bool.false_eq_true, if_false] at this
    exact this
  · intro g
    have hinj : ∀ s, Function.Injective (tokenGates S (kernel θ₀) (MoeBlock.usedStd cfg E) z (x θ₀) g s) := (hties hE g).1
    have d1 := diff_importance (θ₀ := θ₀) hS hE (fun θ => tokenGates S (kernel θ) 0 z (x θ) g)
      (fun s e => diff_gates hk hx 0 z g s e) fun θ s e => gates_pos _ _ _ _ _ _ _
    have d2 := diff_gshard (θ₀ := θ₀) hE (fun θ => tokenGates S (kernel θ) (MoeBlock.usedStd cfg E) z (x θ) g)
      (fun s e => diff_gates hk hx _ z g s e) hinj
    have hpos : ∀ (w : ℝ) (f : Θ → ℝ), DifferentiableAt ℝ f θ₀ → DifferentiableAt ℝ (fun θ => if 0 < w then w * f θ else 0) θ₀ := by
      intro w f hf
      split_ifs
      · exact hf.const_mul w
      · exact differentiableAt_const _
    have hm := fun θ => MoeBlock.C72_metrics fl cdf bf cfg S (kernel θ) z oob (params θ) mlp (x θ) _ _ (hym θ) hE g
    simp only at hm
    by_cases hd : cfg.deterministic = true ∨ cfg.noiseStd = 0
    · have hv : (fun θ => (m θ).auxiliaryLoss g) = fun θ =>
          (if 0 < cfg.gshardLossWeight then cfg.gshardLossWeight *
            Aux.gshardLoss hE (tokenGates S (kernel θ) (MoeBlock.usedStd cfg E) z (x θ) g) else 0) +
          (if 0 < cfg.importanceLossWeight then cfg.importanceLossWeight *
            Aux.importanceLoss (tokenGates S (kernel θ) 0 z (x θ) g) else 0) := by
        funext θ
        obtain ⟨a1, a2, a3, -⟩ := hm θ
        rw [(a3 hd).2, a1, a2]
      rw [hv]
      exact (hpos _ _ d2).add (hpos _ _ d1)
    · push Not at hd
      have hd1 : cfg.deterministic = false := by simpa using hd.1
      have hstd : MoeBlock.usedStd cfg E = cfg.noiseStd / E := by unfold MoeBlock.usedStd; rw [hd1]; simp
      have d3 := diff_load (θ₀ := θ₀) hS cdf hcdf hlt
        (fun θ (s : Fin S) (e : Fin E) => ∑ h, tokenOf (x θ) (g * S + s) h * kernel θ h e)
        (fun θ (s : Fin S) (e : Fin E) => ∑ h, tokenOf (x θ) (g * S + s) h * kernel θ h e + cfg.noiseStd / E * z g s e)
        (fun s e => diff_logits hk hx _ e) (fun s e => (diff_logits hk hx _ e).add_const _) (by
          intro s
          have := hinj s
          rw [hstd] at this
          exact weights_injective this) (cfg.noiseStd / E) h0 hKE
      have hv : (fun θ => (m θ).auxiliaryLoss g) = fun θ =>
          (if 0 < cfg.gshardLossWeight then cfg.gshardLossWeight *
            Aux.gshardLoss hE (tokenGates S (kernel θ) (MoeBlock.usedStd cfg E) z (x θ) g) else 0) +
          (if 0 < cfg.importanceLossWeight then cfg.importanceLossWeight *
            Aux.importanceLoss (tokenGates S (kernel θ) 0 z (x θ) g) else 0) +
          (if 0 < cfg.loadLossWeight then cfg.loadLossWeight *
            Aux.loadLoss cdf (fun (s : Fin S) (e : Fin E) => ∑ h, tokenOf (x θ) (g * S + s) h * kernel θ h e)
              (fun s e => ∑ h, tokenOf (x θ) (g * S + s) h * kernel θ h e + cfg.noiseStd / E * z g s e)
              (cfg.noiseStd / E) cfg.numSelected h0 hKE else 0) := by
        funext θ
        obtain ⟨a1, a2, -, a4⟩ := hm θ
        obtain ⟨load, -, s1, i1, j1, t1⟩ := a4 hd1 hd.2
        rw [s1, a1, a2, t1]
      rw [hv]
      exact ((hpos _ _ d2).add (hpos _ _ d1)).add (hpos _ _ d3)

/-- Expert choice: output near parameters without ties; the auxiliary loss is zero. -/
theorem items_diff (fl : ℚ → ℚ) (bf : ℝ → ℝ) (cfg : ExpertChoice.RouterConfig)
    (hbf : ∀ d, cfg.dispatcher = some d → d.bfloat16 ≠ some true) (z : Nat → Nat → Nat → ℝ)
    (mlp : P → (Fin H → ℝ) → Fin O → ℝ) (hmlp : Differentiable ℝ fun a : P × (Fin H → ℝ) => mlp a.1 a.2)
    {kernel : Θ → Fin H → Fin E → ℝ} {params : Θ → Fin E → P} {x : Θ → Fin B → Fin T → Fin H → ℝ}
    (hk : DifferentiableAt ℝ kernel θ₀) (hp : DifferentiableAt ℝ params θ₀) (hx : DifferentiableAt ℝ x θ₀) (res)
    (h : ExpertChoice.mlpMoeBlock fl bf cfg S (kernel θ₀) z (params θ₀) mlp (x θ₀) = .ok res)
    (hties : ∀ (g : Fin (B * T / S)) (e : Fin E), Function.Injective fun s =>
      tokenGates S (kernel θ₀) (ExpertChoice.sigma cfg E) z (x θ₀) g s e) :
    ∃ (y : Θ → Fin B → Fin T → Fin O → ℝ) (m : Θ → ExpertChoice.RouterOutput (B * T / S) S E),
      (∀ θ, ExpertChoice.mlpMoeBlock fl bf cfg S (kernel θ) z (params θ) mlp (x θ) = .ok (y θ, m θ)) ∧
      DifferentiableAt ℝ y θ₀ ∧ ∀ θ, (m θ).auxiliaryLoss = 0 := by
  obtain ⟨⟨hS, hdiv⟩, hE, d, hd, hname, hkeys, cap, hcap, hC⟩ := ExpertChoice.success h
  have hall := fun θ => ExpertChoice.C78_block_output fl bf cfg S (kernel θ) z (params θ) mlp (x θ) hS hdiv hE d hd cap hcap hname
    hC hkeys
  choose y m hym _ haux _ using hall
  refine ⟨y, m, hym, ?_, haux⟩
  obtain ⟨kept, hev⟩ := C131_items fl bf cfg d hd S hS (kernel θ₀) z (params θ₀) mlp (x θ₀) _ _ (hym θ₀)
    (fun b t e => hties ⟨_, group_lt hS hdiv (MoeBlock.tokenNumber_lt b t)⟩ e)
  have hc : ContinuousAt (fun θ => (kernel θ, params θ, x θ)) θ₀ :=
    hk.continuousAt.prodMk (hp.continuousAt.prodMk hx.continuousAt)
  refine (diff_fixed hS (ExpertChoice.sigma cfg E) z mlp hmlp kept hk hp hx).congr_of_eventuallyEq ?_
  filter_upwards [hc.eventually hev] with θ hθ
  obtain ⟨m', hm'⟩ := hθ
  rw [hym θ] at hm'
  have := congrArg Prod.fst (Except.ok.inj hm')
  simp only [if_neg (hbf d hd)] at this
  exact this

end block

section lists

variable {n c : Nat}

/-- A list of `n` values that depends on parameters and is differentiable at `θ₀`. -/
def DiffList {V : Type} [NormedAddCommGroup V] [NormedSpace ℝ V] (θ₀ : Θ) (n : Nat) (f : Θ → List V) : Prop :=
  ∃ h : Θ → Fin n → V, DifferentiableAt ℝ h θ₀ ∧ ∀ θ, f θ = List.ofFn (h θ)

theorem DiffList.map {V W : Type} [NormedAddCommGroup V] [NormedSpace ℝ V] [NormedAddCommGroup W] [NormedSpace ℝ W] {f : Θ → List V}
    (hf : DiffList θ₀ n f) (u : Θ → V → W) (hu : Differentiable ℝ fun q : Θ × V => u q.1 q.2) :
    DiffList θ₀ n fun θ => (f θ).map (u θ) := by
  obtain ⟨h, hd, he⟩ := hf
  refine ⟨fun θ i => u θ (h θ i), ?_, ?_⟩
  · refine differentiableAt_pi.2 fun i => ?_
    exact (hu (θ₀, h θ₀ i)).fun_comp' θ₀ (differentiableAt_id.prodMk (differentiableAt_pi.1 hd i))
  · intro θ
    simp only
    rw [he, List.map_ofFn]
    rfl

theorem zipWith_ofFn {V : Type} [Add V] (a b : Fin n → V) :
    List.zipWith (· + ·) (List.ofFn a) (List.ofFn b) = List.ofFn fun i => a i + b i := by
  apply List.ext_getElem
  · simp
  · intro i h1 h2
    simp

theorem DiffList.add {V : Type} [NormedAddCommGroup V] [NormedSpace ℝ V] {f g : Θ → List V} (hf : DiffList θ₀ n f)
    (hg : DiffList θ₀ n g) : DiffList θ₀ n fun θ => List.zipWith (· + ·) (f θ) (g θ) := by
  obtain ⟨h, hd, he⟩ := hf
  obtain ⟨h', hd', he'⟩ := hg
  refine ⟨fun θ i => h θ i + h' θ i, ?_, ?_⟩
  · exact differentiableAt_pi.2 fun i => (differentiableAt_pi.1 hd i).add (differentiableAt_pi.1 hd' i)
  · intro θ
    simp only
    rw [he, he', zipWith_ofFn]

theorem DiffList.length {V : Type} [NormedAddCommGroup V] [NormedSpace ℝ V] {f : Θ → List V} (hf : DiffList θ₀ n f) (θ : Θ) :
    (f θ).length = n := by
  obtain ⟨h, -, he⟩ := hf
  rw [he, List.length_ofFn]

theorem DiffList.sum {f : Θ → List ℝ} (hf : DiffList θ₀ n f) : DifferentiableAt ℝ (fun θ => (f θ).sum) θ₀ := by
  obtain ⟨h, hd, he⟩ := hf
  simp only [he, List.sum_ofFn]
  exact DifferentiableAt.fun_sum fun i _ => differentiableAt_pi.1 hd i

theorem mapM_diff {A V : Type} [NormedAddCommGroup V] [NormedSpace ℝ V] (u : Θ → A → Except PyErr V) (l : List A)
    (hu : ∀ a ∈ l, ∃ e : Θ → V, Differentiable ℝ e ∧ ∀ θ, u θ a = .ok (e θ)) :
    ∃ f : Θ → List V, (∀ θ, l.mapM (u θ) = .ok (f θ)) ∧ DiffList θ₀ l.length f := by
  have hu' : ∀ a, ∃ e : Θ → V, Differentiable ℝ e ∧ (a ∈ l → ∀ θ, u θ a = .ok (e θ)) := by
    intro a
    by_cases ha : a ∈ l
    · obtain ⟨e, h1, h2⟩ := hu a ha
      exact ⟨e, h1, fun _ => h2⟩
    · exact ⟨fun _ => 0, differentiable_const _, fun h => absurd h ha⟩
  choose e hd he using hu'
  refine ⟨fun θ => l.map fun a => e a θ, ?_, fun θ i => e (l.get i) θ, ?_, ?_⟩
  · intro θ
    have key : ∀ l' : List A, (∀ a ∈ l', a ∈ l) → l'.mapM (u θ) = .ok (l'.map fun a => e a θ) := by
      intro l' hl'
      induction l' with
      | nil => rfl
      | cons a l' ih =>
        rw [List.mapM_cons, he a (hl' a List.mem_cons_self) θ, ih fun b hb => hl' b (List.mem_cons_of_mem _ hb)]
        rfl
    exact key l fun a ha => ha
  · exact differentiableAt_pi.2 fun i => (hd _) θ₀
  · intro θ
    have h1 : List.map (fun a => e a θ) (List.ofFn l.get) = List.ofFn fun i => e (l.get i) θ := by
      rw [List.map_ofFn]
      rfl
    rw [List.ofFn_get] at h1
    exact h1

end lists

section layer

variable [NormedAddCommGroup P] [NormedSpace ℝ P] {c n : Nat}

/-- The gates of no group have ties, for the router of the layer. -/
def NoTiesAt (cfg : MoeConfig c P) (p : MoeParams c E P) {n : Nat} (x : Fin n → Seq T c) : Prop :=
  match cfg.router with
  | .topExperts r => ∀ (hE : 0 < E) (g : Fin (n * T / cfg.groupSize)), NoTies hE r.dispatcher.batchPriority
      (tokenGates cfg.groupSize p.kernel (MoeBlock.usedStd r E) p.z x g)
  | .topItems r => ∀ (g : Fin (n * T / cfg.groupSize)) (e : Fin E), Function.Injective fun s =>
      tokenGates cfg.groupSize p.kernel (ExpertChoice.sigma r E) p.z x g s e

/-- Nothing is rounded to bfloat16. -/
def Unrounded : Router → Prop
  | .topExperts r => r.dispatcher.bfloat16 = false
  | .topItems r => ∀ d, r.dispatcher = some d → d.bfloat16 ≠ some true

theorem list_fn {V : Type} {l : List V} {h : Fin n → V} (hl : l = List.ofFn h) :
    ∃ hn : l.length = n, h = fun i => l.get (i.cast hn.symm) := by
  subst hl
  refine ⟨List.length_ofFn, ?_⟩
  funext i
  simp

omit [NormedAddCommGroup P] [NormedSpace ℝ P] in
theorem layer_experts (cfg : MoeConfig c P) (r) (hr : cfg.router = .topExperts r) (p : MoeParams c E P) {l : List (Seq T c)}
    {h : Fin n → Seq T c} (hl : l = List.ofFn h) :
    moeLayer cfg p l = match MoeBlock.mlpMoeBlock cfg.fl cfg.cdf cfg.bf r cfg.groupSize p.kernel p.z cfg.oob p.experts cfg.mlp h with
      | .error err => .error err
      | .ok (y, m) => .ok (List.ofFn y, .topExperts _ m) := by
  obtain ⟨hn, rfl⟩ := list_fn hl
  subst hn
  unfold moeLayer
  rw [hr]
  simp only
  rcases hq : MoeBlock.mlpMoeBlock cfg.fl cfg.cdf cfg.bf r cfg.groupSize p.kernel p.z cfg.oob p.experts cfg.mlp l.get with err | ⟨y, m⟩
  · rw [show (fun i => l.get (Fin.cast rfl i)) = l.get from rfl, hq]
  · rw [show (fun i => l.get (Fin.cast rfl i)) = l.get from rfl, hq]

omit [NormedAddCommGroup P] [NormedSpace ℝ P] in
theorem layer_items (cfg : MoeConfig c P) (r) (hr : cfg.router = .topItems r) (p : MoeParams c E P) {l : List (Seq T c)}
    {h : Fin n → Seq T c} (hl : l = List.ofFn h) :
    moeLayer cfg p l = match ExpertChoice.mlpMoeBlock cfg.fl cfg.bf r cfg.groupSize p.kernel p.z p.experts cfg.mlp h with
      | .error err => .error err
      | .ok (y, m) => .ok (List.ofFn y, .topItems _ _ _ m) := by
  obtain ⟨hn, rfl⟩ := list_fn hl
  subst hn
  unfold moeLayer
  rw [hr]
  simp only
  rcases hq : ExpertChoice.mlpMoeBlock cfg.fl cfg.bf r cfg.groupSize p.kernel p.z p.experts cfg.mlp l.get with err | ⟨y, m⟩
  · rw [show (fun i => l.get (Fin.cast rfl i)) = l.get from rfl, hq]
  · rw [show (fun i => l.get (Fin.cast rfl i)) = l.get from rfl, hq]

omit [NormedAddCommGroup P] [NormedSpace ℝ P] in
theorem noTies_fn (cfg : MoeConfig c P) (p : MoeParams c E P) {l : List (Seq T c)} {h : Fin n → Seq T c} (hl : l = List.ofFn h)
    (ht : NoTiesAt cfg p l.get) : NoTiesAt cfg p h := by
  obtain ⟨hn, rfl⟩ := list_fn hl
  subst hn
  exact ht

/-- A MoE layer near parameters without ties. -/
theorem layer_diff (cfg : MoeConfig c P) (hbf : Unrounded cfg.router) (hcdf : Differentiable ℝ cfg.cdf) (hlt : ∀ a, cfg.cdf a < 1)
    (hmlp : Differentiable ℝ fun a : P × (Fin c → ℝ) => cfg.mlp a.1 a.2) (z : Nat → Nat → Nat → ℝ)
    {kernel : Θ → Fin c → Fin E → ℝ} {experts : Θ → Fin E → P} (hk : DifferentiableAt ℝ kernel θ₀)
    (hp : DifferentiableAt ℝ experts θ₀) {f : Θ → List (Seq T c)} (hf : DiffList θ₀ n f) (res)
    (h : moeLayer cfg ⟨kernel θ₀, experts θ₀, z⟩ (f θ₀) = .ok res) (ht : NoTiesAt cfg ⟨kernel θ₀, experts θ₀, z⟩ (f θ₀).get) :
    ∃ (y : Θ → List (Seq T c)) (m : Θ → LayerMetrics), (∀ θ, moeLayer cfg ⟨kernel θ, experts θ, z⟩ (f θ) = .ok (y θ, m θ)) ∧
      DiffList θ₀ n y ∧ DifferentiableAt ℝ (fun θ => meanAux (m θ)) θ₀ := by
  obtain ⟨x, hx, he⟩ := hf
  have ht' := noTies_fn cfg _ (he θ₀) ht
  unfold NoTiesAt at ht'
  unfold Unrounded at hbf
  rcases hr : cfg.router with r | r
  · rw [hr] at ht' hbf
    simp only at ht' hbf
    rw [layer_experts cfg r hr _ (he θ₀)] at h
    split at h
    · cases h
    rename_i y0 m0 h0
    obtain ⟨y, m, hym, hy, hm⟩ := experts_diff (θ₀ := θ₀) cfg.fl cfg.cdf cfg.bf r hbf hcdf hlt z cfg.oob cfg.mlp hmlp hk hp hx _ h0 ht'
    refine ⟨fun θ => List.ofFn (y θ), fun θ => .topExperts _ (m θ), ?_, ⟨y, hy, fun _ => rfl⟩, ?_⟩
    · intro θ
      rw [layer_experts cfg r hr _ (he θ), hym θ]
    · unfold meanAux
      exact diff_div_const (DifferentiableAt.fun_sum fun g _ => hm g) _
  · rw [hr] at ht' hbf
    simp only at ht' hbf
    rw [layer_items cfg r hr _ (he θ₀)] at h
    split at h
    · cases h
    rename_i y0 m0 h0
    obtain ⟨y, m, hym, hy, hm⟩ := items_diff (θ₀ := θ₀) cfg.fl cfg.bf r hbf z cfg.mlp hmlp hk hp hx _ h0 ht'
    refine ⟨fun θ => List.ofFn (y θ), fun θ => .topItems _ _ _ (m θ), ?_, ⟨y, hy, fun _ => rfl⟩, ?_⟩
    · intro θ
      rw [layer_items cfg r hr _ (he θ), hym θ]
    · unfold meanAux
      simp only [hm]
      exact differentiableAt_const _

end layer

section loop

variable [NormedAddCommGroup P] [NormedSpace ℝ P] {c n : Nat}

/-- Metrics of layers whose auxiliary losses are differentiable at `θ₀`. -/
def DiffMetrics (θ₀ : Θ) (d : Θ → PyDict (List Char) LayerMetrics) : Prop :=
  ∃ q : List (List Char × (Θ → LayerMetrics)), (∀ e ∈ q, DifferentiableAt ℝ (fun θ => meanAux (e.2 θ)) θ₀) ∧
    ∀ θ, d θ = q.map fun e => (e.1, e.2 θ)

theorem DiffMetrics.set {d : Θ → PyDict (List Char) LayerMetrics} (hd : DiffMetrics θ₀ d) (k : List Char) {m : Θ → LayerMetrics}
    (hm : DifferentiableAt ℝ (fun θ => meanAux (m θ)) θ₀) : DiffMetrics θ₀ fun θ => (d θ).set k (m θ) := by
  obtain ⟨q, hq, he⟩ := hd
  refine ⟨PyDict.set q k m, ?_, ?_⟩
  · intro e h
    rcases mem_set _ _ _ _ h with h | h
    · exact hq e h
    · rw [h]; exact hm
  · intro θ
    simp only
    rw [he]
    exact set_map (fun v : Θ → LayerMetrics => v θ) q k m

theorem DiffMetrics.total {d : Θ → PyDict (List Char) LayerMetrics} (hd : DiffMetrics θ₀ d) :
    DifferentiableAt ℝ (fun θ => auxiliary (finalMetrics meanAux (d θ))) θ₀ := by
  obtain ⟨q, hq, he⟩ := hd
  simp only [auxiliary_final, he, List.map_map]
  clear he
  induction q with
  | nil => exact differentiableAt_const _
  | cons e q ih =>
    simp only [List.map_cons, List.sum_cons]
    exact (hq e List.mem_cons_self).add (ih fun e' he' => hq e' (List.mem_cons_of_mem _ he'))

/-- In no MoE layer of the remaining blocks the gates have ties. -/
def NoTiesAlong (cfg : MoeConfig c P) (params : Nat → MoeParams c E P) (blocks : Nat → BlockFns (Seq T c))
    (dense : Nat → Seq T c → Seq T c) (moeLayers : List Int) : List Nat → List (Seq T c) → Prop
  | [], _ => True
  | b :: rest, x =>
    if (b : Int) ∈ moeLayers then
      NoTiesAt cfg (params b) ((attention (blocks b) x).map (blocks b).norm).get ∧
        ∀ y m, moeBlock (blocks b) (moeLayer cfg (params b)) x = .ok (y, m) →
          NoTiesAlong cfg params blocks dense moeLayers rest y
    else NoTiesAlong cfg params blocks dense moeLayers rest (denseBlock (blocks b) (dense b) x)

theorem loop_diff (cfg : MoeConfig c P) (hbf : Unrounded cfg.router) (hcdf : Differentiable ℝ cfg.cdf) (hlt : ∀ a, cfg.cdf a < 1)
    (hmlp : Differentiable ℝ fun a : P × (Fin c → ℝ) => cfg.mlp a.1 a.2) (z : Nat → Nat → Nat → Nat → ℝ)
    {kernel : Θ → Nat → Fin c → Fin E → ℝ} {experts : Θ → Nat → Fin E → P} (hk : ∀ i, Differentiable ℝ fun θ => kernel θ i)
    (hp : ∀ i, Differentiable ℝ fun θ => experts θ i) {blocks : Θ → Nat → BlockFns (Seq T c)} {dense : Θ → Nat → Seq T c → Seq T c}
    (hattn : ∀ i, Differentiable ℝ fun q : Θ × Seq T c => (blocks q.1 i).attn q.2)
    (hnorm : ∀ i, Differentiable ℝ fun q : Θ × Seq T c => (blocks q.1 i).norm q.2)
    (hdense : ∀ i, Differentiable ℝ fun q : Θ × Seq T c => dense q.1 i q.2) (ids : List Int) (l : List Nat) :
    ∀ (f : Θ → List (Seq T c)) (d : Θ → PyDict (List Char) LayerMetrics), DiffList θ₀ n f → DiffMetrics θ₀ d → ∀ res,
      loop ⟨blocks θ₀, dense θ₀, fun i => moeLayer cfg ⟨kernel θ₀ i, experts θ₀ i, z i⟩⟩ ids l (f θ₀) (d θ₀) = .ok res →
      NoTiesAlong cfg (fun i => ⟨kernel θ₀ i, experts θ₀ i, z i⟩) (blocks θ₀) (dense θ₀) ids l (f θ₀) →
      ∃ (y : Θ → List (Seq T c)) (m : Θ → PyDict (List Char) LayerMetrics),
        (∀ θ, loop ⟨blocks θ, dense θ, fun i => moeLayer cfg ⟨kernel θ i, experts θ i, z i⟩⟩ ids l (f θ) (d θ) = .ok (y θ, m θ)) ∧
        DiffList θ₀ n y ∧ DiffMetrics θ₀ m := by
  induction l with
  | nil =>
    intro f d hf hd res _ _
    exact ⟨f, d, fun θ => by rw [loop], hf, hd⟩
  | cons b rest ih =>
    intro f d hf hd res h ht
    have hatt : DiffList θ₀ n fun θ => attention (blocks θ b) (f θ) :=
      hf.map (fun θ v => (blocks θ b).attn v + v) ((hattn b).add differentiable_snd)
    have hno : DiffList θ₀ n fun θ => (attention (blocks θ b) (f θ)).map (blocks θ b).norm :=
      hatt.map (fun θ v => (blocks θ b).norm v) (hnorm b)
    rw [loop] at h
    unfold NoTiesAlong at ht
    by_cases hb : (b : Int) ∈ ids
    · rw [if_pos hb] at h ht
      obtain ⟨ht1, ht2⟩ := ht
      simp only at h
      split at h
      · cases h
      rename_i x1 m1 e1
      have e1' := e1
      unfold moeBlock at e1'
      simp only at e1'
      split at e1'
      · cases e1'
      rename_i x2 m2 e2
      obtain ⟨y, m, hym, hy, hm⟩ := layer_diff (θ₀ := θ₀) cfg hbf hcdf hlt hmlp (z b) ((hk b) θ₀) ((hp b) θ₀) hno _ e2 ht1
      have hblock : ∀ θ, moeBlock (blocks θ b) (moeLayer cfg ⟨kernel θ b, experts θ b, z b⟩) (f θ) =
          .ok (List.zipWith (· + ·) (attention (blocks θ b) (f θ)) (y θ), m θ) := by
        intro θ
        unfold moeBlock
        simp only
        rw [hym θ]
      have h0 := hblock θ₀
      rw [e1] at h0
      cases h0
      obtain ⟨y', m', hym', hy', hm'⟩ := ih (fun θ => List.zipWith (· + ·) (attention (blocks θ b) (f θ)) (y θ))
        (fun θ => (d θ).set (blockName b) (m θ)) (hatt.add hy) (hd.set (blockName b) hm) _ h (ht2 _ _ e1)
      refine ⟨y', m', ?_, hy', hm'⟩
      intro θ
      rw [loop, if_pos hb]
      simp only
      rw [hblock θ]
      exact hym' θ
    · rw [if_neg hb] at h ht
      obtain ⟨y', m', hym', hy', hm'⟩ := ih (fun θ => denseBlock (blocks θ b) (dense θ b) (f θ)) d
        (hatt.add (hno.map (fun θ v => dense θ b v) (hdense b))) hd _ h ht
      refine ⟨y', m', ?_, hy', hm'⟩
      intro θ
      rw [loop, if_neg hb]
      exact hym' θ

end loop

end Verif.ModelGradient
