import Verif.Props.SoftRouter
import Mathlib.Analysis.SpecialFunctions.ExpDeriv
import Mathlib.Analysis.SpecialFunctions.Sqrt
import Mathlib.Analysis.SpecialFunctions.Log.Deriv
import Mathlib.Analysis.Calculus.ContDiff.Operations

/-!
C156: the soft MoE layer is smooth in all its parameters, and every expert and every item takes part in its gradients
(vmoe/projects/soft_moe/router.py).
-/

namespace Verif.SoftRouter

open Verif Verif.Moe

variable {G m d n p : Nat} {W P : Type}

/-- Parameters and inputs of a layer: experts, scale, vectors of the slots and items. -/
abbrev Args (G m d n p : Nat) (P : Type) := (Fin n → P) × ℝ × (Fin d → Fin n → Fin p → ℝ) × (Fin G → Fin m → Fin d → ℝ)

/-- The stored parameter `mu` with given entries. -/
noncomputable def muOf (u : Fin d → Fin n → Fin p → ℝ) : Mu :=
  ⟨d, n, p, fun i j k => if h : i < d ∧ j < n ∧ k < p then u ⟨i, h.1⟩ ⟨j, h.2.1⟩ ⟨k, h.2.2⟩ else 0⟩

/-- The logits of the items of a group. -/
noncomputable def slotLogits (eps scale : ℝ) (u : Fin n → Fin p → Fin d → ℝ) (z : Fin m → Fin n → Fin p → ℝ)
    (x : Fin m → Fin d → ℝ) (i : Fin m) (q : Fin n × Fin p) : ℝ := scale * cosine eps (x i) (u q.1 q.2) + z i q.1 q.2

/-- What a slot takes in. -/
noncomputable def slotInput (l : Fin m → Fin n × Fin p → ℝ) (x : Fin m → Fin d → ℝ) (q : Fin n × Fin p) : Fin d → ℝ :=
  ∑ i, share (fun i => l i q) i • x i

theorem share_contDiff {E : Type} [NormedAddCommGroup E] [NormedSpace ℝ E] {ι : Type} [Fintype ι] {k : ℕ∞} (l : E → ι → ℝ)
    (hl : ∀ i, ContDiff ℝ k fun θ => l θ i) (i : ι) : ContDiff ℝ k fun θ => share (l θ) i := by
  unfold share
  refine ContDiff.div ((hl i).exp) (ContDiff.sum fun j _ => (hl j).exp) fun θ => ?_
  exact (Finset.sum_pos (fun j _ => Real.exp_pos _) ⟨i, Finset.mem_univ i⟩).ne'

theorem cosine_contDiff {E : Type} [NormedAddCommGroup E] [NormedSpace ℝ E] {k : ℕ∞} (eps : ℝ) (he : 0 < eps)
    (a b : E → Fin d → ℝ) (ha : ∀ c, ContDiff ℝ k fun θ => a θ c) (hb : ∀ c, ContDiff ℝ k fun θ => b θ c) :
    ContDiff ℝ k fun θ => cosine eps (a θ) (b θ) := by
  have hpos : ∀ v : Fin d → ℝ, 0 < (∑ c, v c ^ 2) + eps := fun v =>
    add_pos_of_nonneg_of_pos (Finset.sum_nonneg fun c _ => sq_nonneg _) he
  unfold cosine
  refine ContDiff.div (ContDiff.sum fun c _ => (ha c).mul (hb c)) (ContDiff.mul ?_ ?_) fun θ => ?_
  · exact ContDiff.sqrt ((ContDiff.sum fun c _ => (ha c).pow 2).add contDiff_const) fun θ => (hpos _).ne'
  · exact ContDiff.sqrt ((ContDiff.sum fun c _ => (hb c).pow 2).add contDiff_const) fun θ => (hpos _).ne'
  · have h1 := Real.sqrt_pos.2 (hpos (a θ))
    have h2 := Real.sqrt_pos.2 (hpos (b θ))
    positivity

variable [NormedAddCommGroup W] [NormedSpace ℝ W]

/-- C156: if what the experts compute is `k` times continuously differentiable, the output of the whole layer is, in the parameters of
the experts, the scale, the vectors of the slots and the items together, everywhere: unlike with routers that select, there are no
ties. -/
theorem C156_smooth [NormedAddCommGroup P] [NormedSpace ℝ P] {k : ℕ∞} (fl : ℚ → ℚ) (eps : ℝ) (he : 0 < eps) (cfg : Config)
    (rng : Option Normal) (hp : numSlots fl cfg m = .ok p) (hr : cfg.deterministic = false → 0 < cfg.noiseStd → rng ≠ none)
    (f : P → (Fin d → ℝ) → W) (hf : ContDiff ℝ k fun q : P × (Fin d → ℝ) => f q.1 q.2) :
    ∃ F : Args G m d cfg.numExperts p P → Fin G → Fin m → W,
      (∀ θ, layer fl eps cfg (muOf θ.2.2.1) θ.2.1 rng θ.1 f θ.2.2.2 = .ok (F θ)) ∧ ContDiff ℝ k F := by
  refine ⟨_, fun θ => (C100_layer fl eps cfg (muOf θ.2.2.1) θ.2.1 rng θ.1 f θ.2.2.2 _).2
    ⟨p, hp, rfl, rfl, rfl, hr, fun _ _ => rfl⟩, ?_⟩
  refine contDiff_pi.2 fun g => contDiff_pi.2 fun s => ?_
  have hx : ∀ i c, ContDiff ℝ k fun θ : Args G m d cfg.numExperts p P => θ.2.2.2 g i c := fun i c => by fun_prop
  have hu : ∀ (j : Fin cfg.numExperts) (q : Fin p) (c : Fin d),
      ContDiff ℝ k fun θ : Args G m d cfg.numExperts p P => (muOf θ.2.2.1).val c j q := by
    intro j q c
    have : (fun θ : Args G m d cfg.numExperts p P => (muOf θ.2.2.1).val c j q) = fun θ => θ.2.2.1 c j q := by
      funext θ
      simp [muOf]
    rw [this]
    fun_prop
  have hl : ∀ (i : Fin m) (q : Fin cfg.numExperts × Fin p) (z : ℝ), ContDiff ℝ k fun θ : Args G m d cfg.numExperts p P =>
      θ.2.1 * cosine eps (θ.2.2.2 g i) (fun c => (muOf θ.2.2.1).val c q.1 q.2) + z := by
    intro i q z
    refine ContDiff.add (ContDiff.mul (by fun_prop) ?_) contDiff_const
    exact cosine_contDiff eps he (fun θ : Args G m d cfg.numExperts p P => θ.2.2.2 g i) _ (hx i) (hu q.1 q.2)
  unfold output
  refine ContDiff.sum fun q _ => ContDiff.smul ?_ ?_
  · exact share_contDiff _ (fun q => hl s q _) q
  · have h1 : ContDiff ℝ k fun θ : Args G m d cfg.numExperts p P => θ.1 q.1 := by fun_prop
    have h2 : ∀ i : Fin m, ContDiff ℝ k fun θ : Args G m d cfg.numExperts p P => θ.2.2.2 g i := fun i => by fun_prop
    have h3 : ∀ z : Fin m → ℝ, ContDiff ℝ k fun θ : Args G m d cfg.numExperts p P =>
        ∑ i, share (fun i => θ.2.1 * cosine eps (θ.2.2.2 g i) (fun c => (muOf θ.2.2.1).val c q.1 q.2) + z i) i • θ.2.2.2 g i :=
      fun z => ContDiff.sum fun i _ => ContDiff.smul (share_contDiff _ (fun i => hl i q (z i)) i) (h2 i)
    exact hf.comp (h1.prodMk (h3 fun i => if cfg.deterministic = false ∧ 0 < cfg.noiseStd then noiseOf cfg rng g i q.1 q.2 else 0))

/-- The output for an item in terms of the logits. -/
theorem output_eq (eps scale : ℝ) (u : Fin n → Fin p → Fin d → ℝ) (z : Fin m → Fin n → Fin p → ℝ) (params : Fin n → P)
    (f : P → (Fin d → ℝ) → W) (x : Fin m → Fin d → ℝ) (s : Fin m) :
    output eps scale u z params f x s = ∑ q, share (slotLogits eps scale u z x s) q •
      f (params q.1) (slotInput (slotLogits eps scale u z x) x q) := rfl

/-- How the outputs follow an expert: if what expert `e` computes for a vector changes by `f'` of the vector, every item of the
group changes by the changes in all slots of the expert, weighted by the shares of the slots in the item. -/
theorem expert_deriv (eps scale : ℝ) (u : Fin n → Fin p → Fin d → ℝ) (z : Fin m → Fin n → Fin p → ℝ) (params : Fin n → P)
    (f : P → (Fin d → ℝ) → W) (x : Fin m → Fin d → ℝ) (s : Fin m) (e : Fin n) (c : ℝ → P) (f' : (Fin d → ℝ) → W)
    (hf : ∀ v, HasDerivAt (fun t => f (c t) v) (f' v) 0) :
    HasDerivAt (fun t => output eps scale u z (Function.update params e (c t)) f x s)
      (∑ i : Fin p, share (slotLogits eps scale u z x s) (e, i) • f' (slotInput (slotLogits eps scale u z x) x (e, i))) 0 := by
  classical
  have hsum : HasDerivAt (fun t => output eps scale u z (Function.update params e (c t)) f x s)
      (∑ q : Fin n × Fin p, share (slotLogits eps scale u z x s) q •
        (if q.1 = e then f' (slotInput (slotLogits eps scale u z x) x q) else 0)) 0 := by
    unfold output
    refine HasDerivAt.fun_sum fun q _ => HasDerivAt.const_smul _ ?_
    by_cases hq : q.1 = e
    · rw [hq]
      simp only [Function.update_self, if_true]
      exact hf _
    · simp only [Function.update_of_ne hq, if_neg hq]
      exact hasDerivAt_const _ _
  refine hsum.congr_deriv ?_
  rw [Fintype.sum_prod_type, Finset.sum_eq_single e]
  · simp
  · intro j _ hj
    simp [hj]
  · intro h
    exact absurd (Finset.mem_univ e) h

theorem share_pos {ι : Type} [Fintype ι] (l : ι → ℝ) (i : ι) : 0 < share l i :=
  div_pos (Real.exp_pos _) (Finset.sum_pos (fun _ _ => Real.exp_pos _) ⟨i, Finset.mem_univ i⟩)

theorem cosine_abs_le (eps : ℝ) (he : 0 < eps) (a b : Fin d → ℝ) : |cosine eps a b| ≤ 1 := by
  have hA : 0 ≤ ∑ c, a c ^ 2 := Finset.sum_nonneg fun c _ => sq_nonneg _
  have hB : 0 ≤ ∑ c, b c ^ 2 := Finset.sum_nonneg fun c _ => sq_nonneg _
  have hpos : 0 < Real.sqrt ((∑ c, a c ^ 2) + eps) * Real.sqrt ((∑ c, b c ^ 2) + eps) :=
    mul_pos (Real.sqrt_pos.2 (by linarith)) (Real.sqrt_pos.2 (by linarith))
  unfold cosine
  rw [abs_div, abs_of_pos hpos, div_le_one hpos, ← Real.sqrt_mul (by linarith)]
  refine Real.abs_le_sqrt ?_
  refine le_trans (Finset.sum_mul_sq_le_sq_mul_sq Finset.univ a b) ?_
  exact mul_le_mul (by linarith) (by linarith) hB (by linarith)

/-- Shares of logits that differ little are not small. -/
theorem share_lower {ι : Type} [Fintype ι] (l : ι → ℝ) (r : ℝ) (h : ∀ i, |l i| ≤ r) (i : ι) :
    Real.exp (-(2 * r)) / Fintype.card ι ≤ share l i := by
  have hc : 0 < (Fintype.card ι : ℝ) := by exact_mod_cast Fintype.card_pos_iff.2 ⟨i⟩
  have hs : ∑ j, Real.exp (l j) ≤ Fintype.card ι * Real.exp r := by
    calc _ ≤ ∑ _j : ι, Real.exp r := Finset.sum_le_sum fun j _ => Real.exp_le_exp.2 (abs_le.1 (h j)).2
      _ = _ := by simp
  have hpos : 0 < ∑ j, Real.exp (l j) := Finset.sum_pos (fun _ _ => Real.exp_pos _) ⟨i, Finset.mem_univ i⟩
  unfold share
  rw [div_le_div_iff₀ hc hpos]
  calc Real.exp (-(2 * r)) * ∑ j, Real.exp (l j) ≤ Real.exp (-(2 * r)) * (Fintype.card ι * Real.exp r) :=
        mul_le_mul_of_nonneg_left hs (Real.exp_pos _).le
    _ = Real.exp (-r) * Fintype.card ι := by
        rw [mul_comm (Fintype.card ι : ℝ), ← mul_assoc, ← Real.exp_add]
        congr 2
        ring
    _ ≤ Real.exp (l i) * Fintype.card ι := by
        refine mul_le_mul_of_nonneg_right (Real.exp_le_exp.2 ?_) hc.le
        linarith [(abs_le.1 (h i)).1]

/-- No expert is idle: a constant change `w` of what an expert computes (such as of the last bias) moves every item in the
direction `w`, by a share that is positive for any parameters, and without noise at least `exp (-2 |scale|)` over the number of
experts. -/
theorem no_idle_expert (hp : 0 < p) (eps scale : ℝ) (he : 0 < eps) (u : Fin n → Fin p → Fin d → ℝ)
    (z : Fin m → Fin n → Fin p → ℝ) (params : Fin n → P) (f : P → (Fin d → ℝ) → W) (x : Fin m → Fin d → ℝ) (s : Fin m) (e : Fin n)
    (c : ℝ → P) (w : W) (hf : ∀ v, HasDerivAt (fun t => f (c t) v) w 0) :
    ∃ a > 0, HasDerivAt (fun t => output eps scale u z (Function.update params e (c t)) f x s) (a • w) 0 ∧
      ((∀ i j k, z i j k = 0) → Real.exp (-(2 * |scale|)) / n ≤ a) := by
  refine ⟨∑ i : Fin p, share (slotLogits eps scale u z x s) (e, i), ?_, ?_, ?_⟩
  · exact Finset.sum_pos (fun i _ => share_pos _ _) ⟨⟨0, hp⟩, Finset.mem_univ _⟩
  · rw [Finset.sum_smul]
    exact expert_deriv eps scale u z params f x s e c (fun _ => w) hf
  · intro hz
    have hb : ∀ q, |slotLogits eps scale u z x s q| ≤ |scale| := by
      intro q
      unfold slotLogits
      rw [hz, add_zero, abs_mul]
      exact mul_le_of_le_one_right (abs_nonneg _) (cosine_abs_le eps he _ _)
    have hn : (0 : ℝ) < n := by exact_mod_cast e.pos
    have hp' : (0 : ℝ) < p := by exact_mod_cast hp
    calc _ = ∑ _i : Fin p, Real.exp (-(2 * |scale|)) / Fintype.card (Fin n × Fin p) := by
          simp
          field_simp
      _ ≤ _ := Finset.sum_le_sum fun i _ => share_lower _ _ hb _

/-- The noise of a group of the layer. -/
noncomputable def groupNoise (cfg : Config) (rng : Option Normal) (g : Fin G) (i : Fin m) (j : Fin n) (k : Fin p) : ℝ :=
  if cfg.deterministic = false ∧ 0 < cfg.noiseStd then noiseOf cfg rng g i j k else 0

/-- C156: how the outputs follow an expert: if what expert `e` computes for a vector changes by `f'` of the vector, every item of every
group changes by the changes in all slots of the expert for the group, weighted by the shares of the slots in the item. -/
theorem C156_expert (fl : ℚ → ℚ) (eps : ℝ) (cfg : Config) (mu : Mu) (scale : ℝ) (rng : Option Normal)
    (params : Fin cfg.numExperts → P) (f : P → (Fin d → ℝ) → W) (x : Fin G → Fin m → Fin d → ℝ) (hp : numSlots fl cfg m = .ok mu.slots)
    (hd : mu.dim = d) (hn : mu.experts = cfg.numExperts) (hr : cfg.deterministic = false → 0 < cfg.noiseStd → rng ≠ none)
    (e : Fin cfg.numExperts) (c : ℝ → P) (f' : (Fin d → ℝ) → W) (hf : ∀ v, HasDerivAt (fun t => f (c t) v) (f' v) 0) :
    ∃ y : ℝ → Fin G → Fin m → W, (∀ t, layer fl eps cfg mu scale rng (Function.update params e (c t)) f x = .ok (y t)) ∧
      ∀ g s, let l := slotLogits eps scale (fun j (k : Fin mu.slots) i => mu.val i j k) (groupNoise cfg rng g) (x g)
        HasDerivAt (fun t => y t g s) (∑ i : Fin mu.slots, share (l s) (e, i) • f' (slotInput l (x g) (e, i))) 0 := by
  refine ⟨_, fun t => (C100_layer fl eps cfg mu scale rng _ f x _).2 ⟨_, hp, hd, hn, rfl, hr, fun _ _ => rfl⟩, fun g s => ?_⟩
  exact expert_deriv eps scale _ _ params f (x g) s e c f' hf

/-- C156: no expert is idle: a constant change `w` of what an expert computes (such as of the last bias) moves every item of every group
in the direction `w`, by a share that is positive for any parameters, and without noise at least `exp (-2 |scale|)` over the number
of experts. -/
theorem C156_no_idle_expert (fl : ℚ → ℚ) (eps : ℝ) (he : 0 < eps) (cfg : Config) (mu : Mu) (scale : ℝ) (rng : Option Normal)
    (params : Fin cfg.numExperts → P) (f : P → (Fin d → ℝ) → W) (x : Fin G → Fin m → Fin d → ℝ) (hp : numSlots fl cfg m = .ok mu.slots)
    (hs : 0 < mu.slots) (hd : mu.dim = d) (hn : mu.experts = cfg.numExperts)
    (hr : cfg.deterministic = false → 0 < cfg.noiseStd → rng ≠ none) (e : Fin cfg.numExperts) (c : ℝ → P) (w : W)
    (hf : ∀ v, HasDerivAt (fun t => f (c t) v) w 0) :
    ∃ y : ℝ → Fin G → Fin m → W, (∀ t, layer fl eps cfg mu scale rng (Function.update params e (c t)) f x = .ok (y t)) ∧
      ∀ g s, ∃ a > 0, HasDerivAt (fun t => y t g s) (a • w) 0 ∧
        (cfg.deterministic = true ∨ cfg.noiseStd ≤ 0 → Real.exp (-(2 * |scale|)) / cfg.numExperts ≤ a) := by
  refine ⟨_, fun t => (C100_layer fl eps cfg mu scale rng _ f x _).2 ⟨_, hp, hd, hn, rfl, hr, fun _ _ => rfl⟩, fun g s => ?_⟩
  obtain ⟨a, ha, h1, h2⟩ := no_idle_expert hs eps scale he (fun j (k : Fin mu.slots) i => mu.val i j k)
    (groupNoise cfg rng g) params f (x g) s e c w hf
  refine ⟨a, ha, h1, fun h => h2 fun i j k => ?_⟩
  unfold groupNoise
  rw [if_neg]
  rintro ⟨hd, hpos⟩
  rcases h with h | h
  · rw [hd] at h
    exact absurd h (by decide)
  · exact absurd hpos (not_lt.2 h)

theorem share_deriv {ι : Type} [Fintype ι] (l : ℝ → ι → ℝ) (l' : ι → ℝ) (h : ∀ i, HasDerivAt (fun t => l t i) (l' i) 0) (i : ι) :
    HasDerivAt (fun t => share (l t) i) (share (l 0) i * (l' i - ∑ j, share (l 0) j * l' j)) 0 := by
  have hs : HasDerivAt (fun t => ∑ j, Real.exp (l t j)) (∑ j, Real.exp (l 0 j) * l' j) 0 :=
    HasDerivAt.fun_sum fun j _ => (h j).exp
  have hpos : ∑ j, Real.exp (l 0 j) ≠ 0 := (Finset.sum_pos (fun _ _ => Real.exp_pos _) ⟨i, Finset.mem_univ i⟩).ne'
  unfold share
  refine ((h i).exp.fun_div hs hpos).congr_deriv ?_
  have e : ∑ j, Real.exp (l 0 j) / (∑ j, Real.exp (l 0 j)) * l' j = (∑ j, Real.exp (l 0 j) * l' j) / ∑ j, Real.exp (l 0 j) := by
    rw [Finset.sum_div]
    exact Finset.sum_congr rfl fun j _ => by ring
  rw [e]
  field_simp

/-- C156: what the router learns from: when the logits of a group move, the output of an item changes by the outputs of the slots less
the output of the item, each by its share and the change of its logit, and by what the experts make of the changes of the slots:
the items less the content of the slot, each by its share and the change of its logit. -/
theorem C156_router (l : ℝ → Fin G → Fin m → Fin n → Fin p → ℝ) (l' : Fin G → Fin m → Fin n → Fin p → ℝ) (params : Fin n → P)
    (f : P → (Fin d → ℝ) → W) (x : Fin G → Fin m → Fin d → ℝ) (g : Fin G) (s : Fin m)
    (hl : ∀ g i j k, HasDerivAt (fun t => l t g i j k) (l' g i j k) 0) (f' : Fin n × Fin p → (Fin d → ℝ) →L[ℝ] W)
    (hf : ∀ q, HasFDerivAt (f (params q.1)) (f' q) (slotInput (fun i q => l 0 g i q.1 q.2) (x g) q)) :
    HasDerivAt (fun t => Soft.softMoe (l t) params f x g s)
      ((∑ q : Fin n × Fin p, (share (fun q : Fin n × Fin p => l 0 g s q.1 q.2) q * l' g s q.1 q.2) •
          (f (params q.1) (slotInput (fun i q => l 0 g i q.1 q.2) (x g) q) - Soft.softMoe (l 0) params f x g s)) +
        ∑ q : Fin n × Fin p, share (fun q : Fin n × Fin p => l 0 g s q.1 q.2) q •
          f' q (∑ i, (share (fun i => l 0 g i q.1 q.2) i * l' g i q.1 q.2) •
            (x g i - slotInput (fun i q => l 0 g i q.1 q.2) (x g) q))) 0 := by
  have hfun : (fun t => Soft.softMoe (l t) params f x g s) = fun t => ∑ q : Fin n × Fin p,
      share (fun q : Fin n × Fin p => l t g s q.1 q.2) q • f (params q.1) (∑ i, share (fun i => l t g i q.1 q.2) i • x g i) := by
    funext t
    exact softMoe_eq (l t) params f x g s
  rw [hfun]
  have hin : ∀ q : Fin n × Fin p, HasDerivAt (fun t => ∑ i, share (fun i => l t g i q.1 q.2) i • x g i)
      (∑ i, (share (fun i => l 0 g i q.1 q.2) i * l' g i q.1 q.2) • (x g i - slotInput (fun i q => l 0 g i q.1 q.2) (x g) q)) 0 := by
    intro q
    have h1 : HasDerivAt (fun t => ∑ i, share (fun i => l t g i q.1 q.2) i • x g i)
        (∑ i, (share (fun i => l 0 g i q.1 q.2) i * (l' g i q.1 q.2 - ∑ j, share (fun i => l 0 g i q.1 q.2) j * l' g j q.1 q.2)) • x g i)
        0 := HasDerivAt.fun_sum fun i _ =>
      (share_deriv (fun t i => l t g i q.1 q.2) (fun i => l' g i q.1 q.2) (fun i => hl g i q.1 q.2) i).smul_const (x g i)
    refine h1.congr_deriv ?_
    simp only [mul_sub, sub_smul, smul_sub, Finset.sum_sub_distrib]
    congr 1
    rw [← Finset.sum_smul, slotInput, Finset.smul_sum]
    refine Finset.sum_congr rfl fun i _ => ?_
    rw [smul_smul, mul_comm]
  have hterm : ∀ q : Fin n × Fin p, HasDerivAt (fun t => share (fun q : Fin n × Fin p => l t g s q.1 q.2) q •
      f (params q.1) (∑ i, share (fun i => l t g i q.1 q.2) i • x g i)) _ 0 := fun q =>
    (share_deriv (fun t (q : Fin n × Fin p) => l t g s q.1 q.2) (fun q => l' g s q.1 q.2) (fun q => hl g s q.1 q.2) q).fun_smul
      ((hf q).comp_hasDerivAt (0 : ℝ) (hin q))
  refine (HasDerivAt.fun_sum fun q _ => hterm q).congr_deriv ?_
  rw [Finset.sum_add_distrib, add_comm]
  congr 1
  rw [softMoe_eq (l 0) params f x g s]
  simp only [mul_sub, sub_smul, smul_sub, Finset.sum_sub_distrib]
  congr 1
  rw [← Finset.sum_smul, Finset.smul_sum]
  refine Finset.sum_congr rfl fun q _ => ?_
  rw [smul_smul, mul_comm]

/-- Experts that multiply by a number and add a vector are smooth in all of it. -/
example : ContDiff ℝ (⊤ : ℕ∞) fun q : (ℝ × (Fin 2 → ℝ)) × (Fin 2 → ℝ) => q.1.1 • q.2 + q.1.2 := by fun_prop

/-- The bias of such an expert moves what it computes by a constant. -/
example (v w : Fin 2 → ℝ) : HasDerivAt (fun t : ℝ => (3 : ℝ) • v + t • w) w 0 := by
  simpa using ((hasDerivAt_id (0 : ℝ)).smul_const w).const_add ((3 : ℝ) • v)

/-- Such an expert has a derivative everywhere. -/
example (v : Fin 2 → ℝ) : HasFDerivAt (fun v : Fin 2 → ℝ => (3 : ℝ) • v + 1) ((3 : ℝ) • ContinuousLinearMap.id ℝ (Fin 2 → ℝ)) v :=
  ((hasFDerivAt_id v).const_smul (3 : ℝ)).add_const 1

/-- The number of slots of the Soft MoE configurations. -/
example (fl : ℚ → ℚ) : numSlots fl ⟨128, some 1, none, 0, false⟩ 256 = .ok 1 := rfl

end Verif.SoftRouter
