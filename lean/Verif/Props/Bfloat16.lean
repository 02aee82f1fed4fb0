import Verif.Props.VmoeModel
import Verif.Props.ExpertChoiceBlock
import Mathlib.Data.Int.Log
import Mathlib.Algebra.Order.Round

/-!
C129: what the option `bfloat16` of the dispatchers changes: routing, metrics and errors are the same, and the outputs differ by the rounding of
the inputs and outputs of the experts, which gives a bound.
-/

namespace Verif.Bfloat16

open Verif Verif.Moe Verif.MoeBlock Verif.Spec

variable {B T H O E : Nat} {P : Type}

/-- `bf` rounds with relative error at most `ε`. -/
def Rounding (bf : ℝ → ℝ) (ε : ℝ) : Prop := ∀ a, |bf a - a| ≤ ε * |a|

/-- All entries change by at most `L` times the largest change of the input. -/
def Lipschitz (f : (Fin H → ℝ) → Fin O → ℝ) (L : ℝ) : Prop :=
  ∀ u v δ, (∀ h, |u h - v h| ≤ δ) → ∀ i, |f u i - f v i| ≤ L * δ

/-- Rounding to 8 binary digits, without limits for the exponent. -/
noncomputable def bf16 (a : ℝ) : ℝ := round (a / 2 ^ (Int.log 2 |a| - 7)) * 2 ^ (Int.log 2 |a| - 7)

theorem bf16_rounding : Rounding bf16 (1 / 256) := by
  intro a
  rcases eq_or_ne a 0 with rfl | ha
  · simp [bf16]
  have hp : (0 : ℝ) < 2 ^ (Int.log 2 |a| - 7) := zpow_pos (by norm_num) _
  have h1 : ((2 : ℕ) : ℝ) ^ Int.log 2 |a| ≤ |a| := Int.zpow_log_le_self (by norm_num) (abs_pos.2 ha)
  have e : bf16 a - a = -((a / 2 ^ (Int.log 2 |a| - 7) - round (a / 2 ^ (Int.log 2 |a| - 7))) * 2 ^ (Int.log 2 |a| - 7)) := by
    unfold bf16
    field_simp
    ring
  rw [e, abs_neg, abs_mul, abs_of_pos hp]
  have h2 := abs_sub_round (a / 2 ^ (Int.log 2 |a| - 7))
  have h3 : (2 : ℝ) ^ (Int.log 2 |a| - 7) = 2 ^ Int.log 2 |a| / 128 := by
    rw [zpow_sub₀ (by norm_num)]
    norm_num
  calc _ ≤ 1 / 2 * (2 : ℝ) ^ (Int.log 2 |a| - 7) := mul_le_mul_of_nonneg_right h2 hp.le
    _ = 1 / 256 * 2 ^ Int.log 2 |a| := by rw [h3]; ring
    _ ≤ 1 / 256 * |a| := by
      apply mul_le_mul_of_nonneg_left _ (by norm_num)
      simpa using h1

/-- Rounding before and after a function. -/
theorem round_twice (bf : ℝ → ℝ) (ε L X M : ℝ) (hε : 0 ≤ ε) (hbf : Rounding bf ε) (f : (Fin H → ℝ) → Fin O → ℝ) (hf : Lipschitz f L)
    (v : Fin H → ℝ) (hX : ∀ h, |v h| ≤ X) (i : Fin O) (hM : |f v i| ≤ M) :
    |bf (f (fun h => bf (v h)) i) - f v i| ≤ ε * M + (1 + ε) * (L * (ε * X)) := by
  have h1 : |f (fun h => bf (v h)) i - f v i| ≤ L * (ε * X) :=
    hf _ _ _ (fun h => (hbf (v h)).trans (mul_le_mul_of_nonneg_left (hX h) hε)) i
  have h2 := hbf (f (fun h => bf (v h)) i)
  have h3 : |f (fun h => bf (v h)) i| ≤ M + L * (ε * X) := by
    calc _ = |f v i + (f (fun h => bf (v h)) i - f v i)| := by ring_nf
      _ ≤ |f v i| + |f (fun h => bf (v h)) i - f v i| := abs_add_le _ _
      _ ≤ _ := add_le_add hM h1
  calc |bf (f (fun h => bf (v h)) i) - f v i|
      = |(bf (f (fun h => bf (v h)) i) - f (fun h => bf (v h)) i) + (f (fun h => bf (v h)) i - f v i)| := by ring_nf
    _ ≤ _ := abs_add_le _ _
    _ ≤ ε * (M + L * (ε * X)) + L * (ε * X) := add_le_add (h2.trans (mul_le_mul_of_nonneg_left h3 hε)) h1
    _ = _ := by ring

/-- Sums with gates as weights. -/
theorem gated_le (l : Fin E → ℝ) (hE : 0 < E) (s : Finset (Fin E)) (a a' : Fin E → ℝ) (D : ℝ) (h : ∀ e, |a' e - a e| ≤ D) :
    |∑ e ∈ s, expWeights l e * a' e - ∑ e ∈ s, expWeights l e * a e| ≤ D := by
  have hD : 0 ≤ D := (abs_nonneg _).trans (h ⟨0, hE⟩)
  rw [← Finset.sum_sub_distrib]
  calc _ ≤ ∑ e ∈ s, |expWeights l e * a' e - expWeights l e * a e| := Finset.abs_sum_le_sum_abs _ _
    _ ≤ ∑ e ∈ s, expWeights l e * D := by
      apply Finset.sum_le_sum
      intro e _
      rw [← mul_sub, abs_mul, abs_of_pos (expWeights_pos e)]
      exact mul_le_mul_of_nonneg_left (h e) (expWeights_pos e).le
    _ ≤ ∑ e, expWeights l e * D := Finset.sum_le_univ_sum_of_nonneg fun e => mul_nonneg (expWeights_pos e).le hD
    _ = D := by rw [← Finset.sum_mul, expWeights_sum hE, one_mul]

/-- The options with `bfloat16` switched on or off. -/
def withBf (cfg : MoeBlock.RouterConfig) (b : Bool) : MoeBlock.RouterConfig :=
  { cfg with dispatcher := { cfg.dispatcher with bfloat16 := b } }

theorem gates_withBf {G S : Nat} (cdf : ℝ → ℝ) (cfg : MoeBlock.RouterConfig) (b : Bool) (kernel : Fin H → Fin E → ℝ)
    (z : Nat → Nat → Nat → ℝ) (x : Fin G → Fin S → Fin H → ℝ) :
    gatesAndMetrics cdf (withBf cfg b) kernel z x = gatesAndMetrics cdf cfg kernel z x := by
  unfold gatesAndMetrics withBf
  rfl

theorem dispatcher_ok {G S : Nat} (fl : ℚ → ℚ) (cfg : MoeBlock.RouterConfig) (gates : Fin G → Fin S → Fin E → ℝ) :
    (createDispatcher fl cfg gates).map (fun _ => ()) =
      match resolveCapacity fl (S * cfg.numSelected) E cfg.dispatcher.capacity cfg.dispatcher.capacityFactor
        cfg.dispatcher.ceilOrRound cfg.dispatcher.multipleOf with
      | .error err => .error err
      | .ok _ =>
        if cfg.dispatcher.name ≠ "einsum" ∧ cfg.dispatcher.name ≠ "indices" then .error .valueError
        else if 0 < cfg.numSelected ∧ cfg.numSelected ≤ E then .ok () else .error .valueError := by
  unfold createDispatcher
  dsimp only
  generalize resolveCapacity fl (S * cfg.numSelected) E cfg.dispatcher.capacity cfg.dispatcher.capacityFactor
    cfg.dispatcher.ceilOrRound cfg.dispatcher.multipleOf = r
  rcases r with err | cap
  · rfl
  · dsimp only
    split_ifs <;> rfl

/-- **C129**: with `bfloat16`, the block (experts chosen by the items) succeeds or fails as without it, with the same error or the same
metrics. -/
theorem C129_same_routing (fl : ℚ → ℚ) (cdf bf : ℝ → ℝ) (cfg : MoeBlock.RouterConfig) (S : Nat) (kernel : Fin H → Fin E → ℝ)
    (z : Nat → Nat → Nat → ℝ) (oob : Fin O → ℝ) (params : Fin E → P) (mlp : P → (Fin H → ℝ) → Fin O → ℝ)
    (x : Fin B → Fin T → Fin H → ℝ) :
    (mlpMoeBlock fl cdf bf (withBf cfg true) S kernel z oob params mlp x).map Prod.snd =
      (mlpMoeBlock fl cdf bf (withBf cfg false) S kernel z oob params mlp x).map Prod.snd := by
  have e : ∀ b, (mlpMoeBlock fl cdf bf (withBf cfg b) S kernel z oob params mlp x).map Prod.snd =
      match regroup x S with
      | .error err => .error err
      | .ok xg =>
        match gatesAndMetrics cdf cfg kernel z xg with
        | .error err => .error err
        | .ok (gates, metrics) =>
          match (createDispatcher fl (withBf cfg b) gates).map (fun _ => ()) with
          | .error err => .error err
          | .ok _ => if 0 < S ∧ B * T % S = 0 then .ok metrics else .error .typeError := by
    intro b
    unfold mlpMoeBlock
    generalize regroup x S = r
    rcases r with err | xg
    · rfl
    dsimp only
    rw [gates_withBf]
    generalize gatesAndMetrics cdf cfg kernel z xg = r
    rcases r with err | ⟨gates, m⟩
    · rfl
    dsimp only
    generalize createDispatcher fl (withBf cfg b) gates = r
    rcases r with err | d
    · rfl
    · simp only [ungroup]
      split_ifs <;> rfl
  have key : ∀ gates : Fin (B * T / S) → Fin S → Fin E → ℝ, (createDispatcher fl (withBf cfg true) gates).map (fun _ => ()) =
      (createDispatcher fl (withBf cfg false) gates).map (fun _ => ()) := by
    intro gates
    rw [dispatcher_ok, dispatcher_ok]
    simp only [withBf]
    generalize resolveCapacity _ _ _ _ _ _ _ = r
    cases r <;> rfl
  rw [e true, e false]
  simp only [key]

/-- **C129**: with `bfloat16`, every entry of the output of the block changes by at most `ε M + (1 + ε) L ε X`: `ε` is the relative error of the
rounding, `L` a Lipschitz constant of the experts, `X` a bound for the token and `M` for the outputs of the experts. -/
theorem C129_error (fl : ℚ → ℚ) (cdf bf : ℝ → ℝ) (cfg : MoeBlock.RouterConfig) (S : Nat) (kernel : Fin H → Fin E → ℝ)
    (z : Nat → Nat → Nat → ℝ) (oob : Fin O → ℝ) (params : Fin E → P) (mlp : P → (Fin H → ℝ) → Fin O → ℝ)
    (x : Fin B → Fin T → Fin H → ℝ) (ε L : ℝ) (hε : 0 ≤ ε) (hbf : Rounding bf ε) (hL : ∀ e, Lipschitz (mlp (params e)) L)
    (y y' : Fin B → Fin T → Fin O → ℝ) (m m' : Metrics (B * T / S))
    (h : mlpMoeBlock fl cdf bf (withBf cfg false) S kernel z oob params mlp x = .ok (y, m))
    (h' : mlpMoeBlock fl cdf bf (withBf cfg true) S kernel z oob params mlp x = .ok (y', m'))
    (b : Fin B) (t : Fin T) (X M : ℝ) (hX : ∀ a, |x b t a| ≤ X) (i : Fin O) (hM : ∀ e, |mlp (params e) (x b t) i| ≤ M) :
    |y' b t i - y b t i| ≤ ε * M + (1 + ε) * (L * (ε * X)) := by
  obtain ⟨⟨hS, hdiv⟩, ⟨h0, hK⟩, hname, cap, hcap⟩ := Vmoe.success (cfg := withBf cfg false) h
  have hE : 0 < E := lt_of_lt_of_le h0 hK
  obtain ⟨o, _, ho, hv⟩ := C72_block_output fl cdf bf (withBf cfg false) S kernel z oob params mlp x hS hdiv hE h0 hK hname cap hcap
  simp only [withBf] at h0 hK hname hcap
  obtain ⟨o', _, ho', hv'⟩ := C72_block_output fl cdf bf (withBf cfg true) S kernel z oob params mlp x hS hdiv hE
    (by simp only [withBf]; omega) (by simpa only [withBf] using hK) (by simpa only [withBf] using hname) cap
    (by simpa only [withBf] using hcap)
  rw [h] at ho
  rw [h'] at ho'
  cases ho
  cases ho'
  rw [hv b t i, hv' b t i]
  exact gated_le _ hE _ _ _ _ fun e => round_twice bf ε L X M hε hbf _ (hL e) _ hX i (hM e)

/-- Options of the layer where experts choose the items, with `bfloat16` switched on or off. -/
def itemsConfig (noise : ℝ) (det : Bool) (d : ExpertChoice.ItemsDispatcher) (b : Bool) : ExpertChoice.RouterConfig :=
  ⟨noise, some { d with bfloat16 := some b }, det⟩

/-- **C129**: the same for the block where the experts choose the items: if it succeeds with one setting of `bfloat16`, it does with the
other one, with the same metrics, and the outputs have at most this distance. -/
theorem C129_items (fl : ℚ → ℚ) (bf : ℝ → ℝ) (noise : ℝ) (det : Bool) (d : ExpertChoice.ItemsDispatcher) (S : Nat)
    (kernel : Fin H → Fin E → ℝ) (z : Nat → Nat → Nat → ℝ) (params : Fin E → P) (mlp : P → (Fin H → ℝ) → Fin O → ℝ)
    (x : Fin B → Fin T → Fin H → ℝ) (ε L : ℝ) (hε : 0 ≤ ε) (hbf : Rounding bf ε) (hL : ∀ e, Lipschitz (mlp (params e)) L)
    (y : Fin B → Fin T → Fin O → ℝ) (r : ExpertChoice.RouterOutput (B * T / S) S E) (u : Bool)
    (h : ExpertChoice.mlpMoeBlock fl bf (itemsConfig noise det d u) S kernel z params mlp x = .ok (y, r)) :
    ∃ y' r', ExpertChoice.mlpMoeBlock fl bf (itemsConfig noise det d !u) S kernel z params mlp x = .ok (y', r') ∧
      r'.metrics = r.metrics ∧ r'.auxiliaryLoss = r.auxiliaryLoss ∧
      ∀ (b : Fin B) (t : Fin T) (X M : ℝ), (∀ a, |x b t a| ≤ X) → ∀ i : Fin O, (∀ e, |mlp (params e) (x b t) i| ≤ M) →
        |y' b t i - y b t i| ≤ ε * M + (1 + ε) * (L * (ε * X)) := by
  obtain ⟨⟨hS, hdiv⟩, hE, d', hd', hname, hk, cap, hcap, hC⟩ := ExpertChoice.success h
  cases hd'
  obtain ⟨o, r1, ho, hv, ha, hm⟩ := ExpertChoice.C78_block_output fl bf (itemsConfig noise det d u) S kernel z params mlp x hS hdiv hE _ rfl
    cap hcap hname hC hk
  obtain ⟨o', r2, ho', hv', ha', hm'⟩ := ExpertChoice.C78_block_output fl bf (itemsConfig noise det d !u) S kernel z params mlp x hS hdiv hE _
    rfl cap hcap hname hC hk
  rw [h] at ho
  cases ho
  refine ⟨o', r2, ho', ?_, by rw [ha, ha'], ?_⟩
  · funext g
    rw [hm g, hm' g]
    rfl
  · intro b t X M hX i hM
    rw [hv b t i, hv' b t i]
    cases u
    · exact gated_le _ hE _ _ _ _ fun e => round_twice bf ε L X M hε hbf _ (hL e) _ hX i (hM e)
    · refine (gated_le _ hE _ _ _ _ fun e => ?_)
      rw [abs_sub_comm]
      exact round_twice bf ε L X M hε hbf _ (hL e) _ hX i (hM e)

/-- Two experts that multiply by 1 and 2; each token goes to one expert. -/
noncomputable def exCfg : MoeBlock.RouterConfig := ⟨1, 0, 0, 0, 0, ⟨"einsum", false, some 2, none, "ceil", none, false⟩, true⟩

/-- With 8 digits, tokens with entries of at most 1 have outputs that differ by at most 1/63. -/
example (kernel : Fin 2 → Fin 2 → ℝ) (x : Fin 1 → Fin 2 → Fin 2 → ℝ) (hx : ∀ b t a, |x b t a| ≤ 1) :
    ∃ y y' m, mlpMoeBlock id id bf16 (withBf exCfg false) 2 kernel (fun _ _ _ => 0) (fun _ => 0) (fun e : Fin 2 => (e.1 : ℝ) + 1)
        (fun p v (i : Fin 2) => p * v i) x = .ok (y, m) ∧
      mlpMoeBlock id id bf16 (withBf exCfg true) 2 kernel (fun _ _ _ => 0) (fun _ => 0) (fun e : Fin 2 => (e.1 : ℝ) + 1)
        (fun p v (i : Fin 2) => p * v i) x = .ok (y', m) ∧ ∀ b t i, |y' b t i - y b t i| ≤ 1 / 63 := by
  have run : ∀ u, ∃ r, mlpMoeBlock id id bf16 (withBf exCfg u) 2 kernel (fun _ _ _ => 0) (fun _ => 0) (fun e : Fin 2 => (e.1 : ℝ) + 1)
      (fun p v (i : Fin 2) => p * v i) x = .ok r := by
    intro u
    obtain ⟨out, m, h, -⟩ := C72_block_output id id bf16 (withBf exCfg u) 2 kernel (fun _ _ _ => 0) (fun _ => 0)
      (fun e : Fin 2 => (e.1 : ℝ) + 1) (fun p v (i : Fin 2) => p * v i) x (by decide) (by decide) (by decide) (by simp [withBf, exCfg])
      (by simp [withBf, exCfg]) (Or.inl rfl) 2 (by simp [resolveCapacity, withBf, exCfg])
    exact ⟨_, h⟩
  obtain ⟨⟨y, m⟩, h⟩ := run false
  obtain ⟨⟨y', m'⟩, h'⟩ := run true
  have hp : ∀ e : Fin 2, |(e.1 : ℝ) + 1| ≤ 2 := by
    intro e
    fin_cases e <;> norm_num
  have hm : m' = m := by
    have := C129_same_routing id id bf16 exCfg 2 kernel (fun _ _ _ => 0) (fun _ => 0) (fun e : Fin 2 => (e.1 : ℝ) + 1)
      (fun p v (i : Fin 2) => p * v i) x
    rw [h, h'] at this
    exact Except.ok.inj this
  subst hm
  refine ⟨y, y', _, h, h', fun b t i => ?_⟩
  have := C129_error id id bf16 exCfg 2 kernel (fun _ _ _ => 0) (fun _ => 0) (fun e : Fin 2 => (e.1 : ℝ) + 1)
    (fun p v (i : Fin 2) => p * v i) x (1 / 256) 2 (by norm_num) bf16_rounding (by
      intro e u v δ hd i
      rw [← mul_sub, abs_mul]
      exact mul_le_mul (hp e) (hd i) (abs_nonneg _) (by norm_num)) y y' _ _ h h' b t 1 2 (hx b t) i (by
      intro e
      rw [abs_mul]
      calc _ ≤ (2 : ℝ) * 1 := mul_le_mul (hp e) (hx b t i) (abs_nonneg _) (by norm_num)
        _ = 2 := by norm_num)
  refine this.trans ?_
  norm_num

/-- The hypotheses of `C129_items` hold for groups of two tokens, of which every expert takes one. -/
example (kernel : Fin 2 → Fin 2 → ℝ) (x : Fin 3 → Fin 2 → Fin 2 → ℝ) :
    ∃ y r y' r', ExpertChoice.mlpMoeBlock id bf16 (itemsConfig 1 false ⟨"einsum", some 1, none, none, none, none, false⟩ false) 2 kernel
        (fun g s e => g + s - e) (fun e : Fin 2 => (e.1 : ℝ)) (fun p v (i : Fin 2) => p + v i) x = .ok (y, r) ∧
      ExpertChoice.mlpMoeBlock id bf16 (itemsConfig 1 false ⟨"einsum", some 1, none, none, none, none, false⟩ true) 2 kernel
        (fun g s e => g + s - e) (fun e : Fin 2 => (e.1 : ℝ)) (fun p v (i : Fin 2) => p + v i) x = .ok (y', r') ∧
      r'.metrics = r.metrics := by
  obtain ⟨y, r, h, -⟩ := ExpertChoice.C78_block_output id bf16 (itemsConfig 1 false ⟨"einsum", some 1, none, none, none, none, false⟩ false) 2
    kernel (fun g s e => g + s - e) (fun e : Fin 2 => (e.1 : ℝ)) (fun p v (i : Fin 2) => p + v i) x (by decide) (by decide) (by decide) _ rfl 1
    (by simp [ExpertChoice.asked, resolveCapacity]) rfl (by decide) rfl
  obtain ⟨y', r', h', hm, -⟩ := C129_items id bf16 1 false ⟨"einsum", some 1, none, none, none, none, false⟩ 2 kernel (fun g s e => g + s - e)
    (fun e : Fin 2 => (e.1 : ℝ)) (fun p v (i : Fin 2) => p + v i) x (1 / 256) 1 (by norm_num) bf16_rounding
    (by intro e u v δ hd i; simpa using hd i) y r false h
  exact ⟨y, r, y', r', h, h', hm⟩

end Verif.Bfloat16
