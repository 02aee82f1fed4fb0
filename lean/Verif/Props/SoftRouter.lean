import Verif.Model.SoftRouter
import Verif.Props.SoftMoe
import Verif.Props.MoeCapacity
import Verif.Proofs.ExceptLemmas

/-!
# The soft MoE layer as a function of its inputs (C100)
-/

namespace Verif.SoftRouter

open Verif Verif.Moe

variable {G G' m d : Nat} {W P : Type} [AddCommGroup W] [Module ℝ W]

/-- Spec: the similarity of two vectors: the scalar product of the vectors divided by their lengths (with `eps`
under the root). -/
noncomputable def cosine (eps : ℝ) (x y : Fin d → ℝ) : ℝ :=
  (∑ c, x c * y c) / (Real.sqrt ((∑ c, x c ^ 2) + eps) * Real.sqrt ((∑ c, y c ^ 2) + eps))

/-- Spec: the share of the `i`-th exponential. -/
noncomputable def share {ι : Type} [Fintype ι] (l : ι → ℝ) (i : ι) : ℝ := Real.exp (l i) / ∑ j, Real.exp (l j)

/-- Spec: the output for an item of a group, from the items of that group, the vectors of the slots, the scale and the
noise of the group. -/
noncomputable def output (eps scale : ℝ) {n p : Nat} (u : Fin n → Fin p → Fin d → ℝ)
    (z : Fin m → Fin n → Fin p → ℝ) (params : Fin n → P) (f : P → (Fin d → ℝ) → W) (x : Fin m → Fin d → ℝ)
    (s : Fin m) : W :=
  let l := fun i (q : Fin n × Fin p) => scale * cosine eps (x i) (u q.1 q.2) + z i q.1 q.2
  ∑ q : Fin n × Fin p, share (l s) q • f (params q.1) (∑ i, share (fun i => l i q) i • x i)

theorem logits_eq (eps scale : ℝ) (b : Bool) {n p : Nat} (x : Fin m → Fin d → ℝ) (mu : Fin d → Fin n → Fin p → ℝ)
    (z : Fin m → Fin n → Fin p → ℝ) (i : Fin m) (j : Fin n) (k : Fin p) :
    Soft.logits eps scale b x mu z i j k = scale * cosine eps (x i) (fun c => mu c j k) + z i j k := by
  have h : ∀ c, Soft.normalize eps (x i) c * Soft.normalize eps (fun c => mu c j k) c =
      (x i c * mu c j k) / (Real.sqrt ((∑ c, x i c ^ 2) + eps) * Real.sqrt ((∑ c, mu c j k ^ 2) + eps)) := by
    intro c
    unfold Soft.normalize
    rw [div_mul_eq_div_div, one_div, one_div, div_eq_mul_inv, div_eq_mul_inv]
    ring
  unfold cosine
  rw [Finset.sum_div, Finset.mul_sum]
  unfold Soft.logits
  congr 1
  refine Finset.sum_congr rfl fun c _ => ?_
  rw [← h c]
  cases b
  · simp only [Bool.false_eq_true, if_false]
    ring
  · simp only [if_true]
    ring

theorem softMoe_eq {n p : Nat} (l : Fin G → Fin m → Fin n → Fin p → ℝ) (params : Fin n → P)
    (f : P → (Fin d → ℝ) → W) (x : Fin G → Fin m → Fin d → ℝ) (g : Fin G) (s : Fin m) :
    Soft.softMoe l params f x g s = ∑ q : Fin n × Fin p, share (fun q : Fin n × Fin p => l g s q.1 q.2) q •
      f (params q.1) (∑ i, share (fun i => l g i q.1 q.2) i • x g i) := by
  rw [Fintype.sum_prod_type]
  unfold Soft.softMoe sparseMoe Soft.combine
  refine Finset.sum_congr rfl fun e _ => Finset.sum_congr rfl fun c _ => ?_
  rw [receiveExchange_column]
  unfold applyExperts Soft.dispatch
  rw [dispatchExchange_column]
  rfl

/-- Spec: the noise of a group. -/
noncomputable def noiseOf (cfg : Config) (rng : Option Normal) (g i j k : Nat) : ℝ :=
  match rng with
  | some normal => cfg.noiseStd * normal g i j k
  | none => 0

/-- The call succeeds exactly when the number of slots is defined, the stored vectors have the shape for it, and
there is a key whenever noise is needed; then every item gets the mean of the outputs of the experts weighted by the
similarity of the item with the slots, where each slot is the mean of the items of the same group weighted by the
same similarity. -/
theorem C100_layer (fl : ℚ → ℚ) (eps : ℝ) (cfg : Config) (mu : Mu) (scale : ℝ) (rng : Option Normal)
    (params : Fin cfg.numExperts → P) (f : P → (Fin d → ℝ) → W) (x : Fin G → Fin m → Fin d → ℝ)
    (y : Fin G → Fin m → W) :
    layer fl eps cfg mu scale rng params f x = .ok y ↔
      ∃ p, numSlots fl cfg m = .ok p ∧ mu.dim = d ∧ mu.experts = cfg.numExperts ∧ mu.slots = p ∧
        (cfg.deterministic = false → 0 < cfg.noiseStd → rng ≠ none) ∧
        ∀ g s, y g s = output eps scale (fun j (k : Fin p) c => mu.val c j k)
          (fun i j k => if cfg.deterministic = false ∧ 0 < cfg.noiseStd then noiseOf cfg rng g i j k else 0)
          params f (x g) s := by
  have hok : ∀ p, numSlots fl cfg m = .ok p → mu.dim = d ∧ mu.experts = cfg.numExperts ∧ mu.slots = p →
      (cfg.deterministic = false → 0 < cfg.noiseStd → rng ≠ none) →
      layer fl eps cfg mu scale rng params f x = .ok fun g s =>
        output eps scale (fun j (k : Fin p) c => mu.val c j k)
          (fun i j k => if cfg.deterministic = false ∧ 0 < cfg.noiseStd then noiseOf cfg rng g i j k else 0)
          params f (x g) s := by
    intro p hp hmu hr
    have hn : noise cfg rng = .ok fun g i j k =>
        if cfg.deterministic = false ∧ 0 < cfg.noiseStd then noiseOf cfg rng g i j k else 0 := by
      unfold noise
      by_cases hc : cfg.deterministic = false ∧ 0 < cfg.noiseStd
      · simp only [if_pos hc]
        cases rng with
        | none => exact absurd rfl (hr hc.1 hc.2)
        | some normal => rfl
      · simp only [if_neg hc]
    have hg : getMu mu d cfg.numExperts p = .ok fun i j k => mu.val i j k := by
      unfold getMu
      rw [if_pos hmu]
    unfold layer call
    rw [hp]
    change ((getMu mu d cfg.numExperts p >>= _) >>= _ : Except PyErr _) = _
    rw [hg]
    change ((noise cfg rng >>= _) >>= _ : Except PyErr _) = _
    rw [hn]
    change Except.ok _ = Except.ok _
    congr 1
    funext g s
    rw [softMoe_eq]
    simp only [logits_eq]
    rfl
  constructor
  · intro h
    have h' := h
    unfold layer at h'
    obtain ⟨r, h1, _⟩ := ebind h'
    unfold call at h1
    obtain ⟨p, hp, h1⟩ := ebind h1
    obtain ⟨mu', hmu, h1⟩ := ebind h1
    obtain ⟨z, hz, h1⟩ := ebind h1
    have hmu' : mu.dim = d ∧ mu.experts = cfg.numExperts ∧ mu.slots = p := by
      unfold getMu at hmu
      by_contra hc
      rw [if_neg hc] at hmu
      cases hmu
    have hr : cfg.deterministic = false → 0 < cfg.noiseStd → rng ≠ none := by
      intro a b hn
      unfold noise at hz
      rw [if_pos ⟨a, b⟩, hn] at hz
      cases hz
    have := hok p hp hmu' hr
    rw [h] at this
    cases this
    exact ⟨p, hp, hmu'.1, hmu'.2.1, hmu'.2.2, hr, fun _ _ => rfl⟩
  · rintro ⟨p, hp, a, b, c, hr, hy⟩
    rw [hok p hp ⟨a, b, c⟩ hr]
    congr 1
    funext g s
    exact (hy g s).symm

/-- Without noise (`deterministic`, or `noise_std` not positive) the key is not used, and an item's output depends
only on the items of its own group: the same group in another batch, of any size, gets the same outputs. -/
theorem C100_batch (fl : ℚ → ℚ) (eps : ℝ) (cfg : Config) (hdet : cfg.deterministic = true ∨ cfg.noiseStd ≤ 0) (mu : Mu)
    (scale : ℝ) (rng rng' : Option Normal) (params : Fin cfg.numExperts → P) (f : P → (Fin d → ℝ) → W)
    (x : Fin G → Fin m → Fin d → ℝ) (x' : Fin G' → Fin m → Fin d → ℝ) (y : Fin G → Fin m → W)
    (h : layer fl eps cfg mu scale rng params f x = .ok y) :
    ∃ y', layer fl eps cfg mu scale rng' params f x' = .ok y' ∧ ∀ g g', x g = x' g' → y g = y' g' := by
  obtain ⟨p, hp, a, b, c, _, hy⟩ := (C100_layer fl eps cfg mu scale rng params f x y).1 h
  have hc : ¬ (cfg.deterministic = false ∧ 0 < cfg.noiseStd) := by
    rintro ⟨h1, h2⟩
    rcases hdet with h | h
    · rw [h] at h1
      cases h1
    · exact absurd h2 (not_lt.2 h)
  refine ⟨_, (C100_layer fl eps cfg mu scale rng' params f x' _).2
    ⟨p, hp, a, b, c, fun h1 h2 => absurd ⟨h1, h2⟩ hc, fun _ _ => rfl⟩, ?_⟩
  intro g g' hg
  funext s
  rw [hy g s]
  simp only [if_neg hc, hg]

theorem share_perm {ι : Type} [Fintype ι] (σ : Equiv.Perm ι) (l : ι → ℝ) (i : ι) :
    share (fun j => l (σ j)) i = share l (σ i) := by
  unfold share
  rw [Equiv.sum_comp σ fun j => Real.exp (l j)]

/-- Without noise the layer does not know the order of the items: permuting the items of each group permutes the
outputs of that group in the same way. -/
theorem C100_permutation (fl : ℚ → ℚ) (eps : ℝ) (cfg : Config)
    (hdet : cfg.deterministic = true ∨ cfg.noiseStd ≤ 0) (mu : Mu)
    (scale : ℝ) (rng : Option Normal) (params : Fin cfg.numExperts → P) (f : P → (Fin d → ℝ) → W)
    (x : Fin G → Fin m → Fin d → ℝ) (y : Fin G → Fin m → W) (σ : Fin G → Equiv.Perm (Fin m))
    (h : layer fl eps cfg mu scale rng params f x = .ok y) :
    layer fl eps cfg mu scale rng params f (fun g s => x g (σ g s)) = .ok fun g s => y g (σ g s) := by
  obtain ⟨p, hp, a, b, c, hr, hy⟩ := (C100_layer fl eps cfg mu scale rng params f x y).1 h
  have hc : ¬ (cfg.deterministic = false ∧ 0 < cfg.noiseStd) := by
    rintro ⟨h1, h2⟩
    rcases hdet with h | h
    · rw [h] at h1
      cases h1
    · exact absurd h2 (not_lt.2 h)
  refine (C100_layer fl eps cfg mu scale rng params f _ _).2 ⟨p, hp, a, b, c, hr, ?_⟩
  intro g s
  rw [hy g (σ g s)]
  simp only [if_neg hc]
  unfold output
  simp only
  refine Finset.sum_congr rfl fun q _ => ?_
  congr 2
  rw [← Equiv.sum_comp (σ g) fun i => share (fun i => scale * cosine eps (x g i) (fun c => mu.val c q.1 q.2) + 0) i • x g i]
  refine Finset.sum_congr rfl fun i _ => ?_
  rw [← share_perm (σ g)]

/-- A given number of slots is used for every size of the groups, so the same parameters may be used for images of
another size. -/
theorem C100_given_slots (fl : ℚ → ℚ) (cfg : Config) (s : Nat) (hs : cfg.numSlots = some s) (groupSize : Nat)
    (hpos : 0 < groupSize) : numSlots fl cfg groupSize = .ok s := by
  unfold numSlots
  rw [hs]
  simp only
  rw [if_neg (by omega)]

/-- Otherwise the number of slots per expert is the capacity factor times the number of items per expert, rounded to
the nearest integer; fewer than one slot raises. -/
theorem C100_slots (cfg : Config) (hs : cfg.numSlots = none) (f : ℚ) (hf : cfg.capacityFactor = some f)
    (hn : 0 < cfg.numExperts) (groupSize : Nat) :
    (∀ p, numSlots id cfg groupSize = .ok p →
      1 ≤ p ∧ |(p : ℚ) - groupSize * f / cfg.numExperts| ≤ 1 / 2) ∧
    ((∀ p, numSlots id cfg groupSize ≠ .ok p) ↔ (groupSize * f / cfg.numExperts : ℚ) ≤ 1 / 2) := by
  have hz : cfg.numExperts ≠ 0 := by omega
  set q : ℚ := groupSize * f / cfg.numExperts with hq
  have hfl := Int.floor_le q
  have hlt := Int.lt_floor_add_one q
  have hval : numSlots id cfg groupSize =
      if roundHalfEven q < 1 then .error .valueError else .ok (roundHalfEven q).toNat := by
    unfold numSlots
    rw [hs, hf]
    have hne : ¬ ("round" = "ceil") := by decide
    simp only [computeCapacity, id, if_neg hne, if_neg hz, ← hq]
    rw [if_neg (by decide)]
    by_cases hc : roundHalfEven q < 1
    · rw [if_pos hc, if_pos hc]
      rfl
    · rw [if_neg hc, if_neg hc, if_pos (by decide), Int.emod_one, add_zero]
      rfl
  have hcases : roundHalfEven q < 1 ↔ q ≤ 1 / 2 := by
    unfold roundHalfEven
    simp only
    constructor
    · intro h
      by_contra hc
      push Not at hc
      have h0 : (0 : Int) ≤ ⌊q⌋ := Int.floor_nonneg.2 (by linarith)
      split_ifs at h with c1 c2 c3
      · have : ⌊q⌋ = 0 := by omega
        rw [this] at c1
        push_cast at c1
        linarith
      · omega
      · have : ⌊q⌋ = 0 := by omega
        rw [this] at c2
        push_cast at c2
        linarith
      · omega
    · intro h
      have h1 : ⌊q⌋ < 1 := by
        rw [Int.floor_lt]
        push_cast
        linarith
      split_ifs with c1 c2 c3
      · exact h1
      · by_contra hcc
        have : ⌊q⌋ = 0 := by omega
        rw [this] at c2
        push_cast at c2
        linarith
      · exact h1
      · by_contra hcc
        have : ⌊q⌋ = 0 := by omega
        rw [this] at c3
        exact c3 rfl
  have hdist : |(roundHalfEven q : ℚ) - q| ≤ 1 / 2 := by
    unfold roundHalfEven
    simp only
    rw [abs_le]
    split_ifs <;> push_cast <;> constructor <;> linarith
  constructor
  · intro p hp
    rw [hval] at hp
    by_cases hc : roundHalfEven q < 1
    · rw [if_pos hc] at hp
      cases hp
    · rw [if_neg hc] at hp
      cases hp
      refine ⟨by omega, ?_⟩
      have e : (((roundHalfEven q).toNat : Nat) : ℚ) = (roundHalfEven q : ℚ) := by
        have : (((roundHalfEven q).toNat : Nat) : Int) = roundHalfEven q := Int.toNat_of_nonneg (by omega)
        exact_mod_cast this
      rw [e]
      exact hdist
  · rw [← hcases, hval]
    constructor
    · intro h
      by_contra hc
      rw [if_neg hc] at h
      exact h _ rfl
    · intro h p hp
      rw [if_pos h] at hp
      cases hp

/-- The call succeeds exactly when the number of slots is defined and is that of the parameters, the other sizes
are those of the parameters, and there is a key whenever noise is needed. -/
theorem C100_runs (fl : ℚ → ℚ) (eps : ℝ) (cfg : Config) (mu : Mu) (scale : ℝ) (rng : Option Normal)
    (params : Fin cfg.numExperts → P) (f : P → (Fin d → ℝ) → W) (x : Fin G → Fin m → Fin d → ℝ) :
    (∃ y, layer fl eps cfg mu scale rng params f x = .ok y) ↔
      numSlots fl cfg m = .ok mu.slots ∧ mu.dim = d ∧ mu.experts = cfg.numExperts ∧
        (cfg.deterministic = false → 0 < cfg.noiseStd → rng ≠ none) := by
  constructor
  · rintro ⟨y, hy⟩
    obtain ⟨p, hp, a, b, c, hr, _⟩ := (C100_layer fl eps cfg mu scale rng params f x y).1 hy
    exact ⟨c ▸ hp, a, b, hr⟩
  · rintro ⟨hp, a, b, hr⟩
    exact ⟨_, (C100_layer fl eps cfg mu scale rng params f x _).2 ⟨_, hp, a, b, rfl, hr, fun _ _ => rfl⟩⟩

/-- 128 experts and as many slots as items. -/
def exConfig : Config := ⟨128, none, some 1, 0, true⟩

/-- Parameters for the slots of one size of groups are rejected for groups with another number of slots: with a
capacity factor, a model for 196 tokens and 128 experts cannot be used with 576 tokens. -/
theorem C100_other_size_counterexample (eps scale : ℝ) (v : Nat → Nat → Nat → ℝ) (rng : Option Normal)
    (params : Fin exConfig.numExperts → P) (f : P → (Fin d → ℝ) → W) (x : Fin G → Fin 196 → Fin d → ℝ)
    (x' : Fin G → Fin 576 → Fin d → ℝ) :
    (∃ y, layer id eps exConfig ⟨d, 128, 2, v⟩ scale rng params f x = .ok y) ∧
    ¬ ∃ y, layer id eps exConfig ⟨d, 128, 2, v⟩ scale rng params f x' = .ok y := by
  have h1 : numSlots id exConfig 196 = .ok 2 := by
    norm_num [numSlots, exConfig, computeCapacity, roundHalfEven, Except.map]
    rfl
  have h2 : numSlots id exConfig 576 = .ok 4 := by
    norm_num [numSlots, exConfig, computeCapacity, roundHalfEven, Except.map]
    rfl
  constructor
  · exact (C100_runs id eps exConfig _ scale rng params f x).2 ⟨h1, rfl, rfl, fun h => by cases h⟩
  · intro hy
    have hp := ((C100_runs id eps exConfig _ scale rng params f x').1 hy).1
    rw [h2] at hp
    cases hp

/-- Two experts with one slot each. -/
def exSmall : Config := ⟨2, none, some (2 / 3), 0, false⟩

/-- The layer on two groups of three items. -/
example : ∃ y : Fin 2 → Fin 3 → ℝ, layer id 1 exSmall ⟨2, 2, 1, fun i j _ => i + j⟩ 1 none
    (fun e => (e : ℕ)) (fun p (v : Fin 2 → ℝ) => p * v 0) (fun g i c => (g : ℝ) + i * c) = .ok y := by
  have h1 : numSlots id exSmall 3 = .ok 1 := by
    norm_num [numSlots, exSmall, computeCapacity, roundHalfEven, Except.map]
  exact (C100_runs id 1 exSmall _ 1 none _ _ _).2 ⟨h1, rfl, rfl, fun _ h => absurd h (lt_irrefl _)⟩

end Verif.SoftRouter
