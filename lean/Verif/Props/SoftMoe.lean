import Verif.Proofs.SoftMoe
import Verif.Proofs.AuxLoss
import Verif.Proofs.MoeRouting
import Mathlib.Analysis.Convex.Combination
import Mathlib.Algebra.Order.BigOperators.Ring.Finset

/-!
Properties C15 (soft router) and C16 (auxiliary losses), over the real numbers.
-/

set_option linter.unusedSectionVars false

namespace Verif.Soft

open Verif Verif.Moe

variable {G m n p d : Nat} {V W P : Type*} [AddCommGroup V] [Module ℝ V] [AddCommGroup W] [Module ℝ W]

/-- C15: dispatch weights of a slot are positive and add up to one over the items; combine weights of
an item are positive and add up to one over all the slots. -/
theorem C15_weights (l : Fin m → Fin n → Fin p → ℝ) :
    (∀ i j k, 0 < dispatchWeights l i j k ∧ 0 < combineWeights l i j k) ∧
    (0 < m → ∀ j k, ∑ i, dispatchWeights l i j k = 1) ∧
    (0 < n → 0 < p → ∀ i, ∑ j, ∑ k, combineWeights l i j k = 1) := by
  refine ⟨fun i j k => ⟨softmax_pos _ _, softmax_pos _ _⟩, ?_, ?_⟩
  · intro hm j k
    have : Nonempty (Fin m) := ⟨⟨0, hm⟩⟩
    exact softmax_sum _
  · intro hn hp i
    have : Nonempty (Fin n × Fin p) := ⟨(⟨0, hn⟩, ⟨0, hp⟩)⟩
    rw [← Fintype.sum_prod_type' (f := fun j k => combineWeights l i j k)]
    exact softmax_sum (fun q : Fin n × Fin p => l i q.1 q.2)

/-- C15: the input of every slot is in the convex hull of the tokens of one group, and each group
has `p` slots in each expert. -/
theorem C15_slot_inputs_convex (hm : 0 < m) (hn : 0 < n) (l : Fin G → Fin m → Fin n → Fin p → ℝ) :
    ∃ col : Fin G × Fin p ≃ Fin (G * p), ∀ (x : Fin G → Fin m → V) g e c,
      dispatch l x e (col (g, c)) ∈ convexHull ℝ (Set.range (x g)) ∧
      ∀ v, (∀ s, x g s = v) → dispatch l x e (col (g, c)) = v := by
  refine ⟨columnEquiv n hn, ?_⟩
  intro x g e c
  have hd : dispatch l x e (columnEquiv n hn (g, c)) = ∑ s, dispatchWeights (l g) s e c • x g s := by
    change dispatch l x e (column n g c) = _
    unfold dispatch
    rw [dispatchExchange_column]
    rfl
  have hsum := (C15_weights (l g)).2.1 hm e c
  constructor
  · rw [hd]
    exact (convex_convexHull ℝ _).sum_mem (fun s _ => ((C15_weights (l g)).1 s e c).1.le) hsum
      (fun s _ => subset_convexHull ℝ _ ⟨s, rfl⟩)
  · intro v hv
    rw [hd, Finset.sum_congr rfl (fun s _ => by rw [hv s]), ← Finset.sum_smul, hsum, one_smul]

/-- C15: the output for a token is in the convex hull of the outputs of the experts on the slots of
its own group. -/
theorem C15_outputs_convex (hn : 0 < n) (hp : 0 < p) (l : Fin G → Fin m → Fin n → Fin p → ℝ)
    (params : Fin n → P) (f : P → V → W) (x : Fin G → Fin m → V) (g : Fin G) (s : Fin m) :
    softMoe l params f x g s ∈ convexHull ℝ (Set.range (fun q : Fin n × Fin p =>
      f (params q.1) (∑ i, dispatchWeights (l g) i q.1 q.2 • x g i))) := by
  have h : softMoe l params f x g s = ∑ q : Fin n × Fin p, combineWeights (l g) s q.1 q.2 •
      f (params q.1) (∑ i, dispatchWeights (l g) i q.1 q.2 • x g i) := by
    rw [Fintype.sum_prod_type]
    unfold softMoe sparseMoe combine
    refine Finset.sum_congr rfl fun e _ => Finset.sum_congr rfl fun c _ => ?_
    rw [receiveExchange_column]
    unfold applyExperts dispatch
    rw [dispatchExchange_column]
    rfl
  rw [h]
  refine (convex_convexHull ℝ _).sum_mem (fun q _ => ((C15_weights (l g)).1 s q.1 q.2).2.le) ?_
    (fun q _ => subset_convexHull ℝ _ ⟨q, rfl⟩)
  rw [Fintype.sum_prod_type]
  exact (C15_weights (l g)).2.2 hn hp s

/-- C15: if all experts return the constant `w`, the layer returns `w` for every token; with the
identity as expert and equal tokens the layer is the identity. -/
theorem C15_constant (hm : 0 < m) (hn : 0 < n) (hp : 0 < p) (l : Fin G → Fin m → Fin n → Fin p → ℝ)
    (params : Fin n → P) (g : Fin G) (s : Fin m) :
    (∀ (w : W) (f : P → V → W) x, (∀ q v, f q v = w) → softMoe l params f x g s = w) ∧
    (∀ (v : V) (x : Fin G → Fin m → V), (∀ i, x g i = v) →
      softMoe l params (fun _ y => y) x g s = v) := by
  constructor
  · intro w f x hf
    have := C15_outputs_convex hn hp l params f x g s
    have hr : Set.range (fun q : Fin n × Fin p =>
        f (params q.1) (∑ i, dispatchWeights (l g) i q.1 q.2 • x g i)) ⊆ {w} := by
      rintro _ ⟨q, rfl⟩
      exact hf _ _
    have h2 := convexHull_mono hr this
    rwa [convexHull_singleton] at h2
  · intro v x hx
    have := C15_outputs_convex hn hp l params (fun _ (y : V) => y) x g s
    have hr : Set.range (fun q : Fin n × Fin p =>
        ∑ i, dispatchWeights (l g) i q.1 q.2 • x g i) ⊆ {v} := by
      rintro _ ⟨q, rfl⟩
      simp only [Set.mem_singleton_iff]
      rw [Finset.sum_congr rfl (fun s _ => by rw [hx s]), ← Finset.sum_smul,
        (C15_weights (l g)).2.1 hm, one_smul]
    have h2 := convexHull_mono hr this
    rwa [convexHull_singleton] at h2

/-- C15: permuting the tokens of a group (with their logits) permutes the outputs. -/
theorem C15_permutation (σ : Equiv.Perm (Fin m)) (l : Fin G → Fin m → Fin n → Fin p → ℝ)
    (params : Fin n → P) (f : P → V → W) (x : Fin G → Fin m → V) (g : Fin G) (s : Fin m) :
    softMoe (fun g i => l g (σ i)) params f (fun g i => x g (σ i)) g s =
      softMoe l params f x g (σ s) := by
  unfold softMoe sparseMoe combine
  refine Finset.sum_congr rfl fun e _ => Finset.sum_congr rfl fun c _ => ?_
  simp only [receiveExchange_column]
  unfold applyExperts dispatch
  simp only [dispatchExchange_column]
  have hw : ∀ i, dispatchWeights (fun i => l g (σ i)) i e c = dispatchWeights (l g) (σ i) e c :=
    fun i => softmax_equiv σ (fun i' => l g i' e c) i
  have hbuf : einsumDispatchBuf (fun g => dispatchWeights fun i => l g (σ i)) (fun g i => x g (σ i)) g e c =
      einsumDispatchBuf (fun g => dispatchWeights (l g)) x g e c := by
    unfold einsumDispatchBuf
    simp only [hw]
    exact Equiv.sum_comp σ (fun i => dispatchWeights (l g) i e c • x g i)
  rw [hbuf]
  rfl

/-- C15: whether the scale multiplies the inputs or `mu` (the code picks the smaller array) makes
no difference. -/
theorem C15_scale_side (eps scale : ℝ) (inputs : Fin m → Fin d → ℝ) (mu : Fin d → Fin n → Fin p → ℝ)
    (noise : Fin m → Fin n → Fin p → ℝ) :
    logits eps scale true inputs mu noise = logits eps scale false inputs mu noise := by
  funext i j k
  simp only [logits, if_true]
  congr 1
  apply Finset.sum_congr rfl
  intro c _
  simp only [Bool.false_eq_true, if_false]
  ring

theorem normalize_norm (eps : ℝ) (he : 0 < eps) (x : Fin d → ℝ) : ∑ i, normalize eps x i ^ 2 ≤ 1 := by
  have hs : 0 ≤ ∑ j, x j ^ 2 := Finset.sum_nonneg (fun j _ => sq_nonneg _)
  have hp : 0 < (∑ j, x j ^ 2) + eps := by linarith
  unfold normalize
  simp only [mul_pow, div_pow, one_pow, Real.sq_sqrt hp.le]
  rw [← Finset.sum_mul, mul_one_div, div_le_one hp]
  linarith

/-- C15: without noise every logit is at most `|scale|` in absolute value, because inputs and `mu`
are normalized; hence no token is ignored: every token has at least the share
`exp (-2 |scale|) / m` of every slot. -/
theorem C15_no_token_ignored (eps scale : ℝ) (he : 0 < eps) (b : Bool) (inputs : Fin m → Fin d → ℝ)
    (mu : Fin d → Fin n → Fin p → ℝ) (i : Fin m) (j : Fin n) (k : Fin p) :
    |logits eps scale b inputs mu (fun _ _ _ => 0) i j k| ≤ |scale| ∧
    Real.exp (-2 * |scale|) / m ≤
      dispatchWeights (logits eps scale b inputs mu (fun _ _ _ => 0)) i j k := by
  have key : ∀ i j k, |logits eps scale b inputs mu (fun _ _ _ => 0) i j k| ≤ |scale| := by
    intro i j k
    have h1 : logits eps scale b inputs mu (fun _ _ _ => 0) i j k =
        scale * ∑ c, normalize eps (inputs i) c * normalize eps (fun c => mu c j k) c := by
      cases b
      · simp only [logits, Bool.false_eq_true, if_false, add_zero, Finset.mul_sum]
        refine Finset.sum_congr rfl fun c _ => by ring
      · simp only [logits, if_true, add_zero, Finset.mul_sum]
        refine Finset.sum_congr rfl fun c _ => by ring
    have h2 := Finset.sum_mul_sq_le_sq_mul_sq Finset.univ (normalize eps (inputs i))
      (normalize eps (fun c => mu c j k))
    have h3 := normalize_norm eps he (inputs i)
    have h4 := normalize_norm eps he (fun c => mu c j k)
    have h5 : (∑ c, normalize eps (inputs i) c * normalize eps (fun c => mu c j k) c) ^ 2 ≤ 1 := by
      refine h2.trans ?_
      have : 0 ≤ ∑ c, normalize eps (fun c => mu c j k) c ^ 2 :=
        Finset.sum_nonneg (fun j _ => sq_nonneg _)
      nlinarith
    rw [h1, abs_mul]
    have h6 := (sq_le_one_iff_abs_le_one _).1 h5
    exact mul_le_of_le_one_right (abs_nonneg _) h6
  refine ⟨key i j k, ?_⟩
  have := softmax_lower (fun i' => logits eps scale b inputs mu (fun _ _ _ => 0) i' j k) |scale|
    (fun i' => key i' j k) i
  rw [Fintype.card_fin] at this
  exact this

-- Non-vacuity: two tokens, one expert with one slot, logits 0: the slot gets the mean.
example : dispatchWeights (fun (_ : Fin 2) (_ : Fin 1) (_ : Fin 1) => (0 : ℝ)) 0 0 0 = 1 / 2 := by
  simp [dispatchWeights, softmax]

end Verif.Soft

namespace Verif.Aux

open Verif

variable {S E : Nat}

/-- C16: the importance loss is the mean squared relative deviation of the total gates of the
experts (closed form, independent of the square root in the code). -/
theorem C16_closed_form (gates : Fin S → Fin E → ℝ) (hE : 0 < E) (htot : 0 < ∑ e, ∑ s, gates s e) :
    importanceLoss gates =
      E * (∑ e, (∑ s, gates s e) ^ 2) / (∑ e, ∑ s, gates s e) ^ 2 - 1 := by
  have hE' : (0 : ℝ) < E := by exact_mod_cast hE
  unfold importanceLoss
  simp only
  rw [cv_sq, variance_eq hE]
  unfold mean
  field_simp

/-- C16: never negative; zero exactly when all experts have the same total gate; unchanged by
scaling all the gates; at most `E - 1`. -/
theorem C16_importance_loss (gates : Fin S → Fin E → ℝ) (hE : 0 < E)
    (hnonneg : ∀ s e, 0 ≤ gates s e) (htot : 0 < ∑ e, ∑ s, gates s e) :
    0 ≤ importanceLoss gates ∧
    (importanceLoss gates = 0 ↔ ∀ e e', ∑ s, gates s e = ∑ s, gates s e') ∧
    (∀ c : ℝ, c ≠ 0 → importanceLoss (fun s e => c * gates s e) = importanceLoss gates) ∧
    importanceLoss gates ≤ E - 1 := by
  refine ⟨cv_nonneg _, cv_zero_iff hE _ (ne_of_gt htot), ?_, ?_⟩
  · intro c hc
    unfold importanceLoss
    simp only [← Finset.mul_sum]
    exact cv_scale _ c hc
  · exact cv_le hE _ (fun e => Finset.sum_nonneg fun s _ => hnonneg s e) htot

/-- C16: the bound `E - 1` is reached when a single expert gets everything. -/
theorem C16_worst_case (gates : Fin S → Fin E → ℝ) (hE : 0 < E) (htot : 0 < ∑ e, ∑ s, gates s e) (e₀ : Fin E)
    (hone : ∀ s e, e ≠ e₀ → gates s e = 0) : importanceLoss gates = E - 1 := by
  rw [C16_closed_form gates hE htot]
  have h1 : ∀ e, e ≠ e₀ → ∑ s, gates s e = 0 := fun e he =>
    Finset.sum_eq_zero fun s _ => hone s e he
  have h2 : ∑ e, ∑ s, gates s e = ∑ s, gates s e₀ :=
    Finset.sum_eq_single e₀ (fun e _ he => h1 e he) (fun h => absurd (Finset.mem_univ _) h)
  have h3 : ∑ e, (∑ s, gates s e) ^ 2 = (∑ s, gates s e₀) ^ 2 :=
    Finset.sum_eq_single e₀ (fun e _ he => by rw [h1 e he]; ring)
      (fun h => absurd (Finset.mem_univ _) h)
  rw [h2] at htot ⊢
  rw [h3, mul_div_assoc, div_self (by positivity), mul_one]

/-- C16: the load loss is a squared coefficient of variation too: never negative, and at most
`E - 1` when the estimated probabilities are not all zero. -/
theorem C16_load_loss (cdf : ℝ → ℝ) (hcdf : ∀ x, cdf x < 1) (hS : 0 < S)
    (logits noisy : Fin S → Fin E → ℝ) (noiseStd : ℝ) (K : Nat) (h0 : 0 < K) (hK : K ≤ E) :
    0 ≤ loadLoss cdf logits noisy noiseStd K h0 hK ∧
    loadLoss cdf logits noisy noiseStd K h0 hK ≤ E - 1 := by
  refine ⟨cv_nonneg _, ?_⟩
  have hE : 0 < E := Nat.lt_of_lt_of_le h0 hK
  have hS' : (0 : ℝ) < S := by exact_mod_cast hS
  unfold loadLoss
  simp only
  have hpos : ∀ (t : Fin S → ℝ) (e : Fin E),
      0 < mean (fun s => 1 - cdf ((t s - logits s e) / noiseStd)) := by
    intro t e
    unfold mean
    refine div_pos (Finset.sum_pos (fun s _ => sub_pos.2 (hcdf _)) ⟨⟨0, hS⟩, Finset.mem_univ _⟩) hS'
  exact cv_le hE _ (fun e => (hpos _ e).le)
    (Finset.sum_pos (fun e _ => hpos _ e) ⟨⟨0, hE⟩, Finset.mem_univ _⟩)

/-- C16: value of the load loss.  If `t s` is the `K`-th largest noisy logit of item `s` (fewer than
`K` logits are above it, at least `K` are not below it), the loss is the squared coefficient of
variation over the experts of the mean over the items of the probability that fresh noise lifts the
clean logit over `t s`. -/
theorem C16_load_loss_value (cdf : ℝ → ℝ) (logits noisy : Fin S → Fin E → ℝ) (noiseStd : ℝ) (K : Nat)
    (h0 : 0 < K) (hK : K ≤ E) (t : Fin S → ℝ)
    (ht : ∀ s, (Finset.univ.filter (fun e => t s < noisy s e)).card < K ∧
      K ≤ (Finset.univ.filter (fun e => t s ≤ noisy s e)).card) :
    let p := fun e => (∑ s, (1 - cdf ((t s - logits s e) / noiseStd))) / S
    let avg := (∑ e, p e) / E
    loadLoss cdf logits noisy noiseStd K h0 hK = ((∑ e, (p e - avg) ^ 2) / E) / avg ^ 2 := by
  intro p avg
  have hth : ∀ s, (∑ e, (if e = topKIdx (noisy s) K hK ⟨K - 1, by omega⟩ then (1 : ℝ) else 0) *
      noisy s e) = t s := by
    intro s
    set e0 := topKIdx (noisy s) K hK ⟨K - 1, by omega⟩ with he0
    have hrank : Spec.choiceRank noisy s e0 = K - 1 :=
      (Moe.topK_eq_iff_choiceRank noisy hK s ⟨K - 1, by omega⟩ e0).1 he0.symm
    have hsum : (∑ e, (if e = e0 then (1 : ℝ) else 0) * noisy s e) = noisy s e0 := by simp
    rw [hsum]
    unfold Spec.choiceRank at hrank
    rcases lt_trichotomy (t s) (noisy s e0) with h | h | h
    · exfalso
      have hsub : insert e0 (Finset.univ.filter (fun e' =>
          noisy s e0 < noisy s e' ∨ (noisy s e' = noisy s e0 ∧ e' < e0))) ⊆
          Finset.univ.filter (fun e => t s < noisy s e) := by
        intro e he
        rw [Finset.mem_insert, Finset.mem_filter] at he
        rw [Finset.mem_filter]
        refine ⟨Finset.mem_univ _, ?_⟩
        rcases he with rfl | ⟨-, he | he⟩
        · exact h
        · exact h.trans he
        · rw [he.1]; exact h
      have := Finset.card_le_card hsub
      rw [Finset.card_insert_of_notMem (by simp), hrank] at this
      have := (ht s).1
      omega
    · exact h.symm
    · exfalso
      have hsub : Finset.univ.filter (fun e => t s ≤ noisy s e) ⊆ Finset.univ.filter (fun e' =>
          noisy s e0 < noisy s e' ∨ (noisy s e' = noisy s e0 ∧ e' < e0)) := by
        intro e he
        rw [Finset.mem_filter] at he ⊢
        exact ⟨Finset.mem_univ _, Or.inl (lt_of_lt_of_le h he.2)⟩
      have := Finset.card_le_card hsub
      have := (ht s).2
      omega
  unfold loadLoss
  simp only [hth]
  rw [cv_sq]
  rfl

-- Non-vacuity: the second largest of the noisy logits 1, 5, 3, 3.
example : let t : Fin 1 → ℝ := fun _ => 3
    let noisy : Fin 1 → Fin 4 → ℝ := fun _ => ![1, 5, 3, 3]
    ∀ s, (Finset.univ.filter (fun e => t s < noisy s e)).card < 2 ∧
      2 ≤ (Finset.univ.filter (fun e => t s ≤ noisy s e)).card := by
  intro t noisy s
  constructor
  · have : Finset.univ.filter (fun e => t s < noisy s e) = {1} := by
      ext e
      fin_cases e <;> (simp [t, noisy]; try norm_num)
    rw [this]; decide
  · have : Finset.univ.filter (fun e => t s ≤ noisy s e) = {1, 2, 3} := by
      ext e
      fin_cases e <;> (simp [t, noisy]; try norm_num)
    rw [this]; decide

/-- C16: value of the GShard loss: the number of experts times the sum over the experts of the
fraction of the items whose largest gate (first one, if several) is that of the expert, times the
mean gate of the expert. -/
theorem C16_gshard_value (gates : Fin S → Fin E → ℝ) (hE : 0 < E) :
    gshardLoss hE gates = E * ∑ e,
      ((Finset.univ.filter (fun s => (∀ e', gates s e' ≤ gates s e) ∧
        ∀ e' < e, gates s e' < gates s e)).card : ℝ) / S * ((∑ s, gates s e) / S) := by
  have hE' : (0 : ℝ) < E := by exact_mod_cast hE
  have harg : ∀ s e, argmax hE (gates s) = e ↔ (∀ e', gates s e' ≤ gates s e) ∧
      ∀ e' < e, gates s e' < gates s e := by
    intro s e
    unfold argmax
    rw [Moe.topK_eq_iff_choiceRank gates hE s 0 e]
    unfold Spec.choiceRank
    rw [Fin.val_zero, Finset.card_eq_zero, Finset.filter_eq_empty_iff]
    constructor
    · intro h
      have h' : ∀ e', ¬ (gates s e < gates s e' ∨ (gates s e' = gates s e ∧ e' < e)) :=
        fun e' => h (Finset.mem_univ e')
      refine ⟨fun e' => not_lt.1 fun hlt => h' e' (Or.inl hlt), fun e' he => ?_⟩
      refine lt_of_le_of_ne (not_lt.1 fun hlt => h' e' (Or.inl hlt)) fun heq => h' e' (Or.inr ⟨heq, he⟩)
    · rintro ⟨h1, h2⟩ e' _ (h | ⟨h, he⟩)
      · exact absurd h (not_lt.2 (h1 e'))
      · exact absurd h (h2 e' he).ne
  unfold gshardLoss
  simp only [harg]
  unfold mean
  have : ∀ e : Fin E, (∑ s, if ((∀ e', gates s e' ≤ gates s e) ∧ ∀ e' < e, gates s e' < gates s e)
      then (1 : ℝ) else 0) = ((Finset.univ.filter (fun s => (∀ e', gates s e' ≤ gates s e) ∧
        ∀ e' < e, gates s e' < gates s e)).card : ℝ) := by
    intro e
    rw [Finset.sum_boole]
  simp only [this]
  field_simp

/-- C16: the GShard loss of softmax gates (non-negative rows with sum one) is between 0 and `E`, and
is 1 when the mean gates are balanced. -/
theorem C16_gshard_loss (gates : Fin S → Fin E → ℝ) (hE : 0 < E) (hS : 0 < S)
    (hnonneg : ∀ s e, 0 ≤ gates s e) (hrow : ∀ s, ∑ e, gates s e = 1) :
    0 ≤ gshardLoss hE gates ∧ gshardLoss hE gates ≤ E ∧
    ((∀ e e', ∑ s, gates s e = ∑ s, gates s e') → gshardLoss hE gates = 1) := by
  have hE' : (0 : ℝ) < E := by exact_mod_cast hE
  have hS' : (0 : ℝ) < S := by exact_mod_cast hS
  let f : Fin E → ℝ := fun e => mean (fun s => if argmax hE (gates s) = e then (1 : ℝ) else 0)
  let g : Fin E → ℝ := fun e => mean (fun s => gates s e)
  have hloss : gshardLoss hE gates = E * ∑ e, f e * g e := by
    unfold gshardLoss
    simp only
    change mean (fun e => f e * g e) * _ = _
    unfold mean
    field_simp
  have hf0 : ∀ e, 0 ≤ f e := fun e => by
    simp only [f]; unfold mean
    refine div_nonneg (Finset.sum_nonneg fun s _ => ?_) hS'.le
    split_ifs <;> norm_num
  have hg0 : ∀ e, 0 ≤ g e := fun e => by
    simp only [g]; unfold mean
    exact div_nonneg (Finset.sum_nonneg fun s _ => hnonneg s e) hS'.le
  have hf1 : ∑ e, f e = 1 := by
    simp only [f]; unfold mean
    rw [← Finset.sum_div, Finset.sum_comm]
    simp only [Finset.sum_ite_eq, Finset.mem_univ, if_true, Finset.sum_const, Finset.card_univ,
      Fintype.card_fin, nsmul_eq_mul, mul_one]
    exact div_self (ne_of_gt hS')
  have hg1 : ∑ e, g e = 1 := by
    simp only [g]; unfold mean
    rw [← Finset.sum_div, Finset.sum_comm]
    simp only [hrow, Finset.sum_const, Finset.card_univ, Fintype.card_fin, nsmul_eq_mul, mul_one]
    exact div_self (ne_of_gt hS')
  rw [hloss]
  refine ⟨mul_nonneg hE'.le (Finset.sum_nonneg fun e _ => mul_nonneg (hf0 e) (hg0 e)), ?_, ?_⟩
  · have h1 : ∑ e, f e * g e ≤ 1 := by
      calc ∑ e, f e * g e ≤ ∑ e, f e * 1 := by
            refine Finset.sum_le_sum fun e _ => mul_le_mul_of_nonneg_left ?_ (hf0 e)
            rw [← hg1]
            exact Finset.single_le_sum (fun e _ => hg0 e) (Finset.mem_univ e)
        _ = 1 := by simp only [mul_one]; exact hf1
    nlinarith
  · intro hbal
    have hconst : ∀ e, g e = 1 / E := by
      intro e
      have h2 : ∀ e', g e' = g e := fun e' => by simp only [g]; unfold mean; rw [hbal e' e]
      have h3 : (E : ℝ) * g e = 1 := by
        rw [← hg1, Finset.sum_congr rfl (fun e' _ => h2 e')]
        simp
      field_simp
      linarith
    rw [Finset.sum_congr rfl (fun e _ => by rw [hconst e]), ← Finset.sum_mul, hf1]
    field_simp

/-- C16: the total auxiliary loss adds exactly the terms with positive weight: a term with weight
zero (or less) has no influence, even when it is not well defined. -/
theorem C16_weighted_sum (args : List (ℝ × ℝ)) :
    (∀ w x y, w ≤ 0 → weightedSum ((w, x) :: args) = weightedSum ((w, y) :: args) ∧
      weightedSum ((w, x) :: args) = weightedSum args) ∧
    (∀ w x, 0 < w → weightedSum ((w, x) :: args) = w * x + weightedSum args) ∧
    ((∀ a ∈ args, 0 ≤ a.2) → 0 ≤ weightedSum args) := by
  refine ⟨?_, ?_, ?_⟩
  · intro w x y hw
    have : ¬ 0 < w := not_lt.2 hw
    simp [weightedSum, this]
  · intro w x hw
    simp [weightedSum, hw, mul_comm]
  · intro h
    unfold weightedSum
    apply List.sum_nonneg
    intro z hz
    simp only [List.mem_map, List.mem_filter, decide_eq_true_eq] at hz
    obtain ⟨a, ⟨ha, hpos⟩, rfl⟩ := hz
    exact mul_nonneg (h a ha) hpos.le

-- Non-vacuity: two experts with total gates 3 and 1 have importance loss 1/4.
example : importanceLoss (S := 1) (E := 2) (fun _ e => if e = 0 then 3 else 1) = 1 / 4 := by
  rw [C16_closed_form _ (by decide) (by norm_num [Fin.sum_univ_two])]
  norm_num [Fin.sum_univ_two]

example : weightedSum [(1, 3), (0, 100), (2, 5)] = 13 := by
  norm_num [weightedSum]

end Verif.Aux
