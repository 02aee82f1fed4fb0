import Verif.Model.DenseTransport
import Verif.Props.OtRouting

/-!
C108: the router with quadratically regularized transport.
-/

namespace Verif.OtRouting

open Verif Verif.Moe Verif.Spec Verif.Soft

variable {S E G : Nat}

/-! ### What is claimed -/

/-- `p` is the probability vector nearest to `x`. -/
def NearestProb {n : Nat} (x p : Fin n → ℝ) : Prop :=
  ((∀ i, 0 ≤ p i) ∧ ∑ i, p i = 1) ∧ ∀ q : Fin n → ℝ, (∀ i, 0 ≤ q i) → ∑ i, q i = 1 → ∑ i, (p i - x i) ^ 2 ≤ ∑ i, (q i - x i) ^ 2

/-- A transport plan: every token distributes 1, every expert gets the same. -/
def Balanced (T : Fin S → Fin E → ℝ) : Prop :=
  (∀ s e, 0 ≤ T s e) ∧ (∀ s, ∑ e, T s e = 1) ∧ ∀ e, ∑ s, T s e = (S : ℝ) / E

/-- The squared distance of two matrices. -/
def sqDist (T U : Fin S → Fin E → ℝ) : ℝ := ∑ s, ∑ e, (T s e - U s e) ^ 2

/-! ### Plans -/

theorem column_nearest (ext : DenseExt) (hp : ∀ n (x : Fin n → ℝ), 0 < n → NearestProb x (ext.simplex x)) (sim : Fin S → Fin E → ℝ) (hS : 0 < S)
    (e : Fin E) :
    (∀ s, 0 ≤ densePlan ext sim s e) ∧ ∑ s, densePlan ext sim s e = (S : ℝ) / E ∧
      ∀ q : Fin S → ℝ, (∀ s, 0 ≤ q s) → ∑ s, q s = (S : ℝ) / E →
        ∑ s, (densePlan ext sim s e - (ext.solve (fun s e => - sim s e) (fun _ => 1) (fun _ => (S : ℝ) / E) s + sim s e)) ^ 2 ≤
          ∑ s, (q s - (ext.solve (fun s e => - sim s e) (fun _ => 1) (fun _ => (S : ℝ) / E) s + sim s e)) ^ 2 := by
  have hE : 0 < E := Fin.pos e
  have hb : (0 : ℝ) < (S : ℝ) / E := by positivity
  generalize hal : ext.solve (fun s e => - sim s e) (fun _ => 1) (fun _ => (S : ℝ) / E) = al
  have hT : ∀ s, densePlan ext sim s e = ext.simplex (fun s => (al s - - sim s e) / (1 * ((S : ℝ) / E))) s * ((S : ℝ) / E) := by
    intro s
    unfold densePlan projectionTransport
    rw [hal]
  generalize hb' : (S : ℝ) / E = b at *
  obtain ⟨⟨p0, p1⟩, p2⟩ := hp S (fun s => (al s - - sim s e) / (1 * b)) hS
  refine ⟨fun s => by rw [hT]; exact mul_nonneg (p0 s) hb.le, ?_, ?_⟩
  · simp only [hT]
    rw [← Finset.sum_mul, p1, one_mul]
  · intro q q0 q1
    have := p2 (fun s => q s / b) (fun s => div_nonneg (q0 s) hb.le) (by rw [← Finset.sum_div, q1, div_self hb.ne'])
    have h2 := mul_le_mul_of_nonneg_left this (sq_nonneg b)
    rw [Finset.mul_sum, Finset.mul_sum] at h2
    refine le_trans (le_of_eq ?_) (le_trans h2 (le_of_eq ?_))
    · apply Finset.sum_congr rfl
      intro s _
      rw [hT, ← mul_pow]
      congr 1
      field_simp
      ring
    · apply Finset.sum_congr rfl
      intro s _
      rw [← mul_pow]
      congr 1
      field_simp
      ring

/-- Whatever the solver returned, every expert gets exactly the same share of the tokens, and the tokens give 1 on average. -/
theorem C108_columns (ext : DenseExt) (hp : ∀ n (x : Fin n → ℝ), 0 < n → NearestProb x (ext.simplex x)) (sim : Fin S → Fin E → ℝ) (hS : 0 < S)
    (hE : 0 < E) :
    (∀ s e, 0 ≤ densePlan ext sim s e) ∧ (∀ e, ∑ s, densePlan ext sim s e = (S : ℝ) / E) ∧
      ∑ s, ∑ e, densePlan ext sim s e = (S : ℝ) := by
  refine ⟨fun s e => (column_nearest ext hp sim hS e).1 s, fun e => (column_nearest ext hp sim hS e).2.1, ?_⟩
  rw [Finset.sum_comm]
  simp only [fun e => (column_nearest ext hp sim hS e).2.1]
  simp only [Finset.sum_const, Finset.card_univ, Fintype.card_fin, nsmul_eq_mul]
  field_simp

theorem sq_shift (T : Fin S → Fin E → ℝ) (al : Fin S → ℝ) (sim : Fin S → Fin E → ℝ) (h : ∀ s, ∑ e, T s e = 1) :
    ∑ e, ∑ s, (T s e - (al s + sim s e)) ^ 2 = sqDist T sim + ∑ s, (al s ^ 2 * E - 2 * al s + 2 * al s * ∑ e, sim s e) := by
  unfold sqDist
  rw [Finset.sum_comm, ← Finset.sum_add_distrib]
  apply Finset.sum_congr rfl
  intro s _
  have h1 : ∀ e, (T s e - (al s + sim s e)) ^ 2 = (T s e - sim s e) ^ 2 + al s ^ 2 - 2 * al s * T s e + 2 * al s * sim s e := by intro e; ring
  simp only [h1]
  rw [Finset.sum_add_distrib, Finset.sum_sub_distrib, Finset.sum_add_distrib, ← Finset.mul_sum, ← Finset.mul_sum, h s]
  simp only [Finset.sum_const, Finset.card_univ, Fintype.card_fin, nsmul_eq_mul]
  ring

/-- If the solver converged, so that the tokens give 1 each, the plan is the transport plan nearest to the softmax gates, and the only one. -/
theorem C108_nearest (ext : DenseExt) (hp : ∀ n (x : Fin n → ℝ), 0 < n → NearestProb x (ext.simplex x)) (sim : Fin S → Fin E → ℝ)
    (hS : 0 < S) (hrow : ∀ s, ∑ e, densePlan ext sim s e = 1) :
    Balanced (densePlan ext sim) ∧
    ∀ T : Fin S → Fin E → ℝ, Balanced T →
      sqDist (densePlan ext sim) sim ≤ sqDist T sim ∧ (sqDist T sim ≤ sqDist (densePlan ext sim) sim → T = densePlan ext sim) := by
  have hbal : Balanced (densePlan ext sim) :=
    ⟨fun s e => (column_nearest ext hp sim hS e).1 s, hrow, fun e => (column_nearest ext hp sim hS e).2.1⟩
  have hmin : ∀ T : Fin S → Fin E → ℝ, Balanced T → sqDist (densePlan ext sim) sim ≤ sqDist T sim := by
    intro T hT
    have h := Finset.sum_le_sum fun (e : Fin E) (_ : e ∈ Finset.univ) =>
      (column_nearest ext hp sim hS e).2.2 (fun s => T s e) (fun s => hT.1 s e) (hT.2.2 e)
    rw [sq_shift _ _ sim hrow, sq_shift _ _ sim hT.2.1] at h
    linarith
  refine ⟨hbal, fun T hT => ⟨hmin T hT, fun hle => ?_⟩⟩
  generalize hP : densePlan ext sim = P at *
  have hmid : Balanced fun s e => (T s e + P s e) / 2 := by
    refine ⟨fun s e => by have := hT.1 s e; have := hbal.1 s e; positivity, fun s => ?_, fun e => ?_⟩
    · rw [← Finset.sum_div, Finset.sum_add_distrib, hT.2.1, hbal.2.1]; norm_num
    · rw [← Finset.sum_div, Finset.sum_add_distrib, hT.2.2, hbal.2.2]; ring
  have h1 := hmin _ hmid
  have h2 : sqDist (fun s e => (T s e + P s e) / 2) sim = sqDist T sim / 2 + sqDist P sim / 2 - sqDist T P / 4 := by
    unfold sqDist
    simp only [Finset.sum_div]
    rw [← Finset.sum_add_distrib, ← Finset.sum_sub_distrib]
    apply Finset.sum_congr rfl
    intro s _
    rw [← Finset.sum_add_distrib, ← Finset.sum_sub_distrib]
    apply Finset.sum_congr rfl
    intro e _
    ring
  have h3 : sqDist T P ≤ 0 := by linarith
  have h4 : ∀ s, ∀ e, (T s e - P s e) ^ 2 = 0 := by
    intro s e
    have a : ∀ s, 0 ≤ ∑ e, (T s e - P s e) ^ 2 := fun s => Finset.sum_nonneg fun e _ => sq_nonneg _
    have b : ∑ s, ∑ e, (T s e - P s e) ^ 2 = 0 := le_antisymm h3 (Finset.sum_nonneg fun s _ => a s)
    rw [Finset.sum_eq_zero_iff_of_nonneg fun s _ => a s] at b
    have c := b s (Finset.mem_univ _)
    rw [Finset.sum_eq_zero_iff_of_nonneg fun e _ => sq_nonneg _] at c
    exact c e (Finset.mem_univ _)
  funext s e
  have := pow_eq_zero_iff (two_ne_zero) |>.1 (h4 s e)
  linarith

/-! ### The layer -/

theorem denseRouter_ok {ext : DenseExt} {fl : ℚ → ℚ} {d : DispatcherDict} {soft : Bool} {ndim : Nat} {logits : Fin S → Fin E → ℝ} {cap : Nat}
    {w : EinsumWeights ℝ S E cap} {aux : ℝ} (h : denseRouter ext fl d soft ndim logits = .ok (⟨cap, w⟩, aux)) :
    ndim = 3 ∧ aux = 0 ∧ createExpertChoice fl d (densePlan ext fun s => softmax (logits s))
      (if soft then some fun s => softmax (logits s) else none) = .ok ⟨cap, w⟩ := by
  unfold denseRouter denseGates at h
  by_cases hn : ndim ≠ 3
  · rw [if_pos hn] at h; cases h
  · rw [if_neg hn] at h
    simp only at h
    split at h
    · cases h
    · rename_i w' hw
      injection h with h
      injection h with h1 h2
      subst h1
      exact ⟨not_not.1 hn, h2.symm, hw⟩

/-- A token gets the sum over the experts that have it among the `cap` largest entries of their column of the plan, weighted by the softmax gates
or, without softmax combine weights, by the plan.  There is no auxiliary loss. -/
theorem C108_layer {P M N : Type*} [AddCommMonoid M] [Module ℝ M] [AddCommMonoid N] [Module ℝ N] (ext : DenseExt) (fl : ℚ → ℚ) (d : DispatcherDict)
    (soft : Bool) (ndim cap : Nat) (logits : Fin G → Fin S → Fin E → ℝ) (w : Fin G → EinsumWeights ℝ S E cap) (aux : Fin G → ℝ)
    (h : ∀ g, denseRouter ext fl d soft ndim (logits g) = .ok (⟨cap, w g⟩, aux g)) (params : Fin E → P) (f : P → M → N) (x : Fin G → Fin S → M)
    (g : Fin G) (s : Fin S) :
    aux g = 0 ∧ cap ≤ S ∧
    sparseMoe (einsumDispatch w) (einsumCombine w) params f x g s =
      ∑ e ∈ Finset.univ.filter (fun e => itemRank (densePlan ext fun s => softmax (logits g s)) s e < cap),
        (if soft then softmax (logits g s) e else densePlan ext (fun s => softmax (logits g s)) s e) • f (params e) (x g s) := by
  refine ⟨(denseRouter_ok (h g)).2.1, (createExpertChoice_ok (denseRouter_ok (h g)).2.2).2.choose, ?_⟩
  cases soft with
  | true =>
    simp only [if_true]
    exact C74_expert_choice_layer fl d cap (fun g => densePlan ext fun s => softmax (logits g s)) (fun g s => softmax (logits g s)) w
      (fun g => (denseRouter_ok (h g)).2.2) params f x g s
  | false =>
    have key : ∀ g, ∃ hC : cap ≤ S, w g = topItemsEinsum (densePlan ext fun s => softmax (logits g s)) cap hC :=
      fun g => (createExpertChoice_ok (denseRouter_ok (h g)).2.2).2
    obtain ⟨hC, -⟩ := key g
    have hw : w = fun g => topItemsEinsum (densePlan ext fun s => softmax (logits g s)) cap hC := funext fun g => (key g).2
    rw [hw, C08_moe_layer]
    simp

/-- With room for all tokens, every token goes to all experts. -/
theorem C108_all_experts {P M N : Type*} [AddCommMonoid M] [Module ℝ M] [AddCommMonoid N] [Module ℝ N] (ext : DenseExt) (fl : ℚ → ℚ)
    (d : DispatcherDict) (soft : Bool) (ndim : Nat) (logits : Fin G → Fin S → Fin E → ℝ) (w : Fin G → EinsumWeights ℝ S E S) (aux : Fin G → ℝ)
    (h : ∀ g, denseRouter ext fl d soft ndim (logits g) = .ok (⟨S, w g⟩, aux g)) (params : Fin E → P) (f : P → M → N) (x : Fin G → Fin S → M)
    (g : Fin G) (s : Fin S) :
    sparseMoe (einsumDispatch w) (einsumCombine w) params f x g s =
      ∑ e, (if soft then softmax (logits g s) e else densePlan ext (fun s => softmax (logits g s)) s e) • f (params e) (x g s) := by
  rw [(C108_layer ext fl d soft ndim S logits w aux h params f x g s).2.2]
  congr 1
  rw [Finset.filter_true_of_mem]
  intro e _
  unfold itemRank
  refine lt_of_lt_of_eq (Finset.card_lt_card ?_) (Finset.card_fin S)
  rw [Finset.ssubset_univ_iff]
  intro hu
  have := hu ▸ Finset.mem_univ s
  simp at this

/-- The router works exactly for inputs of three dimensions with a dispatcher that works. -/
theorem C108_errors (ext : DenseExt) (fl : ℚ → ℚ) (d : DispatcherDict) (soft : Bool) (ndim : Nat) (logits : Fin S → Fin E → ℝ) :
    (ndim ≠ 3 → denseRouter ext fl d soft ndim logits = .error .valueError) ∧
    ((∃ r, denseRouter ext fl d soft ndim logits = .ok r) ↔ ndim = 3 ∧ d.name = "einsum" ∧
      ∃ cap, resolveCapacity fl S E d.capacity d.capacityFactor (d.ceilOrRound.getD "ceil") (d.multipleOf.getD (some 4)) = .ok cap ∧ cap ≤ S) := by
  constructor
  · intro h
    unfold denseRouter denseGates
    rw [if_pos h]
  · constructor
    · rintro ⟨⟨⟨cap, w⟩, aux⟩, h⟩
      obtain ⟨h1, h2, h3⟩ := denseRouter_ok h
      obtain ⟨h4, h5, _⟩ := createExpertChoice_ok h3
      refine ⟨h1, ?_, cap, h4, h5⟩
      by_contra hn
      unfold createExpertChoice getTopItemsPerExpertDispatcher at h3
      rw [h4] at h3
      simp only [ne_eq, hn, not_false_eq_true, if_true] at h3
      cases h3
    · rintro ⟨rfl, hn, cap, hres, hC⟩
      unfold denseRouter denseGates
      rw [if_neg (by simp)]
      simp only
      have : ∃ w, createExpertChoice fl d (densePlan ext fun s => softmax (logits s)) (if soft then some fun s => softmax (logits s) else none) =
          .ok ⟨cap, w⟩ := by
        unfold createExpertChoice getTopItemsPerExpertDispatcher
        simp only [hres, hn, ne_eq, not_true_eq_false, if_false, hC, dite_true]
        cases soft
        · exact ⟨_, rfl⟩
        · exact ⟨_, rfl⟩
      obtain ⟨w, hw⟩ := this
      exact ⟨(⟨cap, w⟩, 0), by rw [hw]⟩

/-! ### The documentation -/

/-- The contract of the projection can be met, with any solver. -/
theorem exists_denseExt (al : {m n : Nat} → (Fin m → Fin n → ℝ) → (Fin m → ℝ) → (Fin n → ℝ) → Fin m → ℝ) :
    ∃ ext : DenseExt, (∀ n (x : Fin n → ℝ), 0 < n → NearestProb x (ext.simplex x)) ∧ @ext.solve = @al := by
  classical
  have key : ∀ n (x : Fin n → ℝ), 0 < n → ∃ p, NearestProb x p := by
    intro n x hn
    obtain ⟨p, ⟨h0, h1, -⟩, h2⟩ := nearestSparse_exists hn hn x
    refine ⟨p, ⟨h0, h1⟩, fun q q0 q1 => h2 q ⟨q0, q1, ?_⟩⟩
    exact le_trans (Finset.card_le_univ _) (by simp)
  refine ⟨⟨fun {n} x => if h : 0 < n then Classical.choose (key n x h) else x, al⟩, ?_, rfl⟩
  intro n x hn
  simp only [dif_pos hn]
  exact Classical.choose_spec (key n x hn)

/-- The projection in two dimensions. -/
theorem nearest_two (x p : Fin 2 → ℝ) (h : NearestProb x p) (t : ℝ) (h0 : 0 ≤ t) (h1 : t ≤ 1)
    (ht : t = (1 + x 0 - x 1) / 2 ∨ (t = 1 ∧ 1 ≤ (1 + x 0 - x 1) / 2)) : p 0 = t := by
  obtain ⟨⟨p0, p1⟩, p2⟩ := h
  have := p2 ![t, 1 - t] (by intro i; fin_cases i <;> simp <;> linarith) (by simp)
  simp only [Fin.sum_univ_two, Matrix.cons_val_zero, Matrix.cons_val_one] at this p1
  have hp0 := p0 0
  have hp1 := p0 1
  have e1 : p 1 = 1 - p 0 := by linarith
  rw [e1] at this
  rcases ht with ht | ⟨rfl, ht⟩
  · have : (p 0 - t) ^ 2 ≤ 0 := by
      have hx : x 1 = 1 + x 0 - 2 * t := by linarith
      rw [hx] at this
      nlinarith
    nlinarith [sq_nonneg (p 0 - t), pow_eq_zero_iff (two_ne_zero) |>.1 (le_antisymm this (sq_nonneg _))]
  · by_contra hne
    have hlt : p 0 < 1 := lt_of_le_of_ne (by linarith) hne
    nlinarith

/-- The gates of the counterexample. -/
noncomputable def unbalanced : Fin 2 → Fin 3 → ℝ := ![![18 / 20, 1 / 20, 1 / 20], ![2 / 20, 9 / 20, 9 / 20]]

theorem softmax_log (p : Fin 3 → ℝ) (h0 : ∀ i, 0 < p i) (h1 : ∑ i, p i = 1) : softmax (fun i => Real.log (p i)) = p := by
  funext i
  unfold softmax
  simp only [fun i => Real.exp_log (h0 i), h1, div_one]

/-- The documentation says that the rows of the plan are probability vectors.  This needs a solver that converges: with the plan of the first dual
variable (zero) the first of these two tokens gives 14/15. -/
theorem C108_rows_counterexample :
    ∃ (ext : DenseExt) (logits : Fin 2 → Fin 3 → ℝ), (∀ n (x : Fin n → ℝ), 0 < n → NearestProb x (ext.simplex x)) ∧
      (∀ s, softmax (logits s) = unbalanced s) ∧ ∑ e, densePlan ext (fun s => softmax (logits s)) 0 e = 14 / 15 := by
  obtain ⟨ext, hp, hs⟩ := exists_denseExt fun _ _ _ _ => 0
  have hsm : ∀ s, softmax (fun e => Real.log (unbalanced s e)) = unbalanced s := by
    intro s
    apply softmax_log
    · intro i
      fin_cases s <;> fin_cases i <;> simp [unbalanced]
    · fin_cases s <;> simp [unbalanced, Fin.sum_univ_three] <;> norm_num
  refine ⟨ext, fun s e => Real.log (unbalanced s e), hp, hsm, ?_⟩
  have hfun : (fun s => softmax (fun e => Real.log (unbalanced s e))) = unbalanced := funext hsm
  rw [hfun]
  unfold densePlan projectionTransport
  rw [hs]
  simp only [Fin.sum_univ_three]
  rw [nearest_two _ _ (hp 2 (fun i => (0 - -unbalanced i 0) / (1 * (((2 : Nat) : ℝ) / ((3 : Nat) : ℝ)))) (by norm_num)) 1 (by norm_num) (by norm_num)
    (.inr ⟨rfl, by simp [unbalanced]; norm_num⟩),
    nearest_two _ _ (hp 2 (fun i => (0 - -unbalanced i 1) / (1 * (((2 : Nat) : ℝ) / ((3 : Nat) : ℝ)))) (by norm_num)) (1 / 5) (by norm_num) (by norm_num)
    (.inl (by simp [unbalanced]; norm_num)),
    nearest_two _ _ (hp 2 (fun i => (0 - -unbalanced i 2) / (1 * (((2 : Nat) : ℝ) / ((3 : Nat) : ℝ)))) (by norm_num)) (1 / 5) (by norm_num) (by norm_num)
    (.inl (by simp [unbalanced]; norm_num))]
  norm_num

/-- The documentation says that every token is sent to all experts.  With room for one of two tokens and the balanced plan
of equal gates, both experts take the first token and the second reaches none. -/
theorem C108_all_experts_counterexample :
    let plan : Fin 2 → Fin 2 → ℚ := fun _ _ => 1 / 2
    let w := topItemsEinsum plan 1 (by decide)
    (∀ e c, w.dispatchWeights 1 e c = false) ∧ ∀ e, w.dispatchWeights 0 e 0 = true := by
  decide +kernel

/-- A solver that converged at once: equal gates. -/
example : ∃ ext : DenseExt, (∀ n (x : Fin n → ℝ), 0 < n → NearestProb x (ext.simplex x)) ∧
    ∀ s : Fin 2, ∑ e : Fin 2, densePlan ext (fun (_ : Fin 2) (_ : Fin 2) => (1 : ℝ) / 2) s e = 1 := by
  obtain ⟨ext, hp, hs⟩ := exists_denseExt fun _ _ _ _ => 0
  refine ⟨ext, hp, ?_⟩
  have h0 := nearest_two _ _ (hp 2 (fun i => (0 - -((1 : ℝ) / 2)) / (1 * (((2 : Nat) : ℝ) / ((2 : Nat) : ℝ)))) (by norm_num)) (1 / 2) (by norm_num)
    (by norm_num) (.inl (by norm_num))
  have h1 := (hp 2 (fun i => (0 - -((1 : ℝ) / 2)) / (1 * (((2 : Nat) : ℝ) / ((2 : Nat) : ℝ)))) (by norm_num)).1.2
  rw [Fin.sum_univ_two, h0] at h1
  unfold densePlan projectionTransport
  rw [hs]
  intro s
  simp only [Fin.sum_univ_two]
  fin_cases s
  · change ext.simplex _ 0 * _ + ext.simplex _ 0 * _ = 1
    rw [h0]
    norm_num
  · change ext.simplex _ 1 * _ + ext.simplex _ 1 * _ = 1
    norm_num at h1 ⊢
    linarith

/-- Three tokens, two experts, one place per expert. -/
example (ext : DenseExt) (logits : Fin 3 → Fin 2 → ℝ) (soft : Bool) : ∃ r,
    denseRouter ext id ⟨"einsum", false, some 1, none, none, none⟩ soft 3 logits = .ok r :=
  (C108_errors ext id _ soft 3 logits).2.2 ⟨rfl, rfl, 1, rfl, by norm_num⟩

/-- Room for all tokens. -/
example (ext : DenseExt) (logits : Fin 3 → Fin 2 → ℝ) (soft : Bool) : ∃ w aux,
    denseRouter ext id ⟨"einsum", false, some 3, none, none, none⟩ soft 3 logits = .ok (⟨3, w⟩, aux) := by
  cases soft <;> exact ⟨_, _, rfl⟩

end Verif.OtRouting
