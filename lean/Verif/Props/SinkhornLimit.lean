import Verif.Proofs.Sinkhorn
import Verif.Props.RoutingStability

/-!
# C161: what the KL projection routers compute in the limit

With more and more iterations the plan of the routers that project with Sinkhorn
(vmoe/projects/sparsity_constrained_ot/kl_projection_routing.py:130-159,227-249) goes to the plan that the
docstring describes (lines 44-47): every row is a probability vector, every column sums to the same number
of tokens.
-/

namespace Verif.OtRouting

open Verif Verif.Spec Verif.RoutingStability Filter

variable {S E : Nat}

/-- The plans of the docstring: shares of the experts for every token, and the same load for every expert. -/
def IsPlan (P : Fin S → Fin E → ℝ) : Prop :=
  (∀ s e, 0 ≤ P s e) ∧ (∀ s, ∑ e, P s e = 1) ∧ ∀ e, ∑ s, P s e = (S : ℝ) / E

/-- The Kullback-Leibler divergence of a plan from the exponentials of the logits, up to the masses of both,
which are the same for all plans. -/
noncomputable def divergence (sim : Fin S → Fin E → ℝ) (P : Fin S → Fin E → ℝ) : ℝ :=
  ∑ s, ∑ e, P s e * (Real.log (P s e) - sim s e)

/-- C161: the loads of the experts go to the fair share, and the distance shrinks by a factor with every
iteration.  The factor depends on the spread of the logits and the number of experts, not on the tokens. -/
theorem C161_balanced (hS : 0 < S) (hE : 0 < E) (sim : Fin S → Fin E → ℝ) (D : ℝ)
    (hD : ∀ s s' e e', sim s e - sim s' e' ≤ D) (n : Nat) (e : Fin E) :
    |∑ s, klPlan (n + 1) sim s e - (S : ℝ) / E| ≤ S * (Real.exp (2 * D) * (1 - Real.exp (-(2 * D)) / E) ^ n) := by
  have hneS : Nonempty (Fin S) := ⟨⟨0, hS⟩⟩
  have hrows := C75_rows hS hE (n + 1) (by omega) sim
  have hL : 0 < load (klPlan (n + 1) sim) e := Finset.sum_pos (fun s _ => (hrows.1 s e).1) Finset.univ_nonempty
  have hle : load (klPlan (n + 1) sim) e ≤ S := by
    calc load (klPlan (n + 1) sim) e ≤ ∑ _s : Fin S, (1 : ℝ) := Finset.sum_le_sum fun s _ => (hrows.1 s e).2
      _ = S := by simp
  have h := factors_one hS hE sim D hD n e
  have h1 : ∑ s, klPlan (n + 1) sim s e - (S : ℝ) / E =
      -(load (klPlan (n + 1) sim) e * (factor (klPlan (n + 1) sim) e - 1)) := by
    have h2 : load (klPlan (n + 1) sim) e * factor (klPlan (n + 1) sim) e = (S : ℝ) / E := by
      unfold factor
      rw [mul_div_cancel₀ _ hL.ne']
    rw [mul_sub, h2, mul_one]
    unfold load
    ring
  rw [h1, abs_neg, abs_mul, abs_of_pos hL]
  exact mul_le_mul hle h (abs_nonneg _) (Nat.cast_nonneg _)

theorem spread_exists (sim : Fin S → Fin E → ℝ) : ∃ D, ∀ s s' e e', sim s e - sim s' e' ≤ D := by
  refine ⟨∑ s, ∑ e, |sim s e| + ∑ s, ∑ e, |sim s e|, fun s s' e e' => ?_⟩
  have h : ∀ s e, |sim s e| ≤ ∑ s, ∑ e, |sim s e| := fun s e =>
    (Finset.single_le_sum (f := fun e => |sim s e|) (fun e _ => abs_nonneg _) (Finset.mem_univ e)).trans
      (Finset.single_le_sum (f := fun s => ∑ e, |sim s e|)
        (fun s _ => Finset.sum_nonneg fun e _ => abs_nonneg _) (Finset.mem_univ s))
  have h1 := (le_abs_self _).trans (h s e)
  have h2 := (neg_abs_le (sim s' e')).trans' (neg_le_neg (h s' e'))
  linarith

theorem gap_nonneg (x y : ℝ) (hx : 0 ≤ x) (hy : 0 < y) :
    0 ≤ x * (Real.log x - Real.log y) - x + y ∧ (x * (Real.log x - Real.log y) - x + y = 0 → x = y) := by
  rcases hx.eq_or_lt with rfl | hx
  · simp only [zero_mul, sub_zero, zero_add]
    exact ⟨hy.le, fun h => h.symm⟩
  · by_cases hxy : x = y
    · subst hxy
      simp
    · have h1 : Real.log (y / x) < y / x - 1 := Real.log_lt_sub_one_of_pos (by positivity) (by
        intro h
        rw [div_eq_one_iff_eq hx.ne'] at h
        exact hxy h.symm)
      rw [Real.log_div hy.ne' hx.ne'] at h1
      have h2 := mul_lt_mul_of_pos_left h1 hx
      have h3 : x * (y / x - 1) = y - x := by field_simp
      rw [h3] at h2
      have h4 : 0 < x * (Real.log x - Real.log y) - x + y := by nlinarith
      exact ⟨h4.le, fun h => absurd h h4.ne'⟩

/-- A positive plan whose logarithms are orthogonal to the differences of plans is the only nearest one. -/
theorem nearest (sim P : Fin S → Fin E → ℝ) (hpos : ∀ s e, 0 < P s e) (hP : IsPlan P)
    (horth : ∀ Q, IsPlan Q → ∑ s, ∑ e, (Q s e - P s e) * (Real.log (P s e) - sim s e) = 0) (Q : Fin S → Fin E → ℝ) (hQ : IsPlan Q) :
    divergence sim P ≤ divergence sim Q ∧ (divergence sim Q ≤ divergence sim P → Q = P) := by
  have h1 : divergence sim Q - divergence sim P =
      ∑ s, ∑ e, (Q s e * (Real.log (Q s e) - Real.log (P s e)) - Q s e + P s e) := by
    have h2 := horth Q hQ
    have h3 : ∑ s, ∑ e, (Q s e - P s e) = 0 := by
      simp only [Finset.sum_sub_distrib, hQ.2.1, hP.2.1, sub_self, Finset.sum_const_zero]
    calc divergence sim Q - divergence sim P
        = divergence sim Q - divergence sim P - ∑ s, ∑ e, (Q s e - P s e) * (Real.log (P s e) - sim s e) -
            ∑ s, ∑ e, (Q s e - P s e) := by rw [h2, h3]; ring
      _ = _ := by
        unfold divergence
        simp only [← Finset.sum_sub_distrib]
        refine Finset.sum_congr rfl fun s _ => Finset.sum_congr rfl fun e _ => ?_
        ring
  have hnn : ∀ s e, 0 ≤ Q s e * (Real.log (Q s e) - Real.log (P s e)) - Q s e + P s e := fun s e =>
    (gap_nonneg _ _ (hQ.1 s e) (hpos s e)).1
  have hsum : 0 ≤ divergence sim Q - divergence sim P := by
    rw [h1]
    exact Finset.sum_nonneg fun s _ => Finset.sum_nonneg fun e _ => hnn s e
  refine ⟨by linarith, fun hle => ?_⟩
  have h0 : ∑ s, ∑ e, (Q s e * (Real.log (Q s e) - Real.log (P s e)) - Q s e + P s e) = 0 := by
    rw [← h1]
    linarith
  funext s e
  rw [Finset.sum_eq_zero_iff_of_nonneg fun s _ => Finset.sum_nonneg fun e _ => hnn s e] at h0
  have h2 := h0 s (Finset.mem_univ _)
  rw [Finset.sum_eq_zero_iff_of_nonneg fun e _ => hnn s e] at h2
  exact (gap_nonneg _ _ (hQ.1 s e) (hpos s e)).2 (h2 e (Finset.mem_univ _))

/-- Sums of rows and columns do not distinguish plans. -/
theorem plans_orth (P Q : Fin S → Fin E → ℝ) (hP : IsPlan P) (hQ : IsPlan Q) (a : Fin S → ℝ) (b : Fin E → ℝ) :
    ∑ s, ∑ e, (Q s e - P s e) * (a s + b e) = 0 := by
  have h1 : ∑ s, ∑ e, (Q s e - P s e) * a s = 0 := by
    refine Finset.sum_eq_zero fun s _ => ?_
    rw [← Finset.sum_mul, Finset.sum_sub_distrib, hQ.2.1, hP.2.1, sub_self, zero_mul]
  have h2 : ∑ s, ∑ e, (Q s e - P s e) * b e = 0 := by
    rw [Finset.sum_comm]
    refine Finset.sum_eq_zero fun e _ => ?_
    rw [← Finset.sum_mul, Finset.sum_sub_distrib, hQ.2.2, hP.2.2, sub_self, zero_mul]
  simp only [mul_add, Finset.sum_add_distrib, h1, h2, add_zero]

theorem klPlan_log (hS : 0 < S) (hE : 0 < E) (n : Nat) (sim : Fin S → Fin E → ℝ) :
    ∃ (a : Fin S → ℝ) (b : Fin E → ℝ), ∀ s e, Real.log (klPlan n sim s e) - sim s e = a s + b e := by
  have hk : ∀ (s : Fin S) (e : Fin E), 0 < Real.exp (- (- sim s e) / 1) := fun _ _ => Real.exp_pos _
  obtain ⟨hu, hv⟩ := scalings_pos _ (fun _ => (S : ℝ) / E) hS hE hk (fun _ => by positivity) n
  refine ⟨fun s => Real.log ((sinkhornScalings (fun s e => Real.exp (- (- sim s e) / 1)) (fun _ => 1) (fun _ => (S : ℝ) / E) n).1 s),
    fun e => Real.log ((sinkhornScalings (fun s e => Real.exp (- (- sim s e) / 1)) (fun _ => 1) (fun _ => (S : ℝ) / E) n).2 e),
    fun s e => ?_⟩
  unfold klPlan
  simp only
  rw [Real.log_mul (mul_pos (hu s) (hk s e)).ne' (hv e).ne', Real.log_mul (hu s).ne' (hk s e).ne', Real.log_exp]
  ring

/-- C161: for all logits the iterations converge.  The limit is a plan as in the docstring, with positive
shares, and among all these plans it is the nearest to the exponentials of the logits, and the only nearest. -/
theorem C161_projection (hS : 0 < S) (hE : 0 < E) (sim : Fin S → Fin E → ℝ) :
    ∃ P : Fin S → Fin E → ℝ, (∀ s e, Tendsto (fun n => klPlan n sim s e) atTop (nhds (P s e))) ∧
      IsPlan P ∧ (∀ s e, 0 < P s e) ∧
      (∀ Q, IsPlan Q → divergence sim P ≤ divergence sim Q ∧ (divergence sim Q ≤ divergence sim P → Q = P)) ∧
      ∀ D, (∀ s s' e e', sim s e - sim s' e' ≤ D) → ∀ n s e,
        |klPlan (n + 1) sim s e - P s e| ≤ E ^ 2 * Real.exp (4 * D) * (1 - Real.exp (-(2 * D)) / E) ^ n ∧
        Real.exp (-(2 * D)) / E ≤ P s e := by
  have hE' : (0 : ℝ) < E := by exact_mod_cast hE
  obtain ⟨D, hD⟩ := spread_exists sim
  have hr : 1 - least E D < 1 := by have := least_pos hE D; linarith
  have hlim : ∀ s e, ∃ p, Tendsto (fun n => klPlan (n + 1) sim s e) atTop (nhds p) := fun s e =>
    cauchySeq_tendsto_of_complete (cauchySeq_of_le_geometric _ _ hr (fun n => plans_near hS hE sim D hD n s e))
  choose P hP using hlim
  have hrow : ∀ s, ∑ e, P s e = 1 := by
    intro s
    have h := tendsto_finsetSum Finset.univ fun e _ => hP s e
    simp only [(C75_rows hS hE _ (Nat.le_add_left 1 _) sim).2.1 s] at h
    exact (tendsto_nhds_unique h tendsto_const_nhds)
  have hleast : ∀ s e, least E D ≤ P s e := fun s e => ge_of_tendsto' (hP s e) fun n => entries_least hS hE n sim D hD s e
  have hpos : ∀ s e, 0 < P s e := fun s e => (least_pos hE D).trans_le (hleast s e)
  have hcol : ∀ e, ∑ s, P s e = (S : ℝ) / E := by
    intro e
    have h := tendsto_finsetSum Finset.univ fun s _ => hP s e
    refine tendsto_nhds_unique h ?_
    rw [tendsto_iff_dist_tendsto_zero]
    have h0 : Tendsto (fun n : ℕ => S * (Real.exp (2 * D) * (1 - Real.exp (-(2 * D)) / E) ^ n)) atTop (nhds 0) := by
      have h1 : Tendsto (fun n : ℕ => (1 - Real.exp (-(2 * D)) / E) ^ n) atTop (nhds 0) := by
        refine tendsto_pow_atTop_nhds_zero_of_lt_one ?_ hr
        have := least_le hS hE sim D hD
        unfold least at this
        linarith
      have h2 := (h1.const_mul (Real.exp (2 * D))).const_mul (S : ℝ)
      simpa using h2
    exact squeeze_zero (fun _ => dist_nonneg) (fun n => by rw [Real.dist_eq]; exact C161_balanced hS hE sim D hD n e) h0
  have hplan : IsPlan P := ⟨fun s e => (hpos s e).le, hrow, hcol⟩
  refine ⟨P, fun s e => (tendsto_add_atTop_iff_nat 1).1 (hP s e), hplan, hpos, ?_, ?_⟩
  · refine fun Q hQ => nearest sim P hpos hplan (fun Q hQ => ?_) Q hQ
    have ht : Tendsto (fun n => ∑ s, ∑ e, (Q s e - P s e) * (Real.log (klPlan (n + 1) sim s e) - sim s e)) atTop
        (nhds (∑ s, ∑ e, (Q s e - P s e) * (Real.log (P s e) - sim s e))) :=
      tendsto_finsetSum _ fun s _ => tendsto_finsetSum _ fun e _ =>
        (((Real.continuousAt_log (hpos s e).ne').tendsto.comp (hP s e)).sub_const _).const_mul _
    refine tendsto_nhds_unique ht ?_
    have : ∀ n, ∑ s, ∑ e, (Q s e - P s e) * (Real.log (klPlan (n + 1) sim s e) - sim s e) = 0 := by
      intro n
      obtain ⟨a, b, hab⟩ := klPlan_log hS hE (n + 1) sim
      simp only [hab]
      exact plans_orth P Q hplan hQ a b
    simp only [this]
    exact tendsto_const_nhds
  · intro D hD n s e
    refine ⟨?_, ge_of_tendsto' (hP s e) fun n => entries_least hS hE n sim D hD s e⟩
    have hr : 1 - least E D < 1 := by have := least_pos hE D; linarith
    have h := dist_le_of_le_geometric_of_tendsto _ _ hr (fun n => plans_near hS hE sim D hD n s e) (hP s e) n
    rw [Real.dist_eq] at h
    refine h.trans (le_of_eq ?_)
    have h4 : Real.exp (4 * D) = Real.exp (2 * D) * Real.exp (2 * D) := by rw [← Real.exp_add]; congr 1; ring
    rw [h4]
    unfold least
    rw [sub_sub_cancel, Real.exp_neg]
    have := (Real.exp_pos (2 * D)).ne'
    field_simp

/-- C161: any plan as in the docstring that scales the exponentials of the logits by rows and columns, however it
was found (the routers can also use another solver), is this limit. -/
theorem C161_unique (hS : 0 < S) (hE : 0 < E) (sim : Fin S → Fin E → ℝ) (P : Fin S → Fin E → ℝ) (hP : IsPlan P)
    (a : Fin S → ℝ) (b : Fin E → ℝ) (hab : ∀ s e, P s e = Real.exp (sim s e + a s + b e)) (s : Fin S) (e : Fin E) :
    Tendsto (fun n => klPlan n sim s e) atTop (nhds (P s e)) := by
  obtain ⟨P', hlim, hP', -, hmin, -⟩ := C161_projection hS hE sim
  have h := nearest sim P (fun s e => by rw [hab]; exact Real.exp_pos _) hP (fun Q hQ => by
    have : ∀ s e, Real.log (P s e) - sim s e = a s + b e := fun s e => by rw [hab, Real.log_exp]; ring
    simp only [this]
    exact plans_orth P Q hP hQ a b) P' hP'
  have : P' = P := h.2 (hmin P hP).1
  rw [← this]
  exact hlim s e

/-- C161: the routing settles.  If the shares in the limit differ by `2 δ`, then once the bound of the distance is below `δ`
further iterations change nothing: neither which requests are kept, in either order of priority, nor, when the
experts choose, their order of the tokens. -/
theorem C161_settles (hS : 0 < S) (hE : 0 < E) (sim P : Fin S → Fin E → ℝ)
    (hP : ∀ s e, Tendsto (fun n => klPlan n sim s e) atTop (nhds (P s e))) (D : ℝ) (hD : ∀ s s' e e', sim s e - sim s' e' ≤ D)
    (δ : ℝ) (n : Nat) (hn : E ^ 2 * Real.exp (4 * D) * (1 - Real.exp (-(2 * D)) / E) ^ n < δ) (m : Nat) (hm : n < m) :
    (∀ bp, (∀ s e e', e ≠ e' → 2 * δ ≤ |P s e - P s e'|) →
      (bp = true → ∀ s s', s ≠ s' → 2 * δ ≤ |topGate hE P s - topGate hE P s'|) →
      ∀ K cap s e, Kept hE bp (klPlan m sim) K cap s e ↔ Kept hE bp P K cap s e) ∧
    ((∀ e s s', s ≠ s' → 2 * δ ≤ |P s e - P s' e|) → ∀ s e, itemRank (klPlan m sim) s e = itemRank P s e) := by
  obtain ⟨m, rfl⟩ : ∃ k, m = k + 1 := ⟨m - 1, by omega⟩
  obtain ⟨P', hlim, -, -, -, hrate⟩ := C161_projection hS hE sim
  have hPP : P' = P := by
    funext s e
    exact tendsto_nhds_unique (hlim s e) (hP s e)
  subst hPP
  have hρ : 0 ≤ 1 - Real.exp (-(2 * D)) / E ∧ 1 - Real.exp (-(2 * D)) / E ≤ 1 := by
    have h1 := least_le hS hE sim D hD
    have h2 := least_pos hE D
    unfold least at h1 h2
    constructor <;> linarith
  have hclose : ∀ s e, |klPlan (m + 1) sim s e - P' s e| < δ := by
    intro s e
    refine ((hrate D hD m s e).1.trans ?_).trans_lt hn
    exact mul_le_mul_of_nonneg_left (pow_le_pow_of_le_one hρ.1 hρ.2 (by omega)) (by positivity)
  refine ⟨fun bp hrow htop K cap s e => ?_, fun hcol s e => ?_⟩
  · exact (kept_same hE bp (fun s => sameOrder_of_margin δ (hrow s) (hclose s))
      (fun hb => sameOrder_of_margin δ (htop hb) (topGate_close hE hclose)) cap s e).symm
  · exact (itemRank_same (fun e => sameOrder_of_margin δ (hcol e) fun s => hclose s e) s e).symm

/-- Logits of two tokens for two experts: both like the first expert, the second token likes it more. -/
noncomputable def twoLogits : Fin 2 → Fin 2 → ℝ := ![![1, 0], ![2, 0]]

/-- The plan of `twoLogits` in the limit. -/
noncomputable def twoPlan : Fin 2 → Fin 2 → ℝ :=
  ![![Real.exp (-(1 / 2)) / (1 + Real.exp (-(1 / 2))), 1 / (1 + Real.exp (-(1 / 2)))],
    ![1 / (1 + Real.exp (-(1 / 2))), Real.exp (-(1 / 2)) / (1 + Real.exp (-(1 / 2)))]]

theorem twoPlan_isPlan : IsPlan twoPlan := by
  unfold twoPlan
  refine ⟨?_, ?_, ?_⟩
  · intro s e
    fin_cases s <;> fin_cases e <;> simp <;> positivity
  · have : (1 + Real.exp (-(1 / 2))) ≠ 0 := by positivity
    intro s
    fin_cases s <;> simp [Fin.sum_univ_two] <;> field_simp <;> ring
  · have : (1 + Real.exp (-(1 / 2))) ≠ 0 := by positivity
    intro e
    fin_cases e <;> simp [Fin.sum_univ_two] <;> field_simp <;> ring

/-- The second token has the larger share of the first expert. -/
theorem twoLogits_limit (s e : Fin 2) : Tendsto (fun n => klPlan n twoLogits s e) atTop (nhds (twoPlan s e)) := by
  refine C161_unique (S := 2) (E := 2) (by norm_num) (by norm_num) twoLogits twoPlan twoPlan_isPlan
    ![-Real.log (1 + Real.exp (-(1 / 2))), -(1 / 2) - Real.log (1 + Real.exp (-(1 / 2)))] ![-(3 / 2), 0] ?_ s e
  have h0 : 0 < 1 + Real.exp (-(1 / 2)) := by positivity
  have key : ∀ x : ℝ, Real.exp (x - Real.log (1 + Real.exp (-(1 / 2)))) = Real.exp x / (1 + Real.exp (-(1 / 2))) := by
    intro x
    rw [Real.exp_sub, Real.exp_log h0]
  have e1 : Real.exp (0 - Real.log (1 + Real.exp (-(1 / 2)))) = 1 / (1 + Real.exp (-(1 / 2))) := by rw [key, Real.exp_zero]
  intro s e
  fin_cases s <;> fin_cases e
  · show Real.exp (-(1 / 2)) / (1 + Real.exp (-(1 / 2))) = Real.exp (1 + -Real.log (1 + Real.exp (-(1 / 2))) + -(3 / 2))
    rw [← key]; congr 1; ring
  · show 1 / (1 + Real.exp (-(1 / 2))) = Real.exp (0 + -Real.log (1 + Real.exp (-(1 / 2))) + 0)
    rw [← e1]; congr 1; ring
  · show 1 / (1 + Real.exp (-(1 / 2))) = Real.exp (2 + (-(1 / 2) - Real.log (1 + Real.exp (-(1 / 2)))) + -(3 / 2))
    rw [← e1]; congr 1; ring
  · show Real.exp (-(1 / 2)) / (1 + Real.exp (-(1 / 2))) = Real.exp (0 + (-(1 / 2) - Real.log (1 + Real.exp (-(1 / 2)))) + 0)
    rw [← key]; congr 1; ring

example : IsPlan twoPlan ∧ Tendsto (fun n => klPlan n twoLogits 1 0) atTop (nhds (1 / (1 + Real.exp (-(1 / 2))))) :=
  ⟨twoPlan_isPlan, twoLogits_limit 1 0⟩

example (n : Nat) (e : Fin 2) : |∑ s, klPlan (n + 1) twoLogits s e - ((2 : ℕ) : ℝ) / (2 : ℕ)| ≤
    (2 : ℕ) * (Real.exp (2 * 2) * (1 - Real.exp (-(2 * 2)) / (2 : ℕ)) ^ n) := by
  refine C161_balanced (by norm_num) (by norm_num) twoLogits 2 (fun s s' e e' => ?_) n e
  fin_cases s <;> fin_cases s' <;> fin_cases e <;> fin_cases e' <;> simp [twoLogits] <;> norm_num

theorem twoPlan_gap (s e e' : Fin 2) (h : e ≠ e') :
    2 * ((1 - Real.exp (-(1 / 2))) / (1 + Real.exp (-(1 / 2))) / 2) ≤ |twoPlan s e - twoPlan s e'| := by
  have h1 : Real.exp (-(1 / 2)) < 1 := by rw [Real.exp_lt_one_iff]; norm_num
  have h0 : 0 < 1 + Real.exp (-(1 / 2)) := by positivity
  have h2 : |(1 - Real.exp (-(1 / 2))) / (1 + Real.exp (-(1 / 2)))| = (1 - Real.exp (-(1 / 2))) / (1 + Real.exp (-(1 / 2))) :=
    abs_of_nonneg (div_nonneg (by linarith) h0.le)
  rw [mul_div_cancel₀ _ two_ne_zero, ← h2]
  refine le_of_eq ?_
  fin_cases s <;> fin_cases e <;> fin_cases e' <;> first
    | exact absurd rfl h
    | (simp only [twoPlan]; simp only [Fin.zero_eta, Fin.mk_one, Matrix.cons_val_zero, Matrix.cons_val_one]; rw [← sub_div]; done)
    | (simp only [twoPlan]; simp only [Fin.zero_eta, Fin.mk_one, Matrix.cons_val_zero, Matrix.cons_val_one]; rw [← sub_div, abs_div, abs_div, abs_sub_comm])

/-- Both tokens like the first expert, but after enough iterations the first token goes to the second expert. -/
example : ∃ n, ∀ m, n < m → Requests (klPlan m twoLogits) 1 0 1 ∧ Requests (klPlan m twoLogits) 1 1 0 := by
  have h1 : Real.exp (-(1 / 2)) < 1 := by rw [Real.exp_lt_one_iff]; norm_num
  have h0 : 0 < 1 + Real.exp (-(1 / 2)) := by positivity
  have hD : ∀ s s' e e', twoLogits s e - twoLogits s' e' ≤ 2 := by
    intro s s' e e'
    fin_cases s <;> fin_cases s' <;> fin_cases e <;> fin_cases e' <;> simp [twoLogits] <;> norm_num
  have hρ0 : 0 ≤ 1 - Real.exp (-(2 * 2)) / ((2 : ℕ) : ℝ) := by
    have := least_le (S := 2) (E := 2) two_pos two_pos twoLogits 2 hD
    unfold least at this
    linarith
  have hρ1 : 1 - Real.exp (-(2 * 2)) / ((2 : ℕ) : ℝ) < 1 := by
    have := least_pos (E := 2) two_pos 2
    unfold least at this
    linarith
  have ht := (tendsto_pow_atTop_nhds_zero_of_lt_one hρ0 hρ1).const_mul (((2 : ℕ) : ℝ) ^ 2 * Real.exp (4 * 2))
  rw [mul_zero] at ht
  have hδ : 0 < (1 - Real.exp (-(1 / 2))) / (1 + Real.exp (-(1 / 2))) / 2 := by
    have : 0 < 1 - Real.exp (-(1 / 2)) := by linarith
    positivity
  obtain ⟨n, hn⟩ := (ht.eventually (gt_mem_nhds hδ)).exists
  refine ⟨n, fun m hm => ?_⟩
  have h := (C161_settles (S := 2) (E := 2) two_pos two_pos twoLogits twoPlan twoLogits_limit 2 hD _ n hn m hm).1 false
    (fun s e e' hne => twoPlan_gap s e e' hne) (fun h => by cases h) 1 2
  have hk : ∀ s e : Fin 2, s ≠ e → Requests twoPlan 1 s e := by
    intro s e hse
    unfold Requests choiceRank
    rw [Nat.lt_one_iff, Finset.card_eq_zero, Finset.filter_eq_empty_iff]
    rintro e' -
    have hlt : Real.exp (-(1 / 2)) / (1 + Real.exp (-(1 / 2))) < 1 / (1 + Real.exp (-(1 / 2))) :=
      (div_lt_div_iff_of_pos_right h0).2 h1
    have e1 : twoPlan s e = 1 / (1 + Real.exp (-(1 / 2))) := by
      fin_cases s <;> fin_cases e <;> first | exact absurd rfl hse | rfl
    by_cases he : e' = e
    · subst he
      simp
    · have e2 : twoPlan s e' = Real.exp (-(1 / 2)) / (1 + Real.exp (-(1 / 2))) := by
        have : e' = s := by omega
        subst this
        fin_cases e' <;> rfl
      rw [e1, e2]
      rintro (h | h)
      · exact lt_asymm h hlt
      · exact hlt.ne h.1
  have hslot : ∀ s e : Fin 2, s ≠ e → Kept two_pos false twoPlan 1 2 s e := by
    intro s e hse
    refine ⟨hk s e hse, ?_⟩
    unfold slot
    refine lt_of_lt_of_eq (Finset.card_lt_card (Finset.filter_ssubset.2 ⟨s, Finset.mem_univ _, ?_⟩)) (by simp)
    unfold HigherPriority ItemBefore
    simp
  exact ⟨((h 0 1).2 (hslot 0 1 (by decide))).1, ((h 1 0).2 (hslot 1 0 (by decide))).1⟩

/-- C161: balanced plans do not mean balanced requests.  For tokens with equal logits the plan is balanced after the
first iteration, with the same share for all experts whatever the logits are, and so all tokens ask for
the experts with the smallest numbers. -/
theorem C161_equal_tokens_counterexample (hS : 0 < S) (hE : 0 < E) (n : Nat) (x : Fin E → ℝ) (K : Nat) :
    IsPlan (klPlan (n + 1) fun _ : Fin S => x) ∧ ∀ (s : Fin S) (e : Fin E),
      klPlan (n + 1) (fun _ : Fin S => x) s e = 1 / (E : ℝ) ∧
      (Requests (klPlan (n + 1) fun _ : Fin S => x) K s e ↔ e.1 < K) := by
  have hE' : (0 : ℝ) < E := by exact_mod_cast hE
  have hS' : (0 : ℝ) < S := by exact_mod_cast hS
  have h0 : klPlan (n + 1) (fun _ : Fin S => x) = klPlan (n + 1) (fun (_ : Fin S) (_ : Fin E) => (0 : ℝ)) := by
    have := C75_expert_bias_ignored (n + 1) (by omega) (fun (_ : Fin S) (_ : Fin E) => (0 : ℝ)) x
    simpa using this
  have h1 : ∀ n, ∀ (s : Fin S) (e : Fin E), klPlan (n + 1) (fun (_ : Fin S) (_ : Fin E) => (0 : ℝ)) s e = 1 / (E : ℝ) := by
    intro n s e
    have h2 : ∀ e', klPlan (n + 1) (fun (_ : Fin S) (_ : Fin E) => (0 : ℝ)) s e' =
        klPlan (n + 1) (fun (_ : Fin S) (_ : Fin E) => (0 : ℝ)) s e := by
      intro e'
      have h : ∀ e e', klPlan (n + 1) (fun (_ : Fin S) (_ : Fin E) => (0 : ℝ)) s e' ≤
          klPlan (n + 1) (fun (_ : Fin S) (_ : Fin E) => (0 : ℝ)) s e := by
        intro e e'
        simpa using entries_ratio hS hE n (fun (_ : Fin S) (_ : Fin E) => (0 : ℝ)) 0 (by simp) s e e'
      exact le_antisymm (h _ _) (h _ _)
    have h3 := (C75_rows hS hE (n + 1) (by omega) (fun (_ : Fin S) (_ : Fin E) => (0 : ℝ))).2.1 s
    simp only [h2, Finset.sum_const, Finset.card_univ, Fintype.card_fin, nsmul_eq_mul] at h3
    rw [eq_div_iff hE'.ne', mul_comm]
    exact h3
  rw [h0]
  refine ⟨⟨fun s e => ?_, fun s => ?_, fun e => ?_⟩, fun s e => ⟨h1 n s e, ?_⟩⟩
  · rw [h1]; positivity
  · simp only [h1, Finset.sum_const, Finset.card_univ, Fintype.card_fin, nsmul_eq_mul]
    field_simp
  · simp only [h1, Finset.sum_const, Finset.card_univ, Fintype.card_fin, nsmul_eq_mul]
    field_simp
  · unfold Requests choiceRank
    simp only [h1, lt_irrefl, true_and, false_or]
    have h4 : (Finset.univ.filter fun e' : Fin E => e' < e) = Finset.Iio e := by ext; simp
    rw [h4, Fin.card_Iio]

/-- Eight equal tokens, two experts: all ask for the first expert, even if they prefer the second one. -/
example (n : Nat) (s : Fin 8) : Requests (klPlan (n + 1) fun _ : Fin 8 => (![0, 5] : Fin 2 → ℝ)) 1 s 0 ∧
    ¬ Requests (klPlan (n + 1) fun _ : Fin 8 => (![0, 5] : Fin 2 → ℝ)) 1 s 1 := by
  have h := (C161_equal_tokens_counterexample (S := 8) (by norm_num) two_pos n (![0, 5] : Fin 2 → ℝ) 1).2 s
  exact ⟨(h 0).2.2 (by norm_num), fun h1 => absurd ((h 1).2.1 h1) (by norm_num)⟩

end Verif.OtRouting
