import Verif.Props.OtRouting
import Mathlib.Analysis.SpecificLimits.Basic
import Mathlib.Analysis.SpecialFunctions.Log.Basic
import Mathlib.Analysis.SpecialFunctions.ExpDeriv

/-!
Convergence of the Sinkhorn iterations (helper lemmas for C161).
-/

namespace Verif.OtRouting

open Verif Filter

variable {S E : Nat}

/-- The load of an expert. -/
noncomputable def load (P : Fin S → Fin E → ℝ) (e : Fin E) : ℝ := ∑ s, P s e

/-- What the columns are multiplied with in the next iteration. -/
noncomputable def factor (P : Fin S → Fin E → ℝ) (e : Fin E) : ℝ := (S : ℝ) / E / load P e

/-- What the rows are divided by after that. -/
noncomputable def rowSum (P : Fin S → Fin E → ℝ) (s : Fin S) : ℝ := ∑ e, P s e * factor P e

theorem mul_div_mul_right_comm_aux (b v t : ℝ) (hv : v ≠ 0) : b * v / (v * t) = b / t := by
  rw [mul_comm b v, mul_div_mul_left _ _ hv]

theorem klPlan_succ (hS : 0 < S) (hE : 0 < E) (n : Nat) (sim : Fin S → Fin E → ℝ) (s : Fin S) (e : Fin E) :
    klPlan (n + 1) sim s e = klPlan n sim s e * factor (klPlan n sim) e / rowSum (klPlan n sim) s := by
  have hk : ∀ (s : Fin S) (e : Fin E), 0 < Real.exp (- (- sim s e) / 1) := fun _ _ => Real.exp_pos _
  have hb : ∀ e : Fin E, 0 < (S : ℝ) / E := fun _ => by positivity
  obtain ⟨hu, hv⟩ := scalings_pos _ (fun _ => (S : ℝ) / E) hS hE hk hb n
  obtain ⟨hu', hv'⟩ := scalings_pos _ (fun _ => (S : ℝ) / E) hS hE hk hb (n + 1)
  have hcol := scalings_col _ (fun _ => (S : ℝ) / E) hS hE hk hb n
  have hrow := scalings_row _ (fun _ => (S : ℝ) / E) hS hE hk hb n
  have hf : ∀ e, (sinkhornScalings (fun s e => Real.exp (- (- sim s e) / 1)) (fun _ => 1) (fun _ => (S : ℝ) / E) n).2 e *
      factor (klPlan n sim) e = (sinkhornScalings (fun s e => Real.exp (- (- sim s e) / 1)) (fun _ => 1) (fun _ => (S : ℝ) / E) (n + 1)).2 e := by
    intro e
    have hpos : 0 < ∑ s, Real.exp (- (- sim s e) / 1) *
        (sinkhornScalings (fun s e => Real.exp (- (- sim s e) / 1)) (fun _ => 1) (fun _ => (S : ℝ) / E) n).1 s :=
      Finset.sum_pos (fun s _ => mul_pos (hk s e) (hu s)) ⟨⟨0, hS⟩, Finset.mem_univ _⟩
    unfold factor load
    rw [klPlan_col]
    have h1 := hcol e
    simp only at h1
    rw [← mul_div_assoc, mul_comm _ ((S : ℝ) / E), mul_div_mul_right_comm_aux _ _ _ (hv e).ne', div_eq_iff hpos.ne', h1]
  have hP : ∀ e, klPlan n sim s e * factor (klPlan n sim) e =
      (sinkhornScalings (fun s e => Real.exp (- (- sim s e) / 1)) (fun _ => 1) (fun _ => (S : ℝ) / E) n).1 s *
      (Real.exp (- (- sim s e) / 1) *
        (sinkhornScalings (fun s e => Real.exp (- (- sim s e) / 1)) (fun _ => 1) (fun _ => (S : ℝ) / E) (n + 1)).2 e) := by
    intro e
    rw [← hf e]
    unfold klPlan
    ring
  have hR : rowSum (klPlan n sim) s =
      (sinkhornScalings (fun s e => Real.exp (- (- sim s e) / 1)) (fun _ => 1) (fun _ => (S : ℝ) / E) n).1 s *
      ∑ e, Real.exp (- (- sim s e) / 1) *
        (sinkhornScalings (fun s e => Real.exp (- (- sim s e) / 1)) (fun _ => 1) (fun _ => (S : ℝ) / E) (n + 1)).2 e := by
    unfold rowSum
    rw [Finset.mul_sum]
    exact Finset.sum_congr rfl fun e _ => hP e
  have hpos : 0 < ∑ e, Real.exp (- (- sim s e) / 1) *
      (sinkhornScalings (fun s e => Real.exp (- (- sim s e) / 1)) (fun _ => 1) (fun _ => (S : ℝ) / E) (n + 1)).2 e :=
    Finset.sum_pos (fun e _ => mul_pos (hk s e) (hv' e)) ⟨⟨0, hE⟩, Finset.mem_univ _⟩
  rw [hP e, hR, mul_div_mul_left _ _ (hu s).ne']
  rw [eq_div_iff hpos.ne']
  have := hrow s
  simp only at this
  show (sinkhornScalings (fun s e => Real.exp (- (- sim s e) / 1)) (fun _ => 1) (fun _ => (S : ℝ) / E) (n + 1)).1 s *
      Real.exp (- (- sim s e) / 1) *
      (sinkhornScalings (fun s e => Real.exp (- (- sim s e) / 1)) (fun _ => 1) (fun _ => (S : ℝ) / E) (n + 1)).2 e * _ = _
  calc _ = Real.exp (- (- sim s e) / 1) *
        (sinkhornScalings (fun s e => Real.exp (- (- sim s e) / 1)) (fun _ => 1) (fun _ => (S : ℝ) / E) (n + 1)).2 e *
        ((sinkhornScalings (fun s e => Real.exp (- (- sim s e) / 1)) (fun _ => 1) (fun _ => (S : ℝ) / E) (n + 1)).1 s *
        ∑ e, Real.exp (- (- sim s e) / 1) *
        (sinkhornScalings (fun s e => Real.exp (- (- sim s e) / 1)) (fun _ => 1) (fun _ => (S : ℝ) / E) (n + 1)).2 e) := by ring
    _ = _ := by rw [this, mul_one]

theorem entries_ratio (hS : 0 < S) (hE : 0 < E) (n : Nat) (sim : Fin S → Fin E → ℝ) (D : ℝ)
    (hD : ∀ s s' e e', sim s e - sim s' e' ≤ D) (s : Fin S) (e e' : Fin E) :
    klPlan (n + 1) sim s e' ≤ Real.exp (2 * D) * klPlan (n + 1) sim s e := by
  have hk : ∀ (s : Fin S) (e : Fin E), 0 < Real.exp (- (- sim s e) / 1) := fun _ _ => Real.exp_pos _
  have hb : ∀ e : Fin E, 0 < (S : ℝ) / E := fun _ => by positivity
  obtain ⟨hu, hv⟩ := scalings_pos _ (fun _ => (S : ℝ) / E) hS hE hk hb n
  obtain ⟨hu', hv'⟩ := scalings_pos _ (fun _ => (S : ℝ) / E) hS hE hk hb (n + 1)
  have hcol := scalings_col _ (fun _ => (S : ℝ) / E) hS hE hk hb n
  have hkk : ∀ (s : Fin S) (e e' : Fin E), Real.exp (- (- sim s e') / 1) ≤ Real.exp D * Real.exp (- (- sim s e) / 1) := by
    intro s e e'
    rw [← Real.exp_add, Real.exp_le_exp]
    have := hD s s e' e
    simp only [neg_neg, div_one]
    linarith
  unfold klPlan
  simp only
  generalize (sinkhornScalings (fun s e => Real.exp (- (- sim s e) / 1)) (fun _ => 1) (fun _ => (S : ℝ) / E) (n + 1)).2 = v at *
  generalize (sinkhornScalings (fun s e => Real.exp (- (- sim s e) / 1)) (fun _ => 1) (fun _ => (S : ℝ) / E) (n + 1)).1 = u at *
  generalize (sinkhornScalings (fun s e => Real.exp (- (- sim s e) / 1)) (fun _ => 1) (fun _ => (S : ℝ) / E) n).1 = u0 at *
  have hvv : v e' ≤ Real.exp D * v e := by
    have hpos : 0 < ∑ s, Real.exp (- (- sim s e') / 1) * u0 s :=
      Finset.sum_pos (fun s _ => mul_pos (hk s e') (hu s)) ⟨⟨0, hS⟩, Finset.mem_univ _⟩
    have h1 : ∑ s, Real.exp (- (- sim s e) / 1) * u0 s ≤ Real.exp D * ∑ s, Real.exp (- (- sim s e') / 1) * u0 s := by
      rw [Finset.mul_sum]
      refine Finset.sum_le_sum fun s _ => ?_
      rw [← mul_assoc]
      exact mul_le_mul_of_nonneg_right (hkk s e' e) (hu s).le
    have h2 : v e' * ∑ s, Real.exp (- (- sim s e') / 1) * u0 s ≤ Real.exp D * v e * ∑ s, Real.exp (- (- sim s e') / 1) * u0 s := by
      have e1 := hcol e'
      have e2 := hcol e
      rw [e1, ← e2]
      have := mul_le_mul_of_nonneg_left h1 (hv' e).le
      linarith
    exact le_of_mul_le_mul_right h2 hpos
  have h3 : Real.exp (- (- sim s e') / 1) * v e' ≤ (Real.exp D * Real.exp (- (- sim s e) / 1)) * (Real.exp D * v e) :=
    mul_le_mul (hkk s e e') hvv (hv' e').le (by positivity)
  have h4 := mul_le_mul_of_nonneg_left h3 (hu' s).le
  have h5 : Real.exp (2 * D) = Real.exp D * Real.exp D := by rw [← Real.exp_add]; congr 1; ring
  rw [h5]
  linarith

/-- The smallest share of a token that an expert can have. -/
noncomputable def least (E : Nat) (D : ℝ) : ℝ := Real.exp (-(2 * D)) / E

theorem least_pos (hE : 0 < E) (D : ℝ) : 0 < least E D := by
  unfold least
  have : (0 : ℝ) < E := by exact_mod_cast hE
  positivity

theorem entries_least (hS : 0 < S) (hE : 0 < E) (n : Nat) (sim : Fin S → Fin E → ℝ) (D : ℝ)
    (hD : ∀ s s' e e', sim s e - sim s' e' ≤ D) (s : Fin S) (e : Fin E) : least E D ≤ klPlan (n + 1) sim s e := by
  have hE' : (0 : ℝ) < E := by exact_mod_cast hE
  have h1 : (1 : ℝ) ≤ E * (Real.exp (2 * D) * klPlan (n + 1) sim s e) := by
    rw [← (C75_rows hS hE (n + 1) (by omega) sim).2.1 s]
    calc _ ≤ ∑ _e' : Fin E, Real.exp (2 * D) * klPlan (n + 1) sim s e :=
          Finset.sum_le_sum fun e' _ => entries_ratio hS hE n sim D hD s e e'
      _ = _ := by simp
  unfold least
  rw [div_le_iff₀ hE', Real.exp_neg, inv_le_iff_one_le_mul₀ (Real.exp_pos _)]
  linarith

theorem least_le (hS : 0 < S) (hE : 0 < E) (sim : Fin S → Fin E → ℝ) (D : ℝ)
    (hD : ∀ s s' e e', sim s e - sim s' e' ≤ D) : least E D ≤ 1 :=
  (entries_least hS hE 0 sim D hD ⟨0, hS⟩ ⟨0, hE⟩).trans ((C75_rows hS hE 1 le_rfl sim).1 _ _).2

/-- One iteration brings the factors closer together. -/
theorem contract (hS : 0 < S) (hE : 0 < E) (P P' : Fin S → Fin E → ℝ) (d lo hi : ℝ) (hd : 0 < d) (hP : ∀ s e, d ≤ P s e)
    (hrow : ∀ s, ∑ e, P s e = 1) (hP' : ∀ s e, P' s e = P s e * factor P e / rowSum P s) (hlo : 0 < lo)
    (hx : ∀ e, lo ≤ factor P e ∧ factor P e ≤ hi) :
    (∀ s, lo ≤ rowSum P s ∧ rowSum P s ≤ hi) ∧
    ∃ lo', lo ≤ lo' ∧ ∀ e, lo' ≤ factor P' e ∧ factor P' e ≤ lo' + (1 - d) * (hi - lo) := by
  have hne : Nonempty (Fin E) := ⟨⟨0, hE⟩⟩
  have hneS : Nonempty (Fin S) := ⟨⟨0, hS⟩⟩
  have hp : ∀ s e, 0 < P s e := fun s e => hd.trans_le (hP s e)
  obtain ⟨e0, -, h0⟩ := Finset.exists_min_image Finset.univ (factor P) Finset.univ_nonempty
  have hR1 : ∀ s, factor P e0 ≤ rowSum P s := by
    intro s
    calc factor P e0 = ∑ e, P s e * factor P e0 := by rw [← Finset.sum_mul, hrow, one_mul]
      _ ≤ _ := Finset.sum_le_sum fun e _ => mul_le_mul_of_nonneg_left (h0 e (Finset.mem_univ _)) (hp s e).le
  have hR2 : ∀ s, rowSum P s ≤ hi - d * (hi - factor P e0) := by
    intro s
    have h1 : ∑ e, P s e * (hi - factor P e) = hi - rowSum P s := by
      unfold rowSum
      simp only [mul_sub, Finset.sum_sub_distrib]
      rw [← Finset.sum_mul, hrow, one_mul]
    have h2 : P s e0 * (hi - factor P e0) ≤ ∑ e, P s e * (hi - factor P e) :=
      Finset.single_le_sum (fun e _ => mul_nonneg (hp s e).le (sub_nonneg.2 (hx e).2)) (Finset.mem_univ e0)
    have h3 : d * (hi - factor P e0) ≤ P s e0 * (hi - factor P e0) :=
      mul_le_mul_of_nonneg_right (hP s e0) (sub_nonneg.2 (hx e0).2)
    linarith
  have hm : 0 < factor P e0 := hlo.trans_le (hx e0).1
  refine ⟨fun s => ⟨(hx e0).1.trans (hR1 s), (hR2 s).trans ?_⟩, factor P e0, (hx e0).1, fun e => ?_⟩
  · have := mul_nonneg hd.le (sub_nonneg.2 (hx e0).2)
    linarith
  have hRpos : ∀ s, 0 < rowSum P s := fun s => hm.trans_le (hR1 s)
  have hb : (0 : ℝ) < (S : ℝ) / E := by positivity
  have hL : 0 < load P e := Finset.sum_pos (fun s _ => hp s e) Finset.univ_nonempty
  have hf : 0 < factor P e := hlo.trans_le (hx e).1
  have hload : load P' e = factor P e * ∑ s, P s e / rowSum P s := by
    unfold load
    rw [Finset.mul_sum]
    refine Finset.sum_congr rfl fun s _ => ?_
    rw [hP']
    ring
  have hbf : (S : ℝ) / E = factor P e * load P e := by
    unfold factor
    rw [div_mul_cancel₀ _ hL.ne']
  have hsum : 0 < ∑ s, P s e / rowSum P s := Finset.sum_pos (fun s _ => div_pos (hp s e) (hRpos s)) Finset.univ_nonempty
  have hfac : factor P' e = load P e / ∑ s, P s e / rowSum P s := by
    show (S : ℝ) / E / load P' e = _
    rw [hload, hbf, mul_div_mul_left _ _ hf.ne']
  rw [hfac]
  have key : ∀ t : ℝ, 0 < t → (∀ s, rowSum P s ≤ t) → load P e ≤ t * ∑ s, P s e / rowSum P s := by
    intro t _ h
    unfold load
    rw [Finset.mul_sum]
    refine Finset.sum_le_sum fun s _ => ?_
    rw [← mul_div_assoc, le_div_iff₀ (hRpos s), mul_comm]
    exact mul_le_mul_of_nonneg_right (h s) (hp s e).le
  constructor
  · rw [le_div_iff₀ hsum]
    unfold load
    rw [Finset.mul_sum]
    refine Finset.sum_le_sum fun s _ => ?_
    rw [← mul_div_assoc, div_le_iff₀ (hRpos s), mul_comm]
    exact mul_le_mul_of_nonneg_left (hR1 s) (hp s e).le
  · rw [div_le_iff₀ hsum]
    have hle : ∀ s, rowSum P s ≤ factor P e0 + (1 - d) * (hi - lo) := by
      intro s
      have h1 := hR2 s
      have hd1 : d ≤ 1 := (hP s e0).trans (by rw [← hrow s]; exact Finset.single_le_sum (fun e _ => (hp s e).le) (Finset.mem_univ e0))
      have h2 := mul_nonneg (sub_nonneg.2 hd1) (sub_nonneg.2 (hx e0).1)
      nlinarith
    exact key _ ((hRpos ⟨0, hS⟩).trans_le (hle _)) hle

theorem factors (hS : 0 < S) (hE : 0 < E) (sim : Fin S → Fin E → ℝ) (D : ℝ) (hD : ∀ s s' e e', sim s e - sim s' e' ≤ D) (n : Nat) :
    ∃ lo, 1 / (E : ℝ) ≤ lo ∧ ∀ e, lo ≤ factor (klPlan (n + 1) sim) e ∧
      factor (klPlan (n + 1) sim) e ≤ lo + Real.exp (2 * D) * (1 - least E D) ^ n := by
  have hE' : (0 : ℝ) < E := by exact_mod_cast hE
  have hS' : (0 : ℝ) < S := by exact_mod_cast hS
  have hneS : Nonempty (Fin S) := ⟨⟨0, hS⟩⟩
  induction n with
  | zero =>
    refine ⟨1 / E, le_rfl, fun e => ?_⟩
    have hrows := C75_rows hS hE 1 le_rfl sim
    have h1 : load (klPlan 1 sim) e ≤ S := by
      calc load (klPlan 1 sim) e ≤ ∑ _s : Fin S, (1 : ℝ) := Finset.sum_le_sum fun s _ => (hrows.1 s e).2
        _ = S := by simp
    have h2 : S * least E D ≤ load (klPlan 1 sim) e := by
      calc S * least E D = ∑ _s : Fin S, least E D := by simp
        _ ≤ _ := Finset.sum_le_sum fun s _ => entries_least hS hE 0 sim D hD s e
    have h3 : 0 < load (klPlan 1 sim) e := lt_of_lt_of_le (mul_pos hS' (least_pos hE D)) h2
    unfold factor
    constructor
    · rw [div_le_div_iff₀ hE' h3, one_mul, div_mul_cancel₀ _ hE'.ne']
      exact h1
    · rw [pow_zero, mul_one, zero_add]
      have h4 : (S : ℝ) / E / load (klPlan 1 sim) e ≤ Real.exp (2 * D) := by
        rw [div_le_iff₀ h3]
        have h5 : Real.exp (2 * D) * (S * least E D) = (S : ℝ) / E := by
          unfold least
          rw [Real.exp_neg]
          have := (Real.exp_pos (2 * D)).ne'
          field_simp
        rw [← h5]
        exact mul_le_mul_of_nonneg_left h2 (Real.exp_pos _).le
      have : (0 : ℝ) < 1 / E := by positivity
      linarith
  | succ n ih =>
    obtain ⟨lo, hlo, hx⟩ := ih
    have hrows := C75_rows hS hE (n + 1) (by omega) sim
    obtain ⟨-, lo', h1, h2⟩ := contract hS hE _ _ (least E D) lo _ (least_pos hE D) (entries_least hS hE n sim D hD) hrows.2.1
      (klPlan_succ hS hE (n + 1) sim) (lt_of_lt_of_le (by positivity) hlo) hx
    refine ⟨lo', hlo.trans h1, fun e => ⟨(h2 e).1, (h2 e).2.trans (le_of_eq ?_)⟩⟩
    rw [pow_succ]
    ring

/-- The factors are near one. -/
theorem factors_one (hS : 0 < S) (hE : 0 < E) (sim : Fin S → Fin E → ℝ) (D : ℝ) (hD : ∀ s s' e e', sim s e - sim s' e' ≤ D) (n : Nat)
    (e : Fin E) : |factor (klPlan (n + 1) sim) e - 1| ≤ Real.exp (2 * D) * (1 - least E D) ^ n := by
  have hE' : (0 : ℝ) < E := by exact_mod_cast hE
  have hS' : (0 : ℝ) < S := by exact_mod_cast hS
  have hneS : Nonempty (Fin S) := ⟨⟨0, hS⟩⟩
  have hneE : Nonempty (Fin E) := ⟨⟨0, hE⟩⟩
  obtain ⟨lo, hlo, hx⟩ := factors hS hE sim D hD n
  have hlo0 : 0 < lo := lt_of_lt_of_le (by positivity) hlo
  have hrows := C75_rows hS hE (n + 1) (by omega) sim
  have hL : ∀ e, 0 < load (klPlan (n + 1) sim) e := fun e => Finset.sum_pos (fun s _ => (hrows.1 s e).1) Finset.univ_nonempty
  have hsum : ∑ e, load (klPlan (n + 1) sim) e = S := hrows.2.2
  have hle : lo ≤ 1 := by
    by_contra h
    push Not at h
    have : ∑ e, load (klPlan (n + 1) sim) e < ∑ _e : Fin E, (S : ℝ) / E := by
      refine Finset.sum_lt_sum_of_nonempty Finset.univ_nonempty fun e _ => ?_
      have h1 := h.trans_le (hx e).1
      unfold factor at h1
      rwa [lt_div_iff₀ (hL e), one_mul] at h1
    rw [hsum] at this
    simp only [Finset.sum_const, Finset.card_univ, Fintype.card_fin, nsmul_eq_mul] at this
    rw [mul_div_cancel₀ _ hE'.ne'] at this
    exact lt_irrefl _ this
  have hge : 1 ≤ lo + Real.exp (2 * D) * (1 - least E D) ^ n := by
    by_contra h
    push Not at h
    have : ∑ _e : Fin E, (S : ℝ) / E < ∑ e, load (klPlan (n + 1) sim) e := by
      refine Finset.sum_lt_sum_of_nonempty Finset.univ_nonempty fun e _ => ?_
      have h1 := (hx e).2.trans_lt h
      unfold factor at h1
      rwa [div_lt_iff₀ (hL e), one_mul] at h1
    rw [hsum] at this
    simp only [Finset.sum_const, Finset.card_univ, Fintype.card_fin, nsmul_eq_mul] at this
    rw [mul_div_cancel₀ _ hE'.ne'] at this
    exact lt_irrefl _ this
  rw [abs_le]
  have := hx e
  constructor <;> linarith

/-- Consecutive plans are near each other. -/
theorem plans_near (hS : 0 < S) (hE : 0 < E) (sim : Fin S → Fin E → ℝ) (D : ℝ) (hD : ∀ s s' e e', sim s e - sim s' e' ≤ D) (n : Nat)
    (s : Fin S) (e : Fin E) : dist (klPlan (n + 1) sim s e) (klPlan (n + 1 + 1) sim s e) ≤ E * Real.exp (2 * D) * (1 - least E D) ^ n := by
  have hE' : (0 : ℝ) < E := by exact_mod_cast hE
  obtain ⟨lo, hlo, hx⟩ := factors hS hE sim D hD n
  have hlo0 : 0 < lo := lt_of_lt_of_le (by positivity) hlo
  have hrows := C75_rows hS hE (n + 1) (by omega) sim
  obtain ⟨hR, -⟩ := contract hS hE _ _ (least E D) lo _ (least_pos hE D) (entries_least hS hE n sim D hD) hrows.2.1
    (klPlan_succ hS hE (n + 1) sim) hlo0 hx
  rw [klPlan_succ hS hE (n + 1) sim s e]
  generalize hw : Real.exp (2 * D) * (1 - least E D) ^ n = w at *
  have hRs := hR s
  have hxe := hx e
  have hp := hrows.1 s e
  generalize klPlan (n + 1) sim s e = p at *
  generalize factor (klPlan (n + 1) sim) e = x at *
  generalize rowSum (klPlan (n + 1) sim) s = r at *
  have hr0 : 0 < r := hlo0.trans_le hRs.1
  rw [Real.dist_eq, mul_assoc, hw]
  have h1 : p - p * x / r = p * ((r - x) / r) := by field_simp
  rw [h1, abs_mul, abs_of_pos hp.1, abs_div, abs_of_pos hr0]
  have h2 : |r - x| ≤ w := by rw [abs_le]; constructor <;> linarith
  have h3 : |r - x| / r ≤ E * w := by
    rw [div_le_iff₀ hr0]
    have h4 : 1 ≤ E * r := by
      have := hlo.trans hRs.1
      rwa [div_le_iff₀ hE', mul_comm] at this
    have hw0 : 0 ≤ w := (abs_nonneg _).trans h2
    nlinarith
  have h5 : 0 ≤ |r - x| / r := by positivity
  nlinarith [hp.2, hp.1]

end Verif.OtRouting
