import Verif.Model.Schedule
import Mathlib.Tactic.Linarith
import Mathlib.Tactic.Positivity
import Mathlib.Tactic.FieldSimp
import Mathlib.Tactic.NormNum
import Mathlib.Tactic.LinearCombination

/-! C47: learning rate schedules. -/

namespace Verif.Schedule

open Verif

theorem poly_of_pos {a b p : ℝ} {n c : Int} (hn : 0 < n) (h0 : 0 ≤ c) (hc : c ≤ n) :
    polynomialSchedule a b p n c = (a - b) * (1 - (c : ℝ) / n) ^ p + b := by
  unfold polynomialSchedule
  rw [if_neg (by omega)]
  simp only [min_eq_left hc, max_eq_right h0]

theorem poly_of_ge {a b p : ℝ} {n c : Int} (hn : 0 < n) (hc : n ≤ c) (hp : 0 < p) :
    polynomialSchedule a b p n c = b := by
  unfold polynomialSchedule
  rw [if_neg (by omega)]
  have hn' : (n : ℝ) ≠ 0 := by exact_mod_cast hn.ne'
  simp only [min_eq_right hc, max_eq_right hn.le, div_self hn', sub_self, Real.zero_rpow hp.ne', mul_zero, zero_add]

theorem poly_of_le {a b p : ℝ} {n c : Int} (hn : n ≤ 0) : polynomialSchedule a b p n c = a := by
  unfold polynomialSchedule
  rw [if_pos hn]

theorem linear_warmup {peak : ℝ} {w c : Int} (hw : 0 < w) (h0 : 0 ≤ c) (hc : c ≤ w) :
    linearSchedule 0 peak w c = peak * ((c : ℝ) / w) := by
  unfold linearSchedule
  rw [poly_of_pos hw h0 hc, Real.rpow_one]
  ring

theorem join_two (a b : Sched) (w step : Int) :
    joinSchedules [a, b] [w] step = if step < w then a step else b (step - w) := by
  simp [joinSchedules, joinLoop]

/-- C47: the value of the warmup and polynomial decay schedule at every step. -/
theorem C47_polynomial (peak fin power : ℝ) (w d step : Int) (hw : 0 ≤ w) (hwd : w < d) (hp : 0 < power)
    (hs : 0 ≤ step) :
    warmupPolynomialDecaySchedule peak fin power w d step =
      if step < w then peak * (step / w)
      else if step < d then fin + (peak - fin) * (((d - step : Int) : ℝ) / ((d - w : Int) : ℝ)) ^ power
      else fin := by
  unfold warmupPolynomialDecaySchedule
  rw [join_two]
  split
  · rw [linear_warmup (by omega) hs (by omega)]
  · rename_i h
    split
    · rename_i h2
      rw [poly_of_pos (by omega) (by omega) (by omega)]
      have hne : ((d - w : Int) : ℝ) ≠ 0 := by
        have : d - w ≠ 0 := by omega
        exact_mod_cast this
      have e : 1 - ((step - w : Int) : ℝ) / ((d - w : Int) : ℝ) = ((d - step : Int) : ℝ) / ((d - w : Int) : ℝ) := by
        field_simp
        push_cast
        ring
      rw [e]
      ring
    · rw [poly_of_ge (by omega) (by omega) hp]

/-- C47: the schedule is at the peak exactly when the warmup ends, and at the end value from `decay_steps` on. -/
theorem C47_polynomial_ends (peak fin power : ℝ) (w d : Int) (hw : 0 ≤ w) (hwd : w < d) (hp : 0 < power) :
    (0 < w → warmupPolynomialDecaySchedule peak fin power w d 0 = 0) ∧
    warmupPolynomialDecaySchedule peak fin power w d w = peak ∧
    ∀ step, d ≤ step → warmupPolynomialDecaySchedule peak fin power w d step = fin := by
  refine ⟨fun h => ?_, ?_, fun step hs => ?_⟩
  · rw [C47_polynomial peak fin power w d 0 hw hwd hp le_rfl, if_pos h]
    simp
  · rw [C47_polynomial peak fin power w d w hw hwd hp hw, if_neg (lt_irrefl w), if_pos hwd]
    have hne : ((d - w : Int) : ℝ) ≠ 0 := by
      have : d - w ≠ 0 := by omega
      exact_mod_cast this
    rw [div_self hne, Real.one_rpow]
    ring
  · rw [C47_polynomial peak fin power w d step hw hwd hp (by omega), if_neg (by omega), if_neg (by omega)]

/-- C47: the schedule rises during the warmup, falls afterwards, and stays between its bounds. -/
theorem C47_polynomial_bounds (peak fin power : ℝ) (w d step : Int) (hw : 0 ≤ w) (hwd : w < d) (hp : 0 < power)
    (hs : 0 ≤ step) (h0 : 0 ≤ peak) (hfp : fin ≤ peak) :
    (step ≤ w → 0 ≤ warmupPolynomialDecaySchedule peak fin power w d step) ∧
    (w ≤ step → fin ≤ warmupPolynomialDecaySchedule peak fin power w d step) ∧
    warmupPolynomialDecaySchedule peak fin power w d step ≤ peak ∧
    (step + 1 ≤ w → warmupPolynomialDecaySchedule peak fin power w d step ≤
      warmupPolynomialDecaySchedule peak fin power w d (step + 1)) ∧
    (w ≤ step → warmupPolynomialDecaySchedule peak fin power w d (step + 1) ≤
      warmupPolynomialDecaySchedule peak fin power w d step) := by
  obtain ⟨_, hpk, hfin⟩ := C47_polynomial_ends peak fin power w d hw hwd hp
  have hdw : (0 : ℝ) < ((d - w : Int) : ℝ) := by
    have : 0 < d - w := by omega
    exact_mod_cast this
  -- during the warmup
  have warm : ∀ s, 0 ≤ s → s ≤ w → warmupPolynomialDecaySchedule peak fin power w d s = peak * (s / w) ∨ w = 0 := by
    intro s h1 h2
    by_cases hlt : s < w
    · left
      rw [C47_polynomial peak fin power w d s hw hwd hp h1, if_pos hlt]
    · by_cases hw0 : w = 0
      · exact Or.inr hw0
      · left
        have : s = w := by omega
        subst this
        have hs0 : (s : ℝ) ≠ 0 := by exact_mod_cast hw0
        rw [hpk, div_self hs0, mul_one]
  -- the decay phase
  have decay : ∀ s, w ≤ s → warmupPolynomialDecaySchedule peak fin power w d s =
      fin + (peak - fin) * (((max 0 (d - s) : Int) : ℝ) / ((d - w : Int) : ℝ)) ^ power := by
    intro s h1
    rw [C47_polynomial peak fin power w d s hw hwd hp (by omega), if_neg (by omega)]
    split
    · rw [max_eq_right (by omega : (0 : Int) ≤ d - s)]
    · rw [max_eq_left (by omega : d - s ≤ (0 : Int))]
      simp [Real.zero_rpow hp.ne']
  have frac : ∀ s, w ≤ s → 0 ≤ ((max 0 (d - s) : Int) : ℝ) / ((d - w : Int) : ℝ) ∧
      ((max 0 (d - s) : Int) : ℝ) / ((d - w : Int) : ℝ) ≤ 1 := by
    intro s h1
    constructor
    · apply div_nonneg _ hdw.le
      exact_mod_cast le_max_left _ _
    · rw [div_le_one hdw]
      have : max 0 (d - s) ≤ d - w := by omega
      exact_mod_cast this
  refine ⟨?_, ?_, ?_, ?_, ?_⟩
  · intro hsw
    rcases warm step hs hsw with e | e
    · rw [e]
      apply mul_nonneg h0
      exact div_nonneg (by exact_mod_cast hs) (by exact_mod_cast hw)
    · have : step = w := by omega
      rw [this, hpk]
      exact h0
  · intro hsw
    rw [decay step hsw]
    have := Real.rpow_nonneg (frac step hsw).1 power
    have := mul_nonneg (sub_nonneg.2 hfp) this
    linarith
  · by_cases hsw : step ≤ w
    · rcases warm step hs hsw with e | e
      · rw [e]
        by_cases hw0 : w = 0
        · simp only [hw0, Int.cast_zero, div_zero, mul_zero]
          exact h0
        · have hwp : (0 : ℝ) < w := by
            have : 0 < w := by omega
            exact_mod_cast this
          have : (step : ℝ) / w ≤ 1 := by
            rw [div_le_one hwp]
            exact_mod_cast hsw
          nlinarith
      · have : step = w := by omega
        rw [this, hpk]
    · have hws : w ≤ step := by omega
      rw [decay step hws]
      have h1 := Real.rpow_le_one (frac step hws).1 (frac step hws).2 hp.le
      have h2 := Real.rpow_nonneg (frac step hws).1 power
      nlinarith [sub_nonneg.2 hfp]
  · intro hsw
    have hw0 : w ≠ 0 := by omega
    have hwp : (0 : ℝ) < w := by
      have : 0 < w := by omega
      exact_mod_cast this
    rcases warm step hs (by omega) with e | e
    · rcases warm (step + 1) (by omega) hsw with e' | e'
      · rw [e, e']
        apply mul_le_mul_of_nonneg_left _ h0
        apply div_le_div_of_nonneg_right _ hwp.le
        push_cast
        linarith
      · exact absurd e' hw0
    · exact absurd e hw0
  · intro hws
    rw [decay step hws, decay (step + 1) (by omega)]
    have hle : ((max 0 (d - (step + 1)) : Int) : ℝ) / ((d - w : Int) : ℝ) ≤
        ((max 0 (d - step) : Int) : ℝ) / ((d - w : Int) : ℝ) := by
      apply div_le_div_of_nonneg_right _ hdw.le
      have : max 0 (d - (step + 1)) ≤ max 0 (d - step) := by omega
      exact_mod_cast this
    have := Real.rpow_le_rpow (frac (step + 1) (by omega)).1 hle hp.le
    nlinarith [sub_nonneg.2 hfp]

example : (0 : Int) ≤ 10 ∧ (10 : Int) < 100 ∧ (0 : ℝ) < 1 ∧ (0 : ℝ) ≤ 0.1 ∧ (0.01 : ℝ) ≤ 0.1 := by
  norm_num

example : warmupPolynomialDecaySchedule 0.1 0.01 1 10 100 5 = 0.05 := by
  rw [C47_polynomial _ _ _ _ _ _ (by norm_num) (by norm_num) (by norm_num) (by norm_num), if_pos (by norm_num)]
  norm_num

/-- C47: when the decay is not longer than the warmup the end value is never reached: the schedule stays at the peak. -/
theorem C47_short_decay_counterexample (peak fin power : ℝ) (w d step : Int) (hdw : d ≤ w) (hs : w ≤ step) :
    warmupPolynomialDecaySchedule peak fin power w d step = peak := by
  unfold warmupPolynomialDecaySchedule
  rw [join_two, if_neg (by omega), poly_of_le (by omega)]

/-- C47: the cosine schedule: linear warmup, peak when the warmup ends, end value from `decay_steps` on, and always
between the bounds; without room for the decay it raises `ValueError`. -/
theorem C47_cosine (peak fin exponent : ℝ) (w d : Int) (hw : 0 ≤ w) (hx : 0 < exponent) (hf : 0 ≤ fin)
    (hfp : fin ≤ peak) :
    (d ≤ w → warmupCosineDecaySchedule peak fin exponent w d = .error .valueError) ∧
    (w < d → ∃ s, warmupCosineDecaySchedule peak fin exponent w d = .ok s ∧
      (∀ step, 0 ≤ step → step < w → s step = peak * (step / w)) ∧
      s w = peak ∧ (∀ step, d ≤ step → s step = fin) ∧
      ∀ step, w ≤ step → fin ≤ s step ∧ s step ≤ peak) := by
  constructor
  · intro h
    unfold warmupCosineDecaySchedule cosineDecaySchedule
    simp only []
    rw [if_pos (by omega)]
    rfl
  · intro h
    unfold warmupCosineDecaySchedule cosineDecaySchedule
    simp only []
    rw [if_neg (by omega)]
    refine ⟨_, rfl, ?_, ?_, ?_, ?_⟩
    · intro step h1 h2
      rw [join_two, if_pos h2, linear_warmup (by omega) h1 (by omega)]
    · rw [join_two, if_neg (lt_irrefl w), sub_self, min_eq_left (by omega)]
      simp only [Int.cast_zero, mul_zero, zero_div, Real.cos_zero]
      norm_num
    all_goals
      set α : ℝ := if peak = 0 then 0 else fin / peak with hα
      have hpα : peak * α = fin := by
        rw [hα]
        split
        · rename_i h0
          rw [h0] at hfp
          rw [mul_zero]
          linarith
        · rename_i h0
          field_simp
    · intro step hs
      rw [join_two, if_neg (by omega), min_eq_right (by omega)]
      have hne : ((d - w : Int) : ℝ) ≠ 0 := by
        have : d - w ≠ 0 := by omega
        exact_mod_cast this
      rw [mul_div_assoc, div_self hne, mul_one, Real.cos_pi]
      have : (0.5 * (1 + -1) : ℝ) = 0 := by norm_num
      rw [this, Real.zero_rpow hx.ne', mul_zero, zero_add, hpα]
    · intro step hs
      rw [join_two, if_neg (by omega)]
      generalize Real.pi * ((min (step - w) (d - w) : Int) : ℝ) / ((d - w : Int) : ℝ) = θ
      have hc1 := Real.neg_one_le_cos θ
      have hc2 := Real.cos_le_one θ
      have b1 : (0 : ℝ) ≤ 0.5 * (1 + Real.cos θ) := by norm_num; linarith
      have b2 : 0.5 * (1 + Real.cos θ) ≤ (1 : ℝ) := by norm_num; linarith
      have c1 := Real.rpow_nonneg b1 exponent
      have c2 := Real.rpow_le_one b1 b2 hx.le
      generalize (0.5 * (1 + Real.cos θ)) ^ exponent = c at c1 c2
      have e : peak * ((1 - α) * c + α) = (peak - fin) * c + fin := by
        have : peak * ((1 - α) * c + α) = (peak - peak * α) * c + peak * α := by ring
        rw [this, hpα]
      rw [e]
      constructor
      · nlinarith [sub_nonneg.2 hfp]
      · nlinarith [sub_nonneg.2 hfp]

example : (0 : Int) ≤ 5 ∧ (0 : ℝ) < 1 ∧ (0 : ℝ) ≤ 1e-5 ∧ (1e-5 : ℝ) ≤ 0.1 ∧ (5 : Int) < 20 := by norm_num

/-- C47: invalid arguments of the inverse square root schedule.  The documentation asks for a positive timescale; zero is
not rejected by the check but divides by zero. -/
theorem C47_rsqrt_rejects (peak : ℝ) (d t w c : Int) :
    (d < w + c → bigVisionRsqrtSchedule peak d t w c = .error .valueError) ∧
    (w + c ≤ d → t < 0 → bigVisionRsqrtSchedule peak d t w c = .error .valueError) ∧
    (w + c ≤ d → t = 0 → bigVisionRsqrtSchedule peak d t w c = .error .zeroDivisionError) := by
  unfold bigVisionRsqrtSchedule
  refine ⟨fun h => ?_, fun h ht => ?_, fun h ht => ?_⟩
  · rw [if_pos h]
  · rw [if_neg (by omega), if_pos ht]
  · rw [if_neg (by omega), if_neg (by omega), if_pos ht]

example : (5 : Int) < 3 + 4 ∧ (3 : Int) + 4 ≤ 10 ∧ (-1 : Int) < 0 := by norm_num

/-- The three phases of the inverse square root schedule. -/
theorem rsqrt_phases (peak : ℝ) (d t w c : Int) (hw : 0 ≤ w) (_hc : 0 ≤ c) (hd : w + c ≤ d) (ht : 0 < t) :
    ∃ s, bigVisionRsqrtSchedule peak d t w c = .ok s ∧
      (∀ step, 0 ≤ step → step < w → s step = peak * (step / w)) ∧
      (∀ step, w ≤ step → step < d - c ∨ c = 0 → s step = peak / Real.sqrt (1 + ((step - w : Int) : ℝ) / t)) ∧
      (∀ step, d - c ≤ step → 0 < c → s step =
        peak / Real.sqrt (1 + ((d - c - w : Int) : ℝ) / t) * (((d - step : Int) : ℝ) / c)) := by
  unfold bigVisionRsqrtSchedule
  rw [if_neg (by omega), if_neg (by omega), if_neg (by omega)]
  refine ⟨_, rfl, ?_, ?_, ?_⟩
  · intro step h1 h2
    have hw0 : w > 0 := by omega
    simp only [if_pos hw0]
    by_cases hc0 : c > 0
    · simp only [if_pos hc0, joinSchedules, List.zip_cons_cons, joinLoop, List.cons_append,
        List.zip_nil_right, List.nil_append]
      rw [if_pos h2, if_pos (by omega), linear_warmup hw0 h1 (by omega)]
    · simp only [if_neg hc0, List.append_nil, List.singleton_append, joinSchedules, List.zip_cons_cons, joinLoop,
        List.zip_nil_right]
      rw [if_pos h2, linear_warmup hw0 h1 (by omega)]
  · intro step h1 h2
    by_cases hw0 : w > 0
    · by_cases hc0 : c > 0
      · simp only [if_pos hw0, if_pos hc0, joinSchedules, List.zip_cons_cons, joinLoop,
          List.cons_append, List.zip_nil_right, List.nil_append]
        rw [if_neg (by omega : ¬ step < w), if_pos (by omega)]
        simp [rsqrtPhase, div_eq_mul_inv]
      · simp only [if_pos hw0, if_neg hc0, List.append_nil, List.singleton_append, joinSchedules, List.zip_cons_cons,
          joinLoop, List.zip_nil_right]
        rw [if_neg (by omega : ¬ step < w)]
        simp [rsqrtPhase, div_eq_mul_inv]
    · have hw1 : w = 0 := by omega
      subst hw1
      by_cases hc0 : c > 0
      · simp only [gt_iff_lt, lt_irrefl, if_false, if_pos hc0, List.nil_append, List.singleton_append, joinSchedules,
          List.zip_cons_cons, joinLoop, List.zip_nil_right]
        rw [if_pos (by omega)]
        simp [rsqrtPhase, div_eq_mul_inv]
      · simp only [gt_iff_lt, lt_irrefl, if_false, if_neg hc0, List.nil_append, List.append_nil, joinSchedules,
          joinLoop, List.zip_nil_right]
        simp [rsqrtPhase, div_eq_mul_inv]
  · intro step h1 hc0
    have hcr : (c : ℝ) ≠ 0 := by exact_mod_cast hc0.ne'
    have key : ∀ a : ℝ, a * (1 - ((step - (d - c) : Int) : ℝ) / c) = a * (((d - step : Int) : ℝ) / c) := by
      intro a
      congr 1
      field_simp
      push_cast
      ring
    have hcomm : (d - w - c : Int) = d - c - w := by ring
    by_cases hw0 : w > 0
    · simp only [if_pos hw0, if_pos hc0, joinSchedules, List.zip_cons_cons, joinLoop,
        List.cons_append, List.zip_nil_right, List.nil_append]
      rw [if_neg (by omega : ¬ step < d - c)]
      simp only [cooldownPhase]
      rw [key, hcomm]
    · have hw1 : w = 0 := by omega
      subst hw1
      simp only [gt_iff_lt, lt_irrefl, if_false, if_pos hc0, List.nil_append, List.singleton_append, joinSchedules,
        List.zip_cons_cons, joinLoop, List.zip_nil_right]
      rw [if_neg (by omega : ¬ step < d - c)]
      simp only [cooldownPhase]
      rw [key, hcomm]

/-- C47: the inverse square root schedule warms up linearly, equals the peak when the warmup ends, is never above the
peak, never negative up to `decay_steps`, and exactly zero at `decay_steps` when there is a cooldown.  At the start of
the cooldown it has the value that the inverse square root phase would have there. -/
theorem C47_rsqrt (peak : ℝ) (d t w c : Int) (hw : 0 ≤ w) (hc : 0 ≤ c) (hd : w + c ≤ d) (ht : 0 < t) (hp : 0 ≤ peak) :
    ∃ s, bigVisionRsqrtSchedule peak d t w c = .ok s ∧
      (∀ step, 0 ≤ step → step < w → s step = peak * (step / w)) ∧
      s w = peak ∧
      (∀ step, 0 ≤ step → s step ≤ peak) ∧
      (∀ step, 0 ≤ step → step ≤ d → 0 ≤ s step) ∧
      (0 < c → s d = 0) ∧
      s (d - c) = peak / Real.sqrt (1 + ((d - c - w : Int) : ℝ) / t) := by
  obtain ⟨s, hs, h1, h2, h3⟩ := rsqrt_phases peak d t w c hw hc hd ht
  have htr : (0 : ℝ) < t := by exact_mod_cast ht
  have sq : ∀ n : Int, 0 ≤ n → 1 ≤ Real.sqrt (1 + (n : ℝ) / t) := by
    intro n hn
    rw [Real.one_le_sqrt]
    have : 0 ≤ (n : ℝ) / t := div_nonneg (by exact_mod_cast hn) htr.le
    linarith
  have dv : ∀ n : Int, 0 ≤ n → 0 ≤ peak / Real.sqrt (1 + (n : ℝ) / t) ∧ peak / Real.sqrt (1 + (n : ℝ) / t) ≤ peak := by
    intro n hn
    have := sq n hn
    exact ⟨div_nonneg hp (by linarith), div_le_self hp this⟩
  have start : ∀ _ : 0 < c, s (d - c) = peak / Real.sqrt (1 + ((d - c - w : Int) : ℝ) / t) := by
    intro hc0
    have hcr : (c : ℝ) ≠ 0 := by exact_mod_cast hc0.ne'
    rw [h3 (d - c) le_rfl hc0]
    have : (d - (d - c) : Int) = c := by ring
    rw [this, div_self hcr, mul_one]
  refine ⟨s, hs, h1, ?_, ?_, ?_, ?_, ?_⟩
  · by_cases hcw : w < d - c ∨ c = 0
    · rw [h2 w le_rfl hcw]
      simp
    · have hdc : d - c = w := by omega
      have := start (by omega)
      rw [hdc] at this
      rw [this]
      simp
  · intro step h0
    by_cases hsw : step < w
    · rw [h1 step h0 hsw]
      have hwp : (0 : ℝ) < w := by
        have : 0 < w := by omega
        exact_mod_cast this
      have : (step : ℝ) / w ≤ 1 := by
        rw [div_le_one hwp]
        exact_mod_cast hsw.le
      nlinarith
    · by_cases hcd : step < d - c ∨ c = 0
      · rw [h2 step (by omega) hcd]
        exact (dv _ (by omega)).2
      · rw [h3 step (by omega) (by omega)]
        obtain ⟨a1, a2⟩ := dv (d - c - w) (by omega)
        have hcp : (0 : ℝ) < c := by
          have : 0 < c := by omega
          exact_mod_cast this
        have : ((d - step : Int) : ℝ) / c ≤ 1 := by
          rw [div_le_one hcp]
          have : d - step ≤ c := by omega
          exact_mod_cast this
        nlinarith
  · intro step h0 hsd
    by_cases hsw : step < w
    · rw [h1 step h0 hsw]
      exact mul_nonneg hp (div_nonneg (by exact_mod_cast h0) (by exact_mod_cast hw))
    · by_cases hcd : step < d - c ∨ c = 0
      · rw [h2 step (by omega) hcd]
        exact (dv _ (by omega)).1
      · rw [h3 step (by omega) (by omega)]
        refine mul_nonneg (dv _ (by omega)).1 (div_nonneg ?_ (by exact_mod_cast hc))
        have : 0 ≤ d - step := by omega
        exact_mod_cast this
  · intro hc0
    rw [h3 d (by omega) hc0]
    simp
  · by_cases hc0 : 0 < c
    · exact start hc0
    · have : c = 0 := by omega
      subst this
      rw [h2 (d - 0) (by omega) (Or.inr rfl)]

example : (0 : Int) ≤ 10 ∧ (0 : Int) ≤ 20 ∧ (10 : Int) + 20 ≤ 100 ∧ (0 : Int) < 1000 ∧ (0 : ℝ) ≤ 0.1 := by norm_num

/-- C47: past `decay_steps` the inverse square root schedule with cooldown becomes negative, so that training longer than
`decay_steps` moves the parameters against the update. -/
theorem C47_rsqrt_negative_counterexample (peak : ℝ) (d t w c step : Int) (hw : 0 ≤ w) (hc : 0 < c) (hd : w + c ≤ d)
    (ht : 0 < t) (hp : 0 < peak) (hstep : d < step) :
    ∃ s, bigVisionRsqrtSchedule peak d t w c = .ok s ∧ s step < 0 := by
  obtain ⟨s, hs, _, _, h3⟩ := rsqrt_phases peak d t w c hw hc.le hd ht
  refine ⟨s, hs, ?_⟩
  rw [h3 step (by omega) hc]
  have htr : (0 : ℝ) < t := by exact_mod_cast ht
  have hcr : (0 : ℝ) < c := by exact_mod_cast hc
  have : 0 ≤ ((d - c - w : Int) : ℝ) / t := by
    apply div_nonneg _ htr.le
    have : 0 ≤ d - c - w := by omega
    exact_mod_cast this
  have h1 : 0 < peak / Real.sqrt (1 + ((d - c - w : Int) : ℝ) / t) :=
    div_pos hp (Real.sqrt_pos.2 (by linarith))
  have h2 : ((d - step : Int) : ℝ) / c < 0 := by
    apply div_neg_of_neg_of_pos _ hcr
    have : d - step < 0 := by omega
    exact_mod_cast this
  exact mul_neg_of_pos_of_neg h1 h2

theorem clip_end {rate v : ℝ} (hr1 : rate < 1) (fin : Option ℝ) (hv : 0 ≤ v) : (match fin with
    | none => v
    | some e => if rate < 1 then max v e else min v e) = max v (fin.getD 0) := by
  cases fin with
  | none => simp [hv]
  | some e => simp [hr1]

/-- C47: the exponential schedule does not decay if the number of transition steps is not positive or the rate is 0 (also not
below the end value). -/
theorem C47_exponential_constant (peak rate : ℝ) (w t b : Int) (staircase : Bool) (fin : Option ℝ)
    (ht : t ≤ 0 ∨ rate = 0) (step : Int) (hs : w ≤ step) (total : Int) :
    ∃ s, createLearningRateSchedule (.exponential peak w t rate b staircase fin) total = .ok s ∧ s step = peak := by
  refine ⟨warmupExponentialDecaySchedule peak w t rate b staircase fin, rfl, ?_⟩
  unfold warmupExponentialDecaySchedule
  rw [join_two, if_neg (by omega)]
  unfold exponentialDecay
  by_cases h1 : t ≤ 0
  · rw [if_pos h1]
  · rw [if_neg h1, if_pos (ht.resolve_left h1)]

example : ((0 : Int) ≤ 0 ∨ (1 / 2 : ℝ) = 0) ∧ (10 : Int) ≤ 25 := ⟨.inl le_rfl, by norm_num⟩

/-- C47: the exponential schedule: linear warmup, the peak for `transition_begin` steps, then one factor `decay_rate` for
every `transition_steps` steps (only for whole ones with `staircase`), never below the end value. -/
theorem C47_exponential (peak rate : ℝ) (w t b : Int) (staircase : Bool) (fin : Option ℝ) (hw : 0 ≤ w) (ht : 0 < t)
    (hb : 0 ≤ b) (hr : 0 < rate) (hr1 : rate < 1) (hp : 0 ≤ peak) (hfp : ∀ e ∈ fin, e ≤ peak) (step : Int)
    (hs : 0 ≤ step) (total : Int) :
    ∃ s, createLearningRateSchedule (.exponential peak w t rate b staircase fin) total = .ok s ∧
    (step < w → s step = peak * (step / w)) ∧
    (w ≤ step → step ≤ w + b → s step = peak) ∧
    (∀ k : Nat, s (w + b + k * t) = max (peak * rate ^ k) (fin.getD 0)) ∧
    (w + b ≤ step → staircase = false → s step = max (peak * rate ^ (((step - w - b : Int) : ℝ) / t)) (fin.getD 0)) ∧
    (w + b ≤ step → staircase = true → s step = s (w + b + (step - w - b) / t * t)) := by
  refine ⟨warmupExponentialDecaySchedule peak w t rate b staircase fin, rfl, ?_⟩
  generalize hsd : warmupExponentialDecaySchedule peak w t rate b staircase fin = s
  have eq : ∀ x : Int, w ≤ x → s x = exponentialDecay peak t rate b staircase fin (x - w) := by
    intro x hx
    subst hsd
    unfold warmupExponentialDecaySchedule
    rw [join_two, if_neg (by omega)]
  have htr : (t : ℝ) ≠ 0 := by exact_mod_cast ht.ne'
  have val : ∀ n : Int, exponentialDecay peak t rate b staircase fin n =
      max (if n - b ≤ 0 then peak else peak * rate ^ (if staircase then (((n - b) / t : Int) : ℝ)
        else ((n - b : Int) : ℝ) / (t : ℝ))) (fin.getD 0) := by
    intro n
    unfold exponentialDecay
    rw [if_neg (by omega), if_neg hr.ne']
    simp only [max_eq_right hb]
    refine clip_end hr1 fin ?_
    split
    · exact hp
    · exact mul_nonneg hp (Real.rpow_nonneg hr.le _)
  have val' : ∀ n : Int, b ≤ n → exponentialDecay peak t rate b staircase fin n =
      max (peak * rate ^ (if staircase then (((n - b) / t : Int) : ℝ)
        else ((n - b : Int) : ℝ) / (t : ℝ))) (fin.getD 0) := by
    intro n hn
    rw [val n]
    congr 1
    by_cases h : n - b ≤ 0
    · have h0 : n - b = 0 := by omega
      rw [if_pos h, h0]
      simp
    · rw [if_neg h]
  have hfp' : fin.getD 0 ≤ peak := by
    cases fin with
    | none => exact hp
    | some e => exact hfp e rfl
  refine ⟨?_, ?_, ?_, ?_, ?_⟩
  · intro h
    subst hsd
    unfold warmupExponentialDecaySchedule
    rw [join_two, if_pos h, linear_warmup (by omega) hs h.le]
  · intro h1 h2
    rw [eq step h1, val, if_pos (by omega), max_eq_left hfp']
  · intro k
    have hk : 0 ≤ (k : Int) * t := mul_nonneg (by omega) ht.le
    rw [eq _ (by omega), val' _ (by omega)]
    have e1 : w + b + (k : Int) * t - w - b = k * t := by ring
    rw [e1, Int.mul_ediv_cancel _ ht.ne']
    have e2 : (((k : Int) * t : Int) : ℝ) / (t : ℝ) = (k : ℝ) := by
      push_cast
      field_simp
    rw [e2]
    simp [Real.rpow_natCast]
  · intro h1 h2
    rw [eq _ (by omega), val' _ (by omega), h2]
    simp
  · intro h1 h2
    have hq : 0 ≤ (step - w - b) / t := Int.ediv_nonneg (by omega) ht.le
    have hk : 0 ≤ (step - w - b) / t * t := mul_nonneg hq ht.le
    rw [eq _ (by omega), val' _ (by omega), eq _ (by omega), val' _ (by omega), h2]
    have e1 : w + b + (step - w - b) / t * t - w - b = (step - w - b) / t * t := by ring
    rw [e1, Int.mul_ediv_cancel _ ht.ne']
    simp

example : (0 : Int) ≤ 100 ∧ (0 : Int) < 1000 ∧ (0 : Int) ≤ 10 ∧ (0 : ℝ) < 0.5 ∧ (0.5 : ℝ) < 1 ∧ (0 : ℝ) ≤ 0.1 ∧
    ∀ e ∈ some (0.01 : ℝ), e ≤ 0.1 := by
  refine ⟨by norm_num, by norm_num, by norm_num, by norm_num, by norm_num, by norm_num, ?_⟩
  rintro e ⟨⟩
  norm_num

/-- C47: a negative `transition_begin` counts as 0. -/
theorem C47_exponential_negative_begin (peak rate : ℝ) (w t b : Int) (staircase : Bool) (fin : Option ℝ) (hb : b ≤ 0)
    (total : Int) :
    ∃ s, createLearningRateSchedule (.exponential peak w t rate b staircase fin) total = .ok s ∧
      createLearningRateSchedule (.exponential peak w t rate 0 staircase fin) total = .ok s := by
  refine ⟨_, rfl, ?_⟩
  change Except.ok (warmupExponentialDecaySchedule peak w t rate 0 staircase fin) =
    Except.ok (warmupExponentialDecaySchedule peak w t rate b staircase fin)
  unfold warmupExponentialDecaySchedule exponentialDecay
  simp only [max_eq_left hb, max_self]

example : (-3 : Int) ≤ 0 := by norm_num

/-- C47: `create_learning_rate_schedule` builds the named schedule.  `decay_steps` is the given one, or the total number of
steps when it is not given: the schedules that decay reach the peak at `warmup_steps` and the end value at that step. -/
theorem C47_create (peak fin power : ℝ) (t w c total : Int) (given : Option Int) (d : Int)
    (hd : d = match given with | some x => x | none => total) (hw : 0 ≤ w) (hwd : w < d)
    (hp : 0 < power) (hc : 0 ≤ c) (hwc : w + c ≤ d) (ht : 0 < t) (hf : 0 ≤ fin) (hfp : fin ≤ peak) :
    (∃ s, createLearningRateSchedule (.linear peak fin w given) total = .ok s ∧ ∀ step, 0 ≤ step →
      s step = if step < w then peak * (step / w)
        else if step < d then fin + (peak - fin) * (((d - step : Int) : ℝ) / ((d - w : Int) : ℝ)) else fin) ∧
    (∃ s, createLearningRateSchedule (.polynomial peak fin power w given) total = .ok s ∧ ∀ step, 0 ≤ step →
      s step = if step < w then peak * (step / w)
        else if step < d then fin + (peak - fin) * (((d - step : Int) : ℝ) / ((d - w : Int) : ℝ)) ^ power else fin) ∧
    (∃ s, createLearningRateSchedule (.cosine peak fin power w given) total = .ok s ∧
      (∀ step, 0 ≤ step → step < w → s step = peak * (step / w)) ∧
      s w = peak ∧ (∀ step, d ≤ step → s step = fin) ∧
      ∀ step, w ≤ step → fin ≤ s step ∧ s step ≤ peak) ∧
    (∃ s, createLearningRateSchedule (.rsqrt peak t w c given) total = .ok s ∧
      (∀ step, 0 ≤ step → step < w → s step = peak * (step / w)) ∧
      (∀ step, w ≤ step → step < d - c ∨ c = 0 → s step = peak / Real.sqrt (1 + ((step - w : Int) : ℝ) / t)) ∧
      (∀ step, d - c ≤ step → 0 < c → s step =
        peak / Real.sqrt (1 + ((d - c - w : Int) : ℝ) / t) * (((d - step : Int) : ℝ) / c))) := by
  have hg : given.getD total = d := by
    subst hd
    cases given <;> rfl
  refine ⟨⟨_, rfl, ?_⟩, ⟨_, rfl, ?_⟩, ?_, ?_⟩
  · intro step hs
    show warmupPolynomialDecaySchedule peak fin 1 w (given.getD total) step = _
    rw [hg, C47_polynomial peak fin 1 w d step hw hwd one_pos hs]
    simp only [Real.rpow_one]
  · intro step hs
    show warmupPolynomialDecaySchedule peak fin power w (given.getD total) step = _
    rw [hg, C47_polynomial peak fin power w d step hw hwd hp hs]
  · show ∃ s, warmupCosineDecaySchedule peak fin power w (given.getD total) = .ok s ∧ _
    rw [hg]
    exact (C47_cosine peak fin power w d hw hp hf hfp).2 hwd
  · show ∃ s, bigVisionRsqrtSchedule peak (given.getD total) t w c = .ok s ∧ _
    rw [hg]
    exact rsqrt_phases peak d t w c hw hc hwc ht

example : (7 : Int) = (match (some 7 : Option Int) with | some x => x | none => 100) ∧
    (100 : Int) = (match (none : Option Int) with | some x => x | none => 100) := by decide

/-- C47: the constant schedule has its value at every step, an unknown name is refused with `ValueError`, and neither the
constant nor the exponential schedule depends on the total number of steps: the latter is not over when training is,
unless `transition_steps` is chosen for it. -/
theorem C47_total_ignored (value peak rate : ℝ) (w t b : Int) (staircase : Bool) (fin : Option ℝ) (total total' : Int) :
    (∃ s, createLearningRateSchedule (.constant value) total = .ok s ∧ ∀ step, s step = value) ∧
    createLearningRateSchedule .unknown total = .error .valueError ∧
    createLearningRateSchedule (.exponential peak w t rate b staircase fin) total =
      createLearningRateSchedule (.exponential peak w t rate b staircase fin) total' :=
  ⟨⟨_, rfl, fun _ => rfl⟩, rfl, rfl⟩

end Verif.Schedule
