import Verif.Model.Adafactor
import Mathlib.Algebra.Order.BigOperators.Group.Finset
import Mathlib.Algebra.BigOperators.Field
import Mathlib.Data.List.GetD

/-!
# Adafactor (C104)
-/

namespace Verif.Adafactor

open Verif

/-! ### The decay rate -/

theorem rate_some (cfg : Config) (count : Nat) (h : cfg.decayOffset ≤ count) :
    rate cfg count = some (min cfg.decayRateMax
      (1 - ((count - cfg.decayOffset + 1 : Int) : ℝ) ^ (-cfg.decayRate))) := by
  unfold rate
  simp only
  rw [if_neg (by omega)]

/-- The decay rate starts with 0, never decreases, stays at or below its maximum and below 1. -/
theorem C104_rate (cfg : Config) (he : 0 < cfg.decayRate) (hm : 0 ≤ cfg.decayRateMax) (count : Nat)
    (h : cfg.decayOffset ≤ count) :
    ∃ r, rate cfg count = some r ∧ 0 ≤ r ∧ r ≤ cfg.decayRateMax ∧ r < 1 ∧ (cfg.decayOffset = count → r = 0) ∧
      ∀ count', count ≤ count' → ∃ r', rate cfg count' = some r' ∧ r ≤ r' := by
  have hpos : ∀ c : Nat, cfg.decayOffset ≤ c → (1 : ℝ) ≤ ((c - cfg.decayOffset + 1 : Int) : ℝ) := by
    intro c hc
    have : (1 : Int) ≤ c - cfg.decayOffset + 1 := by omega
    exact_mod_cast this
  refine ⟨_, rate_some cfg count h, ?_, min_le_left _ _, ?_, ?_, ?_⟩
  · refine le_min hm ?_
    have := Real.rpow_le_one_of_one_le_of_nonpos (hpos count h) (by linarith : -cfg.decayRate ≤ 0)
    linarith
  · refine lt_of_le_of_lt (min_le_right _ _) ?_
    have := Real.rpow_pos_of_pos (lt_of_lt_of_le one_pos (hpos count h)) (-cfg.decayRate)
    linarith
  · intro e
    have : ((count - cfg.decayOffset + 1 : Int) : ℝ) = 1 := by
      rw [e]
      simp
    rw [this, Real.one_rpow, sub_self]
    exact min_eq_right hm
  · intro count' hc
    refine ⟨_, rate_some cfg count' (by omega), min_le_min le_rfl ?_⟩
    have hle : ((count - cfg.decayOffset + 1 : Int) : ℝ) ≤ ((count' - cfg.decayOffset + 1 : Int) : ℝ) := by
      have : (count - cfg.decayOffset + 1 : Int) ≤ count' - cfg.decayOffset + 1 := by omega
      exact_mod_cast this
    have := Real.rpow_le_rpow_of_nonpos (lt_of_lt_of_le one_pos (hpos count h)) hle
      (by linarith : -cfg.decayRate ≤ 0)
    linarith

/-- "For fine-tuning, set `decay_offset` to the first step" is false of a new optimizer, whose count is 0: with any positive
offset the first update is not a number. -/
theorem C104_offset_counterexample {ι : Type} (cfg : Config) (h : 0 < cfg.decayOffset) (g : ι → ℝ) :
    (Full.init ι).step cfg g = none := by
  unfold Full.step rate Full.init
  simp only
  rw [if_pos (by push_cast; omega)]

/-! ### The average of squares -/

/-- The decay rate at the step with number `n`, if there is no offset. -/
noncomputable def rateAt (cfg : Config) (n : Nat) : ℝ := min cfg.decayRateMax (1 - ((n : ℝ) + 1) ^ (-cfg.decayRate))

theorem rate_zero (cfg : Config) (h0 : cfg.decayOffset = 0) (n : Nat) : rate cfg n = some (rateAt cfg n) := by
  rw [rate_some cfg n (by omega), h0]
  unfold rateAt
  congr 3
  push_cast
  ring

/-- Weight of the gradient with number `j` after `n` updates. -/
noncomputable def weight (cfg : Config) : Nat → Nat → ℝ
  | 0, _ => 0
  | n + 1, j => if j = n then 1 - rateAt cfg n else rateAt cfg n * weight cfg n j

theorem rateAt_bounds (cfg : Config) (he : 0 < cfg.decayRate) (hm : 0 ≤ cfg.decayRateMax) (n : Nat) :
    0 ≤ rateAt cfg n ∧ rateAt cfg n < 1 ∧ rateAt cfg n ≤ cfg.decayRateMax := by
  obtain ⟨r, h1, h2, h3, h4, -⟩ := C104_rate { cfg with decayOffset := 0 } he hm n (by simp)
  rw [rate_zero _ rfl] at h1
  injection h1 with h1
  rw [← h1] at h2 h3 h4
  exact ⟨h2, h4, h3⟩

theorem rateAt_zero (cfg : Config) (hm : 0 ≤ cfg.decayRateMax) : rateAt cfg 0 = 0 := by
  unfold rateAt
  simp [hm]

theorem weight_nonneg (cfg : Config) (he : 0 < cfg.decayRate) (hm : 0 ≤ cfg.decayRateMax) (n j : Nat) :
    0 ≤ weight cfg n j := by
  induction n with
  | zero => exact le_rfl
  | succ n ih =>
    obtain ⟨h1, h2, -⟩ := rateAt_bounds cfg he hm n
    unfold weight
    by_cases h : j = n
    · rw [if_pos h]; linarith
    · rw [if_neg h]; exact mul_nonneg h1 ih

theorem sum_weight_succ (cfg : Config) (n : Nat) (x : Nat → ℝ) :
    ∑ j ∈ Finset.range (n + 1), weight cfg (n + 1) j * x j =
      rateAt cfg n * (∑ j ∈ Finset.range n, weight cfg n j * x j) + (1 - rateAt cfg n) * x n := by
  rw [Finset.sum_range_succ, Finset.mul_sum]
  congr 1
  · refine Finset.sum_congr rfl fun j hj => ?_
    rw [weight, if_neg (by have := Finset.mem_range.1 hj; omega)]
    ring
  · rw [weight, if_pos rfl]

theorem sum_weight (cfg : Config) (hm : 0 ≤ cfg.decayRateMax) (n : Nat) (hn : 0 < n) :
    ∑ j ∈ Finset.range n, weight cfg n j = 1 := by
  have : ∀ n, ∑ j ∈ Finset.range (n + 1), weight cfg (n + 1) j = 1 := by
    intro n
    induction n with
    | zero => simp [weight, rateAt_zero cfg hm]
    | succ n ih =>
      have h := sum_weight_succ cfg (n + 1) fun _ => 1
      simp only [mul_one] at h
      rw [h, ih]
      ring
  obtain ⟨m, rfl⟩ := Nat.exists_eq_succ_of_ne_zero (by omega : n ≠ 0)
  exact this m

variable {ι κ : Type} {R C : Nat}

theorem full_inv (cfg : Config) (h0 : cfg.decayOffset = 0) (gs : List (ι → ℝ)) (prev : List (ι → ℝ)) (s : Full ι)
    (hc : s.count = prev.length)
    (hv : ∀ i, s.v i = ∑ j ∈ Finset.range prev.length, weight cfg prev.length j *
      ((prev.getD j fun _ => 0) i ^ 2 + cfg.eps)) :
    ∃ os s', runSteps (Full.step cfg) s gs = some (os, s') ∧ s'.count = (prev ++ gs).length ∧ os.length = gs.length ∧
      ∀ i, s'.v i = ∑ j ∈ Finset.range (prev ++ gs).length, weight cfg (prev ++ gs).length j *
        (((prev ++ gs).getD j fun _ => 0) i ^ 2 + cfg.eps) := by
  induction gs generalizing prev s with
  | nil => exact ⟨[], s, rfl, by simpa using hc, rfl, by simpa using hv⟩
  | cons g gs ih =>
    have hstep : Full.step cfg s g = some (momentumStep cfg s.ema (rmsFull cfg (rateAt cfg s.count) s.v g).1,
        (⟨s.count + 1, (rmsFull cfg (rateAt cfg s.count) s.v g).2,
          momentumStep cfg s.ema (rmsFull cfg (rateAt cfg s.count) s.v g).1⟩ : Full ι)) := by
      unfold Full.step
      rw [rate_zero cfg h0]
    obtain ⟨os, s', e1, e2, e3, e4⟩ := ih (prev ++ [g]) (⟨s.count + 1, (rmsFull cfg (rateAt cfg s.count) s.v g).2,
          momentumStep cfg s.ema (rmsFull cfg (rateAt cfg s.count) s.v g).1⟩ : Full ι) (by simp [hc]) (by
      intro i
      rw [List.length_append, List.length_singleton, sum_weight_succ]
      unfold rmsFull
      simp only
      rw [hv i, hc]
      congr 2
      · refine Finset.sum_congr rfl fun j hj => ?_
        rw [List.getD_append _ _ _ _ (Finset.mem_range.1 hj)]
      · simp)
    refine ⟨momentumStep cfg s.ema (rmsFull cfg (rateAt cfg s.count) s.v g).1 :: os, s', ?_, ?_, ?_, ?_⟩
    · rw [runSteps, hstep]
      simp only
      rw [e1]
    · rw [e2]; simp
    · simp [e3]
    · simpa using e4

/-- Training never fails, and the average of squares is always a weighted mean of the squares of all gradients so far: the
weights depend on the number of updates only, are not negative and sum to 1 (nothing is left of the initial zeros). -/
theorem C104_average (cfg : Config) (h0 : cfg.decayOffset = 0) (he : 0 < cfg.decayRate) (hm : 0 ≤ cfg.decayRateMax)
    (n : Nat) (hn : 0 < n) : ∃ w : Nat → ℝ, (∀ j, 0 ≤ w j) ∧ ∑ j ∈ Finset.range n, w j = 1 ∧
      ∀ (ι : Type) (gs : List (ι → ℝ)), gs.length = n → ∃ os s, runSteps (Full.step cfg) (Full.init ι) gs = some (os, s) ∧
        os.length = n ∧ s.count = n ∧
        ∀ i, s.v i = ∑ j ∈ Finset.range n, w j * ((gs.getD j fun _ => 0) i ^ 2 + cfg.eps) := by
  refine ⟨weight cfg n, weight_nonneg cfg he hm n, sum_weight cfg hm n hn, fun ι gs hl => ?_⟩
  obtain ⟨os, s, e1, e2, e3, e4⟩ := full_inv cfg h0 gs [] (Full.init ι) rfl fun i => by simp [Full.init]
  rw [List.nil_append, hl] at e2 e4
  exact ⟨os, s, e1, by rw [e3, hl], e2, e4⟩

/-! ### The updates -/

/-- Updates without momentum go in the direction of the gradient: entries have the sign of the gradient, and are zero only if
the gradient is. -/
theorem C104_sign (cfg : Config) (hmom : cfg.momentum = 0) (heps : 0 < cfg.eps) (he : 0 < cfg.decayRate)
    (hm : 0 ≤ cfg.decayRateMax) (s s' : Full ι) (hs : ∀ i, 0 ≤ s.v i) (g o : ι → ℝ)
    (hoff : cfg.decayOffset ≤ s.count) (h : Full.step cfg s g = some (o, s')) (i : ι) :
    (∃ c, 0 < c ∧ o i = c * g i) ∧ 0 < s'.v i := by
  obtain ⟨r, h1, h2, h3, h4, -⟩ := C104_rate cfg he hm s.count hoff
  unfold Full.step at h
  rw [h1] at h
  simp only at h
  injection h with h
  obtain ⟨rfl, rfl⟩ := Prod.mk.inj h
  have hv : 0 < (rmsFull cfg r s.v g).2 i := by
    unfold rmsFull
    simp only
    have a := mul_nonneg h2 (hs i)
    have b : 0 < (1 - r) * (g i ^ 2 + cfg.eps) := mul_pos (by linarith) (by positivity)
    linarith
  refine ⟨⟨(Real.sqrt ((rmsFull cfg r s.v g).2 i))⁻¹, inv_pos.2 (Real.sqrt_pos.2 hv), ?_⟩, hv⟩
  rw [momentumStep, if_pos hmom]
  unfold rmsFull
  simp only
  ring

theorem abs_mul_inv_sqrt_le (a v c : ℝ) (hc : 0 < c) (h : c * a ^ 2 ≤ v) : |a * (Real.sqrt v)⁻¹| ≤ (Real.sqrt c)⁻¹ := by
  rcases eq_or_ne a 0 with rfl | ha
  · simp
  have ha2 : 0 < a ^ 2 := by positivity
  have hv : 0 < v := lt_of_lt_of_le (mul_pos hc ha2) h
  rw [abs_mul, abs_inv, abs_of_pos (Real.sqrt_pos.2 hv), ← Real.sqrt_sq_eq_abs, ← div_eq_mul_inv,
    div_le_iff₀ (Real.sqrt_pos.2 hv), ← div_eq_inv_mul, le_div_iff₀ (Real.sqrt_pos.2 hc), mul_comm,
    ← Real.sqrt_mul hc.le]
  exact Real.sqrt_le_sqrt h

theorem step_bound (cfg : Config) (heps : 0 ≤ cfg.eps) (r : ℝ) (h0 : 0 ≤ r) (h1 : r < 1)
    (v g : ι → ℝ) (hv : ∀ i, 0 ≤ v i) (i : ι) : |(rmsFull cfg r v g).1 i| ≤ (Real.sqrt (1 - r))⁻¹ := by
  unfold rmsFull
  simp only
  refine abs_mul_inv_sqrt_le _ _ _ (by linarith) ?_
  have a := mul_nonneg h0 (hv i)
  have b := mul_nonneg (by linarith : 0 ≤ 1 - r) heps
  nlinarith

/-- No entry of an update, with or without momentum, exceeds `1 / sqrt (1 - decay_rate_max)`, whatever the gradients. -/
theorem C104_bounded (cfg : Config) (h0 : cfg.decayOffset ≤ 0) (he : 0 < cfg.decayRate) (hm : 0 ≤ cfg.decayRateMax)
    (hm1 : cfg.decayRateMax < 1) (heps : 0 ≤ cfg.eps) (hb : 0 ≤ cfg.momentum) (hb1 : cfg.momentum ≤ 1)
    (gs : List (ι → ℝ)) :
    ∃ os s, runSteps (Full.step cfg) (Full.init ι) gs = some (os, s) ∧ os.length = gs.length ∧
      ∀ o ∈ os, ∀ i, |o i| ≤ 1 / Real.sqrt (1 - cfg.decayRateMax) := by
  have hpos : 0 < Real.sqrt (1 - cfg.decayRateMax) := Real.sqrt_pos.2 (by linarith)
  suffices H : ∀ (gs : List (ι → ℝ)) (s : Full ι), (∀ i, 0 ≤ s.v i) →
      (∀ i, |s.ema i| ≤ 1 / Real.sqrt (1 - cfg.decayRateMax)) → ∃ os s', runSteps (Full.step cfg) s gs = some (os, s') ∧
      os.length = gs.length ∧ ∀ o ∈ os, ∀ i, |o i| ≤ 1 / Real.sqrt (1 - cfg.decayRateMax) by
    refine H gs _ (fun _ => le_rfl) fun i => ?_
    simp only [Full.init, abs_zero]
    positivity
  intro gs
  induction gs with
  | nil => intro s _ _; exact ⟨[], s, rfl, rfl, by simp⟩
  | cons g gs ih =>
    intro s hv hem
    obtain ⟨r, h1, h2, h3, h4, -⟩ := C104_rate cfg he hm s.count (by omega)
    have hu : ∀ i, |(rmsFull cfg r s.v g).1 i| ≤ 1 / Real.sqrt (1 - cfg.decayRateMax) := by
      intro i
      refine (step_bound cfg heps r h2 h4 s.v g hv i).trans ?_
      rw [one_div]
      exact inv_anti₀ hpos (Real.sqrt_le_sqrt (by linarith))
    have ho : ∀ i, |momentumStep cfg s.ema (rmsFull cfg r s.v g).1 i| ≤ 1 / Real.sqrt (1 - cfg.decayRateMax) := by
      intro i
      unfold momentumStep
      by_cases hz : cfg.momentum = 0
      · rw [if_pos hz]; exact hu i
      · rw [if_neg hz]
        refine (abs_add_le _ _).trans ?_
        rw [abs_mul, abs_mul, abs_of_nonneg (by linarith : 0 ≤ 1 - cfg.momentum), abs_of_nonneg hb]
        have a := mul_le_mul_of_nonneg_left (hu i) (by linarith : 0 ≤ 1 - cfg.momentum)
        have b := mul_le_mul_of_nonneg_left (hem i) hb
        linarith
    obtain ⟨os, s', e1, e2, e3⟩ := ih (⟨s.count + 1, (rmsFull cfg r s.v g).2,
          momentumStep cfg s.ema (rmsFull cfg r s.v g).1⟩ : Full ι) (by
      intro i
      unfold rmsFull
      simp only
      have a := mul_nonneg h2 (hv i)
      have b : 0 ≤ (1 - r) * (g i ^ 2 + cfg.eps) := mul_nonneg (by linarith) (by positivity)
      linarith) ho
    refine ⟨momentumStep cfg s.ema (rmsFull cfg r s.v g).1 :: os, s', ?_, by simp [e2], ?_⟩
    · rw [runSteps]
      have : Full.step cfg s g = some (momentumStep cfg s.ema (rmsFull cfg r s.v g).1, (⟨s.count + 1, (rmsFull cfg r s.v g).2,
          momentumStep cfg s.ema (rmsFull cfg r s.v g).1⟩ : Full ι)) := by
        unfold Full.step
        rw [h1]
      rw [this]
      simp only
      rw [e1]
    · intro o hmem
      rcases List.mem_cons.1 hmem with rfl | hmem
      · exact ho
      · exact e3 o hmem

/-- The first update without momentum is the gradient divided by the root of its own square, up to `eps`: a step of length
below one in every entry. -/
theorem C104_first (cfg : Config) (h0 : cfg.decayOffset = 0) (hm : 0 ≤ cfg.decayRateMax) (hmom : cfg.momentum = 0)
    (heps : 0 < cfg.eps) (g : ι → ℝ) : ∃ o s, Full.step cfg (Full.init ι) g = some (o, s) ∧
      ∀ i, o i = g i / Real.sqrt (g i ^ 2 + cfg.eps) ∧ |o i| < 1 := by
  have h : Full.step cfg (Full.init ι) g = some (momentumStep cfg (Full.init ι).ema
      (rmsFull cfg 0 (Full.init ι).v g).1, (⟨1, (rmsFull cfg 0 (Full.init ι).v g).2,
          momentumStep cfg (Full.init ι).ema (rmsFull cfg 0 (Full.init ι).v g).1⟩ : Full ι)) := by
    unfold Full.step
    rw [show (Full.init ι).count = 0 from rfl, rate_zero cfg h0, rateAt_zero cfg hm]
  refine ⟨_, _, h, fun i => ?_⟩
  have e : momentumStep cfg (Full.init ι).ema (rmsFull cfg 0 (Full.init ι).v g).1 i =
      g i / Real.sqrt (g i ^ 2 + cfg.eps) := by
    rw [momentumStep, if_pos hmom]
    unfold rmsFull
    simp only
    rw [zero_mul, sub_zero, one_mul, zero_add, div_eq_mul_inv]
  rw [e]
  refine ⟨rfl, ?_⟩
  have hp : 0 < Real.sqrt (g i ^ 2 + cfg.eps) := Real.sqrt_pos.2 (by positivity)
  rw [abs_div, abs_of_pos hp, div_lt_one hp, ← Real.sqrt_sq_eq_abs]
  exact Real.sqrt_lt_sqrt (by positivity) (by linarith)

/-- The updates with momentum are the exponential averages of those without: update `n` is the sum over the updates `j ≤ n`
of the run without momentum with weights `(1 - momentum) * momentum ^ (n - j)`. -/
theorem C104_momentum (cfg : Config) (hb : cfg.momentum ≠ 0) (gs : List (ι → ℝ)) (os us : List (ι → ℝ)) (s s' : Full ι)
    (h : runSteps (Full.step cfg) (Full.init ι) gs = some (os, s))
    (h' : runSteps (Full.step { cfg with momentum := 0 }) (Full.init ι) gs = some (us, s')) :
    os.length = us.length ∧ ∀ n < os.length, ∀ i, (os.getD n fun _ => 0) i = ∑ j ∈ Finset.range (n + 1),
      (1 - cfg.momentum) * cfg.momentum ^ (n - j) * (us.getD j fun _ => 0) i := by
  suffices H : ∀ (gs : List (ι → ℝ)) (os us : List (ι → ℝ)) (a b s s' : Full ι), a.count = b.count → a.v = b.v →
      runSteps (Full.step cfg) a gs = some (os, s) →
      runSteps (Full.step { cfg with momentum := 0 }) b gs = some (us, s') →
      os.length = us.length ∧ ∀ n < os.length, ∀ i, (os.getD n fun _ => 0) i = cfg.momentum ^ (n + 1) * a.ema i +
        ∑ j ∈ Finset.range (n + 1), (1 - cfg.momentum) * cfg.momentum ^ (n - j) * (us.getD j fun _ => 0) i by
    obtain ⟨h1, h2⟩ := H gs os us _ _ s s' rfl rfl h h'
    refine ⟨h1, fun n hn i => ?_⟩
    rw [h2 n hn i]
    simp [Full.init]
  clear h h' s s' gs os us
  intro gs
  induction gs with
  | nil =>
    intro os us a b s s' _ _ h h'
    injection h with h
    injection h' with h'
    obtain ⟨rfl, -⟩ := Prod.mk.inj h
    obtain ⟨rfl, -⟩ := Prod.mk.inj h'
    exact ⟨rfl, fun n hn => absurd hn (by simp)⟩
  | cons g gs ih =>
    intro os us a b s s' hc hv h h'
    rw [runSteps] at h h'
    unfold Full.step at h h'
    have hr : rate { cfg with momentum := 0 } b.count = rate cfg a.count := by
      rw [hc]
      rfl
    rw [hr] at h'
    cases hrate : rate cfg a.count with
    | none => rw [hrate] at h; cases h
    | some r =>
      rw [hrate] at h h'
      simp only at h h'
      have hg : rmsFull { cfg with momentum := 0 } r b.v g = rmsFull cfg r a.v g := by rw [hv]; rfl
      rw [hg] at h'
      cases h1 : runSteps (Full.step cfg) (⟨a.count + 1, (rmsFull cfg r a.v g).2,
          momentumStep cfg a.ema (rmsFull cfg r a.v g).1⟩ : Full ι) gs with
      | none =>
        unfold Full.step at h1
        rw [h1] at h
        cases h
      | some p =>
        cases h2 : runSteps (Full.step { cfg with momentum := 0 }) (⟨b.count + 1, (rmsFull cfg r a.v g).2,
          momentumStep { cfg with momentum := 0 } b.ema (rmsFull cfg r a.v g).1⟩ : Full ι) gs with
        | none =>
          unfold Full.step at h2
          rw [h2] at h'
          cases h'
        | some q =>
          obtain ⟨i1, i2⟩ := ih p.1 q.1
            (⟨a.count + 1, (rmsFull cfg r a.v g).2, momentumStep cfg a.ema (rmsFull cfg r a.v g).1⟩ : Full ι)
            (⟨b.count + 1, (rmsFull cfg r a.v g).2,
              momentumStep { cfg with momentum := 0 } b.ema (rmsFull cfg r a.v g).1⟩ : Full ι)
            p.2 q.2 (by simp [hc]) rfl h1 h2
          unfold Full.step at h1 h2
          rw [h1] at h
          rw [h2] at h'
          injection h with h
          injection h' with h'
          obtain ⟨rfl, -⟩ := Prod.mk.inj h
          obtain ⟨rfl, -⟩ := Prod.mk.inj h'
          refine ⟨by simp [i1], fun n hn i => ?_⟩
          have e0 : momentumStep { cfg with momentum := 0 } b.ema (rmsFull cfg r a.v g).1 = (rmsFull cfg r a.v g).1 :=
            if_pos rfl
          have e1 : momentumStep cfg a.ema (rmsFull cfg r a.v g).1 i =
              (1 - cfg.momentum) * (rmsFull cfg r a.v g).1 i + cfg.momentum * a.ema i := by
            rw [momentumStep, if_neg hb]
          cases n with
          | zero =>
            simp only [List.getD_cons_zero, zero_add, Finset.sum_range_one, pow_one, Nat.sub_zero, pow_zero, mul_one]
            rw [e0, e1]
            ring
          | succ n =>
            rw [List.getD_cons_succ, i2 n (by simpa using hn) i, Finset.sum_range_succ' _ (n + 1)]
            simp only [List.getD_cons_succ, List.getD_cons_zero, Nat.sub_zero, Nat.add_sub_add_right]
            rw [e0, e1]
            ring

/-! ### Factored averages -/

/-- What the two averages stand for: their product, divided by the mean. -/
noncomputable def estimate (row : Fin R → ℝ) (col : Fin C → ℝ) (i : Fin R) (j : Fin C) : ℝ := row i * col j / mean row

theorem mean_add_mul {n : Nat} (r : ℝ) (f g : Fin n → ℝ) :
    mean (fun i => r * f i + (1 - r) * g i) = r * mean f + (1 - r) * mean g := by
  unfold mean
  rw [Finset.sum_add_distrib, ← Finset.mul_sum, ← Finset.mul_sum]
  ring

theorem mean_swap {R C : Nat} (f : Fin R → Fin C → ℝ) : mean (fun i => mean fun j => f i j) = mean fun j => mean fun i => f i j := by
  unfold mean
  rw [← Finset.sum_div, ← Finset.sum_div, Finset.sum_comm, div_div, div_div, mul_comm]

theorem mean_pos {n : Nat} (hn : 0 < n) (f : Fin n → ℝ) (h : ∀ i, 0 < f i) : 0 < mean f := by
  unfold mean
  have : 0 < ∑ i, f i := Finset.sum_pos (fun i _ => h i) ⟨⟨0, hn⟩, Finset.mem_univ _⟩
  positivity

theorem fact_inv (cfg : Config) (gs : List (κ × Fin R × Fin C → ℝ)) (os us : List (κ × Fin R × Fin C → ℝ))
    (a a' : Fact κ R C) (b b' : Full (κ × Fin R × Fin C)) (hc : a.count = b.count)
    (hrow : ∀ k i, a.row k i = mean fun j => b.v (k, i, j)) (hcol : ∀ k j, a.col k j = mean fun i => b.v (k, i, j))
    (h : runSteps (Fact.step cfg) a gs = some (os, a')) (h' : runSteps (Full.step cfg) b gs = some (us, b')) :
    (∀ k i, a'.row k i = mean fun j => b'.v (k, i, j)) ∧ ∀ k j, a'.col k j = mean fun i => b'.v (k, i, j) := by
  induction gs generalizing os us a b with
  | nil =>
    injection h with h
    injection h' with h'
    obtain ⟨-, rfl⟩ := Prod.mk.inj h
    obtain ⟨-, rfl⟩ := Prod.mk.inj h'
    exact ⟨hrow, hcol⟩
  | cons g gs ih =>
    rw [runSteps] at h h'
    cases h1 : Fact.step cfg a g with
    | none => rw [h1] at h; cases h
    | some p =>
      cases h2 : Full.step cfg b g with
      | none => rw [h2] at h'; cases h'
      | some q =>
        obtain ⟨o, a1⟩ := p
        obtain ⟨u, b1⟩ := q
        rw [h1] at h
        rw [h2] at h'
        simp only at h h'
        cases h3 : runSteps (Fact.step cfg) a1 gs with
        | none => rw [h3] at h; cases h
        | some p =>
          cases h4 : runSteps (Full.step cfg) b1 gs with
          | none => rw [h4] at h'; cases h'
          | some q =>
            rw [h3] at h
            rw [h4] at h'
            injection h with h
            injection h' with h'
            obtain ⟨-, rfl⟩ := Prod.mk.inj h
            obtain ⟨-, rfl⟩ := Prod.mk.inj h'
            unfold Fact.step at h1
            unfold Full.step at h2
            rw [hc] at h1
            cases hr : rate cfg b.count with
            | none => rw [hr] at h1; cases h1
            | some r =>
              rw [hr] at h1 h2
              simp only at h1 h2
              injection h1 with h1
              injection h2 with h2
              obtain ⟨-, rfl⟩ := Prod.mk.inj h1
              obtain ⟨-, rfl⟩ := Prod.mk.inj h2
              refine ih p.1 q.1 _ _ rfl ?_ ?_ h3 h4
              · intro k i
                simp only [rmsFull]
                rw [mean_add_mul, hrow]
              · intro k j
                simp only [rmsFull]
                rw [mean_add_mul, hcol]

theorem full_total (cfg : Config) (h0 : cfg.decayOffset ≤ 0) (he : 0 < cfg.decayRate) (hm : 0 ≤ cfg.decayRateMax)
    (heps : 0 < cfg.eps) (gs : List (ι → ℝ)) (s : Full ι) (hv : ∀ i, 0 ≤ s.v i) :
    ∃ os s', runSteps (Full.step cfg) s gs = some (os, s') ∧ (∀ i, 0 ≤ s'.v i) ∧ (gs ≠ [] → ∀ i, 0 < s'.v i) := by
  induction gs generalizing s with
  | nil => exact ⟨[], s, rfl, hv, fun h => absurd rfl h⟩
  | cons g gs ih =>
    obtain ⟨r, h1, h2, -, h4, -⟩ := C104_rate cfg he hm s.count (by omega)
    have hp : ∀ i, 0 < (rmsFull cfg r s.v g).2 i := by
      intro i
      unfold rmsFull
      simp only
      have a := mul_nonneg h2 (hv i)
      have b : 0 < (1 - r) * (g i ^ 2 + cfg.eps) := mul_pos (by linarith) (by positivity)
      linarith
    obtain ⟨os, s', e1, e2, e3⟩ := ih (⟨s.count + 1, (rmsFull cfg r s.v g).2,
      momentumStep cfg s.ema (rmsFull cfg r s.v g).1⟩ : Full ι) fun i => (hp i).le
    refine ⟨momentumStep cfg s.ema (rmsFull cfg r s.v g).1 :: os, s', ?_, e2, fun _ => ?_⟩
    · have : Full.step cfg s g = some (momentumStep cfg s.ema (rmsFull cfg r s.v g).1, ⟨s.count + 1,
          (rmsFull cfg r s.v g).2, momentumStep cfg s.ema (rmsFull cfg r s.v g).1⟩) := by
        unfold Full.step
        rw [h1]
      rw [runSteps, this]
      simp only
      rw [e1]
    · cases gs with
      | nil =>
        injection e1 with e1
        rw [← (Prod.mk.inj e1).2]
        exact hp
      | cons g' gs => exact e3 (by simp)

theorem fact_total (cfg : Config) (h0 : cfg.decayOffset ≤ 0) (gs : List (κ × Fin R × Fin C → ℝ)) (s : Fact κ R C) :
    ∃ os s', runSteps (Fact.step cfg) s gs = some (os, s') := by
  induction gs generalizing s with
  | nil => exact ⟨[], s, rfl⟩
  | cons g gs ih =>
    obtain ⟨o, s1, e⟩ : ∃ o s1, Fact.step cfg s g = some (o, s1) := by
      unfold Fact.step
      rw [rate_some cfg s.count (by omega)]
      exact ⟨_, _, rfl⟩
    obtain ⟨os, s', e1⟩ := ih s1
    exact ⟨o :: os, s', by rw [runSteps, e]; simp only; rw [e1]⟩

/-- The factored averages never lose the sums: after any updates, the estimate made from them has in every row and in every
column the same mean as the average that is kept for a parameter that is not factored. -/
theorem C104_factored_means (cfg : Config) (h0 : cfg.decayOffset ≤ 0) (he : 0 < cfg.decayRate)
    (hm : 0 ≤ cfg.decayRateMax) (heps : 0 < cfg.eps) (hR : 0 < R) (hC : 0 < C) (gs : List (κ × Fin R × Fin C → ℝ))
    (hgs : gs ≠ []) : ∃ os a us b, runSteps (Fact.step cfg) (Fact.init κ R C) gs = some (os, a) ∧
      runSteps (Full.step cfg) (Full.init _) gs = some (us, b) ∧ ∀ k,
      (∀ i, mean (fun j => estimate (a.row k) (a.col k) i j) = mean fun j => b.v (k, i, j)) ∧
      ∀ j, mean (fun i => estimate (a.row k) (a.col k) i j) = mean fun i => b.v (k, i, j) := by
  obtain ⟨us, b, h', -, hpos'⟩ := full_total cfg h0 he hm heps gs (Full.init (κ × Fin R × Fin C)) fun _ => le_rfl
  obtain ⟨os, a, h⟩ := fact_total cfg h0 gs (Fact.init κ R C)
  refine ⟨os, a, us, b, h, h', fun k => ?_⟩
  have hpos : ∀ i j, 0 < b.v (k, i, j) := fun i j => hpos' hgs _
  have hz : ∀ n : Nat, mean (fun _ : Fin n => (0 : ℝ)) = 0 := by intro n; simp [mean]
  obtain ⟨hrow, hcol⟩ := fact_inv cfg gs os us _ a _ b rfl (fun k i => by simp [Fact.init, Full.init, hz])
    (fun k j => by simp [Fact.init, Full.init, hz]) h h'
  have hm : mean (a.row k) = mean (a.col k) := by
    rw [show a.row k = _ from funext (hrow k), show a.col k = _ from funext (hcol k)]
    exact mean_swap fun i j => b.v (k, i, j)
  have hp : 0 < mean (a.row k) := by
    rw [show a.row k = _ from funext (hrow k)]
    exact mean_pos hR _ fun i => mean_pos hC _ fun j => hpos i j
  have hne : (∑ i, a.row k i) ≠ 0 := by
    intro h0
    rw [mean, h0, zero_div] at hp
    exact lt_irrefl _ hp
  constructor
  · intro i
    rw [← hrow k i]
    have : mean (fun j => estimate (a.row k) (a.col k) i j) = a.row k i * mean (a.col k) / mean (a.row k) := by
      unfold estimate mean
      rw [← Finset.sum_div, ← Finset.mul_sum]
      ring
    rw [this, ← hm, mul_div_assoc, div_self hp.ne', mul_one]
  · intro j
    rw [← hcol k j]
    have : mean (fun i => estimate (a.row k) (a.col k) i j) = mean (a.row k) * a.col k j / mean (a.row k) := by
      unfold estimate mean
      rw [← Finset.sum_div, ← Finset.sum_mul]
      ring
    rw [this, mul_comm, mul_div_assoc, div_self hp.ne', mul_one]

/-- The factored update without momentum divides the gradient by the root of this estimate. -/
theorem C104_factored_update (cfg : Config) (hmom : cfg.momentum = 0) (heps : 0 < cfg.eps) (he : 0 < cfg.decayRate)
    (hm : 0 ≤ cfg.decayRateMax) (hR : 0 < R) (hC : 0 < C) (s s' : Fact κ R C) (hs : ∀ k i, 0 ≤ s.row k i)
    (hs' : ∀ k j, 0 ≤ s.col k j) (hoff : cfg.decayOffset ≤ s.count) (g o : κ × Fin R × Fin C → ℝ)
    (h : Fact.step cfg s g = some (o, s')) (k : κ) (i : Fin R) (j : Fin C) :
    0 < estimate (s'.row k) (s'.col k) i j ∧
      o (k, i, j) = g (k, i, j) / Real.sqrt (estimate (s'.row k) (s'.col k) i j) := by
  obtain ⟨r, h1, h2, -, h4, -⟩ := C104_rate cfg he hm s.count hoff
  unfold Fact.step at h
  rw [h1] at h
  simp only at h
  injection h with h
  obtain ⟨rfl, rfl⟩ := Prod.mk.inj h
  have hrow : ∀ k i, 0 < r * s.row k i + (1 - r) * mean fun j => g (k, i, j) ^ 2 + cfg.eps := by
    intro k i
    have a := mul_nonneg h2 (hs k i)
    have b := mul_pos (by linarith : 0 < 1 - r) (mean_pos hC (fun j => g (k, i, j) ^ 2 + cfg.eps) fun j => by positivity)
    linarith
  have hcol : ∀ k j, 0 < r * s.col k j + (1 - r) * mean fun i => g (k, i, j) ^ 2 + cfg.eps := by
    intro k j
    have a := mul_nonneg h2 (hs' k j)
    have b := mul_pos (by linarith : 0 < 1 - r) (mean_pos hR (fun i => g (k, i, j) ^ 2 + cfg.eps) fun j => by positivity)
    linarith
  have hmean := mean_pos hR _ (hrow k)
  rw [momentumStep, if_pos hmom]
  simp only [estimate]
  refine ⟨div_pos (mul_pos (hrow k i) (hcol k j)) hmean, ?_⟩
  rw [mul_div_right_comm, Real.sqrt_mul (div_pos (hrow k i) hmean).le, div_eq_mul_inv (g (k, i, j)), mul_inv,
    mul_assoc]

/-- If the squares of a gradient are a product of a row and a column, the first factored update is the one that is not
factored. -/
theorem C104_rank_one (cfg : Config) (h0 : cfg.decayOffset = 0) (hm : 0 ≤ cfg.decayRateMax) (hR : 0 < R) (hC : 0 < C) (g : κ × Fin R × Fin C → ℝ) (a : κ → Fin R → ℝ) (b : κ → Fin C → ℝ)
    (ha : ∀ k i, 0 < a k i) (hb : ∀ k j, 0 < b k j)
    (hg : ∀ k i j, g (k, i, j) ^ 2 + cfg.eps = a k i * b k j) :
    ((Fact.init κ R C).step cfg g).map Prod.fst = ((Full.init (κ × Fin R × Fin C)).step cfg g).map Prod.fst ∧
      ((Fact.init κ R C).step cfg g).isSome := by
  unfold Fact.step Full.step
  rw [show (Fact.init κ R C).count = 0 from rfl, show (Full.init (κ × Fin R × Fin C)).count = 0 from rfl,
    rate_zero cfg h0, rateAt_zero cfg hm]
  refine ⟨?_, rfl⟩
  simp only [Option.map_some]
  congr 1
  change momentumStep cfg (fun _ => 0) _ = momentumStep cfg (fun _ => 0) _
  congr 1
  funext p
  obtain ⟨k, i, j⟩ := p
  simp only [rmsFull, Fact.init, Full.init, mul_zero, sub_zero, one_mul, zero_add, hg]
  have h1 : ∀ i, mean (fun j => a k i * b k j) = a k i * mean (b k) := by
    intro i
    unfold mean
    rw [← Finset.mul_sum]
    ring
  have h2 : ∀ j, mean (fun i => a k i * b k j) = mean (a k) * b k j := by
    intro j
    unfold mean
    rw [← Finset.sum_mul]
    ring
  have h3 : mean (fun i => a k i * mean (b k)) = mean (a k) * mean (b k) := by
    unfold mean
    rw [← Finset.sum_mul]
    ring
  have pa := mean_pos hR _ (ha k)
  have pb := mean_pos hC _ (hb k)
  simp only [h1, h2, h3]
  rw [mul_assoc, ← mul_inv, ← Real.sqrt_mul (by have := ha k i; positivity)]
  congr 3
  field_simp

/-! ### The axes -/

/-- What `np.argsort` promises: a permutation of the axes in increasing order of the sizes (equal sizes in any order). -/
def IsArgsort (shape order : List Nat) : Prop :=
  order.Perm (List.range shape.length) ∧ order.Pairwise fun a b => shape.getD a 0 ≤ shape.getD b 0

/-- An array is factored exactly if two of its axes have at least the size `min_dim_size_to_factor`; it is then factored over
two different axes of at least this size that are not smaller than any other axis. -/
theorem C104_axes (argsort : List Nat → List Nat) (h : ∀ s, IsArgsort s (argsort s)) (minDim : Nat) (shape : List Nat) :
    (∀ d1 d0, factoredDims argsort minDim shape = some (d1, d0) → d1 ≠ d0 ∧ d1 < shape.length ∧ d0 < shape.length ∧
      minDim ≤ shape.getD d1 0 ∧ minDim ≤ shape.getD d0 0 ∧
      ∀ d < shape.length, d ≠ d1 → d ≠ d0 → shape.getD d 0 ≤ shape.getD d1 0 ∧ shape.getD d 0 ≤ shape.getD d0 0) ∧
    (factoredDims argsort minDim shape = none → ∀ d e, d < shape.length → e < shape.length → d ≠ e →
      minDim ≤ shape.getD d 0 → ¬ minDim ≤ shape.getD e 0) := by
  obtain ⟨hp, hs⟩ := h shape
  have hlen : (argsort shape).length = shape.length := by rw [hp.length_eq, List.length_range]
  have hnd : (argsort shape).Nodup := hp.nodup_iff.2 List.nodup_range
  have hmem : ∀ d, d < shape.length ↔ d ∈ argsort shape := by
    intro d
    rw [hp.mem_iff, List.mem_range]
  unfold factoredDims
  by_cases h2 : shape.length < 2
  · rw [if_pos h2]
    refine ⟨fun _ _ e => by simp at e, fun _ d e hd he hde => ?_⟩
    omega
  rw [if_neg h2]
  simp only
  have hi1 : shape.length - 2 < (argsort shape).length := by omega
  have hi0 : shape.length - 1 < (argsort shape).length := by omega
  rw [List.getD_eq_getElem _ _ hi1, List.getD_eq_getElem _ _ hi0]
  have hle : ∀ i j (hi : i < (argsort shape).length) (hj : j < (argsort shape).length), i ≤ j →
      shape.getD (argsort shape)[i] 0 ≤ shape.getD (argsort shape)[j] 0 := by
    intro i j hi hj hij
    rcases Nat.lt_or_eq_of_le hij with hij | rfl
    · exact List.pairwise_iff_getElem.1 hs i j hi hj hij
    · exact le_rfl
  have hidx : ∀ d < shape.length, ∃ i, ∃ hi : i < (argsort shape).length, (argsort shape)[i] = d := by
    intro d hd
    exact List.getElem_of_mem ((hmem d).1 hd)
  by_cases h3 : shape.getD (argsort shape)[shape.length - 2] 0 < minDim
  · rw [if_pos h3]
    refine ⟨fun _ _ e => by simp at e, fun _ d e hd he hde h4 h5 => ?_⟩
    obtain ⟨i, hi, rfl⟩ := hidx d hd
    obtain ⟨j, hj, rfl⟩ := hidx e he
    have hij : i ≠ j := by
      rintro rfl
      exact hde rfl
    rcases Nat.lt_or_gt_of_ne hij with hlt | hlt
    · have := hle i (shape.length - 2) hi hi1 (by omega)
      omega
    · have := hle j (shape.length - 2) hj hi1 (by omega)
      omega
  · rw [if_neg h3]
    refine ⟨fun d1 d0 e => ?_, fun e => by simp at e⟩
    injection e with e
    obtain ⟨rfl, rfl⟩ := Prod.mk.inj e
    refine ⟨?_, (hmem _).2 (List.getElem_mem _), (hmem _).2 (List.getElem_mem _), by omega, ?_, ?_⟩
    · intro e
      have := (List.Nodup.getElem_inj_iff hnd).1 e
      omega
    · have := hle (shape.length - 2) (shape.length - 1) hi1 hi0 (by omega)
      omega
    · intro d hd n1 n0
      obtain ⟨i, hi, rfl⟩ := hidx d hd
      have hi2 : i < shape.length - 2 := by
        by_contra hc
        rcases (by omega : i = shape.length - 2 ∨ i = shape.length - 1) with rfl | rfl
        · exact n1 rfl
        · exact n0 rfl
      exact ⟨hle _ _ hi hi1 (by omega), hle _ _ hi hi0 (by omega)⟩

/-- With `min_dim_size_to_factor` above the number of experts, no array is factored over its axis of experts. -/
theorem C104_expert_axis (argsort : List Nat → List Nat) (h : ∀ s, IsArgsort s (argsort s)) (minDim : Nat)
    (shape : List Nat) (axis : Nat) (hE : shape.getD axis 0 < minDim) (d1 d0 : Nat)
    (he : factoredDims argsort minDim shape = some (d1, d0)) : axis ≠ d1 ∧ axis ≠ d0 := by
  obtain ⟨-, -, -, a, b, -⟩ := (C104_axes argsort h minDim shape).1 d1 d0 he
  constructor <;> rintro rfl <;> omega

/-- With the default it can be: the biases of 64 experts of width 48 are factored over the experts. -/
theorem C104_expert_axis_counterexample (argsort : List Nat → List Nat) (h : ∀ s, IsArgsort s (argsort s)) :
    ∃ d1, factoredDims argsort ({} : Config).minDimSizeToFactor [64, 48] = some (d1, 0) := by
  have hd : ({} : Config).minDimSizeToFactor = 32 := rfl
  rw [hd]
  cases e : factoredDims argsort 32 [64, 48] with
  | none =>
    exact absurd (by decide) ((C104_axes argsort h 32 [64, 48]).2 e 0 1 (by decide) (by decide) (by decide) (by decide))
  | some p =>
    obtain ⟨d1, d0⟩ := p
    obtain ⟨a1, a2, a3, -, -, -⟩ := (C104_axes argsort h 32 [64, 48]).1 d1 d0 e
    have : d0 = 0 ∨ d0 = 1 := by simp at a3; omega
    rcases this with rfl | rfl
    · exact ⟨d1, rfl⟩
    · obtain ⟨hp, hs⟩ := h [64, 48]
      exfalso
      have hp2 : (argsort [64, 48]).Perm [0, 1] := hp
      have : argsort [64, 48] = [0, 1] ∨ argsort [64, 48] = [1, 0] := by
        generalize argsort [64, 48] = l at hp2
        match l, hp2.length_eq with
        | [a, b], _ =>
          have ha := (hp2.mem_iff (a := a)).1 (by simp)
          have hb := (hp2.mem_iff (a := b)).1 (by simp)
          have hab : a ≠ b := by
            have := hp2.nodup_iff.2 (by decide)
            simp at this
            exact this
          simp at ha hb
          rcases ha with rfl | rfl <;> rcases hb with rfl | rfl <;> simp_all
      rcases this with e' | e'
      · rw [e'] at hs
        revert hs
        decide
      · unfold factoredDims at e
        rw [e'] at e
        simp at e

/-! ### Examples -/

example : ∃ cfg : Config, cfg.decayOffset = 0 ∧ 0 < cfg.decayRate ∧ 0 ≤ cfg.decayRateMax ∧ cfg.decayRateMax < 1 ∧
    0 < cfg.eps ∧ 0 ≤ cfg.momentum ∧ cfg.momentum ≤ 1 ∧ cfg.momentum ≠ 0 := ⟨{}, by norm_num⟩

example : (Full.init (Fin 2)).step { decayOffset := 1000 } (fun _ => 3) = none :=
  C104_offset_counterexample _ (by decide) _

/-- Two gradients of a matrix. -/
def demoGrads : List (Unit × Fin 2 × Fin 3 → ℝ) := [fun p => p.2.1.val + p.2.2.val, fun _ => 1]

/-- Both runs of the theorems on factored averages. -/
example : ∃ os a us b, runSteps (Fact.step {}) (Fact.init Unit 2 3) demoGrads = some (os, a) ∧
    runSteps (Full.step {}) (Full.init _) demoGrads = some (us, b) := by
  obtain ⟨os, a, us, b, h, h', -⟩ := C104_factored_means (R := 2) (C := 3) (κ := Unit) {} le_rfl (by norm_num)
    (by norm_num) (by norm_num) (by decide) (by decide) demoGrads (by simp [demoGrads])
  exact ⟨os, a, us, b, h, h'⟩

/-- A sort of two sizes. -/
example : IsArgsort [64, 48] [1, 0] := by
  refine ⟨by decide, by decide⟩

example : ∃ (g : Unit × Fin 1 × Fin 2 → ℝ) (a : Unit → Fin 1 → ℝ) (b : Unit → Fin 2 → ℝ),
    (∀ k i, 0 < a k i) ∧ (∀ k j, 0 < b k j) ∧ ∀ k i j, g (k, i, j) ^ 2 + ({} : Config).eps = a k i * b k j :=
  ⟨fun p => p.2.2.val, fun _ _ => 1, fun _ j => (j.val : ℝ) ^ 2 + ({} : Config).eps, by simp,
    fun _ j => by
      have : 0 < ({} : Config).eps := by norm_num
      positivity, by simp⟩

end Verif.Adafactor
