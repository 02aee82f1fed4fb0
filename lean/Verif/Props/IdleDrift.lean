import Verif.Props.IdleExperts
import Verif.Props.Adafactor

/-!
C164: how far the optimizers move an expert while it gets no tokens (vmoe/train/optimizer.py:90-139,238-286).
-/

namespace Verif.IdleDrift

open Verif FlatDict Partitioning Optimizer AdamSpec TreeSpec RulesSpec MeshSpec Adam

theorem fading_zeros (b : ℝ) (xs : List ℝ) (k : Nat) : fading b (xs ++ List.replicate k 0) = b ^ k * fading b xs := by
  induction k with
  | zero => simp
  | succ k ih =>
    rw [List.replicate_succ', ← List.append_assoc, fading_append, ih, pow_succ]
    ring

/-- After `k` zero gradients the direction of Adam is at most its bound times `(b1 / √b2) ^ k`. -/
theorem direction_zeros (b1 b2 eps epsRoot : ℝ) (h0 : 0 ≤ b1) (h12 : b1 ≤ b2) (hb2 : 0 < b2) (h2 : b2 < 1) (he : 0 ≤ eps)
    (her : 0 ≤ epsRoot) (xs : List ℝ) (k : Nat) :
    |direction b1 b2 eps epsRoot (xs ++ List.replicate k 0)| ≤ Real.sqrt ((1 - b1) / (1 - b2)) * (b1 / Real.sqrt b2) ^ k := by
  have hsq : ∀ x ∈ xs.map (· ^ 2), (0 : ℝ) ≤ x := by
    intro x hx
    obtain ⟨y, _, rfl⟩ := List.mem_map.1 hx
    positivity
  rcases Nat.eq_zero_or_pos xs.length with hn0 | hn
  · rw [List.length_eq_zero_iff] at hn0
    rw [hn0, direction_zero _ _ _ _ _ (by simp), abs_zero]
    positivity
  have p1 : 0 < 1 - b1 := by linarith
  have p2 : 0 < 1 - b2 := by linarith
  set n := xs.length with hnd
  -- the sums of the gradients and their squares
  have hF : fading b1 xs ^ 2 ≤ (1 - b1 ^ n) / (1 - b1) * fading b2 (xs.map (· ^ 2)) := by
    have h := ewma_sq_le b1 h0 xs
    have hle : fading b1 (xs.map (· ^ 2)) ≤ fading b2 (xs.map (· ^ 2)) := by
      unfold fading
      refine Finset.sum_le_sum fun j hj => mul_le_mul_of_nonneg_right (pow_le_pow_left₀ h0 h12 _) ?_
      rw [List.getD_eq_getElem _ _ (Finset.mem_range.1 hj)]
      exact hsq _ (List.getElem_mem _)
    unfold ewma at h
    rw [List.length_map, ← hnd, weights_sum b1 (by linarith)] at h
    have hW : 0 < (1 - b1 ^ n) / (1 - b1) := by
      refine div_pos ?_ p1
      have := pow_lt_one₀ h0 (by linarith) hn.ne'
      linarith
    rw [div_pow, div_le_div_iff₀ (pow_pos hW 2) hW] at h
    have h3 : fading b1 xs ^ 2 ≤ fading b1 (xs.map (· ^ 2)) * ((1 - b1 ^ n) / (1 - b1)) := by
      refine le_of_mul_le_mul_right ?_ hW
      nlinarith [h]
    nlinarith
  have hF2 : 0 ≤ fading b2 (xs.map (· ^ 2)) := by
    unfold fading
    refine Finset.sum_nonneg fun j hj => mul_nonneg (pow_nonneg hb2.le _) ?_
    rw [List.getD_eq_getElem _ _ (Finset.mem_range.1 hj)]
    exact hsq _ (List.getElem_mem _)
  have hmap : (xs ++ List.replicate k 0).map (· ^ 2) = xs.map (· ^ 2) ++ List.replicate k (0 : ℝ) := by simp
  have hlen : (xs ++ List.replicate k (0 : ℝ)).length = n + k := by simp [hnd]
  have hlen' : (xs.map (· ^ 2) ++ List.replicate k (0 : ℝ)).length = n + k := by simp [hnd]
  set v := ewma b2 ((xs ++ List.replicate k 0).map (· ^ 2)) with hv
  have hv' : v = b2 ^ k * fading b2 (xs.map (· ^ 2)) / ((1 - b2 ^ (n + k)) / (1 - b2)) := by
    rw [hv, hmap]
    unfold ewma
    rw [hlen', fading_zeros, weights_sum b2 (by linarith)]
  have hm' : ewma b1 (xs ++ List.replicate k 0) = b1 ^ k * fading b1 xs / ((1 - b1 ^ (n + k)) / (1 - b1)) := by
    unfold ewma
    rw [hlen, fading_zeros, weights_sum b1 (by linarith)]
  have q2 : 0 < 1 - b2 ^ (n + k) := by
    have := pow_lt_one₀ hb2.le h2 (by omega : n + k ≠ 0)
    linarith
  have q12 : 1 - b2 ^ (n + k) ≤ 1 - b1 ^ (n + k) := by
    have := pow_le_pow_left₀ h0 h12 (n + k)
    linarith
  have q1 : 0 < 1 - b1 ^ (n + k) := by linarith
  have qn : 1 - b1 ^ n ≤ 1 - b1 ^ (n + k) := by
    have := pow_le_pow_of_le_one h0 (by linarith) (by omega : n ≤ n + k)
    linarith
  have hv0 : 0 ≤ v := by
    rw [hv']
    positivity
  have hsqle : ewma b1 (xs ++ List.replicate k 0) ^ 2 ≤ ((1 - b1) / (1 - b2)) * ((b1 / Real.sqrt b2) ^ k) ^ 2 * v := by
    have hb : ((b1 / Real.sqrt b2) ^ k) ^ 2 * b2 ^ k = (b1 ^ k) ^ 2 := by
      rw [← pow_mul, mul_comm k 2, pow_mul, div_pow, Real.sq_sqrt hb2.le, ← mul_pow, div_mul_cancel₀ _ hb2.ne', ← pow_mul, ← pow_mul,
        mul_comm]
    have hr : ((1 - b1) / (1 - b2)) * ((b1 / Real.sqrt b2) ^ k) ^ 2 * v =
        (b1 ^ k) ^ 2 * ((1 - b1) * (fading b2 (xs.map (· ^ 2)) / (1 - b2 ^ (n + k)))) := by
      rw [hv', ← hb]
      field_simp
    have hl : ewma b1 (xs ++ List.replicate k 0) ^ 2 = (b1 ^ k) ^ 2 * ((1 - b1) ^ 2 * (fading b1 xs ^ 2 / (1 - b1 ^ (n + k)) ^ 2)) := by
      rw [hm']
      field_simp
    rw [hl, hr]
    refine mul_le_mul_of_nonneg_left ?_ (by positivity)
    calc (1 - b1) ^ 2 * (fading b1 xs ^ 2 / (1 - b1 ^ (n + k)) ^ 2)
        ≤ (1 - b1) ^ 2 * ((1 - b1 ^ n) / (1 - b1) * fading b2 (xs.map (· ^ 2)) / (1 - b1 ^ (n + k)) ^ 2) :=
          mul_le_mul_of_nonneg_left (div_le_div_of_nonneg_right hF (by positivity)) (by positivity)
      _ ≤ (1 - b1) ^ 2 * ((1 - b1 ^ (n + k)) / (1 - b1) * fading b2 (xs.map (· ^ 2)) / (1 - b1 ^ (n + k)) ^ 2) := by
          refine mul_le_mul_of_nonneg_left (div_le_div_of_nonneg_right (mul_le_mul_of_nonneg_right ?_ hF2) (by positivity)) (by positivity)
          exact div_le_div_of_nonneg_right qn p1.le
      _ = (1 - b1) * (fading b2 (xs.map (· ^ 2)) / (1 - b1 ^ (n + k))) := by field_simp
      _ ≤ (1 - b1) * (fading b2 (xs.map (· ^ 2)) / (1 - b2 ^ (n + k))) :=
          mul_le_mul_of_nonneg_left (div_le_div_of_nonneg_left hF2 q2 q12) p1.le
  have hρ : 0 ≤ (b1 / Real.sqrt b2) ^ k := by positivity
  have hr : 0 ≤ (1 - b1) / (1 - b2) := by positivity
  have h1 : |ewma b1 (xs ++ List.replicate k 0)| ≤ Real.sqrt ((1 - b1) / (1 - b2)) * (b1 / Real.sqrt b2) ^ k * Real.sqrt v := by
    have := Real.abs_le_sqrt hsqle
    rwa [Real.sqrt_mul (by positivity), Real.sqrt_mul hr, Real.sqrt_sq hρ] at this
  have h3 : Real.sqrt v ≤ Real.sqrt (v + epsRoot) + eps := by
    have := Real.sqrt_le_sqrt (by linarith : v ≤ v + epsRoot)
    linarith
  have h4 : 0 ≤ Real.sqrt (v + epsRoot) + eps := by positivity
  unfold direction
  rw [← hv, abs_div, abs_of_nonneg h4]
  refine div_le_of_le_mul₀ h4 (by positivity) (h1.trans ?_)
  exact mul_le_mul_of_nonneg_left h3 (by positivity)

/-- One step of an entry whose direction is `d`. -/
theorem moved_step (x y P l w d S D : ℝ) (h : |y - P * x| ≤ S) (hw : |1 - l * w| ≤ 1) (hd : |l| * |d| ≤ D) :
    |y - l * (d + w * y) - P * (1 - l * w) * x| ≤ S + D := by
  have e : y - l * (d + w * y) - P * (1 - l * w) * x = (1 - l * w) * (y - P * x) - l * d := by ring
  rw [e]
  refine (abs_sub _ _).trans ?_
  rw [abs_mul, abs_mul]
  have := mul_le_mul_of_nonneg_right hw (abs_nonneg (y - P * x))
  linarith

theorem train_split {opt : GT} (grads zs : List Params) (s s' : TrainState opt) (h : train s grads = .ok s') :
    train s (grads ++ zs) = train s' zs := by
  induction grads generalizing s with
  | nil =>
    cases h
    rfl
  | cons g grads ih =>
    rw [List.cons_append, train]
    rw [train] at h
    obtain ⟨s1, h1, h2⟩ := ebind h
    rw [h1]
    exact ih s1 h2

/-- C164, Adam.  An entry of the parameters has the gradients of the steps `grads`, and zero gradients in the steps `zs` after
them.  During `zs` it only shrinks by the weight decay, up to a drift: the old gradients move it in the step with number `j + 1` of
`zs` by at most the learning rate times `√((1 - b1) / (1 - b2)) * (b1 / √b2) ^ (j + 1)`. -/
theorem C164_adam (compile : List Char → Except PyErr (Key → Bool)) (search : List Char → Key → Bool)
    (hc : ∀ r, compile r = .ok (search r)) (c : Config) (a : Args) (hb : c.base = .other (scaleByAdam a))
    (h0 : 0 ≤ a.b1) (h12 : a.b1 ≤ a.b2) (hb2 : 0 < a.b2) (h2 : a.b2 < 1) (he : 0 ≤ a.eps) (her : 0 ≤ a.epsRoot)
    (hgn : ∀ m, c.clipGlobalNorm = some m → 0 < m) (hav : ∀ m, c.clipAbsolute = some m → 0 < m) (lr : Schedule.Sched)
    (hlr : Schedule.createLearningRateSchedule c.learningRate c.totalSteps = .ok lr) (opt : GT)
    (hopt : createOptimizer compile c = .ok opt) (p : Params) (hp : ItemsOk p) (hn : NoEmptyItems p) :
    ∃ os, opt.init p = .ok os ∧ ∀ grads zs : List Params, grads.length + zs.length < 2 ^ 31 → (∀ g ∈ grads, SameShape p g) →
      (∀ g ∈ zs, SameShape p g) → ∃ s s' : TrainState opt, train ⟨0, p, os⟩ grads = .ok s ∧
        train ⟨0, p, os⟩ (grads ++ zs) = .ok s' ∧ ∀ path t, leafOf p path = some t → ∀ i < t.length,
          (∀ g ∈ zs, entry g path i = 0) → ¬ FrozenIs search c.frozenPattern c.trainablePattern (join path) →
          ∀ w, DecayIs search c.weightDecay (join path) w → (∀ j < zs.length, |1 - lr (grads.length + j) * w| ≤ 1) →
          |entry s'.params path i - (∏ j ∈ Finset.range zs.length, (1 - lr (grads.length + j) * w)) * entry s.params path i| ≤
            ∑ j ∈ Finset.range zs.length, |lr (grads.length + j)| *
              (Real.sqrt ((1 - a.b1) / (1 - a.b2)) * (a.b1 / Real.sqrt a.b2) ^ (j + 1)) := by
  obtain ⟨R, hR0, hsh, hstep⟩ := adam_full_step hc hb (by linarith) (by linarith) hgn hav hlr hopt
  obtain ⟨os, e0, r0⟩ := hR0 p hp hn
  refine ⟨os, e0, ?_⟩
  have one : ∀ (s : TrainState opt) (n : Nat) (us : List Params) (g : Params), SameShape p s.params → R p s.optState n us →
      us.length < 2 ^ 31 - 1 → SameShape p g → ∃ (s' : TrainState opt) (u : Params), applyGradients s g = .ok s' ∧
        SameShape p s'.params ∧ R p s'.optState (n + 1) (us ++ [u]) ∧
        AdamStep search c a.b1 a.b2 a.eps a.epsRoot lr n us g u s.params s'.params := by
    rintro ⟨k, q, s⟩ n us g hq hr hl hg
    simp only at hq hr
    obtain ⟨p', u, s', f1, f2, f3⟩ := hstep k n q g us s (hq.ok hp) (hq.noEmpty hn) (hq.symm.trans hg) (hsh _ _ _ _ _ hq.symm hr) hl
    have hp' : SameShape q p' := by
      obtain ⟨_, _, _, h, _⟩ := f3
      exact h
    exact ⟨⟨k + 1, p', s'⟩, u, f1, hq.trans hp', hsh _ _ _ _ _ hq f2, f3⟩
  have first : ∀ grads : List Params, grads.length < 2 ^ 31 → (∀ g ∈ grads, SameShape p g) → ∃ (s : TrainState opt) (us : List Params),
      train ⟨0, p, os⟩ grads = .ok s ∧ SameShape p s.params ∧ us.length = grads.length ∧ R p s.optState grads.length us := by
    intro grads
    induction grads using List.reverseRecOn with
    | nil => intro _ _; exact ⟨⟨0, p, os⟩, [], rfl, .refl p, rfl, r0⟩
    | append_singleton gs g ih =>
      intro hl hg
      simp only [List.length_append, List.length_singleton] at hl
      obtain ⟨s, us, e1, e2, e3, e4⟩ := ih (by omega) (fun g' h => hg g' (by simp [h]))
      obtain ⟨s', u, f1, f2, f3, -⟩ := one s gs.length us g e2 e4 (by omega) (hg g (by simp))
      refine ⟨s', us ++ [u], ?_, f2, by simp [e3], by simpa using f3⟩
      rw [train_append, e1]
      exact f1
  intro grads zs hl hg hz
  obtain ⟨s, us, e1, e2, e3, e4⟩ := first grads (by omega) hg
  suffices H : ∃ (s' : TrainState opt) (vs : List Params), train s zs = .ok s' ∧ SameShape p s'.params ∧ vs.length = zs.length ∧
      R p s'.optState (grads.length + zs.length) (us ++ vs) ∧ ∀ path t, leafOf p path = some t → ∀ i < t.length,
          (∀ g ∈ zs, entry g path i = 0) → (∀ v ∈ vs, entry v path i = 0) ∧
          (¬ FrozenIs search c.frozenPattern c.trainablePattern (join path) →
          ∀ w, DecayIs search c.weightDecay (join path) w → (∀ j < zs.length, |1 - lr (grads.length + j) * w| ≤ 1) →
          |entry s'.params path i - (∏ j ∈ Finset.range zs.length, (1 - lr (grads.length + j) * w)) * entry s.params path i| ≤
            ∑ j ∈ Finset.range zs.length, |lr (grads.length + j)| *
              (Real.sqrt ((1 - a.b1) / (1 - a.b2)) * (a.b1 / Real.sqrt a.b2) ^ (j + 1))) by
    obtain ⟨s', vs, f1, -, -, -, f⟩ := H
    refine ⟨s, s', e1, ?_, fun path t ht i hi hzi hf w hw hlw => (f path t ht i hi hzi).2 hf w hw hlw⟩
    rw [train_split _ _ _ _ e1, f1]
  induction zs using List.reverseRecOn with
  | nil => exact ⟨s, [], rfl, e2, rfl, by simpa using e4, fun path t ht i hi _ => ⟨by simp, fun _ w _ _ => by simp⟩⟩
  | append_singleton zs z ih =>
    simp only [List.length_append, List.length_singleton] at hl
    obtain ⟨s', vs, f1, f2, f3, f4, f5⟩ := ih (by omega) (fun g' h => hz g' (by simp [h]))
    obtain ⟨s'', v, g1, g2, g3, g4⟩ := one s' (grads.length + zs.length) (us ++ vs) z f2 f4 (by simp [e3, f3]; omega) (hz z (by simp))
    refine ⟨s'', vs ++ [v], ?_, g2, by simp [f3], ?_, ?_⟩
    · rw [train_append, f1]
      exact g1
    · rw [← List.append_assoc]
      simpa [Nat.add_assoc] using g3
    · intro path t ht i hi hzi
      obtain ⟨h1, h3⟩ := f5 path t ht i hi fun g' h => hzi g' (by simp [h])
      obtain ⟨scaled, s1, s2, s3, s4, s5, s6⟩ := g4
      have hv := zero_kept search c hav z scaled v s2 s4 s5 path i (hzi z (by simp))
      have hall : ∀ v' ∈ vs ++ [v], entry v' path i = 0 := by
        intro v' hv'
        rcases List.mem_append.1 hv' with h | h
        · exact h1 v' h
        · rw [List.mem_singleton.1 h]
          exact hv
      refine ⟨hall, fun hf w hw hlw => ?_⟩
      have h3 := h3 hf w hw fun j hj => hlw j (by simp; omega)
      obtain ⟨t1, k1, k2⟩ := f2.leaf path t ht
      obtain ⟨t2, m1, m2, -, m4⟩ := s6 path t1 k1
      have hentries : ((us ++ vs ++ [v]).map fun u => entry u path i) =
          (us.map fun u => entry u path i) ++ List.replicate (zs.length + 1) 0 := by
        rw [List.append_assoc, List.map_append]
        congr 1
        rw [← f3, List.eq_replicate_iff]
        refine ⟨by simp, ?_⟩
        intro x hx
        obtain ⟨v', hv', rfl⟩ := List.mem_map.1 hx
        exact hall v' hv'
      have hd := direction_zeros a.b1 a.b2 a.eps a.epsRoot h0 h12 hb2 h2 he her (us.map fun u => entry u path i) (zs.length + 1)
      rw [entry_of_leaf m1, m4 hf w hw i (by omega), hentries, List.length_append, List.length_singleton, Finset.prod_range_succ,
        Finset.sum_range_succ, ← entry_of_leaf k1]
      push_cast
      exact moved_step _ _ _ _ _ _ _ _ h3 (hlw zs.length (by simp)) (mul_le_mul_of_nonneg_left hd (abs_nonneg _))

/-- C164, Adam with the usual `b1 = 0.9` and `b2 = 0.999`: while an entry gets no gradients it moves, apart from the weight decay, by
at most 91 times the largest learning rate, for how many steps ever. -/
theorem C164_adam_usual (compile : List Char → Except PyErr (Key → Bool)) (search : List Char → Key → Bool)
    (hc : ∀ r, compile r = .ok (search r)) (c : Config) (a : Args) (hb : c.base = .other (scaleByAdam a))
    (hb1 : a.b1 = 9 / 10) (hb2 : a.b2 = 999 / 1000) (he : 0 ≤ a.eps) (her : 0 ≤ a.epsRoot)
    (hgn : ∀ m, c.clipGlobalNorm = some m → 0 < m) (hav : ∀ m, c.clipAbsolute = some m → 0 < m) (lr : Schedule.Sched)
    (hlr : Schedule.createLearningRateSchedule c.learningRate c.totalSteps = .ok lr) (opt : GT)
    (hopt : createOptimizer compile c = .ok opt) (p : Params) (hp : ItemsOk p) (hn : NoEmptyItems p) :
    ∃ os, opt.init p = .ok os ∧ ∀ grads zs : List Params, grads.length + zs.length < 2 ^ 31 → (∀ g ∈ grads, SameShape p g) →
      (∀ g ∈ zs, SameShape p g) → ∃ s s' : TrainState opt, train ⟨0, p, os⟩ grads = .ok s ∧
        train ⟨0, p, os⟩ (grads ++ zs) = .ok s' ∧ ∀ path t, leafOf p path = some t → ∀ i < t.length,
          (∀ g ∈ zs, entry g path i = 0) → ¬ FrozenIs search c.frozenPattern c.trainablePattern (join path) →
          ∀ w, DecayIs search c.weightDecay (join path) w → ∀ η : ℝ, 0 ≤ η → (∀ j < zs.length, |lr (grads.length + j)| ≤ η ∧
            |1 - lr (grads.length + j) * w| ≤ 1) →
          |entry s'.params path i - (∏ j ∈ Finset.range zs.length, (1 - lr (grads.length + j) * w)) * entry s.params path i| ≤
            91 * η := by
  obtain ⟨os, e0, h⟩ := C164_adam compile search hc c a hb (by rw [hb1]; norm_num) (by rw [hb1, hb2]; norm_num) (by rw [hb2]; norm_num)
    (by rw [hb2]; norm_num) he her hgn hav lr hlr opt hopt p hp hn
  refine ⟨os, e0, fun grads zs hl hg hz => ?_⟩
  obtain ⟨s, s', e1, e2, e3⟩ := h grads zs hl hg hz
  refine ⟨s, s', e1, e2, fun path t ht i hi hzi hf w hw η hη0 hη => ?_⟩
  refine (e3 path t ht i hi hzi hf w hw fun j hj => (hη j hj).2).trans ?_
  have hC : Real.sqrt ((1 - a.b1) / (1 - a.b2)) = 10 := by
    rw [hb1, hb2, show ((1 : ℝ) - 9 / 10) / (1 - 999 / 1000) = 10 ^ 2 by norm_num, Real.sqrt_sq (by norm_num)]
  have hsq : (99949 : ℝ) / 100000 ≤ Real.sqrt a.b2 := by
    rw [hb2]
    exact Real.le_sqrt_of_sq_le (by norm_num)
  set ρ := a.b1 / Real.sqrt a.b2 with hρd
  have hs0 : 0 < Real.sqrt a.b2 := lt_of_lt_of_le (by norm_num) hsq
  have hρ : ρ ≤ 9005 / 10000 := by
    rw [hρd, hb1, div_le_iff₀ hs0]
    linarith
  have hρ0 : 0 ≤ ρ := by
    rw [hρd, hb1]
    positivity
  have hgeo : ∀ k : Nat, ∑ j ∈ Finset.range k, ρ ^ (j + 1) ≤ 9005 / 995 * (1 - ρ ^ k) := by
    intro k
    induction k with
    | zero => simp
    | succ k ih =>
      rw [Finset.sum_range_succ, pow_succ]
      have := pow_nonneg hρ0 k
      nlinarith
  calc _ ≤ ∑ j ∈ Finset.range zs.length, η * (10 * ρ ^ (j + 1)) := by
        refine Finset.sum_le_sum fun j hj => ?_
        rw [hC]
        exact mul_le_mul_of_nonneg_right (hη j (Finset.mem_range.1 hj)).1 (by positivity)
    _ = 10 * η * ∑ j ∈ Finset.range zs.length, ρ ^ (j + 1) := by
        rw [Finset.mul_sum]
        exact Finset.sum_congr rfl fun j _ => by ring
    _ ≤ 10 * η * (9005 / 995) := by
        refine mul_le_mul_of_nonneg_left ((hgeo _).trans ?_) (by positivity)
        have := pow_nonneg hρ0 zs.length
        linarith
    _ ≤ 91 * η := by linarith

/-- C164, SGD with momentum `μ`.  While an entry gets zero gradients, it moves by its momentum `m` from before, which falls by the
factor `μ` in every step, and shrinks by the weight decay; exactly, with any learning rates. -/
theorem C164_sgd (compile : List Char → Except PyErr (Key → Bool)) (search : List Char → Key → Bool)
    (hc : ∀ r, compile r = .ok (search r)) (c : Config) (μ : Option ℝ) (nesterov : Bool) (hb : c.base = .sgd μ nesterov)
    (hgn : ∀ m, c.clipGlobalNorm = some m → 0 < m) (hav : ∀ m, c.clipAbsolute = some m → 0 < m) (lr : Schedule.Sched)
    (hlr : Schedule.createLearningRateSchedule c.learningRate c.totalSteps = .ok lr) (opt : GT)
    (hopt : createOptimizer compile c = .ok opt) (p : Params) (hp : ItemsOk p) (hn : NoEmptyItems p) :
    ∃ os, opt.init p = .ok os ∧ ∀ grads zs : List Params, (∀ g ∈ grads, SameShape p g) → (∀ g ∈ zs, SameShape p g) →
      ∃ (s s' : TrainState opt) (m : Params), train ⟨0, p, os⟩ grads = .ok s ∧ train ⟨0, p, os⟩ (grads ++ zs) = .ok s' ∧
        SgdRun search c lr (μ.getD 0) nesterov p grads s.params m ∧ ∀ path t, leafOf p path = some t → ∀ i < t.length,
          (∀ g ∈ zs, entry g path i = 0) → ¬ FrozenIs search c.frozenPattern c.trainablePattern (join path) →
          ∀ w, DecayIs search c.weightDecay (join path) w →
          entry s'.params path i = (∏ j ∈ Finset.range zs.length, (1 - lr (grads.length + j) * w)) * entry s.params path i -
            (∑ j ∈ Finset.range zs.length, lr (grads.length + j) * μ.getD 0 ^ (j + if nesterov then 2 else 1) *
              ∏ l ∈ Finset.Ico (j + 1) zs.length, (1 - lr (grads.length + l) * w)) * entry m path i := by
  obtain ⟨R, hR0, hstep⟩ := sgd_full_step hc hb hgn hav hlr hopt
  obtain ⟨os, e0, r0⟩ := hR0 p hp hn
  refine ⟨os, e0, ?_⟩
  have one : ∀ (s : TrainState opt) (n : Nat) (m g : Params), SameShape p s.params → SameShape p m → R s.optState n m →
      SameShape p g → ∃ (s' : TrainState opt) (m' : Params), applyGradients s g = .ok s' ∧
        SameShape p s'.params ∧ SameShape p m' ∧ R s'.optState (n + 1) m' ∧
        SgdStep search c lr (μ.getD 0) nesterov n g s.params m s'.params m' := by
    rintro ⟨k, q, s⟩ n m g hq hm hr hg
    simp only at hq hr
    obtain ⟨p', m', s', f1, f2, f3, f4, f5⟩ := hstep k n q g m s (hq.ok hp) (hq.noEmpty hn) (hq.symm.trans hg) (hq.symm.trans hm) hr
    exact ⟨⟨k + 1, p', s'⟩, m', f1, hq.trans f3, hq.trans f4, f2, f5⟩
  have first : ∀ grads : List Params, (∀ g ∈ grads, SameShape p g) → ∃ (s : TrainState opt) (m : Params),
      train ⟨0, p, os⟩ grads = .ok s ∧ SameShape p s.params ∧ SameShape p m ∧ R s.optState grads.length m ∧
      SgdRun search c lr (μ.getD 0) nesterov p grads s.params m := by
    intro grads
    induction grads using List.reverseRecOn with
    | nil =>
      intro _
      have hz : SameShape p (itemsMap (fun t : Tensor => t.map fun _ => (0 : ℝ)) p) := SameShape.itemsMap _ (fun t => by simp) p
      refine ⟨⟨0, p, os⟩, _, rfl, .refl p, hz, r0, .start _ hz ?_⟩
      intro path t h x hx
      rw [itemsMap_eq _ [], leafOf_map] at h
      obtain ⟨v, _, rfl⟩ := Option.map_eq_some_iff.1 h
      obtain ⟨_, _, rfl⟩ := List.mem_map.1 hx
      rfl
    | append_singleton gs g ih =>
      intro hg
      obtain ⟨s, m, e1, e2, e3, e4, e5⟩ := ih (fun g' h => hg g' (by simp [h]))
      obtain ⟨s', m', f1, f2, f3, f4, f5⟩ := one s gs.length m g e2 e3 e4 (hg g (by simp))
      refine ⟨s', m', ?_, f2, f3, by simpa using f4, .step _ _ _ _ _ _ e5 f5⟩
      rw [train_append, e1]
      exact f1
  intro grads zs hg hz
  obtain ⟨s, m, e1, e2, e3, e4, e5⟩ := first grads hg
  suffices H : ∃ (s' : TrainState opt) (m' : Params), train s zs = .ok s' ∧ SameShape p s'.params ∧ SameShape p m' ∧
      R s'.optState (grads.length + zs.length) m' ∧ ∀ path t, leafOf p path = some t → ∀ i < t.length,
          (∀ g ∈ zs, entry g path i = 0) → entry m' path i = μ.getD 0 ^ zs.length * entry m path i ∧
          (¬ FrozenIs search c.frozenPattern c.trainablePattern (join path) → ∀ w, DecayIs search c.weightDecay (join path) w →
          entry s'.params path i = (∏ j ∈ Finset.range zs.length, (1 - lr (grads.length + j) * w)) * entry s.params path i -
            (∑ j ∈ Finset.range zs.length, lr (grads.length + j) * μ.getD 0 ^ (j + if nesterov then 2 else 1) *
              ∏ l ∈ Finset.Ico (j + 1) zs.length, (1 - lr (grads.length + l) * w)) * entry m path i) by
    obtain ⟨s', m', f1, -, -, -, f⟩ := H
    refine ⟨s, s', m, e1, ?_, e5, fun path t ht i hi hzi hf w hw => (f path t ht i hi hzi).2 hf w hw⟩
    rw [train_split _ _ _ _ e1, f1]
  induction zs using List.reverseRecOn with
  | nil => exact ⟨s, m, rfl, e2, e3, by simpa using e4, fun path t ht i hi _ => ⟨by simp, fun _ w _ => by simp⟩⟩
  | append_singleton zs z ih =>
    obtain ⟨s', m', f1, f2, f3, f4, f5⟩ := ih (fun g' h => hz g' (by simp [h]))
    obtain ⟨s'', m'', g1, g2, g3, g4, g5⟩ := one s' (grads.length + zs.length) m' z f2 f3 f4 (hz z (by simp))
    refine ⟨s'', m'', ?_, g2, g3, by simpa [Nat.add_assoc] using g4, ?_⟩
    · rw [train_append, f1]
      exact g1
    · intro path t ht i hi hzi
      obtain ⟨h1, h3⟩ := f5 path t ht i hi fun g' h => hzi g' (by simp [h])
      obtain ⟨scaled, u, s1, s2, _, _, s4, s5, s6⟩ := g5
      have hu := zero_kept search c hav z scaled u s2 s4 s5 path i (hzi z (by simp))
      obtain ⟨tp, k1, k2⟩ := f2.leaf path t ht
      obtain ⟨tm, k3, k4⟩ := f3.leaf path t ht
      obtain ⟨tu, k5, k6⟩ := ((hz z (by simp)).trans s2).leaf path t ht
      obtain ⟨tm', d, r1, r2, r3, -, r5⟩ := s6 path tu tm tp k5 k3 k1
      rw [entry_of_leaf k5] at hu
      rw [entry_of_leaf k3] at h1
      have hl1 : tm'.length = t.length := by rw [r1, List.length_zipWith]; omega
      have hm' : tm'.getD i 0 = μ.getD 0 ^ (zs.length + 1) * entry m path i := by
        rw [r1, getD_zipWith _ _ _ (by omega) _ (by omega), hu, h1]
        ring
      have hd : d.getD i 0 = μ.getD 0 ^ (zs.length + if nesterov then 2 else 1) * entry m path i ∧ d.length = t.length := by
        rw [r2]
        split
        · rw [getD_zipWith _ _ _ (by omega) _ (by omega), hu, hm']
          refine ⟨by ring, ?_⟩
          rw [List.length_zipWith]; omega
        · exact ⟨hm', hl1⟩
      refine ⟨by rw [entry_of_leaf r3, hm']; simp, fun hf w hw => ?_⟩
      have h3 := h3 hf w hw
      rw [entry_of_leaf (r5 hf w hw), getD_zipWith _ _ _ (by omega) _ (by omega), hd.1, ← entry_of_leaf k1, h3,
        List.length_append, List.length_singleton, Finset.prod_range_succ, Finset.sum_range_succ, Finset.Ico_self, Finset.prod_empty]
      have hsum : ∑ j ∈ Finset.range zs.length, lr (grads.length + j) * μ.getD 0 ^ (j + if nesterov then 2 else 1) *
          ∏ l ∈ Finset.Ico (j + 1) (zs.length + 1), (1 - lr (grads.length + l) * w) =
          (∑ j ∈ Finset.range zs.length, lr (grads.length + j) * μ.getD 0 ^ (j + if nesterov then 2 else 1) *
          ∏ l ∈ Finset.Ico (j + 1) zs.length, (1 - lr (grads.length + l) * w)) * (1 - lr (grads.length + zs.length) * w) := by
        rw [Finset.sum_mul]
        refine Finset.sum_congr rfl fun j hj => ?_
        rw [Finset.prod_Ico_succ_top (by have := Finset.mem_range.1 hj; omega)]
        ring
      rw [hsum]
      push_cast
      ring

/-- C164, Adafactor.  While an entry gets zero gradients, its updates fall by the factor `momentum` in every step, and are zero
without momentum. -/
theorem C164_adafactor {ι : Type} (cfg : Adafactor.Config) (s s' : Adafactor.Full ι) (gs os : List (ι → ℝ)) (i : ι)
    (hz : ∀ g ∈ gs, g i = 0) (h : Adafactor.runSteps (Adafactor.Full.step cfg) s gs = some (os, s')) :
    os.length = gs.length ∧ ∀ j < os.length, (os.getD j fun _ => 0) i = cfg.momentum ^ (j + 1) * s.ema i := by
  induction gs generalizing s os with
  | nil =>
    simp only [Adafactor.runSteps, Option.some.injEq, Prod.mk.injEq] at h
    obtain ⟨rfl, -⟩ := h
    simp
  | cons g gs ih =>
    rw [Adafactor.runSteps] at h
    split at h
    · cases h
    rename_i o s1 h1
    split at h
    · cases h
    rename_i os' s2 h2
    simp only [Option.some.injEq, Prod.mk.injEq] at h
    obtain ⟨rfl, rfl⟩ := h
    obtain ⟨e1, e2⟩ := ih s1 os' (fun g' h => hz g' (by simp [h])) h2
    have ho : o i = cfg.momentum * s.ema i ∧ s1.ema = o := by
      unfold Adafactor.Full.step at h1
      split at h1
      · cases h1
      simp only [Option.some.injEq, Prod.mk.injEq] at h1
      obtain ⟨rfl, rfl⟩ := h1
      refine ⟨?_, rfl⟩
      unfold Adafactor.momentumStep
      split
      · rename_i h0
        simp [Adafactor.rmsFull, hz g (by simp), h0]
      · simp [Adafactor.rmsFull, hz g (by simp)]
    refine ⟨by simp [e1], fun j hj => ?_⟩
    cases j with
    | zero => simp [ho.1]
    | succ j =>
      rw [List.getD_cons_succ, e2 j (by simpa using hj), ho.2, ho.1]
      ring

/-- C164, Adafactor with factored averages of squares: the same. -/
theorem C164_adafactor_factored {κ : Type} {A B : Nat} (cfg : Adafactor.Config) (s s' : Adafactor.Fact κ A B)
    (gs os : List (κ × Fin A × Fin B → ℝ)) (i : κ × Fin A × Fin B) (hz : ∀ g ∈ gs, g i = 0)
    (h : Adafactor.runSteps (Adafactor.Fact.step cfg) s gs = some (os, s')) :
    os.length = gs.length ∧ ∀ j < os.length, (os.getD j fun _ => 0) i = cfg.momentum ^ (j + 1) * s.ema i := by
  induction gs generalizing s os with
  | nil =>
    simp only [Adafactor.runSteps, Option.some.injEq, Prod.mk.injEq] at h
    obtain ⟨rfl, -⟩ := h
    simp
  | cons g gs ih =>
    rw [Adafactor.runSteps] at h
    split at h
    · cases h
    rename_i o s1 h1
    split at h
    · cases h
    rename_i os' s2 h2
    simp only [Option.some.injEq, Prod.mk.injEq] at h
    obtain ⟨rfl, rfl⟩ := h
    obtain ⟨e1, e2⟩ := ih s1 os' (fun g' h => hz g' (by simp [h])) h2
    have ho : o i = cfg.momentum * s.ema i ∧ s1.ema = o := by
      unfold Adafactor.Fact.step at h1
      split at h1
      · cases h1
      simp only [Option.some.injEq, Prod.mk.injEq] at h1
      obtain ⟨rfl, rfl⟩ := h1
      refine ⟨?_, rfl⟩
      unfold Adafactor.momentumStep
      split
      · rename_i h0
        simp [hz g (by simp), h0]
      · simp [hz g (by simp)]
    refine ⟨by simp [e1], fun j hj => ?_⟩
    cases j with
    | zero => simp [ho.1]
    | succ j =>
      rw [List.getD_cons_succ, e2 j (by simpa using hj), ho.2, ho.1]
      ring

/-! ### Examples -/

/-- `Adam.exampleConfig` with a constant learning rate. -/
noncomputable def constantConfig (b : Base) : Config := { Adam.exampleConfig with base := b, learningRate := .constant 0.001 }

theorem constantConfig_made (search : List Char → Key → Bool) (b : Base) (hb : ∃ g, baseGT b = .ok g) :
    ∃ opt, createOptimizer (fun r => .ok (search r)) (constantConfig b) = .ok opt := by
  obtain ⟨g, hg⟩ := hb
  unfold createOptimizer gradientScaling gradientClipping addDecayedWeights learningRateGT freezeWeights
  norm_num [constantConfig, Adam.exampleConfig, truthy, hg, Schedule.createLearningRateSchedule, falsy, bind, Except.bind, pure, Except.pure]

theorem body_leaf : leafOf exampleParams ["body".toList] = some [4] := by simp [leafOf, leafAt, lookup, exampleParams]

/-- Adam with its defaults and the learning rate 0.001: after one million steps without gradients the entry differs by at most 0.091
from what the weight decay leaves of it. -/
example (search : List Char → Key → Bool) (grads : List Params) (hl : grads.length < 1000) (hg : ∀ g ∈ grads, SameShape exampleParams g) :
    ∃ opt os, ∃ s s' : TrainState opt, createOptimizer (fun r => .ok (search r)) (constantConfig (.other (scaleByAdam {}))) = .ok opt ∧
      train ⟨0, exampleParams, os⟩ grads = .ok s ∧
      train ⟨0, exampleParams, os⟩ (grads ++ List.replicate 1000000 (itemsMap (fun t : Tensor => t.map fun _ => (0 : ℝ)) exampleParams)) =
        .ok s' ∧
      |entry s'.params ["body".toList] 0 - (1 - 0.001 * 0.1) ^ 1000000 * entry s.params ["body".toList] 0| ≤ 0.091 := by
  obtain ⟨opt, ho⟩ := constantConfig_made search (.other (scaleByAdam {})) ⟨_, rfl⟩
  obtain ⟨os, _, h⟩ := C164_adam_usual _ search (fun _ => rfl) (constantConfig (.other (scaleByAdam {}))) {} rfl rfl rfl (by norm_num)
    (by norm_num) (by intro m h; cases h; norm_num) (by intro m h; cases h) (fun _ => 0.001) rfl opt ho exampleParams exampleParams_ok.1
    exampleParams_ok.2
  have hs : SameShape exampleParams (itemsMap (fun t : Tensor => t.map fun _ => (0 : ℝ)) exampleParams) :=
    SameShape.itemsMap _ (fun t => by simp) _
  obtain ⟨s, s', e1, e2, e3⟩ := h grads (List.replicate 1000000 (itemsMap (fun t : Tensor => t.map fun _ => (0 : ℝ)) exampleParams))
    (by rw [List.length_replicate]; omega) hg (fun g hg => by rw [List.eq_of_mem_replicate hg]; exact hs)
  refine ⟨opt, os, s, s', ho, e1, e2, ?_⟩
  have := e3 ["body".toList] [4] body_leaf 0 (by simp) (fun g hg => by
    rw [List.eq_of_mem_replicate hg]
    have hz : leafOf (itemsMap (fun t : Tensor => t.map fun _ => (0 : ℝ)) exampleParams) ["body".toList] = some [0] := by
      rw [itemsMap_eq _ [], leafOf_map, body_leaf]
      rfl
    rw [entry_of_leaf hz]
    rfl) (by simp [FrozenIs, constantConfig, Adam.exampleConfig, falsy]) 0.1 rfl 0.001 (by norm_num) (fun j _ => by norm_num [abs_le])
  rw [Finset.prod_const, Finset.card_range, List.length_replicate] at this
  exact this.trans (by norm_num)

/-- SGD with momentum 0.9 and two steps without gradients. -/
example (search : List Char → Key → Bool) (grads : List Params) (hg : ∀ g ∈ grads, SameShape exampleParams g) (z : Params)
    (hz : SameShape exampleParams z) (h0 : entry z ["body".toList] 0 = 0) :
    ∃ opt os, ∃ (s s' : TrainState opt) (m : Params),
      createOptimizer (fun r => .ok (search r)) (constantConfig (.sgd (some 0.9) false)) = .ok opt ∧
      train ⟨0, exampleParams, os⟩ grads = .ok s ∧ train ⟨0, exampleParams, os⟩ (grads ++ [z, z]) = .ok s' ∧
      entry s'.params ["body".toList] 0 = (1 - 0.001 * 0.1) ^ 2 * entry s.params ["body".toList] 0 -
        (0.001 * 0.9 * (1 - 0.001 * 0.1) + 0.001 * 0.9 ^ 2) * entry m ["body".toList] 0 := by
  obtain ⟨opt, ho⟩ := constantConfig_made search (.sgd (some 0.9) false) ⟨_, rfl⟩
  obtain ⟨os, _, h⟩ := C164_sgd _ search (fun _ => rfl) (constantConfig (.sgd (some 0.9) false)) (some 0.9) false rfl
    (by intro m h; cases h; norm_num) (by intro m h; cases h) (fun _ => 0.001) rfl opt ho exampleParams exampleParams_ok.1
    exampleParams_ok.2
  obtain ⟨s, s', m, e1, e2, _, e3⟩ := h grads [z, z] hg (by simp [hz])
  refine ⟨opt, os, s, s', m, ho, e1, e2, ?_⟩
  have := e3 ["body".toList] [4] body_leaf 0 (by simp) (by intro g hg; simp only [List.mem_cons, List.not_mem_nil, or_false, or_self] at hg; rw [hg]; exact h0)
    (by simp [FrozenIs, constantConfig, Adam.exampleConfig, falsy]) 0.1 rfl
  rw [this]
  simp [Finset.sum_range_succ]

/-- Adafactor with its defaults: three steps with a gradient only at the first entry; the second one has the momentum 1. -/
example : ∃ os s', Adafactor.runSteps (Adafactor.Full.step {}) ⟨5, fun _ => 1, fun _ => 1⟩
      (List.replicate 3 fun i : Fin 2 => if i = 0 then (1 : ℝ) else 0) = some (os, s') ∧ (os.getD 2 fun _ => 0) 1 = (9 / 10) ^ 3 := by
  obtain ⟨os, s', h⟩ : ∃ os s', Adafactor.runSteps (Adafactor.Full.step {}) ⟨5, fun _ => 1, fun _ => 1⟩
      (List.replicate 3 fun i : Fin 2 => if i = 0 then (1 : ℝ) else 0) = some (os, s') := by
    simp [List.replicate, Adafactor.runSteps, Adafactor.Full.step, Adafactor.rate_zero]
  obtain ⟨e1, e2⟩ := C164_adafactor {} _ s' _ os 1 (fun g hg => by rw [List.eq_of_mem_replicate hg]; simp) h
  have hl : os.length = 3 := by simpa using e1
  exact ⟨os, s', h, by rw [e2 2 (by omega)]; norm_num⟩

/-- The same for a factored matrix. -/
example : ∃ os s', Adafactor.runSteps (Adafactor.Fact.step {}) ⟨5, fun _ _ => 1, fun _ _ => 1, fun _ => 1⟩
      (List.replicate 3 fun i : Unit × Fin 2 × Fin 2 => if i.2.1 = 0 then (1 : ℝ) else 0) = some (os, s') ∧
      (os.getD 2 fun _ => 0) ((), 1, 1) = (9 / 10) ^ 3 := by
  obtain ⟨os, s', h⟩ : ∃ os s', Adafactor.runSteps (Adafactor.Fact.step {}) ⟨5, fun _ _ => 1, fun _ _ => 1, fun _ => 1⟩
      (List.replicate 3 fun i : Unit × Fin 2 × Fin 2 => if i.2.1 = 0 then (1 : ℝ) else 0) = some (os, s') := by
    simp [List.replicate, Adafactor.runSteps, Adafactor.Fact.step, Adafactor.rate_zero]
  obtain ⟨e1, e2⟩ := C164_adafactor_factored {} _ s' _ os ((), 1, 1) (fun g hg => by rw [List.eq_of_mem_replicate hg]; simp) h
  have hl : os.length = 3 := by simpa using e1
  exact ⟨os, s', h, by rw [e2 2 (by omega)]; norm_num⟩

end Verif.IdleDrift
