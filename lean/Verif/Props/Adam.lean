import Verif.Proofs.Adam

/-!
C138: the whole chain of `create_optimizer` for Adam (vmoe/train/optimizer.py:90-139), over any number of updates.
-/

namespace Verif.Adam

open Verif FlatDict Partitioning Optimizer AdamSpec TreeSpec RulesSpec MeshSpec

theorem zipT_ok (f : ℝ → ℝ → ℝ) (a b : Tensor) (h : a.length = b.length) : zipT f a b = .ok (List.zipWith f a b) := if_pos h

theorem preserves_adam (a : Args) : Preserves (scaleByAdam a) := by
  intro u p s u' s' _ _ _ h
  have hz : ∀ f, ∀ a b c : Tensor, zipT f a b = .ok c → a.length = c.length := by
    intro f a b c h
    unfold zipT at h
    split at h
    · cases h
      simp_all
    · cases h
  obtain ⟨mu, h1, h⟩ := ebind h
  obtain ⟨nu, h2, h⟩ := ebind h
  obtain ⟨w, h3, h⟩ := ebind h
  injection h with h
  injection h with h _
  subst h
  exact ((dictMap2_shape _ (hz _) h1).trans (SameShape.itemsMap _ (fun t => by simp) mu)).trans (dictMap2_shape _ (hz _) h3)

/-- The state after the gradients `us`. -/
def Good (a : Args) (p : Params) (s : State) (us : List Params) : Prop :=
  s.count = us.length ∧ SameShape p s.mu ∧ SameShape p s.nu ∧
  (∀ path t, leafOf s.mu path = some t → ∀ i < t.length, t.getD i 0 = (1 - a.b1) * fading a.b1 (us.map fun u => entry u path i)) ∧
  ∀ path t, leafOf s.nu path = some t → ∀ i < t.length,
    t.getD i 0 = (1 - a.b2) * fading a.b2 ((us.map fun u => entry u path i).map (· ^ 2))

theorem zeros_leaf {p : Params} {path : List Key} {t : Tensor} (h : leafOf (itemsMap (fun t : Tensor => t.map fun _ => (0 : ℝ)) p) path = some t)
    (i : Nat) : t.getD i 0 = 0 := by
  rw [itemsMap_eq _ [], leafOf_map] at h
  obtain ⟨v, _, rfl⟩ := Option.map_eq_some_iff.1 h
  rw [List.getD_eq_getElem?_getD, List.getElem?_map]
  cases v[i]? <;> rfl

theorem stage_init (a : Args) (p : Params) : ∃ s, (scaleByAdam a).init p = .ok s ∧ Good a p s [] := by
  have hz : SameShape p (itemsMap (fun t : Tensor => t.map fun _ => (0 : ℝ)) p) := SameShape.itemsMap _ (fun t => by simp) p
  refine ⟨_, rfl, rfl, hz, hz, ?_, ?_⟩
  · intro path t h i _
    rw [zeros_leaf h, List.map_nil, fading_nil, mul_zero]
  · intro path t h i _
    rw [zeros_leaf h, List.map_nil, List.map_nil, fading_nil, mul_zero]

theorem getD_zipWith (f : ℝ → ℝ → ℝ) (a b : Tensor) (h : a.length = b.length) (i : Nat) (hi : i < a.length) :
    (List.zipWith f a b).getD i 0 = f (a.getD i 0) (b.getD i 0) := by
  rw [List.getD_eq_getElem _ _ (by simp; omega), List.getD_eq_getElem _ _ hi, List.getD_eq_getElem _ _ (by omega),
    List.getElem_zipWith]

theorem entry_of_leaf {u : Params} {path : List Key} {t : Tensor} (h : leafOf u path = some t) (i : Nat) :
    entry u path i = t.getD i 0 := by
  unfold entry
  rw [h, Option.getD_some]

theorem stage_update (a : Args) (h1 : a.b1 ≠ 1) (h2 : a.b2 ≠ 1) (u p : Params) (op : Option Params) (s : State) (us : List Params)
    (hu : ItemsOk u) (hs : SameShape p u) (hg : Good a p s us) (hl : us.length < 2 ^ 31 - 1) :
    ∃ d s', (scaleByAdam a).update u s op = .ok (d, s') ∧ Good a p s' (us ++ [u]) ∧ SameShape u d ∧
      ∀ path t, leafOf u path = some t → ∃ t', leafOf d path = some t' ∧ t'.length = t.length ∧
        ∀ i < t.length, t'.getD i 0 = direction a.b1 a.b2 a.eps a.epsRoot ((us ++ [u]).map fun u => entry u path i) := by
  obtain ⟨g1, g2, g3, g4, g5⟩ := hg
  obtain ⟨mu, e1, e2, e3⟩ := dictMap2_zip (zipT fun g m => (1 - a.b1) * g + a.b1 * m) _ (fun x y h => zipT_ok _ x y h) u s.mu hu
    (hs.symm.trans g2)
  obtain ⟨nu, f1, f2, f3⟩ := dictMap2_zip (zipT fun g m => (1 - a.b2) * g ^ 2 + a.b2 * m) _ (fun x y h => zipT_ok _ x y h) u s.nu hu
    (hs.symm.trans g3)
  have m1 : SameShape mu (itemsMap (fun t : Tensor => t.map (· / (1 - a.b1 ^ increment s.count))) mu) :=
    SameShape.itemsMap _ (fun t => by simp) mu
  have m2 : SameShape nu (itemsMap (fun t : Tensor => t.map (· / (1 - a.b2 ^ increment s.count))) nu) :=
    SameShape.itemsMap _ (fun t => by simp) nu
  obtain ⟨d, k1, k2, k3⟩ := dictMap2_zip (zipT fun m v => m / (Real.sqrt (v + a.epsRoot) + a.eps)) _ (fun x y h => zipT_ok _ x y h)
    _ _ ((e2.trans m1).ok hu) ((m1.symm.trans e2.symm).trans (f2.trans m2))
  have hcount : increment s.count = us.length + 1 := by
    unfold increment
    rw [g1, if_pos hl]
  -- the moments of an array
  have hmu : ∀ path t, leafOf mu path = some t → ∀ i < t.length,
      t.getD i 0 = (1 - a.b1) * fading a.b1 ((us ++ [u]).map fun u => entry u path i) := by
    intro path t ht i hi
    obtain ⟨tu, q1, q2⟩ := e2.symm.leaf path t ht
    obtain ⟨tm, q3, q4⟩ := (hs.symm.trans g2).leaf path tu q1
    have q5 := e3 path tu tm q1 q3
    rw [ht] at q5
    cases q5
    rw [getD_zipWith _ _ _ q4 _ (by omega), g4 path tm q3 i (by omega), List.map_append, List.map_singleton, fading_append,
      entry_of_leaf q1]
    ring
  have hnu : ∀ path t, leafOf nu path = some t → ∀ i < t.length,
      t.getD i 0 = (1 - a.b2) * fading a.b2 (((us ++ [u]).map fun u => entry u path i).map (· ^ 2)) := by
    intro path t ht i hi
    obtain ⟨tu, q1, q2⟩ := f2.symm.leaf path t ht
    obtain ⟨tm, q3, q4⟩ := (hs.symm.trans g3).leaf path tu q1
    have q5 := f3 path tu tm q1 q3
    rw [ht] at q5
    cases q5
    rw [getD_zipWith _ _ _ q4 _ (by omega), g5 path tm q3 i (by omega), List.map_append, List.map_singleton, List.map_append,
      List.map_singleton, fading_append, entry_of_leaf q1]
    ring
  refine ⟨d, ⟨increment s.count, mu, nu⟩, ?_, ⟨by rw [hcount]; simp, hs.trans e2, hs.trans f2, hmu, hnu⟩,
    (e2.trans m1).trans k2, ?_⟩
  · change (dictMap2 _ _ _ >>= _ : Except PyErr _) = _
    rw [e1]
    change (dictMap2 _ _ _ >>= _ : Except PyErr _) = _
    rw [f1]
    change (dictMap2 _ _ _ >>= _ : Except PyErr _) = _
    rw [k1]
    rfl
  · intro path t ht
    obtain ⟨tm, q1, q2⟩ := e2.leaf path t ht
    obtain ⟨tv, q3, q4⟩ := f2.leaf path t ht
    have r1 := congrArg (Option.map fun t : Tensor => t.map (· / (1 - a.b1 ^ increment s.count))) q1
    have r2 := congrArg (Option.map fun t : Tensor => t.map (· / (1 - a.b2 ^ increment s.count))) q3
    rw [Option.map_some, ← leafOf_map (fun _ (t : Tensor) => t.map (· / (1 - a.b1 ^ increment s.count))) mu, ← itemsMap_eq _ []] at r1
    rw [Option.map_some, ← leafOf_map (fun _ (t : Tensor) => t.map (· / (1 - a.b2 ^ increment s.count))) nu, ← itemsMap_eq _ []] at r2
    refine ⟨_, k3 path _ _ r1 r2, by simp; omega, fun i hi => ?_⟩
    rw [getD_zipWith _ _ _ (by simp; omega) _ (by simp; omega)]
    have hd : ∀ (t : Tensor) (c : ℝ) (i : Nat), (t.map (· / c)).getD i 0 = t.getD i 0 / c := by
      intro t c i
      rw [List.getD_eq_getElem?_getD, List.getD_eq_getElem?_getD, List.getElem?_map]
      cases t[i]? <;> simp
    rw [hd, hd, hmu path tm q1 i (by omega), hnu path tv q3 i (by omega), hcount]
    have c1 := corrected a.b1 h1 ((us ++ [u]).map fun u => entry u path i)
    have c2 := corrected a.b2 h2 (((us ++ [u]).map fun u => entry u path i).map (· ^ 2))
    simp only [List.length_map, List.length_append, List.length_singleton] at c1 c2
    rw [c1, c2]
    rfl

/-- One update: the pieces of the chain one after the other. -/
theorem adam_full_step {compile : List Char → Except PyErr (Key → Bool)} {search : List Char → Key → Bool}
    (hc : ∀ r, compile r = .ok (search r)) {c : Config} {a : Args} (hb : c.base = .other (scaleByAdam a))
    (hb1 : a.b1 ≠ 1) (hb2 : a.b2 ≠ 1)
    (hgn : ∀ m, c.clipGlobalNorm = some m → 0 < m) (hav : ∀ m, c.clipAbsolute = some m → 0 < m) {lr : Schedule.Sched}
    (hlr : Schedule.createLearningRateSchedule c.learningRate c.totalSteps = .ok lr) {opt : GT}
    (hopt : createOptimizer compile c = .ok opt) :
    ∃ R : Params → opt.State → Nat → List Params → Prop,
      (∀ p, ItemsOk p → NoEmptyItems p → ∃ s, opt.init p = .ok s ∧ R p s 0 []) ∧
      (∀ p p' s n us, SameShape p' p → R p s n us → R p' s n us) ∧
      ∀ (k n : Nat) (p g : Params) (us : List Params) (s : opt.State), ItemsOk p → NoEmptyItems p → SameShape p g → R p s n us →
        us.length < 2 ^ 31 - 1 → ∃ p' u s', applyGradients ⟨k, p, s⟩ g = .ok ⟨k + 1, p', s'⟩ ∧ R p s' (n + 1) (us ++ [u]) ∧
          AdamStep search c a.b1 a.b2 a.eps a.epsRoot lr n us g u p p' := by
  obtain ⟨a1, a2, a3, a4, a5, f, _, _, _, _, _, h1, h2, h3, h4, h5, h6, rfl⟩ :=
    createOptimizer_ok (by rw [hb]; exact preserves_adam a) hopt
  rw [hb] at h3
  injection h3 with h3
  subst h3
  unfold learningRateGT at h5
  rw [hlr] at h5
  injection h5 with h5
  subst h5
  obtain ⟨hf0, hf⟩ := stage_freeze hc h6
  refine ⟨fun p s n us => Good a p s.2.2.1 us ∧ s.2.2.2.2.1 = n, ?_, ?_, ?_⟩
  · intro p hp hn
    obtain ⟨s1, e1⟩ := init_scaling h1 p
    obtain ⟨s2, e2⟩ := init_clipping h2 p
    obtain ⟨s3, e3, hs3⟩ := stage_init a p
    obtain ⟨s4, e4⟩ := init_decay h4 p
    obtain ⟨s6, e6⟩ := hf0 p hp hn
    refine ⟨(s1, s2, s3, s4, (0 : ℕ), s6, ()), ?_, hs3, rfl⟩
    simp only [chain, GT.seq, e1, e2, e3, e4, e6, scaleByLearningRate, identity, bind, Except.bind, pure, Except.pure]
  · rintro p p' s n us hs ⟨⟨g1, g2, g3, g4, g5⟩, h⟩
    exact ⟨⟨g1, hs.trans g2, hs.trans g3, g4, g5⟩, h⟩
  · rintro k n p g us ⟨s1, s2, s3, s4, (s5 : ℕ), s6, s7⟩ hp hn hg ⟨hr, hsn⟩ hl
    simp only at hr hsn
    subst hsn
    obtain ⟨u1, x1, y1, z1⟩ := stage_scaling hc h1 g (some p) (hg.ok hp) (hg.noEmpty hn) s1
    have o1 := hg.trans y1
    obtain ⟨u2, x2, y2, z2⟩ := stage_clipping h2 hgn hav u1 p (o1.ok hp) (o1.noEmpty hn) o1.symm s2
    have o2 := o1.trans y2
    obtain ⟨u3, s3', x3, hr', y3, z3⟩ := stage_update a hb1 hb2 u2 p (some p) s3 us (o2.ok hp) o2 hr hl
    have o3 := o2.trans y3
    obtain ⟨u4, x4, y4, z4⟩ := stage_decay hc h4 u3 p (o3.ok hp) (o3.noEmpty hn) o3.symm s4
    have o4 := o3.trans y4
    have y5 : SameShape u4 (itemsMap (scaleT (-(lr s5))) u4) := SameShape.itemsMap _ (fun t => by simp [scaleT]) u4
    have o5 := o4.trans y5
    obtain ⟨u6, x6, y6, z6⟩ := hf (itemsMap (scaleT (-(lr s5))) u4) p (o5.ok hp) (o5.noEmpty hn) o5.symm s6
    have o6 := o5.trans y6
    obtain ⟨p', x7, y7, z7⟩ := dictMap2_zip addT (· + ·) (fun a b h => by unfold addT; rw [if_pos h]) p u6 hp o6
    refine ⟨p', u2, (s1, s2, s3', s4, (s5 + 1 : ℕ), s6, s7), ?_, ⟨hr', rfl⟩, ?_⟩
    · unfold applyGradients
      simp only [chain, GT.seq, x1, x2, x3, x4, scaleByLearningRate, x6, x7, identity, bind, Except.bind, pure, Except.pure]
    · refine ⟨u1, y1, y1.trans y2, y7, z1, z2, ?_⟩
      intro path tp l3
      obtain ⟨tp', v1, v2⟩ := y7.leaf path tp l3
      refine ⟨tp', v1, v2.symm, ?_, ?_⟩
      · intro hfr
        obtain ⟨t5, q1, q2⟩ := o5.leaf path tp l3
        rw [z7 path tp _ l3 ((z6 path t5 q1).1 hfr)] at v1
        cases v1
        apply List.ext_getElem
        · simp [q2]
        · intro i _ _
          simp
      · intro hfr w hw i hi
        obtain ⟨tu, r1, r2⟩ := o2.leaf path tp l3
        obtain ⟨td, r3, r4, r5⟩ := z3 path tu r1
        have q5 := congrArg (Option.map (scaleT (-(lr s5)))) (z4 path _ tp w r3 l3 hw)
        rw [Option.map_some, ← leafOf_map (fun _ => scaleT (-(lr s5))) u4, ← itemsMap_eq _ []] at q5
        rw [z7 path tp _ l3 ((z6 path _ q5).2 hfr)] at v1
        cases v1
        rw [getD_zipWith _ _ _ (by simp [scaleT]; omega) _ hi]
        have hsc : ∀ (t : Tensor) (c : ℝ) (i : Nat), (scaleT c t).getD i 0 = c * t.getD i 0 := by
          intro t c i
          unfold scaleT
          rw [List.getD_eq_getElem?_getD, List.getD_eq_getElem?_getD, List.getElem?_map]
          cases t[i]? <;> simp
        rw [hsc, getD_zipWith _ _ _ (by omega) _ (by omega), r5 i (by omega)]
        ring

/-- C138: training with Adam.  With gradients of the shape of the parameters it never fails, and every update is: scale the gradients
by the first matching rule, clip, take the mean of all of them so far over the root of the mean of their squares, where older ones
count less by the factors `b1` and `b2`; add the weight decay, which is not in these means; subtract it times the learning rate of that
step, unless the parameter is frozen. -/
theorem C138_adam (compile : List Char → Except PyErr (Key → Bool)) (search : List Char → Key → Bool)
    (hc : ∀ r, compile r = .ok (search r)) (c : Config) (a : Args) (hb : c.base = .other (scaleByAdam a))
    (hb1 : a.b1 ≠ 1) (hb2 : a.b2 ≠ 1)
    (hgn : ∀ m, c.clipGlobalNorm = some m → 0 < m) (hav : ∀ m, c.clipAbsolute = some m → 0 < m) (lr : Schedule.Sched)
    (hlr : Schedule.createLearningRateSchedule c.learningRate c.totalSteps = .ok lr) (opt : GT)
    (hopt : createOptimizer compile c = .ok opt) (p : Params) (hp : ItemsOk p) (hn : NoEmptyItems p) :
    ∃ os, opt.init p = .ok os ∧ ∀ grads : List Params, grads.length < 2 ^ 31 → (∀ g ∈ grads, SameShape p g) →
      ∃ (s : TrainState opt) (us : List Params), train ⟨0, p, os⟩ grads = .ok s ∧ s.step = grads.length ∧
        SameShape p s.params ∧ AdamRun search c a.b1 a.b2 a.eps a.epsRoot lr p grads us s.params := by
  obtain ⟨R, h0, hsh, hstep⟩ := adam_full_step hc hb hb1 hb2 hgn hav hlr hopt
  obtain ⟨os, e0, r0⟩ := h0 p hp hn
  refine ⟨os, e0, ?_⟩
  have key : ∀ grads : List Params, grads.length < 2 ^ 31 → (∀ g ∈ grads, SameShape p g) → ∃ (s : TrainState opt) (us : List Params),
      train ⟨0, p, os⟩ grads = .ok s ∧ s.step = grads.length ∧ SameShape p s.params ∧ us.length = grads.length ∧
      R p s.optState grads.length us ∧ AdamRun search c a.b1 a.b2 a.eps a.epsRoot lr p grads us s.params := by
    intro grads
    induction grads using List.reverseRecOn with
    | nil =>
      intro _ _
      exact ⟨⟨0, p, os⟩, [], rfl, rfl, .refl p, rfl, r0, .start⟩
    | append_singleton gs g ih =>
      intro hl hg
      simp only [List.length_append, List.length_singleton] at hl
      obtain ⟨⟨k, q, s⟩, us, e1, e2, e3, e4, e5, e6⟩ := ih (by omega) (fun g' h => hg g' (by simp [h]))
      simp only at e2 e3 e5 e6
      obtain ⟨p', u, s', f1, f2, f3⟩ := hstep k gs.length q g us s (e3.ok hp) (e3.noEmpty hn)
        (e3.symm.trans (hg g (by simp))) (hsh _ _ _ _ _ e3.symm e5) (by omega)
      have hp' : SameShape q p' := by
        obtain ⟨_, _, _, h, _⟩ := f3
        exact h
      refine ⟨⟨k + 1, p', s'⟩, us ++ [u], ?_, by simp [e2], e3.trans hp', by simp [e4], ?_, .step _ _ _ _ _ _ e6 f3⟩
      · rw [train_append, e1]
        exact f1
      · have := hsh _ _ _ _ _ e3 f2
        simpa using this
  intro grads hl hg
  obtain ⟨s, us, e1, e2, e3, _, _, e6⟩ := key grads hl hg
  exact ⟨s, us, e1, e2, e3, e6⟩

/-- C138: however large the gradients are, an update changes a parameter by at most the learning rate times a constant, which is ten
for the usual `b1 = 0.9` and `b2 = 0.999`, and the weight decay. -/
theorem C138_bounded (search : List Char → Key → Bool) (c : Config) (b1 b2 eps epsRoot : ℝ) (h0 : 0 ≤ b1) (h12 : b1 ≤ b2)
    (h2 : b2 < 1) (he : 0 ≤ eps) (her : 0 ≤ epsRoot) (lr : Schedule.Sched) (n : Nat) (us : List Params) (g u p p' : Params)
    (h : AdamStep search c b1 b2 eps epsRoot lr n us g u p p') (path : List Key) (t t' : Tensor) (ht : leafOf p path = some t)
    (ht' : leafOf p' path = some t') (w : ℝ) (hw : DecayIs search c.weightDecay (join path) w) (i : Nat) (hi : i < t.length) :
    |t'.getD i 0 - t.getD i 0| ≤ |lr n| * (Real.sqrt ((1 - b1) / (1 - b2)) + |w| * |t.getD i 0|) := by
  obtain ⟨_, _, _, _, _, _, h⟩ := h
  obtain ⟨t'', e1, _, e3, e4⟩ := h path t ht
  rw [ht'] at e1
  cases e1
  by_cases hf : FrozenIs search c.frozenPattern c.trainablePattern (join path)
  · rw [e3 hf, sub_self, abs_zero]
    positivity
  · rw [e4 hf w hw i hi, sub_sub_cancel_left, abs_neg, abs_mul]
    refine mul_le_mul_of_nonneg_left ((abs_add_le _ _).trans ?_) (abs_nonneg _)
    rw [abs_mul]
    have := direction_bounded b1 b2 eps epsRoot h0 h12 h2 he her ((us ++ [u]).map fun u => entry u path i)
    linarith

/-- C138, defaults.  With the arguments of `scale_by_adam` left out, an update changes a parameter without weight decay by at most
ten times the learning rate, and the first update of an entry with gradient `g` is `g / (|g| + 1e-8)` times the learning rate. -/
theorem C138_defaults (search : List Char → Key → Bool) (c : Config) (lr : Schedule.Sched) (n : Nat) (us : List Params)
    (g u p p' : Params) (h : AdamStep search c ({} : Args).b1 ({} : Args).b2 ({} : Args).eps ({} : Args).epsRoot lr n us g u p p')
    (path : List Key) (t t' : Tensor) (ht : leafOf p path = some t) (ht' : leafOf p' path = some t')
    (hw : DecayIs search c.weightDecay (join path) 0) (i : Nat) (hi : i < t.length) :
    |t'.getD i 0 - t.getD i 0| ≤ 10 * |lr n| ∧
    (us = [] → ¬ FrozenIs search c.frozenPattern c.trainablePattern (join path) →
      t'.getD i 0 = t.getD i 0 - lr n * (entry u path i / (|entry u path i| + 1 / 10 ^ 8))) := by
  constructor
  · have hb := C138_bounded search c _ _ _ _ (by norm_num) (by norm_num) (by norm_num) (by norm_num) le_rfl lr n us g u p p' h path t t'
      ht ht' 0 hw i hi
    have hs : Real.sqrt ((1 - ({} : Args).b1) / (1 - ({} : Args).b2)) = 10 := by
      rw [Real.sqrt_eq_iff_mul_self_eq (by norm_num) (by norm_num)]
      norm_num
    rw [hs, abs_zero, zero_mul, add_zero] at hb
    linarith
  · intro hus hf
    subst hus
    obtain ⟨_, _, _, _, _, _, h⟩ := h
    obtain ⟨t'', e1, _, _, e4⟩ := h path t ht
    rw [ht'] at e1
    cases e1
    rw [e4 hf 0 hw i hi]
    simp only [List.nil_append, List.map_cons, List.map_nil]
    norm_num [direction, ewma, fading, Finset.sum_range_succ, Real.sqrt_sq_eq_abs]

/-- C138, total change.  Without weight decay an entry moves at most by the sum of the learning rates times the bound of one step. -/
theorem C138_moved (search : List Char → Key → Bool) (c : Config) (b1 b2 eps epsRoot : ℝ) (h0 : 0 ≤ b1) (h12 : b1 ≤ b2)
    (h2 : b2 < 1) (he : 0 ≤ eps) (her : 0 ≤ epsRoot) (lr : Schedule.Sched) (p0 p : Params) (gs us : List Params)
    (h : AdamRun search c b1 b2 eps epsRoot lr p0 gs us p) (path : List Key) (hw : DecayIs search c.weightDecay (join path) 0)
    (t0 : Tensor) (ht : leafOf p0 path = some t0) :
    ∃ t, leafOf p path = some t ∧ t.length = t0.length ∧ ∀ i < t0.length,
      |t.getD i 0 - t0.getD i 0| ≤ Real.sqrt ((1 - b1) / (1 - b2)) * ∑ n ∈ Finset.range gs.length, |lr n| := by
  induction h with
  | start => exact ⟨t0, ht, rfl, fun i _ => by simp⟩
  | step gs us g u q p h1 hs ih =>
    obtain ⟨t, e1, e2, e3⟩ := ih
    obtain ⟨t', e4, e5, _, _⟩ := hs.choose_spec.2.2.2.2.2 path t e1
    refine ⟨t', e4, by omega, fun i hi => ?_⟩
    have hb := C138_bounded search c b1 b2 eps epsRoot h0 h12 h2 he her lr gs.length us g u q p hs path t t' e1 e4 0 hw i (by omega)
    rw [abs_zero, zero_mul, add_zero] at hb
    rw [List.length_append, List.length_singleton, Finset.sum_range_succ, mul_add]
    have := e3 i hi
    have h3 := abs_add_le (t'.getD i 0 - t.getD i 0) (t.getD i 0 - t0.getD i 0)
    rw [sub_add_sub_cancel] at h3
    linarith

/-- C138, size of the weights.  With a weight decay `w` and learning rates of at most `1/w`, an entry never gets larger than the
bound of one step divided by `w`, or than it was at the beginning, for whatever gradients. -/
theorem C138_weights (search : List Char → Key → Bool) (c : Config) (b1 b2 eps epsRoot : ℝ) (h0 : 0 ≤ b1) (h12 : b1 ≤ b2)
    (h2 : b2 < 1) (he : 0 ≤ eps) (her : 0 ≤ epsRoot) (lr : Schedule.Sched) (p0 p : Params) (gs us : List Params)
    (h : AdamRun search c b1 b2 eps epsRoot lr p0 gs us p) (path : List Key) (w : ℝ) (hw0 : 0 < w)
    (hw : DecayIs search c.weightDecay (join path) w) (hlr : ∀ n < gs.length, 0 ≤ lr n ∧ lr n * w ≤ 1)
    (t0 : Tensor) (ht : leafOf p0 path = some t0) :
    ∃ t, leafOf p path = some t ∧ t.length = t0.length ∧ ∀ i < t0.length,
      |t.getD i 0| ≤ max |t0.getD i 0| (Real.sqrt ((1 - b1) / (1 - b2)) / w) := by
  induction h with
  | start => exact ⟨t0, ht, rfl, fun i _ => le_max_left _ _⟩
  | step gs us g u q p h1 hs ih =>
    obtain ⟨t, e1, e2, e3⟩ := ih fun n hn => hlr n (by rw [List.length_append]; omega)
    obtain ⟨t', e4, e5, e6, e7⟩ := hs.choose_spec.2.2.2.2.2 path t e1
    refine ⟨t', e4, by omega, fun i hi => ?_⟩
    have hi' : i < t.length := by omega
    by_cases hf : FrozenIs search c.frozenPattern c.trainablePattern (join path)
    · rw [e6 hf]
      exact e3 i hi
    · obtain ⟨hl0, hl1⟩ := hlr gs.length (by simp)
      rw [e7 hf w hw i hi']
      have hd := direction_bounded b1 b2 eps epsRoot h0 h12 h2 he her ((us ++ [u]).map fun u => entry u path i)
      have hx := e3 i hi
      generalize direction b1 b2 eps epsRoot ((us ++ [u]).map fun u => entry u path i) = d at hd ⊢
      generalize Real.sqrt ((1 - b1) / (1 - b2)) = B at hd hx ⊢
      generalize t.getD i 0 = x at hx ⊢
      have hB : B ≤ w * max |t0.getD i 0| (B / w) := by
        have := mul_le_mul_of_nonneg_left (le_max_right |t0.getD i 0| (B / w)) hw0.le
        rwa [mul_div_cancel₀ _ hw0.ne'] at this
      generalize max |t0.getD i 0| (B / w) = m at hx hB ⊢
      have e : x - lr gs.length * (d + w * x) = (1 - lr gs.length * w) * x - lr gs.length * d := by ring
      rw [e]
      refine (abs_sub _ _).trans ?_
      rw [abs_mul, abs_mul, abs_of_nonneg (sub_nonneg.2 hl1), abs_of_nonneg hl0]
      have a1 := mul_le_mul_of_nonneg_left hx (sub_nonneg.2 hl1)
      have a2 := mul_le_mul_of_nonneg_left (hd.trans hB) hl0
      nlinarith

/-- C138: the first update moves every entry by about the learning rate, in the direction of its sign. -/
theorem C138_first (search : List Char → Key → Bool) (c : Config) (b1 b2 eps epsRoot : ℝ) (lr : Schedule.Sched) (g u p p' : Params)
    (h : AdamStep search c b1 b2 eps epsRoot lr 0 [] g u p p') (path : List Key) (t t' x : Tensor) (ht : leafOf p path = some t)
    (ht' : leafOf p' path = some t') (hx : leafOf u path = some x)
    (hf : ¬ FrozenIs search c.frozenPattern c.trainablePattern (join path)) (w : ℝ) (hw : DecayIs search c.weightDecay (join path) w)
    (i : Nat) (hi : i < t.length) :
    t'.getD i 0 = t.getD i 0 - lr 0 * (x.getD i 0 / (Real.sqrt (x.getD i 0 ^ 2 + epsRoot) + eps) + w * t.getD i 0) := by
  obtain ⟨_, _, _, _, _, _, h⟩ := h
  obtain ⟨t'', e1, _, e3, e4⟩ := h path t ht
  rw [ht'] at e1
  cases e1
  rw [e4 hf w hw i hi, List.nil_append, List.map_singleton, direction_single, entry_of_leaf hx,
    Nat.cast_zero]

theorem exists_firstRule (search : List Char → Key → Bool) (l : List (List Char × ℝ)) (v : ℝ) (name : Key) :
    ∃ k, FirstRule search l v name k := by
  induction l with
  | nil => exact ⟨v, .inr ⟨by simp, rfl⟩⟩
  | cons r l ih =>
    cases hr : search r.1 name with
    | true => exact ⟨r.2, .inl ⟨[], r.1, l, rfl, hr, by simp⟩⟩
    | false =>
      obtain ⟨k, ⟨pre, q, post, rfl, h1, h2⟩ | ⟨h1, rfl⟩⟩ := ih
      · refine ⟨k, .inl ⟨r :: pre, q, post, rfl, h1, fun x hx => ?_⟩⟩
        rcases List.mem_cons.1 hx with rfl | hx
        · exact hr
        · exact h2 x hx
      · refine ⟨k, .inr ⟨fun x hx => ?_, rfl⟩⟩
        rcases List.mem_cons.1 hx with rfl | hx
        · exact hr
        · exact h1 x hx

theorem exists_decay (search : List Char → Key → Bool) (wd : WeightDecay) (name : Key) : ∃ w, DecayIs search wd name w := by
  cases wd with
  | none => exact ⟨0, rfl⟩
  | scalar x => exact ⟨x, rfl⟩
  | rules l => exact exists_firstRule search l 0 name

/-- C138: without the constants and without clipping, scaling the gradients changes nothing: a factor for the gradients of some
parameters (`gradient_scale`) is not a factor for their learning rate. -/
theorem C138_gradient_scale (search : List Char → Key → Bool) (c : Config) (hgn : c.clipGlobalNorm = none)
    (hav : c.clipAbsolute = none) (hpos : ∀ r ∈ c.gradientScale, 0 < r.2) (b1 b2 : ℝ) (lr : Schedule.Sched) (p0 : Params)
    (gs us us' : List Params) (p p' : Params) (h : AdamRun search c b1 b2 0 0 lr p0 gs us p)
    (h' : AdamRun search { c with gradientScale := [] } b1 b2 0 0 lr p0 gs us' p') :
    ∀ path, leafOf p path = leafOf p' path := by
  suffices H : (∀ path, leafOf p path = leafOf p' path) ∧ ∀ path k, FirstRule search c.gradientScale 1 (join path) k → ∀ i,
      us.map (fun u => entry u path i) = (us'.map fun u => entry u path i).map (k * ·) from H.1
  induction h generalizing us' p' with
  | start =>
    generalize hl : ([] : List Params) = l at h'
    cases h' with
    | start => exact ⟨fun _ => rfl, fun _ _ _ _ => rfl⟩
    | step => simp at hl
  | step gs us g u q p h1 hs ih =>
    generalize hl : gs ++ [g] = l at h'
    cases h' with
    | start => simp at hl
    | step gs' us' g' u' q' p' h1' hs' =>
      obtain ⟨rfl, hg⟩ := List.append_inj' hl rfl
      cases hg
      obtain ⟨ih1, ih2⟩ := ih us' q' h1'
      obtain ⟨sc, a1, a2, a3, a4, a5, a6⟩ := hs
      obtain ⟨sc', b1', b2', b3, b4, b5, b6⟩ := hs'
      simp only [Clipped, hgn, hav] at a5 b5
      subst a5 b5
      have hhist : ∀ path k, FirstRule search c.gradientScale 1 (join path) k → ∀ i,
          (us ++ [u]).map (fun u => entry u path i) = ((us' ++ [u']).map fun u => entry u path i).map (k * ·) := by
        intro path k hk i
        rw [List.map_append, List.map_append, List.map_append, ih2 path k hk i]
        congr 1
        simp only [List.map_cons, List.map_nil]
        congr 1
        cases hg : leafOf g path with
        | some t =>
          rw [entry_of_leaf (a4 path t k hg hk), entry_of_leaf (b4 path t 1 hg (.inr ⟨by simp, rfl⟩))]
          rw [List.getD_eq_getElem?_getD, List.getD_eq_getElem?_getD, List.getElem?_map, List.getElem?_map]
          cases t[i]? <;> simp
        | none =>
          have e : ∀ v, SameShape g v → leafOf v path = none := by
            intro v hv
            cases hx : leafOf v path with
            | none => rfl
            | some t =>
              obtain ⟨_, e, _⟩ := hv.symm.leaf path t hx
              rw [hg] at e
              cases e
          unfold entry
          rw [e u a1, e u' b1']
          simp
      refine ⟨fun path => ?_, hhist⟩
      have e := ih1 path
      cases hq : leafOf q path with
      | none =>
        rw [hq] at e
        have e' : ∀ v w, SameShape v w → leafOf v path = none → leafOf w path = none := by
          intro v w hv hn
          cases hx : leafOf w path with
          | none => rfl
          | some t =>
            obtain ⟨_, e, _⟩ := hv.symm.leaf path t hx
            rw [hn] at e
            cases e
        rw [e' q p a3 hq, e' q' p' b3 e.symm]
      | some t =>
        rw [hq] at e
        obtain ⟨t1, c1, c2, c3, c4⟩ := a6 path t hq
        obtain ⟨t2, d1, d2, d3, d4⟩ := b6 path t e.symm
        rw [c1, d1]
        congr 1
        by_cases hf : FrozenIs search c.frozenPattern c.trainablePattern (join path)
        · rw [c3 hf, d3 hf]
        · obtain ⟨w, hw⟩ := exists_decay search c.weightDecay (join path)
          obtain ⟨k, hk⟩ := exists_firstRule search c.gradientScale 1 (join path)
          have hk0 : 0 < k := by
            rcases hk with ⟨pre, q, post, e, _⟩ | ⟨_, rfl⟩
            · exact hpos (q, k) (by rw [e]; simp)
            · exact one_pos
          apply List.ext_getElem
          · omega
          · intro i hi1 hi2
            have x1 := c4 hf w hw i (by omega)
            have x2 := d4 hf w hw i (by omega)
            rw [List.getD_eq_getElem _ _ hi1] at x1
            rw [List.getD_eq_getElem _ _ hi2] at x2
            rw [x1, x2, hhist path k hk i]
            have := direction_scale b1 b2 0 0 k hk0 ((us' ++ [u']).map fun u => entry u path i)
            rw [mul_zero, mul_zero] at this
            rw [this]

/-- Adam as it is configured for V-MoE-H/14 (vmoe/configs/vmoe_paper/common.py:145-169), with a shorter schedule. -/
noncomputable def exampleConfig : Config where
  base := .other (scaleByAdam {})
  totalSteps := 100
  learningRate := .linear 0.0003 0.00001 10 none
  clipGlobalNorm := some 10
  clipAbsolute := none
  weightDecay := .scalar 0.1
  frozenPattern := .none
  trainablePattern := .none
  gradientScale := []

/-- The hypotheses of `C138_adam`, `C138_bounded` and `C138_defaults` are met; the bound is ten. -/
example (compile : List Char → Except PyErr (Key → Bool)) :
    exampleConfig.base = .other (scaleByAdam {}) ∧ ({} : Args).b1 ≠ 1 ∧ ({} : Args).b2 ≠ 1 ∧
      (∀ m, exampleConfig.clipGlobalNorm = some m → 0 < m) ∧ (∀ m, exampleConfig.clipAbsolute = some m → 0 < m) ∧
      (∃ lr, Schedule.createLearningRateSchedule exampleConfig.learningRate exampleConfig.totalSteps = .ok lr) ∧
      (∃ opt, createOptimizer compile exampleConfig = .ok opt) ∧ ItemsOk exampleParams ∧ NoEmptyItems exampleParams ∧
      ({} : Args).b1 ≤ ({} : Args).b2 ∧ Real.sqrt ((1 - ({} : Args).b1) / (1 - ({} : Args).b2)) = 10 := by
  refine ⟨rfl, by norm_num, by norm_num, ?_, ?_, ⟨_, rfl⟩, ?_, exampleParams_ok.1, exampleParams_ok.2, by norm_num, ?_⟩
  · intro m h
    cases h
    norm_num
  · intro m h
    cases h
  · unfold createOptimizer gradientScaling gradientClipping addDecayedWeights learningRateGT freezeWeights
    norm_num [exampleConfig, truthy, baseGT, Schedule.createLearningRateSchedule, falsy, bind, Except.bind, pure, Except.pure]
  · rw [Real.sqrt_eq_iff_mul_self_eq (by norm_num) (by norm_num)]
    norm_num

/-- The hypotheses of `C138_moved` and `C138_weights` are met for one update with a constant learning rate: a decay of 1/10, and
learning rates of at most 10; then all entries stay below 100. -/
example (search : List Char → Key → Bool) (lr : Schedule.Sched) (hlr : lr 0 = 0.0003) :
    DecayIs search exampleConfig.weightDecay (join ["body".toList]) 0.1 ∧ (∀ n : Nat, n < 1 → 0 ≤ lr n ∧ lr n * 0.1 ≤ 1) ∧
    DecayIs search .none (join ["body".toList]) 0 ∧ leafOf exampleParams ["body".toList] = some [4] ∧ ((10 : ℝ) / 0.1 = 100) := by
  refine ⟨rfl, ?_, rfl, by simp [leafOf, leafAt, lookup, exampleParams], by norm_num⟩
  intro n hn
  obtain rfl : n = 0 := by omega
  rw [Nat.cast_zero, hlr]
  norm_num

/-- The mean of two gradients: the direction after 1 and -1 is small, but after 1 and 1 it is one. -/
example : direction (1 / 2) (1 / 2) 0 0 [1, -1] = -1 / 3 ∧ direction (1 / 2) (1 / 2) 0 0 [1, 1] = 1 ∧
    direction (1 / 2) (1 / 2) 0 0 [100, 100] = 1 := by
  refine ⟨?_, ?_, ?_⟩
  · norm_num [direction, ewma, fading, Finset.sum_range_succ]
  · norm_num [direction, ewma, fading, Finset.sum_range_succ]
  · norm_num [direction, ewma, fading, Finset.sum_range_succ]
    rw [show (10000 : ℝ) = 100 ^ 2 by norm_num, Real.sqrt_sq (by norm_num)]
    norm_num

/-- The hypotheses of `C138_gradient_scale` are met by training runs: with twice the gradients for some parameters the trained
parameters are the same. -/
example (search : List Char → Key → Bool) (grads : List Params) (hl : grads.length < 2 ^ 31)
    (hg : ∀ g ∈ grads, SameShape exampleParams g) :
    ∃ c : Config, c.gradientScale = [("body".toList, 2)] ∧ ∃ opt opt' os os', ∃ (s : TrainState opt) (s' : TrainState opt'),
      createOptimizer (fun r => .ok (search r)) c = .ok opt ∧
      createOptimizer (fun r => .ok (search r)) { c with gradientScale := [] } = .ok opt' ∧
      train ⟨0, exampleParams, os⟩ grads = .ok s ∧ train ⟨0, exampleParams, os'⟩ grads = .ok s' ∧
      ∀ path, leafOf s.params path = leafOf s'.params path := by
  let a : Args := { eps := 0 }
  let c : Config := { exampleConfig with base := .other (scaleByAdam a), clipGlobalNorm := none, gradientScale := [("body".toList, 2)] }
  obtain ⟨opt, ho⟩ : ∃ opt, createOptimizer (fun r => .ok (search r)) c = .ok opt := by
    unfold createOptimizer gradientScaling gradientClipping addDecayedWeights learningRateGT freezeWeights
    norm_num [c, exampleConfig, compileRules, truthy, baseGT, Schedule.createLearningRateSchedule, falsy, bind, Except.bind, pure,
      Except.pure]
  obtain ⟨opt', ho'⟩ : ∃ opt, createOptimizer (fun r => .ok (search r)) { c with gradientScale := [] } = .ok opt := by
    unfold createOptimizer gradientScaling gradientClipping addDecayedWeights learningRateGT freezeWeights
    norm_num [c, exampleConfig, truthy, baseGT, Schedule.createLearningRateSchedule, falsy, bind, Except.bind, pure, Except.pure]
  obtain ⟨os, _, h⟩ := C138_adam _ search (fun _ => rfl) c a rfl (by norm_num [a]) (by norm_num [a]) (by intro m h; cases h)
    (by intro m h; cases h) _ rfl opt ho exampleParams exampleParams_ok.1 exampleParams_ok.2
  obtain ⟨os', _, h'⟩ := C138_adam _ search (fun _ => rfl) { c with gradientScale := [] } a rfl (by norm_num [a]) (by norm_num [a])
    (by intro m h; cases h) (by intro m h; cases h) _ rfl opt' ho' exampleParams exampleParams_ok.1 exampleParams_ok.2
  obtain ⟨s, us, e1, _, _, e4⟩ := h grads hl hg
  obtain ⟨s', us', e1', _, _, e4'⟩ := h' grads hl hg
  refine ⟨c, rfl, opt, opt', os, os', s, s', ho, ho', e1, e1', ?_⟩
  exact C138_gradient_scale search c rfl rfl (by
    intro r hr
    rw [List.mem_singleton.1 hr]
    norm_num) _ _ _ _ _ _ _ _ _ e4 e4'

end Verif.Adam
