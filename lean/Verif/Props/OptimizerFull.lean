import Verif.Props.Optimizer

/-!
C88: the whole chain of `create_optimizer` for SGD (vmoe/train/optimizer.py:90-139): scaling, clipping, momentum, weight decay,
learning rate and freezing, over any number of updates.
-/

namespace Verif.Optimizer

open Verif FlatDict Partitioning MeshSpec TreeSpec RulesSpec

/-! ### What an update has to be -/

/-- `u'` are the clipped updates `u`. -/
def Clipped (bound absolute : Option ℝ) (u u' : Params) : Prop :=
  match bound, absolute with
  | none, none => u' = u
  | some m, none => Real.sqrt (sumSquaresItems u') = min (Real.sqrt (sumSquaresItems u)) m ∧
      (Real.sqrt (sumSquaresItems u) ≤ m → u' = u) ∧
      ∃ c, 0 < c ∧ c ≤ 1 ∧ ∀ path t, leafOf u path = some t → leafOf u' path = some (t.map (c * ·))
  | none, some a => ∀ path t, leafOf u path = some t → leafOf u' path = some (t.map fun x => max (-a) (min x a))
  | some _, some _ => False

/-- The weight decay of a name. -/
def DecayIs (search : List Char → Key → Bool) : WeightDecay → Key → ℝ → Prop
  | .none, _, v => v = 0
  | .scalar x, _, v => v = x
  | .rules l, name, v => FirstRule search l 0 name v

/-- The names of the frozen parameters. -/
def FrozenIs (search : List Char → Key → Bool) (frozen trainable : Regex.Arg) (name : Key) : Prop :=
  (falsy frozen = false ∧ search (patternText frozen) name = true) ∨
  (falsy trainable = false ∧ search (patternText trainable) name = false)

/-- Update number `n` with the gradients `g`: the parameters `p` and the momentum `m` become `p'` and `m'`. -/
def SgdStep (search : List Char → Key → Bool) (c : Config) (lr : Schedule.Sched) (μ : ℝ) (nesterov : Bool) (n : Nat)
    (g p m p' m' : Params) : Prop :=
  ∃ scaled u, SameShape g scaled ∧ SameShape g u ∧ SameShape p p' ∧ SameShape m m' ∧
    (∀ path t k, leafOf g path = some t → FirstRule search c.gradientScale 1 (join path) k →
      leafOf scaled path = some (t.map (k * ·))) ∧
    Clipped c.clipGlobalNorm c.clipAbsolute scaled u ∧
    ∀ path tu tm tp, leafOf u path = some tu → leafOf m path = some tm → leafOf p path = some tp →
      ∃ tm' d, tm' = List.zipWith (fun x y => x + μ * y) tu tm ∧
        d = (if nesterov then List.zipWith (fun x y => x + μ * y) tu tm' else tm') ∧
        leafOf m' path = some tm' ∧
        (FrozenIs search c.frozenPattern c.trainablePattern (join path) → leafOf p' path = some tp) ∧
        (¬ FrozenIs search c.frozenPattern c.trainablePattern (join path) → ∀ w, DecayIs search c.weightDecay (join path) w →
          leafOf p' path = some (List.zipWith (fun x y => x - lr n * (y + w * x)) tp d))

/-- The parameters and the momentum after these gradients. -/
inductive SgdRun (search : List Char → Key → Bool) (c : Config) (lr : Schedule.Sched) (μ : ℝ) (nesterov : Bool) (p0 : Params) :
    List Params → Params → Params → Prop
  | start (m : Params) : SameShape p0 m → (∀ path t, leafOf m path = some t → ∀ x ∈ t, x = 0) →
      SgdRun search c lr μ nesterov p0 [] p0 m
  | step (gs : List Params) (g p m p' m' : Params) : SgdRun search c lr μ nesterov p0 gs p m →
      SgdStep search c lr μ nesterov gs.length g p m p' m' → SgdRun search c lr μ nesterov p0 (gs ++ [g]) p' m'

/-! ### The stages -/

/-- A leaf of one of two trees of the same shape has one in the other. -/
theorem SameShape.leaf {u p : Params} (h : SameShape u p) (path : List Key) (t : Tensor) (hl : leafOf u path = some t) :
    ∃ t', leafOf p path = some t' ∧ t.length = t'.length := by
  obtain ⟨x, rfl, rfl⟩ := exists_pair_items _ [] u p h
  rw [leafOf_map] at hl ⊢
  obtain ⟨v, hv, rfl⟩ := Option.map_eq_some_iff.1 hl
  exact ⟨v.1.2, by rw [hv]; rfl, v.2⟩

/-- `tree_map` of two trees of the same shape. -/
theorem dictMap2_zip (f : Tensor → Tensor → Except PyErr Tensor) (F : ℝ → ℝ → ℝ)
    (hf : ∀ a b, a.length = b.length → f a b = .ok (List.zipWith F a b)) (u p : Params) (hu : ItemsOk u)
    (hs : SameShape u p) :
    ∃ r, dictMap2 f u p = .ok r ∧ SameShape u r ∧ ∀ path a b, leafOf u path = some a → leafOf p path = some b →
      leafOf r path = some (List.zipWith F a b) := by
  obtain ⟨x, rfl, rfl⟩ := exists_pair_items _ [] u p hs
  have hx := (mapItems_ok_iff _ _ _).1 hu
  refine ⟨_, dictMap2_map f (fun _ x => x.1.1) (fun _ x => x.1.2) (fun _ x => List.zipWith F x.1.1 x.1.2) (fun _ x => hf _ _ x.2) [] x hx, ?_, ?_⟩
  · exact pair_rel_items (fun a b : Tensor => a.length = b.length) _ _ [] x (fun q x => by simp [x.2])
  · intro path a b h1 h2
    rw [leafOf_map] at h1 h2
    obtain ⟨v, hv, rfl⟩ := Option.map_eq_some_iff.1 h1
    obtain ⟨w, hw, rfl⟩ := Option.map_eq_some_iff.1 h2
    rw [hv] at hw
    injection hw with hw
    subst hw
    rw [leafOf_map, hv, Option.map_some]

theorem addT_scale (c : ℝ) (a b : Tensor) (h : a.length = b.length) :
    addT a (scaleT c b) = .ok (List.zipWith (fun x y => x + c * y) a b) := by
  unfold addT
  rw [if_pos (by simpa [scaleT] using h), zipWith_scale]

theorem zipWith_zero_right (a b : Tensor) (h : a.length = b.length) : List.zipWith (fun x y => x + 0 * y) a b = a := by
  apply List.ext_getElem
  · simp [h]
  · intro i h1 h2
    simp

theorem stage_scaling {compile : List Char → Except PyErr (Key → Bool)} {search : List Char → Key → Bool}
    {rules : List (List Char × ℝ)} (hc : ∀ r, compile r = .ok (search r)) {g : GT}
    (hg : gradientScaling compile rules = .ok g) (u : Params) (p : Option Params) (hu : ItemsOk u) (hn : NoEmptyItems u)
    (s : g.State) : ∃ u', g.update u s p = .ok (u', s) ∧ SameShape u u' ∧
      ∀ path tu c, leafOf u path = some tu → FirstRule search rules 1 (join path) c → leafOf u' path = some (tu.map (c * ·)) := by
  obtain ⟨g', h, h'⟩ := C45_gradient_scaling compile search rules (fun r _ => hc r.1) u p hu hn
  rw [hg] at h
  cases h
  exact h' s

theorem stage_clipping {a b : Option ℝ} {g : GT} (hg : gradientClipping a b = .ok g) (ha : ∀ m, a = some m → 0 < m)
    (hb : ∀ m, b = some m → 0 < m) (u p : Params) (hu : ItemsOk u) (hn : NoEmptyItems u) (hs : SameShape u p) (s : g.State) :
    ∃ u', g.update u s (some p) = .ok (u', s) ∧ SameShape u u' ∧ Clipped a b u u' := by
  have hp := preserves_gradientClipping hg
  cases a with
  | none =>
    cases b with
    | none =>
      rw [(C46_arguments 1 1 one_ne_zero one_ne_zero).2.1] at hg
      cases hg
      exact ⟨u, rfl, .refl u, rfl⟩
    | some b =>
      have h0 := hb b rfl
      have : gradientClipping none (some b) = .ok (clip b) := by simp [gradientClipping, truthy, h0.ne']
      rw [this] at hg
      cases hg
      refine ⟨_, rfl, hp u p s _ s hu hn hs rfl, ?_⟩
      intro path t h
      rw [itemsMap_eq _ [], leafOf_map, h, Option.map_some]
      congr 2
      funext x
      rcases le_total x b with h1 | h1
      · rw [min_eq_left h1, max_comm]
        exact min_eq_left (max_le (by linarith) h1)
      · rw [min_eq_right h1, max_eq_right (by linarith : -b ≤ b), min_eq_right (le_max_of_le_left h1)]
  | some m =>
    cases b with
    | none =>
      obtain ⟨g', h, h'⟩ := C46_global_norm m (ha m rfl) u (some p)
      rw [hg] at h
      cases h
      obtain ⟨u', h1, h2⟩ := h' s
      exact ⟨u', h1, hp u p _ _ _ hu hn hs h1, h2⟩
    | some b =>
      rw [(C46_arguments m b (ha m rfl).ne' (hb b rfl).ne').1] at hg
      cases hg

/-- Momentum: `R` relates the states to the momentum, which for SGD without momentum is not in the state. -/
theorem stage_momentum (momentum : Option ℝ) (nesterov : Bool) :
    ∃ R : (traceMomentum momentum nesterov).State → Params → Prop,
      (∀ p, ∃ s, (traceMomentum momentum nesterov).init p = .ok s ∧ R s (itemsMap (fun t => t.map fun _ => 0) p)) ∧
      ∀ u p s m, ItemsOk u → NoEmptyItems u → SameShape u m → R s m → ∃ u' s' m',
        (traceMomentum momentum nesterov).update u s (some p) = .ok (u', s') ∧ R s' m' ∧ SameShape u u' ∧ SameShape u m' ∧
        ∀ path tu tm, leafOf u path = some tu → leafOf m path = some tm →
          ∃ tm', tm' = List.zipWith (fun x y => x + momentum.getD 0 * y) tu tm ∧ leafOf m' path = some tm' ∧
            leafOf u' path = some (if nesterov then List.zipWith (fun x y => x + momentum.getD 0 * y) tu tm' else tm') := by
  by_cases h0 : truthy momentum = none
  · have hz : momentum.getD 0 = 0 := by
      cases momentum with
      | none => rfl
      | some d =>
        unfold truthy at h0
        simp only at h0
        split at h0
        · assumption
        · cases h0
    have : traceMomentum momentum nesterov = identity := by
      unfold traceMomentum
      rw [h0]
    rw [this, hz]
    refine ⟨fun _ _ => True, fun p => ⟨(), rfl, trivial⟩, ?_⟩
    intro u p s m hu hn hs _
    refine ⟨u, s, u, rfl, trivial, .refl u, .refl u, ?_⟩
    intro path tu tm h1 h2
    obtain ⟨t', h3, h4⟩ := hs.leaf path tu h1
    rw [h2] at h3
    cases h3
    have e1 := zipWith_zero_right tu tm h4
    refine ⟨tu, e1.symm, h1, ?_⟩
    rw [h1, zipWith_zero_right tu tu rfl]
    split <;> rfl
  · obtain ⟨d, hd⟩ := Option.ne_none_iff_exists'.1 h0
    have hm : momentum = some d := by
      cases momentum with
      | none => cases hd
      | some d' =>
        unfold truthy at hd
        simp only at hd
        split at hd
        · cases hd
        · cases hd; rfl
    have : traceMomentum momentum nesterov = trace d nesterov := by
      unfold traceMomentum
      rw [hd]
    rw [this, hm, Option.getD_some]
    refine ⟨fun s m => s = m, fun p => ⟨_, rfl, rfl⟩, ?_⟩
    rintro u p s m hu hn hs rfl
    obtain ⟨s', e1, e2, e3⟩ := dictMap2_zip (fun g t => addT g (scaleT d t)) (fun x y => x + d * y)
      (fun a b h => addT_scale d a b h) u s hu hs
    cases nesterov with
    | false =>
      refine ⟨s', s', s', ?_, rfl, e2, e2, ?_⟩
      · change (dictMap2 _ _ _ >>= _ : Except PyErr _) = _
        rw [e1]
        rfl
      · intro path tu tm h1 h2
        exact ⟨_, rfl, e3 path tu tm h1 h2, by simpa using e3 path tu tm h1 h2⟩
    | true =>
      obtain ⟨u', f1, f2, f3⟩ := dictMap2_zip (fun g t => addT g (scaleT d t)) (fun x y => x + d * y)
        (fun a b h => addT_scale d a b h) u s' hu e2
      refine ⟨u', s', s', ?_, rfl, f2, e2, ?_⟩
      · change (dictMap2 _ _ _ >>= _ : Except PyErr _) = _
        rw [e1]
        change (dictMap2 _ _ _ >>= _ : Except PyErr _) = _
        rw [f1]
        rfl
      · intro path tu tm h1 h2
        exact ⟨_, rfl, e3 path tu tm h1 h2, by simpa using f3 path tu _ h1 (e3 path tu tm h1 h2)⟩

theorem stage_decay {compile : List Char → Except PyErr (Key → Bool)} {search : List Char → Key → Bool}
    (hc : ∀ r, compile r = .ok (search r)) {wd : WeightDecay} {g : GT} (hg : addDecayedWeights compile wd = .ok g)
    (u p : Params) (hu : ItemsOk u) (hn : NoEmptyItems u) (hs : SameShape u p) (s : g.State) :
    ∃ u', g.update u s (some p) = .ok (u', s) ∧ SameShape u u' ∧ ∀ path tu tp w, leafOf u path = some tu →
      leafOf p path = some tp → DecayIs search wd (join path) w →
      leafOf u' path = some (List.zipWith (fun x y => x + w * y) tu tp) := by
  have none_case : (wd = .none ∨ wd = .scalar 0 ∨ wd = .rules []) → ∃ u', g.update u s (some p) = .ok (u', s) ∧ SameShape u u' ∧
      ∀ path tu tp w, leafOf u path = some tu → leafOf p path = some tp → DecayIs search wd (join path) w →
        leafOf u' path = some (List.zipWith (fun x y => x + w * y) tu tp) := by
    intro h
    obtain ⟨g', h1, h2⟩ := C45_no_decay compile wd h
    rw [hg] at h1
    cases h1
    refine ⟨u, h2 u s (some p), .refl u, ?_⟩
    intro path tu tp w h3 h4 hw
    obtain ⟨t', h5, h6⟩ := hs.leaf path tu h3
    rw [h4] at h5
    cases h5
    have : w = 0 := by
      rcases h with rfl | rfl | rfl
      · exact hw
      · exact hw
      · rcases hw with ⟨_, _, _, e, _⟩ | ⟨_, e⟩
        · simp at e
        · exact e
    rw [h3, this, zipWith_zero_right tu tp h6]
  cases wd with
  | none => exact none_case (.inl rfl)
  | scalar x =>
    by_cases hx : x = 0
    · exact none_case (.inr (.inl (by rw [hx])))
    · obtain ⟨g', h1, h2⟩ := C45_scalar_decay compile x hx u p hu hn hs
      rw [hg] at h1
      cases h1
      obtain ⟨u', e1, e2, e3⟩ := h2 s
      refine ⟨u', e1, e2, ?_⟩
      rintro path tu tp w h3 h4 rfl
      exact e3 path tu tp h3 h4
  | rules l =>
    by_cases hl : l = []
    · exact none_case (.inr (.inr (by rw [hl])))
    · obtain ⟨g', h1, h2⟩ := C45_weight_decay compile search l (fun r _ => hc r.1) hl u p hu hn hs
      rw [hg] at h1
      cases h1
      obtain ⟨u', e1, e2, e3⟩ := h2 s
      exact ⟨u', e1, e2, fun path tu tp w h3 h4 hw => e3 path tu tp w h3 h4 hw⟩

theorem stage_freeze {compile : List Char → Except PyErr (Key → Bool)} {search : List Char → Key → Bool}
    (hc : ∀ r, compile r = .ok (search r)) {frozen trainable : Regex.Arg} {f : GT}
    (hf : freezeWeights compile frozen trainable = .ok f) :
    (∀ p, ItemsOk p → NoEmptyItems p → ∃ s, f.init p = .ok s) ∧
    ∀ u p, ItemsOk u → NoEmptyItems u → SameShape u p → ∀ s : f.State, ∃ u', f.update u s (some p) = .ok (u', s) ∧ SameShape u u' ∧
      ∀ path t, leafOf u path = some t →
        (FrozenIs search frozen trainable (join path) → leafOf u' path = some (t.map fun _ => 0)) ∧
        (¬ FrozenIs search frozen trainable (join path) → leafOf u' path = some t) := by
  have masked : ∀ (se : Key → Bool) st sf (u p : Params), ItemsOk u → NoEmptyItems u → SameShape u p →
      ∀ s : (maskedSetToZero se st sf).State, ∃ u', (maskedSetToZero se st sf).update u s (some p) = .ok (u', s) ∧ SameShape u u' ∧
        ∀ path t, leafOf u path = some t →
          leafOf u' path = some (if (if se (join path) then st else sf) = true then t.map (fun _ => 0) else t) := by
    intro se st sf u p hu hn hs s
    refine ⟨_, masked_ok se st sf u p hu hn hs, zeroed_shape _ u, ?_⟩
    intro path t h
    unfold zeroed
    rw [leafOf_map, h, Option.map_some]
  have minit : ∀ (se : Key → Bool) st sf p, ItemsOk p → NoEmptyItems p → ∃ s, (maskedSetToZero se st sf).init p = .ok s := by
    intro se st sf p hp hn
    refine ⟨(), ?_⟩
    simp only [maskedSetToZero, frozenFn_ok se st sf p hp hn]
    rfl
  rcases freezeWeights_cases hf with ⟨h1, h2, rfl⟩ | ⟨h1, h2, se, hse, rfl⟩ | ⟨h1, h2, se, hse, rfl⟩
  · refine ⟨fun p _ _ => ⟨(), rfl⟩, fun u p _ _ _ s => ⟨u, rfl, .refl u, ?_⟩⟩
    intro path t h
    refine ⟨?_, fun _ => h⟩
    rintro (⟨e, _⟩ | ⟨e, _⟩)
    · rw [h2] at e; cases e
    · rw [h1] at e; cases e
  · rw [hc] at hse
    cases hse
    refine ⟨minit _ _ _, fun u p hu hn hs s => ?_⟩
    obtain ⟨u', e1, e2, e3⟩ := masked _ false true u p hu hn hs s
    refine ⟨u', e1, e2, ?_⟩
    intro path t h
    rw [e3 path t h]
    unfold FrozenIs
    rw [h1, h2]
    cases search (patternText trainable) (join path) <;> simp
  · rw [hc] at hse
    cases hse
    refine ⟨minit _ _ _, fun u p hu hn hs s => ?_⟩
    obtain ⟨u', e1, e2, e3⟩ := masked _ true false u p hu hn hs s
    refine ⟨u', e1, e2, ?_⟩
    intro path t h
    rw [e3 path t h]
    unfold FrozenIs
    rw [h1, h2]
    cases search (patternText frozen) (join path) <;> simp

theorem init_scaling {compile : List Char → Except PyErr (Key → Bool)} {l : List (List Char × ℝ)} {g : GT}
    (h : gradientScaling compile l = .ok g) (p : Params) : ∃ s, g.init p = .ok s := by
  unfold gradientScaling at h
  split at h
  · cases h; exact ⟨(), rfl⟩
  · split at h
    · cases h
    · cases h; exact ⟨(), rfl⟩

theorem init_clipping {a b : Option ℝ} {g : GT} (h : gradientClipping a b = .ok g) (p : Params) : ∃ s, g.init p = .ok s := by
  unfold gradientClipping at h
  split at h <;> cases h <;> exact ⟨(), rfl⟩

theorem init_decay {compile : List Char → Except PyErr (Key → Bool)} {wd : WeightDecay} {g : GT}
    (h : addDecayedWeights compile wd = .ok g) (p : Params) : ∃ s, g.init p = .ok s := by
  unfold addDecayedWeights at h
  split at h
  · cases h; exact ⟨(), rfl⟩
  · split at h <;> cases h <;> exact ⟨(), rfl⟩
  · split at h
    · cases h; exact ⟨(), rfl⟩
    · split at h
      · cases h
      · cases h; exact ⟨(), rfl⟩

theorem train_append {opt : GT} (grads : List Params) (g : Params) (s : TrainState opt) :
    train s (grads ++ [g]) = (train s grads >>= fun s' => applyGradients s' g) := by
  induction grads generalizing s with
  | nil =>
    rw [List.nil_append, train, train]
    change (applyGradients s g >>= fun s' => Except.ok s') = applyGradients s g
    cases applyGradients s g <;> rfl
  | cons g' grads ih =>
    rw [List.cons_append, train, train]
    cases applyGradients s g' with
    | error e => rfl
    | ok s' => exact ih s'

/-- One update: the pieces of the chain one after the other. -/
theorem sgd_full_step {compile : List Char → Except PyErr (Key → Bool)} {search : List Char → Key → Bool}
    (hc : ∀ r, compile r = .ok (search r)) {c : Config} {μ : Option ℝ} {nesterov : Bool} (hb : c.base = .sgd μ nesterov)
    (hgn : ∀ m, c.clipGlobalNorm = some m → 0 < m) (hav : ∀ m, c.clipAbsolute = some m → 0 < m) {lr : Schedule.Sched}
    (hlr : Schedule.createLearningRateSchedule c.learningRate c.totalSteps = .ok lr) {opt : GT}
    (hopt : createOptimizer compile c = .ok opt) :
    ∃ R : opt.State → Nat → Params → Prop,
      (∀ p, ItemsOk p → NoEmptyItems p → ∃ s, opt.init p = .ok s ∧ R s 0 (itemsMap (fun t => t.map fun _ => 0) p)) ∧
      ∀ (k n : Nat) (p g m : Params) (s : opt.State), ItemsOk p → NoEmptyItems p → SameShape p g → SameShape p m → R s n m →
        ∃ p' m' s', applyGradients ⟨k, p, s⟩ g = .ok ⟨k + 1, p', s'⟩ ∧ R s' (n + 1) m' ∧ SameShape p p' ∧ SameShape p m' ∧
          SgdStep search c lr (μ.getD 0) nesterov n g p m p' m' := by
  obtain ⟨a1, a2, a3, a4, a5, f, _, _, _, _, _, h1, h2, h3, h4, h5, h6, rfl⟩ :=
    createOptimizer_ok (by rw [hb]; trivial) hopt
  rw [hb] at h3
  injection h3 with h3
  subst h3
  unfold learningRateGT at h5
  rw [hlr] at h5
  injection h5 with h5
  subst h5
  obtain ⟨R, hR0, hR⟩ := stage_momentum μ nesterov
  obtain ⟨hf0, hf⟩ := stage_freeze hc h6
  refine ⟨fun s n m => R s.2.2.1 m ∧ s.2.2.2.2.1 = n, ?_, ?_⟩
  · intro p hp hn
    obtain ⟨s1, e1⟩ := init_scaling h1 p
    obtain ⟨s2, e2⟩ := init_clipping h2 p
    obtain ⟨s3, e3, hs3⟩ := hR0 p
    obtain ⟨s4, e4⟩ := init_decay h4 p
    obtain ⟨s6, e6⟩ := hf0 p hp hn
    refine ⟨(s1, s2, s3, s4, (0 : ℕ), s6, ()), ?_, hs3, rfl⟩
    simp only [chain, GT.seq, e1, e2, e3, e4, e6, scaleByLearningRate, identity, bind, Except.bind, pure, Except.pure]
  · rintro k n p g m ⟨s1, s2, s3, s4, (s5 : ℕ), s6, s7⟩ hp hn hg hm ⟨hr, hsn⟩
    simp only at hr hsn
    subst hsn
    obtain ⟨u1, x1, y1, z1⟩ := stage_scaling hc h1 g (some p) (hg.ok hp) (hg.noEmpty hn) s1
    have o1 := hg.trans y1
    obtain ⟨u2, x2, y2, z2⟩ := stage_clipping h2 hgn hav u1 p (o1.ok hp) (o1.noEmpty hn) o1.symm s2
    have o2 := o1.trans y2
    obtain ⟨u3, s3', m', x3, hr', y3, y3', z3⟩ := hR u2 p s3 m (o2.ok hp) (o2.noEmpty hn) (o2.symm.trans hm) hr
    have o3 := o2.trans y3
    obtain ⟨u4, x4, y4, z4⟩ := stage_decay hc h4 u3 p (o3.ok hp) (o3.noEmpty hn) o3.symm s4
    have o4 := o3.trans y4
    have y5 : SameShape u4 (itemsMap (scaleT (-(lr s5))) u4) := SameShape.itemsMap _ (fun t => by simp [scaleT]) u4
    have o5 := o4.trans y5
    obtain ⟨u6, x6, y6, z6⟩ := hf (itemsMap (scaleT (-(lr s5))) u4) p (o5.ok hp) (o5.noEmpty hn) o5.symm s6
    have o6 := o5.trans y6
    obtain ⟨p', x7, y7, z7⟩ := dictMap2_zip addT (· + ·) (fun a b h => by unfold addT; rw [if_pos h]) p u6 hp o6
    refine ⟨p', m', (s1, s2, s3', s4, (s5 + 1 : ℕ), s6, s7), ?_, ⟨hr', rfl⟩, y7, o2.trans y3', ?_⟩
    · unfold applyGradients
      simp only [chain, GT.seq, x1, x2, x3, x4, scaleByLearningRate, x6, x7, identity, bind, Except.bind, pure, Except.pure]
    · refine ⟨u1, u2, y1, y1.trans y2, y7, hm.symm.trans (o2.trans y3'), z1, z2, ?_⟩
      intro path tu tm tp l1 l2 l3
      obtain ⟨tm', w1, w2, w3⟩ := z3 path tu tm l1 l2
      refine ⟨tm', _, w1, rfl, w2, ?_, ?_⟩
      · intro hfr
        obtain ⟨t5, q1, q2⟩ := o5.leaf path tp l3
        rw [z7 path tp _ l3 ((z6 path t5 q1).1 hfr)]
        congr 1
        apply List.ext_getElem
        · simp [q2]
        · intro i _ _
          simp
      · intro hfr w hw
        have q5 := congrArg (Option.map (scaleT (-(lr s5)))) (z4 path _ tp w w3 l3 hw)
        rw [Option.map_some, ← leafOf_map (fun _ => scaleT (-(lr s5))) u4, ← itemsMap_eq _ []] at q5
        rw [z7 path tp _ l3 ((z6 path _ q5).2 hfr)]
        obtain ⟨t3, q1, q2⟩ := o3.leaf path tp l3
        rw [w3] at q1
        injection q1 with q1
        congr 1
        rw [q1]
        apply List.ext_getElem
        · simp [scaleT, q2]
        · intro i _ _
          simp only [scaleT, List.getElem_zipWith, List.getElem_map]
          ring

/-- C88: SGD with momentum and any scaling, clipping, weight decay and freezing. Training with gradients of the shape of the
parameters never fails, the step counts the updates, and every update is, for every parameter: scale the gradient by the first
matching rule, clip, add to it the momentum, add the weight decay, subtract it times the learning rate of that step, unless the
parameter is frozen. -/
theorem C88_sgd (compile : List Char → Except PyErr (Key → Bool)) (search : List Char → Key → Bool)
    (hc : ∀ r, compile r = .ok (search r)) (c : Config) (μ : Option ℝ) (nesterov : Bool) (hb : c.base = .sgd μ nesterov)
    (hgn : ∀ m, c.clipGlobalNorm = some m → 0 < m) (hav : ∀ m, c.clipAbsolute = some m → 0 < m) (lr : Schedule.Sched)
    (hlr : Schedule.createLearningRateSchedule c.learningRate c.totalSteps = .ok lr) (opt : GT)
    (hopt : createOptimizer compile c = .ok opt) (p : Params) (hp : ItemsOk p) (hn : NoEmptyItems p) :
    ∃ os, opt.init p = .ok os ∧ ∀ grads : List Params, (∀ g ∈ grads, SameShape p g) →
      ∃ (s : TrainState opt) (m : Params), train ⟨0, p, os⟩ grads = .ok s ∧ s.step = grads.length ∧
        SameShape p s.params ∧ SameShape p m ∧ SgdRun search c lr (μ.getD 0) nesterov p grads s.params m := by
  obtain ⟨R, h0, hstep⟩ := sgd_full_step hc hb hgn hav hlr hopt
  obtain ⟨os, e0, r0⟩ := h0 p hp hn
  refine ⟨os, e0, ?_⟩
  have key : ∀ grads : List Params, (∀ g ∈ grads, SameShape p g) → ∃ (s : TrainState opt) (m : Params),
      train ⟨0, p, os⟩ grads = .ok s ∧ s.step = grads.length ∧ SameShape p s.params ∧ SameShape p m ∧
      R s.optState grads.length m ∧ SgdRun search c lr (μ.getD 0) nesterov p grads s.params m := by
    intro grads
    induction grads using List.reverseRecOn with
    | nil =>
      intro _
      have hz : SameShape p (itemsMap (fun t : Tensor => t.map fun _ => (0 : ℝ)) p) :=
        SameShape.itemsMap _ (fun t => by simp) p
      refine ⟨⟨0, p, os⟩, _, rfl, rfl, .refl p, hz, r0, .start _ hz ?_⟩
      intro path t h x hx
      rw [itemsMap_eq _ [], leafOf_map] at h
      obtain ⟨v, _, rfl⟩ := Option.map_eq_some_iff.1 h
      obtain ⟨_, _, rfl⟩ := List.mem_map.1 hx
      rfl
    | append_singleton gs g ih =>
      intro hg
      obtain ⟨⟨k, q, s⟩, m, e1, e2, e3, e4, e5, e6⟩ := ih (fun g' h => hg g' (by simp [h]))
      simp only at e2 e3 e5 e6
      obtain ⟨p', m', s', f1, f2, f3, f4, f5⟩ := hstep k gs.length q g m s (e3.ok hp) (e3.noEmpty hn)
        (e3.symm.trans (hg g (by simp))) (e3.symm.trans e4) e5
      refine ⟨⟨k + 1, p', s'⟩, m', ?_, by simp [e2], e3.trans f3, e3.trans f4, by simpa using f2, .step _ _ _ _ _ _ e6 f5⟩
      rw [train_append, e1]
      exact f1
  intro grads hg
  obtain ⟨s, m, e1, e2, e3, e4, _, e6⟩ := key grads hg
  exact ⟨s, m, e1, e2, e3, e4, e6⟩

example (compile : List Char → Except PyErr (Key → Bool)) (search : List Char → Key → Bool)
    (hc : ∀ r, compile r = .ok (search r)) :
    exampleConfig.base = .sgd (some 0.9) true ∧ (∀ m, exampleConfig.clipGlobalNorm = some m → 0 < m) ∧
      (∀ m, exampleConfig.clipAbsolute = some m → 0 < m) ∧
      (∃ lr, Schedule.createLearningRateSchedule exampleConfig.learningRate exampleConfig.totalSteps = .ok lr) ∧
      (∃ opt, createOptimizer compile exampleConfig = .ok opt) ∧ ItemsOk exampleParams ∧ NoEmptyItems exampleParams := by
  refine ⟨rfl, ?_, ?_, ⟨_, rfl⟩, ?_, exampleParams_ok⟩
  · intro m h
    cases h
    norm_num
  · intro m h
    cases h
  · unfold createOptimizer gradientScaling gradientClipping addDecayedWeights learningRateGT freezeWeights
    norm_num [exampleConfig, compileRules, hc, truthy, baseGT, Schedule.createLearningRateSchedule, falsy, bind, Except.bind,
      pure, Except.pure]

end Verif.Optimizer
