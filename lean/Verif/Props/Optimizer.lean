import Verif.Proofs.Optimizer
import Verif.Spec.Rules
import Verif.Proofs.Regex
import Mathlib.Tactic.Linarith
import Mathlib.Tactic.FieldSimp
import Mathlib.Tactic.NormNum
import Mathlib.Algebra.Order.BigOperators.Group.List

/-! C44 frozen parameters, C45 weight decay and gradient scaling, C46 gradient clipping. -/

namespace Verif.Optimizer

open Verif FlatDict Partitioning MeshSpec TreeSpec RulesSpec

/-! ### C45 -/

theorem firstMatch_spec (search : List Char → Key → Bool) (d : ℝ) (l : List (List Char × ℝ)) (key : Key) :
    FirstRule search l d key (firstMatch d (l.map fun r => (search r.1, r.2)) key) := by
  induction l with
  | nil => exact Or.inr ⟨by simp, rfl⟩
  | cons r l ih =>
    obtain ⟨r, v⟩ := r
    simp only [List.map_cons, firstMatch]
    by_cases h : search r key = true
    · rw [if_pos h]
      exact Or.inl ⟨[], r, l, rfl, h, by simp⟩
    · rw [if_neg h]
      have hf : search r key = false := by simpa using h
      rcases ih with ⟨pre, q, post, h1, h2, h3⟩ | ⟨h1, h2⟩
      · refine Or.inl ⟨(r, v) :: pre, q, post, by rw [List.cons_append, ← h1], h2, ?_⟩
        intro x hx
        rcases List.mem_cons.1 hx with rfl | hx
        · exact hf
        · exact h3 x hx
      · refine Or.inr ⟨?_, h2⟩
        intro x hx
        rcases List.mem_cons.1 hx with rfl | hx
        · exact hf
        · exact h1 x hx

theorem firstRule_unique {search : List Char → Key → Bool} {l : List (List Char × ℝ)} {d : ℝ} {key : Key} {v w : ℝ}
    (h : FirstRule search l d key v) (h' : FirstRule search l d key w) : v = w := by
  have aux : ∀ (l : List (List Char × ℝ)) v, FirstRule search l d key v →
      v = firstMatch d (l.map fun r => (search r.1, r.2)) key := by
    intro l
    induction l with
    | nil =>
      rintro v (⟨pre, q, post, h1, _⟩ | ⟨_, h⟩)
      · simp at h1
      · exact h
    | cons r l ih =>
      obtain ⟨r, x⟩ := r
      rintro v (⟨pre, q, post, h1, h2, h3⟩ | ⟨h1, h2⟩)
      · simp only [List.map_cons, firstMatch]
        cases pre with
        | nil =>
          rw [List.nil_append] at h1
          injection h1 with h1 h4
          injection h1 with h1 h5
          subst h1
          rw [if_pos h2, h5]
        | cons y pre =>
          rw [List.cons_append] at h1
          injection h1 with h1 h4
          have := h3 y (by simp)
          rw [← h1] at this
          simp only at this
          rw [if_neg (by simp [this])]
          exact ih v (Or.inl ⟨pre, q, post, h4, h2, fun q hq => h3 q (by simp [hq])⟩)
      · simp only [List.map_cons, firstMatch]
        rw [if_neg (by simp [h1 (r, x) (by simp)])]
        exact ih v (Or.inr ⟨fun q hq => h1 q (by simp [hq]), h2⟩)
  rw [aux l v h, aux l w h']

theorem zipWith_scale (d : ℝ) (a b : Tensor) :
    List.zipWith (· + ·) a (scaleT d b) = List.zipWith (fun x y => x + d * y) a b := by
  unfold scaleT
  rw [List.zipWith_map_right]

theorem decayGT_spec (decay : Key → ℝ) (u p : Params) (hu : ItemsOk u) (hn : NoEmptyItems u) (hs : SameShape u p)
    (s : (decayGT decay).State) :
    ∃ u', (decayGT decay).update u s (some p) = .ok (u', s) ∧
      SameShape u u' ∧ ∀ path tu tp, leafOf u path = some tu → leafOf p path = some tp →
        leafOf u' path = some (List.zipWith (fun x y => x + decay (join path) * y) tu tp) := by
  have hpres := preserves_decay decay u p s
  obtain ⟨x, rfl, rfl⟩ := exists_pair_items _ [] u p hs
  have hx := (mapItems_ok_iff _ _ _).1 hu
  have hxn := (noEmptyItems_map _ _ _).1 hn
  have h1 : (decayGT decay).update
      (mapItems (fun _ x => x.1.1) [] x) s (some (mapItems (fun _ x => x.1.2) [] x)) =
        .ok (mapItems (fun q x => List.zipWith (· + ·) x.1.1 (scaleT (decay (join q)) x.1.2)) [] x, s) := by
    change (decayUpdate _ _ _ >>= _) = _
    rw [decayUpdate_ok _ x hx hxn]
    rfl
  refine ⟨_, h1, hpres _ _ hu hn hs h1, ?_⟩
  intro path tu tp hlu hlp
  rw [leafOf_map] at hlu hlp
  obtain ⟨v, hv, rfl⟩ := Option.map_eq_some_iff.1 hlu
  obtain ⟨w, hw, rfl⟩ := Option.map_eq_some_iff.1 hlp
  rw [hv] at hw
  injection hw with hw
  subst hw
  rw [leafOf_map, hv, Option.map_some, zipWith_scale]

/-- C45: with rules, every leaf of the updates gets its own parameter times the value of the first rule that matches its
name; the structure of the updates stays the same. -/
theorem C45_weight_decay (compile : List Char → Except PyErr (Key → Bool)) (search : List Char → Key → Bool)
    (rules : List (List Char × ℝ)) (hc : ∀ r ∈ rules, compile r.1 = .ok (search r.1)) (hr : rules ≠ [])
    (u p : Params) (hu : ItemsOk u) (hn : NoEmptyItems u) (hs : SameShape u p) :
    ∃ g, addDecayedWeights compile (.rules rules) = .ok g ∧ ∀ s, ∃ u', g.update u s (some p) = .ok (u', s) ∧
      SameShape u u' ∧ ∀ path tu tp d, leafOf u path = some tu → leafOf p path = some tp →
        FirstRule search rules 0 (join path) d →
        leafOf u' path = some (List.zipWith (fun x y => x + d * y) tu tp) := by
  refine ⟨decayGT (firstMatch 0 (rules.map fun r => (search r.1, r.2))), ?_, ?_⟩
  · unfold addDecayedWeights
    simp only []
    rw [if_neg hr, compileRules_ok compile search rules hc]
  · intro s
    obtain ⟨u', h1, h2, h3⟩ := decayGT_spec (firstMatch 0 (rules.map fun r => (search r.1, r.2))) u p hu hn hs s
    refine ⟨u', h1, h2, ?_⟩
    intro path tu tp d hlu hlp hd
    rw [h3 path tu tp hlu hlp, firstRule_unique (firstMatch_spec search 0 rules (join path)) hd]

/-- C45: a number as weight decay applies to every parameter. -/
theorem C45_scalar_decay (compile : List Char → Except PyErr (Key → Bool)) (d : ℝ) (hd : d ≠ 0)
    (u p : Params) (hu : ItemsOk u) (hn : NoEmptyItems u) (hs : SameShape u p) :
    ∃ g, addDecayedWeights compile (.scalar d) = .ok g ∧ ∀ s, ∃ u', g.update u s (some p) = .ok (u', s) ∧
      SameShape u u' ∧ ∀ path tu tp, leafOf u path = some tu → leafOf p path = some tp →
        leafOf u' path = some (List.zipWith (fun x y => x + d * y) tu tp) := by
  refine ⟨decayGT fun _ => d, ?_, ?_⟩
  · unfold addDecayedWeights
    simp only []
    rw [if_neg hd]
  · intro s
    exact decayGT_spec (fun _ => d) u p hu hn hs s

/-- C45: without weight decay, or with zero or an empty list of rules, the updates do not change, for any updates and even
without params; with weight decay, params are required. -/
theorem C45_no_decay (compile : List Char → Except PyErr (Key → Bool)) (wd : WeightDecay)
    (hwd : wd = .none ∨ wd = .scalar 0 ∨ wd = .rules []) :
    ∃ g, addDecayedWeights compile wd = .ok g ∧ ∀ u s p, g.update u s p = .ok (u, s) := by
  refine ⟨identity, ?_, fun u s p => rfl⟩
  rcases hwd with rfl | rfl | rfl <;> simp [addDecayedWeights]

/-- C45: params are required when there is a weight decay. -/
theorem C45_params_required (compile : List Char → Except PyErr (Key → Bool)) (d : ℝ) (hd : d ≠ 0) :
    ∃ g, addDecayedWeights compile (.scalar d) = .ok g ∧ ∀ u s, g.update u s none = .error .valueError := by
  refine ⟨decayGT fun _ => d, ?_, fun u s => rfl⟩
  unfold addDecayedWeights
  simp only []
  rw [if_neg hd]

/-- C45: every leaf is scaled by the value of the first rule that matches its name, and by one if none does. -/
theorem C45_gradient_scaling (compile : List Char → Except PyErr (Key → Bool)) (search : List Char → Key → Bool)
    (rules : List (List Char × ℝ)) (hc : ∀ r ∈ rules, compile r.1 = .ok (search r.1))
    (u : Params) (p : Option Params) (hu : ItemsOk u) (hn : NoEmptyItems u) :
    ∃ g, gradientScaling compile rules = .ok g ∧ ∀ s, ∃ u', g.update u s p = .ok (u', s) ∧
      SameShape u u' ∧ ∀ path tu c, leafOf u path = some tu → FirstRule search rules 1 (join path) c →
        leafOf u' path = some (tu.map (c * ·)) := by
  unfold gradientScaling
  by_cases hr : rules = []
  · subst hr
    refine ⟨identity, rfl, fun s => ⟨u, rfl, .refl u, ?_⟩⟩
    intro path tu c h1 h2
    rcases h2 with ⟨pre, q, post, h2, _⟩ | ⟨_, h2⟩
    · simp at h2
    · subst h2
      simpa using h1
  · refine ⟨scalingGT (firstMatch 1 (rules.map fun r => (search r.1, r.2))), ?_, ?_⟩
    · rw [if_neg (by simpa using hr), compileRules_ok compile search rules hc]
    · intro s
      have h1 : (scalingGT (firstMatch 1 (rules.map fun r => (search r.1, r.2)))).update u s p =
          .ok (mapItems (fun q t => scaleT (firstMatch 1 (rules.map fun r => (search r.1, r.2)) (join q)) t) [] u, s) := by
        change (scalingUpdate _ _ >>= _) = _
        rw [scalingUpdate_ok _ u hu hn]
        rfl
      refine ⟨_, h1, SameShape.map _ (fun q t => by simp [scaleT]) u, ?_⟩
      intro path tu c hlu hd
      rw [leafOf_map, hlu, Option.map_some, firstRule_unique (firstMatch_spec search 1 rules (join path)) hd]
      rfl

/-- The parameters of the examples: `{head: {kernel: [1, 2], bias: [3]}, body: [4]}`. -/
def exampleParams : Params :=
  [("head".toList, .node [("kernel".toList, .leaf [1, 2]), ("bias".toList, .leaf [3])]), ("body".toList, .leaf [4])]

theorem exampleParams_ok : ItemsOk exampleParams ∧ NoEmptyItems exampleParams := by
  constructor
  · simp only [exampleParams, ItemsOk, Tree.Ok, PyDict.keys]
    decide
  · simp [exampleParams, NoEmptyItems, NoEmpty]

example : SameShape exampleParams exampleParams ∧
    leafOf exampleParams ["head".toList, "kernel".toList] = some [1, 2] ∧
    join ["head".toList, "kernel".toList] = "head/kernel".toList ∧
    FirstRule (fun p name => p == name) [("head/bias".toList, 0.5), ("head/kernel".toList, (0.1 : ℝ))] 0
      "head/kernel".toList 0.1 := by
  refine ⟨.refl _, by simp [leafOf, leafAt, lookup, exampleParams], by decide, Or.inl ⟨[("head/bias".toList, 0.5)], _, [], rfl, by decide, ?_⟩⟩
  intro q hq
  simp only [List.mem_singleton] at hq
  subst hq
  decide

/-- C45: the updates and the params are combined by position.  When the dicts have the same keys in different orders, each
parameter is decayed by the value of another one. -/
theorem C45_order_counterexample :
    decayUpdate (fun _ => 1) [("a".toList, .leaf [0]), ("b".toList, .leaf [0])]
      (some [("b".toList, .leaf [10]), ("a".toList, .leaf [20])]) =
      .ok [("a".toList, .leaf [10]), ("b".toList, .leaf [20])] := by
  simp [decayUpdate, decayLoop, flattenLeaves, flattenItems, flattenAt, leafEntry, join, PyDict.ofItems, PyDict.set,
    addT, scaleT, rebuild, unflatten, insertAll, FlatDict.insert, split, Flat.toTree, fromStateItems, fromStateDict,
    PyDict.get?, bind, Except.bind, pure, Except.pure]

/-- C45, C44: trees that contain an empty dict are rejected by weight decay, gradient scaling and freezing, because empty
dicts are lost when the tree is flattened. -/
theorem C45_empty_dict_counterexample :
    scalingUpdate (fun _ => 1) [("a".toList, .node []), ("b".toList, .leaf [0])] = .error .valueError ∧
    decayUpdate (fun _ => 1) [("a".toList, .node []), ("b".toList, .leaf [0])]
      (some [("a".toList, .node []), ("b".toList, .leaf [0])]) = .error .valueError ∧
    frozenFn (fun _ => true) true false [("a".toList, .node []), ("b".toList, .leaf [0])] = .error .valueError := by
  exact ⟨rfl, rfl, rfl⟩

/-! ### C44 -/

theorem zeroed_shape (fr : Key → Bool) (u : Params) : SameShape u (zeroed fr u) :=
  SameShape.map _ (fun q t => by split <;> simp) u

theorem zipWith_zero (a b : Tensor) (h : a.length = b.length) :
    List.zipWith (· + ·) a (b.map fun _ => 0) = a := by
  induction a generalizing b with
  | nil => simp
  | cons x a ih =>
    cases b with
    | nil => simp at h
    | cons y b =>
      simp only [List.map_cons, List.zipWith_cons_cons, add_zero]
      rw [ih b (by simpa using h)]

/-- Adding updates whose frozen leaves are zero. -/
theorem apply_zeroed (fr : Key → Bool) (p u : Params) (hp : ItemsOk p) (hs : SameShape p u) :
    ∃ p', dictMap2 addT p (zeroed fr u) = .ok p' ∧ SameShape p p' ∧
      ∀ path tp tu, leafOf p path = some tp → leafOf u path = some tu →
        leafOf p' path = some (if fr (join path) then tp else List.zipWith (· + ·) tp tu) := by
  obtain ⟨x, rfl, rfl⟩ := exists_pair_items _ [] p u hs
  have hx := (mapItems_ok_iff _ _ _).1 hp
  unfold zeroed
  rw [mapItems_comp]
  have key := dictMap2_map addT (fun _ x => x.1.1)
    (fun q x => if fr (join q) = true then List.map (fun _ => (0 : ℝ)) x.1.2 else x.1.2)
    (fun q (x : {ab : Tensor × Tensor // ab.1.length = ab.2.length}) =>
      if fr (join q) = true then x.1.1 else List.zipWith (· + ·) x.1.1 x.1.2) (by
      intro q x
      unfold addT
      split
      · rw [if_pos (by simp [x.2]), zipWith_zero _ _ x.2]
      · rw [if_pos x.2]) [] x hx
  refine ⟨_, key, ?_, ?_⟩
  · refine pair_rel_items (fun a b : Tensor => a.length = b.length) _ _ [] x (fun q x => ?_)
    split
    · rfl
    · simp [x.2]
  · intro path tp tu h1 h2
    rw [leafOf_map] at h1 h2
    obtain ⟨v, hv, rfl⟩ := Option.map_eq_some_iff.1 h1
    obtain ⟨w, hw, rfl⟩ := Option.map_eq_some_iff.1 h2
    rw [hv] at hw
    injection hw with hw
    subst hw
    rw [leafOf_map, hv, Option.map_some]

/-- What `freeze_weights` returns. -/
theorem freezeWeights_cases {compile : List Char → Except PyErr (Key → Bool)} {frozen trainable : Regex.Arg} {g : GT}
    (h : freezeWeights compile frozen trainable = .ok g) :
    (falsy trainable = true ∧ falsy frozen = true ∧ g = identity) ∨
    (falsy trainable = false ∧ falsy frozen = true ∧
      ∃ search, compile (patternText trainable) = .ok search ∧ g = maskedSetToZero search false true) ∨
    (falsy trainable = true ∧ falsy frozen = false ∧
      ∃ search, compile (patternText frozen) = .ok search ∧ g = maskedSetToZero search true false) := by
  unfold freezeWeights at h
  cases ht : falsy trainable <;> cases hf : falsy frozen <;> simp only [ht, hf] at h
  · simp at h
  · simp only [Bool.false_and, Bool.false_eq_true, if_false, Bool.not_false, Bool.and_self, if_true] at h
    cases hc : compile (patternText trainable) with
    | error e => rw [hc] at h; cases h
    | ok search =>
      rw [hc] at h
      injection h with h
      exact Or.inr (Or.inl ⟨rfl, rfl, search, rfl, h.symm⟩)
  · simp only [Bool.and_false, Bool.false_eq_true, if_false, Bool.not_true, Bool.not_false, Bool.and_self, if_true] at h
    cases hc : compile (patternText frozen) with
    | error e => rw [hc] at h; cases h
    | ok search =>
      rw [hc] at h
      injection h with h
      exact Or.inr (Or.inr ⟨rfl, rfl, search, rfl, h.symm⟩)
  · simp only [Bool.and_self, if_true] at h
    injection h with h
    exact Or.inl ⟨rfl, rfl, h.symm⟩

theorem step_frozen {a1 a2 a3 a4 a5 : GT} (h1 : Preserves a1) (h2 : Preserves a2) (h3 : Preserves a3)
    (h4 : Preserves a4) (h5 : Preserves a5) (search : Key → Bool) (st sf : Bool)
    (s s' : TrainState (chain [a1, a2, a3, a4, a5, maskedSetToZero search st sf])) (grads : Params)
    (hp : ItemsOk s.params) (hn : NoEmptyItems s.params) (hg : SameShape s.params grads)
    (h : applyGradients s grads = .ok s') :
    SameShape s.params s'.params ∧
      ∀ path t, (if search (join path) then st else sf) = true → leafOf s.params path = some t →
        leafOf s'.params path = some t := by
  unfold applyGradients at h
  obtain ⟨⟨u, os⟩, e1, h⟩ := ebind h
  obtain ⟨p', e2, h⟩ := ebind h
  injection h with h
  subst h
  obtain ⟨v, t, q1, q2, _, _⟩ := chain_update h1 h2 h3 h4 h5 (hg.ok hp) (hg.noEmpty hn) hg.symm e1
  have hv := hg.trans q1
  have hm := masked_ok search st sf v s.params (hv.ok hp) (hv.noEmpty hn) hv.symm
  have q2' := q2.symm.trans hm
  injection q2' with q2'
  injection q2' with q2' _
  subst q2'
  obtain ⟨p'', r1, r2, r3⟩ := apply_zeroed (fun key => if search key then st else sf) s.params v hp hv
  rw [r1] at e2
  injection e2 with e2
  subst e2
  refine ⟨r2, ?_⟩
  intro path tp hf hl
  -- the updates have a leaf there too
  have : ∃ tu, leafOf v path = some tu := by
    have hv' : SameShape s.params v := hv
    obtain ⟨x, ex1, ex2⟩ := exists_pair_items _ [] s.params v hv'
    rw [ex1, leafOf_map] at hl
    obtain ⟨y, hy, _⟩ := Option.map_eq_some_iff.1 hl
    exact ⟨_, by rw [ex2, leafOf_map, hy, Option.map_some]⟩
  obtain ⟨tu, htu⟩ := this
  have := r3 path tp tu hl htu
  rw [if_pos hf] at this
  exact this

theorem train_frozen {a1 a2 a3 a4 a5 : GT} (h1 : Preserves a1) (h2 : Preserves a2) (h3 : Preserves a3)
    (h4 : Preserves a4) (h5 : Preserves a5) (search : Key → Bool) (st sf : Bool) (grads : List Params) :
    ∀ (s s' : TrainState (chain [a1, a2, a3, a4, a5, maskedSetToZero search st sf])),
    ItemsOk s.params → NoEmptyItems s.params → (∀ g ∈ grads, SameShape s.params g) →
    train s grads = .ok s' →
      ∀ path t, (if search (join path) then st else sf) = true → leafOf s.params path = some t →
        leafOf s'.params path = some t := by
  induction grads with
  | nil =>
    intro s s' _ _ _ h path t _ hl
    injection h with h
    subst h
    exact hl
  | cons g grads ih =>
    intro s s' hp hn hg h path t hf hl
    obtain ⟨s1, e1, h⟩ := ebind h
    obtain ⟨q1, q2⟩ := step_frozen h1 h2 h3 h4 h5 search st sf s s1 g hp hn (hg g (by simp)) e1
    exact ih s1 s' (q1.ok hp) (q1.noEmpty hn) (fun g' hg' => q1.symm.trans (hg g' (by simp [hg']))) h path t hf
      (q2 path t hf hl)

/-- C44: whatever the base optimizer, weight decay, clipping, scaling, schedule, optimizer state and gradients, after any
number of updates a parameter whose name matches the frozen pattern has the value it started with.  When `trainable`
patterns are given instead, this holds for the parameters whose name does not match. -/
theorem C44_frozen (compile : List Char → Except PyErr (Key → Bool)) (c : Config) (opt : GT) (hb : c.base.Good)
    (hopt : createOptimizer compile c = .ok opt) (search : Key → Bool) (pattern : Regex.Arg)
    (hcomp : compile (patternText pattern) = .ok search) (frozenWhen : Bool)
    (hpat : (frozenWhen = true ∧ c.frozenPattern = pattern ∧ c.trainablePattern = .none) ∨
      (frozenWhen = false ∧ c.trainablePattern = pattern ∧ c.frozenPattern = .none))
    (htrue : pattern ≠ .none ∧ pattern ≠ .str [] ∧ pattern ≠ .list [])
    (s s' : TrainState opt) (grads : List Params) (hp : ItemsOk s.params) (hn : NoEmptyItems s.params)
    (hg : ∀ g ∈ grads, SameShape s.params g) (h : train s grads = .ok s') :
    ∀ path t, search (join path) = frozenWhen → leafOf s.params path = some t → leafOf s'.params path = some t := by
  obtain ⟨a1, a2, a3, a4, a5, f, h1, h2, h3, h4, h5, _, _, _, _, _, hf, rfl⟩ := createOptimizer_ok hb hopt
  have hfalsy : falsy pattern = false := by
    cases pattern with
    | none => exact absurd rfl htrue.1
    | str x =>
      cases x with
      | nil => exact absurd rfl htrue.2.1
      | cons _ _ => rfl
    | list x =>
      cases x with
      | nil => exact absurd rfl htrue.2.2
      | cons _ _ => rfl
  intro path t hs hl
  rcases hpat with ⟨rfl, e1, e2⟩ | ⟨rfl, e1, e2⟩
  · rw [e1, e2] at hf
    rcases freezeWeights_cases hf with ⟨_, q, _⟩ | ⟨q, _⟩ | ⟨_, _, se, hse, rfl⟩
    · rw [hfalsy] at q; cases q
    · cases q
    · rw [hcomp] at hse
      injection hse with hse
      subst hse
      exact train_frozen h1 h2 h3 h4 h5 search true false grads s s' hp hn hg h path t (by rw [hs]; rfl) hl
  · rw [e1, e2] at hf
    rcases freezeWeights_cases hf with ⟨q, _⟩ | ⟨_, _, se, hse, rfl⟩ | ⟨_, q, _⟩
    · rw [hfalsy] at q; cases q
    · rw [hcomp] at hse
      injection hse with hse
      subst hse
      exact train_frozen h1 h2 h3 h4 h5 search false true grads s s' hp hn hg h path t (by rw [hs]; rfl) hl
    · cases q

/-- C44: the names that a list of patterns freezes are those in which at least one of the patterns is found. -/
theorem C44_pattern_list (compile : List Char → Except PyErr (Key → Bool))
    (hc : ∀ text t, Regex.compile text = .ok t → ∃ f, compile text = .ok f ∧ ∀ key, f key = true ↔ Regex.Search t key)
    (l : List (List Char)) (ts : List Regex.Re) (hne : l ≠ [])
    (h : List.Forall₂ (fun r t => Regex.compile r = .ok t) l ts) :
    ∃ search, compile (patternText (.list l)) = .ok search ∧
      ∀ name, search name = true ↔ ∃ t ∈ ts, Regex.Search t name := by
  obtain ⟨f, hf, hs⟩ := hc _ _ (Regex.compile_joinGroups l ts hne h)
  refine ⟨f, hf, fun name => ?_⟩
  rw [hs]
  have hts : ts ≠ [] := by
    rintro rfl
    cases h
    exact hne rfl
  unfold Regex.Search
  constructor
  · rintro ⟨i, j, hm⟩
    obtain ⟨t, ht, hm⟩ := (Regex.m_joinTree ts hts).1 hm
    exact ⟨t, ht, i, j, hm⟩
  · rintro ⟨t, ht, i, j, hm⟩
    exact ⟨i, j, (Regex.m_joinTree ts hts).2 ⟨t, ht, hm⟩⟩

/-- A chain that ends with `f`, compared with the chain that ends with the identity. -/
theorem chain_extends (f : GT) (body : List GT) :
    ∃ R : (chain (body ++ [f])).State → (chain (body ++ [identity])).State → Prop,
      (∀ p s0, (∃ t, f.init p = .ok t) → (chain (body ++ [identity])).init p = .ok s0 →
        ∃ s, (chain (body ++ [f])).init p = .ok s ∧ R s s0) ∧
      ∀ u s s0 v s0' p, R s s0 → (chain (body ++ [identity])).update u s0 p = .ok (v, s0') →
        ∀ w, (∀ st, f.update v st p = .ok (w, st)) →
          ∃ s', (chain (body ++ [f])).update u s p = .ok (w, s') ∧ R s' s0' := by
  induction body with
  | nil =>
    refine ⟨fun _ _ => True, ?_, ?_⟩
    · rintro p s0 ⟨t, ht⟩ _
      refine ⟨(t, ()), ?_, trivial⟩
      simp only [List.nil_append, chain, GT.seq, ht]
      rfl
    · intro u s s0 v s0' p _ h w hw
      refine ⟨(s.1, ()), ?_, trivial⟩
      injection h with h
      injection h with h _
      subst h
      have := hw s.1
      simp only [List.nil_append, chain, GT.seq, this]
      rfl
  | cons a body ih =>
    obtain ⟨R, h1, h2⟩ := ih
    refine ⟨fun s s0 => s.1 = s0.1 ∧ R s.2 s0.2, ?_, ?_⟩
    · intro p s0 hf h
      obtain ⟨x, e1, h⟩ := ebind h
      obtain ⟨y, e2, h⟩ := ebind h
      injection h with h
      subst h
      obtain ⟨z, e3, hR⟩ := h1 p y hf e2
      refine ⟨(x, z), ?_, rfl, hR⟩
      change (a.init p >>= _) = _
      rw [e1]
      change ((chain (body ++ [f])).init p >>= _) = _
      rw [e3]
      rfl
    · intro u s s0 v s0' p hR h w hw
      obtain ⟨⟨x, t⟩, e1, h⟩ := ebind h
      obtain ⟨⟨y, t'⟩, e2, h⟩ := ebind h
      injection h with h
      injection h with h h'
      subst h
      subst h'
      obtain ⟨s', e3, hR'⟩ := h2 x s.2 s0.2 _ t' p hR.2 e2 w hw
      refine ⟨(t, s'), ?_, rfl, hR'⟩
      change (a.update u s.1 p >>= _) = _
      rw [hR.1, e1]
      change ((chain (body ++ [f])).update x s.2 p >>= _) = _
      rw [e3]
      rfl

/-- C44: the optimizer with frozen parameters and the one without compute the same updates and states from related
states; only the updates of the frozen parameters are replaced by zeros.  Initial states are related. -/
theorem C44_others_unchanged (compile : List Char → Except PyErr (Key → Bool)) (c : Config) (opt opt0 : GT)
    (hb : c.base.Good) (search : Key → Bool) (hcomp : compile (patternText c.frozenPattern) = .ok search)
    (hfp : falsy c.frozenPattern = false) (htp : c.trainablePattern = .none)
    (hopt : createOptimizer compile c = .ok opt)
    (hopt0 : createOptimizer compile { c with frozenPattern := .none } = .ok opt0) :
    ∃ Related : opt.State → opt0.State → Prop,
      (∀ p s0, ItemsOk p → NoEmptyItems p → opt0.init p = .ok s0 → ∃ s, opt.init p = .ok s ∧ Related s s0) ∧
      ∀ p u s s0 u0 s0', ItemsOk u → NoEmptyItems u → SameShape u p → Related s s0 →
        opt0.update u s0 (some p) = .ok (u0, s0') →
        ∃ u' s', opt.update u s (some p) = .ok (u', s') ∧ Related s' s0' ∧
          ∀ path t, leafOf u0 path = some t →
            leafOf u' path = some (if search (join path) then t.map (fun _ => 0) else t) := by
  obtain ⟨a1, a2, a3, a4, a5, f, h1, h2, h3, h4, h5, c1, c2, c3, c4, c5, hf, rfl⟩ := createOptimizer_ok hb hopt
  obtain ⟨b1, b2, b3, b4, b5, f0, _, _, _, _, _, d1, d2, d3, d4, d5, hf0, rfl⟩ := createOptimizer_ok (by exact hb) hopt0
  simp only at d1 d2 d3 d4 d5 hf0
  rw [c1] at d1; injection d1 with d1; subst d1
  rw [c2] at d2; injection d2 with d2; subst d2
  rw [c3] at d3; injection d3 with d3; subst d3
  rw [c4] at d4; injection d4 with d4; subst d4
  rw [c5] at d5; injection d5 with d5; subst d5
  have hf0' : f0 = identity := by
    rw [htp] at hf0
    rcases freezeWeights_cases hf0 with ⟨_, _, e⟩ | ⟨q, _⟩ | ⟨_, q, _⟩
    · exact e
    · cases q
    · cases q
  subst hf0'
  have hf' : f = maskedSetToZero search true false := by
    rw [htp] at hf
    rcases freezeWeights_cases hf with ⟨_, q, _⟩ | ⟨q, _⟩ | ⟨_, _, se, hse, e⟩
    · rw [hfp] at q; cases q
    · cases q
    · rw [hcomp] at hse
      injection hse with hse
      subst hse
      exact e
  subst hf'
  obtain ⟨R, r1, r2⟩ := chain_extends (maskedSetToZero search true false) [a1, a2, a3, a4, a5]
  refine ⟨R, ?_, ?_⟩
  · intro p s0 hp hn h
    refine r1 p s0 ⟨(), ?_⟩ h
    simp only [maskedSetToZero, frozenFn_ok search true false p hp hn]
    rfl
  · intro p u s s0 u0 s0' hu hn hs hrel h
    obtain ⟨v, t, hv, q2, _, _⟩ := chain_update h1 h2 h3 h4 h5 hu hn hs h
    injection q2 with q2
    injection q2 with q2 _
    subst q2
    have hm := masked_ok search true false v p (hv.ok hu) (hv.noEmpty hn) (hv.symm.trans hs)
    have hz : (fun key => if search key then true else false) = search := by
      funext key; cases search key <;> rfl
    rw [hz] at hm
    obtain ⟨s', e1, e2⟩ := r2 u s s0 v s0' p hrel h (zeroed search v) (fun st => hm)
    refine ⟨zeroed search v, s', e1, e2, ?_⟩
    intro path tt hl
    unfold zeroed
    rw [leafOf_map, hl, Option.map_some]

/-- C44: both patterns cannot be given; with none (or empty ones) nothing is frozen: an empty list of trainable patterns
trains everything. -/
theorem C44_arguments (compile : List Char → Except PyErr (Key → Bool)) (a b : Regex.Arg) :
    (falsy a = false → falsy b = false → freezeWeights compile a b = .error .valueError) ∧
    (falsy a = true → falsy b = true → freezeWeights compile a b = .ok identity) ∧
    falsy (.list []) = true ∧ falsy (.str []) = true ∧ falsy .none = true := by
  refine ⟨fun h1 h2 => ?_, fun h1 h2 => ?_, rfl, rfl, rfl⟩
  · simp [freezeWeights, h1, h2]
  · simp [freezeWeights, h1, h2]

/-- A configuration with SGD, momentum, weight decay, clipping and a frozen head. -/
noncomputable def exampleConfig : Config where
  base := .sgd (some 0.9) true
  totalSteps := 100
  learningRate := .linear 0.1 0 10 none
  clipGlobalNorm := some 1
  clipAbsolute := none
  weightDecay := .scalar 0.01
  frozenPattern := .list ["^head".toList]
  trainablePattern := .none
  gradientScale := [("body".toList, 2)]

example (compile : List Char → Except PyErr (Key → Bool)) (search : List Char → Key → Bool)
    (hc : ∀ r, compile r = .ok (search r)) :
    exampleConfig.base.Good ∧ (∃ opt, createOptimizer compile exampleConfig = .ok opt) ∧
      falsy exampleConfig.frozenPattern = false := by
  refine ⟨trivial, ?_, rfl⟩
  unfold createOptimizer gradientScaling gradientClipping addDecayedWeights learningRateGT freezeWeights
  norm_num [exampleConfig, compileRules, hc, truthy, baseGT, Schedule.createLearningRateSchedule, falsy, bind, Except.bind,
    pure, Except.pure]

/-! ### C68: stochastic gradient descent, end to end -/

/-- The configuration of plain SGD with a weight decay for all parameters. -/
noncomputable def sgdConfig (lr : Schedule.Kind) (total : Int) (d : ℝ) : Config where
  base := .sgd none false
  totalSteps := total
  learningRate := lr
  clipGlobalNorm := none
  clipAbsolute := none
  weightDecay := .scalar d
  frozenPattern := .none
  trainablePattern := .none
  gradientScale := []

/-- The chain of plain SGD. -/
noncomputable def sgdOpt (lr : Schedule.Sched) (d : ℝ) : GT :=
  chain [identity, identity, identity, decayGT fun _ => d, scaleByLearningRate lr, identity]

/-- The state of plain SGD after `n` updates. -/
def sgdState (lr : Schedule.Sched) (d : ℝ) (n : Nat) : (sgdOpt lr d).State := ((), (), (), (), n, (), ())

theorem sgd_step (lr : Schedule.Sched) (d : ℝ) (n k : Nat) (p g : Params) (hp : ItemsOk p) (hn : NoEmptyItems p)
    (hs : SameShape p g) :
    ∃ p', applyGradients (opt := sgdOpt lr d) ⟨k, p, sgdState lr d n⟩ g = .ok ⟨k + 1, p', sgdState lr d (n + 1)⟩ ∧ SameShape p p' ∧
      ∀ path tp tg, leafOf p path = some tp → leafOf g path = some tg →
        leafOf p' path = some (List.zipWith (fun x y => x - lr n * (y + d * x)) tp tg) := by
  obtain ⟨x, rfl, rfl⟩ := exists_pair_items _ [] p g hs
  have hx := (mapItems_ok_iff _ _ _).1 hp
  have hxn := (noEmptyItems_map _ _ _).1 hn
  -- the same pairs in the other order
  have hyx := (mapItems_ok_iff (fun _ (x : {ab : Tensor × Tensor // ab.1.length = ab.2.length}) =>
        (⟨(x.1.2, x.1.1), x.2.symm⟩ : {ab : Tensor × Tensor // ab.1.length = ab.2.length})) [] x).2 hx
  have hyn := (noEmptyItems_map (fun _ (x : {ab : Tensor × Tensor // ab.1.length = ab.2.length}) =>
        (⟨(x.1.2, x.1.1), x.2.symm⟩ : {ab : Tensor × Tensor // ab.1.length = ab.2.length})) [] x).2 hxn
  have e := decayUpdate_ok (fun _ => d) _ hyx hyn
  rw [mapItems_comp, mapItems_comp, mapItems_comp] at e
  have key := dictMap2_map addT (fun _ x => x.1.1)
    (fun _ x => scaleT (-(lr n)) (List.zipWith (· + ·) x.1.2 (scaleT d x.1.1)))
    (fun _ (x : {ab : Tensor × Tensor // ab.1.length = ab.2.length}) =>
      List.zipWith (fun x y => x - lr n * (y + d * x)) x.1.1 x.1.2) (by
      intro _ x
      unfold addT
      rw [if_pos (by simp [scaleT, x.2])]
      congr 1
      apply List.ext_getElem
      · simp [scaleT, x.2]
      · intro i h1 h2
        simp only [scaleT, List.getElem_zipWith, List.getElem_map]
        ring) [] x hx
  refine ⟨mapItems (fun _ (x : {ab : Tensor × Tensor // ab.1.length = ab.2.length}) =>
      List.zipWith (fun x y => x - lr n * (y + d * x)) x.1.1 x.1.2) [] x, ?_, ?_, ?_⟩
  · unfold applyGradients
    simp only [sgdOpt, sgdState, chain, GT.seq, identity, decayGT, scaleByLearningRate, bind, Except.bind, pure, Except.pure]
    rw [e]
    simp only []
    rw [itemsMap_eq _ [], mapItems_comp]
    rw [key]
  · exact pair_rel_items (fun a b : Tensor => a.length = b.length) _ _ [] x (fun q x => by simp [x.2])
  · intro path tp tg h1 h2
    rw [leafOf_map] at h1 h2
    obtain ⟨v, hv, rfl⟩ := Option.map_eq_some_iff.1 h1
    obtain ⟨w, hw, rfl⟩ := Option.map_eq_some_iff.1 h2
    rw [hv] at hw
    injection hw with hw
    subst hw
    rw [leafOf_map, hv, Option.map_some]

/-- C68: with plain SGD and a weight decay, training never fails for gradients of the shape of the parameters, the step
counts the updates, and update number `n` is `p - lr(n) * (g + decay * p)` for every parameter. -/
theorem C68_sgd (compile : List Char → Except PyErr (Key → Bool)) (kind : Schedule.Kind) (total : Int) (d : ℝ) (hd : d ≠ 0)
    (lr : Schedule.Sched) (hlr : Schedule.createLearningRateSchedule kind total = .ok lr)
    (p : Params) (hp : ItemsOk p) (hn : NoEmptyItems p) :
    ∃ opt, createOptimizer compile (sgdConfig kind total d) = .ok opt ∧ ∃ os, opt.init p = .ok os ∧
      ∀ (grads : List Params) (g : Params), (∀ g' ∈ grads ++ [g], SameShape p g') →
        ∃ s s' : TrainState opt, train ⟨0, p, os⟩ grads = .ok s ∧ s.step = grads.length ∧
          train ⟨0, p, os⟩ (grads ++ [g]) = .ok s' ∧ s'.step = grads.length + 1 ∧
          ∀ path tp tg, leafOf s.params path = some tp → leafOf g path = some tg →
            leafOf s'.params path = some (List.zipWith (fun x y => x - lr grads.length * (y + d * x)) tp tg) := by
  refine ⟨sgdOpt lr d, ?_, sgdState lr d 0, rfl, ?_⟩
  · unfold sgdOpt createOptimizer gradientScaling gradientClipping addDecayedWeights learningRateGT freezeWeights
    simp [sgdConfig, truthy, baseGT, traceMomentum, hlr, hd, falsy, bind, Except.bind, pure, Except.pure]
  · -- the state after any number of updates
    have run : ∀ (grads : List Params) (n k : Nat) (p : Params), ItemsOk p → NoEmptyItems p →
        (∀ g' ∈ grads, SameShape p g') → ∃ p', SameShape p p' ∧
        train (opt := sgdOpt lr d) ⟨k, p, sgdState lr d n⟩ grads =
            .ok ⟨k + grads.length, p', sgdState lr d (n + grads.length)⟩ := by
      intro grads
      induction grads with
      | nil => intro n k p _ _ _; exact ⟨p, .refl p, rfl⟩
      | cons g grads ih =>
        intro n k p hp hn hg
        obtain ⟨p', e1, e2, _⟩ := sgd_step lr d n k p g hp hn (hg g (by simp))
        obtain ⟨p'', e3, e4⟩ := ih (n + 1) (k + 1) p' (e2.ok hp) (e2.noEmpty hn)
          (fun g' hg' => e2.symm.trans (hg g' (by simp [hg'])))
        refine ⟨p'', e2.trans e3, ?_⟩
        rw [train, e1]
        change train _ grads = _
        rw [e4]
        simp only [List.length_cons]
        rw [show k + 1 + grads.length = k + (grads.length + 1) by omega,
          show n + 1 + grads.length = n + (grads.length + 1) by omega]
    have app : ∀ (grads : List Params) (g : Params)
        (s : TrainState (sgdOpt lr d)),
        train s (grads ++ [g]) = (train s grads >>= fun s' => applyGradients s' g) := by
      intro grads g
      induction grads with
      | nil =>
        intro s
        rw [List.nil_append, train, train]
        change (applyGradients s g >>= fun s' => Except.ok s') = applyGradients s g
        cases applyGradients s g <;> rfl
      | cons g' grads ih =>
        intro s
        rw [List.cons_append, train, train]
        cases applyGradients s g' with
        | error e => rfl
        | ok s' => exact ih s'
    intro grads g hg
    obtain ⟨p', e1, e2⟩ := run grads 0 0 p hp hn (fun g' hg' => hg g' (by simp [hg']))
    have hsg : SameShape p' g := e1.symm.trans (hg g (by simp))
    obtain ⟨p'', e3, _, e5⟩ := sgd_step lr d (0 + grads.length) (0 + grads.length) p' g (e1.ok hp) (e1.noEmpty hn) hsg
    have e6 : train ⟨0, p, sgdState lr d 0⟩ (grads ++ [g]) =
        .ok ⟨0 + grads.length + 1, p'', sgdState lr d (0 + grads.length + 1)⟩ := by
      rw [app, e2]
      exact e3
    refine ⟨_, _, e2, by simp, e6, by simp, ?_⟩
    simpa using e5

example : ∃ lr, Schedule.createLearningRateSchedule (.linear 0.1 0 10 none) 100 = .ok lr := ⟨_, rfl⟩

/-! ### C46 -/

theorem leaves_map (f : Tensor → Tensor) (u : Params) : leaves (itemsMap f u) = (leaves u).map f := by
  rw [itemsMap_eq f [], leaves, leaves, flattenItems_map, List.filterMap_map, List.map_filterMap]
  congr 1
  funext pv
  obtain ⟨p, fv⟩ := pv
  cases fv <;> rfl

mutual
theorem sumSquares_eq (t : FlatDict.Tree Tensor) (p : List Key) :
    (((flattenAt p t).filterMap fun pv => (leafEntry pv).map Prod.snd).map
      fun t => (t.map fun x => x * x).sum).sum = sumSquares t := by
  match t with
  | .leaf v => simp [flattenAt, leafEntry, sumSquares, sq]
  | .node [] => simp [flattenAt, leafEntry, sumSquares, sumSquaresItems]
  | .node ((k, t) :: l) =>
    have h1 := sumSquares_eq t (p ++ [k])
    have h2 := sumSquaresItems_eq l p
    rw [flattenAt, flattenItems, List.filterMap_append, List.map_append, List.sum_append, h1, h2, sumSquares,
      sumSquaresItems]
theorem sumSquaresItems_eq (l : Params) (p : List Key) :
    (((flattenItems p l).filterMap fun pv => (leafEntry pv).map Prod.snd).map
      fun t => (t.map fun x => x * x).sum).sum = sumSquaresItems l := by
  match l with
  | [] => simp [flattenItems, sumSquaresItems]
  | (k, t) :: l =>
    rw [flattenItems, List.filterMap_append, List.map_append, List.sum_append, sumSquares_eq t (p ++ [k]),
      sumSquaresItems_eq l p, sumSquaresItems]
end

theorem globalNorm_eq (u : Params) : globalNorm u = Real.sqrt (sumSquaresItems u) := by
  unfold globalNorm leaves
  rw [sumSquaresItems_eq]

theorem sum_scaled (c : ℝ) (L : List Tensor) :
    ((L.map fun t => t.map (c * ·)).map fun t => (t.map fun x => x * x).sum).sum =
      c ^ 2 * (L.map fun t => (t.map fun x => x * x).sum).sum := by
  rw [List.map_map, ← List.sum_map_mul_left]
  congr 1
  apply List.map_congr_left
  intro t _
  rw [Function.comp_apply, List.map_map, ← List.sum_map_mul_left]
  congr 1
  apply List.map_congr_left
  intro x _
  rw [Function.comp_apply]
  ring

theorem itemsMap_id (u : Params) : itemsMap (fun t : Tensor => t) u = u := by
  rw [itemsMap_eq _ [], mapItems_id]

/-- C46: global norm clipping multiplies all updates by one factor between zero and one, such that the global norm becomes
the smaller of the norm and the bound; updates within the bound do not change. -/
theorem C46_global_norm (m : ℝ) (hm : 0 < m) (u : Params) (p : Option Params) :
    ∃ g, gradientClipping (some m) none = .ok g ∧ ∀ s, ∃ u', g.update u s p = .ok (u', s) ∧
      Real.sqrt (sumSquaresItems u') = min (Real.sqrt (sumSquaresItems u)) m ∧
      (Real.sqrt (sumSquaresItems u) ≤ m → u' = u) ∧
      ∃ c, 0 < c ∧ c ≤ 1 ∧ ∀ path t, leafOf u path = some t → leafOf u' path = some (t.map (c * ·)) := by
  refine ⟨clipByGlobalNorm m, ?_, ?_⟩
  · simp [gradientClipping, truthy, hm.ne']
  · intro s
    refine ⟨_, rfl, ?_⟩
    rw [← globalNorm_eq, ← globalNorm_eq]
    by_cases hlt : globalNorm u < m
    · have e : (fun t : Tensor => if globalNorm u < m then t else t.map fun x => x / globalNorm u * m) =
          fun t => t := by
        funext t
        rw [if_pos hlt]
      rw [e, itemsMap_id]
      refine ⟨(min_eq_left hlt.le).symm, fun _ => rfl, 1, one_pos, le_rfl, ?_⟩
      intro path t h
      simpa using h
    · have hge : m ≤ globalNorm u := not_lt.1 hlt
      have hpos : 0 < globalNorm u := lt_of_lt_of_le hm hge
      have e : (fun t : Tensor => if globalNorm u < m then t else t.map fun x => x / globalNorm u * m) =
          fun t => t.map (m / globalNorm u * ·) := by
        funext t
        rw [if_neg hlt]
        apply List.map_congr_left
        intro x _
        ring
      rw [e]
      have hc : 0 < m / globalNorm u := div_pos hm hpos
      have hnorm : globalNorm (itemsMap (fun t => t.map (m / globalNorm u * ·)) u) = m := by
        generalize hc' : m / globalNorm u = c at hc
        unfold globalNorm
        rw [leaves_map, sum_scaled, Real.sqrt_mul (sq_nonneg _), Real.sqrt_sq hc.le]
        change c * globalNorm u = m
        rw [← hc']
        field_simp
      refine ⟨by rw [hnorm, min_eq_right hge], ?_, m / globalNorm u, hc, (div_le_one hpos).2 hge, ?_⟩
      · intro hle
        have : m / globalNorm u = 1 := by
          rw [le_antisymm hge hle]
          exact div_self hpos.ne'
        rw [this]
        simp only [one_mul, List.map_id']
        exact itemsMap_id u
      · intro path t h
        rw [itemsMap_eq _ [], leafOf_map, h, Option.map_some]

/-- C46: absolute clipping replaces every entry by the nearest number in `[-a, a]`. -/
theorem C46_absolute (a : ℝ) (ha : 0 < a) (u : Params) (p : Option Params) :
    ∃ g, gradientClipping none (some a) = .ok g ∧ ∀ s, ∃ u', g.update u s p = .ok (u', s) ∧
      ∀ path t, leafOf u path = some t → ∃ t', leafOf u' path = some t' ∧ t'.length = t.length ∧
        ∀ (i : Nat) (x : ℝ), t[i]? = some x → ∃ y : ℝ, t'[i]? = some y ∧ |y| ≤ a ∧ (|x| ≤ a → y = x) ∧
          (a < x → y = a) ∧ (x < -a → y = -a) := by
  refine ⟨clip a, ?_, ?_⟩
  · simp [gradientClipping, truthy, ha.ne']
  · intro s
    refine ⟨_, rfl, ?_⟩
    intro path t h
    rw [itemsMap_eq _ [], leafOf_map, h, Option.map_some]
    refine ⟨_, rfl, by simp, ?_⟩
    intro i x hx
    refine ⟨min (max x (-a)) a, by simp [hx], ?_, ?_, ?_, ?_⟩
    · rw [abs_le]
      exact ⟨le_min (le_max_right _ _) (by linarith), min_le_right _ _⟩
    · intro h
      rw [abs_le] at h
      rw [max_eq_left h.1, min_eq_left h.2]
    · intro h
      exact min_eq_right (le_max_of_le_left h.le)
    · intro h
      rw [max_eq_right h.le, min_eq_left (by linarith)]

/-- C46: both kinds of clipping at once are rejected; none, or zero bounds, leave the updates alone. -/
theorem C46_arguments (a b : ℝ) (ha : a ≠ 0) (hb : b ≠ 0) :
    gradientClipping (some a) (some b) = .error .valueError ∧
    gradientClipping none none = .ok identity ∧ gradientClipping (some 0) (some 0) = .ok identity ∧
    gradientClipping (some a) (some 0) = gradientClipping (some a) none ∧
    gradientClipping (some 0) (some b) = gradientClipping none (some b) := by
  simp [gradientClipping, truthy, ha, hb]

example : ∃ u : Params, Real.sqrt (sumSquaresItems u) = 5 ∧ leafOf u ["w".toList] = some [3, 4] := by
  refine ⟨[("w".toList, .leaf [3, 4])], ?_, by simp [leafOf, leafAt, lookup]⟩
  simp only [sumSquaresItems, sumSquares, List.map_cons, List.map_nil, List.sum_cons, List.sum_nil]
  rw [show (3 ^ 2 + (4 ^ 2 + 0) + 0 : ℝ) = 5 ^ 2 by norm_num]
  exact Real.sqrt_sq (by norm_num)

/-- C46: a negative bound is accepted: absolute clipping then replaces every entry by the bound. -/
theorem C46_negative_counterexample (a x : ℝ) (ha : a < 0) :
    gradientClipping none (some a) = .ok (clip a) ∧
    (clip a).update [("w".toList, .leaf [x])] () none = .ok ([("w".toList, .leaf [a])], ()) := by
  refine ⟨by simp [gradientClipping, truthy, ha.ne], ?_⟩
  have : min (max x (-a)) a = a := min_eq_right (le_max_of_le_right (by linarith))
  simp [clip, itemsMap, treeMap, this]

end Verif.Optimizer
