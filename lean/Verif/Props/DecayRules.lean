import Verif.Model.DecayRules
import Verif.Proofs.FineTune
import Verif.Props.Optimizer

/-! C139: which parameters the configurations decay, and how much. -/

namespace Verif.DecayRules

open Verif FlatDict Partitioning Optimizer Regex FineTune TreeSpec RulesSpec MeshSpec

/-- The decay of a parameter, by its name. -/
noncomputable def rate (recipe : Recipe) (name : Key) : ℝ :=
  open Classical in
  match recipe with
  | .paper => 0.1
  | .kernels => if "/kernel".toList <:+: name then 0.1 else 0
  | .jft => if "head/kernel".toList <:+: name then 3 else if "/kernel".toList <:+: name then 0.03 else 0
  | .jftSoft => if "head/kernel".toList <:+: name then 3
      else if "/kernel".toList <:+: name ∨ "/Moe/Router/scale".toList <:+: name then 0.03 else 0

theorem s_any_chars {s w : List Char} (hw : w ≠ []) : Search (.seq (.star .any) (chars w .empty)) s ↔ w <:+: s := by
  rw [infix_iff]
  unfold Search
  constructor
  · rintro ⟨i, j, h⟩
    obtain ⟨k, _, h⟩ := m_seq.1 h
    exact ⟨k, ((m_chars w).1 h).1⟩
  · rintro ⟨i, h⟩
    have hb := prefix_bound hw h
    exact ⟨i, i + w.length, m_seq.2 ⟨i, .star0 _ _ (by omega), (m_chars w).2 ⟨h, .empty _ hb⟩⟩⟩

theorem compile_head : compile "head/kernel".toList = .ok (RegexSub.search (chars "head/kernel".toList .empty)) := by
  have : RegexSub.compileRule "head/kernel".toList = .ok (chars "head/kernel".toList .empty) := by decide +kernel
  unfold compile
  rw [this]

theorem compile_kernel : compile ".*/kernel".toList = .ok (RegexSub.search (.seq (.star .any) (chars "/kernel".toList .empty))) := by
  have : RegexSub.compileRule ".*/kernel".toList = .ok (.seq (.star .any) (chars "/kernel".toList .empty)) := by decide +kernel
  unfold compile
  rw [this]

theorem compile_scale : compile ".*/Moe/Router/scale".toList =
    .ok (RegexSub.search (.seq (.star .any) (chars "/Moe/Router/scale".toList .empty))) := by
  have : RegexSub.compileRule ".*/Moe/Router/scale".toList = .ok (.seq (.star .any) (chars "/Moe/Router/scale".toList .empty)) := by
    decide +kernel
  unfold compile
  rw [this]

/-- The search method of a pattern, if it is valid. -/
def searchOf (pattern : List Char) : Key → Bool :=
  match compile pattern with
  | .ok f => f
  | .error _ => fun _ => false

theorem searchOf_head (name : Key) : searchOf "head/kernel".toList name = true ↔ "head/kernel".toList <:+: name := by
  unfold searchOf
  rw [compile_head]
  exact (RegexSub.C136_search _ _).trans (s_chars (by decide))

theorem searchOf_kernel (name : Key) : searchOf ".*/kernel".toList name = true ↔ "/kernel".toList <:+: name := by
  unfold searchOf
  rw [compile_kernel]
  exact (RegexSub.C136_search _ _).trans (s_any_chars (by decide))

theorem searchOf_scale (name : Key) : searchOf ".*/Moe/Router/scale".toList name = true ↔ "/Moe/Router/scale".toList <:+: name := by
  unfold searchOf
  rw [compile_scale]
  exact (RegexSub.C136_search _ _).trans (s_any_chars (by decide))

theorem compile_of (pattern : List Char) (f : Key → Bool) (h : compile pattern = .ok f) :
    compile pattern = .ok (searchOf pattern) := by
  unfold searchOf
  rw [h]

attribute [local irreducible] compile searchOf RegexSub.compileRule RegexSub.search

/-- The rules of a configuration: they are valid, and the first that matches a name gives its rate. -/
theorem rules_rate (recipe : Recipe) (rules : List (List Char × ℝ)) (he : weightDecay recipe = .rules rules) :
    rules ≠ [] ∧ (∀ r ∈ rules, compile r.1 = .ok (searchOf r.1)) ∧ ∀ name, FirstRule searchOf rules 0 name (rate recipe name) := by
  have hc1 := compile_of _ _ compile_head
  have hc2 := compile_of _ _ compile_kernel
  have hc3 := compile_of _ _ compile_scale
  cases recipe with
  | paper => exact absurd he (by simp [weightDecay])
  | kernels =>
    cases he
    refine ⟨by simp, ?_, ?_⟩
    · intro r hr
      rw [List.mem_singleton.1 hr]
      exact hc2
    · intro name
      unfold rate FirstRule
      by_cases h : "/kernel".toList <:+: name
      · refine .inl ⟨[], _, [], ?_, (searchOf_kernel name).2 h, by simp⟩
        simp only [if_pos h, List.nil_append]
      · refine .inr ⟨?_, by simp only [if_neg h]⟩
        intro r hr
        rw [List.mem_singleton.1 hr]
        exact Bool.eq_false_iff.2 (fun hh => h ((searchOf_kernel name).1 hh))
  | jft =>
    cases he
    refine ⟨by simp, ?_, ?_⟩
    · intro r hr
      rcases List.mem_cons.1 hr with rfl | hr
      · exact hc1
      · rw [List.mem_singleton.1 hr]
        exact hc2
    · intro name
      unfold rate FirstRule
      by_cases h0 : "head/kernel".toList <:+: name
      · refine .inl ⟨[], _, [(".*/kernel".toList, 0.03)], ?_, (searchOf_head name).2 h0, by simp⟩
        simp only [if_pos h0, List.nil_append]
      have h0' := Bool.eq_false_iff.2 (fun hh => h0 ((searchOf_head name).1 hh))
      by_cases h : "/kernel".toList <:+: name
      · refine .inl ⟨[("head/kernel".toList, 3)], _, [], ?_, (searchOf_kernel name).2 h, ?_⟩
        · simp only [if_neg h0, if_pos h, List.singleton_append]
        · intro q hq
          rw [List.mem_singleton.1 hq]
          exact h0'
      · refine .inr ⟨?_, by simp only [if_neg h0, if_neg h]⟩
        intro r hr
        rcases List.mem_cons.1 hr with rfl | hr
        · exact h0'
        · rw [List.mem_singleton.1 hr]
          exact Bool.eq_false_iff.2 (fun hh => h ((searchOf_kernel name).1 hh))
  | jftSoft =>
    cases he
    refine ⟨by simp, ?_, ?_⟩
    · intro r hr
      rcases List.mem_cons.1 hr with rfl | hr
      · exact hc1
      rcases List.mem_cons.1 hr with rfl | hr
      · exact hc2
      · rw [List.mem_singleton.1 hr]
        exact hc3
    · intro name
      unfold rate FirstRule
      by_cases h0 : "head/kernel".toList <:+: name
      · refine .inl ⟨[], _, [(".*/kernel".toList, 0.03), (".*/Moe/Router/scale".toList, 0.03)], ?_, (searchOf_head name).2 h0, by simp⟩
        simp only [if_pos h0, List.nil_append]
      have h0' := Bool.eq_false_iff.2 (fun hh => h0 ((searchOf_head name).1 hh))
      by_cases h : "/kernel".toList <:+: name
      · refine .inl ⟨[("head/kernel".toList, 3)], _, [(".*/Moe/Router/scale".toList, 0.03)], ?_, (searchOf_kernel name).2 h, ?_⟩
        · simp only [if_neg h0, h, true_or, if_true, List.singleton_append]
        · intro q hq
          rw [List.mem_singleton.1 hq]
          exact h0'
      have h' := Bool.eq_false_iff.2 (fun hh => h ((searchOf_kernel name).1 hh))
      by_cases h2 : "/Moe/Router/scale".toList <:+: name
      · refine .inl ⟨[("head/kernel".toList, 3), (".*/kernel".toList, 0.03)], _, [], ?_, (searchOf_scale name).2 h2, ?_⟩
        · simp only [if_neg h0, h2, or_true, if_true, List.cons_append, List.nil_append]
        · intro q hq
          rcases List.mem_cons.1 hq with rfl | hq
          · exact h0'
          · rw [List.mem_singleton.1 hq]
            exact h'
      · refine .inr ⟨?_, by simp only [if_neg h0, h, h2, or_self, if_false]⟩
        intro r hr
        rcases List.mem_cons.1 hr with rfl | hr
        · exact h0'
        rcases List.mem_cons.1 hr with rfl | hr
        · exact h'
        · rw [List.mem_singleton.1 hr]
          exact Bool.eq_false_iff.2 (fun hh => h2 ((searchOf_scale name).1 hh))

/-- C139.  With the weight decay of a configuration the updates are those without it plus the parameter times its rate. -/
theorem C139_weight_decay (recipe : Recipe) (u p : Params) (hu : ItemsOk u) (hn : NoEmptyItems u) (hs : SameShape u p) :
    ∃ g, addDecayedWeights compile (weightDecay recipe) = .ok g ∧ ∀ s, ∃ u', g.update u s (some p) = .ok (u', s) ∧
      SameShape u u' ∧ ∀ path tu tp, leafOf u path = some tu → leafOf p path = some tp →
        leafOf u' path = some (List.zipWith (fun x y => x + rate recipe (join path) * y) tu tp) := by
  have key : ∀ rules : List (List Char × ℝ), weightDecay recipe = .rules rules →
      ∃ g, addDecayedWeights compile (weightDecay recipe) = .ok g ∧ ∀ s, ∃ u', g.update u s (some p) = .ok (u', s) ∧
      SameShape u u' ∧ ∀ path tu tp, leafOf u path = some tu → leafOf p path = some tp →
        leafOf u' path = some (List.zipWith (fun x y => x + rate recipe (join path) * y) tu tp) := by
    intro rules he
    obtain ⟨hne, hc, hf⟩ := rules_rate recipe rules he
    obtain ⟨g, h1, h2⟩ := C45_weight_decay compile searchOf rules hc hne u p hu hn hs
    refine ⟨g, by rw [he]; exact h1, fun s => ?_⟩
    obtain ⟨u', h3, h4, h5⟩ := h2 s
    exact ⟨u', h3, h4, fun path tu tp e1 e2 => h5 path tu tp _ e1 e2 (hf _)⟩
  cases recipe with
  | paper => exact C45_scalar_decay compile 0.1 (by norm_num) u p hu hn hs
  | kernels => exact key _ rfl
  | jft => exact key _ rfl
  | jftSoft => exact key _ rfl

/-- A parameter and its updates for the configuration with rules for all names. -/
example : ∃ u p : Params, ItemsOk u ∧ NoEmptyItems u ∧ SameShape u p ∧ leafOf u ["head".toList, "kernel".toList] = some [1, 2] ∧
    join ["head".toList, "kernel".toList] = "head/kernel".toList := by
  exact ⟨exampleParams, exampleParams, exampleParams_ok.1, exampleParams_ok.2, .refl _,
    by simp [leafOf, leafAt, lookup, exampleParams], by decide⟩

theorem slash_infix {w a t : List Char} (ha : '/' ∉ a) : '/' :: w <:+: a ++ '/' :: t ↔ '/' :: w <:+: '/' :: t := by
  induction a with
  | nil => rfl
  | cons c a ih =>
    rw [List.cons_append, List.infix_cons_iff]
    constructor
    · rintro (h | h)
      · rw [List.cons_prefix_cons] at h
        exact absurd (h.1 ▸ List.mem_cons_self) ha
      · exact (ih fun h => ha (List.mem_cons_of_mem _ h)).1 h
    · intro h
      exact .inr ((ih fun h => ha (List.mem_cons_of_mem _ h)).2 h)

theorem prefix_join {w a : List Char} {r : List Key} (hw : '/' ∉ w) : w <+: join (a :: r) ↔ w <+: a := by
  cases r with
  | nil => rfl
  | cons b r =>
    show w <+: a ++ '/' :: join (b :: r) ↔ _
    constructor
    · intro h
      rcases List.prefix_or_prefix_of_prefix h (List.prefix_append a _) with h1 | ⟨t, rfl⟩
      · exact h1
      · obtain ⟨e, he⟩ := h
        rw [List.append_assoc, List.append_cancel_left_eq] at he
        cases t with
        | nil => simp
        | cons c t =>
          injection he with h1 h2
          subst h1
          exact absurd (by simp) hw
    · intro h
      exact h.trans (List.prefix_append _ _)

/-- A separator and a word occur in a name exactly if a component that is not the first starts with the word. -/
theorem slash_join {w : List Char} (hw : '/' ∉ w) : ∀ path : List Key, (∀ c ∈ path, '/' ∉ c) →
    ('/' :: w <:+: join path ↔ ∃ c ∈ path.tail, w <+: c)
  | [], _ => by simp [join]
  | [a], h => by
    have ha := h a (by simp)
    simp only [join, List.tail_cons, List.not_mem_nil, false_and, exists_false, iff_false]
    rintro ⟨x, y, h⟩
    exact ha (by rw [← h]; simp)
  | a :: b :: r, h => by
    show '/' :: w <:+: a ++ '/' :: join (b :: r) ↔ _
    rw [slash_infix (h a (by simp)), List.infix_cons_iff, List.cons_prefix_cons,
      slash_join hw (b :: r) (fun c hc => h c (List.mem_cons_of_mem _ hc)), prefix_join hw]
    simp only [true_and, List.tail_cons, List.mem_cons]
    constructor
    · rintro (h | ⟨c, hc, h⟩)
      · exact ⟨b, .inl rfl, h⟩
      · exact ⟨c, .inr hc, h⟩
    · rintro ⟨c, rfl | hc, hp⟩
      · exact .inl hp
      · exact .inr ⟨c, hc, hp⟩

/-- C139, names.  With the rule for kernels a parameter is decayed exactly if a component of its name, other than the first, starts
with `kernel`; so kernels of dense layers, convolutions and attention are, and biases, scales of normalizations, position
embeddings and class tokens are not. -/
theorem C139_kernels (path : List Key) (h : ∀ c ∈ path, '/' ∉ c) :
    (rate .kernels (join path) = 0.1 ∧ ∃ c ∈ path.tail, "kernel".toList <+: c) ∨
    (rate .kernels (join path) = 0 ∧ ∀ c ∈ path.tail, ¬ "kernel".toList <+: c) := by
  have key := slash_join (w := "kernel".toList) (by decide) path h
  unfold rate
  by_cases hk : "/kernel".toList <:+: join path
  · exact .inl ⟨if_pos hk, key.1 hk⟩
  · refine .inr ⟨if_neg hk, fun c hc hp => hk (key.2 ⟨c, hc, hp⟩)⟩

/-- C139, names.  With the rules for JFT the parameters that are decayed are the same, and those of the head are decayed more: for
the parameters whose name is `head/kernel` the rate is a hundred times the rate of the other kernels. -/
theorem C139_jft (path : List Key) (h : ∀ c ∈ path, '/' ∉ c) :
    (rate .jft (join path) = 0 ↔ ∀ c ∈ path.tail, ¬ "kernel".toList <+: c) ∧
    (rate .jft (join path) = 3 ↔ "head/kernel".toList <:+: join path) ∧
    (rate .jft (join path) = 0 ∨ rate .jft (join path) = 0.03 ∨ rate .jft (join path) = 3) := by
  have key := slash_join (w := "kernel".toList) (by decide) path h
  have sub : "head/kernel".toList <:+: join path → "/kernel".toList <:+: join path :=
    fun hh => List.IsInfix.trans ⟨"head".toList, [], by decide⟩ hh
  unfold rate
  simp only []
  by_cases h0 : "head/kernel".toList <:+: join path
  · rw [if_pos h0]
    refine ⟨⟨fun hh => absurd hh (by norm_num), fun hh => ?_⟩, ⟨fun _ => h0, fun _ => rfl⟩, .inr (.inr rfl)⟩
    obtain ⟨c, hc, hp⟩ := key.1 (sub h0)
    exact absurd hp (hh c hc)
  · rw [if_neg h0]
    by_cases hk : "/kernel".toList <:+: join path
    · rw [if_pos hk]
      refine ⟨⟨fun hh => absurd hh (by norm_num), fun hh => ?_⟩, ⟨fun hh => absurd hh (by norm_num), fun hh => absurd hh h0⟩,
        .inr (.inl rfl)⟩
      obtain ⟨c, hc, hp⟩ := key.1 hk
      exact absurd hp (hh c hc)
    · rw [if_neg hk]
      exact ⟨⟨fun _ c hc hp => hk (key.2 ⟨c, hc, hp⟩), fun _ => rfl⟩, ⟨fun hh => absurd hh (by norm_num), fun hh => absurd hh h0⟩,
        .inl rfl⟩

/-- C139, soft router.  The additional rule changes only the rate of the scales of the routers. -/
theorem C139_soft (name : Key) : rate .jftSoft name = rate .jft name ∨
    ("/Moe/Router/scale".toList <:+: name ∧ rate .jftSoft name = 0.03 ∧ rate .jft name = 0) := by
  unfold rate
  simp only []
  by_cases h0 : "head/kernel".toList <:+: name
  · rw [if_pos h0, if_pos h0]
    exact .inl rfl
  · rw [if_neg h0, if_neg h0]
    by_cases hk : "/kernel".toList <:+: name
    · rw [if_pos hk, if_pos (.inl hk)]
      exact .inl rfl
    · rw [if_neg hk]
      by_cases hr : "/Moe/Router/scale".toList <:+: name
      · rw [if_pos (.inr hr)]
        exact .inr ⟨hr, rfl, rfl⟩
      · rw [if_neg (not_or.2 ⟨hk, hr⟩)]
        exact .inl rfl

/-- The names of the parameters of a soft layer. -/
def softLayer (name : String) : List Key :=
  ["Encoder".toList, "encoderblock_3".toList, "Moe".toList, "Router".toList, name.toList]

/-- C139, limits.  The vectors of the slots of a soft router are never decayed by these rules; the scale of the router is decayed
only with the rules for JFT, not with those for LAION; a kernel that is not inside any module is not decayed; and with the single
number of the paper everything is decayed, also biases. -/
theorem C139_limits_counterexample :
    rate .jftSoft (join (softLayer "mu")) = 0 ∧ rate .kernels (join (softLayer "mu")) = 0 ∧
    rate .jftSoft (join (softLayer "scale")) = 0.03 ∧ rate .kernels (join (softLayer "scale")) = 0 ∧
    rate .kernels (join ["kernel".toList]) = 0 ∧
    rate .kernels (join ["head".toList, "bias".toList]) = 0 ∧ rate .paper (join ["head".toList, "bias".toList]) = 0.1 := by
  unfold rate
  refine ⟨?_, ?_, ?_, ?_, ?_, ?_, ?_⟩
  · simp only []
    rw [if_neg (by decide +kernel), if_neg (by decide +kernel)]
  · simp only []
    rw [if_neg (by decide +kernel)]
  · simp only []
    rw [if_neg (by decide +kernel), if_pos (by decide +kernel)]
  · simp only []
    rw [if_neg (by decide +kernel)]
  · simp only []
    rw [if_neg (by decide +kernel)]
  · simp only []
    rw [if_neg (by decide +kernel)]
  · rfl

/-- Names that meet the hypotheses of `C139_kernels` and `C139_jft`. -/
example : (∀ c ∈ ["Encoder".toList, "encoderblock_3".toList, "Mlp".toList, "Dense_0".toList, "kernel".toList], '/' ∉ c) ∧
    (∃ c ∈ ["Encoder".toList, "encoderblock_3".toList, "Mlp".toList, "Dense_0".toList, "kernel".toList].tail, "kernel".toList <+: c) ∧
    "head/kernel".toList <:+: join ["head".toList, "kernel".toList] := by
  decide +kernel

end Verif.DecayRules
