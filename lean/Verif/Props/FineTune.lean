import Verif.Proofs.FineTune
import Verif.Spec.FineTune
import Verif.Props.RulesParse
import Verif.Props.InitVmoe
import Verif.Proofs.Optimizer

/-!
C137: what the fine-tuning configurations restore from a checkpoint.
-/

namespace Verif.FineTune

open Verif FlatDict Mapping RulesParse Regex FineTuneSpec MappingSpec TreeSpec ArraySpec

variable {D α : Type}

/-- The rules as the mapping uses them. -/
def rHead : Rule := ⟨RegexSub.search tHead, ⟨id, .drop⟩⟩
def rPre : Rule := ⟨RegexSub.search tPre, ⟨id, .drop⟩⟩
def rPos : Rule := ⟨RegexSub.search tPos, ⟨subName tPos "params/\\1".toList, .single .vitZoom⟩⟩
def rRouter : Rule := ⟨RegexSub.search tRouter, ⟨subName tRouter "params/\\1".toList, .single (.reshape none)⟩⟩
def rAll : Rule := ⟨RegexSub.search tAll, ⟨subName tAll "params/\\1".toList, .single .copy⟩⟩

def ruleList : Run → List Rule
  | .b16Ilsvrc2012 => [rHead, rPos, rAll]
  | .b16Cifar10 => [rHead, rPos, rAll]
  | .s32 => [rHead, rPre, rPos, rAll]
  | .eee => [rHead, rPos, rRouter, rAll]

theorem k_drop : clsOf (.str "".toList) [] = .ok .drop := by decide +kernel
theorem k_pos : clsOf (.str "params/\\1".toList) [.str "vit_zoom".toList] = .ok (.vitZoom (.str "params/\\1".toList)) := by
  decide +kernel
theorem k_router : clsOf (.str "params/\\1".toList) [.str "reshape".toList] =
    .ok (.reshape (.str "params/\\1".toList) .none) := by decide +kernel
theorem k_all : clsOf (.str "params/\\1".toList) [] = .ok (.regex (.str "params/\\1".toList)) := by decide +kernel

/-- A tuple with a pattern that compiles. -/
theorem parse_one (pat repl : String) (l : List String) (t : Re) (c : Cls) (h1 : RegexSub.compileRule pat.toList = .ok t)
    (h2 : clsOf (.str repl.toList) (l.map fun s => .str s.toList) = .ok c) :
    parseOne RegexSub.compileRule (rule (pat :: repl :: l)) = .ok ⟨t, c⟩ := by
  unfold rule parseOne
  rw [List.map_cons, List.map_cons]
  unfold RulesParse.parseItems
  simp only
  unfold compileVal
  simp only
  rw [h1]
  change (clsOf _ _ >>= fun c => pure (⟨t, c⟩ : Parsed Re)) = _
  rw [h2]
  rfl

theorem p_head : parseOne RegexSub.compileRule (rule ["head", ""]) = .ok ⟨tHead, .drop⟩ := parse_one _ _ [] _ _ c_head k_drop
theorem p_pre : parseOne RegexSub.compileRule (rule ["pre_logits/.*", ""]) = .ok ⟨tPre, .drop⟩ :=
  parse_one _ _ [] _ _ c_pre k_drop
theorem p_pos : parseOne RegexSub.compileRule (rule ["^(.*/pos_embedding)$", "params/\\1", "vit_zoom"]) =
    .ok ⟨tPos, .vitZoom (.str "params/\\1".toList)⟩ := parse_one _ _ ["vit_zoom"] _ _ c_pos k_pos
theorem p_router : parseOne RegexSub.compileRule (rule ["^(.*/Moe/Router/dense/.*)$", "params/\\1", "reshape"]) =
    .ok ⟨tRouter, .reshape (.str "params/\\1".toList) .none⟩ := parse_one _ _ ["reshape"] _ _ c_router k_router
theorem p_all : parseOne RegexSub.compileRule (rule ["^(.*)$", "params/\\1"]) = .ok ⟨tAll, .regex (.str "params/\\1".toList)⟩ :=
  parse_one _ _ [] _ _ c_all k_all

def parsedList : Run → List (Parsed Re)
  | .b16Ilsvrc2012 => [⟨tHead, .drop⟩, ⟨tPos, .vitZoom (.str "params/\\1".toList)⟩, ⟨tAll, .regex (.str "params/\\1".toList)⟩]
  | .b16Cifar10 => [⟨tHead, .drop⟩, ⟨tPos, .vitZoom (.str "params/\\1".toList)⟩, ⟨tAll, .regex (.str "params/\\1".toList)⟩]
  | .s32 => [⟨tHead, .drop⟩, ⟨tPre, .drop⟩, ⟨tPos, .vitZoom (.str "params/\\1".toList)⟩,
      ⟨tAll, .regex (.str "params/\\1".toList)⟩]
  | .eee => [⟨tHead, .drop⟩, ⟨tPos, .vitZoom (.str "params/\\1".toList)⟩,
      ⟨tRouter, .reshape (.str "params/\\1".toList) .none⟩, ⟨tAll, .regex (.str "params/\\1".toList)⟩]

theorem parse_rules (run : Run) : parse RegexSub.compileRule (rules run) = .ok (parsedList run) := by
  unfold parse
  cases run <;> simp only [rules, parsedList, List.mapM_cons, List.mapM_nil, p_head, p_pre, p_pos, p_router, p_all, bind,
    Except.bind, pure, Except.pure]

theorem to_rules (run : Run) : (parsedList run).mapM (toRule RegexSub.search subName) = some (ruleList run) := by
  cases run <;> simp only [parsedList, ruleList, rHead, rPre, rPos, rRouter, rAll, List.mapM_cons, List.mapM_nil, toRule, shapeOf,
    Option.map_some, bind, Option.bind, pure]

theorem restore_eq [DecidableEq D] (env : Env D α) (run : Run) (source target : List (Key × FlatDict.Tree (Arr D α))) :
    restore env run source target = mapStateDict env (ruleList run) flags source target := by
  unfold restore mapRaw
  rw [parse_rules]
  change (match (parsedList run).mapM (toRule RegexSub.search subName) with
    | some rules => mapStateDict env rules flags source target
    | none => throw PyErr.typeError) = _
  rw [to_rules]

theorem search_iff (t : Re) (k : Key) (P : Prop) [Decidable P] (h : Search t k ↔ P) : RegexSub.search t k = decide P := by
  rw [Bool.eq_iff_iff, RegexSub.C136_search, h, decide_eq_true_iff]

/-- What is done with a name. -/
theorem handled (run : Run) (k : Key) (hk : '\n' ∉ k) :
    (Dropped run k ∧ (act (ruleList run) k).kind = .drop) ∨
    (¬ Dropped run k ∧ (act (ruleList run) k).rename k = "params/".toList ++ k ∧
      ((Position k ∧ (act (ruleList run) k).kind = .single .vitZoom) ∨
       (¬ Position k ∧ Router run k ∧ (act (ruleList run) k).kind = .single (.reshape none)) ∨
       (¬ Position k ∧ ¬ Router run k ∧ (act (ruleList run) k).kind = .single .copy))) := by
  classical
  have e1 := search_iff tHead k _ (s_chars (s := k) (w := "head".toList) (by decide))
  have e2 := search_iff tPre k _ (s_chars_any (s := k) (w := "pre_logits/".toList) (by decide))
  have e3 := search_iff tPos k _ (s_pos hk (w := "/pos_embedding".toList))
  have e4 := search_iff tRouter k _ (s_router hk (w := "/Moe/Router/dense/".toList) (by decide))
  have e5 := search_iff tAll k True (by simp [s_all hk])
  have r3 : "/pos_embedding".toList <:+ k → subName tPos "params/\\1".toList k = "params/".toList ++ k :=
    fun h => rename_anchored hk ((s_pos hk).2 h)
  have r4 : "/Moe/Router/dense/".toList <:+: k → subName tRouter "params/\\1".toList k = "params/".toList ++ k :=
    fun h => rename_anchored hk ((s_router hk (by decide)).2 h)
  have r5 : subName tAll "params/\\1".toList k = "params/".toList ++ k := rename_anchored hk (s_all hk)
  unfold Dropped Position Router act
  by_cases h1 : "head".toList <:+: k
  · left
    refine ⟨.inl h1, ?_⟩
    cases run <;> simp only [ruleList, find, rHead, e1, decide_eq_true h1, if_true, Option.map_some, Option.getD_some]
  · by_cases h2 : run = .s32 ∧ "pre_logits/".toList <:+: k
    · left
      refine ⟨.inr h2, ?_⟩
      obtain ⟨rfl, h2⟩ := h2
      simp only [ruleList, find, rHead, rPre, e1, e2, decide_eq_false h1, decide_eq_true h2, if_true, Option.map_some,
        Option.getD_some, Bool.false_eq_true, if_false]
    · right
      refine ⟨fun h => h.elim h1 h2, ?_⟩
      by_cases h3 : "/pos_embedding".toList <:+ k
      · have : ((find (ruleList run) k).map Rule.action).getD identity = rPos.action := by
          cases run
          · simp only [ruleList, find, rHead, rPos, e1, e3, decide_eq_false h1, decide_eq_true h3, if_true, Option.map_some,
              Option.getD_some, Bool.false_eq_true, if_false]
          · simp only [ruleList, find, rHead, rPos, e1, e3, decide_eq_false h1, decide_eq_true h3, if_true, Option.map_some,
              Option.getD_some, Bool.false_eq_true, if_false]
          · have h2 : ¬ "pre_logits/".toList <:+: k := fun h => h2 ⟨rfl, h⟩
            simp only [ruleList, find, rHead, rPre, rPos, e1, e2, e3, decide_eq_false h1, decide_eq_false h2, decide_eq_true h3,
              if_true, Option.map_some, Option.getD_some, Bool.false_eq_true, if_false]
          · simp only [ruleList, find, rHead, rPos, e1, e3, decide_eq_false h1, decide_eq_true h3, if_true, Option.map_some,
              Option.getD_some, Bool.false_eq_true, if_false]
        rw [this]
        exact ⟨r3 h3, .inl ⟨h3, rfl⟩⟩
      · by_cases h4 : run = .eee ∧ "/Moe/Router/dense/".toList <:+: k
        · have : ((find (ruleList run) k).map Rule.action).getD identity = rRouter.action := by
            obtain ⟨rfl, h4⟩ := h4
            simp only [ruleList, find, rHead, rPos, rRouter, e1, e3, e4, decide_eq_false h1, decide_eq_false h3, decide_eq_true h4,
              if_true, Option.map_some, Option.getD_some, Bool.false_eq_true, if_false]
          rw [this]
          exact ⟨r4 h4.2, .inr (.inl ⟨h3, h4, rfl⟩)⟩
        · have : ((find (ruleList run) k).map Rule.action).getD identity = rAll.action := by
            cases run
            · simp only [ruleList, find, rHead, rPos, rAll, e1, e3, e5, decide_eq_false h1, decide_eq_false h3, decide_true, if_true,
                Option.map_some, Option.getD_some, Bool.false_eq_true, if_false]
            · simp only [ruleList, find, rHead, rPos, rAll, e1, e3, e5, decide_eq_false h1, decide_eq_false h3, decide_true, if_true,
                Option.map_some, Option.getD_some, Bool.false_eq_true, if_false]
            · have h2 : ¬ "pre_logits/".toList <:+: k := fun h => h2 ⟨rfl, h⟩
              simp only [ruleList, find, rHead, rPre, rPos, rAll, e1, e2, e3, e5, decide_eq_false h1, decide_eq_false h2,
                decide_eq_false h3, decide_true, if_true, Option.map_some, Option.getD_some, Bool.false_eq_true, if_false]
            · have h4 : ¬ "/Moe/Router/dense/".toList <:+: k := fun h => h4 ⟨rfl, h⟩
              simp only [ruleList, find, rHead, rPos, rRouter, rAll, e1, e3, e4, e5, decide_eq_false h1, decide_eq_false h3,
                decide_eq_false h4, decide_true, if_true, Option.map_some, Option.getD_some, Bool.false_eq_true, if_false]
          rw [this]
          exact ⟨r5, .inr (.inr ⟨h3, h4, rfl⟩)⟩

theorem goesTo_eq (rules : List Rule) (k dst : Key) (a : Action) :
    GoesTo rules k dst a ↔ a = act rules k ∧ (act rules k).kind ≠ .drop ∧ (act rules k).rename k = dst := by
  unfold GoesTo
  rw [handledBy_iff]
  constructor
  · rintro ⟨rfl, h⟩; exact ⟨rfl, h⟩
  · rintro ⟨rfl, h⟩; exact ⟨rfl, h⟩

/-- Where names go: to `params/` and the same name. -/
theorem goes_params {run : Run} {k dst : Key} {a : Action} (hk : '\n' ∉ k) (h : GoesTo (ruleList run) k dst a) :
    ¬ Dropped run k ∧ dst = "params/".toList ++ k ∧
      ((Position k ∧ a.kind = .single .vitZoom) ∨ (¬ Position k ∧ Router run k ∧ a.kind = .single (.reshape none)) ∨
       (¬ Position k ∧ ¬ Router run k ∧ a.kind = .single .copy)) := by
  obtain ⟨rfl, h1, h2⟩ := (goesTo_eq _ _ _ _).1 h
  rcases handled run k hk with ⟨_, h3⟩ | ⟨h3, h4, h5⟩
  · exact absurd h3 h1
  · exact ⟨h3, h2.symm.trans h4, h5⟩

theorem goes_of {run : Run} {k : Key} (hk : '\n' ∉ k) (h : ¬ Dropped run k) :
    GoesTo (ruleList run) k ("params/".toList ++ k) (act (ruleList run) k) := by
  rcases handled run k hk with ⟨h3, _⟩ | ⟨_, h4, h5⟩
  · exact absurd h3 h
  · refine (goesTo_eq _ _ _ _).2 ⟨rfl, ?_, h4⟩
    rcases h5 with ⟨_, h⟩ | ⟨_, _, h⟩ | ⟨_, _, h⟩ <;> rw [h] <;> simp

theorem join_params (p : List Key) (hp : p ≠ []) : join ("params".toList :: p) = "params/".toList ++ join p := by
  cases p with
  | nil => exact absurd rfl hp
  | cons k p => rfl

theorem path_ok {V : Type} {l : List (Key × FlatDict.Tree V)} (hl : ItemsOk l) {p : List Key} {v : V} (h : leafOf l p = some v) :
    p ≠ [] ∧ ∀ k ∈ p, '/' ∉ k := by
  unfold leafOf at h
  rw [← mem_flattenItems l hl] at h
  exact ⟨flattenItems_paths l _ h, flattenItems_sep l hl _ h⟩

theorem key_of_leaf {V : Type} {l : List (Key × FlatDict.Tree V)} (hl : ItemsOk l) {p : List Key} {v : V} (h : leafOf l p = some v) :
    join p ∈ PyDict.keys (flatten l) ∧ PyDict.get? (flatten l) (join p) = some (.leaf v) := by
  have hg := (get?_flatten_leaf l hl p (path_ok hl h).1 (path_ok hl h).2 v).2 h
  refine ⟨?_, hg⟩
  by_contra hn
  rw [(PyDict.get?_eq_none _ _).2 hn] at hg
  cases hg

/-- The leaf of a key of the flat dict. -/
theorem leaf_of_key {V : Type} {l : List (Key × FlatDict.Tree V)} (hl : ItemsOk l) {k : Key} {v : V}
    (h : PyDict.get? (flatten l) k = some (.leaf v)) : ∃ p, k = join p ∧ leafOf l p = some v := by
  rw [PyDict.get?_eq_some _ (flatten_keys_nodup l hl), flatten_eq l hl, List.mem_map] at h
  obtain ⟨⟨p, f⟩, h1, h2⟩ := h
  simp only [Prod.mk.injEq] at h2
  obtain ⟨rfl, rfl⟩ := h2
  exact ⟨p, rfl, (mem_flattenItems l hl p v).1 h1⟩

theorem join_inj {p q : List Key} (hp : p ≠ [] ∧ ∀ k ∈ p, '/' ∉ k) (hq : q ≠ [] ∧ ∀ k ∈ q, '/' ∉ k) (h : join p = join q) : p = q := by
  rw [← split_join p hp.1 hp.2, ← split_join q hq.1 hq.2, h]

/-- How a restored parameter is made from the one of the checkpoint: a position embedding is resized (as C57 says), the parameters of a
router that is reshaped have the same entries in the same order, all others have the same shape and entries.  Entries are
converted to the type of the model. -/
def RestoredFrom [DecidableEq D] (env : Env D α) (run : Run) (name : Key) (x t v : Arr D α) : Prop :=
  v.dtype = t.dtype ∧ v.value.shape = t.value.shape ∧
  (Position name → ∃ y, InitRules.vitZoom env.sqrt env.zoom (env.noise (x.value.shape.getD 2 0)) x.value
      (if t.abstract then none else some t.value) t.value.shape = .ok y ∧ y.shape = t.value.shape ∧
      (x.dtype = t.dtype → env.promote x.dtype t.dtype = t.dtype → ∀ idx, v.value.get idx = y.get idx)) ∧
  (¬ Position name → Router run name → x.value.shape.prod = t.value.shape.prod ∧
      entries v.value = (entries x.value).map (conv env x.dtype t.dtype)) ∧
  (Plain run name → x.value.shape = t.value.shape ∧ ∀ idx, v.value.get idx = conv env x.dtype t.dtype (x.value.get idx))

theorem restored_of_applyTx [DecidableEq D] (env : Env D α) (run : Run) (k : Key) (s : Single) (x t v : Arr D α)
    (hs : (Position k ∧ s = .vitZoom) ∨ (¬ Position k ∧ Router run k ∧ s = .reshape none) ∨ (¬ Position k ∧ ¬ Router run k ∧ s = .copy))
    (h : applyTx env flags (.single s x t) = .ok v) : RestoredFrom env run k x t v := by
  obtain ⟨h1, h2⟩ := C56_target_shape env flags _ v h
  refine ⟨h1, h2, ?_, ?_, ?_⟩
  · intro hp
    rcases hs with ⟨_, rfl⟩ | ⟨hn, _⟩ | ⟨hn, _⟩
    · have hw : ∃ w, (Tx.single .vitZoom x t).call env = .ok w := by
        unfold applyTx at h
        obtain ⟨w, hw, _⟩ := ebind h
        exact ⟨w, hw⟩
      obtain ⟨w, hw⟩ := hw
      obtain ⟨h3, h4⟩ := (C56_no_broadcast env flags rfl _ w hw).2 v h
      unfold Tx.call at hw
      simp only at hw
      obtain ⟨y, hy, hw⟩ := ebind hw
      obtain ⟨⟨a, _⟩, _, hw⟩ := ebind hw
      obtain ⟨⟨b, _⟩, _, hw⟩ := ebind hw
      have hw : (if b && !a then astype env (env.promote x.dtype t.dtype) ⟨x.dtype, y, false⟩ else ⟨x.dtype, y, false⟩ : Arr D α) = w := by
        cases hw; rfl
      refine ⟨y, hy, ?_, ?_⟩
      · rw [← hw] at h3
        refine Eq.trans ?_ h3
        split
        · unfold astype; split <;> rfl
        · rfl
      · intro hd hpr idx
        have hw' : w = ⟨x.dtype, y, false⟩ := by
          rw [← hw]
          split
          · unfold astype
            rw [if_pos (by rw [hpr, ← hd])]
          · rfl
        rw [h4 idx, hw']
        exact if_pos hd
    · exact absurd hp hn
    · exact absurd hp hn
  · intro hn hr
    rcases hs with ⟨hp, _⟩ | ⟨_, _, rfl⟩ | ⟨_, hnr, _⟩
    · exact absurd hp hn
    · obtain ⟨h3, h4, _⟩ := made_of_applyTx env flags rfl (.reshape .none .none) _ rfl x t v h
      exact ⟨h4 (.inl rfl), h3⟩
    · exact absurd hr hnr
  · rintro ⟨_, hn, hnr⟩
    rcases hs with ⟨hp, _⟩ | ⟨_, hr, _⟩ | ⟨_, _, rfl⟩
    · exact absurd hp hn
    · exact absurd hr hnr
    · exact made_of_applyTx env flags rfl (.regex .none) _ rfl x t v h

/-- C137 (fine-tuning).  If a model is initialized from a checkpoint as a fine-tuning configuration says, every parameter of the
checkpoint, except the ones whose names contain `head` (or `pre_logits/` for V-MoE-S/32), is restored: the model has a parameter of
the same name, and it is made from the one of the checkpoint.  All other arrays of the training state, as the head and the state of
the optimizer, keep their values. -/
theorem C137_restored [DecidableEq D] (env : Env D α) (run : Run) (source target : List (Key × FlatDict.Tree (Arr D α)))
    (hs : ItemsOk source) (ht : ItemsOk target) (hnl : ∀ k ∈ PyDict.keys (flatten source), '\n' ∉ k) (r : FlatDict.Tree (Arr D α))
    (h : restore env run source target = .ok r) :
    ∃ l, r = .node l ∧
      (∀ p x, leafOf source p = some x → ¬ Dropped run (join p) → ∃ t v, leafOf target ("params".toList :: p) = some t ∧
        leafOf l ("params".toList :: p) = some v ∧ RestoredFrom env run (join p) x t v) ∧
      (∀ q t, leafOf target q = some t →
        (∀ p x, leafOf source p = some x → ¬ Dropped run (join p) → q ≠ "params".toList :: p) → leafOf l q = some t) := by
  rw [restore_eq] at h
  obtain ⟨l, rfl, _, hl⟩ := C54_assignment env (ruleList run) flags source target ht r h
  refine ⟨l, rfl, ?_, ?_⟩
  · intro p x hp hd
    obtain ⟨hk, hg⟩ := key_of_leaf hs hp
    have hok := path_ok hs hp
    have hgo := goes_of (hnl _ hk) hd
    have hq : ("params".toList :: p) ≠ [] ∧ ∀ k ∈ "params".toList :: p, '/' ∉ k := by
      refine ⟨by simp, fun k hk => ?_⟩
      rcases List.mem_cons.1 hk with rfl | hk
      · decide
      · exact hok.2 k hk
    rw [← join_params p hok.1] at hgo
    obtain ⟨x', t, hx', htl⟩ : ∃ x' t, PyDict.get? (flatten source) (join p) = some (.leaf x') ∧
        PyDict.get? (flatten target) (join ("params".toList :: p)) = some (.leaf t) := by
      rcases C54_sources_used env _ _ source target ht _ h _ _ _ hk hgo with h1 | ⟨h1, _⟩
      · exact h1
      · rw [hg] at h1; cases h1
    rw [get?_flatten_leaf target ht _ hq.1 hq.2] at htl
    obtain ⟨v, hv, hcase⟩ := hl _ t htl
    refine ⟨t, v, htl, hv, ?_⟩
    rcases hcase with ⟨h1, _⟩ | ⟨k', a, s, y, hk', hga, _, hak, hgy, happ⟩ | ⟨k', ks, a, axis, xs, hiff, _, _, hga, hak, _, _⟩
    · exact absurd hgo (h1 _ hk _)
    · obtain ⟨_, he, hkind⟩ := goes_params (hnl _ hk') hga
      rw [join_params p hok.1] at he
      have hkk : join p = k' := List.append_cancel_left he
      subst hkk
      rw [hg] at hgy
      cases hgy
      refine restored_of_applyTx env run _ s x t v ?_ happ
      rw [hak] at hkind
      simpa using hkind
    · exfalso
      have hk' : k' ∈ PyDict.keys (flatten source) := by
        exact ((hiff k').1 (by simp)).1
      obtain ⟨_, _, hkind⟩ := goes_params (hnl _ hk') hga
      rw [hak] at hkind
      simp at hkind
  · intro q t hq hno
    obtain ⟨v, hv, hcase⟩ := hl q t hq
    have hcontra : ∀ k ∈ PyDict.keys (flatten source), ∀ a x, GoesTo (ruleList run) k (join q) a →
        PyDict.get? (flatten source) k = some (.leaf x) → False := by
      intro k hk a x hga hx
      obtain ⟨hd, he, _⟩ := goes_params (hnl _ hk) hga
      obtain ⟨p, rfl, hp⟩ := leaf_of_key hs hx
      have hok := path_ok hs hp
      rw [← join_params p hok.1] at he
      refine hno p x hp hd (join_inj (path_ok ht hq) ⟨by simp, fun k hk => ?_⟩ he)
      rcases List.mem_cons.1 hk with rfl | hk
      · decide
      · exact hok.2 k hk
    rcases hcase with ⟨_, rfl⟩ | ⟨k', a, s, y, hk', hga, _, _, hgy, _⟩ | ⟨k', ks, a, axis, xs, hiff, _, _, hga, _, hall, _⟩
    · exact hv
    · exact (hcontra k' hk' a y hga hgy).elim
    · cases hall with
      | cons h1 _ => exact (hcontra k' ((hiff k').1 (by simp)).1 a _ hga h1).elim

/-- The parameter of the checkpoint can be made into the one of the model: position embeddings of square grids, with or without a
class token; as many entries for the routers that are reshaped; the same shape for all others. -/
def Fits (run : Run) (name : Key) (x t : Arr D α) : Prop :=
  (Position name → ∃ n m h, x.value.shape = [1, n, h] ∧ t.value.shape = [1, m, h] ∧ 0 < n ∧ 0 < h ∧
    (∃ k, n = k ^ 2 ∨ n = k ^ 2 + 1) ∧ ∃ k, m = k ^ 2 ∨ m = k ^ 2 + 1) ∧
  (¬ Position name → Router run name → x.value.shape.prod = t.value.shape.prod) ∧
  (Plain run name → x.value.shape = t.value.shape)

theorem applyTx_ok [DecidableEq D] (env : Env D α) (tx : Tx D α) (w : Arr D α) (hw : tx.call env = .ok w)
    (hs : w.value.shape = tx.target.value.shape) : ∃ v, applyTx env flags tx = .ok v := by
  refine ⟨astype env tx.target.dtype w, ?_⟩
  have hsh : (astype env tx.target.dtype w).value.shape = tx.target.value.shape := by
    rw [← hs]
    unfold astype
    split <;> rfl
  unfold applyTx
  rw [hw]
  change (if w.dtype ≠ tx.target.dtype ∧ flags.raiseDtype = true then _ else _ : Except PyErr _) = _
  rw [if_neg (by simp [flags])]
  rw [if_pos hsh]
  rfl

theorem noEmpty_keys {l : List (Key × FlatDict.Tree (Arr D α))} (hl : ItemsOk l) (hn : NoEmptyItems l) {k : Key}
    (hk : k ∈ PyDict.keys (flatten l)) : ∃ p x, k = join p ∧ leafOf l p = some x := by
  rw [flatten_eq l hl, PyDict.keys, List.map_map, List.mem_map] at hk
  obtain ⟨⟨p, f⟩, h1, rfl⟩ := hk
  obtain ⟨v, hv⟩ := Optimizer.flattenItems_leaves l hn [] _ h1
  simp only at hv
  subst hv
  exact ⟨p, v, rfl, (mem_flattenItems l hl p v).1 h1⟩

/-- C137.  Such an initialization succeeds exactly if every parameter of the checkpoint that is not dropped has a parameter of the
same name in the model, to which it fits.  Otherwise it raises; nothing is left out without notice. -/
theorem C137_succeeds [DecidableEq D] (env : Env D α) (hsq : ∀ n ≤ 2 ^ 52, env.sqrt n = Nat.sqrt n)
    (hz : ∀ x s, (env.zoom x s).shape = s) (hno : ∀ n, (env.noise n).shape = [1, 1, n]) (run : Run)
    (source target : List (Key × FlatDict.Tree (Arr D α))) (hs : ItemsOk source) (hn : NoEmptyItems source) (ht : ItemsOk target)
    (hnl : ∀ k ∈ PyDict.keys (flatten source), '\n' ∉ k)
    (hbs : ∀ p x, leafOf source p = some x → ∀ d ∈ x.value.shape, d ≤ 2 ^ 52)
    (hbt : ∀ p t, leafOf target p = some t → ∀ d ∈ t.value.shape, d ≤ 2 ^ 52) :
    (∃ r, restore env run source target = .ok r) ↔
      ∀ p x, leafOf source p = some x → ¬ Dropped run (join p) →
        ∃ t, leafOf target ("params".toList :: p) = some t ∧ Fits run (join p) x t := by
  constructor
  · rintro ⟨r, h⟩ p x hp hd
    obtain ⟨l, _, h1, _⟩ := C137_restored env run source target hs ht hnl r h
    obtain ⟨t, v, h2, _, h3, h4, h5, h6, h7⟩ := h1 p x hp hd
    refine ⟨t, h2, ?_, fun a b => (h6 a b).1, fun a => (h7 a).1⟩
    intro hpos
    obtain ⟨y, hy, _⟩ := h5 hpos
    exact (InitRules.C57_zoom_total env.sqrt hsq env.zoom hz _ x.value _ _ (hbs p x hp) (hbt _ t h2)).1 ⟨y, hy⟩
  · intro hall
    rw [show (∃ r, restore env run source target = .ok r) ↔ ∃ r, mapStateDict env (ruleList run) flags source target = .ok r from
      by rw [restore_eq]]
    -- the target of a name
    have hto : ∀ k ∈ PyDict.keys (flatten source), ∀ dst a, GoesTo (ruleList run) k dst a →
        ∃ p x t, k = join p ∧ leafOf source p = some x ∧ PyDict.get? (flatten source) k = some (.leaf x) ∧
          leafOf target ("params".toList :: p) = some t ∧ PyDict.get? (flatten target) dst = some (.leaf t) ∧ Fits run k x t := by
      intro k hk dst a hga
      obtain ⟨hd, he, _⟩ := goes_params (hnl k hk) hga
      obtain ⟨p, x, rfl, hp⟩ := noEmpty_keys hs hn hk
      obtain ⟨t, h1, h2⟩ := hall p x hp hd
      refine ⟨p, x, t, rfl, hp, (key_of_leaf hs hp).2, h1, ?_, h2⟩
      rw [he, ← join_params p (path_ok hs hp).1]
      exact (key_of_leaf ht h1).2
    refine C54_success env (ruleList run) flags source target hs ht ?_ ?_ ?_ ?_ ?_ ?_
    · intro _ k hk
      cases hf : find (ruleList run) k with
      | some r => exact ⟨r, find_some _ _ _ hf⟩
      | none =>
        exfalso
        have := (find_none _ _).1 hf rAll (by cases run <;> simp [ruleList])
        have h2 : RegexSub.search tAll k = true := (RegexSub.C136_search _ _).2 (s_all (hnl k hk))
        change RegexSub.search tAll k = false at this
        rw [h2] at this
        cases this
    · intro k hk dst a hga
      obtain ⟨p, x, t, _, _, h1, _, h2, _⟩ := hto k hk dst a hga
      refine .inl ⟨x, t, h1, h2, ?_⟩
      obtain ⟨_, _, hkind⟩ := goes_params (hnl k hk) hga
      rcases hkind with ⟨_, h⟩ | ⟨_, _, h⟩ | ⟨_, _, h⟩ <;> rw [h] <;> simp
    · intro k hk k' hk' dst a a' hne hga hga'
      obtain ⟨_, h1, _⟩ := goes_params (hnl k hk) hga
      obtain ⟨_, h2, _⟩ := goes_params (hnl k' hk') hga'
      exact absurd (List.append_cancel_left (h1.symm.trans h2)) hne
    · intro h
      cases h
    · intro k hk dst a s x t hga hak hx htl
      obtain ⟨p, x', t', rfl, hp, h1, hpt, h2, h3, h4, h5⟩ := hto k hk dst a hga
      rw [hx] at h1
      cases h1
      rw [htl] at h2
      cases h2
      obtain ⟨hd, _, hkind⟩ := goes_params (hnl _ hk) hga
      rw [hak] at hkind
      rcases hkind with ⟨hpos, h⟩ | ⟨hpos, hr, h⟩ | ⟨hpos, hr, h⟩
      · cases h
        have hbx := hbs p x hp
        have hby := hbt _ t hpt
        have hex := h3 hpos
        obtain ⟨y, hy⟩ := (InitRules.C57_zoom_total env.sqrt hsq env.zoom hz (env.noise (x.value.shape.getD 2 0)) x.value
          (if t.abstract then none else some t.value) t.value.shape hbx hby).2 hex
        obtain ⟨n, m, h', hsx, hst, _, _, hn', hm'⟩ := hex
        have hysh : y.shape = t.value.shape := by
          obtain ⟨_, _, _, _, _, _, _, _, _, h6, _⟩ := InitRules.C57_zoom env.sqrt hsq env.zoom hz _ x.value y _ t.value.shape
            (by rw [hno, hsx, hst]; rfl) (by
              intro t' ht'
              split at ht'
              · cases ht'
              · cases ht'; rfl) hbx hby hy
          exact h6
        obtain ⟨⟨a1, g1⟩, e1⟩ := (InitRules.C57_accepted env.sqrt hsq n 0 (hbx n (by simp [hsx]))).2 hn'
        obtain ⟨⟨a2, g2⟩, e2⟩ := (InitRules.C57_accepted env.sqrt hsq m 0 (hby m (by simp [hst]))).2 hm'
        refine applyTx_ok env _ (if a2 && !a1 then astype env (env.promote x.dtype t.dtype) ⟨x.dtype, y, false⟩
          else ⟨x.dtype, y, false⟩) ?_ ?_
        · unfold Tx.call
          simp only
          rw [hy]
          simp only [hsx, hst, List.getD_cons_succ, List.getD_cons_zero]
          change (InitRules.tokAndGrid env.sqrt n 0 >>= _) = _
          rw [e1]
          change (InitRules.tokAndGrid env.sqrt m 0 >>= _) = _
          rw [e2]
          rfl
        · refine Eq.trans ?_ hysh
          split
          · unfold astype; split <;> rfl
          · rfl
      · cases h
        exact (C87_reshape_default env flags .none .none (.inl rfl) _ rfl x t).1 (h4 hpos hr) (by simp [flags])
      · cases h
        exact applyTx_ok env _ x rfl (h5 ⟨hd, hpos, hr⟩)
    · intro k ks dst a axis xs t hiff _ hga hak
      obtain ⟨_, _, hkind⟩ := goes_params (hnl _ ((hiff k).1 (by simp)).1) hga
      rw [hak] at hkind
      simp at hkind

/-- C137.  A position embedding of the same shape is restored as it is, if zooming to the same grid changes nothing. -/
theorem C137_same_grid [DecidableEq D] (env : Env D α) (hsq : ∀ n ≤ 2 ^ 52, env.sqrt n = Nat.sqrt n)
    (hz : ∀ x s, (env.zoom x s).shape = s) (hid : ∀ x, NdArray.Same (env.zoom x x.shape) x)
    (hno : ∀ n, (env.noise n).shape = [1, 1, n]) (run : Run) (name : Key) (hp : Position name) (x t v : Arr D α)
    (hd : x.dtype = t.dtype) (hpr : env.promote x.dtype t.dtype = t.dtype) (hsh : x.value.shape = t.value.shape)
    (hb : ∀ d ∈ x.value.shape, d ≤ 2 ^ 52) (h : RestoredFrom env run name x t v) : NdArray.Same v.value x.value := by
  obtain ⟨_, h2, h3, _⟩ := h
  obtain ⟨y, hy, hys, hyv⟩ := h3 hp
  rw [← hsh] at hy
  have hsame := InitRules.C57_zoom_same env.sqrt hsq env.zoom hz hid _ x.value y _ (hno _) (by
    intro t' ht'
    split at ht'
    · cases ht'
    · cases ht'; exact hsh.symm) hb hy
  refine ⟨h2.trans hsh.symm, fun idx hidx => ?_⟩
  rw [hyv hd hpr]
  refine hsame.2 idx ?_
  rw [hys, ← h2]
  exact hidx

/-- C137.  From the files of a checkpoint: whatever number of processes, shards and chunks it was saved with, and however it is read,
the configuration's rules are applied to exactly the arrays that were saved. -/
theorem C137_checkpoint [DecidableEq D] (zero : α) (P : Nat) (hP : 0 < P) (ns mb : Option Nat)
    (tree : List (Key × FlatDict.Tree (InitVmoe.Saved D α))) (htree : ItemsOk tree)
    (hok : ∀ s ∈ InitVmoe.leaves tree, Ckpt.Spec.LeafOk P s.array)
    (hz : ∀ s ∈ InitVmoe.leaves tree, ∀ idx, ¬ Ckpt.Spec.ValidIdx s.array.value.shape idx → s.array.value.get idx = zero)
    (views : Nat → List (Key × FlatDict.Tree (InitVmoe.Saved D α)))
    (hviews : ∀ p < P, List.Forall₂ (fun a b => a.dtype = b.dtype ∧ Ckpt.Spec.SameArray a.array b.array)
      (InitVmoe.leaves tree) (InitVmoe.leaves (views p)))
    (hsame : InitVmoe.sameStructure tree (views 0) = true) :
    ∃ (out : Nat → Ckpt.ProcessOutput α × Option (InitVmoe.IndexFile D)) (index : InitVmoe.IndexFile D)
      (source : List (Key × FlatDict.Tree (Arr D α))),
      (∀ p < P, InitVmoe.saveTree P p ns mb (views p) = .ok (out p)) ∧ (out 0).2 = some index ∧ ItemsOk source ∧
      (∀ path s, leafOf tree path = some s → leafOf source path = some s.arr) ∧
      (∀ path, leafOf tree path = none → leafOf source path = none) ∧
      ∀ sh : InitVmoe.Sharding α, InitVmoe.ShardingOk (InitVmoe.leaves tree) sh → ∀ (env : Env D α) (run : Run)
        (target : List (Key × FlatDict.Tree (Arr D α))),
        start env zero run sh ((List.range P).map fun p => (out p).1) index target = restore env run source target := by
  obtain ⟨out, index, source, h1, h2, _, _, h3, h4, h5, h6⟩ :=
    InitVmoe.C84_initialize zero P hP ns mb tree htree hok hz views hviews hsame
  refine ⟨out, index, source, h1, h2, h3, h4, h5, fun sh hsh env run target => ?_⟩
  have hv : index.version ≠ none := by
    have := h1 0 hP
    unfold InitVmoe.saveTree at this
    obtain ⟨o, _, this⟩ := ebind this
    split at this
    · injection this with this
      rw [← this] at h2
      cases h2
    · obtain ⟨i, _, this⟩ := ebind this
      injection this with this
      rw [← this] at h2
      cases h2
      simp
  unfold start
  rw [if_neg (fun h => hv h.1), (h6 sh hsh).1]
  rfl

/-! A model with four tokens on its grid and a class token, from a checkpoint with nine and none. -/

def exArr (s : List Nat) (f : List Nat → Nat) : Arr Nat Nat := ⟨0, ⟨s, f⟩, false⟩

def exEnv : Env Nat Nat :=
  { cast := fun _ x => x, promote := fun a _ => a, noise := fun n => ⟨[1, 1, n], fun _ => 9⟩, sqrt := Nat.sqrt,
    zoom := fun x s => ⟨s, x.get⟩, float := id }

def exSource : List (Key × FlatDict.Tree (Arr Nat Nat)) :=
  [("Encoder".toList, .node
     [("pos_embedding".toList, .leaf (exArr [1, 9, 2] fun i => i.sum)),
      ("Moe".toList, .node [("Router".toList, .node [("dense".toList, .node [("kernel".toList, .leaf (exArr [2, 4] fun i => i.sum))])])])]),
   ("MapHead".toList, .node [("bias".toList, .leaf (exArr [3] fun _ => 5))]),
   ("head".toList, .node [("bias".toList, .leaf (exArr [10] fun _ => 6))])]

def exTarget : List (Key × FlatDict.Tree (Arr Nat Nat)) :=
  [("params".toList, .node
    [("Encoder".toList, .node
       [("pos_embedding".toList, .leaf (exArr [1, 5, 2] fun _ => 0)),
        ("Moe".toList, .node [("Router".toList, .node [("dense".toList, .node [("kernel".toList, .leaf (exArr [2, 2, 2] fun _ => 0))])])])]),
     ("MapHead".toList, .node [("bias".toList, .leaf (exArr [3] fun _ => 0))]),
     ("head".toList, .node [("bias".toList, .leaf (exArr [7] fun _ => 1))])])]

theorem exSource_ok : ItemsOk exSource := by simp [exSource, ItemsOk, FlatDict.Tree.Ok, PyDict.keys]

theorem exTarget_ok : ItemsOk exTarget := by simp [exTarget, ItemsOk, FlatDict.Tree.Ok, PyDict.keys]

theorem exSource_keys : PyDict.keys (flatten exSource) = ["Encoder/pos_embedding".toList, "Encoder/Moe/Router/dense/kernel".toList,
    "MapHead/bias".toList, "head/bias".toList] := by decide +kernel

theorem exSource_leaf {p : List Key} {x : Arr Nat Nat} (h : leafOf exSource p = some x) :
    (p = ["Encoder".toList, "pos_embedding".toList] ∧ x = exArr [1, 9, 2] fun i => i.sum) ∨
    (p = ["Encoder".toList, "Moe".toList, "Router".toList, "dense".toList, "kernel".toList] ∧ x = exArr [2, 4] fun i => i.sum) ∨
    (p = ["MapHead".toList, "bias".toList] ∧ x = exArr [3] fun _ => 5) ∨
    (p = ["head".toList, "bias".toList] ∧ x = exArr [10] fun _ => 6) := by
  have := (mem_flattenItems exSource exSource_ok p x).2 h
  simp only [exSource, flattenItems, flattenAt, List.append_nil, List.nil_append, List.cons_append, List.mem_cons, List.not_mem_nil,
    or_false, Prod.mk.injEq, FlatDict.Flat.leaf.injEq] at this
  exact this

theorem exTarget_leaf {p : List Key} {x : Arr Nat Nat} (h : leafOf exTarget p = some x) :
    x.value.shape = [1, 5, 2] ∨ x.value.shape = [2, 2, 2] ∨ x.value.shape = [3] ∨ x.value.shape = [7] := by
  have := (mem_flattenItems exTarget exTarget_ok p x).2 h
  simp only [exTarget, flattenItems, flattenAt, List.append_nil, List.nil_append, List.cons_append, List.mem_cons, List.not_mem_nil,
    or_false, Prod.mk.injEq, FlatDict.Flat.leaf.injEq] at this
  rcases this with ⟨_, rfl⟩ | ⟨_, rfl⟩ | ⟨_, rfl⟩ | ⟨_, rfl⟩ <;> simp [exArr]

theorem exNewline : ∀ k ∈ PyDict.keys (flatten exSource), '\n' ∉ k := by
  rw [exSource_keys]
  decide +kernel

instance (run : Run) (name : Key) : Decidable (Dropped run name) := by unfold Dropped; infer_instance
instance (name : Key) : Decidable (Position name) := by unfold Position; infer_instance
instance (run : Run) (name : Key) : Decidable (Router run name) := by unfold Router; infer_instance

theorem exSucceeds : ∃ r, restore exEnv .eee exSource exTarget = .ok r := by
  refine (C137_succeeds exEnv (fun _ _ => rfl) (fun _ _ => rfl) (fun _ => rfl) .eee exSource exTarget exSource_ok
    (by simp [exSource, NoEmptyItems, NoEmpty]) exTarget_ok exNewline ?_ ?_).2 ?_
  · intro p x h
    rcases exSource_leaf h with ⟨_, rfl⟩ | ⟨_, rfl⟩ | ⟨_, rfl⟩ | ⟨_, rfl⟩ <;> simp [exArr]
  · intro p x h
    rcases exTarget_leaf h with h | h | h | h <;> rw [h] <;> simp
  · intro p x h hd
    rcases exSource_leaf h with ⟨rfl, rfl⟩ | ⟨rfl, rfl⟩ | ⟨rfl, rfl⟩ | ⟨rfl, rfl⟩
    · refine ⟨exArr [1, 5, 2] fun _ => 0, rfl, fun _ => ⟨9, 5, 2, rfl, rfl, by decide, by decide, ⟨3, .inl rfl⟩, ⟨2, .inr rfl⟩⟩, ?_, ?_⟩
      · intro h
        exact absurd (by decide +kernel) h
      · rintro ⟨_, h, _⟩
        exact absurd (by decide +kernel) h
    · refine ⟨exArr [2, 2, 2] fun _ => 0, rfl, fun h => ?_, fun _ _ => rfl, ?_⟩
      · exact absurd h (by decide +kernel)
      · rintro ⟨_, _, h⟩
        exact absurd (by decide +kernel) h
    · refine ⟨exArr [3] fun _ => 0, rfl, fun h => ?_, fun _ h => ?_, fun _ => rfl⟩
      · exact absurd h (by decide +kernel)
      · exact absurd h (by decide +kernel)
    · exact absurd (by decide +kernel) hd

/-- The head of the new task is as it was; the bias of `MapHead` comes from the checkpoint, as the pattern `head` has a small letter. -/
example : ∃ r l v w, restore exEnv .eee exSource exTarget = .ok r ∧ r = .node l ∧
    leafOf l ["params".toList, "head".toList, "bias".toList] = some v ∧ v.value.shape = [7] ∧ v.value.get [0] = 1 ∧
    leafOf l ["params".toList, "MapHead".toList, "bias".toList] = some w ∧ w.value.get [0] = 5 := by
  obtain ⟨r, hr⟩ := exSucceeds
  obtain ⟨l, h1, h2, h3⟩ := C137_restored _ _ _ _ exSource_ok exTarget_ok exNewline r hr
  have hh : leafOf l ["params".toList, "head".toList, "bias".toList] = some (exArr [7] fun _ => 1) := by
    refine h3 _ _ rfl fun p x hp hd h => ?_
    cases h
    exact hd (by decide +kernel)
  obtain ⟨t, v, ht, hv, _, _, _, _, h4⟩ := h2 ["MapHead".toList, "bias".toList] (exArr [3] fun _ => 5) rfl (by decide +kernel)
  have h5 := h4 ⟨by decide +kernel, by decide +kernel, by decide +kernel⟩
  cases ht
  exact ⟨r, l, _, v, hr, h1, hh, rfl, rfl, hv, (h5.2 [0]).trans rfl⟩

/-- A checkpoint with a parameter that the model does not have is refused. -/
example : ∃ e, restore exEnv .b16Cifar10 exSource [] = .error e := by
  cases h : restore exEnv .b16Cifar10 exSource [] with
  | error e => exact ⟨e, rfl⟩
  | ok r =>
    obtain ⟨_, _, h2, _⟩ := C137_restored _ _ _ _ exSource_ok (by simp [ItemsOk]) exNewline r h
    obtain ⟨t, _, ht, _⟩ := h2 ["MapHead".toList, "bias".toList] (exArr [3] fun _ => 5) rfl (by decide +kernel)
    cases ht

/-- The hypotheses of `C137_same_grid`: a position embedding of the same shape keeps its entries. -/
example (v : Arr Nat Nat)
    (h : RestoredFrom exEnv .eee "Encoder/pos_embedding".toList (exArr [1, 5, 2] fun i => i.sum) (exArr [1, 5, 2] fun _ => 0) v) :
    v.value.get [0, 4, 1] = 5 :=
  (C137_same_grid exEnv (fun _ _ => rfl) (fun _ _ => rfl) (fun _ => ⟨rfl, fun _ _ => rfl⟩) (fun _ => rfl) .eee
    "Encoder/pos_embedding".toList (by decide +kernel) (exArr [1, 5, 2] fun i => i.sum) (exArr [1, 5, 2] fun _ => 0) v
    rfl rfl rfl (by simp [exArr]) h).2 [0, 4, 1] (by rw [h.2.1]; simp [exArr, NdArray.Valid])

/-- The hypotheses of `C137_checkpoint`, for a tree of arrays in the files of two processes. -/
example : ∃ (out : Nat → Ckpt.ProcessOutput Nat × Option (InitVmoe.IndexFile Nat)) (index : InitVmoe.IndexFile Nat)
    (source : List (Key × FlatDict.Tree (Arr Nat Nat))),
    InitVmoe.saveTree 2 0 (some 3) (some 8) InitVmoe.exTree = .ok (out 0) ∧
    ∀ target, start exEnv 0 .eee InitVmoe.exSharding [(out 0).1, (out 1).1] index target = restore exEnv .eee source target := by
  obtain ⟨out, index, source, h1, _, _, _, _, h6⟩ := C137_checkpoint (D := Nat) 0 2 (by decide) (some 3) (some 8) InitVmoe.exTree
    (by simp [InitVmoe.exTree, ItemsOk, FlatDict.Tree.Ok, PyDict.keys])
    (by
      rw [InitVmoe.exTree_leaves]
      simp only [List.mem_cons, List.not_mem_nil, or_false, forall_eq_or_imp, forall_eq]
      exact ⟨InitVmoe.clip_ok _ Ckpt.exLeaf2_ok, InitVmoe.clip_ok _ Ckpt.exLeaf1_ok⟩)
    (by
      rw [InitVmoe.exTree_leaves]
      simp only [List.mem_cons, List.not_mem_nil, or_false, forall_eq_or_imp, forall_eq]
      exact ⟨fun idx h => if_neg h, fun idx h => if_neg h⟩)
    (fun _ => InitVmoe.exTree) (fun _ _ => by
      rw [InitVmoe.exTree_leaves]
      exact .cons ⟨rfl, rfl, rfl, .refl _⟩ (.cons ⟨rfl, rfl, rfl, .refl _⟩ .nil))
    (by
      have := (InitVmoe.leavesOf_map (fun s : InitVmoe.Saved Nat Nat => s) [] (InitVmoe.sortItems InitVmoe.exTree)).2
      have h2 := InitVmoe.sameOf_symm _ _ this
      exact InitVmoe.sameOf_trans _ _ _ this h2)
  refine ⟨out, index, source, h1 0 (by decide), fun target => h6 InitVmoe.exSharding ⟨fun _ _ => .refl _, ?_, ?_⟩ exEnv .eee target⟩
  · intro p _ i s _ d hd
    simp only [InitVmoe.exSharding, List.mem_cons, List.not_mem_nil, or_false] at hd
    subst hd
    exact ⟨by simp, fun idx h => (InitVmoe.exInIndex _ _).1 h⟩
  · intro i s _ idx h
    exact ⟨0, by decide, _, List.mem_singleton.2 rfl, (InitVmoe.exInIndex _ _).2 h⟩

end Verif.FineTune
