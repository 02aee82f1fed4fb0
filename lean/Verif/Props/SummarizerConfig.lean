import Verif.Model.SummarizerConfig
import Verif.Proofs.Mapping
import Verif.Proofs.InitVmoe

/-!
C114: configuration of the summarizer of arrays.
-/

namespace Verif.Summarizer

open Verif

variable {R : Type}

/-! ### Specification -/

/-- A pattern in a configuration and the compiled pattern that it means. -/
inductive PatMeans (compile : List Char → Except PyErr R) : Val R → R → Prop
  | str (s : List Char) (r : R) : compile s = .ok r → PatMeans compile (.str s) r
  | pat (r : R) : PatMeans compile (.pat r) r

/-- A rule in a configuration: a pattern alone, or a sequence of a pattern and transforms. -/
inductive RuleMeans (compile : List Char → Except PyErr R) : Val R → R × List (Val R) → Prop
  | alone (p : Val R) (r : R) : PatMeans compile p r → RuleMeans compile p (r, [])
  | seq (p : Val R) (ts : List (Val R)) (r : R) : PatMeans compile p r → RuleMeans compile (.seq (p :: ts)) (r, ts)

/-- A rule that is not a dict. -/
def NotDict : Val R → Prop
  | .dict _ => False
  | _ => True

theorem compilePat_iff (compile : List Char → Except PyErr R) (p : Val R) (r : R) : compilePat compile p = .ok r ↔ PatMeans compile p r := by
  constructor
  · intro h
    cases p with
    | str s => exact .str s r h
    | pat q => injection h with h; subst h; exact .pat q
    | none => cases h
    | int i => cases h
    | seq l => cases h
    | dict l => cases h
  · intro h
    cases h with
    | str s r h => exact h
    | pat r => rfl

theorem compileRule_str (compile : List Char → Except PyErr R) (s : List Char) :
    compileRule compile (.str s) = (compile s).map fun r => (r, []) := rfl

theorem compileRule_seq (compile : List Char → Except PyErr R) (p : Val R) (ts : List (Val R)) :
    compileRule compile (.seq (p :: ts)) = (compilePat compile p).map fun r => (r, ts) := by
  unfold compileRule Val.iter
  change (compilePat compile p >>= _ : Except PyErr _) = _
  cases compilePat compile p <;> rfl

theorem compileRule_iff (compile : List Char → Except PyErr R) (rule : Val R) (hd : NotDict rule) (q : R × List (Val R)) :
    compileRule compile rule = .ok q ↔ RuleMeans compile rule q := by
  constructor
  · intro h
    cases rule with
    | str s =>
      rw [compileRule_str] at h
      cases hc : compile s with
      | error e => rw [hc] at h; cases h
      | ok r =>
        rw [hc] at h
        injection h with h
        subst h
        exact .alone _ _ (.str s r hc)
    | pat r => injection h with h; subst h; exact .alone _ _ (.pat r)
    | none => cases h
    | int i => cases h
    | dict l => exact absurd hd id
    | seq l =>
      cases l with
      | nil => cases h
      | cons p ts =>
        rw [compileRule_seq] at h
        cases hc : compilePat compile p with
        | error e => rw [hc] at h; cases h
        | ok r =>
          rw [hc] at h
          injection h with h
          subst h
          exact .seq p ts r ((compilePat_iff compile p r).1 hc)
  · intro h
    cases h with
    | alone p r hp =>
      cases hp with
      | str s r hc =>
        rw [compileRule_str, hc]
        rfl
      | pat r => rfl
    | seq p ts r hp =>
      rw [compileRule_seq, (compilePat_iff compile p r).2 hp]
      rfl

/-! ### The property -/

/-- There is no summarizer exactly if nothing is configured. -/
theorem C114_none (compile : List Char → Except PyErr R) (config : Val R) :
    createTreeSummarizer compile config = .ok none ↔
      config = .none ∨ config = .str [] ∨ config = .int 0 ∨ config = .seq [] ∨ config = .dict [] := by
  unfold createTreeSummarizer
  constructor
  · intro h
    split at h
    · rename_i ht
      cases config with
      | none => exact .inl rfl
      | str s => cases s with
        | nil => exact .inr (.inl rfl)
        | cons => cases ht
      | pat r => cases ht
      | int i =>
        refine .inr (.inr (.inl ?_))
        unfold Val.truthy at ht
        rw [bne_eq_false_iff_eq] at ht
        rw [ht]
      | seq l => cases l with
        | nil => exact .inr (.inr (.inr (.inl rfl)))
        | cons => cases ht
      | dict l => cases l with
        | nil => exact .inr (.inr (.inr (.inr rfl)))
        | cons => cases ht
    · cases config with
      | seq l =>
        simp only at h
        cases hm : mkSummarizer compile (.seq l) 1 with
        | error e => rw [hm] at h; cases h
        | ok s => rw [hm] at h; cases h
      | dict l =>
        simp only at h
        cases hm : fromKwargs compile l with
        | error e => rw [hm] at h; cases h
        | ok s => rw [hm] at h; cases h
      | none => cases h
      | str s => cases h
      | pat r => cases h
      | int i => cases h
  · rintro (rfl | rfl | rfl | rfl | rfl) <;> rfl

/-- The rules of a list: one per item, in its order, with the pattern compiled and the transforms as given; each of at most one value.  The summarizer exists
exactly if all rules have a meaning. -/
theorem C114_list (compile : List Char → Except PyErr R) (rules : List (Val R)) (hne : rules ≠ []) (hd : ∀ r ∈ rules, NotDict r)
    (s : TreeSummarizer R) :
    createTreeSummarizer compile (.seq rules) = .ok (some s) ↔ List.Forall₂ (RuleMeans compile) rules s.rules ∧ s.maxSummaryValues = 1 := by
  have ht : (Val.seq rules).truthy ≠ false := by
    unfold Val.truthy
    cases rules with
    | nil => exact absurd rfl hne
    | cons => exact fun h => Bool.noConfusion h
  unfold createTreeSummarizer
  rw [if_neg ht]
  simp only
  unfold mkSummarizer Val.iter
  change (Except.map some (rules.mapM (compileRule compile) >>= _) : Except PyErr _) = _ ↔ _
  constructor
  · intro h
    cases hm : rules.mapM (compileRule compile) with
    | error e => rw [hm] at h; cases h
    | ok rs =>
      rw [hm] at h
      injection h with h
      injection h with h
      subst h
      refine ⟨?_, rfl⟩
      simp only
      have := Mapping.mapM_forall₂ hm
      clear hm ht hne
      induction this with
      | nil => exact .nil
      | cons hh _ ih => exact .cons ((compileRule_iff compile _ (hd _ (by simp)) _).1 hh) (ih fun r hr => hd r (by simp [hr]))
  · rintro ⟨h1, h2⟩
    obtain ⟨rs, m⟩ := s
    simp only at h1 h2
    subst h2
    have : rules.mapM (compileRule compile) = .ok rs := by
      clear ht hne
      induction h1 with
      | nil => rfl
      | cons hh _ ih =>
        rw [List.mapM_cons, (compileRule_iff compile _ (hd _ (by simp)) _).2 hh]
        change (List.mapM _ _ >>= _ : Except PyErr _) = _
        rw [ih fun r hr => hd r (by simp [hr])]
        rfl
    rw [this]
    rfl

/-- A dict with the rules, and possibly the largest number of values, means the same as a list; the default number is one. -/
theorem C114_dict (compile : List Char → Except PyErr R) (rules : List (Val R)) (hne : rules ≠ []) (m : Int) :
    createTreeSummarizer compile (.dict [("rules".toList, .seq rules)]) = createTreeSummarizer compile (.seq rules) ∧
    createTreeSummarizer compile (.dict [("rules".toList, .seq rules), ("max_summary_values".toList, .int m)]) =
      (createTreeSummarizer compile (.seq rules)).map (Option.map fun s => { s with maxSummaryValues := m }) ∧
    ∀ k v, k ≠ "rules".toList → k ≠ "max_summary_values".toList →
      createTreeSummarizer compile (.dict [("rules".toList, .seq rules), (k, v)]) = .error .typeError := by
  have ht : (Val.seq rules).truthy ≠ false := by
    unfold Val.truthy
    cases rules with
    | nil => exact absurd rfl hne
    | cons => exact fun h => Bool.noConfusion h
  have hs : createTreeSummarizer compile (.seq rules) = (mkSummarizer compile (.seq rules) 1).map some := by
    unfold createTreeSummarizer
    rw [if_neg ht]
  have hk : ¬ "rules".toList = "max_summary_values".toList := by decide
  refine ⟨?_, ?_, ?_⟩
  · rw [hs]
    have : createTreeSummarizer compile (.dict [("rules".toList, .seq rules)]) = (fromKwargs compile [("rules".toList, .seq rules)]).map some := rfl
    rw [this]
    congr 1
  · rw [hs]
    have : createTreeSummarizer compile (.dict [("rules".toList, .seq rules), ("max_summary_values".toList, .int m)]) =
      (fromKwargs compile [("rules".toList, .seq rules), ("max_summary_values".toList, .int m)]).map some := rfl
    rw [this]
    have h2 : fromKwargs compile [("rules".toList, .seq rules), ("max_summary_values".toList, .int m)] = mkSummarizer compile (.seq rules) m := rfl
    rw [h2]
    unfold mkSummarizer Val.iter
    change (Except.map some (rules.mapM (compileRule compile) >>= _) : Except PyErr _) =
      Except.map _ (Except.map some (rules.mapM (compileRule compile) >>= _))
    cases rules.mapM (compileRule compile) <;> rfl
  · intro k v h1 h2
    have : createTreeSummarizer compile (.dict [("rules".toList, .seq rules), (k, v)]) =
      (fromKwargs compile [("rules".toList, .seq rules), (k, v)]).map some := rfl
    rw [this]
    unfold fromKwargs
    rw [if_neg]
    · rfl
    · rw [List.all_eq_true]
      intro hall
      have := hall (k, v) (by simp only [List.mem_cons, true_or, or_true])
      rcases of_decide_eq_true this with h | h
      · exact h1 h
      · exact h2 h

/-- A summarizer can be made again from its own rules. -/
theorem C114_again (compile : List Char → Except PyErr R) (s : TreeSummarizer R) :
    mkSummarizer compile (.seq (s.rules.map fun q => .seq (.pat q.1 :: q.2))) s.maxSummaryValues = .ok s := by
  unfold mkSummarizer Val.iter
  change ((s.rules.map fun q => Val.seq (.pat q.1 :: q.2)).mapM (compileRule compile) >>= _ : Except PyErr _) = _
  have : ∀ l : List (R × List (Val R)), (l.map fun q => Val.seq (.pat q.1 :: q.2)).mapM (compileRule compile) = .ok l := by
    intro l
    induction l with
    | nil => rfl
    | cons q l ih =>
      rw [List.map_cons, List.mapM_cons, compileRule_seq]
      change (List.mapM _ _ >>= _ : Except PyErr _) = _
      rw [ih]
      rfl
  rw [this]
  rfl

theorem transformVals_eq (suffix : List Char) (x : NdArray ℝ) (ts : List (Val R)) (ts' : List Transform)
    (h : List.Forall₂ (fun t t' => parseTransform t = .ok t') ts ts') : transformVals suffix x ts = transform suffix x ts' := by
  induction h generalizing suffix x with
  | nil => rfl
  | @cons t t' ts ts' hh _ ih =>
    unfold transformVals
    rw [hh]
    change (transform suffix x [t'] >>= _ : Except PyErr _) = _
    have e : transform suffix x [t'] = (applyOp t'.op t'.axes x).map fun y =>
        (suffix ++ '_' :: t'.op ++ (match t'.axes with | none => [] | some axes => tupleStr axes), y) := by
      unfold transform
      cases applyOp t'.op t'.axes x <;> rfl
    rw [e]
    conv_rhs => unfold transform
    cases hop : applyOp t'.op t'.axes x with
    | error er => rfl
    | ok y =>
      change transformVals _ y ts = transform _ y ts'
      exact ih _ _

/-- The call of a created summarizer is that of C53, with each transform read as an operation over all axes (a string) or over the given axes (a pair). -/
theorem C114_call (search : R → List Char → Bool) (s : TreeSummarizer R) (m : Nat) (hm : s.maxSummaryValues = m) (rules : List (R × List Transform))
    (h : List.Forall₂ (fun q q' => q.1 = q'.1 ∧ List.Forall₂ (fun t t' => parseTransform t = .ok t') q.2 q'.2) s.rules rules)
    (l : List (List Char × NdArray ℝ)) : s.call search l = summarizeAll search m rules l := by
  have h1 : ∀ key value, summarizeVals search s.maxSummaryValues key value s.rules = summarize search m key value rules := by
    intro key value
    rw [hm]
    generalize s.rules = rs at h
    induction h with
    | nil => rfl
    | @cons q q' rs rs' hh _ ih =>
      obtain ⟨r, ts⟩ := q
      obtain ⟨r', ts'⟩ := q'
      obtain ⟨e1, e2⟩ := hh
      simp only at e1 e2
      subst e1
      unfold summarizeVals summarize
      rw [ih, transformVals_eq [] value ts ts' e2]
      congr 1
      split
      · cases transform [] value ts' with
        | error e => rfl
        | ok p =>
          obtain ⟨suffix, summary⟩ := p
          simp only
          by_cases hlt : m < summary.shape.prod
          · rw [if_pos hlt, if_pos (by exact_mod_cast hlt)]
          · rw [if_neg hlt, if_neg (by exact_mod_cast hlt)]
      · rfl
  induction l with
  | nil => rfl
  | cons p l ih =>
    obtain ⟨key, value⟩ := p
    unfold TreeSummarizer.call summarizeAll
    rw [h1, ih]

/-- The transforms as they are given: an operation alone is over all axes, with an integer over this axis, with a sequence over these axes. -/
theorem C114_transforms (op : List Char) (a : Int) (axes : List Int) (rest : List (Val R)) :
    parseTransform (.str op : Val R) = .ok ⟨op, none⟩ ∧
    parseTransform (.seq (.str op :: .int a :: rest)) = .ok ⟨op, some [a]⟩ ∧
    parseTransform (.seq (.str op :: .seq (axes.map .int) :: rest)) = .ok ⟨op, some axes⟩ ∧
    parseTransform (.seq [.str op] : Val R) = .error .indexError := by
  refine ⟨rfl, rfl, ?_, rfl⟩
  have : ∀ l : List Int, (l.map (Val.int : Int → Val R)).mapM axisOf = .ok l := by
    intro l
    induction l with
    | nil => rfl
    | cons b l ih =>
      rw [List.map_cons, List.mapM_cons]
      change (List.mapM _ _ >>= _ : Except PyErr _) = _
      rw [ih]
      rfl
  unfold parseTransform
  simp only [this]
  rfl

/-- A flat list of a pattern and an operation is not a rule: both are patterns, and no operation is applied. -/
theorem C114_flat_counterexample (compile : List Char → Except PyErr R) (r1 r2 : R) (h1 : compile ".*".toList = .ok r1) (h2 : compile "mean".toList = .ok r2) :
    createTreeSummarizer compile (.seq [.str ".*".toList, .str "mean".toList]) = .ok (some ⟨[(r1, []), (r2, [])], 1⟩) ∧
    createTreeSummarizer compile (.seq [.seq [.str ".*".toList, .str "mean".toList]]) = .ok (some ⟨[(r1, [.str "mean".toList])], 1⟩) := by
  constructor
  · rw [C114_list compile _ (by simp) (by intro r hr; simp at hr; rcases hr with rfl | rfl <;> trivial)]
    exact ⟨.cons (.alone _ _ (.str _ _ h1)) (.cons (.alone _ _ (.str _ _ h2)) .nil), rfl⟩
  · rw [C114_list compile _ (by simp) (by intro r hr; simp at hr; subst hr; trivial)]
    exact ⟨.cons (.seq _ _ _ (.str _ _ h1)) .nil, rfl⟩

/-- Rules given as one string are its characters. -/
theorem C114_string_counterexample (compile : List Char → Except PyErr R) (r1 r2 : R) (h1 : compile ['a'] = .ok r1) (h2 : compile ['b'] = .ok r2) :
    createTreeSummarizer compile (.dict [("rules".toList, .str ['a', 'b'])]) = .ok (some ⟨[(r1, []), (r2, [])], 1⟩) := by
  have e : createTreeSummarizer compile (.dict [("rules".toList, .str ['a', 'b'])]) = (mkSummarizer compile (.str ['a', 'b']) 1).map some := rfl
  rw [e]
  unfold mkSummarizer Val.iter
  change (Except.map some ([Val.str ['a'], .str ['b']].mapM (compileRule compile) >>= _) : Except PyErr _) = _
  have : [Val.str ['a'], .str ['b']].mapM (compileRule compile) = .ok [(r1, []), (r2, [])] := by
    rw [List.mapM_cons]
    rw [compileRule_str, h1]
    change ([Val.str ['b']].mapM (compileRule compile) >>= _ : Except PyErr _) = _
    rw [List.mapM_cons]
    rw [compileRule_str, h2]
    rfl
  rw [this]
  rfl

/-- A pattern alone, and a pattern with transforms: a rule of each kind. -/
example : ∃ s : TreeSummarizer (List Char), createTreeSummarizer .ok (.seq [.str "a".toList, .seq [.str "b".toList, .str "mean".toList, .seq [.str "max".toList, .int 0]]]) =
      .ok (some s) ∧ s.rules.map Prod.fst = ["a".toList, "b".toList] ∧
      List.Forall₂ (fun q q' => q.1 = q'.1 ∧ List.Forall₂ (fun t t' => parseTransform t = .ok t') q.2 q'.2) s.rules
        [("a".toList, []), ("b".toList, [⟨"mean".toList, none⟩, ⟨"max".toList, some [0]⟩])] :=
  ⟨_, rfl, rfl, .cons ⟨rfl, .nil⟩ (.cons ⟨rfl, .cons rfl (.cons rfl .nil)⟩ .nil)⟩

end Verif.Summarizer
