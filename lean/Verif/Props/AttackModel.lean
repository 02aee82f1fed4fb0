import Verif.Model.AttackModel
import Verif.Proofs.ModuleConfig
import Verif.Props.ModuleConfig

/-!
C115: the model under attack is the one that was trained, in deterministic mode.
-/

namespace Verif.AttackModel

open Verif PyDict Config

variable {V : Type}

/-- The value of an option given in a call string and in a configuration. -/
def merged (combine : V → V → Except PyErr V) : Option V → Option V → Except PyErr (Option V)
  | some a, some b => (combine a b).map some
  | some a, none => .ok (some a)
  | none, b => .ok b

theorem assign_ok (combine : V → V → Except PyErr V) (d d' : PyDict Str V) (k : Str) (v : V)
    (h : assign combine d k v = .ok d') (k' : Str) :
    (k' ≠ k → get? d' k' = get? d k') ∧ merged combine (get? d k) (some v) = .ok (get? d' k) := by
  unfold assign at h
  rcases hg : get? d k with _ | old
  · rw [hg] at h
    cases h
    refine ⟨fun hne => ?_, ?_⟩
    · rw [get?_set, if_neg (Ne.symm hne)]
    · rw [get?_set, if_pos rfl]; rfl
  · rw [hg] at h
    simp only at h
    rcases hc : combine old v with err | w
    · rw [hc] at h; cases h
    · rw [hc] at h
      cases h
      refine ⟨fun hne => ?_, ?_⟩
      · rw [get?_set, if_neg (Ne.symm hne)]
      · rw [get?_set, if_pos rfl]
        simp only [merged, hc]; rfl

theorem configUpdate_ok (combine : V → V → Except PyErr V) (items d d' : PyDict Str V) (hn : (keys items).Nodup)
    (h : configUpdate combine d items = .ok d') (k : Str) :
    merged combine (get? d k) (get? items k) = .ok (get? d' k) := by
  induction items generalizing d with
  | nil =>
    cases h
    cases get? d' k <;> rfl
  | cons kv items ih =>
    obtain ⟨k0, v⟩ := kv
    have hn' : k0 ∉ keys items ∧ (keys items).Nodup := by simpa [keys] using hn
    unfold configUpdate at h
    rcases ha : assign combine d k0 v with err | d1
    · rw [ha] at h; cases h
    · rw [ha] at h
      have hrec := ih d1 hn'.2 h
      have hs := assign_ok combine d d1 k0 v ha k
      by_cases hk : k = k0
      · subst hk
        rw [(get?_eq_none items k).2 hn'.1] at hrec
        have : get? d' k = get? d1 k := by
          rcases hg : get? d1 k with _ | a <;> rw [hg] at hrec <;> simp [merged] at hrec <;> exact hrec.symm
        simp only [get?, if_pos, this]
        exact hs.2
      · simp only [get?, if_neg (Ne.symm hk)]
        rw [← hs.1 hk]; exact hrec

theorem configUpdate_error (combine : V → V → Except PyErr V) (items d : PyDict Str V) (hn : (keys items).Nodup)
    (err : PyErr) (h : configUpdate combine d items = .error err) :
    ∃ k old new, get? d k = some old ∧ get? items k = some new ∧ combine old new = .error err := by
  induction items generalizing d with
  | nil => cases h
  | cons kv items ih =>
    obtain ⟨k0, v⟩ := kv
    have hn' : k0 ∉ keys items ∧ (keys items).Nodup := by simpa [keys] using hn
    unfold configUpdate at h
    rcases ha : assign combine d k0 v with err' | d1
    · rw [ha] at h
      cases h
      unfold assign at ha
      rcases hg : get? d k0 with _ | old
      · rw [hg] at ha; cases ha
      · rw [hg] at ha
        simp only at ha
        rcases hc : combine old v with err'' | w
        · rw [hc] at ha
          cases ha
          exact ⟨k0, old, v, hg, by simp [get?], hc⟩
        · rw [hc] at ha; cases ha
    · rw [ha] at h
      obtain ⟨k, old, new, h1, h2, h3⟩ := ih d1 hn'.2 h
      have hk : k ≠ k0 := by
        rintro rfl
        rw [(get?_eq_none items k).2 hn'.1] at h2
        cases h2
      exact ⟨k, old, new, ((assign_ok combine d d1 k0 v ha k).1 hk).symm.trans h1,
        by simp only [get?, if_neg (Ne.symm hk)]; exact h2, h3⟩

/-- C115.  The module of an attack, for every configuration: without a name AttributeError; an option given in the call string
and, with a value that cannot replace it, in the configuration is an error of the assignment; `deterministic` in either is an
error; otherwise the module is built from the options of the call string replaced by those of the configuration, with
`deterministic` True and with the model's class name as `name`. -/
theorem C115_module (env : Env V) (true_ : V) (combine : V → V → Except PyErr V) (config : PyDict Str V)
    (hn : (keys config).Nodup) :
    let res := restoreModule env true_ combine config
    ("name".toList ∉ keys config → res = .error .attributeError) ∧
    (∀ name, get? config "name".toList = some name →
      (∀ err, env.parse name = .error err → res = .error err) ∧
      (∀ call, env.parse name = .ok call →
        (∀ k err, merged combine (get? call.kwargs k) (get? config k) = .error err → ∃ e, res = .error e) ∧
        ((get? call.kwargs "deterministic".toList).isSome ∨ (get? config "deterministic".toList).isSome →
          ∃ e, res = .error e) ∧
        (∀ opt : Str → Option V, (∀ k, merged combine (get? call.kwargs k) (get? config k) = .ok (opt k)) →
          (opt "deterministic".toList).isSome → res = .error .typeError) ∧
        (∀ opt : Str → Option V, (∀ k, merged combine (get? call.kwargs k) (get? config k) = .ok (opt k)) →
          opt "deterministic".toList = none → call.cls.Wf →
          BuildsCls env.none_ call.cls call.args
            (fun k => if k = "deterministic".toList then some true_ else opt k) res))) := by
  intro res
  refine ⟨fun h => ?_, fun name hname => ⟨fun err herr => ?_, fun call hcall => ?_⟩⟩
  · rw [← get?_eq_none] at h
    simp only [res, restoreModule, h]
  · simp only [res, restoreModule, hname, herr]
  · rcases hu : configUpdate combine call.kwargs config with err | kw
    · have hres : res = .error err := by simp only [res, restoreModule, hname, hcall, hu]
      have hbad : ∀ opt : Str → Option V,
          (∀ k, merged combine (get? call.kwargs k) (get? config k) = .ok (opt k)) → False := by
        intro opt ho
        obtain ⟨k, old, new, h1, h2, h3⟩ := configUpdate_error combine config call.kwargs hn err hu
        have := ho k
        simp only [h1, h2, merged, h3] at this
        cases this
      exact ⟨fun _ _ _ => ⟨err, hres⟩, fun _ => ⟨err, hres⟩, fun opt ho => (hbad opt ho).elim,
        fun opt ho => (hbad opt ho).elim⟩
    · have hm := configUpdate_ok combine config call.kwargs kw hn hu
      have hdet : (get? kw "deterministic".toList).isSome → res = .error .typeError := by
        intro hd
        simp only [res, restoreModule, hname, hcall, hu]
        rw [kwMerge_error _ _ "deterministic".toList hd (by simp [get?])]
      refine ⟨fun k err hk => ?_, fun hd => ⟨.typeError, hdet ?_⟩, fun opt ho hd => hdet ?_, fun opt ho hd hwf => ?_⟩
      · rw [hm k] at hk; cases hk
      · have := hm "deterministic".toList
        rcases h1 : get? call.kwargs "deterministic".toList with _ | a <;>
          rcases h2 : get? config "deterministic".toList with _ | b
        · rw [h1, h2] at hd; simp at hd
        · rw [h1, h2] at this
          simp only [merged, Except.ok.injEq] at this
          rw [← this]; rfl
        · rw [h1, h2] at this
          simp only [merged, Except.ok.injEq] at this
          rw [← this]; rfl
        · rw [h1, h2] at this
          simp only [merged] at this
          rcases hc : combine a b with e | w
          · rw [hc] at this; cases this
          · rw [hc] at this
            cases hx : get? kw "deterministic".toList with
            | none => rw [hx] at this; cases this
            | some _ => rfl
      · have h1 := (hm "deterministic".toList).symm.trans (ho _)
        cases h1' : get? kw "deterministic".toList with
        | none =>
          rw [h1'] at h1
          cases h2 : opt "deterministic".toList with
          | none => rw [h2] at hd; cases hd
          | some _ => rw [h2] at h1; cases h1
        | some _ => rfl
      · have hkw : ∀ k, get? kw k = opt k := by
          intro k
          have := (hm k).symm.trans (ho k)
          simpa using this
        have hok : kwMerge kw [("deterministic".toList, true_)] = .ok (kw ++ [("deterministic".toList, true_)]) := by
          apply kwMerge_ok
          intro k hk
          simp only [get?]
          rw [if_neg]
          intro e
          rw [← e, hkw, hd] at hk
          cases hk
        simp only [res, restoreModule, hname, hcall, hu, hok]
        apply construct_buildsCls env.none_ call.cls hwf
        intro k
        rw [get?_append, hkw]
        simp only [get?]
        by_cases a : k = "deterministic".toList
        · rw [if_pos a, if_pos a.symm, a, hd]; rfl
        · rw [if_neg a, if_neg (Ne.symm a), Option.or_none]

/-- C115.  If the training run built its model from a configuration, the attack builds one of the same class with the same value
of every field, `deterministic` being True; only the `name` differs (an option `name` in the call string must be one that a string
can replace). -/
theorem C115_same_as_training (env : Env V) (true_ name : V) (combine : V → V → Except PyErr V) (config : PyDict Str V)
    (hn : (keys config).Nodup) (hname : get? config "name".toList = some name)
    (hcomb : ∀ call old, env.parse name = .ok call → get? call.kwargs "name".toList = some old → combine old name = .ok name)
    (hwf : ∀ call, env.parse name = .ok call → call.cls.Wf)
    (cls : Cls V) (attrs : PyDict Str V) (h : (createFlaxModel env true config true_).1 = .ok (cls, attrs)) :
    ∃ attrs', restoreModule env true_ combine config = .ok (cls, attrs') ∧
      (∀ f ∈ cls.fields, get? attrs' f.1 = get? attrs f.1) ∧
      "deterministic".toList ∈ cls.names ∧ get? attrs' "deterministic".toList = some true_ ∧
      get? attrs' "name".toList = some name := by
  have hf := (C79_flax_model env true config true_).2 name hname
  rcases hp : env.parse name with err | call
  · have := hf.2.2.1 err hp
    rw [h] at this; cases this
  obtain ⟨hbad, hgood⟩ := hf.2.2.2 call hp
  rw [h] at hbad hgood
  have hwf := hwf call hp
  have hdis : ∀ k, (get? call.kwargs k).isSome → (if k = "name".toList then none else get? config k) = none := by
    intro k hk
    by_contra hne
    have := hbad (.inl ⟨k, hk, Option.isSome_iff_ne_none.2 hne⟩)
    cases this
  have hd1 : get? call.kwargs "deterministic".toList = none := by
    by_contra hne
    have := hbad (.inr (.inl (Option.isSome_iff_ne_none.2 hne)))
    cases this
  have hd2 : (if "deterministic".toList = "name".toList then none else get? config "deterministic".toList) = none := by
    by_contra hne
    have := hbad (.inr (.inr (Option.isSome_iff_ne_none.2 hne)))
    cases this
  have hne : "deterministic".toList ≠ "name".toList := by decide
  have hb := hgood hdis hd1 hd2 hwf
  have hcls : cls = call.cls := hb.2 _ rfl
  subst hcls
  have hacc : Accepted call.cls call.args (fun k => if k = "deterministic".toList then some true_
      else (get? call.kwargs k).or (if k = "name".toList then none else get? config k)) := by
    by_contra hna
    have := hb.1.2 hna
    cases this
  obtain ⟨a0, ha0, hfields, _⟩ := hb.1.1 hacc
  cases ha0
  -- the options of the attack
  have hm : ∀ k, merged combine (get? call.kwargs k) (get? config k) = .ok
      (if k = "name".toList then some name else (get? call.kwargs k).or (get? config k)) := by
    intro k
    by_cases hk : k = "name".toList
    · subst hk
      rw [if_pos rfl, hname]
      rcases ho : get? call.kwargs "name".toList with _ | old
      · rfl
      · simp only [merged, hcomb call old hp ho]; rfl
    · rw [if_neg hk]
      have := hdis k
      rw [if_neg hk] at this
      rcases ho : get? call.kwargs k with _ | old
      · rfl
      · rw [ho] at this
        rw [this rfl]; rfl
  have hm' := ((C115_module env true_ combine config hn).2 name hname).2 call hp
  have hdet : (if "deterministic".toList = "name".toList then some name
      else (get? call.kwargs "deterministic".toList).or (get? config "deterministic".toList)) = none := by
    rw [if_neg hne] at hd2 ⊢
    rw [hd1, hd2]; rfl
  have hB := hm'.2.2.2 _ hm hdet hwf
  have hfin : ∀ f ∈ call.cls.fields,
      finalValue call.cls call.args (fun k => if k = "deterministic".toList then some true_
        else if k = "name".toList then some name else (get? call.kwargs k).or (get? config k)) f =
      finalValue call.cls call.args (fun k => if k = "deterministic".toList then some true_
        else (get? call.kwargs k).or (if k = "name".toList then none else get? config k)) f := by
    intro f hf
    have hfn : f.1 ≠ "name".toList := by
      intro e
      apply hwf.2
      rw [← e]
      exact List.mem_map.2 ⟨f, hf, rfl⟩
    simp only [finalValue, if_neg hfn]
  have hacc' : Accepted call.cls call.args (fun k => if k = "deterministic".toList then some true_
      else if k = "name".toList then some name else (get? call.kwargs k).or (get? config k)) := by
    refine ⟨hacc.1, fun k hk => ?_, fun f hf => ?_⟩
    · by_cases hkn : k = "name".toList
      · subst hkn
        exact ⟨fun hmem => hwf.2 (List.mem_of_mem_take hmem), .inr rfl⟩
      · apply hacc.2.1 k
        simp only [if_neg hkn] at hk ⊢
        exact hk
    · rw [hfin f hf]; exact hacc.2.2 f hf
  obtain ⟨attrs', ha', hf', hname'⟩ := hB.1.1 hacc'
  have hdm := hacc'.2.1 "deterministic".toList (by simp only [if_true]; rfl)
  have hdmem : "deterministic".toList ∈ call.cls.names := hdm.2.resolve_right hne
  have hres : restoreModule env true_ combine config = .ok (call.cls, attrs') := by
    rcases hr : restoreModule env true_ combine config with e | r
    · rw [hr] at ha'; cases ha'
    · rw [hr] at ha' hB
      have h2 := hB.2 r rfl
      cases ha'
      rw [← h2]
  refine ⟨attrs', hres, fun f hf => ?_, hdmem, ?_, ?_⟩
  · rw [hf' f hf, hfin f hf, hfields f hf]
  · obtain ⟨f, hf, hfe⟩ := List.mem_map.1 hdmem
    have := hf' f hf
    rw [hfe] at this
    rw [this]
    unfold finalValue
    rw [hfe]
    have hpos : positional call.cls call.args "deterministic".toList = none := by
      unfold positional
      rcases hi : call.cls.names.idxOf? "deterministic".toList with _ | i
      · rfl
      · simp only [Option.bind_some]
        rw [List.getElem?_eq_none_iff]
        by_contra hlt
        apply hdm.1
        rw [List.idxOf?_eq_some_iff] at hi
        obtain ⟨hi1, hi2, _⟩ := hi
        rw [List.mem_take_iff_getElem]
        exact ⟨i, by omega, by simpa using hi2⟩
    rw [hpos]; simp only [if_true]; rfl
  · rw [hname']
    simp only [if_neg (Ne.symm hne), if_true]; rfl

/-- C115, disagreement.  An option given in the call string and again in the configuration stops the training run with a TypeError,
while the attack uses the value of the configuration without a word: the configuration of a model that cannot be trained can be
attacked. -/
theorem C115_conflict_counterexample : ∃ (env : Env ExVal) (config : PyDict Str ExVal) (cls : Cls ExVal) (attrs : PyDict Str ExVal),
    (createFlaxModel env true config (.num 1)).1 = .error .typeError ∧
    restoreModule env (.num 1) (fun _ new => .ok new) config = .ok (cls, attrs) ∧
    get? attrs "mlp_dim".toList = some (.num 8) := by
  refine ⟨{ exEnv with parse := fun _ => .ok ⟨exMlp, [], [("mlp_dim".toList, .num 7)]⟩ },
    [("name".toList, .str "m".toList), ("mlp_dim".toList, .num 8)], exMlp,
    [("mlp_dim".toList, .num 8), ("dropout_rate".toList, .num 0), ("deterministic".toList, .num 1),
      ("dtype".toList, .none_), ("name".toList, .str "m".toList)], ?_, ?_, ?_⟩ <;> rfl

-- Non-vacuity: a model with a positional argument and an option of the call string.
example :
    let env : Env ExVal := { exEnv with parse := fun _ => .ok ⟨exMlp, [.num 7], [("dtype".toList, .num 16)]⟩ }
    let config : PyDict Str ExVal := [("dropout_rate".toList, .num 3), ("name".toList, .str "m".toList)]
    exMlp.Wf ∧ (keys config).Nodup ∧
    (createFlaxModel env true config (.num 1)).1 = .ok (exMlp, [("mlp_dim".toList, .num 7), ("dropout_rate".toList, .num 3),
      ("deterministic".toList, .num 1), ("dtype".toList, .num 16), ("name".toList, .none_)]) ∧
    restoreModule env (.num 1) (fun _ new => .ok new) config = .ok (exMlp, [("mlp_dim".toList, .num 7),
      ("dropout_rate".toList, .num 3), ("deterministic".toList, .num 1), ("dtype".toList, .num 16),
      ("name".toList, .str "m".toList)]) := by
  refine ⟨⟨by decide, by decide⟩, by decide, rfl, rfl⟩

end Verif.AttackModel
