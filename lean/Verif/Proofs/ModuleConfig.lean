import Verif.Spec.ModuleConfig
import Verif.Proofs.PyDict
import Mathlib.Data.List.Zip
import Mathlib.Tactic.Tauto

/-!
Helper lemmas for building modules from options.
-/

namespace Verif.Config

open Verif PyDict

variable {V : Type}

theorem get?_update (a b : PyDict Str V) (hb : (keys b).Nodup) (k : Str) :
    get? (update a b) k = (get? b k).or (get? a k) := by
  unfold update
  induction b generalizing a with
  | nil => simp [get?]
  | cons kv b ih =>
    obtain ⟨k', v⟩ := kv
    have hn : k' ∉ keys b ∧ (keys b).Nodup := by simpa [keys] using hb
    rw [List.foldl_cons, ih _ hn.2, get?_set]
    by_cases hk : k' = k
    · subst hk
      rw [(get?_eq_none b k').2 hn.1]
      simp [get?]
    · simp [get?, hk]

theorem nodup_update (a b : PyDict Str V) (ha : (keys a).Nodup) : (keys (update a b)).Nodup := by
  unfold update
  induction b generalizing a with
  | nil => exact ha
  | cons kv b ih => exact ih _ (nodup_keys_set _ _ _ ha)

theorem get?_remove (d : PyDict Str V) (k k' : Str) :
    get? (remove d k) k' = if k' = k then none else get? d k' := by
  unfold remove
  induction d with
  | nil => simp [get?]
  | cons e d ih =>
    obtain ⟨k0, v0⟩ := e
    rw [List.filter_cons]
    by_cases h : k0 = k
    · subst h
      simp only [ne_eq, not_true_eq_false, decide_false, Bool.false_eq_true, if_false]
      rw [ih]
      simp only [get?]
      by_cases h' : k' = k0
      · rw [if_pos h', if_pos h']
      · rw [if_neg h', if_neg h', if_neg (Ne.symm h')]
    · simp only [ne_eq, h, not_false_eq_true, decide_true, if_true]
      simp only [get?]
      rw [ih]
      by_cases h' : k' = k
      · subst h'; simp [h]
      · simp [h']

theorem keys_remove (d : PyDict Str V) (k : Str) : keys (remove d k) = (keys d).filter (· ≠ k) := by
  unfold remove keys
  rw [List.filter_map]
  rfl

theorem nodup_remove (d : PyDict Str V) (k : Str) (h : (keys d).Nodup) :
    (keys (remove d k)).Nodup := by
  rw [keys_remove]; exact h.filter _

theorem get?_append (a b : PyDict Str V) (k : Str) :
    get? (a ++ b) k = (get? a k).or (get? b k) := by
  induction a with
  | nil => simp [get?]
  | cons e a ih =>
    obtain ⟨k0, v0⟩ := e
    simp only [List.cons_append, get?]
    split
    · rfl
    · exact ih

theorem mem_keys_iff (d : PyDict Str V) (k : Str) : k ∈ keys d ↔ (get? d k).isSome := by
  rw [Option.isSome_iff_ne_none, ne_eq, get?_eq_none, not_not]

theorem kwMerge_ok (a b : PyDict Str V) (h : ∀ k, (get? a k).isSome → get? b k = none) :
    kwMerge a b = .ok (a ++ b) := by
  unfold kwMerge
  rw [if_neg]
  simp only [List.any_eq_true, decide_eq_true_eq, not_exists, not_and]
  intro k hk hk'
  rw [mem_keys_iff] at hk hk'
  rw [h k hk] at hk'
  cases hk'

theorem kwMerge_error (a b : PyDict Str V) (k : Str) (h : (get? a k).isSome) (h' : (get? b k).isSome) :
    kwMerge a b = .error .typeError := by
  unfold kwMerge
  rw [if_pos]
  simp only [List.any_eq_true, decide_eq_true_eq]
  exact ⟨k, (mem_keys_iff a k).2 h, (mem_keys_iff b k).2 h'⟩

theorem get?_zip (names : List Str) (args : List V) (k : Str) :
    get? (names.zip args) k = (names.idxOf? k).bind (fun i => args[i]?) := by
  induction names generalizing args with
  | nil => simp [get?]
  | cons n names ih =>
    cases args with
    | nil =>
      simp only [List.zip_nil_right, get?]
      cases (List.idxOf? k (n :: names)) <;> simp
    | cons a args =>
      simp only [List.zip_cons_cons, get?, List.idxOf?_cons]
      by_cases h : n = k
      · simp [h]
      · simp only [if_neg h, beq_eq_false_iff_ne.2 h, Bool.false_eq_true, if_false, ih]
        cases List.idxOf? k names <;> simp

theorem keys_zip (names : List Str) (args : List V) (h : args.length ≤ names.length) :
    keys (names.zip args) = names.take args.length := by
  unfold keys
  induction names generalizing args with
  | nil => cases args <;> simp_all
  | cons n names ih =>
    cases args with
    | nil => simp
    | cons a args =>
      simp only [List.length_cons, Nat.add_le_add_iff_right] at h
      simp [ih args h]

theorem mapM_fieldValue (fields : List (Str × Option V)) (pos kwargs : PyDict Str V) :
    ((∀ f ∈ fields, ((get? pos f.1).or ((get? kwargs f.1).or f.2)).isSome) →
      ∃ l, fields.mapM (fieldValue pos kwargs) = .ok l ∧ keys l = fields.map Prod.fst ∧
        (∀ kv ∈ l, ∃ f ∈ fields, f.1 = kv.1 ∧
          (get? pos f.1).or ((get? kwargs f.1).or f.2) = some kv.2)) ∧
    (¬ (∀ f ∈ fields, ((get? pos f.1).or ((get? kwargs f.1).or f.2)).isSome) →
      fields.mapM (fieldValue pos kwargs) = .error .typeError) := by
  induction fields with
  | nil => exact ⟨fun _ => ⟨[], rfl, rfl, by simp⟩, fun h => absurd (by simp) h⟩
  | cons f fields ih =>
    have hf : (∀ v, (get? pos f.1).or ((get? kwargs f.1).or f.2) = some v →
        fieldValue pos kwargs f = .ok (f.1, v)) ∧
        ((get? pos f.1).or ((get? kwargs f.1).or f.2) = none →
          fieldValue pos kwargs f = .error .typeError) := by
      unfold fieldValue
      rcases get? pos f.1 with _ | a <;> rcases get? kwargs f.1 with _ | b <;>
        rcases f.2 with _ | c <;> simp
    rcases hv : (get? pos f.1).or ((get? kwargs f.1).or f.2) with _ | v
    · refine ⟨fun h => ?_, fun _ => ?_⟩
      · have := h f (by simp); rw [hv] at this; cases this
      · rw [List.mapM_cons, hf.2 hv]; rfl
    · refine ⟨fun h => ?_, fun h => ?_⟩
      · obtain ⟨l, h1, h2, h3⟩ := ih.1 (fun f hf => h f (List.mem_cons_of_mem _ hf))
        refine ⟨(f.1, v) :: l, ?_, ?_, ?_⟩
        · rw [List.mapM_cons, hf.1 v hv, h1]; rfl
        · rw [List.map_cons, ← h2]; rfl
        · intro kv hkv
          rcases List.mem_cons.1 hkv with rfl | hkv
          · exact ⟨f, by simp, rfl, hv⟩
          · obtain ⟨f', hf', r⟩ := h3 kv hkv
            exact ⟨f', List.mem_cons_of_mem _ hf', r⟩
      · have : fields.mapM (fieldValue pos kwargs) = .error .typeError := by
          apply ih.2
          intro h'
          apply h
          intro f' hf'
          rcases List.mem_cons.1 hf' with rfl | hf'
          · rw [hv]; rfl
          · exact h' f' hf'
        rw [List.mapM_cons, hf.1 v hv, this]; rfl

/-- The constructor does what the specification says for the options of its keyword dictionary. -/
theorem construct_builds (none_ : V) (c : Cls V) (hc : c.Wf) (args : List V) (kwargs : PyDict Str V)
    (opt : Str → Option V) (hopt : ∀ k, get? kwargs k = opt k) :
    Builds none_ c args opt (construct none_ c args kwargs) := by
  have hpos : ∀ k, get? ((keys c.fields).zip args) k = positional c args k := fun k => get?_zip _ _ _
  have hkn : keys c.fields = c.names := rfl
  obtain ⟨hm1, hm2⟩ := mapM_fieldValue c.fields ((keys c.fields).zip args) kwargs
  simp only [hpos, hopt] at hm1 hm2
  have hmem : ∀ k, k ∈ keys kwargs ↔ (opt k).isSome := fun k => by rw [mem_keys_iff, hopt]
  refine ⟨?_, ?_⟩
  · rintro ⟨h1, h2, h3⟩
    obtain ⟨l, e1, e2, e3⟩ := hm1 h3
    have hl : keys (( c.names).zip args) = c.names.take args.length :=
      keys_zip _ _ (by simpa [Cls.names] using h1)
    refine ⟨set l "name".toList ((opt "name".toList).getD none_), ?_, ?_, ?_⟩
    · unfold construct
      rw [if_neg (not_lt.2 h1)]
      simp only
      rw [if_neg, if_neg, e1, hopt]
      · simp only [List.any_eq_true, decide_eq_true_eq, not_exists, not_and, hkn]
        intro k hk hn hne
        exact ((h2 k ((hmem k).1 hk)).2).elim hn hne
      · simp only [List.any_eq_true, decide_eq_true_eq, not_exists, not_and, hkn, hl]
        intro k hk hk'
        exact (h2 k ((hmem k).1 hk')).1 hk
    · intro f hf
      have hne : "name".toList ≠ f.1 := by
        intro h
        exact hc.2 (h ▸ List.mem_map.2 ⟨f, hf, rfl⟩)
      rw [get?_set, if_neg hne]
      have hin : f.1 ∈ keys l := by rw [e2]; exact List.mem_map.2 ⟨f, hf, rfl⟩
      obtain ⟨kv, hkv, hkf⟩ := List.mem_map.1 hin
      have hnd : (keys l).Nodup := by rw [e2]; exact hc.1
      have hg : get? l f.1 = some kv.2 := by
        rw [get?_eq_some l hnd, ← hkf]; exact hkv
      obtain ⟨f', hf', hff, hv⟩ := e3 kv hkv
      have : f' = f := by
        have := List.inj_on_of_nodup_map hc.1 hf' hf (hff.trans hkf)
        exact this
      subst this
      rw [hg]
      exact hv.symm
    · rw [get?_set, if_pos rfl]
  · intro hna
    unfold construct
    by_cases h1 : args.length ≤ c.fields.length
    · rw [if_neg (not_lt.2 h1)]
      have hl : keys (( c.names).zip args) = c.names.take args.length :=
        keys_zip _ _ (by simpa [Cls.names] using h1)
      simp only
      split
      · rfl
      rename_i hd
      split
      · rfl
      rename_i hu
      simp only [List.any_eq_true, decide_eq_true_eq, not_exists, not_and, hkn, hl] at hd hu
      rw [hm2]
      intro h3
      apply hna
      refine ⟨h1, ?_, h3⟩
      intro k hk
      refine ⟨fun h => hd k h ((hmem k).2 hk), ?_⟩
      by_contra hcon
      exact hu k ((hmem k).2 hk) (fun h => hcon (Or.inl h)) (fun h => hcon (Or.inr h))
    · rw [if_pos (not_le.1 h1)]

theorem construct_buildsCls (none_ : V) (c : Cls V) (hc : c.Wf) (args : List V)
    (kwargs : PyDict Str V) (opt : Str → Option V) (hopt : ∀ k, get? kwargs k = opt k) :
    BuildsCls none_ c args opt ((construct none_ c args kwargs).map (fun a => (c, a))) := by
  have h := construct_builds none_ c hc args kwargs opt hopt
  refine ⟨?_, ?_⟩
  · have e : ((construct none_ c args kwargs).map (fun a => (c, a))).map Prod.snd =
        construct none_ c args kwargs := by
      cases construct none_ c args kwargs <;> rfl
    rw [e]; exact h
  · intro r hr
    cases hcon : construct none_ c args kwargs with
    | error err => rw [hcon] at hr; cases hr
    | ok a => rw [hcon] at hr; cases hr; rfl

end Verif.Config
