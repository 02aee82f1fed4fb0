import Verif.Model.ConfigOverride
import Verif.Proofs.PyDict
import Verif.Proofs.ExceptLemmas

/-!
# Overrides of the model configuration (C101)
-/

namespace Verif.ConfigOverride

open Verif FlatDict

variable {V : Type}

/-- Spec: the part of a configuration under a path of names. -/
def nodeAt : Cfg V → List Key → Option (Cfg V)
  | c, [] => some c
  | .leaf _, _ :: _ => none
  | .dict items, k :: p =>
    match PyDict.get? items k with
    | some c => nodeAt c p
    | none => none

/-- Spec: the value under a path of names. -/
def valueAt (c : Cfg V) (p : List Key) : Option (Option V) :=
  match nodeAt c p with
  | some (.leaf v) => some v
  | _ => none

/-- Spec: no name appears twice in a dictionary. -/
def Distinct (c : Cfg V) : Prop :=
  ∀ p items, nodeAt c p = some (.dict items) → (PyDict.keys items).Nodup

/-- Spec: the value that results from a value of the base, if any, and a value of the override. -/
def Stored (conv : V → V → Option V) : Option (Option V) → Option V → Option V → Prop
  | some (some u), some v, w => conv u v = w ∧ w ≠ none
  | _, v, w => w = v

/-- Spec: a part of the override may be put over a part of the base. -/
def NodeOk (conv : V → V → Option V) : Cfg V → Cfg V → Prop
  | .dict _, .dict _ => True
  | .dict _, .leaf _ => False
  | .leaf none, _ => True
  | .leaf (some _), .dict _ => False
  | .leaf (some _), .leaf none => True
  | .leaf (some u), .leaf (some v) => conv u v ≠ none

theorem distinct_item {items : List (Key × Cfg V)} (h : Distinct (.dict items)) {k : Key} {c : Cfg V}
    (hk : PyDict.get? items k = some c) : Distinct c := by
  intro p it hp
  refine h (k :: p) it ?_
  simp only [nodeAt, hk]
  exact hp

theorem updateItems_iff (conv : V → V → Option V) (o : List (Key × Cfg V)) (hnd : (PyDict.keys o).Nodup)
    (b r : List (Key × Cfg V)) (h : updateItems conv b o = .ok r) (k : Key) :
    match PyDict.get? o k with
    | none => PyDict.get? r k = PyDict.get? b k
    | some v => ∃ w, updateValue conv (PyDict.get? b k) v = .ok w ∧ PyDict.get? r k = some w := by
  induction o generalizing b with
  | nil =>
    rw [updateItems] at h
    cases h
    rfl
  | cons kv rest ih =>
    obtain ⟨k0, v0⟩ := kv
    rw [updateItems] at h
    obtain ⟨w, h1, h2⟩ := ebind h
    simp only [PyDict.keys, List.map_cons, List.nodup_cons] at hnd
    have := ih hnd.2 _ h2
    by_cases hk : k0 = k
    · subst hk
      have hn : PyDict.get? rest k0 = none := (PyDict.get?_eq_none _ _).2 hnd.1
      rw [hn] at this
      simp only [PyDict.get?, if_true]
      exact ⟨w, h1, by rw [this, PyDict.get?_set, if_pos rfl]⟩
    · have hg : PyDict.get? ((k0, v0) :: rest) k = PyDict.get? rest k := by
        simp [PyDict.get?, hk]
      rw [hg]
      have hs : PyDict.get? (PyDict.set b k0 w) k = PyDict.get? b k := by
        rw [PyDict.get?_set, if_neg (fun e => hk e)]
      rw [hs] at this
      exact this

theorem updateItems_ok (conv : V → V → Option V) (o : List (Key × Cfg V)) (hnd : (PyDict.keys o).Nodup)
    (b : List (Key × Cfg V))
    (h : ∀ k v, PyDict.get? o k = some v → ∃ w, updateValue conv (PyDict.get? b k) v = .ok w) :
    ∃ r, updateItems conv b o = .ok r := by
  induction o generalizing b with
  | nil => exact ⟨b, by rw [updateItems]⟩
  | cons kv rest ih =>
    obtain ⟨k0, v0⟩ := kv
    simp only [PyDict.keys, List.map_cons, List.nodup_cons] at hnd
    obtain ⟨w, hw⟩ := h k0 v0 (by simp [PyDict.get?])
    obtain ⟨r, hr⟩ := ih hnd.2 (PyDict.set b k0 w) (by
      intro k v hk
      have hne : k0 ≠ k := by
        intro e
        subst e
        rw [(PyDict.get?_eq_none _ _).2 hnd.1] at hk
        cases hk
      obtain ⟨w', hw'⟩ := h k v (by simp [PyDict.get?, hne, hk])
      refine ⟨w', ?_⟩
      rw [PyDict.get?_set, if_neg (fun e => hne e)]
      exact hw')
    refine ⟨r, ?_⟩
    rw [updateItems, hw]
    exact hr

/-- Spec: the value under a path of a part that may be missing. -/
def valueAt? (c : Option (Cfg V)) (p : List Key) : Option (Option V) :=
  match c with
  | some c => valueAt c p
  | none => none

theorem valueAt_leaf_cons (v : Option V) (k : Key) (p : List Key) : valueAt (.leaf v) (k :: p) = none := rfl

theorem valueAt_dict_cons (items : List (Key × Cfg V)) (k : Key) (p : List Key) :
    valueAt (.dict items) (k :: p) = valueAt? (PyDict.get? items k) p := by
  unfold valueAt valueAt?
  rw [nodeAt]
  cases PyDict.get? items k <;> rfl

theorem updateValue_spec (conv : V → V → Option V) (p : List Key) : ∀ (b : Option (Cfg V)) (o r : Cfg V), Distinct o →
    updateValue conv b o = .ok r →
    (∀ v, valueAt o p = some v → ∃ w, valueAt r p = some w ∧ Stored conv (valueAt? b p) v w) ∧
    (nodeAt o p = none → valueAt r p = valueAt? b p) ∧
    (∀ items, nodeAt o p = some (.dict items) → valueAt r p = none) := by
  induction p with
  | nil =>
    intro b o r hd h
    cases o with
    | leaf v =>
      refine ⟨?_, fun h => (by cases h), fun items h => (by cases h)⟩
      intro v' hv'
      cases hv'
      rcases b with _ | ((_ | u) | bi)
      · simp only [updateValue] at h
        cases h
        exact ⟨v, rfl, rfl⟩
      · simp only [updateValue] at h
        cases h
        exact ⟨v, rfl, by cases v <;> rfl⟩
      · cases v with
        | none =>
          simp only [updateValue] at h
          cases h
          exact ⟨none, rfl, rfl⟩
        | some v =>
          simp only [updateValue] at h
          cases hc : conv u v with
          | none => rw [hc] at h; cases h
          | some w =>
            rw [hc] at h
            cases h
            exact ⟨some w, rfl, hc, by simp⟩
      · simp only [updateValue] at h
        cases h
    | dict oi =>
      refine ⟨fun v h => (by cases h), fun h => (by cases h), ?_⟩
      intro items _
      rcases b with _ | ((_ | u) | bi)
      · simp only [updateValue] at h
        cases h
        rfl
      · simp only [updateValue] at h
        cases h
        rfl
      · simp only [updateValue] at h
        cases h
      · rw [updateValue] at h
        obtain ⟨ri, _, h2⟩ := ebind h
        cases h2
        rfl
  | cons k p ih =>
    intro b o r hd h
    have keep : r = o → valueAt? b (k :: p) = none →
        (∀ v, valueAt o (k :: p) = some v → ∃ w, valueAt r (k :: p) = some w ∧
          Stored conv (valueAt? b (k :: p)) v w) ∧
        (nodeAt o (k :: p) = none → valueAt r (k :: p) = valueAt? b (k :: p)) ∧
        (∀ items, nodeAt o (k :: p) = some (.dict items) → valueAt r (k :: p) = none) := by
      intro e hb
      rw [e, hb]
      refine ⟨fun v hv => ⟨v, hv, by cases v <;> rfl⟩, fun hn => ?_, fun items hi => ?_⟩
      · unfold valueAt
        rw [hn]
      · unfold valueAt
        rw [hi]
    rcases b with _ | ((_ | u) | bi)
    · simp only [updateValue] at h
      cases h
      exact keep rfl rfl
    · simp only [updateValue] at h
      cases h
      exact keep rfl rfl
    · cases o with
      | dict oi => simp only [updateValue] at h; cases h
      | leaf v =>
        refine ⟨fun v' hv => (by rw [valueAt_leaf_cons] at hv; cases hv), fun _ => ?_, fun items hi => (by cases hi)⟩
        cases v with
        | none =>
          simp only [updateValue] at h
          cases h
          rfl
        | some v =>
          simp only [updateValue] at h
          cases hc : conv u v with
          | none => rw [hc] at h; cases h
          | some w =>
            rw [hc] at h
            cases h
            rfl
    · cases o with
      | leaf v => simp only [updateValue] at h; cases h
      | dict oi =>
        rw [updateValue] at h
        obtain ⟨ri, h1, h2⟩ := ebind h
        cases h2
        have hk := updateItems_iff conv oi (hd [] oi rfl) bi ri h1 k
        have hb : valueAt? (some (Cfg.dict bi)) (k :: p) = valueAt? (PyDict.get? bi k) p := valueAt_dict_cons bi k p
        rw [hb, valueAt_dict_cons, valueAt_dict_cons]
        cases ho : PyDict.get? oi k with
        | none =>
          rw [ho] at hk
          simp only at hk
          rw [hk]
          refine ⟨fun v hv => (by cases hv), fun _ => rfl, fun items hi => ?_⟩
          simp only [nodeAt, ho] at hi
          cases hi
        | some ov =>
          rw [ho] at hk
          obtain ⟨w, hw1, hw2⟩ := hk
          rw [hw2]
          have := ih (PyDict.get? bi k) ov w (distinct_item hd ho) hw1
          refine ⟨this.1, ?_, ?_⟩
          · intro hn
            refine this.2.1 ?_
            simpa only [nodeAt, ho] using hn
          · intro items hi
            refine this.2.2 items ?_
            simpa only [nodeAt, ho] using hi

/-- Every value of the override is in the result, converted to the type of the value that it replaces; values of the
base are unchanged where the override has nothing; and there is nothing else. -/
theorem C101_override (conv : V → V → Option V) (base o r : List (Key × Cfg V)) (hd : Distinct (.dict o))
    (h : overrideBaseConfig conv base (some o) = .ok r) (p : List Key) :
    (∀ v, valueAt (.dict o) p = some v →
      ∃ w, valueAt (.dict r) p = some w ∧ Stored conv (valueAt (.dict base) p) v w) ∧
    (nodeAt (.dict o) p = none → valueAt (.dict r) p = valueAt (.dict base) p) ∧
    (∀ items, nodeAt (.dict o) p = some (.dict items) → valueAt (.dict r) p = none) := by
  have h' : updateItems conv base o = .ok r := by
    cases o with
    | nil =>
      rw [updateItems]
      exact h
    | cons kv os => exact h
  refine updateValue_spec conv p (some (.dict base)) (.dict o) (.dict r) hd ?_
  rw [updateValue, h']
  rfl

/-- Without overrides the configuration is that of the base. -/
theorem C101_no_override (conv : V → V → Option V) (base : List (Key × Cfg V)) :
    overrideBaseConfig conv base none = .ok base ∧ overrideBaseConfig conv base (some []) = .ok base := ⟨rfl, rfl⟩

theorem updateValue_ok (conv : V → V → Option V) (n : Nat) : ∀ (b : Option (Cfg V)) (o : Cfg V), sizeOf o < n → Distinct o →
    ((∃ r, updateValue conv b o = .ok r) ↔
      ∀ bb, b = some bb → ∀ p nb no, nodeAt bb p = some nb → nodeAt o p = some no → NodeOk conv nb no) := by
  induction n with
  | zero => intro b o h; omega
  | succ n ih =>
    intro b o hn hd
    constructor
    · rintro ⟨r, h⟩ bb hb p nb no h1 h2
      subst hb
      cases p with
      | nil =>
        cases h1
        cases h2
        rcases bb with (_ | u) | bi
        · exact trivial
        · cases o with
          | dict oi => simp only [updateValue] at h; cases h
          | leaf v =>
            cases v with
            | none => exact trivial
            | some v =>
              simp only [updateValue] at h
              intro hc
              rw [hc] at h
              cases h
        · cases o with
          | dict oi => exact trivial
          | leaf v => simp only [updateValue] at h; cases h
      | cons k p =>
        rcases bb with v | bi
        · cases h1
        · rcases o with v | oi
          · cases h2
          · rw [updateValue] at h
            obtain ⟨ri, h3, _⟩ := ebind h
            have hk := updateItems_iff conv oi (hd [] oi rfl) bi ri h3 k
            simp only [nodeAt] at h1 h2
            cases ho : PyDict.get? oi k with
            | none => rw [ho] at h2; cases h2
            | some ov =>
              rw [ho] at h2 hk
              obtain ⟨w, hw, _⟩ := hk
              cases hb : PyDict.get? bi k with
              | none => rw [hb] at h1; cases h1
              | some bv =>
                rw [hb] at h1 hw
                have hsz : sizeOf ov < n := by
                  have hm := (PyDict.get?_eq_some oi (hd [] oi rfl) k ov).1 ho
                  have := List.sizeOf_lt_of_mem hm
                  simp only [Prod.mk.sizeOf_spec] at this
                  simp only [Cfg.dict.sizeOf_spec] at hn
                  omega
                exact (ih (some bv) ov hsz (distinct_item hd ho)).1 ⟨w, hw⟩ bv rfl p nb no h1 h2
    · intro h
      rcases b with _ | ((_ | u) | bi)
      · exact ⟨o, by simp only [updateValue]⟩
      · exact ⟨o, by simp only [updateValue]⟩
      · have h0 := h _ rfl [] _ _ rfl rfl
        rcases o with (_ | v) | oi
        · exact ⟨_, by simp only [updateValue]; rfl⟩
        · simp only [NodeOk] at h0
          cases hc : conv u v with
          | none => exact absurd hc h0
          | some w => exact ⟨.leaf (some w), by simp only [updateValue, hc]⟩
        · exact h0.elim
      · have h0 := h _ rfl [] _ _ rfl rfl
        rcases o with v | oi
        · exact h0.elim
        · obtain ⟨r, hr⟩ := updateItems_ok conv oi (hd [] oi rfl) bi (by
            intro k ov ho
            have hsz : sizeOf ov < n := by
              have hm := (PyDict.get?_eq_some oi (hd [] oi rfl) k ov).1 ho
              have := List.sizeOf_lt_of_mem hm
              simp only [Prod.mk.sizeOf_spec] at this
              simp only [Cfg.dict.sizeOf_spec] at hn
              omega
            refine (ih (PyDict.get? bi k) ov hsz (distinct_item hd ho)).2 ?_
            intro bb hb p nb no h1 h2
            refine h _ rfl (k :: p) nb no ?_ ?_
            · simp only [nodeAt, hb]
              exact h1
            · simp only [nodeAt, ho]
              exact h2)
          exact ⟨.dict r, by rw [updateValue, hr]; rfl⟩

/-- The override is accepted exactly when, wherever both have something under the same path, both are configurations,
or the base has `None`, or the override has a value that may replace the value of the base. -/
theorem C101_accepted (conv : V → V → Option V) (base o : List (Key × Cfg V)) (hd : Distinct (.dict o)) :
    (∃ r, overrideBaseConfig conv base (some o) = .ok r) ↔
      ∀ p nb no, nodeAt (.dict base) p = some nb → nodeAt (.dict o) p = some no → NodeOk conv nb no := by
  have key := updateValue_ok conv (sizeOf (Cfg.dict o) + 1) (some (.dict base)) (.dict o) (by omega) hd
  have h1 : (∃ r, overrideBaseConfig conv base (some o) = .ok r) ↔
      ∃ r, updateValue conv (some (.dict base)) (.dict o) = .ok r := by
    have e : overrideBaseConfig conv base (some o) = updateItems conv base o := by
      cases o with
      | nil =>
        rw [updateItems]
        rfl
      | cons kv os => rfl
    rw [e]
    constructor
    · rintro ⟨r, h⟩
      exact ⟨.dict r, by rw [updateValue, h]; rfl⟩
    · rintro ⟨r, h⟩
      rw [updateValue] at h
      obtain ⟨ri, h2, _⟩ := ebind h
      exact ⟨ri, h2⟩
  rw [h1, key]
  constructor
  · intro h p nb no a b
    exact h _ rfl p nb no a b
  · intro h bb hb p nb no a b
    cases hb
    exact h p nb no a b

/-- The few-shot evaluation uses the overrides of the evaluation, and its own ones over them: a value comes from its
own overrides, or else from those of the evaluation, or else from the model. -/
theorem C101_fewshot (conv : V → V → Option V) (model oe of_ e f : List (Key × Cfg V)) (hde : Distinct (.dict oe))
    (hdf : Distinct (.dict of_)) (h : evalConfigs conv model (some oe) (some of_) = .ok (e, f)) (p : List Key) :
    (∀ v, valueAt (.dict of_) p = some v →
      ∃ w, valueAt (.dict f) p = some w ∧ Stored conv (valueAt (.dict e) p) v w) ∧
    (∀ v, nodeAt (.dict of_) p = none → valueAt (.dict oe) p = some v →
      ∃ w, valueAt (.dict f) p = some w ∧ Stored conv (valueAt (.dict model) p) v w) ∧
    (nodeAt (.dict of_) p = none → nodeAt (.dict oe) p = none →
      valueAt (.dict f) p = valueAt (.dict model) p) := by
  unfold evalConfigs at h
  obtain ⟨e', h1, h⟩ := ebind h
  obtain ⟨f', h2, h⟩ := ebind h
  cases h
  obtain ⟨a1, a2, a3⟩ := C101_override conv model oe e hde h1 p
  obtain ⟨b1, b2, b3⟩ := C101_override conv e of_ f hdf h2 p
  refine ⟨b1, ?_, ?_⟩
  · intro v hn hv
    rw [b2 hn]
    exact a1 v hv
  · intro hn1 hn2
    rw [b2 hn1, a2 hn2]

/-- A model with 1000 classes and a router with capacity factor 1. -/
def exModel : List (Key × Cfg Nat) :=
  [("num_classes".toList, .leaf (some 1000)),
   ("router".toList, .dict [("name".toList, .leaf (some 7)), ("capacity_factor".toList, .leaf (some 1))])]

/-- The evaluation uses capacity factor 4. -/
def exEvaluate : List (Key × Cfg Nat) := [("router".toList, .dict [("capacity_factor".toList, .leaf (some 4))])]

/-- The few-shot evaluation has no classifier. -/
def exFewshot : List (Key × Cfg Nat) := [("num_classes".toList, .leaf none)]

example : evalConfigs (fun _ v => some v) exModel (some exEvaluate) (some exFewshot) = .ok
    ([("num_classes".toList, .leaf (some 1000)),
      ("router".toList, .dict [("name".toList, .leaf (some 7)), ("capacity_factor".toList, .leaf (some 4))])],
     [("num_classes".toList, .leaf none),
      ("router".toList, .dict [("name".toList, .leaf (some 7)), ("capacity_factor".toList, .leaf (some 4))])]) := by
  rfl

theorem exEvaluate_distinct : Distinct (.dict exEvaluate) := by
  intro p items h
  match p with
  | [] =>
    cases h
    decide
  | [k] =>
    simp only [nodeAt, exEvaluate, PyDict.get?] at h
    split at h
    · rename_i c hc
      split at hc
      · cases hc
        cases h
        decide
      · cases hc
    · cases h
  | k :: k' :: p =>
    simp only [nodeAt, exEvaluate, PyDict.get?] at h
    split at h
    · rename_i c hc
      split at hc
      · cases hc
        simp only [nodeAt, PyDict.get?] at h
        split at h
        · rename_i c hc
          split at hc
          · cases hc
            cases p <;> cases h
          · cases hc
        · cases h
      · cases hc
    · cases h

/-- A nested configuration cannot be replaced by `None`: turning the router off in this way raises. -/
theorem C101_none_counterexample (conv : V → V → Option V) (b : List (Key × Cfg V)) (k : Key) (v : Option V) :
    overrideBaseConfig conv [(k, .dict b)] (some [(k, .leaf v)]) = .error .attributeError := by
  have hg : PyDict.get? [(k, Cfg.dict b)] k = some (.dict b) := by simp [PyDict.get?]
  rw [overrideBaseConfig, updateItems, hg, updateValue]
  rfl

end Verif.ConfigOverride
