import Verif.Spec.Calls
import Verif.Proofs.PyDict
import Verif.Proofs.ExceptLemmas
import Mathlib.Data.List.Forall2
import Mathlib.Data.List.Induction

/-!
# Call strings of configurations (C31)
-/

namespace Verif.ParseCall

open Verif

theorem isNum_iff (c : Const) : c.isNum = true ↔ Number c := by
  cases c <;> simp [Const.isNum, Number]

theorem real_iff (c : Const) : (c.isNum = true ∧ c.isComplex = false) ↔ RealNumber c := by
  cases c <;> simp [Const.isNum, Const.isComplex, RealNumber]

theorem convertNum_iff (e : Expr) (c : Const) :
    convertNum e = .ok c ↔ e = .const c ∧ Number c := by
  cases e with
  | const d =>
    rw [convertNum]
    split
    · rename_i h
      rw [isNum_iff] at h
      constructor
      · rintro ⟨⟩; exact ⟨rfl, h⟩
      · rintro ⟨h1, -⟩; cases h1; rfl
    · rename_i h
      rw [isNum_iff] at h
      constructor
      · rintro ⟨⟩
      · rintro ⟨h1, h2⟩; cases h1; exact absurd h2 h
  | _ => simp [convertNum]

theorem convertNum_err (e : Expr) (err : PyErr) (h : convertNum e = .error err) :
    err = .valueError ∨ err = .typeError := by
  cases e with
  | const c =>
    rw [convertNum] at h
    split at h <;> cases h
    exact .inl rfl
  | _ => cases h; exact .inl rfl

mutual
theorem hashable_iff : (v : Val) → (hashable v = true ↔ Imm v)
  | .const c => ⟨fun _ => .const c, fun _ => rfl⟩
  | .signed n c => ⟨fun _ => .signed n c, fun _ => rfl⟩
  | .sum s a b => ⟨fun _ => .sum s a b, fun _ => rfl⟩
  | .tuple l => by
    rw [hashable, hashableAll_iff l]
    exact ⟨fun h => .tuple l h, fun h => by cases h; assumption⟩
  | .list l => ⟨fun h => by simp [hashable] at h, fun h => by cases h⟩
  | .set l => ⟨fun h => by simp [hashable] at h, fun h => by cases h⟩
  | .dict l => ⟨fun h => by simp [hashable] at h, fun h => by cases h⟩
theorem hashableAll_iff : (l : List Val) → (hashableAll l = true ↔ ∀ v ∈ l, Imm v)
  | [] => by simp [hashableAll]
  | v :: l => by
    rw [hashableAll, Bool.and_eq_true, hashable_iff v, hashableAll_iff l]
    simp
end

mutual
theorem literalEval_sound : (e : Expr) → (v : Val) → literalEval e = .ok v → Lit e v
  | .const c, v, h => by rw [literalEval] at h; cases h; exact .const c
  | .tuple l, v, h => by
    rw [literalEval] at h
    obtain ⟨vs, hvs, h⟩ := ebind h
    cases h
    exact .tuple l vs (literalList_sound l vs hvs)
  | .list l, v, h => by
    rw [literalEval] at h
    obtain ⟨vs, hvs, h⟩ := ebind h
    cases h
    exact .list l vs (literalList_sound l vs hvs)
  | .set l, v, h => by
    rw [literalEval] at h
    obtain ⟨vs, hvs, h⟩ := ebind h
    split at h
    · rename_i hh
      cases h
      exact .set l vs (literalList_sound l vs hvs) ((hashableAll_iff vs).1 hh)
    · cases h
  | .dict l, v, h => by
    rw [literalEval] at h
    obtain ⟨vs, hvs, h⟩ := ebind h
    split at h
    · rename_i hh
      cases h
      refine .dict l vs (literalPairs_sound l vs hvs) ?_
      intro w hw
      exact (hashableAll_iff _).1 hh _ (List.mem_map.2 ⟨w, hw, rfl⟩)
    · cases h
  | .sign n e, v, h => by
    rw [literalEval] at h
    obtain ⟨c, hc, h⟩ := ebind h
    cases h
    obtain ⟨rfl, hn⟩ := (convertNum_iff e c).1 hc
    exact .signed n c hn
  | .addSub s a b, v, h => by
    rw [literalEval] at h
    obtain ⟨⟨n, l⟩, hl, h1⟩ := ebind h
    clear h
    obtain ⟨r, hr, h2⟩ := ebind h1
    clear h1
    obtain ⟨rfl, hrn⟩ := (convertNum_iff b r).1 hr
    split at h2
    · rename_i hh
      cases h2
      simp only [Bool.and_eq_true, Bool.not_eq_true'] at hh
      obtain ⟨i, rfl⟩ : ∃ i, r = .complex i := by
        cases r <;> simp [Const.isComplex] at hh
        exact ⟨_, rfl⟩
      by_cases hs : ∃ m x, a = .sign m x
      · obtain ⟨m, x, rfl⟩ := hs
        rw [convertSigned] at hl
        obtain ⟨c, hc, hl⟩ := ebind hl
        cases hl
        obtain ⟨rfl, hn⟩ := (convertNum_iff x l).1 hc
        exact .signedSum s m l i ((real_iff l).1 ⟨(isNum_iff l).2 hn, hh.1⟩)
      · have e : convertSigned a = (do return (none, ← convertNum a)) := by
          cases a with
          | sign m x => exact absurd ⟨m, x, rfl⟩ hs
          | _ => rfl
        rw [e] at hl
        obtain ⟨c, hc, hl⟩ := ebind hl
        cases hl
        obtain ⟨rfl, hn⟩ := (convertNum_iff a l).1 hc
        exact .sum s l i ((real_iff l).1 ⟨(isNum_iff l).2 hn, hh.1⟩)
    · cases h2
  | .call (.name id n) [] [], v, h => by
    rw [literalEval] at h
    split at h
    · rename_i hid
      cases h
      subst hid
      exact .emptySet n
    · cases h
  | .name _ _, v, h => by simp [literalEval] at h
  | .attr _ _ _, v, h => by simp [literalEval] at h
  | .starred _, v, h => by simp [literalEval] at h
  | .other, v, h => by simp [literalEval] at h
  | .call (.name id n) (a :: l) k, v, h => by simp [literalEval] at h
  | .call (.name id n) [] (a :: l), v, h => by simp [literalEval] at h
  | .call (.attr _ _ _) a k, v, h => by simp [literalEval] at h
  | .call (.call _ _ _) a k, v, h => by simp [literalEval] at h
  | .call (.const _) a k, v, h => by simp [literalEval] at h
  | .call (.tuple _) a k, v, h => by simp [literalEval] at h
  | .call (.list _) a k, v, h => by simp [literalEval] at h
  | .call (.set _) a k, v, h => by simp [literalEval] at h
  | .call (.dict _) a k, v, h => by simp [literalEval] at h
  | .call (.sign _ _) a k, v, h => by simp [literalEval] at h
  | .call (.addSub _ _ _) a k, v, h => by simp [literalEval] at h
  | .call (.starred _) a k, v, h => by simp [literalEval] at h
  | .call .other a k, v, h => by simp [literalEval] at h
theorem literalList_sound : (l : List Expr) → (vs : List Val) → literalList l = .ok vs → LitAll l vs
  | [], vs, h => by rw [literalList] at h; cases h; exact .nil
  | e :: l, vs, h => by
    rw [literalList] at h
    obtain ⟨v, hv, h⟩ := ebind h
    obtain ⟨ws, hws, h⟩ := ebind h
    cases h
    exact .cons e v l ws (literalEval_sound e v hv) (literalList_sound l ws hws)
theorem literalPairs_sound : (l : List (Expr × Expr)) → (vs : List (Val × Val)) →
    literalPairs l = .ok vs → LitPairs l vs
  | [], vs, h => by rw [literalPairs] at h; cases h; exact .nil
  | (k, e) :: l, vs, h => by
    rw [literalPairs] at h
    obtain ⟨a, ha, h⟩ := ebind h
    obtain ⟨v, hv, h⟩ := ebind h
    obtain ⟨ws, hws, h⟩ := ebind h
    cases h
    exact .cons k e a v l ws (literalEval_sound k a ha) (literalEval_sound e v hv)
      (literalPairs_sound l ws hws)
end

mutual
theorem lit_complete : {e : Expr} → {v : Val} → Lit e v → literalEval e = .ok v
  | _, _, .const c => by rw [literalEval]
  | _, _, .tuple l vs h => by rw [literalEval, litAll_complete h]; rfl
  | _, _, .list l vs h => by rw [literalEval, litAll_complete h]; rfl
  | _, _, .set l vs h hi => by
    rw [literalEval, litAll_complete h]
    change (if hashableAll vs = true then _ else _) = _
    rw [if_pos ((hashableAll_iff vs).2 hi)]; rfl
  | _, _, .emptySet n => by rw [literalEval]; simp
  | _, _, .dict l vs h hi => by
    rw [literalEval, litPairs_complete h]
    change (if hashableAll (vs.map Prod.fst) = true then _ else _) = _
    rw [if_pos ((hashableAll_iff _).2 (by
      intro v hv
      obtain ⟨w, hw, rfl⟩ := List.mem_map.1 hv
      exact hi w hw))]; rfl
  | _, _, .signed n c hc => by rw [literalEval, (convertNum_iff _ c).2 ⟨rfl, hc⟩]; rfl
  | _, _, .sum s a i ha => by
    have := (real_iff a).2 ha
    have e : convertSigned (.const a) = .ok (none, a) := by
      change (do return (none, ← convertNum (.const a))) = _
      rw [(convertNum_iff _ a).2 ⟨rfl, (isNum_iff a).1 this.1⟩]; rfl
    rw [literalEval, e]
    change (if (!a.isComplex && true) = true then _ else _) = _
    rw [if_pos (by simp [this.2])]; rfl
  | _, _, .signedSum s n a i ha => by
    have := (real_iff a).2 ha
    rw [literalEval, convertSigned, (convertNum_iff _ a).2 ⟨rfl, (isNum_iff a).1 this.1⟩]
    change (if (!a.isComplex && true) = true then _ else _) = _
    rw [if_pos (by simp [this.2])]; rfl
theorem litAll_complete : {l : List Expr} → {vs : List Val} → LitAll l vs → literalList l = .ok vs
  | _, _, .nil => by rw [literalList]
  | _, _, .cons e v l vs h1 h2 => by rw [literalList, lit_complete h1, litAll_complete h2]; rfl
theorem litPairs_complete : {l : List (Expr × Expr)} → {vs : List (Val × Val)} → LitPairs l vs →
    literalPairs l = .ok vs
  | _, _, .nil => by rw [literalPairs]
  | _, _, .cons k e a v l vs h1 h2 h3 => by
    rw [literalPairs, lit_complete h1, lit_complete h2, litPairs_complete h3]; rfl
end

theorem literalKws_iff (l : List (Option Str × Expr)) (vs : List (Option Str × Val)) :
    literalKws l = .ok vs ↔ List.Forall₂ (fun e v => e.1 = v.1 ∧ Lit e.2 v.2) l vs := by
  induction l generalizing vs with
  | nil =>
    rw [literalKws]
    constructor
    · rintro ⟨⟩; exact .nil
    · intro h; cases h; rfl
  | cons p l ih =>
    obtain ⟨k, e⟩ := p
    rw [literalKws]
    constructor
    · intro h
      obtain ⟨v, hv, h⟩ := ebind h
      obtain ⟨ws, hws, h⟩ := ebind h
      cases h
      exact .cons ⟨rfl, literalEval_sound e v hv⟩ ((ih ws).1 hws)
    · intro h
      cases h with
      | @cons _ w _ ws h1 h2 =>
        obtain ⟨k', v⟩ := w
        obtain ⟨rfl, h1⟩ := h1
        rw [lit_complete h1, (ih ws).2 h2]; rfl

theorem isDotted_iff (e : Expr) : isDotted e = true ↔ Dotted e := by
  induction e using isDotted.induct with
  | case1 id n => exact ⟨fun _ => .name id n, fun _ => rfl⟩
  | case2 v a n ih =>
    rw [isDotted, ih]
    exact ⟨fun h => .attr v a n h, fun h => by cases h; assumption⟩
  | case3 e h1 h2 =>
    constructor
    · intro h
      rw [isDotted] at h
      · cases h
      · exact h1
      · exact h2
    · intro h
      cases h with
      | name id n => exact absurd rfl (h1 id n)
      | attr v a n _ => exact absurd rfl (h2 v a n)

variable {Mod Obj : Type}

/-- `literal_eval` accepts exactly the literals, with their values. -/
theorem C31_literals (e : Expr) (v : Val) : literalEval e = .ok v ↔ Lit e v :=
  ⟨literalEval_sound e v, lit_complete⟩

/-- Spec: the function that a (possibly dotted) name in a string stands for. -/
def Denotes (env : Env Mod Obj) (string : Str) (default : Str ⊕ Mod) (f : Expr) (o : Obj) : Prop :=
  ∃ (ms : Str ⊕ Mod) (name : Str) (m : Mod),
    ((∃ n, f = .name name n ∧ ms = default) ∨
      ∃ v n, f = .attr v name n ∧ Dotted v ∧ ms = .inl (string.take (endCol v))) ∧
    (ms = .inr m ∨ ∃ s, ms = .inl s ∧ env.modules s = some m) ∧ env.attrs m name = some o

theorem findModule_iff (env : Env Mod Obj) (ms : Str ⊕ Mod) (m : Mod) :
    findModule env ms = .ok m ↔ (ms = .inr m ∨ ∃ s, ms = .inl s ∧ env.modules s = some m) := by
  cases ms with
  | inl s =>
    rw [findModule]
    cases h : env.modules s with
    | none => simp [h]
    | some m' => simp [h]
  | inr m' => simp [findModule]

theorem getAttr_iff (env : Env Mod Obj) (m : Mod) (name : Str) (o : Obj) :
    getAttr env m name = .ok o ↔ env.attrs m name = some o := by
  unfold getAttr
  cases h : env.attrs m name <;> simp

theorem target_iff (string : Str) (default : Str ⊕ Mod) (f : Expr) (ms : Str ⊕ Mod) (name : Str) :
    target string default f = .ok (ms, name) ↔
      ((∃ n, f = .name name n ∧ ms = default) ∨
      ∃ v n, f = .attr v name n ∧ Dotted v ∧ ms = .inl (string.take (endCol v))) := by
  cases f with
  | name id n =>
    rw [target]
    constructor
    · intro h; cases h; exact .inl ⟨n, rfl, rfl⟩
    · rintro (⟨n, h, rfl⟩ | ⟨v, n, h, -⟩)
      · cases h; rfl
      · cases h
  | attr v a n =>
    rw [target]
    split
    · rename_i hd
      constructor
      · intro h; cases h; exact .inr ⟨v, n, rfl, (isDotted_iff v).1 hd, rfl⟩
      · rintro (⟨n, h, rfl⟩ | ⟨v, n, h, -, rfl⟩)
        · cases h
        · cases h; rfl
    · rename_i hd
      constructor
      · intro h; cases h
      · rintro (⟨n, h, rfl⟩ | ⟨v, n, h, hd', rfl⟩)
        · cases h
        · cases h; exact absurd ((isDotted_iff v).2 hd') hd
  | _ => simp [target]

/-- The exact set of accepted trees and their results: a (dotted) name, or a call of one whose
arguments are all literals; positional arguments and keywords keep their order and values. -/
theorem C31_accepts_iff (env : Env Mod Obj) (string : Str) (e : Expr) (default : Str ⊕ Mod) (o : Obj)
    (args : List Val) (kwargs : PyDict (Option Str) Val) :
    parseCall env string e default = .ok (o, args, kwargs) ↔
      ((∃ f as ks, e = .call f as ks ∧ Denotes env string default f o ∧ LitAll as args ∧
          ∃ kvs, List.Forall₂ (fun e v => e.1 = v.1 ∧ Lit e.2 v.2) ks kvs ∧ kwargs = PyDict.ofItems kvs) ∨
        (Denotes env string default e o ∧ args = [] ∧ kwargs = [])) := by
  have key : ∀ (f : Expr) (a : List Val) (k : PyDict (Option Str) Val),
      (do let (ms, name) ← target string default f
          let m ← findModule env ms
          let o ← getAttr env m name
          return (o, a, k)) = (.ok (o, args, kwargs) : Except PyErr _) ↔
        Denotes env string default f o ∧ args = a ∧ kwargs = k := by
    intro f a k
    constructor
    · intro h
      obtain ⟨⟨ms, name⟩, h1, h⟩ := ebind h
      obtain ⟨m, h2, h⟩ := ebind h
      obtain ⟨o', h3, h⟩ := ebind h
      cases h
      exact ⟨⟨ms, name, m, (target_iff _ _ _ _ _).1 h1, (findModule_iff _ _ _).1 h2,
        (getAttr_iff _ _ _ _).1 h3⟩, rfl, rfl⟩
    · rintro ⟨⟨ms, name, m, h1, h2, h3⟩, rfl, rfl⟩
      rw [(target_iff _ _ _ _ _).2 h1]
      change (findModule env ms >>= _) = _
      rw [(findModule_iff _ _ _).2 h2]
      change (getAttr env m name >>= _) = _
      rw [(getAttr_iff _ _ _ _).2 h3]
      rfl
  have hnc : ∀ f as ks, ¬ Denotes env string default (.call f as ks) o := by
    rintro f as ks ⟨ms, name, m, ⟨n, h, -⟩ | ⟨v, n, h, -⟩, -⟩ <;> cases h
  unfold parseCall
  by_cases hc : ∃ f as ks, e = .call f as ks
  · obtain ⟨f, as, ks, rfl⟩ := hc
    rw [splitCall]
    constructor
    · intro h
      obtain ⟨⟨a, k, f'⟩, h1, h⟩ := ebind h
      obtain ⟨a', ha, h2⟩ := ebind h1
      obtain ⟨k', hk, h3⟩ := ebind h2
      cases h3
      obtain ⟨hd, rfl, rfl⟩ := (key _ _ _).1 h
      exact .inl ⟨f, as, ks, rfl, hd, literalList_sound _ _ ha, k', (literalKws_iff _ _).1 hk, rfl⟩
    · rintro (⟨f', as', ks', he, hd, ha, kvs, hk, rfl⟩ | ⟨hd, -⟩)
      · cases he
        rw [litAll_complete ha, (literalKws_iff _ _).2 hk]
        exact (key f _ _).2 ⟨hd, rfl, rfl⟩
      · exact absurd hd (hnc _ _ _)
  · have e1 : splitCall e = .ok ([], [], e) := by
      cases e with
      | call f as ks => exact absurd ⟨f, as, ks, rfl⟩ hc
      | _ => rfl
    rw [e1]
    refine (key e [] []).trans ?_
    constructor
    · intro h; exact .inr h
    · rintro (⟨f, as, ks, rfl, -⟩ | h)
      · exact absurd ⟨f, as, ks, rfl⟩ hc
      · exact h

/-- Distinct keywords are returned in their order. -/
theorem C31_keywords (env : Env Mod Obj) (string : Str) (f : Expr) (as : List Expr)
    (ks : List (Option Str × Expr)) (default : Str ⊕ Mod) (o : Obj) (args : List Val)
    (kvs : List (Option Str × Val)) (hf : Denotes env string default f o) (ha : LitAll as args)
    (hk : List.Forall₂ (fun e v => e.1 = v.1 ∧ Lit e.2 v.2) ks kvs) (hn : (ks.map Prod.fst).Nodup) :
    parseCall env string (.call f as ks) default = .ok (o, args, kvs) := by
  rw [C31_accepts_iff]
  refine .inl ⟨f, as, ks, rfl, hf, ha, kvs, hk, ?_⟩
  have : ks.map Prod.fst = kvs.map Prod.fst := by
    clear hn
    induction hk with
    | nil => rfl
    | cons h _ ih => simp [h.1, ih]
  exact (PyDict.ofItems_of_nodup kvs (by unfold PyDict.keys; rw [← this]; exact hn)).symm

theorem endCol_dottedExpr (first : Str) (rest : List Str) :
    endCol (dottedExpr first rest) = (dottedText first rest).length ∧ Dotted (dottedExpr first rest) := by
  unfold dottedExpr dottedText
  induction rest using List.reverseRec with
  | nil => exact ⟨rfl, .name _ _⟩
  | append_singleton l p ih =>
    rw [List.foldl_concat, List.foldl_concat]
    refine ⟨?_, .attr _ _ _ ih.2⟩
    rw [endCol, ih.1]
    simp; omega

/-- In a string that starts with `a.b.….z`, the function is attribute `z` of the module `a.b.…`. -/
theorem C31_dotted (env : Env Mod Obj) (default : Str ⊕ Mod) (first : Str) (rest : List Str) (name : Str)
    (after : Str) (m : Mod) (o : Obj) (hm : env.modules (dottedText first rest) = some m)
    (ho : env.attrs m name = some o) :
    Denotes env (dottedText first (rest ++ [name]) ++ after) default (dottedExpr first (rest ++ [name])) o := by
  refine ⟨.inl (dottedText first rest), name, m, .inr ⟨dottedExpr first rest,
    endCol (dottedExpr first rest) + 1 + name.length, ?_, ?_, ?_⟩, ?_, ho⟩
  · unfold dottedExpr; rw [List.foldl_concat]
  · exact (endCol_dottedExpr first rest).2
  · rw [(endCol_dottedExpr first rest).1]
    unfold dottedText
    rw [List.foldl_concat, List.append_assoc, List.take_left]
  · exact .inr ⟨_, rfl, hm⟩

mutual
theorem literalEval_err : (e : Expr) → (err : PyErr) → literalEval e = .error err →
    err = .valueError ∨ err = .typeError
  | .const c, err, h => by simp [literalEval] at h
  | .tuple l, err, h => by
    rw [literalEval] at h
    cases hl : literalList l with
    | error e => rw [hl] at h; cases h; exact literalList_err l _ hl
    | ok vs => rw [hl] at h; cases h
  | .list l, err, h => by
    rw [literalEval] at h
    cases hl : literalList l with
    | error e => rw [hl] at h; cases h; exact literalList_err l _ hl
    | ok vs => rw [hl] at h; cases h
  | .set l, err, h => by
    rw [literalEval] at h
    cases hl : literalList l with
    | error e => rw [hl] at h; cases h; exact literalList_err l _ hl
    | ok vs =>
      rw [hl] at h
      change (if _ then _ else _) = _ at h
      split at h <;> cases h
      exact .inr rfl
  | .dict l, err, h => by
    rw [literalEval] at h
    cases hl : literalPairs l with
    | error e => rw [hl] at h; cases h; exact literalPairs_err l _ hl
    | ok vs =>
      rw [hl] at h
      change (if _ then _ else _) = _ at h
      split at h <;> cases h
      exact .inr rfl
  | .sign n e, err, h => by
    rw [literalEval] at h
    cases hl : convertNum e with
    | error e' => rw [hl] at h; cases h; exact convertNum_err e err hl
    | ok vs => rw [hl] at h; cases h
  | .addSub s a b, err, h => by
    rw [literalEval] at h
    cases hl : convertSigned a with
    | error e' =>
      rw [hl] at h; cases h
      have : convertNum a = .error err ∨ ∃ m x, a = .sign m x ∧ convertNum x = .error err := by
        cases a with
        | sign m x =>
          refine .inr ⟨m, x, rfl, ?_⟩
          rw [convertSigned] at hl
          cases hx : convertNum x with
          | error e => rw [hx] at hl; cases hl; rfl
          | ok c => rw [hx] at hl; cases hl
        | const c =>
          refine .inl ?_
          change (do return (none, ← convertNum (.const c))) = _ at hl
          cases hx : convertNum (.const c) with
          | error e => rw [hx] at hl; cases hl; rfl
          | ok c => rw [hx] at hl; cases hl
        | _ => cases hl; exact .inl rfl
      rcases this with h | ⟨m, x, -, h⟩ <;> exact convertNum_err _ _ h
    | ok p =>
      rw [hl] at h
      change (convertNum b >>= _) = _ at h
      cases hr : convertNum b with
      | error e' => rw [hr] at h; cases h; exact convertNum_err b err hr
      | ok r =>
        rw [hr] at h
        change (if _ then _ else _) = _ at h
        split at h <;> cases h
        exact .inl rfl
  | .call (.name id n) [] [], err, h => by
    rw [literalEval] at h
    split at h <;> cases h
    exact .inl rfl
  | .name _ _, v, h => by simp [literalEval] at h; exact .inl h.symm
  | .attr _ _ _, v, h => by simp [literalEval] at h; exact .inl h.symm
  | .starred _, v, h => by simp [literalEval] at h; exact .inl h.symm
  | .other, v, h => by simp [literalEval] at h; exact .inl h.symm
  | .call (.name id n) (a :: l) k, v, h => by simp [literalEval] at h; exact .inl h.symm
  | .call (.name id n) [] (a :: l), v, h => by simp [literalEval] at h; exact .inl h.symm
  | .call (.attr _ _ _) a k, v, h => by simp [literalEval] at h; exact .inl h.symm
  | .call (.call _ _ _) a k, v, h => by simp [literalEval] at h; exact .inl h.symm
  | .call (.const _) a k, v, h => by simp [literalEval] at h; exact .inl h.symm
  | .call (.tuple _) a k, v, h => by simp [literalEval] at h; exact .inl h.symm
  | .call (.list _) a k, v, h => by simp [literalEval] at h; exact .inl h.symm
  | .call (.set _) a k, v, h => by simp [literalEval] at h; exact .inl h.symm
  | .call (.dict _) a k, v, h => by simp [literalEval] at h; exact .inl h.symm
  | .call (.sign _ _) a k, v, h => by simp [literalEval] at h; exact .inl h.symm
  | .call (.addSub _ _ _) a k, v, h => by simp [literalEval] at h; exact .inl h.symm
  | .call (.starred _) a k, v, h => by simp [literalEval] at h; exact .inl h.symm
  | .call .other a k, v, h => by simp [literalEval] at h; exact .inl h.symm
theorem literalList_err : (l : List Expr) → (err : PyErr) → literalList l = .error err →
    err = .valueError ∨ err = .typeError
  | [], err, h => by simp [literalList] at h
  | e :: l, err, h => by
    rw [literalList] at h
    cases h1 : literalEval e with
    | error e' => rw [h1] at h; cases h; exact literalEval_err e err h1
    | ok v =>
      rw [h1] at h
      change (literalList l >>= _) = _ at h
      cases h2 : literalList l with
      | error e' => rw [h2] at h; cases h; exact literalList_err l err h2
      | ok vs => rw [h2] at h; cases h
theorem literalPairs_err : (l : List (Expr × Expr)) → (err : PyErr) → literalPairs l = .error err →
    err = .valueError ∨ err = .typeError
  | [], err, h => by simp [literalPairs] at h
  | (k, e) :: l, err, h => by
    rw [literalPairs] at h
    cases h1 : literalEval k with
    | error e' => rw [h1] at h; cases h; exact literalEval_err k err h1
    | ok v =>
      rw [h1] at h
      change (literalEval e >>= _) = _ at h
      cases h2 : literalEval e with
      | error e' => rw [h2] at h; cases h; exact literalEval_err e err h2
      | ok w =>
        rw [h2] at h
        change (literalPairs l >>= _) = _ at h
        cases h3 : literalPairs l with
        | error e' => rw [h3] at h; cases h; exact literalPairs_err l err h3
        | ok vs => rw [h3] at h; cases h
end

theorem literalKws_err (l : List (Option Str × Expr)) (err : PyErr) (h : literalKws l = .error err) :
    err = .valueError ∨ err = .typeError := by
  induction l with
  | nil => simp [literalKws] at h
  | cons p l ih =>
    obtain ⟨k, e⟩ := p
    rw [literalKws] at h
    cases h1 : literalEval e with
    | error e' => rw [h1] at h; cases h; exact literalEval_err e err h1
    | ok v =>
      rw [h1] at h
      change (literalKws l >>= _) = _ at h
      cases h2 : literalKws l with
      | error e' => rw [h2] at h; cases h; exact ih h2
      | ok vs => rw [h2] at h; cases h

/-- Trees of another form raise before any module is imported: with every environment, the result is
the same error, a ValueError or (unhashable key or element) a TypeError. -/
theorem C31_rejects (string : Str) (e : Expr) (default : Str ⊕ Mod)
    (h : ¬ ∃ f as ks, (e = .call f as ks ∨ e = f ∧ as = [] ∧ ks = []) ∧ Dotted f ∧
      (∃ args, LitAll as args) ∧ ∃ kvs : List (Option Str × Val),
        List.Forall₂ (fun e v => e.1 = v.1 ∧ Lit e.2 v.2) ks kvs) :
    ∃ err, (err = .valueError ∨ err = .typeError) ∧
      ∀ env : Env Mod Obj, parseCall env string e default = .error err := by
  unfold parseCall
  have htgt : ∀ f, ¬ Dotted f → target string default f = .error .valueError := by
    intro f hf
    cases f with
    | name id n => exact absurd (.name id n) hf
    | attr v a n =>
      rw [target, if_neg]
      intro hd
      exact hf (.attr v a n ((isDotted_iff v).1 hd))
    | _ => rfl
  cases hs : splitCall e with
  | error err =>
    refine ⟨err, ?_, fun _ => rfl⟩
    cases e with
    | call f as ks =>
      rw [splitCall] at hs
      cases h1 : literalList as with
      | error e' => rw [h1] at hs; cases hs; exact literalList_err as err h1
      | ok v =>
        rw [h1] at hs
        change (literalKws ks >>= _) = _ at hs
        cases h2 : literalKws ks with
        | error e' => rw [h2] at hs; cases hs; exact literalKws_err ks err h2
        | ok vs => rw [h2] at hs; cases hs
    | _ => cases hs
  | ok p =>
    obtain ⟨args, kwargs, f⟩ := p
    refine ⟨.valueError, .inl rfl, fun env => ?_⟩
    have hnd : ¬ Dotted f := by
      intro hd
      apply h
      by_cases hc : ∃ f as ks, e = .call f as ks
      · obtain ⟨f', as, ks, rfl⟩ := hc
        rw [splitCall] at hs
        obtain ⟨a, ha, h2⟩ := ebind hs
        obtain ⟨k, hk, h3⟩ := ebind h2
        cases h3
        exact ⟨f, as, ks, .inl rfl, hd, ⟨_, literalList_sound _ _ ha⟩, _, (literalKws_iff _ _).1 hk⟩
      · have e1 : splitCall e = .ok ([], [], e) := by
          cases e with
          | call f as ks => exact absurd ⟨f, as, ks, rfl⟩ hc
          | _ => rfl
        rw [e1] at hs
        cases hs
        exact ⟨_, [], [], .inr ⟨rfl, rfl, rfl⟩, hd, ⟨[], .nil⟩, [], .nil⟩
    change (target string default f >>= _) = _
    rw [htgt f hnd]
    rfl

/-- A parenthesised module name is cut at the wrong place: `(foo).bar` asks for the module `(foo`. -/
theorem C31_parenthesis_counterexample (env : Env Mod Obj) (default : Str ⊕ Mod)
    (h : env.modules "(foo".toList = none) :
    parseCall env "(foo).bar".toList (.attr (.name "foo".toList 4) "bar".toList 9) default =
      .error .importError := by
  have e : findModule env (Sum.inl ("(foo".toList)) = .error .importError := by
    rw [findModule, h]
  change (findModule env (Sum.inl ("(foo".toList)) >>= _) = _
  rw [e]
  rfl

/-- `foo.bar(-1, (2,), c={'a': [3]}, d=set())` and a nested call. -/
example : LitAll [.sign true (.const (.int 1)), .tuple [.const (.int 2)]]
      [.signed true (.int 1), .tuple [.const (.int 2)]] ∧
    List.Forall₂ (fun e v => e.1 = v.1 ∧ Lit e.2 v.2)
      [(some "c".toList, .dict [(.const (.str "a".toList), .list [.const (.int 3)])]),
        (some "d".toList, .call (.name "set".toList 25) [] [])]
      [(some "c".toList, .dict [(.const (.str "a".toList), .list [.const (.int 3)])]),
        (some "d".toList, .set [])] ∧
    dottedText "foo".toList ["bar".toList] = "foo.bar".toList ∧
    dottedExpr "foo".toList ["bar".toList] = .attr (.name "foo".toList 3) "bar".toList 7 ∧
    (∀ (env : Env Unit Unit) (d : Str ⊕ Unit), parseCall env "f(g())".toList
      (.call (.name ['f'] 1) [.call (.name ['g'] 3) [] []] []) d = .error .valueError) ∧
    (∀ (env : Env Unit Unit) (d : Str ⊕ Unit), parseCall env "f().g".toList
      (.attr (.call (.name ['f'] 1) [] []) ['g'] 5) d = .error .valueError) := by
  refine ⟨.cons _ _ _ _ (.signed _ _ (.inl ⟨_, rfl⟩)) (.cons _ _ _ _
      (.tuple _ _ (.cons _ _ _ _ (.const _) .nil)) .nil),
    .cons ⟨rfl, .dict _ _ (.cons _ _ _ _ _ _ (.const _) (.list _ _ (.cons _ _ _ _ (.const _) .nil)) .nil)
      (by simp only [List.mem_singleton]; rintro _ rfl; exact .const _)⟩
      (.cons ⟨rfl, .emptySet _⟩ .nil), rfl, rfl, fun _ _ => rfl, fun _ _ => rfl⟩

end Verif.ParseCall
