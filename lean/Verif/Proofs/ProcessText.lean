import Verif.Model.ProcessText
import Verif.Spec.ProcessText
import Mathlib.Data.List.Nodup

/-!
Helper lemmas: reading the text of calls.
-/

namespace Verif.ProcessText

open Verif PpOps ProcessText.Spec
open Verif.ParseCall hiding Str

theorem run_append (a b : Str) : ∀ (col : Nat) (p : Pending), run col p (a ++ b) = (do
    let r ← run col p a
    let q ← run (col + a.length) r.2 b
    return (r.1 ++ q.1, q.2)) := by
  induction a with
  | nil =>
    intro col p
    simp only [List.nil_append, run, List.length_nil, Nat.add_zero]
    change _ = (run col p b >>= fun q => pure ([] ++ q.1, q.2) : Except PyErr _)
    cases run col p b <;> rfl
  | cons c a ih =>
    intro col p
    simp only [List.cons_append, run, ih, List.length_cons]
    cases lexStep col p c with
    | error e => rfl
    | ok r =>
      change ((run (col + 1) r.2 a >>= _ : Except PyErr _) >>= _ : Except PyErr _) =
        ((run (col + 1) r.2 a >>= _ : Except PyErr _) >>= _ : Except PyErr _)
      cases run (col + 1) r.2 a with
      | error e => rfl
      | ok q =>
        have : col + 1 + a.length = col + (a.length + 1) := by omega
        change ((run (col + 1 + a.length) q.2 b >>= _ : Except PyErr _) >>= _ : Except PyErr _) =
          (run (col + (a.length + 1)) q.2 b >>= _ : Except PyErr _)
        rw [this]
        cases run (col + (a.length + 1)) q.2 b with
        | error e => rfl
        | ok t =>
          change Except.ok (r.1 ++ (q.1 ++ t.1), t.2) = Except.ok ((r.1 ++ q.1) ++ t.1, t.2)
          rw [List.append_assoc]

theorem run_trans {a b : Str} {col : Nat} {p q r : Pending} {ts us : List Tok}
    (h1 : run col p a = .ok (ts, q)) (h2 : run (col + a.length) q b = .ok (us, r)) :
    run col p (a ++ b) = .ok (ts ++ us, r) := by
  rw [run_append, h1]
  change (run (col + a.length) q b >>= _ : Except PyErr _) = _
  rw [h2]
  rfl

theorem run_one {c : Char} {col : Nat} {p q : Pending} {ts : List Tok} (h : lexStep col p c = .ok (ts, q)) :
    run col p [c] = .ok (ts, q) := by
  simp only [run, h]
  change Except.ok (ts ++ [], q) = _
  rw [List.append_nil]

theorem run_cons {c : Char} {s : Str} {col : Nat} {p q r : Pending} {ts us : List Tok} (h : lexStep col p c = .ok (ts, q))
    (h2 : run (col + 1) q s = .ok (us, r)) : run col p (c :: s) = .ok (ts ++ us, r) :=
  run_trans (a := [c]) (run_one h) h2

theorem ident_of {x : Char} (h : x.isAlphanum ∨ x = '_') : isIdent x = true := by
  unfold isIdent
  rcases h with h | h
  · rw [h]; rfl
  · rw [h]; rfl

theorem run_idents (t : Str) : ∀ (s : Str) (col : Nat), (∀ x ∈ t, x.isAlphanum ∨ x = '_') →
    run col (.name s) t = .ok ([], .name (s ++ t)) := by
  induction t with
  | nil => intro s col _; simp [run]
  | cons c t ih =>
    intro s col h
    have h1 : lexStep col (.name s) c = .ok ([], .name (s ++ [c])) := by
      simp only [lexStep]
      rw [if_pos (ident_of (h c (by simp)))]
    have := run_cons h1 (ih (s ++ [c]) (col + 1) fun x hx => h x (by simp [hx]))
    simpa using this

/-- No character of names is one of the other characters. -/
theorem alpha_ne {c : Char} (h : c.isAlpha ∨ c = '_') :
    c ≠ ' ' ∧ c ≠ '(' ∧ c ≠ ')' ∧ c ≠ ',' ∧ c ≠ '=' ∧ c ≠ '-' ∧ c ≠ '"' ∧ c ≠ '\'' ∧ c.isDigit = false := by
  refine ⟨?_, ?_, ?_, ?_, ?_, ?_, ?_, ?_, ?_⟩
  any_goals
    rintro rfl
    revert h
    decide
  rcases h with h | h
  · unfold Char.isAlpha Char.isUpper Char.isLower at h
    unfold Char.isDigit
    simp only [Bool.or_eq_true, Bool.and_eq_true, decide_eq_true_eq, Bool.and_eq_false_iff, decide_eq_false_iff_not] at h ⊢
    simp only [UInt32.le_iff_toNat_le] at h ⊢
    simp at h ⊢
    omega
  · rw [h]; decide

theorem run_name {s : Str} (h : IsName s) (col : Nat) : run col .none s = .ok ([], .name s) := by
  obtain ⟨c, t, rfl, hc, ht⟩ := h
  obtain ⟨n1, n2, n3, n4, n5, n6, n7, n8, n9⟩ := alpha_ne hc
  have h1 : lexStep col .none c = .ok ([], .name [c]) := by
    simp only [lexStep, lexFresh, n1, n2, n3, n4, n5, n6, n7, n8, n9, or_self, if_false, Bool.false_eq_true]
    rw [if_pos (ident_of (hc.imp (fun h => by simp [Char.isAlphanum, h]) id))]
  have := run_cons h1 (run_idents t [c] (col + 1) ht)
  simpa using this

theorem digitChar_facts : ∀ d < 10, (Nat.digitChar d).isDigit = true ∧ (Nat.digitChar d).toNat - 48 = d ∧
    Nat.digitChar d ≠ ' ' ∧ Nat.digitChar d ≠ '(' ∧ Nat.digitChar d ≠ ')' ∧ Nat.digitChar d ≠ ',' ∧ Nat.digitChar d ≠ '=' ∧
    Nat.digitChar d ≠ '-' ∧ Nat.digitChar d ≠ '"' ∧ Nat.digitChar d ≠ '\'' := by
  decide

theorem run_digits (n : Nat) : ∀ col, run col .none (Nat.toDigits 10 n) = .ok ([], .int n) := by
  induction n using Nat.strong_induction_on with
  | _ n ih =>
    intro col
    by_cases h : n < 10
    · rw [Nat.toDigits_of_lt_base h]
      obtain ⟨f1, f2, n1, n2, n3, n4, n5, n6, n7, n8⟩ := digitChar_facts n h
      apply run_one
      simp only [lexStep, lexFresh, n1, n2, n3, n4, n5, n6, n7, n8, or_self, if_false, f1, if_true, f2]
    · rw [Nat.toDigits_of_base_le (by omega) (by omega)]
      obtain ⟨f1, f2, _⟩ := digitChar_facts (n % 10) (by omega)
      have h1 := ih (n / 10) (by omega) col
      have := run_trans (b := [Nat.digitChar (n % 10)]) h1 (run_one (ts := []) (q := .int n) (by
        simp only [lexStep, f1, if_true, f2]
        rw [if_neg (by omega)]
        have : 10 * (n / 10) + n % 10 = n := by omega
        rw [this]))
      simpa using this

theorem run_string (q : Char) (s : Str) : ∀ (acc : Str) (col : Nat), q ∉ s → '\\' ∉ s → '\n' ∉ s →
    run col (.str q acc) (s ++ [q]) = .ok ([.str (acc ++ s)], .none) := by
  induction s with
  | nil =>
    intro acc col _ _ _
    apply run_one
    simp [lexStep]
  | cons c s ih =>
    intro acc col h1 h2 h3
    simp only [List.mem_cons, not_or] at h1 h2 h3
    have e : lexStep col (.str q acc) c = .ok ([], .str q (acc ++ [c])) := by
      simp only [lexStep]
      rw [if_neg (Ne.symm h1.1), if_neg (by rintro (h | h); exacts [h2.1 h.symm, h3.1 h.symm])]
    have := run_cons e (ih (acc ++ [c]) (col + 1) h1.2 h2.2 h3.2)
    simpa using this

theorem run_spaces (k : Nat) : ∀ col, 0 < col → run col .none (List.replicate k ' ') = .ok ([], .none) := by
  induction k with
  | zero => intro col _; rfl
  | succ k ih =>
    intro col hc
    have e : lexStep col .none ' ' = .ok ([], .none) := by
      simp only [lexStep, lexFresh, if_true]
      rw [if_neg (by omega)]
    exact run_cons e (ih (col + 1) (by omega))

/-- The tokens that a comma, a parenthesis or an equals sign ends. -/
def ended (col : Nat) : Pending → List Tok
  | .name s => [.name s col]
  | .int n => [.int n]
  | _ => []

/-- A token that can be ended by a comma, a parenthesis or an equals sign. -/
def Open : Pending → Prop
  | .str _ _ => False
  | _ => True

theorem run_punct (c : Char) (t : Tok)
    (hc : (c = '(' ∧ t = .lpar) ∨ (c = ')' ∧ t = .rpar) ∨ (c = ',' ∧ t = .comma) ∨ (c = '=' ∧ t = .eq))
    (p : Pending) (hp : Open p) (col : Nat) : run col p [c] = .ok (ended col p ++ [t], .none) := by
  apply run_one
  cases p with
  | none =>
    rcases hc with ⟨rfl, rfl⟩ | ⟨rfl, rfl⟩ | ⟨rfl, rfl⟩ | ⟨rfl, rfl⟩ <;> rfl
  | name s =>
    rcases hc with ⟨rfl, rfl⟩ | ⟨rfl, rfl⟩ | ⟨rfl, rfl⟩ | ⟨rfl, rfl⟩ <;> rfl
  | int n =>
    rcases hc with ⟨rfl, rfl⟩ | ⟨rfl, rfl⟩ | ⟨rfl, rfl⟩ | ⟨rfl, rfl⟩ <;> rfl
  | str q s => exact hp.elim

theorem isName_true : IsName "True".toList := ⟨'T', "rue".toList, rfl, by decide, by decide⟩
theorem isName_false : IsName "False".toList := ⟨'F', "alse".toList, rfl, by decide, by decide⟩
theorem isName_none : IsName "None".toList := ⟨'N', "one".toList, rfl, by decide, by decide⟩

/-- The tokens of a value. -/
theorem run_literal (v : Literal) (hv : v.Ok) (col : Nat) : ∃ ts p, run col .none v.text = .ok (ts, p) ∧ Open p ∧
    ∀ col', 0 < (ts ++ ended col' p).length ∧
      (∀ rest, parseValue ((ts ++ ended col' p) ++ rest) = .ok (v.expr, rest)) ∧
      ∀ (k : Str) (n : Nat) (rest rest' : List Tok), (ts ++ ended col' p) ++ rest = .name k n :: .eq :: rest' →
        ∃ r, rest = .eq :: r := by
  cases v with
  | nat n =>
    refine ⟨[], .int n, run_digits n col, trivial, fun _ => ⟨by simp [ended], fun rest => rfl, ?_⟩⟩
    intro k m rest rest' h
    simp [ended] at h
  | neg n =>
    refine ⟨[.minus], .int n, run_cons (ts := [.minus]) rfl (run_digits n (col + 1)), trivial,
      fun _ => ⟨by simp [ended], fun rest => rfl, ?_⟩⟩
    intro k m rest rest' h
    simp [ended] at h
  | str q s =>
    obtain ⟨h1, h2, h3, h4⟩ := hv
    refine ⟨[.str s], .none, ?_, trivial, fun _ => ⟨by simp [ended], fun rest => rfl, ?_⟩⟩
    · have e : lexStep col .none q = .ok ([], .str q []) := by
        rcases h1 with rfl | rfl <;> rfl
      exact run_cons e (run_string q s [] (col + 1) h2 h3 h4)
    · intro k m rest rest' h
      simp [ended] at h
  | true =>
    refine ⟨[], _, run_name isName_true col, trivial, fun col' => ⟨by simp [ended], fun rest => rfl, ?_⟩⟩
    intro k m rest rest' h
    simp only [ended, List.nil_append, List.cons_append, List.cons.injEq] at h
    exact ⟨_, h.2⟩
  | false =>
    refine ⟨[], _, run_name isName_false col, trivial, fun col' => ⟨by simp [ended], fun rest => rfl, ?_⟩⟩
    intro k m rest rest' h
    simp only [ended, List.nil_append, List.cons_append, List.cons.injEq] at h
    exact ⟨_, h.2⟩
  | none =>
    refine ⟨[], _, run_name isName_none col, trivial, fun col' => ⟨by simp [ended], fun rest => rfl, ?_⟩⟩
    intro k m rest rest' h
    simp only [ended, List.nil_append, List.cons_append, List.cons.injEq] at h
    exact ⟨_, h.2⟩

theorem parseArg_value (ts : List Tok) (h : ∀ k n r, ts ≠ .name k n :: .eq :: r) :
    parseArg ts = (do
      let r ← parseValue ts
      return (none, r.1, r.2)) := by
  unfold parseArg
  split
  · exact absurd rfl (h _ _ _)
  · rfl

/-- The tokens of an argument and of the comma or parenthesis after it. -/
theorem run_argument (a : Argument) (ha : a.value.Ok) (hk : ∀ k, a.keyword = some k → IsName k) (col : Nat) (hcol : 0 < col) :
    ∃ ts p, run col .none a.text = .ok (ts, p) ∧ Open p ∧ ∀ col', 0 < (ts ++ ended col' p).length ∧
      ∀ rest, (∀ r, rest ≠ Tok.eq :: r) →
        parseArg ((ts ++ ended col' p) ++ rest) = .ok (a.keyword, a.value.expr, rest) := by
  obtain ⟨k, kw, v⟩ := a
  have hs := run_spaces k col hcol
  cases kw with
  | none =>
    obtain ⟨ts, p, h1, h2, h3⟩ := run_literal v ha (col + k)
    refine ⟨ts, p, ?_, h2, fun col' => ⟨(h3 col').1, ?_⟩⟩
    · have := run_trans hs (b := v.text) (by rw [List.length_replicate]; exact h1)
      simpa [Argument.text] using this
    · intro rest hr
      rw [parseArg_value _ fun k n r h => by
        obtain ⟨r', h'⟩ := (h3 col').2.2 k n rest r h
        exact hr r' h']
      rw [(h3 col').2.1 rest]
      rfl
  | some kwd =>
    obtain ⟨ts, p, h1, h2, h3⟩ := run_literal v ha (col + k + (kwd.length + 1))
    refine ⟨[.name kwd (col + k + kwd.length), .eq] ++ ts, p, ?_, h2, fun col' => ⟨by simp, ?_⟩⟩
    · have e1 := run_trans (run_name (hk kwd rfl) (col + k)) (b := ['='])
        (run_punct '=' .eq (by simp) (.name kwd) trivial (col + k + kwd.length))
      have e2 := run_trans e1 (b := v.text) (by
        rw [List.length_append]
        exact h1)
      have e3 := run_trans hs (b := (kwd ++ ['=']) ++ v.text) (by rw [List.length_replicate]; exact e2)
      simpa [Argument.text, ended] using e3
    · intro rest hr
      change (parseValue (ts ++ ended col' p ++ rest) >>= _ : Except PyErr _) = _
      rw [(h3 col').2.1 rest]
      rfl

theorem parseArgs_rpar (fuel : Nat) (kw : Bool) : parseArgs fuel kw [.rpar] = .ok ([], []) := by
  cases fuel <;> rfl

theorem parseArgs_succ (fuel : Nat) (kw : Bool) (ts : List Tok) (h : ts ≠ [.rpar]) :
    parseArgs (fuel + 1) kw ts = (do
      let a ← parseArg ts
      if kw && a.1.isNone then .error .syntaxError else
      let rest ← match a.2.2 with
        | .comma :: ts => parseArgs fuel a.1.isSome ts
        | [.rpar] => .ok ([], [])
        | _ => .error .syntaxError
      match a.1 with
        | some k => return (rest.1, (some k, a.2.1) :: rest.2)
        | none => return (a.2.1 :: rest.1, rest.2)) := by
  rw [parseArgs]
  · rfl
  · exact h

theorem parseArgs_step (fuel : Nat) (kw : Bool) (ts rest : List Tok) (a : Argument) (r : List Expr × List (Option Str × Expr))
    (h : parseArg ts = .ok (a.keyword, a.value.expr, rest)) (hk : kw = true → a.keyword.isSome)
    (hr : (rest = [.rpar] ∧ r = ([], [])) ∨ ∃ us, rest = .comma :: us ∧ parseArgs fuel a.keyword.isSome us = .ok r) :
    parseArgs (fuel + 1) kw ts = .ok (match a.keyword with
      | some k => (r.1, (some k, a.value.expr) :: r.2)
      | none => (a.value.expr :: r.1, r.2)) := by
  rw [parseArgs_succ _ _ _ (by
    rintro rfl
    cases h)]
  rw [h]
  have hk' : (kw && a.keyword.isNone) = false := by
    cases kw with
    | false => rfl
    | true =>
      have := hk rfl
      cases ha : a.keyword with
      | none => rw [ha] at this; cases this
      | some k => rfl
  change (if (kw && a.keyword.isNone) = true then _ else _) = _
  rw [hk', if_neg (by simp)]
  rcases hr with ⟨rfl, rfl⟩ | ⟨us, rfl, h2⟩
  · cases ha : a.keyword <;> rfl
  · change (parseArgs fuel a.keyword.isSome us >>= _ : Except PyErr _) = _
    rw [h2]
    cases ha : a.keyword <;> rfl

theorem run_arguments (l : List Argument) : ∀ (col : Nat), 0 < col →
    (∀ a ∈ l, a.value.Ok ∧ ∀ k, a.keyword = some k → IsName k) →
    (l.Pairwise fun a b => a.keyword.isSome → b.keyword.isSome) →
    ∃ ts, run col .none (argumentsText l) = .ok (ts, .none) ∧ l.length < ts.length ∧
      ∀ (kw : Bool) (fuel : Nat), l.length ≤ fuel → (kw = true → ∀ a ∈ l, a.keyword.isSome) →
        parseArgs fuel kw ts = .ok (positional l, keywords l) := by
  induction l with
  | nil =>
    intro col _ _ _
    exact ⟨[.rpar], run_punct ')' .rpar (by simp) .none trivial col, by simp, fun kw fuel _ _ => parseArgs_rpar fuel kw⟩
  | cons a l ih =>
    intro col hcol hv ho
    obtain ⟨ts, p, h1, h2, h3⟩ := run_argument a (hv a (by simp)).1 (hv a (by simp)).2 col hcol
    have hres : ∀ r : List Expr × List (Option Str × Expr), r = (positional l, keywords l) → (match a.keyword with
        | some k => (r.1, (some k, a.value.expr) :: r.2)
        | none => (a.value.expr :: r.1, r.2)) = (positional (a :: l), keywords (a :: l)) := by
      rintro r rfl
      cases hk : a.keyword <;> simp [positional, keywords, hk]
    cases l with
    | nil =>
      obtain ⟨q1, q2⟩ := h3 (col + a.text.length)
      refine ⟨(ts ++ ended (col + a.text.length) p) ++ [.rpar], ?_, ?_, ?_⟩
      · have := run_trans h1 (b := [')']) (run_punct ')' .rpar (by simp) p h2 _)
        rw [← List.append_assoc] at this
        exact this
      · simp only [List.length_append, List.length_cons, List.length_nil] at q1 ⊢
        omega
      · intro kw fuel hf hkw
        obtain ⟨f, rfl⟩ : ∃ f, fuel = f + 1 := ⟨fuel - 1, by simp at hf; omega⟩
        rw [parseArgs_step f kw _ [.rpar] a ([], []) (q2 [.rpar] (by simp)) (fun h => hkw h a (by simp)) (.inl ⟨rfl, rfl⟩)]
        rw [hres ([], []) rfl]
    | cons b l =>
      obtain ⟨q1, q2⟩ := h3 (col + a.text.length)
      rw [List.pairwise_cons] at ho
      obtain ⟨us, u1, u2, u3⟩ := ih (col + a.text.length + 1) (by omega) (fun x hx => hv x (by simp [hx])) ho.2
      refine ⟨(ts ++ ended (col + a.text.length) p) ++ .comma :: us, ?_, ?_, ?_⟩
      · have e := run_trans (run_punct ',' .comma (by simp) p h2 (col + a.text.length)) (b := argumentsText (b :: l)) u1
        have := run_trans h1 (b := [','] ++ argumentsText (b :: l)) e
        simpa [argumentsText] using this
      · simp only [List.length_append, List.length_cons] at q1 u2 ⊢
        omega
      · intro kw fuel hf hkw
        obtain ⟨f, rfl⟩ : ∃ f, fuel = f + 1 := ⟨fuel - 1, by simp at hf; omega⟩
        rw [parseArgs_step f kw _ _ a (positional (b :: l), keywords (b :: l)) (q2 _ (by simp)) (fun h => hkw h a (by simp))
          (.inr ⟨us, rfl, u3 _ f (by simp at hf ⊢; omega) fun h x hx => ho.1 x hx h⟩)]
        rw [hres _ rfl]

theorem keywords_fst (l : List Argument) : (keywords l).map Prod.fst = (l.filterMap Argument.keyword).map some := by
  induction l with
  | nil => rfl
  | cons a l ih =>
    cases hk : a.keyword <;> simp_all [keywords]

theorem astParse_text (c : CallText) (hc : c.Ok) : astParse c.text = .ok c.expr := by
  obtain ⟨name, args⟩ := c
  obtain ⟨h1, h2, h3, h4⟩ := hc
  have e1 := run_name h1 0
  cases args with
  | none =>
    unfold astParse lex
    simp only [CallText.text, List.append_nil]
    rw [e1]
    rfl
  | some l =>
    have hl := h1
    obtain ⟨ts, t1, t2, t3⟩ := run_arguments l (name.length + 1) (by omega) (h2 l rfl) (h3 l rfl)
    have e2 := run_trans (run_punct '(' .lpar (by simp) (.name name) trivial name.length) (b := argumentsText l) t1
    have e3 := run_trans e1 (b := ['('] ++ argumentsText l) (by rw [Nat.zero_add]; exact e2)
    have e4 : lex (CallText.mk name (some l)).text = .ok (.name name name.length :: .lpar :: ts) := by
      unfold lex
      have : (CallText.mk name (some l)).text = name ++ (['('] ++ argumentsText l) := rfl
      rw [this, e3]
      simp [finish, ended, bind, Except.bind, pure, Except.pure]
    unfold astParse
    rw [e4]
    change (parseArgs (ts.length + 1) false ts >>= _ : Except PyErr _) = _
    rw [t3 false (ts.length + 1) (by omega) (by simp)]
    change (if ((keywords l).map Prod.fst).Nodup then _ else _) = _
    rw [if_pos (by
      rw [keywords_fst]
      exact (h4 l rfl).map (Option.some_injective _))]
    rfl

end Verif.ProcessText
