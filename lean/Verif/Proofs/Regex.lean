import Verif.Model.Regex
import Verif.Proofs.Msgpack

namespace Verif.Regex

open Verif

theorem bind_ok {α β : Type} {x : Except PyErr α} {f : α → Except PyErr β} {b : β}
    (h : (x >>= f) = .ok b) : ∃ a, x = .ok a ∧ f a = .ok b := by
  cases x with
  | error e => cases h
  | ok a => exact ⟨a, rfl, h⟩

/-- What may follow a complete pattern. -/
def Tail (x : List Char) : Prop := x = [] ∨ ∃ y, x = ')' :: y

theorem parseItems_ext (f : Nat) : ∀ (g : Nat) (first : Bool) (s x : List Char)
    (rs : List (Char × Char)) (es : List (Bool × Char)) (r : List Char), f ≤ g →
    parseItems f first s = .ok (rs, es, r) → parseItems g first (s ++ x) = .ok (rs, es, r ++ x) := by
  induction f with
  | zero => intro g first s x rs es r _ h; simp [parseItems] at h
  | succ f ih =>
    intro g first s x rs es r hg h
    obtain ⟨g, rfl⟩ : ∃ g', g = g' + 1 := ⟨g - 1, by omega⟩
    have hg' : f ≤ g := by omega
    cases s with
    | nil => simp [parseItems] at h
    | cons c s =>
      rw [List.cons_append]
      unfold parseItems at h ⊢
      by_cases h1 : c = ']' ∧ first = false
      · rw [if_pos h1] at h ⊢
        cases h; rfl
      rw [if_neg h1] at h ⊢
      by_cases h2 : c = '\\'
      · rw [if_pos h2] at h ⊢
        cases s with
        | nil => simp at h
        | cons d s =>
          simp only [List.cons_append] at h ⊢
          split at h
          · cases h
          · rename_i n y he
            obtain ⟨⟨rs', es', r'⟩, hp, h⟩ := bind_ok h
            cases h
            rw [ih g false s x _ _ _ hg' hp]; rfl
          · rename_i t ht he
            obtain ⟨⟨rs', es', r'⟩, hp, h⟩ := bind_ok h
            cases h
            rw [ih g false s x _ _ _ hg' hp]; rfl
      · rw [if_neg h2] at h ⊢
        split at h
        · rename_i d s'
          simp only [List.cons_append]
          by_cases h3 : d = ']'
          · rw [if_pos h3] at h ⊢
            obtain ⟨⟨rs', es', r'⟩, hp, h⟩ := bind_ok h
            cases h
            have := ih g false _ x _ _ _ hg' hp
            simp only [List.cons_append] at this
            rw [this]; rfl
          · rw [if_neg h3] at h ⊢
            by_cases h4 : d = '\\'
            · rw [if_pos h4] at h; cases h
            · rw [if_neg h4] at h ⊢
              by_cases h5 : d < c
              · rw [if_pos h5] at h; cases h
              · rw [if_neg h5] at h ⊢
                obtain ⟨⟨rs', es', r'⟩, hp, h⟩ := bind_ok h
                cases h
                rw [ih g false s' x _ _ _ hg' hp]; rfl
        · rename_i hs
          obtain ⟨⟨rs', es', r'⟩, hp, h⟩ := bind_ok h
          cases h
          split
          · rename_i d s' heq
            exfalso
            cases s with
            | nil => cases f <;> simp [parseItems] at hp
            | cons a s =>
              cases s with
              | nil =>
                simp only [List.cons_append, List.nil_append, List.cons.injEq] at heq
                obtain ⟨rfl, -⟩ := heq
                cases f with
                | zero => simp [parseItems] at hp
                | succ f =>
                  unfold parseItems at hp
                  rw [if_neg (by decide), if_neg (by decide)] at hp
                  simp only at hp
                  obtain ⟨⟨_, _, _⟩, hp', -⟩ := bind_ok hp
                  cases f <;> simp [parseItems] at hp'
              | cons b s =>
                simp only [List.cons_append, List.cons.injEq] at heq
                obtain ⟨rfl, rfl, rfl⟩ := heq
                exact hs b s rfl
          · rw [ih g false s x _ _ _ hg' hp]; rfl

theorem parseRepeat_ext (a t : Re) (s r x : List Char) (hx : Tail x)
    (h : parseRepeat a s = .ok (t, r)) : parseRepeat a (s ++ x) = .ok (t, r ++ x) := by
  cases s with
  | nil =>
    simp only [parseRepeat] at h
    cases h
    rcases hx with rfl | ⟨y, rfl⟩
    · rfl
    · simp [parseRepeat]
  | cons c s =>
    simp only [List.cons_append, parseRepeat] at h ⊢
    by_cases h1 : c = '*' ∨ c = '+' ∨ c = '?'
    · rw [if_pos h1] at h ⊢
      cases s with
      | nil =>
        simp only at h
        cases h
        rcases hx with rfl | ⟨y, rfl⟩
        · rfl
        · simp
      | cons d s =>
        simp only [List.cons_append] at h ⊢
        by_cases h2 : d = '?'
        · rw [if_pos h2] at h ⊢
          cases s with
          | nil =>
            simp only at h
            cases h
            rcases hx with rfl | ⟨y, rfl⟩
            · rfl
            · simp
          | cons e s =>
            simp only [List.cons_append] at h ⊢
            by_cases h3 : e = '*' ∨ e = '+' ∨ e = '?'
            · rw [if_pos h3] at h; cases h
            · rw [if_neg h3] at h ⊢
              cases h; rfl
        · rw [if_neg h2] at h ⊢
          by_cases h3 : d = '*' ∨ d = '+'
          · rw [if_pos h3] at h; cases h
          · rw [if_neg h3] at h ⊢
            cases h; rfl
    · rw [if_neg h1] at h ⊢
      by_cases h2 : c = '{'
      · rw [if_pos h2] at h; cases h
      · rw [if_neg h2] at h ⊢
        cases h; rfl

/-- The parser reads a pattern in the same way when it is followed by more text that starts with a
closing parenthesis, and with more fuel. -/
theorem parse_ext (f : Nat) : ∀ (g : Nat) (x : List Char), f ≤ g → Tail x →
    (∀ (s r : List Char) (t : Re), parseAlt f s = .ok (t, r) → parseAlt g (s ++ x) = .ok (t, r ++ x)) ∧
    (∀ (s r : List Char) (t : Re), parseSeq f s = .ok (t, r) → parseSeq g (s ++ x) = .ok (t, r ++ x)) ∧
    (∀ (c : Char) (s r : List Char) (t : Re), parseAtom f c s = .ok (t, r) →
      parseAtom g c (s ++ x) = .ok (t, r ++ x)) := by
  induction f with
  | zero =>
    intro g x _ _
    refine ⟨?_, ?_, ?_⟩
    · intro s r t h; simp [parseAlt] at h
    · intro s r t h; simp [parseSeq] at h
    · intro c s r t h; simp [parseAtom] at h
  | succ f ih =>
    intro g x hg hx
    obtain ⟨g, rfl⟩ : ∃ g', g = g' + 1 := ⟨g - 1, by omega⟩
    obtain ⟨iA, iS, iT⟩ := ih g x (by omega) hx
    refine ⟨?_, ?_, ?_⟩
    · intro s r t h
      rw [parseAlt] at h ⊢
      obtain ⟨⟨a, r1⟩, h1, h⟩ := bind_ok h
      rw [iS s r1 a h1]
      simp only [] at h ⊢
      change (match r1 ++ x with
        | '|' :: r' => parseAlt g r' >>= fun p => Except.ok (Re.alt a p.1, p.2)
        | _ => Except.ok (a, r1 ++ x)) = _
      cases r1 with
      | nil =>
        simp only at h
        cases h
        rcases hx with rfl | ⟨y, rfl⟩
        · rfl
        · simp
      | cons c r1 =>
        by_cases hc : c = '|'
        · subst hc
          simp only [List.cons_append] at h ⊢
          obtain ⟨⟨b, r2⟩, h2, h⟩ := bind_ok h
          cases h
          rw [iA r1 r2 b h2]; rfl
        · simp only [List.cons_append]
          split at h
          · rename_i heq; simp at heq; exact absurd heq.1 hc
          · cases h
            split
            · rename_i heq; simp at heq; exact absurd heq.1 hc
            · rfl
    · intro s r t h
      rw [parseSeq.eq_def] at h ⊢
      simp only [] at h ⊢
      cases s with
      | nil =>
        simp only at h
        cases h
        rcases hx with rfl | ⟨y, rfl⟩
        · rfl
        · simp
      | cons c s =>
        simp only [List.cons_append] at h ⊢
        by_cases hc : c = '|' ∨ c = ')'
        · rw [if_pos hc] at h ⊢
          cases h; rfl
        · rw [if_neg hc] at h ⊢
          obtain ⟨⟨a, r1⟩, h1, h⟩ := bind_ok h
          obtain ⟨⟨a', r2⟩, h2, h⟩ := bind_ok h
          obtain ⟨⟨b, r3⟩, h3, h⟩ := bind_ok h
          cases h
          rw [iT c s r1 a h1]
          change (parseRepeat a (r1 ++ x) >>= _) = _
          rw [parseRepeat_ext a a' r1 r2 x hx h2]
          change (parseSeq g (r2 ++ x) >>= _) = _
          rw [iS r2 r3 b h3]; rfl
    · intro c s r t h
      rw [parseAtom.eq_def] at h ⊢
      simp only [] at h ⊢
      have grp : ∀ (u : List Char), (parseAlt f u >>= fun (p : Re × List Char) => match p.2 with
          | ')' :: r' => Except.ok (Re.group p.1, r')
          | _ => Except.error PyErr.valueError) = .ok (t, r) →
          (parseAlt g (u ++ x) >>= fun (p : Re × List Char) => match p.2 with
          | ')' :: r' => Except.ok (Re.group p.1, r')
          | _ => Except.error PyErr.valueError) = .ok (t, r ++ x) := by
        intro u hu
        obtain ⟨⟨a, r1⟩, h1, hu⟩ := bind_ok hu
        rw [iA u r1 a h1]
        split at hu
        · rename_i r' heq
          simp only at heq
          cases hu
          subst heq
          rfl
        · cases hu
      by_cases c1 : c = '('
      · rw [if_pos c1] at h ⊢
        cases s with
        | nil => cases h
        | cons d s =>
          simp only [List.cons_append] at h ⊢
          by_cases c2 : d = '?'
          · rw [if_pos c2] at h ⊢
            cases s with
            | nil => cases h
            | cons e s =>
              simp only [List.cons_append] at h ⊢
              by_cases c3 : e = ':'
              · rw [if_pos c3] at h ⊢
                exact grp s h
              · rw [if_neg c3] at h; cases h
          · rw [if_neg c2] at h ⊢
            exact grp (d :: s) h
      rw [if_neg c1] at h ⊢
      by_cases c2 : c = '['
      · rw [if_pos c2] at h ⊢
        cases s with
        | nil => cases h
        | cons d s =>
          simp only [List.cons_append] at h ⊢
          by_cases c3 : d = '^'
          · rw [if_pos c3] at h ⊢
            obtain ⟨⟨rs, es, r1⟩, h1, h⟩ := bind_ok h
            cases h
            rw [parseItems_ext f g true s x _ _ _ (by omega) h1]; rfl
          · rw [if_neg c3] at h ⊢
            obtain ⟨⟨rs, es, r1⟩, h1, h⟩ := bind_ok h
            cases h
            have := parseItems_ext f g true (d :: s) x _ _ _ (by omega) h1
            rw [List.cons_append] at this
            rw [this]; rfl
      rw [if_neg c2] at h ⊢
      by_cases c3 : c = '\\'
      · rw [if_pos c3] at h ⊢
        cases s with
        | nil => cases h
        | cons d s =>
          simp only [List.cons_append] at h ⊢
          obtain ⟨a, h1, h⟩ := bind_ok h
          cases h
          rw [h1]; rfl
      rw [if_neg c3] at h ⊢
      by_cases c4 : c = '.'
      · rw [if_pos c4] at h ⊢; cases h; rfl
      rw [if_neg c4] at h ⊢
      by_cases c5 : c = '^'
      · rw [if_pos c5] at h ⊢; cases h; rfl
      rw [if_neg c5] at h ⊢
      by_cases c6 : c = '$'
      · rw [if_pos c6] at h ⊢; cases h; rfl
      rw [if_neg c6] at h ⊢
      by_cases c7 : c = '*' ∨ c = '+' ∨ c = '?'
      · rw [if_pos c7] at h; cases h
      rw [if_neg c7] at h ⊢
      by_cases c8 : c = '{'
      · rw [if_pos c8] at h; cases h
      rw [if_neg c8] at h ⊢
      cases h; rfl

theorem compile_ok {s : List Char} {t : Re} (h : compile s = .ok t) :
    parseAlt (3 * s.length + 3) s = .ok (t, []) := by
  unfold compile at h
  split at h
  · rename_i t' heq
    cases h; exact heq
  · cases h
  · cases h

/-- A pattern in a group, followed by text: one atom. -/
theorem parseAtom_group {s : List Char} {t : Re} (h : compile s = .ok t) (g : Nat)
    (hg : 3 * s.length + 3 ≤ g) (y : List Char) :
    parseAtom (g + 1) '(' ('?' :: ':' :: (s ++ ')' :: y)) = .ok (.group t, y) := by
  have h1 := (parse_ext _ g (')' :: y) hg (.inr ⟨y, rfl⟩)).1 s [] t (compile_ok h)
  rw [parseAtom, if_pos rfl]
  simp only [if_true]
  rw [h1]
  rfl

/-- What may follow a group: the end, another alternative or a parenthesis. -/
theorem parseSeq_group {s : List Char} {t : Re} (h : compile s = .ok t) (g : Nat)
    (hg : 3 * s.length + 3 ≤ g) (y : List Char) (hy : y = [] ∨ (∃ z, y = '|' :: z) ∨ ∃ z, y = ')' :: z) :
    parseSeq (g + 2) ('(' :: '?' :: ':' :: (s ++ ')' :: y)) = .ok (.seq (.group t) .empty, y) := by
  rw [parseSeq]
  simp only
  rw [if_neg (by decide), parseAtom_group h g hg]
  change (parseRepeat (.group t) y >>= _) = _
  have h2 : parseRepeat (.group t) y = .ok (.group t, y) := by
    rcases hy with rfl | ⟨z, rfl⟩ | ⟨z, rfl⟩
    · rfl
    · simp [parseRepeat]
    · simp [parseRepeat]
  rw [h2]
  change (parseSeq (g + 1) y >>= _) = _
  have h3 : parseSeq (g + 1) y = .ok (.empty, y) := by
    rw [parseSeq.eq_def]
    rcases hy with rfl | ⟨z, rfl⟩ | ⟨z, rfl⟩ <;> simp
  rw [h3]; rfl

/-- The tree of joined groups. -/
def joinTree : List Re → Re
  | [] => .empty
  | [t] => .seq (.group t) .empty
  | t :: t' :: l => .alt (.seq (.group t) .empty) (joinTree (t' :: l))

theorem length_joinGroups_cons (r r' : List Char) (l : List (List Char)) :
    (joinGroups (r :: r' :: l)).length = r.length + 5 + (joinGroups (r' :: l)).length := by
  simp [joinGroups]; omega

theorem parseAlt_joinGroups : ∀ (rs : List (List Char)) (ts : List Re) (g : Nat) (x : List Char), Tail x →
    rs ≠ [] → List.Forall₂ (fun r t => compile r = .ok t) rs ts → 3 * (joinGroups rs).length ≤ g →
    parseAlt g (joinGroups rs ++ x) = .ok (joinTree ts, x) := by
  intro rs
  induction rs with
  | nil => intro _ _ _ _ h; exact absurd rfl h
  | cons r rs ih =>
    intro ts g x hx _ h2 hg
    cases h2 with
    | @cons _ t _ ts h1 h2 =>
    cases rs with
    | nil =>
      cases h2
      simp only [joinGroups, List.length_cons, List.length_append, List.length_nil] at hg
      obtain ⟨g, rfl⟩ : ∃ g', g = g' + 3 := ⟨g - 3, by omega⟩
      rw [parseAlt]
      have := parseSeq_group h1 g (by omega) x (hx.elim .inl fun h => .inr (.inr h))
      simp only [joinGroups, List.cons_append, List.append_assoc, List.nil_append]
      rw [this]
      rcases hx with rfl | ⟨y, rfl⟩ <;> rfl
    | cons r' rs =>
      cases h2 with
      | @cons _ t' _ ts h1' h2 =>
      rw [length_joinGroups_cons] at hg
      obtain ⟨g, rfl⟩ : ∃ g', g = g' + 3 := ⟨g - 3, by omega⟩
      rw [parseAlt]
      have e := parseSeq_group h1 g (by omega) ('|' :: (joinGroups (r' :: rs) ++ x))
        (.inr (.inl ⟨_, rfl⟩))
      have e2 := ih (t' :: ts) (g + 2) x hx (by simp) (.cons h1' h2) (by omega)
      simp only [joinGroups, List.cons_append, List.append_assoc]
      rw [e]
      change (parseAlt (g + 2) (joinGroups (r' :: rs) ++ x) >>= _) = _
      rw [e2]; rfl

/-- The joined pattern without the outer group. -/
theorem compile_joinGroups (rs : List (List Char)) (ts : List Re) (hne : rs ≠ [])
    (h : List.Forall₂ (fun r t => compile r = .ok t) rs ts) :
    compile (joinGroups rs) = .ok (joinTree ts) := by
  unfold compile
  have e := parseAlt_joinGroups rs ts (3 * (joinGroups rs).length + 3) [] (.inl rfl) hne h (by omega)
  rw [List.append_nil] at e
  rw [e]

theorem compile_joined (rs : List (List Char)) (ts : List Re) (hne : rs ≠ [])
    (h : List.Forall₂ (fun r t => compile r = .ok t) rs ts) :
    compile (joined rs) = .ok (.seq (.group (joinTree ts)) .empty) := by
  unfold compile
  have hl : (joined rs).length = (joinGroups rs).length + 4 := by simp [joined]
  rw [hl]
  have e := parseAlt_joinGroups rs ts (3 * (joinGroups rs).length + 10) [')'] (.inr ⟨[], rfl⟩) hne h (by omega)
  have e1 : parseAtom (3 * (joinGroups rs).length + 11) '(' ('?' :: ':' :: (joinGroups rs ++ [')'])) =
      .ok (.group (joinTree ts), []) := by
    rw [parseAtom, if_pos rfl]
    simp only [if_true]
    rw [e]; rfl
  have e2 : parseSeq (3 * (joinGroups rs).length + 14) (joined rs) =
      .ok (.seq (.group (joinTree ts)) .empty, []) := by
    rw [parseSeq.eq_def, joined]
    simp only
    rw [if_neg (by decide)]
    have := (parse_ext (3 * (joinGroups rs).length + 11) (3 * (joinGroups rs).length + 13) []
      (by omega) (.inl rfl)).2.2 _ _ _ _ e1
    rw [List.append_nil] at this
    rw [this]; rfl
  have e3 : parseAlt (3 * ((joinGroups rs).length + 4) + 3) (joined rs) =
      .ok (.seq (.group (joinTree ts)) .empty, []) := by
    rw [show 3 * ((joinGroups rs).length + 4) + 3 = (3 * (joinGroups rs).length + 14) + 1 by omega,
      parseAlt, e2]; rfl
  rw [e3]

/-! ### Meaning -/

theorem m_le {s : List Char} {t : Re} {i j : Nat} (h : M s t i j) : j ≤ s.length := by
  induction h with
  | empty i h => exact h
  | char c i h => obtain ⟨h, -⟩ := List.getElem?_eq_some_iff.1 h; omega
  | any c i h _ => obtain ⟨h, -⟩ := List.getElem?_eq_some_iff.1 h; omega
  | bol => omega
  | eol => omega
  | eol' i h _ => omega
  | esc n c x i h _ => obtain ⟨h, -⟩ := List.getElem?_eq_some_iff.1 h; omega
  | cls n rs es x i h _ => obtain ⟨h, -⟩ := List.getElem?_eq_some_iff.1 h; omega
  | seq a b i j k _ _ _ h => exact h
  | left a b i j _ h => exact h
  | right a b i j _ h => exact h
  | star0 a i h => exact h
  | star1 a i j k _ _ _ h => exact h
  | plus a i j k _ _ _ h => exact h
  | opt0 a i h => exact h
  | opt1 a i j _ h => exact h
  | group a i j _ h => exact h

theorem m_seq_group {s : List Char} {t : Re} {i j : Nat} :
    M s (.seq (.group t) .empty) i j ↔ M s t i j := by
  constructor
  · intro h
    cases h with
    | seq _ _ _ k _ h1 h2 =>
      cases h2
      cases h1
      assumption
  · intro h
    exact .seq _ _ _ _ _ (.group _ _ _ h) (.empty _ (m_le h))

theorem m_joinTree {s : List Char} (ts : List Re) (hne : ts ≠ []) {i j : Nat} :
    M s (joinTree ts) i j ↔ ∃ t ∈ ts, M s t i j := by
  induction ts with
  | nil => exact absurd rfl hne
  | cons t ts ih =>
    cases ts with
    | nil => simp [joinTree, m_seq_group]
    | cons t' ts =>
      rw [joinTree]
      constructor
      · intro h
        cases h with
        | left _ _ _ _ h => exact ⟨t, by simp, m_seq_group.1 h⟩
        | right _ _ _ _ h =>
          obtain ⟨u, hu, h⟩ := (ih (by simp)).1 h
          exact ⟨u, List.mem_cons_of_mem _ hu, h⟩
      · rintro ⟨u, hu, h⟩
        rcases List.mem_cons.1 hu with rfl | hu
        · exact .left _ _ _ _ (m_seq_group.2 h)
        · exact .right _ _ _ _ ((ih (by simp)).2 ⟨u, hu, h⟩)

end Verif.Regex
