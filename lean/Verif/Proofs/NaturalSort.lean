import Verif.Model.NaturalSort
import Verif.Spec.NumberedNames
import Verif.Proofs.CkptPath

/-! Helper lemmas about the natural sort. -/

namespace Verif.NaturalSort

open Verif PyStr NumberedNames

theorem digit_iff (c : Char) : isDigit c = true ↔ Digit c := by
  simp [isDigit, Digit]

theorem follow_suffix {p u r : List Char} (h : NumberMayFollow p) (e : p = u ++ r) (_ : r ≠ []) : NumberMayFollow r := by
  intro v c hv
  obtain ⟨h1, h2, h3, h4, h5⟩ := h (u ++ v) c (by rw [e, hv, List.append_assoc])
  refine ⟨h1, h2, h3, h4, ?_⟩
  intro hc w d hw
  exact h5 hc (u ++ w) d (by rw [hw, List.append_assoc])

theorem exists_last {p : List Char} (h : p ≠ []) : ∃ u c, p = u ++ [c] :=
  ⟨p.dropLast, p.getLast h, (List.dropLast_append_getLast h).symm⟩

theorem digits_append {p : List Char} (h : NumberMayFollow p) (hp : p ≠ []) (s : List Char) :
    (p ++ s).takeWhile isDigit = p.takeWhile isDigit ∧ (p ++ s).dropWhile isDigit = p.dropWhile isDigit ++ s ∧
    p.dropWhile isDigit ≠ [] := by
  induction p with
  | nil => exact absurd rfl hp
  | cons c p ih =>
    by_cases hc : isDigit c = true
    · have hp' : p ≠ [] := by
        rintro rfl
        exact (h [] c rfl).1 ((digit_iff c).1 hc)
      obtain ⟨a, b, d⟩ := ih (follow_suffix h (u := [c]) rfl hp') hp'
      simp [hc, a, b]
      simpa using d
    · simp [hc]

theorem ne_single_of {p u : List Char} {c : Char} (h : NumberMayFollow p) (e : p = u ++ [c]) : ¬ Digit c ∧ c ≠ '+' ∧ c ≠ '-' ∧ c ≠ '.' :=
  ⟨(h u c e).1, (h u c e).2.1, (h u c e).2.2.1, (h u c e).2.2.2.1⟩

theorem takeSign_append {p : List Char} (h : NumberMayFollow p) (hp : p ≠ []) (s : List Char) :
    takeSign (p ++ s) = ((takeSign p).1, (takeSign p).2 ++ s) ∧ (takeSign p).2 ≠ [] ∧ ∃ u, p = u ++ (takeSign p).2 := by
  match p with
  | [] => exact absurd rfl hp
  | c :: p =>
    by_cases h1 : c = '-'
    · subst h1
      refine ⟨rfl, ?_, ['-'], rfl⟩
      intro e
      have e : p = [] := e
      subst e
      exact (h [] '-' rfl).2.2.1 rfl
    · by_cases h2 : c = '+'
      · subst h2
        refine ⟨rfl, ?_, ['+'], rfl⟩
        intro e
        have e : p = [] := e
        subst e
        exact (h [] '+' rfl).2.1 rfl
      · have e1 : ∀ t, takeSign (c :: t) = (1, c :: t) := by
          intro t
          unfold takeSign
          split
          · rename_i heq; exact absurd (List.cons.inj heq).1 h1
          · rename_i heq; exact absurd (List.cons.inj heq).1 h2
          · rfl
        rw [List.cons_append, e1, e1]
        exact ⟨rfl, by simp, [], rfl⟩

theorem mem_takeWhile_digit {p : List Char} {c : Char} (h : c ∈ p.takeWhile isDigit) : isDigit c = true := by
  induction p with
  | nil => simp at h
  | cons x p ih =>
    by_cases hx : isDigit x = true
    · rw [List.takeWhile_cons_of_pos hx] at h
      rcases List.mem_cons.1 h with rfl | h
      · exact hx
      · exact ih h
    · rw [List.takeWhile_cons_of_neg hx] at h
      simp at h

theorem dropWhile_last (p : List Char) (hp : p.takeWhile isDigit ≠ []) :
    ∃ u d, p = u ++ [d] ++ p.dropWhile isDigit ∧ Digit d := by
  obtain ⟨u, d, hud⟩ := exists_last hp
  refine ⟨u, d, ?_, ?_⟩
  · rw [← hud, List.takeWhile_append_dropWhile]
  · have : d ∈ p.takeWhile isDigit := by rw [hud]; simp
    exact (digit_iff d).1 (mem_takeWhile_digit this)

theorem mantissa_append {p : List Char} (h : NumberMayFollow p) (hp : p ≠ []) (s : List Char) :
    (mantissa p = none → mantissa (p ++ s) = none) ∧
    (∀ m r, mantissa p = some (m, r) → mantissa (p ++ s) = some (m, r ++ s) ∧ r ≠ [] ∧
      ∃ u d, p = u ++ [d] ++ r ∧ (Digit d ∨ d = '.')) := by
  obtain ⟨ht, hd, hne⟩ := digits_append h hp s
  unfold mantissa
  rw [ht, hd]
  by_cases h0 : p.takeWhile isDigit = []
  · rw [if_pos h0, if_pos h0]
    match p with
    | [] => exact absurd rfl hp
    | c :: p =>
      by_cases hc : c = '.'
      · subst hc
        have hp' : p ≠ [] := by
          rintro rfl
          exact (h [] '.' rfl).2.2.2.1 rfl
        obtain ⟨a, b, d⟩ := digits_append (follow_suffix h (u := ['.']) rfl hp') hp' s
        simp only [List.cons_append, a, b]
        by_cases h1 : p.takeWhile isDigit = []
        · simp [h1]
        · simp only [if_neg h1]
          refine ⟨by simp, ?_⟩
          intro m r e
          simp only [Option.some.injEq, Prod.mk.injEq] at e
          obtain ⟨rfl, rfl⟩ := e
          refine ⟨rfl, d, ?_⟩
          obtain ⟨u, x, hu, hx⟩ := dropWhile_last p h1
          exact ⟨'.' :: u, x, by rw [List.cons_append, List.cons_append, ← hu], .inl hx⟩
      · constructor
        · intro _
          rw [List.cons_append]
          split
          · rename_i heq; exact absurd (List.cons.inj heq).1 hc
          · rfl
        · intro m r e
          split at e
          · rename_i heq; exact absurd (List.cons.inj heq).1 hc
          · cases e
  · rw [if_neg h0, if_neg h0]
    obtain ⟨u, x, hu, hx⟩ := dropWhile_last p h0
    have hr := follow_suffix h hu hne
    match hq : p.dropWhile isDigit with
    | [] => exact absurd hq hne
    | c :: q =>
      rw [hq] at hr hu
      by_cases hc : c = '.'
      · subst hc
        have hq' : q ≠ [] := by
          rintro rfl
          exact (hr [] '.' rfl).2.2.2.1 rfl
        obtain ⟨a, b, d⟩ := digits_append (follow_suffix hr (u := ['.']) rfl hq') hq' s
        simp only [List.cons_append, a, b]
        refine ⟨by simp, ?_⟩
        intro m r e
        simp only [Option.some.injEq, Prod.mk.injEq] at e
        obtain ⟨rfl, rfl⟩ := e
        refine ⟨rfl, d, ?_⟩
        by_cases h1 : q.takeWhile isDigit = []
        · refine ⟨u ++ [x], '.', ?_, .inr rfl⟩
          have : q.dropWhile isDigit = q := by
            have := List.takeWhile_append_dropWhile (p := isDigit) (l := q)
            rwa [h1, List.nil_append] at this
          rw [this, hu]
          simp
        · obtain ⟨v, y, hv, hy⟩ := dropWhile_last q h1
          refine ⟨u ++ [x] ++ '.' :: v, y, ?_, .inl hy⟩
          rw [hu]
          conv_lhs => rw [hv]
          simp
      · have key : ∀ t : List Char, (match c :: t with
            | '.' :: r => some ((parseNat (p.takeWhile isDigit) : ℚ) +
                (parseNat (r.takeWhile isDigit) : ℚ) / 10 ^ (r.takeWhile isDigit).length, r.dropWhile isDigit)
            | r => some ((parseNat (p.takeWhile isDigit) : ℚ), r)) = some ((parseNat (p.takeWhile isDigit) : ℚ), c :: t) := by
          intro t
          split
          · rename_i heq; exact absurd (List.cons.inj heq).1 hc
          · rfl
        rw [List.cons_append]
        constructor
        · intro e
          have e' := (key q).symm.trans e
          cases e'
        · intro m r e
          have e' := (key q).symm.trans e
          simp only [Option.some.injEq, Prod.mk.injEq] at e'
          obtain ⟨rfl, rfl⟩ := e'
          exact ⟨key (q ++ s), by simp, u, x, hu, .inl hx⟩

theorem exponent_append {r : List Char} (h : NumberMayFollow r) (hr : r ≠ []) (h1 : ∀ c, r = [c] → c ≠ 'e' ∧ c ≠ 'E')
    (s : List Char) : exponent (r ++ s) = ((exponent r).1, (exponent r).2 ++ s) ∧ (exponent r).2 ≠ [] ∧
      ∃ u, r = u ++ (exponent r).2 := by
  match r with
  | [] => exact absurd rfl hr
  | c :: r =>
    rw [List.cons_append]
    by_cases hc : c = 'e' ∨ c = 'E'
    · have hr' : r ≠ [] := by
        rintro rfl
        obtain ⟨a, b⟩ := h1 c rfl
        exact hc.elim a b
      obtain ⟨e1, e2, u, hu⟩ := takeSign_append (follow_suffix h (u := [c]) rfl hr') hr' s
      have hf := follow_suffix h (u := c :: u) (by rw [List.cons_append, ← hu]) e2
      obtain ⟨a, b, d⟩ := digits_append hf e2 s
      simp only [exponent, if_pos hc, e1, a, b]
      by_cases h0 : (takeSign r).2.takeWhile isDigit = []
      · simp only [if_pos h0]
        exact ⟨rfl, by simp, [], rfl⟩
      · simp only [if_neg h0]
        refine ⟨trivial, d, c :: (u ++ (takeSign r).2.takeWhile isDigit), ?_⟩
        rw [List.cons_append, List.append_assoc, List.takeWhile_append_dropWhile, ← hu]
    · simp only [exponent, if_neg hc]
      exact ⟨rfl, by simp, [], rfl⟩

theorem matchNum_append {p : List Char} (h : NumberMayFollow p) (hp : p ≠ []) (s : List Char) :
    (matchNum p = none → matchNum (p ++ s) = none) ∧
    (∀ m r, matchNum p = some (m, r) → matchNum (p ++ s) = some (m, r ++ s) ∧ r ≠ [] ∧ ∃ u, p = u ++ r) := by
  obtain ⟨e1, e2, u, hu⟩ := takeSign_append h hp s
  have hf := follow_suffix h hu e2
  obtain ⟨m1, m2⟩ := mantissa_append hf e2 s
  unfold matchNum
  rw [e1]
  dsimp only
  cases hm : mantissa (takeSign p).2 with
  | none =>
    rw [m1 hm]
    exact ⟨fun _ => rfl, by simp⟩
  | some mr =>
    obtain ⟨m, r⟩ := mr
    obtain ⟨a, b, v, d, hv, hd⟩ := m2 m r hm
    rw [a]
    have hpr : p = u ++ v ++ [d] ++ r := by rw [hu, List.append_assoc, List.append_assoc, ← List.append_assoc v, ← hv]
    have hfr := follow_suffix h hpr b
    obtain ⟨x1, x2, w, hw⟩ := exponent_append hfr b (by
      intro c hc
      subst hc
      have := (h (u ++ v ++ [d]) c hpr).2.2.2.2
      constructor
      · intro hce
        have := this (.inl hce) (u ++ v) d rfl
        exact hd.elim this.1 this.2
      · intro hce
        have := this (.inr hce) (u ++ v) d rfl
        exact hd.elim this.1 this.2) s
    refine ⟨by simp, ?_⟩
    intro m' r' e
    simp only [Option.some.injEq, Prod.mk.injEq] at e
    obtain ⟨rfl, rfl⟩ := e
    simp only [x1]
    refine ⟨trivial, x2, u ++ v ++ [d] ++ w, ?_⟩
    rw [hpr]
    conv_lhs => rw [hw]
    simp

theorem splitKeys_nil (fl : ℚ → ℚ) (acc : List Char) : splitKeys fl acc [] = [text acc] := by
  rw [splitKeys]

theorem splitKeys_cons (fl : ℚ → ℚ) (acc : List Char) (c : Char) (s : List Char) :
    splitKeys fl acc (c :: s) = match matchNum (c :: s) with
      | none => splitKeys fl (acc ++ [c]) s
      | some (q, r) => text acc :: num (fl q) :: splitKeys fl [] r := by
  rw [splitKeys]
  split <;> rename_i h <;> simp [h]

/-- Splitting a string at a place where a number starts. -/
theorem splitKeys_append (fl : ℚ → ℚ) (n : Nat) : ∀ (p : List Char), p.length ≤ n → NumberMayFollow p → ∀ acc,
    ∃ (A : List Token) (t : List Char), ∀ (q : ℚ) (s r : List Char), matchNum s = some (q, r) →
      splitKeys fl acc (p ++ s) = A ++ text t :: num (fl q) :: splitKeys fl [] r := by
  induction n with
  | zero =>
    intro p hl _ acc
    have : p = [] := List.length_eq_zero_iff.1 (Nat.le_zero.1 hl)
    subst this
    refine ⟨[], acc, ?_⟩
    intro q s r hs
    cases s with
    | nil => exact absurd (matchNum_length hs) (by simp)
    | cons c s => rw [List.nil_append, splitKeys_cons, hs]; rfl
  | succ n ih =>
    intro p hl h acc
    by_cases hp : p = []
    · subst hp
      refine ⟨[], acc, ?_⟩
      intro q s r hs
      cases s with
      | nil => exact absurd (matchNum_length hs) (by simp)
      | cons c s => rw [List.nil_append, splitKeys_cons, hs]; rfl
    · match p with
      | [] => exact absurd rfl hp
      | c :: p =>
        cases hm : matchNum (c :: p) with
        | none =>
          by_cases hp' : p = []
          · subst hp'
            refine ⟨[], acc ++ [c], ?_⟩
            intro q s r hs
            rw [List.cons_append, splitKeys_cons]
            have := (matchNum_append h hp s).1 hm
            rw [List.cons_append] at this
            rw [this]
            cases s with
            | nil => exact absurd (matchNum_length hs) (by simp)
            | cons c' s => simp only [List.nil_append]; rw [splitKeys_cons, hs]
          · obtain ⟨A, t, hA⟩ := ih p (by simpa using hl) (follow_suffix h (u := [c]) rfl hp') (acc ++ [c])
            refine ⟨A, t, ?_⟩
            intro q s r hs
            rw [List.cons_append, splitKeys_cons]
            have := (matchNum_append h hp s).1 hm
            rw [List.cons_append] at this
            rw [this]
            exact hA q s r hs
        | some mr =>
          obtain ⟨m, r0⟩ := mr
          have hlen := matchNum_length hm
          obtain ⟨-, hr0, u, hu⟩ := (matchNum_append h hp []).2 m r0 hm
          obtain ⟨A, t, hA⟩ := ih r0 (by simp only [List.length_cons] at hlen hl; omega) (follow_suffix h hu hr0) []
          refine ⟨text acc :: num (fl m) :: A, t, ?_⟩
          intro q s r hs
          have := ((matchNum_append h hp s).2 m r0 hm).1
          rw [List.cons_append] at this
          rw [List.cons_append, splitKeys_cons, this]
          simp only [List.cons_append]
          rw [hA q s r hs]

/-- A number that stands alone. -/
theorem matchNum_digits {d q : List Char} (hd : d ≠ []) (hdig : ∀ c ∈ d, Digit c) (hq : NumberEndsBefore q) :
    matchNum (d ++ q) = some ((parseNat d : ℚ), q) := by
  have htw := CkptPath.takeWhile_append_of_all isDigit d q (fun c hc => (digit_iff c).2 (hdig c hc)) (by
    intro c hc
    cases q with
    | nil => simp at hc
    | cons x v =>
      simp only [List.head?_cons, Option.some.injEq] at hc
      subst hc
      have := (hq x v rfl).1
      rw [← digit_iff] at this
      simpa using this)
  have hsign : takeSign (d ++ q) = (1, d ++ q) := by
    match d with
    | [] => exact absurd rfl hd
    | c :: d =>
      have hc := hdig c (by simp)
      unfold takeSign
      split
      · rename_i heq; rw [List.cons_append] at heq; rw [(List.cons.inj heq).1] at hc; simp [Digit] at hc
      · rename_i heq; rw [List.cons_append] at heq; rw [(List.cons.inj heq).1] at hc; simp [Digit] at hc
      · rfl
  have hman : mantissa (d ++ q) = some ((parseNat d : ℚ), q) := by
    unfold mantissa
    rw [htw.1, htw.2, if_neg hd]
    split
    · exact absurd rfl (hq _ _ rfl).2.1
    · rfl
  have hexp : exponent q = (1, q) := by
    cases q with
    | nil => rfl
    | cons c v =>
      have := hq c v rfl
      rw [exponent, if_neg (by simp [this.2.2.1, this.2.2.2])]
  unfold matchNum
  rw [hsign]
  dsimp only
  rw [hman]
  simp [hexp]

theorem append_lt {α : Type} [LinearOrder α] (A : List α) {x y : List α} (h : x < y) : A ++ x < A ++ y := by
  induction A with
  | nil => exact h
  | cons a A ih => exact List.Lex.cons ih

theorem num_lt {x y : ℚ} (h : x < y) : num x < num y := Sum.Lex.inr_lt_inr_iff.2 h

theorem keys_lt (fl : ℚ → ℚ) {p d1 d2 q1 q2 : List Char} (hp : NumberMayFollow p) (h1 : d1 ≠ []) (h2 : d2 ≠ [])
    (hd1 : ∀ c ∈ d1, Digit c) (hd2 : ∀ c ∈ d2, Digit c) (hq1 : NumberEndsBefore q1) (hq2 : NumberEndsBefore q2)
    (hlt : fl (parseNat d1) < fl (parseNat d2)) :
    splitKeys fl [] (p ++ (d1 ++ q1)) < splitKeys fl [] (p ++ (d2 ++ q2)) := by
  obtain ⟨A, t, hA⟩ := splitKeys_append fl p.length p (le_refl _) hp []
  rw [hA _ _ _ (matchNum_digits h1 hd1 hq1), hA _ _ _ (matchNum_digits h2 hd2 hq2)]
  refine append_lt A ?_
  exact List.Lex.cons (List.Lex.rel (num_lt hlt))

theorem sorted_pairwise (fl : ℚ → ℚ) (names : List (List Char)) :
    (naturalSort fl names).Pairwise fun a b => splitKeys fl [] a ≤ splitKeys fl [] b := by
  have h := List.pairwise_mergeSort (le := fun a b => decide (splitKeys fl [] a ≤ splitKeys fl [] b))
    (fun a b c hab hbc => by
      simp only [decide_eq_true_eq] at hab hbc ⊢
      exact le_trans hab hbc)
    (fun a b => by
      rcases le_total (splitKeys fl [] a) (splitKeys fl [] b) with h | h <;> simp [h]) names
  exact h.imp fun hab => by simpa using hab

theorem before_of_lt (fl : ℚ → ℚ) (names : List (List Char)) {a b : List Char}
    (h : splitKeys fl [] a < splitKeys fl [] b) : Before (naturalSort fl names) a b := by
  intro i j hi hj ha hb
  by_contra hij
  have hji : j ≤ i := Nat.le_of_not_lt hij
  rcases Nat.lt_or_eq_of_le hji with hlt | heq
  · have := List.pairwise_iff_getElem.1 (sorted_pairwise fl names) j i hj hi hlt
    rw [ha, hb] at this
    exact absurd h (not_lt.2 this)
  · subst heq
    rw [ha] at hb
    subst hb
    exact lt_irrefl _ h

/-- Texts and numbers alternate. -/
theorem splitKeys_alternate (fl : ℚ → ℚ) (n : Nat) : ∀ (s acc : List Char), s.length ≤ n → ∀ (i : Nat) (x : Token),
    (splitKeys fl acc s)[i]? = some x → ((∃ t, x = text t) ↔ i % 2 = 0) ∧ ((∃ q, x = num q) ↔ i % 2 = 1) := by
  have base : ∀ (acc : List Char) (i : Nat) (x : Token), [text acc][i]? = some x →
      ((∃ t, x = text t) ↔ i % 2 = 0) ∧ ((∃ q, x = num q) ↔ i % 2 = 1) := by
    intro acc i x h
    cases i with
    | zero =>
      simp only [List.getElem?_cons_zero, Option.some.injEq] at h
      subst h
      refine ⟨⟨fun _ => rfl, fun _ => ⟨acc, rfl⟩⟩, ⟨?_, by omega⟩⟩
      rintro ⟨q, hq⟩
      cases hq
    | succ i => simp at h
  induction n with
  | zero =>
    intro s acc hl i x h
    have : s = [] := List.length_eq_zero_iff.1 (Nat.le_zero.1 hl)
    subst this
    rw [splitKeys_nil] at h
    exact base acc i x h
  | succ n ih =>
    intro s acc hl i x h
    cases s with
    | nil =>
      rw [splitKeys_nil] at h
      exact base acc i x h
    | cons c s =>
      rw [splitKeys_cons] at h
      cases hm : matchNum (c :: s) with
      | none =>
        rw [hm] at h
        exact ih s (acc ++ [c]) (by simpa using hl) i x h
      | some qr =>
        obtain ⟨q, r⟩ := qr
        rw [hm] at h
        have hlen := matchNum_length hm
        match i with
        | 0 =>
          simp only [List.getElem?_cons_zero, Option.some.injEq] at h
          subst h
          refine ⟨⟨fun _ => rfl, fun _ => ⟨acc, rfl⟩⟩, ⟨?_, by omega⟩⟩
          rintro ⟨q, hq⟩
          cases hq
        | 1 =>
          simp only [List.getElem?_cons_succ, List.getElem?_cons_zero, Option.some.injEq] at h
          subst h
          refine ⟨⟨?_, by omega⟩, ⟨fun _ => rfl, fun _ => ⟨_, rfl⟩⟩⟩
          rintro ⟨t, ht⟩
          cases ht
        | i + 2 =>
          simp only [List.getElem?_cons_succ] at h
          have := ih r [] (by simp only [List.length_cons] at hlen hl; omega) i x h
          rwa [Nat.add_mod_right]

end Verif.NaturalSort
