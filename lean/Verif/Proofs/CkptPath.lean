import Verif.Model.CkptPath
import Verif.Spec.CkptNames
import Mathlib.Data.Nat.Digits.Lemmas
import Mathlib.Tactic.Ring

namespace Verif.CkptPath

open Verif PyStr CkptNames

theorem isDigit_iff (c : Char) : isDigit c = true ↔ Digit c := by
  unfold isDigit Digit
  rw [Char.le_def, Char.le_def, UInt32.le_iff_toNat_le, UInt32.le_iff_toNat_le]
  simp

theorem isLetter_iff (c : Char) : isLetter c = true ↔ Letter c := by
  unfold isLetter Letter
  rw [Char.le_def, Char.le_def, Char.le_def, Char.le_def, UInt32.le_iff_toNat_le,
    UInt32.le_iff_toNat_le, UInt32.le_iff_toNat_le, UInt32.le_iff_toNat_le]
  simp

theorem digit_ne {c : Char} (h : Digit c) {d : Char} (hd : isDigit d = false) : c ≠ d := by
  rintro rfl
  rw [(isDigit_iff c).2 h] at hd
  cases hd

theorem letter_ne {c : Char} (h : Letter c) {d : Char} (hd : isLetter d = false) : c ≠ d := by
  rintro rfl
  rw [(isLetter_iff c).2 h] at hd
  cases hd

/-- Well-formed groups. -/
def WF (g : Groups) : Prop :=
  (∀ s, g.step = some s → StepStr s) ∧ (∀ s, g.suffix = some s → SuffixStr s) ∧
    (∀ s, g.shard = some s → ShardStr s)

/-- The text of groups 2 to 4. -/
def Groups.text (g : Groups) : List Char :=
  g.step.getD [] ++ (g.suffix.getD [] ++ g.shard.getD [])

theorem takeWhile_append_of_all {α} (p : α → Bool) (a b : List α) (ha : ∀ x ∈ a, p x = true)
    (hb : ∀ x, b.head? = some x → p x = false) : (a ++ b).takeWhile p = a ∧ (a ++ b).dropWhile p = b := by
  induction a with
  | nil =>
    cases b with
    | nil => simp
    | cons x b => simp [hb x rfl]
  | cons x a ih =>
    have := ih (fun y hy => ha y (by simp [hy]))
    simp [ha x (by simp), this.1, this.2]

theorem mem_takeWhile_imp {α} {p : α → Bool} {l : List α} {x : α} (h : x ∈ l.takeWhile p) :
    p x = true := by
  have := List.all_takeWhile (l := l) (p := p)
  exact List.all_eq_true.1 this x h

theorem matchShard_spec {r : List Char} {o} (h : matchShard r = some o) :
    r = o.getD [] ∧ ∀ s, o = some s → ShardStr s := by
  unfold matchShard at h
  split at h
  · cases h; simp
  · rename_i t
    split at h
    · rename_i u hu
      simp only [] at h
      split at h
      · rename_i hc
        cases h
        refine ⟨rfl, ?_⟩
        rintro s ⟨⟩
        refine ⟨t.takeWhile isDigit, u, ⟨hc.1, ?_⟩, ⟨hc.2.1, ?_⟩, ?_⟩
        · intro c hcm
          exact (isDigit_iff c).1 (mem_takeWhile_imp hcm)
        · intro c hcm
          exact (isDigit_iff c).1 (List.all_eq_true.1 hc.2.2 c hcm)
        · rw [← hu, List.takeWhile_append_dropWhile]
      · cases h
    · cases h
  · cases h

theorem matchShard_of {o : Option (List Char)} (h : ∀ s, o = some s → ShardStr s) :
    matchShard (o.getD []) = some o := by
  cases o with
  | none => rfl
  | some s =>
    obtain ⟨d, e, hd, he, rfl⟩ := h s rfl
    have := takeWhile_append_of_all isDigit d ('-' :: 'o' :: 'f' :: '-' :: e)
      (fun x hx => (isDigit_iff x).2 (hd.2 x hx)) (by rintro x ⟨⟩; rfl)
    simp only [Option.getD_some, matchShard, this.1, this.2]
    rw [if_pos ⟨hd.1, he.1, List.all_eq_true.2 fun x hx => (isDigit_iff x).2 (he.2 x hx)⟩]

theorem matchSuffix_spec {r : List Char} {o} (h : matchSuffix r = some o) :
    r = o.1.getD [] ++ o.2.getD [] ∧ (∀ s, o.1 = some s → SuffixStr s) ∧
      ∀ s, o.2 = some s → ShardStr s := by
  unfold matchSuffix at h
  split at h
  · rename_i t
    simp only [] at h
    split at h
    · cases h
    · rename_i hl
      rw [Option.map_eq_some_iff] at h
      obtain ⟨a, ha, rfl⟩ := h
      obtain ⟨h1, h2⟩ := matchShard_spec ha
      refine ⟨?_, ?_, h2⟩
      · simp only [Option.getD_some, List.cons_append]
        rw [← h1, List.takeWhile_append_dropWhile]
      · rintro s ⟨⟩
        exact ⟨_, hl, fun c hc => (isLetter_iff c).1 (mem_takeWhile_imp hc), rfl⟩
  · rw [Option.map_eq_some_iff] at h
    obtain ⟨a, ha, rfl⟩ := h
    obtain ⟨h1, h2⟩ := matchShard_spec ha
    exact ⟨h1, by simp, h2⟩

theorem shard_head {o : Option (List Char)} (h : ∀ s, o = some s → ShardStr s) (x : Char)
    (hx : (o.getD []).head? = some x) : x = '-' := by
  cases o with
  | none => cases hx
  | some s =>
    obtain ⟨d, e, -, -, rfl⟩ := h s rfl
    cases hx; rfl

theorem matchSuffix_of {o : Option (List Char)} {o' : Option (List Char)}
    (h : ∀ s, o = some s → SuffixStr s) (h' : ∀ s, o' = some s → ShardStr s) :
    matchSuffix (o.getD [] ++ o'.getD []) = some (o, o') := by
  cases o with
  | none =>
    simp only [Option.getD_none, List.nil_append]
    unfold matchSuffix
    split
    · rename_i t ht
      have := shard_head h' '.' (by rw [ht]; rfl)
      exact absurd this (by decide)
    · rw [matchShard_of h']; rfl
  | some s =>
    obtain ⟨l, hl, hll, rfl⟩ := h s rfl
    have := takeWhile_append_of_all isLetter l (o'.getD [])
      (fun x hx => (isLetter_iff x).2 (hll x hx)) (by
        intro x hx
        rw [shard_head h' x hx]; rfl)
    simp only [Option.getD_some, List.cons_append, matchSuffix, this.1, this.2, matchShard_of h']
    simp [hl]

theorem suffix_head {o o' : Option (List Char)} (h : ∀ s, o = some s → SuffixStr s)
    (h' : ∀ s, o' = some s → ShardStr s) (x : Char)
    (hx : (o.getD [] ++ o'.getD []).head? = some x) : x = '-' ∨ x = '.' := by
  cases o with
  | none => exact .inl (shard_head h' x (by simpa using hx))
  | some s =>
    obtain ⟨l, -, -, rfl⟩ := h s rfl
    cases hx; exact .inr rfl

theorem matchGroups_spec {r : List Char} {g} (h : matchGroups r = some g) :
    r = g.text ∧ WF g := by
  unfold matchGroups at h
  split at h
  · rename_i t
    simp only [] at h
    split at h
    · cases h
    · rename_i hl
      rw [Option.map_eq_some_iff] at h
      obtain ⟨a, ha, rfl⟩ := h
      obtain ⟨h1, h2⟩ := matchSuffix_spec ha
      refine ⟨?_, ?_, h2⟩
      · simp only [Groups.text, Option.getD_some, List.cons_append]
        rw [← h1, List.takeWhile_append_dropWhile]
      · rintro s ⟨⟩
        exact ⟨_, ⟨hl, fun c hc => (isDigit_iff c).1 (mem_takeWhile_imp hc)⟩, rfl⟩
  · rw [Option.map_eq_some_iff] at h
    obtain ⟨a, ha, rfl⟩ := h
    obtain ⟨h1, h2⟩ := matchSuffix_spec ha
    exact ⟨h1, by simp, h2⟩

theorem matchGroups_of {g : Groups} (h : WF g) : matchGroups g.text = some g := by
  obtain ⟨st, su, sh⟩ := g
  obtain ⟨h1, h2, h3⟩ := h
  cases st with
  | none =>
    simp only [Groups.text, Option.getD_none, List.nil_append]
    unfold matchGroups
    split
    · rename_i t ht
      have := suffix_head h2 h3 '_' (by simp only [] at ht ⊢; rw [ht]; rfl)
      exact absurd this (by decide)
    · rw [matchSuffix_of h2 h3]; rfl
  | some s =>
    obtain ⟨d, hd, rfl⟩ := h1 s rfl
    have := takeWhile_append_of_all isDigit d (su.getD [] ++ sh.getD [])
      (fun x hx => (isDigit_iff x).2 (hd.2 x hx)) (by
        intro x hx
        rcases suffix_head h2 h3 x hx with rfl | rfl <;> rfl)
    simp only [Groups.text, Option.getD_some, List.cons_append, matchGroups, this.1, this.2]
    have e := matchSuffix_of h2 h3
    simp only [] at e
    rw [e]
    simp [hd.1]

/-- The matcher finds the decomposition with the shortest first group. -/
theorem fullMatch_spec {s : List Char} {p g} (h : fullMatch s = some (p, g)) :
    s = p ++ g.text ∧ WF g ∧ '\n' ∉ p ∧
      ∀ p' g', WF g' → s = p' ++ g'.text → p.length ≤ p'.length := by
  induction s generalizing p with
  | nil =>
    have : p = [] ∧ g = ⟨none, none, none⟩ := by
      have e : fullMatch [] = some ([], ⟨none, none, none⟩) := rfl
      rw [e] at h; cases h; simp
    obtain ⟨rfl, rfl⟩ := this
    exact ⟨rfl, ⟨by simp, by simp, by simp⟩, by simp, by simp⟩
  | cons c s ih =>
    unfold fullMatch at h
    split at h
    · rename_i g' hg
      cases h
      obtain ⟨h1, h2⟩ := matchGroups_spec hg
      exact ⟨h1, h2, by simp, by simp⟩
    · rename_i hn
      split at h
      · cases h
      · rename_i hc
        rw [Option.map_eq_some_iff] at h
        obtain ⟨⟨q, g'⟩, hq, he⟩ := h
        cases he
        obtain ⟨h1, h2, h3, h4⟩ := ih hq
        refine ⟨by simp [← h1], h2, by simpa [eq_comm] using ⟨hc, h3⟩, ?_⟩
        intro p' g' hg' hs
        cases p' with
        | nil =>
          simp only [List.nil_append] at hs
          rw [hs, matchGroups_of hg'] at hn
          cases hn
        | cons d p' =>
          simp only [List.cons_append, List.cons.injEq] at hs
          have := h4 p' g' hg' hs.2
          simpa using this

theorem fullMatch_total {s : List Char} (h : '\n' ∉ s) : ∃ p g, fullMatch s = some (p, g) := by
  induction s with
  | nil => exact ⟨_, _, rfl⟩
  | cons c s ih =>
    simp only [List.mem_cons, not_or] at h
    obtain ⟨p, g, hp⟩ := ih h.2
    unfold fullMatch
    split
    · exact ⟨_, _, rfl⟩
    · rw [if_neg (Ne.symm h.1), hp]; exact ⟨_, _, rfl⟩

theorem count_dash_shard {s : List Char} (h : ShardStr s) : s.count '-' = 3 := by
  obtain ⟨d, e, hd, he, rfl⟩ := h
  have h1 : d.count '-' = 0 := List.count_eq_zero.2 fun hm => digit_ne (hd.2 _ hm) rfl rfl
  have h2 : e.count '-' = 0 := List.count_eq_zero.2 fun hm => digit_ne (he.2 _ hm) rfl rfl
  simp [h1, h2]

theorem shard_suffix_unique {a b s t : List Char} (hs : ShardStr s) (ht : ShardStr t)
    (h : a ++ s = b ++ t) : s = t ∧ a = b := by
  have key : ∀ {a b s t : List Char}, ShardStr s → ShardStr t → a ++ s = b ++ t →
      a.length ≤ b.length → s = t ∧ a = b := by
    intro a b s t hs ht h hl
    obtain ⟨c, rfl⟩ : ∃ c, b = a ++ c := by
      have : a <+: b := List.prefix_of_prefix_length_le ⟨s, h⟩ ⟨t, rfl⟩ hl
      obtain ⟨c, hc⟩ := this
      exact ⟨c, hc.symm⟩
    rw [List.append_assoc, List.append_cancel_left_eq] at h
    have hc : c.count '-' = 0 := by
      have := congrArg (List.count '-') h
      rw [List.count_append, count_dash_shard hs, count_dash_shard ht] at this
      omega
    cases c with
    | nil => exact ⟨by simpa using h, by simp⟩
    | cons x c =>
      obtain ⟨d, e, -, -, rfl⟩ := hs
      simp only [List.cons_append, List.cons.injEq] at h
      rw [← h.1] at hc
      simp at hc
  rcases le_total a.length b.length with hl | hl
  · exact key hs ht h hl
  · obtain ⟨h1, h2⟩ := key ht hs h.symm hl
    exact ⟨h1.symm, h2.symm⟩

theorem dash_not_mem_step {o : Option (List Char)} (h : ∀ s, o = some s → StepStr s) :
    '-' ∉ o.getD [] := by
  cases o with
  | none => simp
  | some s =>
    obtain ⟨d, hd, rfl⟩ := h s rfl
    simp only [Option.getD_some, List.mem_cons, not_or]
    exact ⟨by decide, fun hm => digit_ne (hd.2 _ hm) rfl rfl⟩

theorem dash_not_mem_suffix {o : Option (List Char)} (h : ∀ s, o = some s → SuffixStr s) :
    '-' ∉ o.getD [] := by
  cases o with
  | none => simp
  | some s =>
    obtain ⟨d, -, hd, rfl⟩ := h s rfl
    simp only [Option.getD_some, List.mem_cons, not_or]
    exact ⟨by decide, fun hm => letter_ne (hd _ hm) rfl rfl⟩

theorem removeShardSuffix_of_shard {p s : List Char} (hs : ShardStr s) (hp : '\n' ∉ p) :
    removeShardSuffix (p ++ s) = p := by
  have hn : '\n' ∉ p ++ s := by
    rw [List.mem_append, not_or]
    refine ⟨hp, ?_⟩
    obtain ⟨d, e, hd, he, rfl⟩ := hs
    intro hm
    simp only [List.mem_cons, List.mem_append] at hm
    rcases hm with hm | hm | hm | hm | hm | hm | hm
    · cases hm
    · exact digit_ne (hd.2 _ hm) rfl rfl
    · cases hm
    · cases hm
    · cases hm
    · cases hm
    · exact digit_ne (he.2 _ hm) rfl rfl
  obtain ⟨q, g, hq⟩ := fullMatch_total hn
  obtain ⟨h1, ⟨hw1, hw2, hw3⟩, -, h4⟩ := fullMatch_spec hq
  have hle := h4 p ⟨none, none, some s⟩ ⟨by simp, by simp, by simpa using hs⟩ (by simp [Groups.text])
  unfold removeShardSuffix
  rw [hq]
  obtain ⟨st, su, sh⟩ := g
  cases sh with
  | none =>
    exfalso
    have : p <+: q ++ (st.getD [] ++ su.getD []) := ⟨s, by simpa [Groups.text] using h1⟩
    obtain ⟨c, rfl⟩ : ∃ c, p = q ++ c := by
      obtain ⟨c, hc⟩ := List.prefix_of_prefix_length_le (l₁ := q) ⟨st.getD [] ++ su.getD [], rfl⟩ this hle
      exact ⟨c, hc.symm⟩
    rw [List.append_assoc, List.append_cancel_left_eq] at h1
    have hm : '-' ∈ Groups.text ⟨st, su, none⟩ := by
      rw [← h1]
      obtain ⟨d, e, -, -, rfl⟩ := hs
      simp
    simp only [Groups.text, Option.getD_none, List.append_nil, List.mem_append] at hm
    rcases hm with hm | hm
    · exact dash_not_mem_step hw1 hm
    · exact dash_not_mem_suffix hw2 hm
  | some s' =>
    have := shard_suffix_unique hs (hw3 s' rfl) (a := p) (b := q ++ st.getD [] ++ su.getD [])
      (by simpa [Groups.text] using h1)
    exact this.2.symm

theorem removeShardSuffix_of_no_shard {p : List Char} (hp : '\n' ∉ p)
    (h : ¬ ∃ q s, ShardStr s ∧ p = q ++ s) : removeShardSuffix p = p := by
  obtain ⟨q, g, hq⟩ := fullMatch_total hp
  obtain ⟨h1, ⟨hw1, hw2, hw3⟩, -, -⟩ := fullMatch_spec hq
  unfold removeShardSuffix
  rw [hq]
  obtain ⟨st, su, sh⟩ := g
  cases sh with
  | none => simpa [Groups.text] using h1.symm
  | some s' =>
    exact absurd ⟨q ++ st.getD [] ++ su.getD [], s', hw3 s' rfl, by simpa [Groups.text] using h1⟩ h

theorem under_not_mem_suffix {o : Option (List Char)} (h : ∀ s, o = some s → SuffixStr s) :
    '_' ∉ o.getD [] := by
  cases o with
  | none => simp
  | some s =>
    obtain ⟨d, -, hd, rfl⟩ := h s rfl
    simp only [Option.getD_some, List.mem_cons, not_or]
    exact ⟨by decide, fun hm => letter_ne (hd _ hm) rfl rfl⟩

theorem under_not_mem_shard {o : Option (List Char)} (h : ∀ s, o = some s → ShardStr s) :
    '_' ∉ o.getD [] := by
  cases o with
  | none => simp
  | some s =>
    obtain ⟨d, e, hd, he, rfl⟩ := h s rfl
    intro hm
    simp only [Option.getD_some, List.mem_cons, List.mem_append] at hm
    rcases hm with hm | hm | hm | hm | hm | hm | hm
    · cases hm
    · exact digit_ne (hd.2 _ hm) rfl rfl
    · cases hm
    · cases hm
    · cases hm
    · cases hm
    · exact digit_ne (he.2 _ hm) rfl rfl

/-- `_` only occurs at the start of the groups. -/
theorem under_not_mem_tail {g : Groups} (h : WF g) {c : Char} {t : List Char}
    (ht : g.text = c :: t) : '_' ∉ t := by
  obtain ⟨st, su, sh⟩ := g
  obtain ⟨h1, h2, h3⟩ := h
  cases st with
  | none =>
    intro hm
    have : '_' ∈ su.getD [] ++ sh.getD [] := by
      have e : su.getD [] ++ sh.getD [] = c :: t := by simpa [Groups.text] using ht
      rw [e]; simp [hm]
    rcases List.mem_append.1 this with h | h
    · exact under_not_mem_suffix h2 h
    · exact under_not_mem_shard h3 h
  | some s =>
    obtain ⟨d, hd, rfl⟩ := h1 s rfl
    simp only [Groups.text, Option.getD_some, List.cons_append, List.cons.injEq] at ht
    rw [← ht.2]
    intro hm
    rcases List.mem_append.1 hm with h | h
    · exact digit_ne (hd.2 _ h) rfl rfl
    rcases List.mem_append.1 h with h | h
    · exact under_not_mem_suffix h2 h
    · exact under_not_mem_shard h3 h

theorem fullMatch_of_step {p : List Char} {g : Groups} (hg : WF g) (hs : g.step.isSome)
    (hn : '\n' ∉ p ++ g.text) : fullMatch (p ++ g.text) = some (p, g) := by
  obtain ⟨q, g', hq⟩ := fullMatch_total hn
  obtain ⟨h1, hw, -, h4⟩ := fullMatch_spec hq
  have hle := h4 p g hg rfl
  have : q <+: p := List.prefix_of_prefix_length_le ⟨g'.text, h1.symm⟩ ⟨g.text, rfl⟩ hle
  obtain ⟨c, rfl⟩ := this
  rw [List.append_assoc, List.append_cancel_left_eq] at h1
  have hu : '_' ∈ g.text := by
    obtain ⟨st, su, sh⟩ := g
    cases st with
    | none => cases hs
    | some s =>
      obtain ⟨d, hd, rfl⟩ := hg.1 s rfl
      simp [Groups.text]
  cases c with
  | nil =>
    have e : g = g' := by
      have := matchGroups_of hw
      rw [← h1, List.nil_append, matchGroups_of hg] at this
      exact Option.some.inj this
    rw [hq, e]; simp
  | cons x c =>
    exact absurd (by simp [hu]) (under_not_mem_tail hw h1.symm)

/-! ### Numbers -/

theorem parseNat_aux (s : List Char) (a : Nat) :
    s.foldl (fun acc c => 10 * acc + charDigit c) a = a * 10 ^ s.length + value s := by
  induction s generalizing a with
  | nil => simp [value]
  | cons c s ih =>
    rw [List.foldl_cons, ih]
    simp only [value, List.length_cons, charDigit]
    have : '0'.toNat = 48 := rfl
    rw [this]; ring

theorem parseNat_eq (s : List Char) : parseNat s = value s := by
  unfold parseNat; rw [parseNat_aux]; simp

theorem digitChar_toNat {d : Nat} (h : d < 10) : (digitChar d).toNat = 48 + d := by
  unfold digitChar
  interval_cases d <;> rfl

theorem digit_digitChar {d : Nat} (h : d < 10) : Digit (digitChar d) := by
  rw [← isDigit_iff]
  unfold isDigit
  rw [digitChar_toNat h]
  simp; omega

theorem value_append (a b : List Char) : value (a ++ b) = value a * 10 ^ b.length + value b := by
  induction a with
  | nil => simp [value]
  | cons c a ih => simp only [List.cons_append, value, ih, List.length_append]; ring

theorem value_digits (l : List Nat) (h : ∀ d ∈ l, d < 10) :
    value (l.reverse.map digitChar) = Nat.ofDigits 10 l := by
  induction l with
  | nil => rfl
  | cons d l ih =>
    have hd := h d (by simp)
    rw [List.reverse_cons, List.map_append, value_append, ih (fun x hx => h x (by simp [hx]))]
    simp only [List.map_cons, List.map_nil, value, List.length_cons, List.length_nil,
      digitChar_toNat hd, Nat.ofDigits_cons]
    have : '0'.toNat = 48 := rfl
    rw [this]
    simp; omega

theorem value_natStr (n : Nat) : value (natStr n) = n := by
  unfold natStr
  split
  · subst_vars; rfl
  · rw [value_digits _ (fun d hd => Nat.digits_lt_base (by norm_num) hd), Nat.ofDigits_digits]

theorem digits_natStr (n : Nat) : Digits (natStr n) := by
  unfold natStr
  split
  · exact ⟨by simp, by simp [Digit]⟩
  · rename_i h
    refine ⟨by simpa [Nat.digits_ne_nil_iff_ne_zero] using h, ?_⟩
    intro c hc
    simp only [List.mem_map, List.mem_reverse] at hc
    obtain ⟨d, hd, rfl⟩ := hc
    exact digit_digitChar (Nat.digits_lt_base (by norm_num) hd)

theorem value_replicate_zero (k : Nat) : value (List.replicate k '0') = 0 := by
  induction k with
  | zero => rfl
  | succ k ih => rw [List.replicate_succ, value, ih]; simp

theorem value_pad5 (n : Nat) : value (pad5 n) = n := by
  unfold pad5; rw [value_append, value_replicate_zero, value_natStr]; simp

theorem digits_pad5 (n : Nat) : Digits (pad5 n) := by
  refine ⟨?_, ?_⟩
  · unfold pad5
    simp [(digits_natStr n).1]
  · intro c hc
    unfold pad5 at hc
    rcases List.mem_append.1 hc with h | h
    · rw [List.eq_of_mem_replicate h]; exact ⟨by decide, by decide⟩
    · exact (digits_natStr n).2 c h

theorem shardStr_add (k n : Nat) :
    ShardStr ('-' :: (pad5 k ++ ['-', 'o', 'f', '-'] ++ pad5 n)) :=
  ⟨pad5 k, pad5 n, digits_pad5 k, digits_pad5 n, by simp⟩

theorem splitDigits_unique {a b c d : List Char} (ha : Digits a) (hc : Digits c)
    (h : a ++ '-' :: b = c ++ '-' :: d) : a = c ∧ b = d := by
  have h1 := takeWhile_append_of_all isDigit a ('-' :: b) (fun x hx => (isDigit_iff x).2 (ha.2 x hx))
    (by rintro x ⟨⟩; rfl)
  have h2 := takeWhile_append_of_all isDigit c ('-' :: d) (fun x hx => (isDigit_iff x).2 (hc.2 x hx))
    (by rintro x ⟨⟩; rfl)
  have e1 : a = c := by rw [← h1.1, h, h2.1]
  have e2 : '-' :: b = '-' :: d := by rw [← h1.2, h, h2.2]
  exact ⟨e1, by simpa using e2⟩

/-- The parser recognises exactly the named files. -/
theorem parse_ok_iff {f : List Char} (hf : '\n' ∉ f) (n : Nat) (x : Option (List Char)) :
    parseStepAndSuffix f = .ok (n, x) ↔ Names f n x := by
  constructor
  · intro h
    unfold parseStepAndSuffix at h
    split at h
    · cases h
    · rename_i p g hg
      obtain ⟨h1, ⟨hw1, hw2, hw3⟩, -, -⟩ := fullMatch_spec hg
      split at h
      · cases h
      · rename_i s hs
        obtain ⟨d, hd, rfl⟩ := hw1 s hs
        cases h
        refine ⟨p, d, g.shard.getD [], hd, by rw [parseNat_eq]; rfl, hw2, ?_, ?_⟩
        · cases hsh : g.shard with
          | none => exact .inl rfl
          | some t => exact .inr (hw3 t hsh)
        · rw [h1, Groups.text, hs]; simp
  · rintro ⟨p, d, sh, hd, hv, hx, hsh, rfl⟩
    obtain ⟨o, rfl, ho⟩ : ∃ o : Option (List Char), sh = o.getD [] ∧ ∀ s, o = some s → ShardStr s := by
      rcases hsh with rfl | h
      · exact ⟨none, rfl, by simp⟩
      · exact ⟨some sh, rfl, by rintro s ⟨⟩; exact h⟩
    have e : ('_' :: d ++ (x.getD [] ++ o.getD [])) = Groups.text ⟨some ('_' :: d), x, o⟩ := by
      simp [Groups.text]
    rw [e] at hf ⊢
    have := fullMatch_of_step (p := p) (g := ⟨some ('_' :: d), x, o⟩)
      ⟨by rintro s ⟨⟩; exact ⟨d, hd, rfl⟩, hx, ho⟩ rfl hf
    unfold parseStepAndSuffix
    rw [this]
    simp [parseNat_eq, hv]

theorem parse_error_iff {f : List Char} (hf : '\n' ∉ f) :
    (parseStepAndSuffix f = .error .valueError ↔ ¬ ∃ n x, Names f n x) := by
  have tot : parseStepAndSuffix f = .error .valueError ∨ ∃ r, parseStepAndSuffix f = .ok r := by
    obtain ⟨p, g, hp⟩ := fullMatch_total hf
    unfold parseStepAndSuffix
    rw [hp]
    cases hs : g.step with
    | none => exact .inl (by simp only [hs])
    | some s => exact .inr (by simp only [hs]; exact ⟨_, rfl⟩)
  constructor
  · rintro h ⟨n, x, hn⟩
    rw [(parse_ok_iff hf n x).2 hn] at h
    cases h
  · intro h
    rcases tot with h' | ⟨⟨n, x⟩, h'⟩
    · exact h'
    · exact absurd ⟨n, x, (parse_ok_iff hf n x).1 h'⟩ h

end Verif.CkptPath
