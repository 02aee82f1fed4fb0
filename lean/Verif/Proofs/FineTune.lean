import Verif.Model.FineTune
import Verif.Props.RegexSub

/-! The patterns of the fine-tuning configurations: what they mean. -/

namespace Verif.FineTune

open Verif FlatDict Mapping RulesParse Regex RegexSub

/-- The pattern of some characters followed by another pattern. -/
def chars : List Char → Re → Re
  | [], t => t
  | c :: w, t => .seq (.char c) (chars w t)

def anchored (a : Re) : Re := .seq .bol (.seq (.group a) (.seq .eol .empty))

def tHead : Re := chars "head".toList .empty
def tPre : Re := chars "pre_logits/".toList (.seq (.star .any) .empty)
def tPos : Re := anchored (.seq (.star .any) (chars "/pos_embedding".toList .empty))
def tRouter : Re := anchored (.seq (.star .any) (chars "/Moe/Router/dense/".toList (.seq (.star .any) .empty)))
def tAll : Re := anchored (.seq (.star .any) .empty)

theorem c_head : compileRule "head".toList = .ok tHead := by decide +kernel
theorem c_pre : compileRule "pre_logits/.*".toList = .ok tPre := by decide +kernel
theorem c_pos : compileRule "^(.*/pos_embedding)$".toList = .ok tPos := by decide +kernel
theorem c_router : compileRule "^(.*/Moe/Router/dense/.*)$".toList = .ok tRouter := by decide +kernel
theorem c_all : compileRule "^(.*)$".toList = .ok tAll := by decide +kernel

theorem m_empty {s : List Char} {i j : Nat} : M s .empty i j ↔ i ≤ s.length ∧ j = i := by
  constructor
  · intro h; cases h; exact ⟨by assumption, rfl⟩
  · rintro ⟨h, rfl⟩; exact .empty _ h

theorem m_seq {s : List Char} {a b : Re} {i k : Nat} : M s (.seq a b) i k ↔ ∃ j, M s a i j ∧ M s b j k := by
  constructor
  · intro h; cases h; exact ⟨_, by assumption, by assumption⟩
  · rintro ⟨j, h1, h2⟩; exact .seq _ _ _ _ _ h1 h2

theorem m_chars {s : List Char} {t : Re} (w : List Char) : ∀ {i k : Nat},
    M s (chars w t) i k ↔ w <+: s.drop i ∧ M s t (i + w.length) k := by
  induction w with
  | nil => intro i k; simp [chars]
  | cons c w ih =>
    intro i k
    rw [chars, m_seq]
    constructor
    · rintro ⟨j, h1, h2⟩
      cases h1 with
      | char _ _ hc =>
        obtain ⟨h3, h4⟩ := ih.1 h2
        obtain ⟨hl, he⟩ := List.getElem?_eq_some_iff.1 hc
        rw [List.drop_eq_getElem_cons hl, he]
        refine ⟨?_, by rw [List.length_cons]; convert h4 using 1; omega⟩
        exact List.cons_prefix_cons.2 ⟨rfl, h3⟩
    · rintro ⟨h1, h2⟩
      have hl : i < s.length := by
        by_contra hn
        rw [List.drop_eq_nil_of_le (by omega)] at h1
        simp at h1
      rw [List.drop_eq_getElem_cons hl, List.cons_prefix_cons] at h1
      refine ⟨i + 1, .char _ _ (List.getElem?_eq_some_iff.2 ⟨hl, h1.1.symm⟩), ih.2 ⟨h1.2, ?_⟩⟩
      rw [List.length_cons] at h2
      convert h2 using 1
      omega

theorem m_star_any {s : List Char} (hs : '\n' ∉ s) {i j : Nat} : M s (.star .any) i j ↔ i ≤ j ∧ j ≤ s.length := by
  constructor
  · exact fun h => ⟨m_mono h, m_le h⟩
  · rintro ⟨h1, h2⟩
    obtain ⟨n, rfl⟩ := Nat.exists_eq_add_of_le h1
    induction n generalizing i with
    | zero => exact .star0 _ _ h2
    | succ n ih =>
      have hi : i < s.length := by omega
      refine .star1 _ _ (i + 1) _ (.any s[i] _ (List.getElem?_eq_getElem hi) ?_) ?_
      · intro he
        exact hs (he ▸ List.getElem_mem hi)
      · have := ih (i := i + 1) (by omega) (by omega)
        convert this using 1
        omega

theorem m_anchored {s : List Char} (hs : '\n' ∉ s) {a : Re} : Search (anchored a) s ↔ M s a 0 s.length := by
  unfold Search anchored
  constructor
  · rintro ⟨i, j, h⟩
    obtain ⟨k, h1, h2⟩ := m_seq.1 h
    cases h1
    obtain ⟨k, h1, h2⟩ := m_seq.1 h2
    obtain ⟨k', h2, h3⟩ := m_seq.1 h2
    cases h1 with
    | group _ _ _ h1 =>
      cases h2 with
      | eol => exact h1
      | eol' _ _ h => exact absurd (List.mem_of_getElem? h) hs
  · intro h
    exact ⟨0, s.length, m_seq.2 ⟨0, .bol, m_seq.2 ⟨s.length, .group _ _ _ h, m_seq.2 ⟨s.length, .eol, .empty _ le_rfl⟩⟩⟩⟩

theorem infix_iff {w s : List Char} : w <:+: s ↔ ∃ i, w <+: s.drop i := by
  constructor
  · rintro ⟨a, b, rfl⟩
    exact ⟨a.length, b, by simp⟩
  · rintro ⟨i, h⟩
    exact h.isInfix.trans (List.drop_suffix i s).isInfix

theorem prefix_bound {w s : List Char} (hw : w ≠ []) {i : Nat} (h : w <+: s.drop i) : i + w.length ≤ s.length := by
  have := h.length_le
  have h2 : 0 < w.length := List.length_pos_iff.2 hw
  rw [List.length_drop] at this
  omega

theorem s_chars {s w : List Char} (hw : w ≠ []) : Search (chars w .empty) s ↔ w <:+: s := by
  rw [infix_iff]
  unfold Search
  constructor
  · rintro ⟨i, j, h⟩
    exact ⟨i, (m_chars w).1 h |>.1⟩
  · rintro ⟨i, h⟩
    exact ⟨i, i + w.length, (m_chars w).2 ⟨h, .empty _ (prefix_bound hw h)⟩⟩

theorem s_chars_any {s w : List Char} (hw : w ≠ []) : Search (chars w (.seq (.star .any) .empty)) s ↔ w <:+: s := by
  rw [infix_iff]
  unfold Search
  constructor
  · rintro ⟨i, j, h⟩
    exact ⟨i, (m_chars w).1 h |>.1⟩
  · rintro ⟨i, h⟩
    have hb := prefix_bound hw h
    exact ⟨i, i + w.length, (m_chars w).2 ⟨h, m_seq.2 ⟨_, .star0 _ _ hb, .empty _ hb⟩⟩⟩

theorem s_pos {s : List Char} (hs : '\n' ∉ s) {w : List Char} :
    Search (anchored (.seq (.star .any) (chars w .empty))) s ↔ w <:+ s := by
  rw [m_anchored hs, m_seq]
  constructor
  · rintro ⟨j, h1, h2⟩
    obtain ⟨h3, h4⟩ := (m_chars w).1 h2
    rw [m_empty] at h4
    have : w = s.drop j := by
      refine h3.eq_of_length ?_
      rw [List.length_drop]
      omega
    rw [this]
    exact List.drop_suffix _ _
  · rintro ⟨a, rfl⟩
    refine ⟨a.length, (m_star_any hs).2 ⟨by omega, by simp⟩, (m_chars w).2 ⟨by simp, ?_⟩⟩
    rw [m_empty]
    simp

theorem s_router {s : List Char} (hs : '\n' ∉ s) {w : List Char} (hw : w ≠ []) :
    Search (anchored (.seq (.star .any) (chars w (.seq (.star .any) .empty)))) s ↔ w <:+: s := by
  rw [m_anchored hs, m_seq, infix_iff]
  constructor
  · rintro ⟨j, h1, h2⟩
    exact ⟨j, ((m_chars w).1 h2).1⟩
  · rintro ⟨i, h⟩
    have hb := prefix_bound hw h
    refine ⟨i, (m_star_any hs).2 ⟨by omega, by omega⟩, (m_chars w).2 ⟨h, m_seq.2 ⟨s.length, (m_star_any hs).2 ⟨hb, le_rfl⟩, ?_⟩⟩⟩
    exact .empty _ le_rfl

theorem s_all {s : List Char} (hs : '\n' ∉ s) : Search tAll s := by
  unfold tAll
  rw [m_anchored hs, m_seq]
  exact ⟨s.length, (m_star_any hs).2 ⟨by omega, le_rfl⟩, .empty _ le_rfl⟩

theorem rename_anchored {s : Key} (hs : '\n' ∉ s) {a : Re} (hm : Search (anchored a) s) :
    subName (anchored a) "params/\\1".toList s = "params/".toList ++ s := by
  unfold subName
  have := C136_anchored a s "params/".toList hs (by decide) hm
  have he : ("params/\\1".toList : List Char) = "params/".toList ++ ['\\', '1'] := by decide
  rw [he]
  unfold anchored
  rw [this]

end Verif.FineTune
