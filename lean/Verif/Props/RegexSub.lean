import Verif.Model.RegexSub
import Verif.Proofs.Regex

/-!
C136: finding and renaming names with the patterns of rules (vmoe/initialization/rules.py:47,146).
-/

namespace Verif.RegexSub

open Verif Regex FlatDict

theorem m_mono {s : List Char} {t : Re} {i j : Nat} (h : M s t i j) : i ≤ j := by
  induction h <;> omega

theorem repeats_sound {s : List Char} {a : Re} {g : Nat}
    (ih : ∀ i c j c', (j, c') ∈ ends s a g i c → M s a i j) :
    ∀ fuel i c j c', i ≤ s.length → (j, c') ∈ repeats (ends s a g) fuel i c → M s (.star a) i j := by
  intro fuel
  induction fuel with
  | zero =>
    intro i c j c' hi h
    simp only [repeats, List.mem_singleton, Prod.mk.injEq] at h
    rw [h.1]
    exact .star0 _ _ hi
  | succ fuel ihf =>
    intro i c j c' hi h
    simp only [repeats, List.mem_append, List.mem_flatMap, List.mem_filter, List.mem_singleton, Prod.mk.injEq] at h
    rcases h with ⟨⟨k, d⟩, ⟨h1, h2⟩, h3⟩ | h
    · have hm := ih i c k d h1
      exact .star1 _ _ _ _ hm (ihf k d j c' (m_le hm) h3)
    · rw [h.1]
      exact .star0 _ _ hi

theorem repeats_complete {s : List Char} {a : Re} {g : Nat}
    (ih : ∀ i c j, M s a i j → ∃ c', (j, c') ∈ ends s a g i c) {i j : Nat} (h : M s (.star a) i j) :
    ∀ fuel c, s.length - i ≤ fuel → ∃ c', (j, c') ∈ repeats (ends s a g) fuel i c := by
  generalize ht : Re.star a = t at h
  induction h with
  | star0 b i hi =>
    intro fuel c _
    cases fuel with
    | zero => exact ⟨c, by simp [repeats]⟩
    | succ fuel => exact ⟨c, by simp [repeats]⟩
  | star1 b i j k h1 h2 _ ih2 =>
    cases ht
    intro fuel c hf
    have hij := m_mono h1
    have hj := m_le h1
    by_cases hlt : i < j
    · cases fuel with
      | zero => omega
      | succ fuel =>
        obtain ⟨d, hd⟩ := ih i c j h1
        obtain ⟨c', hc'⟩ := ih2 rfl fuel d (by omega)
        refine ⟨c', ?_⟩
        simp only [repeats, List.mem_append, List.mem_flatMap, List.mem_filter]
        exact .inl ⟨(j, d), ⟨hd, by simpa using hlt⟩, hc'⟩
    · have : i = j := by omega
      subst this
      exact ih2 rfl fuel c hf
  | _ => cases ht

theorem ends_sound {s : List Char} (t : Re) : ∀ g i c j c', (j, c') ∈ ends s t g i c → M s t i j := by
  induction t with
  | empty =>
    intro g i c j c' h
    simp only [ends] at h
    split at h
    · simp at h; rw [h.1]; exact .empty _ (by assumption)
    · cases h
  | char x =>
    intro g i c j c' h
    simp only [ends] at h
    split at h
    · simp at h; rw [h.1]; exact .char _ _ (by assumption)
    · cases h
  | any =>
    intro g i c j c' h
    simp only [ends] at h
    split at h
    · split at h
      · cases h
      · simp at h; rw [h.1]; exact .any _ _ (by assumption) (by assumption)
    · cases h
  | bol =>
    intro g i c j c' h
    simp only [ends] at h
    split at h
    · rename_i hi
      subst hi
      simp at h; rw [h.1]; exact .bol
    · cases h
  | eol =>
    intro g i c j c' h
    simp only [ends] at h
    split at h
    · rename_i hi
      simp at h
      rw [h.1]
      rcases hi with rfl | ⟨h1, h2⟩
      · exact .eol
      · exact .eol' _ h1 h2
    · cases h
  | esc n x =>
    intro g i c j c' h
    simp only [ends] at h
    split at h
    · split at h
      · simp at h; rw [h.1]; exact .esc _ _ _ _ (by assumption) (by assumption)
      · cases h
    · cases h
  | cls n rs es =>
    intro g i c j c' h
    simp only [ends] at h
    split at h
    · split at h
      · simp at h; rw [h.1]; exact .cls _ _ _ _ _ (by assumption) (by assumption)
      · cases h
    · cases h
  | seq a b iha ihb =>
    intro g i c j c' h
    simp only [ends, List.mem_flatMap] at h
    obtain ⟨⟨k, d⟩, h1, h2⟩ := h
    exact .seq _ _ _ _ _ (iha _ _ _ _ _ h1) (ihb _ _ _ _ _ h2)
  | alt a b iha ihb =>
    intro g i c j c' h
    simp only [ends, List.mem_append] at h
    rcases h with h | h
    · exact .left _ _ _ _ (iha _ _ _ _ _ h)
    · exact .right _ _ _ _ (ihb _ _ _ _ _ h)
  | star a iha =>
    intro g i c j c' h
    simp only [ends] at h
    split at h
    · exact repeats_sound (iha g) _ _ _ _ _ (by assumption) h
    · cases h
  | plus a iha =>
    intro g i c j c' h
    simp only [ends, List.mem_flatMap] at h
    obtain ⟨⟨k, d⟩, h1, h2⟩ := h
    have hm := iha _ _ _ _ _ h1
    exact .plus _ _ _ _ hm (repeats_sound (iha g) _ _ _ _ _ (m_le hm) h2)
  | opt a iha =>
    intro g i c j c' h
    simp only [ends] at h
    split at h
    · rename_i hi
      simp only [List.mem_append, List.mem_singleton, Prod.mk.injEq] at h
      rcases h with h | h
      · exact .opt1 _ _ _ (iha _ _ _ _ _ h)
      · rw [h.1]; exact .opt0 _ _ hi
    · cases h
  | group a iha =>
    intro g i c j c' h
    simp only [ends, List.mem_map, Prod.mk.injEq] at h
    obtain ⟨⟨k, d⟩, h1, h2, _⟩ := h
    cases h2
    exact .group _ _ _ (iha _ _ _ _ _ h1)

theorem ends_complete {s : List Char} (t : Re) : ∀ g i c j, M s t i j → ∃ c', (j, c') ∈ ends s t g i c := by
  induction t with
  | empty => intro g i c j h; cases h; exact ⟨c, by simp [ends, *]⟩
  | char x => intro g i c j h; cases h; exact ⟨c, by simp [ends, *]⟩
  | any => intro g i c j h; cases h; exact ⟨c, by simp [ends, *]⟩
  | bol => intro g i c j h; cases h; exact ⟨c, by simp [ends]⟩
  | eol =>
    intro g i c j h
    cases h with
    | eol => exact ⟨c, by simp [ends]⟩
    | eol' _ h1 h2 => exact ⟨c, by simp [ends, h1, h2]⟩
  | esc n x =>
    intro g i c j h
    cases h with
    | esc _ _ y _ h1 h2 => exact ⟨c, by simp only [ends, h1, h2, if_true, List.mem_singleton]⟩
  | cls n rs es =>
    intro g i c j h
    cases h with
    | cls _ _ _ y _ h1 h2 => exact ⟨c, by simp only [ends, h1, h2, if_true, List.mem_singleton]⟩
  | seq a b iha ihb =>
    intro g i c j h
    cases h with
    | seq _ _ _ k _ h1 h2 =>
      obtain ⟨d, hd⟩ := iha g i c k h1
      obtain ⟨c', hc'⟩ := ihb (g + groups a) k d j h2
      exact ⟨c', by simp only [ends, List.mem_flatMap]; exact ⟨(k, d), hd, hc'⟩⟩
  | alt a b iha ihb =>
    intro g i c j h
    cases h with
    | left _ _ _ _ h =>
      obtain ⟨d, hd⟩ := iha g i c j h
      exact ⟨d, by simp [ends, hd]⟩
    | right _ _ _ _ h =>
      obtain ⟨d, hd⟩ := ihb (g + groups a) i c j h
      exact ⟨d, by simp [ends, hd]⟩
  | star a iha =>
    intro g i c j h
    have hi : i ≤ s.length := (m_mono h).trans (m_le h)
    obtain ⟨c', hc'⟩ := repeats_complete (iha g) h (s.length - i) c le_rfl
    exact ⟨c', by simp only [ends, if_pos hi]; exact hc'⟩
  | plus a iha =>
    intro g i c j h
    cases h with
    | plus _ _ k _ h1 h2 =>
      obtain ⟨d, hd⟩ := iha g i c k h1
      obtain ⟨c', hc'⟩ := repeats_complete (iha g) h2 (s.length - k) d le_rfl
      exact ⟨c', by simp only [ends, List.mem_flatMap]; exact ⟨(k, d), hd, hc'⟩⟩
  | opt a iha =>
    intro g i c j h
    have hi : i ≤ s.length := (m_mono h).trans (m_le h)
    cases h with
    | opt0 _ _ _ => exact ⟨c, by simp [ends, hi]⟩
    | opt1 _ _ _ h =>
      obtain ⟨d, hd⟩ := iha g i c j h
      exact ⟨d, by simp [ends, hi, hd]⟩
  | group a iha =>
    intro g i c j h
    cases h with
    | group _ _ _ h =>
      obtain ⟨d, hd⟩ := iha (g + 1) i c j h
      exact ⟨record d g i j, by simp only [ends, List.mem_map]; exact ⟨(j, d), hd, rfl⟩⟩

/-- What is found at a position. -/
theorem matchAt_some {t : Re} {s : List Char} {adv : Bool} {i j : Nat} {c : Groups} (h : matchAt t s adv i = some (j, c)) :
    (j, c) ∈ ends s t 1 i (fun _ => none) ∧ (adv = true → j ≠ i) := by
  unfold matchAt at h
  have := List.mem_of_head? h
  rw [List.mem_filter] at this
  refine ⟨this.1, fun ha => ?_⟩
  have h2 := this.2
  subst ha
  simpa using h2

theorem matchAt_none {t : Re} {s : List Char} {i : Nat} (h : matchAt t s false i = none) (j : Nat) : ¬ M s t i j := by
  intro hm
  obtain ⟨c, hc⟩ := ends_complete t 1 i (fun _ => none) j hm
  unfold matchAt at h
  rw [List.head?_eq_none_iff] at h
  have : (j, c) ∈ (ends s t 1 i fun _ => none).filter fun jc => !false || decide (jc.1 ≠ i) := by
    rw [List.mem_filter]
    exact ⟨hc, by simp⟩
  rw [h] at this
  cases this

theorem findFrom_some {t : Re} {s : List Char} : ∀ (n : Nat) (i b e : Nat) (c : Groups),
    findFrom t s n false i = some (b, e, c) → matchAt t s false b = some (e, c) ∧ i ≤ b ∧
      ∀ k, i ≤ k → k < b → ∀ j, ¬ M s t k j := by
  intro n
  induction n with
  | zero =>
    intro i b e c h
    unfold findFrom at h
    split at h
    · rename_i j d hm
      cases h
      exact ⟨hm, le_rfl, fun k h1 h2 => absurd h2 (by omega)⟩
    · cases h
  | succ n ih =>
    intro i b e c h
    unfold findFrom at h
    split at h
    · rename_i j d hm
      cases h
      exact ⟨hm, le_rfl, fun k h1 h2 => absurd h2 (by omega)⟩
    · rename_i hm
      obtain ⟨h1, h2, h3⟩ := ih _ _ _ _ h
      refine ⟨h1, by omega, fun k hk hb j => ?_⟩
      rcases Nat.lt_or_ge i k with hlt | hge
      · exact h3 k hlt hb j
      · have : k = i := by omega
        subst this
        exact matchAt_none hm j

theorem findFrom_none {t : Re} {s : List Char} : ∀ (n : Nat) (i : Nat), s.length ≤ i + n →
    findFrom t s n false i = none → ∀ k, i ≤ k → ∀ j, ¬ M s t k j := by
  intro n
  induction n with
  | zero =>
    intro i hi h k hk j hm
    have : k ≤ s.length := (m_mono hm).trans (m_le hm)
    have : k = i := by omega
    subst this
    unfold findFrom at h
    split at h
    · cases h
    · rename_i hn
      exact matchAt_none hn j hm
  | succ n ih =>
    intro i hi h k hk j hm
    unfold findFrom at h
    split at h
    · cases h
    · rename_i hn
      rcases Nat.lt_or_ge i k with hlt | hge
      · exact ih (i + 1) (by omega) h k hlt j hm
      · have : k = i := by omega
        subst this
        exact matchAt_none hn j hm

/-- C136.  A rule's pattern is found in a name if and only if it matches some part of the name. -/
theorem C136_search (t : Re) (s : Key) : search t s = true ↔ Search t s := by
  unfold search
  constructor
  · intro h
    obtain ⟨⟨b, e, c⟩, h⟩ := Option.isSome_iff_exists.1 h
    obtain ⟨h1, _, _⟩ := findFrom_some _ _ _ _ _ h
    exact ⟨b, e, ends_sound _ _ _ _ _ _ (matchAt_some h1).1⟩
  · rintro ⟨i, j, hm⟩
    cases h : findFrom t s s.length false 0 with
    | some r => rfl
    | none => exact absurd hm (findFrom_none _ 0 (by omega) h i (by omega) j)

/-- C136.  The match that is found first starts at the first place where the pattern matches at all. -/
theorem C136_leftmost (t : Re) (s : Key) (b e : Nat) (c : Groups) (h : findFrom t s s.length false 0 = some (b, e, c)) :
    M s t b e ∧ ∀ i < b, ∀ j, ¬ M s t i j := by
  obtain ⟨h1, _, h3⟩ := findFrom_some _ _ _ _ _ h
  exact ⟨ends_sound _ _ _ _ _ _ (matchAt_some h1).1, fun i hi j => h3 i (by omega) hi j⟩

/-- `(a|ab)b*` in `xabbab`: found, first at position 1. -/
example : search (.seq (.group (.alt (.char 'a') (.seq (.char 'a') (.char 'b')))) (.star (.char 'b'))) "xabbab".toList = true ∧
    (findFrom (.seq (.group (.alt (.char 'a') (.seq (.char 'a') (.char 'b')))) (.star (.char 'b'))) "xabbab".toList 6 false 0).map
      (fun m => (m.1, m.2.1, m.2.2 1)) = some (1, 4, some (1, 2)) := by
  decide +kernel

/-- The prefix of a replacement without backslashes stands for itself. -/
theorem template_prefix (n : Nat) (hn : 1 ≤ n) : ∀ pre : List Char, '\\' ∉ pre →
    template n (pre ++ ['\\', '1']) = .ok (pre.map Part.char ++ [.group 1]) := by
  intro pre
  induction pre with
  | nil =>
    intro _
    have : ¬ n < 1 := by omega
    simp [template, this, pure, Except.pure, bind, Except.bind]
  | cons c pre ih =>
    intro h
    have hc : c ≠ '\\' := fun e => h (by simp [e])
    have ih := ih fun hm => h (by simp [hm])
    have : ∃ d s, pre ++ ['\\', '1'] = d :: s := by
      cases pre with
      | nil => exact ⟨_, _, rfl⟩
      | cons d s => exact ⟨_, _, rfl⟩
    obtain ⟨d, s, hds⟩ := this
    rw [List.cons_append, hds, template, if_neg hc, ← hds, ih]
    rfl

theorem expand_prefix (s : List Char) (c : Groups) (h : c 1 = some (0, s.length)) (pre : List Char) :
    (pre.map Part.char ++ [Part.group 1]).flatMap (expand s c) = pre ++ s := by
  induction pre with
  | nil => simp [expand, h]
  | cons x pre ih =>
    rw [List.map_cons, List.cons_append, List.flatMap_cons, ih]
    rfl

/-- A match of `^(…)$`: all of the name, and the group is all of the name. -/
theorem anchored_ends (s : List Char) (hs : '\n' ∉ s) (a : Re) (i j : Nat) (c : Groups)
    (h : (j, c) ∈ ends s (.seq .bol (.seq (.group a) (.seq .eol .empty))) 1 i (fun _ => none)) :
    i = 0 ∧ j = s.length ∧ c 1 = some (0, s.length) := by
  simp only [ends, List.mem_flatMap] at h
  obtain ⟨⟨k, d⟩, h1, ⟨k', d'⟩, h2, ⟨k'', d''⟩, h3, h4⟩ := h
  split at h1
  · rename_i hi
    simp only [List.mem_singleton, Prod.mk.injEq] at h1
    obtain ⟨rfl, rfl⟩ := h1
    split at h3
    · rename_i he
      simp only [List.mem_singleton, Prod.mk.injEq] at h3
      obtain ⟨rfl, rfl⟩ := h3
      have hk : k'' = s.length := by
        rcases he with h | ⟨_, h⟩
        · exact h
        · exact absurd (List.mem_of_getElem? h) hs
      subst hk
      simp only [le_refl, if_true, List.mem_singleton, Prod.mk.injEq] at h4
      obtain ⟨rfl, rfl⟩ := h4
      simp only [List.mem_map, Prod.mk.injEq] at h2
      obtain ⟨⟨m, dm⟩, _, rfl, rfl⟩ := h2
      subst hi
      exact ⟨rfl, rfl, by simp [record, groups]⟩
    · cases h3
  · cases h1

/-- C136.  A pattern `^(…)$` that matches a name is replaced in it once: a replacement of some text and then `\1` gives this text
and then the name. -/
theorem C136_anchored (a : Re) (s pre : Key) (hs : '\n' ∉ s) (hp : '\\' ∉ pre)
    (hm : Search (.seq .bol (.seq (.group a) (.seq .eol .empty))) s) :
    sub (.seq .bol (.seq (.group a) (.seq .eol .empty))) (pre ++ ['\\', '1']) s = .ok (pre ++ s) := by
  have hg : 1 ≤ groups (.seq .bol (.seq (.group a) (.seq .eol .empty))) := by simp [groups]
  unfold sub
  rw [template_prefix _ hg pre hp]
  change Except.ok _ = _
  congr 1
  generalize ht : (Re.seq .bol (.seq (.group a) (.seq .eol .empty))) = t at hm
  have hall : ∀ i j c, (j, c) ∈ ends s t 1 i (fun _ => none) → i = 0 ∧ j = s.length ∧ c 1 = some (0, s.length) := by
    subst ht
    exact fun i j c h => anchored_ends s hs a i j c h
  -- the first match
  have hfirst : ∃ c, findFrom t s s.length false 0 = some (0, s.length, c) ∧ c 1 = some (0, s.length) := by
    have hsr := (C136_search t s).2 hm
    unfold search at hsr
    obtain ⟨⟨b, e, c⟩, h⟩ := Option.isSome_iff_exists.1 hsr
    obtain ⟨h1, _, _⟩ := findFrom_some _ _ _ _ _ h
    obtain ⟨rfl, rfl, hc⟩ := hall _ _ _ (matchAt_some h1).1
    exact ⟨c, h, hc⟩
  obtain ⟨c, hf, hc⟩ := hfirst
  -- no other match
  have hnone : findFrom t s 0 (0 == s.length) s.length = none := by
    unfold findFrom
    split
    · rename_i j d hmm
      exfalso
      obtain ⟨h1, h2⟩ := matchAt_some hmm
      obtain ⟨h3, h4, _⟩ := hall _ _ _ h1
      exact h2 (by simp [h3]) (by omega)
    · rfl
  have hfuel : ∃ f, 2 * s.length + 2 = f + 1 + 1 := ⟨2 * s.length, rfl⟩
  obtain ⟨f, hfu⟩ := hfuel
  rw [hfu, replaceFrom, Nat.sub_zero, hf]
  simp only [Nat.sub_self, List.take_zero, List.nil_append]
  rw [replaceFrom, Nat.sub_self, hnone, expand_prefix s c hc]
  simp

/-- A name with all characters, renamed by the last rule of the fine-tuning configurations. -/
example : compileRule "^(.*)$".toList = .ok (.seq .bol (.seq (.group (.seq (.star .any) .empty)) (.seq .eol .empty))) ∧
    sub (.seq .bol (.seq (.group (.seq (.star .any) .empty)) (.seq .eol .empty))) "params/\\1".toList
      "Encoder/encoderblock_1/LayerNorm_0/scale".toList = .ok "params/Encoder/encoderblock_1/LayerNorm_0/scale".toList := by
  refine ⟨by decide +kernel, C136_anchored _ _ "params/".toList (by decide) (by decide) ((C136_search _ _).1 (by decide +kernel))⟩

/-- C136.  A name in which the pattern is not found stays as it is, if the replacement is valid. -/
theorem C136_not_found (t : Re) (repl s : Key) (parts : List Part) (hp : template (groups t) repl = .ok parts)
    (hm : ¬ Search t s) : sub t repl s = .ok s := by
  unfold sub
  rw [hp]
  change Except.ok _ = _
  congr 1
  have : findFrom t s s.length false 0 = none := by
    cases h : findFrom t s s.length false 0 with
    | none => rfl
    | some r => exact absurd ((C136_search t s).1 (by unfold search; rw [h]; rfl)) hm
  rw [replaceFrom, Nat.sub_zero, this]
  rfl

example : sub (.seq (.char 'x') .empty) "[\\1]".toList "abc".toList = .error .valueError ∧
    template 0 "y".toList = .ok [.char 'y'] ∧ sub (.seq (.char 'x') .empty) "y".toList "abc".toList = .ok "abc".toList := by
  decide +kernel

/-- The groups lie in the name. -/
def Inside (s : List Char) (c : Groups) : Prop := ∀ n i j, c n = some (i, j) → i ≤ j ∧ j ≤ s.length

theorem repeats_inside {s : List Char} {step : Nat → Groups → List (Nat × Groups)}
    (ih : ∀ i c j c', Inside s c → (j, c') ∈ step i c → Inside s c') :
    ∀ fuel i c j c', Inside s c → (j, c') ∈ repeats step fuel i c → Inside s c' := by
  intro fuel
  induction fuel with
  | zero =>
    intro i c j c' hc h
    simp only [repeats, List.mem_singleton, Prod.mk.injEq] at h
    rw [h.2]
    exact hc
  | succ fuel ihf =>
    intro i c j c' hc h
    simp only [repeats, List.mem_append, List.mem_flatMap, List.mem_filter, List.mem_singleton, Prod.mk.injEq] at h
    rcases h with ⟨⟨k, d⟩, ⟨h1, _⟩, h3⟩ | h
    · exact ihf k d j c' (ih i c k d hc h1) h3
    · rw [h.2]
      exact hc

theorem ends_inside {s : List Char} (t : Re) : ∀ g i c j c', Inside s c → (j, c') ∈ ends s t g i c → Inside s c' := by
  induction t with
  | seq a b iha ihb =>
    intro g i c j c' hc h
    simp only [ends, List.mem_flatMap] at h
    obtain ⟨⟨k, d⟩, h1, h2⟩ := h
    exact ihb _ _ _ _ _ (iha _ _ _ _ _ hc h1) h2
  | alt a b iha ihb =>
    intro g i c j c' hc h
    simp only [ends, List.mem_append] at h
    rcases h with h | h
    · exact iha _ _ _ _ _ hc h
    · exact ihb _ _ _ _ _ hc h
  | star a iha =>
    intro g i c j c' hc h
    simp only [ends] at h
    split at h
    · exact repeats_inside (iha g) _ _ _ _ _ hc h
    · cases h
  | plus a iha =>
    intro g i c j c' hc h
    simp only [ends, List.mem_flatMap] at h
    obtain ⟨⟨k, d⟩, h1, h2⟩ := h
    exact repeats_inside (iha g) _ _ _ _ _ (iha _ _ _ _ _ hc h1) h2
  | opt a iha =>
    intro g i c j c' hc h
    simp only [ends] at h
    split at h
    · simp only [List.mem_append, List.mem_singleton, Prod.mk.injEq] at h
      rcases h with h | h
      · exact iha _ _ _ _ _ hc h
      · rw [h.2]; exact hc
    · cases h
  | group a iha =>
    intro g i c j c' hc h
    simp only [ends, List.mem_map, Prod.mk.injEq] at h
    obtain ⟨⟨k, d⟩, h1, h2, h3⟩ := h
    cases h2
    have hm := ends_sound _ _ _ _ _ _ h1
    have hd := iha _ _ _ _ _ hc h1
    rw [← h3]
    intro n i' j' hn
    unfold record at hn
    split at hn
    · cases hn
      exact ⟨m_mono hm, m_le hm⟩
    · exact hd n i' j' hn
  | _ =>
    intro g i c j c' hc h
    simp only [ends] at h
    repeat' split at h
    all_goals first
      | (simp only [List.mem_singleton, Prod.mk.injEq] at h; rw [h.2]; exact hc)
      | (cases h)

/-- What a part of a replacement stands for: itself, or the part of the name that its group matched, or nothing if the group did not
match. -/
def PartText (s : List Char) (c : Groups) : Part → List Char → Prop
  | .char x, w => w = [x]
  | .group n, w => match c n with
    | none => w = []
    | some (i, j) => ∃ u v, s = u ++ w ++ v ∧ u.length = i ∧ u.length + w.length = j

theorem expand_text {s : List Char} {c : Groups} (hc : Inside s c) (p : Part) : PartText s c p (expand s c p) := by
  cases p with
  | char x => rfl
  | group n =>
    cases h : c n with
    | none => simp [PartText, expand, h]
    | some r =>
      obtain ⟨i, j⟩ := r
      obtain ⟨h1, h2⟩ := hc n i j h
      simp only [PartText, expand, h]
      refine ⟨s.take i, (s.drop i).drop (j - i), ?_, ?_, ?_⟩
      · rw [List.append_assoc, List.take_append_drop, List.take_append_drop]
      · simp; omega
      · simp; omega

/-- C136.  If the pattern matches nowhere behind the first match, then only this match is replaced: what is before it and what is
behind it stay, and between them is the replacement, where `\n` stands for what group `n` matched. -/
theorem C136_once (t : Re) (repl s : Key) (parts : List Part) (hp : template (groups t) repl = .ok parts) (b e : Nat) (c : Groups)
    (h : findFrom t s s.length false 0 = some (b, e, c)) (hbe : b < e) (hrest : ∀ i, e ≤ i → ∀ j, ¬ M s t i j) :
    ∃ u m v ws, s = u ++ m ++ v ∧ u.length = b ∧ u.length + m.length = e ∧ List.Forall₂ (PartText s c) parts ws ∧
      sub t repl s = .ok (u ++ ws.flatten ++ v) := by
  obtain ⟨h1, _, _⟩ := findFrom_some _ _ _ _ _ h
  have hmem := (matchAt_some h1).1
  have hin : Inside s c := ends_inside _ _ _ _ _ _ (fun _ _ _ hn => by cases hn) hmem
  have hle := m_le (ends_sound _ _ _ _ _ _ hmem)
  refine ⟨s.take b, (s.drop b).take (e - b), (s.drop b).drop (e - b), parts.map (expand s c), ?_, ?_, ?_, ?_, ?_⟩
  · rw [List.append_assoc, List.take_append_drop, List.take_append_drop]
  · simp; omega
  · simp; omega
  · clear hp
    induction parts with
    | nil => exact .nil
    | cons p ps ih => exact .cons (expand_text hin p) ih
  · unfold sub
    rw [hp]
    change Except.ok _ = _
    congr 1
    have hnone : findFrom t s (s.length - e) false e = none := by
      cases hf : findFrom t s (s.length - e) false e with
      | none => rfl
      | some r =>
        obtain ⟨b', e', c'⟩ := r
        obtain ⟨h3, h4, _⟩ := findFrom_some _ _ _ _ _ hf
        exact absurd (ends_sound _ _ _ _ _ _ (matchAt_some h3).1) (hrest b' h4 e')
    have hfu : 2 * s.length + 2 = 2 * s.length + 1 + 1 := rfl
    have hne : (b == e) = false := by simp; omega
    rw [hfu, replaceFrom, Nat.sub_zero, h]
    simp only [hne]
    rw [replaceFrom, hnone]
    simp only [List.drop_zero, List.drop_drop, Nat.sub_zero, List.flatMap_def]
    rw [show b + (e - b) = e by omega]

/-- A rule that renames the middle of a name, with the number of the block. -/
example : let t : Re := .seq (.char 'b') (.seq (.char '_') (.seq (.group (.seq (.plus (.cls false [('0', '9')] [])) .empty))
      (.seq (.char '/') (.seq (.char 'M') .empty))))
    compileRule "b_([0-9]+)/M".toList = .ok t ∧
    template (groups t) "l\\1/M".toList = .ok [.char 'l', .group 1, .char '/', .char 'M'] ∧
    (findFrom t "e/b_12/M/w".toList 10 false 0).map (fun m => (m.1, m.2.1, m.2.2 1)) = some (2, 8, some (4, 6)) ∧
    (∀ i, 8 ≤ i → ∀ j, ¬ M "e/b_12/M/w".toList t i j) ∧
    sub t "l\\1/M".toList "e/b_12/M/w".toList = .ok "e/l12/M/w".toList := by
  refine ⟨by decide +kernel, by decide +kernel, by decide +kernel, ?_, by decide +kernel⟩
  refine findFrom_none 2 8 (by decide) ?_
  rw [← Option.isNone_iff_eq_none]
  decide +kernel

/-- C136.  Without the anchors a name is renamed twice: `.*` matches all of it and then the empty text at its end. -/
theorem C136_unanchored_counterexample : compileRule "(.*)".toList = .ok (.seq (.group (.seq (.star .any) .empty)) .empty) ∧
    sub (.seq (.group (.seq (.star .any) .empty)) .empty) "params/\\1".toList "head/bias".toList =
      .ok "params/head/biasparams/".toList := by
  decide +kernel

end Verif.RegexSub
