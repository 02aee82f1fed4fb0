import Verif.Proofs.Regex

/-!
# The regex-list matcher (C30)
-/

namespace Verif.Regex

open Verif

/-- If every pattern of a non-empty list compiles on its own, the joined pattern compiles, and it is
found in a text if and only if one of the patterns is. -/
theorem C30_union (l : List (List Char)) (ts : List Re) (hne : l ≠ [])
    (h : List.Forall₂ (fun r t => compile r = .ok t) l ts) :
    ∃ t, makeMatchFn (.list l) = .ok (some t) ∧
      ∀ s : List Char, Search t s ↔ ∃ u ∈ ts, Search u s := by
  refine ⟨.seq (.group (joinTree ts)) .empty, ?_, ?_⟩
  · simp only [makeMatchFn, if_neg hne, compile_joined l ts hne h]
    rfl
  · intro s
    have hts : ts ≠ [] := by
      rintro rfl
      cases h
      exact hne rfl
    unfold Search
    constructor
    · rintro ⟨i, j, hm⟩
      obtain ⟨t, ht, hm⟩ := (m_joinTree ts hts).1 (m_seq_group.1 hm)
      exact ⟨t, ht, i, j, hm⟩
    · rintro ⟨t, ht, i, j, hm⟩
      exact ⟨i, j, m_seq_group.2 ((m_joinTree ts hts).2 ⟨t, ht, hm⟩)⟩

/-- A single string is the list with this string; nothing, an empty string and an empty list give no
function. -/
theorem C30_arguments (s : List Char) (hs : s ≠ []) :
    makeMatchFn (.str s) = makeMatchFn (.list [s]) ∧ makeMatchFn .none = .ok none ∧
      makeMatchFn (.str []) = .ok none ∧ makeMatchFn (.list []) = .ok none := by
  refine ⟨?_, rfl, rfl, rfl⟩
  simp [makeMatchFn, hs]

/-- A pattern that is not valid on its own can change the meaning of the list: `a)|(?:b` does not
compile, the list with it does. -/
theorem C30_unbalanced_counterexample :
    compile "a)|(?:b".toList = .error .valueError ∧
      ∃ t, makeMatchFn (.list ["a)|(?:b".toList]) = .ok (some t) ∧ Search t "b".toList := by
  refine ⟨by decide +kernel, .seq (.group (.alt (.seq (.group (.seq (.char 'a') .empty)) .empty)
    (.seq (.group (.seq (.char 'b') .empty)) .empty))) .empty, by decide +kernel, 0, 1, ?_⟩
  rw [m_seq_group]
  apply M.right
  rw [m_seq_group]
  exact .seq _ _ _ 1 _ (.char _ _ (by decide)) (.empty _ (by decide))

/-- Parameter names as in the configurations, with a class that contains a parenthesis. -/
example : List.Forall₂ (fun r t => compile r = .ok t)
    [".*/Moe/.*".toList, "^head$|[)|]+?".toList, "(b\\))*".toList]
    [.seq (.star .any) (.seq (.char '/') (.seq (.char 'M') (.seq (.char 'o') (.seq (.char 'e')
      (.seq (.char '/') (.seq (.star .any) .empty)))))),
     .alt (.seq .bol (.seq (.char 'h') (.seq (.char 'e') (.seq (.char 'a') (.seq (.char 'd')
      (.seq .eol .empty)))))) (.seq (.plus (.cls false [(')', ')'), ('|', '|')] [])) .empty),
     .seq (.star (.group (.seq (.char 'b') (.seq (.char ')') .empty)))) .empty] := by
  refine .cons (by decide +kernel) (.cons (by decide +kernel) (.cons (by decide +kernel) .nil))

end Verif.Regex
