import Verif.Model.PyErr

/-! Destructuring successful computations. -/

namespace Verif

universe v

theorem ebind {α β : Type v} {x : Except PyErr α} {f : α → Except PyErr β} {b : β}
    (h : (x >>= f) = .ok b) : ∃ a, x = .ok a ∧ f a = .ok b := by
  cases x with
  | error e => cases h
  | ok a => exact ⟨a, rfl, h⟩

/-- The results of a successful `mapM`, position by position. -/
theorem mapM_getElem? {α β : Type} {f : α → Except PyErr β} {l : List α} {bs : List β} (h : l.mapM f = .ok bs) :
    bs.length = l.length ∧ ∀ (i : Nat) (a : α), l[i]? = some a → ∃ b, bs[i]? = some b ∧ f a = .ok b := by
  induction l generalizing bs with
  | nil =>
    have : bs = [] := by
      have h' : (Except.ok [] : Except PyErr (List β)) = .ok bs := h
      injection h' with h'
      exact h'.symm
    subst this
    simp
  | cons x l ih =>
    rw [List.mapM_cons] at h
    obtain ⟨b, hb, h⟩ := ebind h
    obtain ⟨bs', hbs, h⟩ := ebind h
    injection h with h
    subst h
    obtain ⟨h1, h2⟩ := ih hbs
    refine ⟨by simp [h1], ?_⟩
    intro i a ha
    cases i with
    | zero =>
      rw [List.getElem?_cons_zero] at ha
      injection ha with ha
      subst ha
      exact ⟨b, rfl, hb⟩
    | succ i => exact h2 i a (by simpa using ha)

end Verif
