import Verif.Proofs.ExampleStorage

/-! C63: stored examples (vmoe/projects/adversarial_attacks/lib.py:44-76). -/

namespace Verif.ExampleStorage

open Verif ExampleStorageSpec

variable {Row : Type}

/-- C63: whatever was stored and written before, and whatever the transfer period is (not zero), `write` succeeds, and the
file then contains for every name exactly the rows of all arrays stored with this name, in the order stored.  Names that
were never stored are not in the file; if nothing was stored, the file is not written. -/
theorem C63_complete (transferEvery : Int) (h : transferEvery ≠ 0) (calls : List (Call Row)) :
    ∃ s, run (create transferEvery) (calls ++ [.write]) = .ok s ∧
      ((∀ k, given k calls = []) → s.file = none) ∧
      ((∃ k, given k calls ≠ []) → ∃ f, s.file = some f ∧ (PyDict.keys f).Nodup ∧
        ∀ k, PyDict.get? f k = if given k calls = [] then none else some (given k calls).flatten) := by
  obtain ⟨s1, h1, h2, h3⟩ := run_inv calls (create transferEvery) _ (create_inv transferEvery) h
  simp only [List.nil_append] at h3
  obtain ⟨s2, h4, h5, h6, h7, h8⟩ := write_inv s1 _ h3
  refine ⟨s2, ?_, ?_, h8⟩
  · unfold run at h1 ⊢
    rw [List.foldlM_append, h1]
    change List.foldlM _ s1 _ = _
    rw [List.foldlM_cons]
    simp only [h4]
    rfl
  · intro hno
    rw [h7 hno]
    have key : ∀ (calls : List (Call Row)) (s s1 : Storage Row) (st : Key → List (List Row)), Inv s st → s.transferEvery ≠ 0 →
        (∀ k, st k ++ given k calls = []) → run s calls = .ok s1 → s1.file = s.file := by
      intro calls
      induction calls with
      | nil => intro s s1 st _ _ _ hr; cases hr; rfl
      | cons c calls ih =>
        intro s s1 st hi hte hn hr
        cases c with
        | write =>
          obtain ⟨t, g1, g2, g3, g4, _⟩ := write_inv s st hi
          unfold run at hr ih
          rw [List.foldlM_cons] at hr
          simp only [g1] at hr
          rw [ih t s1 st g2 (by rw [g3]; exact hte) hn hr]
          exact g4 fun k => (List.append_eq_nil_iff.1 (hn k)).1
        | store step arrays =>
          obtain ⟨t, g1, g2, g3, g4⟩ := store_inv s st hi hte step arrays
          unfold run at hr ih
          rw [List.foldlM_cons] at hr
          simp only [g1] at hr
          rw [ih t s1 _ g3 (by rw [g2]; exact hte) (fun k => by have := hn k; simpa [given] using this) hr]
          exact g4
    exact key calls _ s1 _ (create_inv transferEvery) h (by simpa using hno) h1

/-- C63: a transfer period of zero raises at the first `store`. -/
theorem C63_zero_period (step : Int) (arrays : PyDict Key (List Row)) (calls : List (Call Row)) :
    run (create 0) (.store step arrays :: calls) = .error .zeroDivisionError := by
  unfold run
  rw [List.foldlM_cons]
  rfl

/-- Two arrays for `x`, one for `y`, with a transfer between. -/
example : ∃ s f, run (create 2) [.store 1 [("x".toList, [1, 2]), ("y".toList, [7])], .store 2 [("x".toList, [3])],
    .store 3 [("x".toList, [4])], .write] = .ok s ∧ s.file = some f ∧ PyDict.get? f "x".toList = some [1, 2, 3, 4] ∧
    PyDict.get? f "y".toList = some [7] := by
  exact ⟨_, _, rfl, rfl, rfl, rfl⟩

end Verif.ExampleStorage
