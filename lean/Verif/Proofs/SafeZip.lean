import Verif.Model.SafeZip
import Mathlib.Data.List.Basic

namespace Verif.SafeZip

open Verif

variable {α : Type}

theorem nextLoop_true (its : List (List α)) :
    (nextLoop true its).2.1 = true ∧
      ((nextLoop true its).1 = [] ↔ ∀ l ∈ its, l = []) := by
  induction its with
  | nil => simp [nextLoop]
  | cons l its ih =>
    cases l with
    | nil => simp [nextLoop, ih]
    | cons x xs => simp [nextLoop]

theorem nextLoop_all_ne {its : List (List α)} (h : ∀ l ∈ its, l ≠ []) :
    nextLoop false its = (its.filterMap List.head?, false, its.map List.tail) := by
  induction its with
  | nil => rfl
  | cons l its ih =>
    cases l with
    | nil => exact absurd rfl (h [] (by simp))
    | cons x xs =>
      have := ih fun l hl => h l (by simp [hl])
      simp [nextLoop, this]

theorem nextLoop_some_nil {its : List (List α)} (h : [] ∈ its) :
    (nextLoop false its).2.1 = true ∧
      ((nextLoop false its).1 = [] ↔ ∀ l ∈ its, l = []) := by
  induction its with
  | nil => simp at h
  | cons l its ih =>
    cases l with
    | nil => simp [nextLoop, nextLoop_true]
    | cons x xs =>
      have hm : [] ∈ its := by simpa using h
      simp [nextLoop, ih hm]

theorem next_all_ne {its : List (List α)} (h : ∀ l ∈ its, l ≠ []) (hne : its ≠ []) :
    next its = (.ok (its.filterMap List.head?), its.map List.tail) := by
  unfold next
  rw [nextLoop_all_ne h]
  have : its.filterMap List.head? ≠ [] := by
    cases its with
    | nil => exact absurd rfl hne
    | cons l its =>
      cases l with
      | nil => exact absurd rfl (h [] (by simp))
      | cons x xs => simp
  simp [this]

theorem next_done {its : List (List α)} (h : ∀ l ∈ its, l = []) :
    (next its).1 = .error .stopIteration := by
  cases its with
  | nil => rfl
  | cons l its =>
    have h0 := h l (by simp)
    have hm : [] ∈ l :: its := by simp [h0]
    obtain ⟨h1, h2⟩ := nextLoop_some_nil hm
    have h2' := h2.2 h
    unfold next
    simp [h2']

theorem next_bad {its : List (List α)} (h : [] ∈ its) (h' : ∃ l ∈ its, l ≠ []) :
    (next its).1 = .error .runtimeError := by
  obtain ⟨h1, h2⟩ := nextLoop_some_nil h
  have h3 : (nextLoop false its).1 ≠ [] := by
    intro h0
    obtain ⟨l, hl, hne⟩ := h'
    exact hne (h2.1 h0 l hl)
  unfold next
  simp [h1, h3]

end Verif.SafeZip
