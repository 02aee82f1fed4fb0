import Verif.Proofs.SafeZip
import Mathlib.Data.List.MinMax

/-!
# safe_zip and safe_map (C29)
-/

namespace Verif.SafeZip

open Verif

variable {α β : Type}

/-- Spec: the tuple of the `i`-th elements. -/
def row (its : List (List α)) (i : Nat) : List α := its.filterMap fun l => l[i]?

/-- Spec: `m` is the smallest length. -/
def IsMinLen (its : List (List α)) (m : Nat) : Prop :=
  (∀ l ∈ its, m ≤ l.length) ∧ ∃ l ∈ its, l.length = m

theorem zipRun_eq (n : Nat) (its : List (List α)) (m : Nat) (hm : IsMinLen its m) :
    zipRun n its = (((List.range (min n m)).map (row its)),
      if n ≤ m then none
      else if ∀ l ∈ its, l.length = m then some .stopIteration else some .runtimeError) := by
  classical
  induction n generalizing its m with
  | zero => simp [zipRun]
  | succ n ih =>
    obtain ⟨h1, l0, hl0, hlen⟩ := hm
    have hne : its ≠ [] := by rintro rfl; simp at hl0
    cases m with
    | zero =>
      have hnil : [] ∈ its := by rw [List.length_eq_zero_iff] at hlen; exact hlen ▸ hl0
      by_cases hall : ∀ l ∈ its, l.length = 0
      · have e := next_done (its := its) fun l hl => List.length_eq_zero_iff.1 (hall l hl)
        rcases hx : next its with ⟨r, its'⟩
        rw [hx] at e
        simp only at e
        subst e
        simp only [zipRun, hx]
        rw [if_neg (by omega), if_pos hall]
        simp
      · have e := next_bad (its := its) hnil (by
          push Not at hall
          obtain ⟨l, hl, hh⟩ := hall
          exact ⟨l, hl, by rintro rfl; simp at hh⟩)
        rcases hx : next its with ⟨r, its'⟩
        rw [hx] at e
        simp only at e
        subst e
        simp only [zipRun, hx]
        rw [if_neg (by omega), if_neg hall]
        simp
    | succ m =>
      have hpos : ∀ l ∈ its, l ≠ [] := by
        rintro l hl rfl
        have := h1 _ hl
        simp at this
      simp only [zipRun, next_all_ne hpos hne]
      rw [ih (its.map List.tail) m ?_]
      · simp only
        have hr : ∀ i, row (its.map List.tail) i = row its (i + 1) := by
          intro i
          unfold row
          rw [List.filterMap_map]
          apply List.filterMap_congr
          intro l _
          simp
        have hd : its.filterMap List.head? = row its 0 := by
          unfold row
          apply List.filterMap_congr
          intro l _
          simp [List.head?_eq_getElem?]
        have hiff : (∀ l ∈ its.map List.tail, l.length = m) ↔ ∀ l ∈ its, l.length = m + 1 := by
          simp only [List.mem_map, forall_exists_index, and_imp, forall_apply_eq_imp_iff₂,
            List.length_tail]
          constructor
          · intro h l hl; have := h l hl; have := h1 l hl; omega
          · intro h l hl; have := h l hl; omega
        rw [hd, Nat.succ_min_succ, List.range_succ_eq_map, List.map_cons, List.map_map]
        simp only [hiff, Nat.succ_eq_add_one, Nat.add_le_add_iff_right, Prod.mk.injEq,
          List.cons.injEq, true_and, and_true]
        apply List.map_congr_left
        intro i _
        exact hr i
      · refine ⟨?_, l0.tail, List.mem_map.2 ⟨l0, hl0, rfl⟩, by simp [hlen]⟩
        intro l hl
        obtain ⟨l', hl', rfl⟩ := List.mem_map.1 hl
        have := h1 l' hl'
        simp; omega

/-- A consumer calling `next` any number `n` of times gets the tuples of the `i`-th elements of all
iterables, for `i` below `n` and the smallest length; the next call then raises, StopIteration only
if all lengths are equal. -/
theorem C29_zip (n : Nat) (its : List (List α)) (m : Nat) (hm : IsMinLen its m) :
    (zipRun n its).1 = (List.range (min n m)).map (row its) ∧
      ((zipRun n its).2 = none ↔ n ≤ m) ∧
      ((zipRun n its).2 = some .stopIteration ↔ m < n ∧ ∀ l ∈ its, l.length = m) ∧
      ((zipRun n its).2 = some .runtimeError ↔ m < n ∧ ∃ l ∈ its, l.length ≠ m) := by
  classical
  rw [zipRun_eq n its m hm]
  refine ⟨rfl, ?_, ?_, ?_⟩
  · simp only
    split_ifs <;> simp_all
  · simp only
    split_ifs <;> simp_all
  · simp only
    split_ifs with h1 h2
    · simp; omega
    · simp only [reduceCtorEq, false_iff, not_and, not_exists, not_not, Option.some.injEq]
      intro _ l hl; exact h2 l hl
    · push Not at h1 h2
      simp only [true_iff]
      exact ⟨h1, h2⟩

/-- Each tuple has one element of every iterable, in the order of the iterables. -/
theorem C29_rows (its : List (List α)) (m i : Nat) (hm : IsMinLen its m) (hi : i < m) :
    (row its i).length = its.length ∧ ∀ (k : Nat) (l : List α), its[k]? = some l → (row its i)[k]? = l[i]? := by
  have h := hm.1
  clear hm
  unfold row
  induction its with
  | nil => simp
  | cons l its ih =>
    obtain ⟨a, b⟩ := ih fun l hl => h l (by simp [hl])
    have hl := h l (by simp)
    have hlt : i < l.length := by omega
    rw [List.filterMap_cons, List.getElem?_eq_getElem hlt]
    simp only
    refine ⟨by simpa using a, ?_⟩
    intro k l' hk
    cases k with
    | zero => simp only [List.getElem?_cons_zero, Option.some.injEq] at hk ⊢; subst hk; simp [hlt]
    | succ k => simpa using b k l' (by simpa using hk)

/-- `safe_map` applies the function to exactly the tuples of `safe_zip` and ends in the same way. -/
theorem C29_map (f : List α → β) (n : Nat) (its : List (List α)) :
    mapRun f n its = ((zipRun n its).1.map f, (zipRun n its).2) := by
  induction n generalizing its with
  | zero => rfl
  | succ n ih =>
    simp only [mapRun, zipRun]
    split
    · simp [ih]
    · rfl

/-- Without iterables the iteration ends at once. -/
theorem C29_no_iterables (n : Nat) :
    zipRun (n + 1) ([] : List (List α)) = ([], some .stopIteration) := rfl

example : IsMinLen [[1, 2, 3], [4, 5], [6, 7]] 2 ∧
    zipRun 5 [[1, 2, 3], [4, 5], [6, 7]] = ([[1, 4, 6], [2, 5, 7]], some .runtimeError) ∧
    zipRun 5 [[1, 2], [4, 5], [6, 7]] = ([[1, 4, 6], [2, 5, 7]], some .stopIteration) ∧
    zipRun 2 [[1, 2], [4, 5], [6, 7]] = ([[1, 4, 6], [2, 5, 7]], none) ∧
    zipRun 2 [[1], [], [6]] = ([], some .runtimeError) ∧
    mapRun List.sum 3 [[1, 2], [4, 5]] = ([5, 7], some .stopIteration) := by
  refine ⟨⟨by simp, by simp⟩, by decide, by decide, by decide, by decide, by decide⟩

end Verif.SafeZip
