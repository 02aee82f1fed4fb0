import Verif.Model.Evaluator
import Verif.Proofs.DataPipeline
import Mathlib.Data.List.Basic
import Mathlib.Tactic.Ring
import Mathlib.Algebra.BigOperators.Fin

/-! Helper lemmas for evaluation. -/

namespace Verif.Evaluator

open Verif

theorem sum_masked_oneHot_aux (v : ℝ) (lab : List ℝ) (p o : Nat) :
    (List.zipWith (fun x h => v * x * h) lab
      ((List.range' o lab.length).map fun c => if c = p then (1 : ℝ) else 0)).sum =
    v * (if o ≤ p then (lab[p - o]?).getD 0 else 0) := by
  induction lab generalizing o with
  | nil => simp
  | cons x l ih =>
    rw [List.length_cons, List.range'_succ, List.map_cons, List.zipWith_cons_cons, List.sum_cons, ih]
    by_cases h : o = p
    · subst h; simp
    · rw [if_neg h]
      by_cases h2 : o ≤ p
      · rw [if_pos h2, if_pos (by omega)]
        have : p - o = (p - (o + 1)) + 1 := by omega
        rw [this, List.getElem?_cons_succ]
        ring
      · rw [if_neg h2, if_neg (by omega)]
        ring

theorem sum_masked_oneHot (v : ℝ) (lab : List ℝ) (p : Nat) :
    (List.zipWith (fun x h => v * x * h) lab (oneHot p lab.length)).sum = v * (lab[p]?).getD 0 := by
  have := sum_masked_oneHot_aux v lab p 0
  rw [List.range_eq_range'.symm] at this
  simpa [oneHot] using this

theorem zipWith_map_map {α β γ δ : Type} (f : β → γ → δ) (g : α → β) (h : α → γ) (l : List α) :
    List.zipWith f (l.map g) (l.map h) = l.map fun x => f (g x) (h x) := by
  induction l with
  | nil => rfl
  | cons x l ih => simp [ih]

theorem zip_map_map {α β γ : Type} (g : α → β) (h : α → γ) (l : List α) :
    (l.map g).zip (l.map h) = l.map fun x => (g x, h x) := by
  induction l with
  | nil => rfl
  | cons x l ih => simp [ih]

theorem sum_flatten_map {α : Type} (φ : α → ℝ) (l : List (List α)) :
    (l.flatten.map φ).sum = ∑ j ∈ Finset.range l.length, (((l[j]?).getD []).map φ).sum := by
  induction l with
  | nil => simp
  | cons a l ih =>
    rw [List.flatten_cons, List.map_append, List.sum_append, ih, List.length_cons,
      Finset.sum_range_succ']
    simp [add_comm]

theorem sum_flatMap_range {α : Type} (φ : α → ℝ) (n : Nat) (h : Nat → List α) :
    (((List.range n).flatMap h).map φ).sum = ∑ p ∈ Finset.range n, ((h p).map φ).sum := by
  induction n with
  | zero => simp
  | succ n ih =>
    rw [List.range_succ, List.flatMap_append, List.map_append, List.sum_append, ih, Finset.sum_range_succ]
    simp

end Verif.Evaluator
