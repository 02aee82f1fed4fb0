import Verif.Model.NdArray
import Mathlib.Algebra.Order.Group.Nat
import Mathlib.Algebra.BigOperators.Group.List.Basic

/-! Helper lemmas about row-major indices, reshape and transpose. -/

namespace Verif.NdArray

variable {α : Type*}

theorem flatIndex_lt {shape idx : List Nat} (h : Valid shape idx) : flatIndex shape idx < shape.prod := by
  induction h with
  | nil => simp [flatIndex]
  | @cons i d is ds hid _ ih =>
    simp only [flatIndex, List.prod_cons]
    calc i * ds.prod + flatIndex ds is < i * ds.prod + ds.prod := by omega
      _ = (i + 1) * ds.prod := by rw [Nat.add_mul, Nat.one_mul]
      _ ≤ d * ds.prod := Nat.mul_le_mul_right _ hid

theorem unflat_flat {shape idx : List Nat} (h : Valid shape idx) :
    unflatIndex shape (flatIndex shape idx) = idx := by
  induction h with
  | nil => simp [unflatIndex]
  | @cons i d is ds hid h ih =>
    have hlt := flatIndex_lt h
    have hpos : 0 < ds.prod := by omega
    simp only [flatIndex, unflatIndex]
    rw [Nat.mul_comm i, Nat.mul_add_div hpos, Nat.div_eq_of_lt hlt, Nat.mul_add_mod,
      Nat.mod_eq_of_lt hlt, ih, Nat.add_zero]

theorem flat_unflat {shape : List Nat} {n : Nat} (h : n < shape.prod) :
    flatIndex shape (unflatIndex shape n) = n := by
  induction shape generalizing n with
  | nil => simp at h; simp [flatIndex, h]
  | cons d ds ih =>
    simp only [List.prod_cons] at h
    have hpos : 0 < ds.prod := by
      rcases Nat.eq_zero_or_pos ds.prod with h0 | h0
      · rw [h0] at h; simp at h
      · exact h0
    simp only [unflatIndex, flatIndex]
    rw [ih (Nat.mod_lt _ hpos), Nat.mul_comm, Nat.div_add_mod]

theorem valid_unflat {shape : List Nat} {n : Nat} (h : n < shape.prod) :
    Valid shape (unflatIndex shape n) := by
  induction shape generalizing n with
  | nil => exact List.Forall₂.nil
  | cons d ds ih =>
    simp only [List.prod_cons] at h
    have hpos : 0 < ds.prod := by
      rcases Nat.eq_zero_or_pos ds.prod with h0 | h0
      · rw [h0] at h; simp at h
      · exact h0
    refine List.Forall₂.cons ?_ (ih (Nat.mod_lt _ hpos))
    exact (Nat.div_lt_iff_lt_mul hpos).2 h

theorem flatIndex_inj {shape idx idx' : List Nat} (h : Valid shape idx) (h' : Valid shape idx')
    (he : flatIndex shape idx = flatIndex shape idx') : idx = idx' := by
  rw [← unflat_flat h, he, unflat_flat h']

/-- Value of a reshaped array at an index, found by matching flat positions. -/
theorem get_reshape {x y : NdArray α} {dims : List (Option Nat)} (h : x.reshape dims = .ok y)
    {idx idx' : List Nat} (hv : Valid x.shape idx')
    (he : flatIndex y.shape idx = flatIndex x.shape idx') : y.get idx = x.get idx' := by
  unfold reshape at h
  cases hr : resolveShape x.shape.prod dims with
  | error e => rw [hr] at h; cases h
  | ok shape =>
    rw [hr] at h
    cases h
    simp only at he ⊢
    rw [he, unflat_flat hv]

theorem valid_three {a b c i j k : Nat} : Valid [a, b, c] [i, j, k] ↔ i < a ∧ j < b ∧ k < c := by
  simp [Valid]

theorem valid_four {a b c d i j k l : Nat} :
    Valid [a, b, c, d] [i, j, k, l] ↔ i < a ∧ j < b ∧ k < c ∧ l < d := by
  simp [Valid]

theorem Valid.length {shape idx : List Nat} (h : Valid shape idx) : idx.length = shape.length :=
  List.Forall₂.length_eq h

theorem valid_three_elim {a b c : Nat} {idx : List Nat} (h : Valid [a, b, c] idx) :
    ∃ i j k, idx = [i, j, k] ∧ i < a ∧ j < b ∧ k < c := by
  have hl := h.length
  match idx, hl with
  | [i, j, k], _ => exact ⟨i, j, k, rfl, valid_three.1 h⟩

end Verif.NdArray
