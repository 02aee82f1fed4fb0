import Verif.Model.Trainer
import Verif.Spec.Batches
import Verif.Proofs.ExceptLemmas
import Mathlib.Data.List.Perm.Basic
import Mathlib.Algebra.BigOperators.Group.List.Basic
import Mathlib.Algebra.Order.BigOperators.Group.List
import Mathlib.Tactic.Ring
import Mathlib.Tactic.Module

/-! Helper lemmas about microsteps. -/

namespace Verif.Trainer

open Verif Verif.BatchSpec

theorem zipIdx_filter_eq {α : Type} (a : List α) : ∀ (k i : Nat), k ≤ i →
    ((a.zipIdx k).filter fun p => decide (p.2 = i)).map Prod.fst = (a[i - k]?).toList := by
  induction a with
  | nil => intro k i _; simp
  | cons x a ih =>
    intro k i hk
    rw [List.zipIdx_cons]
    rcases Nat.lt_or_ge k i with h | h
    · have h1 : i - k = (i - (k + 1)) + 1 := by omega
      rw [List.filter_cons_of_neg (by simpa using by omega), ih (k + 1) i h, h1, List.getElem?_cons_succ]
    · obtain rfl : k = i := by omega
      have h0 : ((a.zipIdx (k + 1)).filter fun p => decide (p.2 = k)) = [] := by
        rw [List.filter_eq_nil_iff]
        rintro ⟨y, j⟩ hp
        have := List.mem_zipIdx hp
        simp; omega
      simp [h0]

theorem zipIdx_filter_mod {α : Type} (a : List α) (m i k : Nat) :
    ((a.zipIdx (k * m)).filter fun p => decide (p.2 % m = i)).map Prod.fst = every m i a := by
  unfold every
  have : a.zipIdx (k * m) = a.zipIdx.map fun p => (p.1, p.2 + k * m) := by
    rw [List.zipIdx_eq_map_add]
    apply List.map_congr_left
    rintro ⟨x, j⟩ _
    simp [Nat.add_comm]
  rw [this, List.filter_map, List.map_map]
  have h2 : (fun p : α × Nat => decide (p.2 % m = i)) ∘ (fun p : α × Nat => (p.1, p.2 + k * m))
      = fun p => decide (p.2 % m = i) := by
    funext p; simp
  rw [h2]
  rfl

theorem every_append {α : Type} (m i : Nat) (a b : List α) (h : m ∣ a.length) :
    every m i (a ++ b) = every m i a ++ every m i b := by
  obtain ⟨k, hk⟩ := h
  have hb := zipIdx_filter_mod b m i k
  conv_lhs => unfold every
  rw [List.zipIdx_append, List.filter_append, List.map_append, Nat.zero_add, hk, Nat.mul_comm, hb]
  rfl

theorem every_short {α : Type} (m i : Nat) (hi : i < m) (a : List α) (h : a.length = m) :
    every m i a = [a[i]'(h ▸ hi)] := by
  have := zipIdx_filter_eq a 0 i (Nat.zero_le _)
  rw [Nat.sub_zero, List.getElem?_eq_getElem (h ▸ hi)] at this
  rw [Option.toList_some] at this
  rw [← this]
  unfold every
  congr 1
  apply List.filter_congr
  rintro ⟨x, j⟩ hp
  have := List.mem_zipIdx hp
  rw [Nat.mod_eq_of_lt (by simpa [h] using this.2.1)]

theorem dynamicIndex_rows {α : Type} (m : Nat) (i : Nat) (hi : i < m) : ∀ (n : Nat) (xs : List α), xs.length = n * m →
    dynamicIndex ((List.range n).map fun r => (xs.drop (r * m)).take m) i = every m i xs := by
  intro n
  induction n with
  | zero =>
    intro xs h
    have : xs = [] := List.length_eq_zero_iff.1 (by simpa using h)
    subst this
    rfl
  | succ n ih =>
    intro xs h
    have hx : xs = xs.take m ++ xs.drop m := (List.take_append_drop m xs).symm
    have hl : (xs.take m).length = m := by
      rw [List.length_take, h]; exact Nat.min_eq_left (Nat.le_mul_of_pos_left _ (Nat.succ_pos n))
    have hd : (xs.drop m).length = n * m := by
      rw [List.length_drop, h, Nat.succ_mul, Nat.add_sub_cancel]
    conv_rhs => rw [hx]
    rw [every_append m i _ _ (by rw [hl]), every_short m i hi _ hl, ← ih _ hd]
    unfold dynamicIndex
    rw [List.range_succ_eq_map, List.map_cons, List.map_map, Nat.zero_mul, List.drop_zero,
      List.filterMap_cons]
    have hmin : min i ((xs.take m).length - 1) = i := by rw [hl]; omega
    rw [hmin, List.getElem?_eq_getElem (by rw [hl]; exact hi)]
    simp only [List.singleton_append]
    congr 2
    apply List.map_congr_left
    intro r _
    simp only [Function.comp, List.drop_drop]
    congr 2
    rw [Nat.succ_mul, Nat.add_comm]

theorem reshapeRows_ok {α : Type} {m : Nat} (hm : 0 < m) {xs : List α} (h : m ∣ xs.length) :
    reshapeRows m xs = .ok ((List.range (xs.length / m)).map fun r => (xs.drop (r * m)).take m) := by
  unfold reshapeRows
  rw [if_neg]
  rintro (h' | h')
  · omega
  · exact h' (Nat.mod_eq_zero_of_dvd h)

theorem dynamicIndex_reshape {α : Type} {m : Nat} {xs : List α} (h : m ∣ xs.length) {i : Nat}
    (hi : i < m) :
    dynamicIndex ((List.range (xs.length / m)).map fun r => (xs.drop (r * m)).take m) i = every m i xs :=
  dynamicIndex_rows m i hi _ _ (Nat.div_mul_cancel h).symm

theorem sum_ite_range (m c v : Nat) :
    ((List.range m).map fun i => if i = c then v else 0).sum = if c < m then v else 0 := by
  induction m with
  | zero => simp
  | succ m ih =>
    rw [List.range_succ, List.map_append, List.sum_append, ih]
    by_cases h : c < m
    · have : ¬ m = c := by omega
      simp [h, this, Nat.lt_succ_of_lt h]
    · by_cases h' : m = c
      · subst h'; simp
      · have : ¬ c < m + 1 := by omega
        simp [h, h', this]

theorem every_perm {α : Type} (m : Nat) (hm : 0 < m) (xs : List α) :
    ((List.range m).flatMap fun i => every m i xs).Perm xs := by
  classical
  have key : ∀ L : List (α × Nat), ((List.range m).flatMap fun i => L.filter fun p => decide (p.2 % m = i)).Perm L := by
    intro L
    rw [List.perm_iff_count]
    intro a
    rw [List.count_flatMap]
    have : (List.map (List.count a ∘ fun i => L.filter fun p => decide (p.2 % m = i)) (List.range m))
        = (List.range m).map fun i => if i = a.2 % m then L.count a else 0 := by
      apply List.map_congr_left
      intro i _
      simp only [Function.comp]
      by_cases h : a.2 % m = i
      · rw [List.count_filter (by simpa using h), if_pos h.symm]
      · rw [if_neg (fun h' => h h'.symm), List.count_eq_zero]
        intro hmem
        exact h (by simpa using (List.mem_filter.1 hmem).2)
    rw [this]
    have hlt : a.2 % m < m := Nat.mod_lt _ hm
    rw [sum_ite_range, if_pos hlt]
  have := (key xs.zipIdx).map Prod.fst
  rw [List.map_flatMap] at this
  rw [List.zipIdx_map_fst] at this
  exact this

theorem every_length {α : Type} (m i : Nat) (hi : i < m) : ∀ (n : Nat) (xs : List α), xs.length = n * m →
    (every m i xs).length = n := by
  intro n
  induction n with
  | zero =>
    intro xs h
    have : xs = [] := List.length_eq_zero_iff.1 (by simpa using h)
    subst this; rfl
  | succ n ih =>
    intro xs h
    have hl : (xs.take m).length = m := by
      rw [List.length_take, h]; exact Nat.min_eq_left (Nat.le_mul_of_pos_left _ (Nat.succ_pos n))
    have hd : (xs.drop m).length = n * m := by
      rw [List.length_drop, h, Nat.succ_mul, Nat.add_sub_cancel]
    rw [← List.take_append_drop m xs, every_append m i _ _ (by rw [hl]), every_short m i hi _ hl,
      List.length_append, ih _ hd]
    simp [Nat.add_comm]

theorem every_map {α β : Type} (m i : Nat) (f : α → β) (xs : List α) :
    every m i (xs.map f) = (every m i xs).map f := by
  unfold every
  rw [List.zipIdx_map, List.filter_map, List.map_map, List.map_map]
  rfl

theorem foldlM_accum {P I L R G M : Type} [AddCommGroup G] [Module ℝ G] [AddCommGroup M] [Module ℝ M]
    (fn : GradFn P I L R G M) (params : P) (imgs : List (List I)) (lbls : List (List L))
    (gs : Nat → G) (rs : Nat → R) (Ms : Nat → M) : ∀ (n k : Nat) (g : G) (M' : M),
    (∀ i, k ≤ i → i < k + n → fn params (dynamicIndex imgs i) (dynamicIndex lbls i) (rs i) = .ok (gs i, rs (i + 1), Ms i)) →
    (List.range' k n).foldlM (accumFn fn params imgs lbls) (g, rs k, M')
      = .ok (g + ((List.range' k n).map gs).sum, rs (k + n), M' + ((List.range' k n).map Ms).sum) := by
  intro n
  induction n with
  | zero => intro k g M' _; simp; rfl
  | succ n ih =>
    intro k g M' h
    rw [List.range'_succ, List.foldlM_cons]
    have h1 : accumFn fn params imgs lbls (g, rs k, M') k = .ok (g + gs k, rs (k + 1), M' + Ms k) := by
      unfold accumFn
      rw [h k (le_refl _) (by omega)]
      rfl
    rw [h1]
    change (List.range' (k + 1) n).foldlM _ _ = _
    rw [ih (k + 1) _ _ (fun i h1 h2 => h i (by omega) (by omega))]
    simp only [List.map_cons, List.sum_cons]
    simp only [add_assoc, Nat.add_comm 1 n]

end Verif.Trainer
