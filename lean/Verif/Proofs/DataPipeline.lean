import Verif.Model.DataPipeline
import Verif.Proofs.ExceptLemmas
import Mathlib.Data.List.Basic
import Mathlib.Tactic.Ring
import Mathlib.Tactic.Linarith

/-! Helper lemmas for the input pipeline. -/

namespace Verif.DataPipeline

open Verif

theorem foldl_max_ge (l : List Nat) (a : Nat) : a ≤ l.foldl max a := by
  induction l generalizing a with
  | nil => simp
  | cons x l ih => exact le_trans (le_max_left a x) (ih (max a x))

theorem foldl_max_mem_le (l : List Nat) (a x : Nat) (hx : x ∈ l) : x ≤ l.foldl max a := by
  induction l generalizing a with
  | nil => simp at hx
  | cons y l ih =>
    rcases List.mem_cons.1 hx with rfl | h
    · exact le_trans (le_max_right a x) (foldl_max_ge l _)
    · exact ih _ h

theorem foldl_max_le (l : List Nat) (a m : Nat) (ha : a ≤ m) (h : ∀ x ∈ l, x ≤ m) : l.foldl max a ≤ m := by
  induction l generalizing a with
  | nil => simpa
  | cons y l ih =>
    exact ih _ (max_le ha (h y (by simp))) fun x hx => h x (by simp [hx])

theorem le_listMax {l : List Nat} {x : Nat} (h : x ∈ l) : x ≤ listMax l := foldl_max_mem_le l 0 x h

theorem listMax_le {l : List Nat} {m : Nat} (h : ∀ x ∈ l, x ≤ m) : listMax l ≤ m :=
  foldl_max_le l 0 m (Nat.zero_le _) h

/-- Number of batches that cover `m` examples: `⌈m / b⌉`. -/
def ceilDiv (m b : Nat) : Nat := (m + b - 1) / b

theorem fmod_neg (m b : Nat) (hb : 0 < b) : Int.fmod (-(m : Int)) b = (ceilDiv m b * b : Nat) - (m : Int) := by
  have h1 : m ≤ ceilDiv m b * b ∧ ceilDiv m b * b < m + b := by
    have h2 := Nat.div_add_mod (m + b - 1) b
    have h3 := Nat.mod_lt (m + b - 1) hb
    unfold ceilDiv
    rw [Nat.mul_comm]
    omega
  have : (-(m : Int)) = (((ceilDiv m b * b : Nat) : Int) - m) + b * (-(ceilDiv m b : Int)) := by
    push_cast; ring
  rw [this, Int.add_mul_fmod_self_left]
  apply Int.fmod_eq_of_lt <;> omega

theorem numFake_ok {i b : Nat} {nums : List Nat} {n : Nat} (hn : nums[i]? = some n) (hb : 0 < b) :
    numFake i b nums = .ok (((ceilDiv (listMax nums) b * b : Nat) : Int) - n) := by
  unfold numFake
  rw [hn]
  simp only [if_neg (show b ≠ 0 by omega)]
  rw [fmod_neg _ _ hb]
  congr 1
  omega

theorem batch_mul {α : Type} {b k : Nat} (hb : 0 < b) {l : List α} (hl : l.length = k * b) :
    (batch b l).length = k ∧ (∀ x ∈ batch b l, x.length = b) ∧ (batch b l).flatten = l := by
  induction k generalizing l with
  | zero =>
    have : l = [] := List.length_eq_zero_iff.1 (by simpa using hl)
    subst this
    simp [batch]
  | succ k ih =>
    have hd : (l.drop b).length = k * b := by rw [List.length_drop, hl, Nat.succ_mul]; omega
    have e : batch b l = l.take b :: batch b (l.drop b) := by
      unfold batch
      rw [hl, hd, Nat.mul_div_cancel _ hb, Nat.mul_div_cancel _ hb, List.range_succ_eq_map]
      simp only [List.map_cons, Nat.zero_mul, List.drop_zero, List.map_map]
      congr 1
      apply List.map_congr_left
      intro i _
      simp [Nat.succ_mul, Nat.add_comm]
    obtain ⟨h1, h2, h3⟩ := ih hd
    rw [e]
    refine ⟨by simp [h1], ?_, by rw [List.flatten_cons, h3, List.take_append_drop]⟩
    intro x hx
    rcases List.mem_cons.1 hx with rfl | hx
    · rw [List.length_take, hl, Nat.succ_mul]; omega
    · exact h2 x hx

theorem mapM_ok_eq {α β : Type} {f : α → Except PyErr β} {g : α → β} {l : List α}
    (h : ∀ x ∈ l, f x = .ok (g x)) : l.mapM f = .ok (l.map g) := by
  induction l with
  | nil => rfl
  | cons x l ih =>
    rw [List.mapM_cons, h x (by simp), ih fun y hy => h y (by simp [hy])]
    rfl

end Verif.DataPipeline

namespace Verif.DataPipeline

theorem get?_fakeElem (spec : PyDict String TensorSpec) (k : String) :
    PyDict.get? (fakeElem spec) k = (PyDict.get? spec k).map TensorSpec.zeros := by
  unfold fakeElem
  induction spec with
  | nil => rfl
  | cons kv l ih =>
    obtain ⟨k', v⟩ := kv
    simp only [List.map_cons, PyDict.get?]
    by_cases h : k' = k
    · simp [h]
    · simpa [if_neg h] using ih

theorem batch_length {α : Type} {b : Nat} {l : List α} {x : List α} (hx : x ∈ batch b l) : x.length = b := by
  unfold batch at hx
  rw [List.mem_map] at hx
  obtain ⟨i, hi, rfl⟩ := hx
  rw [List.mem_range] at hi
  have h1 : (i + 1) * b ≤ l.length := le_trans (Nat.mul_le_mul_right b hi) (Nat.div_mul_le_self _ _)
  rw [List.length_take, List.length_drop]
  rw [Nat.succ_mul] at h1
  omega

end Verif.DataPipeline
