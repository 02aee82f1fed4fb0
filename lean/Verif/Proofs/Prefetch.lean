import Verif.Model.Prefetch
import Verif.Proofs.ExceptLemmas
import Verif.Proofs.DataPipeline
import Mathlib.Data.List.Basic

/-! Helper lemmas for prefetching and device placement. -/

namespace Verif.Prefetch

open Verif

variable {α β : Type}

theorem enqueue_ok {f : α → Except PyErr β} {g : α → β} (n : Nat) (rest : List α) (q : List β)
    (h : ∀ x ∈ rest.take n, f x = .ok (g x)) :
    enqueue f n rest q = (none, rest.drop n, q ++ (rest.take n).map g) := by
  induction n generalizing rest q with
  | zero => simp [enqueue]
  | succ n ih =>
    cases rest with
    | nil => simp [enqueue]
    | cons x xs =>
      rw [enqueue, h x (by simp)]
      simp only
      rw [ih _ _ fun y hy => h y (by simp [hy])]
      simp

theorem enqueue_err {f : α → Except PyErr β} {g : α → β} {e : PyErr} (n : Nat) (pre : List α) (x : α)
    (post : List α) (q : List β) (hn : pre.length < n) (h : ∀ y ∈ pre, f y = .ok (g y))
    (hx : f x = .error e) :
    enqueue f n (pre ++ x :: post) q = (some e, post, q ++ pre.map g) := by
  induction pre generalizing n q with
  | nil =>
    cases n with
    | zero => simp at hn
    | succ n => simp [enqueue, hx]
  | cons y pre ih =>
    cases n with
    | zero => simp at hn
    | succ n =>
      rw [List.cons_append, enqueue, h y (by simp)]
      simp only
      rw [ih _ _ (by simpa using hn) fun z hz => h z (by simp [hz])]
      simp

theorem run_succ' (f : α → Except PyErr β) (size : Option Int) (k : Nat) (s : St α β) :
    run f size (k + 1) s = ((run f size k s).1 ++ [(next f size (run f size k s).2).1],
      (next f size (run f size k s).2).2) := by
  induction k generalizing s with
  | zero => simp [run]
  | succ k ih =>
    rw [run]
    simp only
    rw [ih]
    simp [run]

theorem run_length (f : α → Except PyErr β) (size : Option Int) (k : Nat) (s : St α β) :
    (run f size k s).1.length = k := by
  induction k generalizing s with
  | zero => rfl
  | succ k ih => rw [run]; simp [ih]

theorem pieces_ok (n q : Nat) (rows : List α) (h : rows.length = n * q) :
    (∀ x ∈ (List.range n).map fun i => (rows.drop (i * q)).take q, x.length = q) ∧
    ((List.range n).map fun i => (rows.drop (i * q)).take q).flatten = rows := by
  induction n generalizing rows with
  | zero =>
    have : rows = [] := List.length_eq_zero_iff.1 (by simpa using h)
    simp [this]
  | succ n ih =>
    have hd : (rows.drop q).length = n * q := by rw [List.length_drop, h, Nat.succ_mul]; omega
    have e : (List.range (n + 1)).map (fun i => (rows.drop (i * q)).take q) =
        rows.take q :: (List.range n).map fun i => ((rows.drop q).drop (i * q)).take q := by
      rw [List.range_succ_eq_map]
      simp only [List.map_cons, Nat.zero_mul, List.drop_zero, List.map_map]
      congr 1
      apply List.map_congr_left
      intro i _
      simp [Nat.succ_mul, Nat.add_comm]
    obtain ⟨h1, h2⟩ := ih _ hd
    rw [e]
    refine ⟨?_, by rw [List.flatten_cons, h2, List.take_append_drop]⟩
    intro x hx
    rcases List.mem_cons.1 hx with rfl | hx
    · rw [List.length_take, h, Nat.succ_mul]; omega
    · exact h1 x hx

theorem npSplit_ok {n : Nat} {rows : List α} {pieces : List (List α)} (h : npSplit n rows = .ok pieces) :
    pieces.length = n ∧ n ∣ rows.length ∧ (∀ x ∈ pieces, x.length = rows.length / n) ∧
    pieces.flatten = rows := by
  unfold npSplit at h
  split_ifs at h with h0 h1
  injection h with h
  rw [not_not] at h1
  have hd := Nat.dvd_of_mod_eq_zero h1
  obtain ⟨e1, e2⟩ := pieces_ok n (rows.length / n) rows (Nat.mul_div_cancel' hd).symm
  subst h
  exact ⟨by simp, hd, e1, e2⟩

theorem bufferOf_mem (bs : List (List α × Device)) (hnd : (bs.map Prod.snd).Nodup) (b : List α × Device)
    (hb : b ∈ bs) : bufferOf bs b.2 = b.1 := by
  induction bs with
  | nil => simp at hb
  | cons c bs ih =>
    rw [List.map_cons, List.nodup_cons] at hnd
    unfold bufferOf
    rw [List.find?_cons]
    rcases List.mem_cons.1 hb with rfl | hb
    · simp
    · have : c.2 ≠ b.2 := fun he => hnd.1 (he ▸ List.mem_map_of_mem hb)
      rw [show (c.2 == b.2) = false from by simpa using this]
      exact ih hnd.2 hb

theorem flatMap_bufferOf (bs : List (List α × Device)) (hnd : (bs.map Prod.snd).Nodup) :
    (bs.map Prod.snd).flatMap (bufferOf bs) = (bs.map Prod.fst).flatten := by
  rw [List.flatMap_def, List.map_map]
  congr 1
  apply List.map_congr_left
  intro b hb
  exact bufferOf_mem bs hnd b hb

theorem flatMap_by_process (mesh : List Device) (P : Nat) (hP : ∀ d ∈ mesh, d.process < P)
    (buf : Device → List α) :
    (mesh.flatMap buf).Perm ((List.range P).flatMap fun p => (localDevices mesh p).flatMap buf) := by
  induction P generalizing mesh with
  | zero =>
    have : mesh = [] := by
      cases mesh with
      | nil => rfl
      | cons d l => exact absurd (hP d (by simp)) (by omega)
    simp [this]
  | succ P ih =>
    have h1 : (mesh.flatMap buf).Perm
        ((mesh.filter fun d => d.process != P).flatMap buf ++ (localDevices mesh P).flatMap buf) := by
      rw [← List.flatMap_append]
      apply List.Perm.flatMap_right
      have := List.filter_append_perm (fun d : Device => d.process != P) mesh
      refine this.symm.trans (List.Perm.append_left _ ?_)
      unfold localDevices
      rw [List.filter_congr (q := fun d => d.process == P)]
      intro d _
      simp [bne]
    refine h1.trans ?_
    rw [List.range_succ, List.flatMap_append]
    refine List.Perm.append ?_ (by simp)
    refine (ih (mesh.filter fun d => d.process != P) ?_).trans ?_
    · intro d hd
      rw [List.mem_filter] at hd
      have := hP d hd.1
      have h2 : d.process ≠ P := by simpa using hd.2
      omega
    · rw [List.flatMap_def, List.flatMap_def]
      rw [List.map_congr_left (g := fun p => (localDevices mesh p).flatMap buf)]
      intro p hp
      rw [List.mem_range] at hp
      congr 1
      unfold localDevices
      rw [List.filter_filter]
      apply List.filter_congr
      intro d _
      by_cases h : d.process = p
      · simp [h]; omega
      · simp [h]

end Verif.Prefetch
