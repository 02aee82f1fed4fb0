import Verif.Model.Multihost
import Verif.Proofs.ExceptLemmas
import Mathlib.Data.List.Basic
import Mathlib.Algebra.BigOperators.Group.List.Basic
import Mathlib.Algebra.Group.Nat.Even
import Mathlib.Data.UInt

/-!
# Barrier across hosts (C32)
-/

namespace Verif.Multihost

open Verif

theorem foldl_add (l : List UInt32) (a : UInt32) :
    l.foldl (· + ·) a = a + l.foldl (· + ·) 0 := by
  induction l generalizing a with
  | nil => simp
  | cons x l ih => rw [List.foldl_cons, List.foldl_cons, ih, ih (0 + x)]; simp [UInt32.add_assoc]

theorem psum_cons (x : List UInt32) (xs : List (List UInt32)) :
    psum (x :: xs) = x.foldl (· + ·) 0 + psum xs := by
  unfold psum
  rw [List.flatten_cons, List.foldl_append, foldl_add]

theorem sum_zeros (n : Nat) : (List.replicate n (0 : UInt32)).foldl (· + ·) 0 = 0 := by
  induction n with
  | zero => rfl
  | succ n ih => rw [List.replicate_succ, List.foldl_cons]; simpa using ih

theorem sum_set (n : Nat) (h : UInt32) (hn : n ≠ 0) :
    ((List.replicate n (0 : UInt32)).set 0 h).foldl (· + ·) 0 = h := by
  cases n with
  | zero => exact absurd rfl hn
  | succ n =>
    rw [List.replicate_succ, List.set_cons_zero, List.foldl_cons, foldl_add, sum_zeros]
    simp

theorem localValues_mapM (calls : List Call) (k main : Nat) (hm : ∀ c ∈ calls, c.main = main)
    (hd : ∀ c ∈ calls, c.devices ≠ 0) :
    ∃ xs, ((calls.zipIdx k).mapM fun p => localValues p.2 p.1) = .ok xs ∧
      psum xs = if h : k ≤ main ∧ main < k + calls.length then crc32 (calls[main - k]'(by omega)).name else 0 := by
  induction calls generalizing k with
  | nil => exact ⟨[], rfl, by rw [dif_neg (by simp)]; rfl⟩
  | cons c calls ih =>
    obtain ⟨xs, hxs, hs⟩ := ih (k + 1) (fun c hc => hm c (by simp [hc])) fun c hc => hd c (by simp [hc])
    have hc := hd c (by simp)
    have hmc := hm c (by simp)
    rw [List.zipIdx_cons, List.mapM_cons]
    simp only [hxs]
    by_cases hk : k = main
    · refine ⟨(List.replicate c.devices (0 : UInt32)).set 0 (crc32 c.name) :: xs, ?_, ?_⟩
      · simp only [localValues, hmc, hk, if_true, if_neg hc]; rfl
      · rw [psum_cons, sum_set _ _ hc, hs, dif_neg (by omega), dif_pos (by simp; omega)]
        subst hk
        simp
    · refine ⟨List.replicate c.devices (0 : UInt32) :: xs, ?_, ?_⟩
      · simp only [localValues, hmc, if_neg hk]; rfl
      · rw [psum_cons, sum_zeros, hs]
        by_cases hr : k + 1 ≤ main ∧ main < k + 1 + calls.length
        · rw [dif_pos hr, dif_pos (by simp; omega)]
          have : main - k = (main - (k + 1)) + 1 := by omega
          simp [this]
        · rw [dif_neg hr, dif_neg (by simp; omega)]
          rfl

/-- Each process passes if and only if the hash of its name is the hash of the name on the main
process, and raises a ValueError otherwise; for every number of processes and of devices (at least one
per process) — the sum of the 32-bit values never overflows because only one is not zero. -/
theorem C32_passes_iff (calls : List Call) (main : Nat) (hm : ∀ c ∈ calls, c.main = main)
    (hd : ∀ c ∈ calls, c.devices ≠ 0) (hlt : main < calls.length) :
    ∃ out, syncDevices calls = .ok out ∧ out.length = calls.length ∧
      ∀ (p : Nat) (hp : p < calls.length),
        (out[p]? = some (.ok ()) ↔ crc32 (calls[p]).name = crc32 (calls[main]).name) ∧
        (out[p]? = some (.error .valueError) ↔ crc32 (calls[p]).name ≠ crc32 (calls[main]).name) := by
  obtain ⟨xs, hxs, hs⟩ := localValues_mapM calls 0 main hm hd
  rw [dif_pos (by omega)] at hs
  refine ⟨_, by unfold syncDevices; rw [hxs]; rfl, by simp, ?_⟩
  intro p hp
  have hdp := hd _ (List.getElem_mem hp)
  rw [List.getElem?_map, List.getElem?_eq_getElem hp, hs]
  simp only [Nat.sub_zero, Option.map_some, Option.some.injEq]
  have : ((List.replicate (calls[p]).devices (crc32 (calls[main]).name)).all
      fun v => decide (v = crc32 (calls[p]).name)) = true ↔
      crc32 (calls[p]).name = crc32 (calls[main]).name := by
    rw [List.all_eq_true]
    simp only [List.mem_replicate, and_imp, decide_eq_true_eq, forall_eq_apply_imp_iff]
    constructor
    · intro h; exact (h hdp).symm
    · intro h _; exact h.symm
  by_cases he : crc32 (calls[p]).name = crc32 (calls[main]).name
  · rw [if_pos (this.2 he)]; simp [he]
  · rw [if_neg fun hh => he (this.1 hh)]; simp [he]

/-- With one name everywhere the barrier passes everywhere. -/
theorem C32_same_name (calls : List Call) (main : Nat) (name : List UInt8) (hm : ∀ c ∈ calls, c.main = main)
    (hn : ∀ c ∈ calls, c.name = name) (hd : ∀ c ∈ calls, c.devices ≠ 0) (hlt : main < calls.length) :
    syncDevices calls = .ok (calls.map fun _ => .ok ()) := by
  obtain ⟨out, h1, h2, h3⟩ := C32_passes_iff calls main hm hd hlt
  rw [h1]
  congr 1
  apply List.ext_getElem?
  intro p
  by_cases hp : p < calls.length
  · rw [(h3 p hp).1.2 (by rw [hn _ (List.getElem_mem hp), hn _ (List.getElem_mem hlt)])]
    simp [hp]
  · rw [List.getElem?_eq_none (by omega), List.getElem?_eq_none (by simp; omega)]

/-- Different names with one CRC-32 are not told apart. -/
theorem C32_collision_counterexample :
    let a : List UInt8 := [112, 108, 117, 109, 108, 101, 115, 115] -- plumless
    let b : List UInt8 := [98, 117, 99, 107, 101, 114, 111, 111] -- buckeroo
    a ≠ b ∧ syncDevices [⟨1, a, 0⟩, ⟨1, b, 0⟩] = .ok [.ok (), .ok ()] := by
  decide +kernel

example : syncDevices [⟨2, [97], 1⟩, ⟨4, [97], 1⟩, ⟨1, [98], 1⟩] =
    .ok [.ok (), .ok (), .error .valueError] := by decide +kernel

end Verif.Multihost
