import Verif.Proofs.Prefetch
import Mathlib.Tactic.Choose

/-!
# Prefetching (C35) and placing batches on devices (C36)
-/

namespace Verif.Prefetch

open Verif

variable {α β : Type}

/-- Spec: what the `i`-th `next()` of an iterator over `ys` gives. -/
def nth (ys : List β) (i : Nat) : Except PyErr β :=
  match ys[i]? with
  | some y => .ok y
  | none => .error .stopIteration

/-- The invariant of the prefetching generator after `k ≥ 1` calls. -/
theorem run_prefetch (f : α → Except PyErr β) (g : α → β) (xs : List α)
    (n : Nat) (hn : 0 < n) (k : Nat) (h : ∀ x ∈ xs.take (n + k), f x = .ok (g x)) :
    run f (some n) (k + 1) (start xs) = ((List.range (k + 1)).map (nth (xs.map g)),
      ⟨xs.drop (n + k), ((xs.take (n + k)).drop (k + 1)).map g,
        if k < xs.length then .suspended else .finished⟩) := by
  induction k with
  | zero =>
    rw [run]
    simp only [run, start, next, Option.getD_some]
    rw [if_pos (by omega)]
    simp only [if_true, Int.toNat_natCast, fillAndYield]
    rw [enqueue_ok n xs [] fun x hx => h x hx]
    cases xs with
    | nil => simp [nth]
    | cons x xs =>
      obtain ⟨m, rfl⟩ : ∃ m, n = m + 1 := ⟨n - 1, by omega⟩
      simp [nth]
  | succ k ih =>
    have hsub : ∀ x ∈ xs.take (n + k), x ∈ xs.take (n + (k + 1)) := fun x hx => by
      rw [← Nat.add_assoc, List.take_add]
      exact List.mem_append_left _ hx
    have hsub1 : ∀ x ∈ (xs.drop (n + k)).take 1, x ∈ xs.take (n + (k + 1)) := fun x hx => by
      rw [← Nat.add_assoc, List.take_add]
      exact List.mem_append_right _ hx
    rw [run_succ', ih fun x hx => h x (hsub x hx)]
    simp only
    by_cases hk : k < xs.length
    · rw [if_pos hk]
      have hnext : next f (some (n : Int)) ⟨xs.drop (n + k), ((xs.take (n + k)).drop (k + 1)).map g, .suspended⟩ =
          (nth (xs.map g) (k + 1), ⟨xs.drop (n + (k + 1)), ((xs.take (n + (k + 1))).drop (k + 1 + 1)).map g,
            if k + 1 < xs.length then .suspended else .finished⟩) := by
        simp only [next, Option.getD_some]
        rw [if_pos (by omega)]
        simp only [fillAndYield, reduceCtorEq, if_false]
        rw [enqueue_ok 1 _ _ fun x hx => h x (hsub1 x hx)]
        have e : ((xs.take (n + k)).drop (k + 1)).map g ++ ((xs.drop (n + k)).take 1).map g =
            ((xs.take (n + (k + 1))).drop (k + 1)).map g := by
          rw [← List.map_append]
          congr 1
          rw [← Nat.add_assoc, List.take_add (i := n + k) (j := 1), List.drop_append]
          congr 1
          by_cases hl : n + k ≤ xs.length
          · rw [List.length_take, min_eq_left hl]
            have : k + 1 - (n + k) = 0 := by omega
            rw [this]; simp
          · rw [List.drop_eq_nil_of_le (by omega)]; simp
        rw [e, List.drop_drop, Nat.add_assoc]
        by_cases hk1 : k + 1 < xs.length
        · have hl : (xs.take (n + (k + 1))).drop (k + 1) =
              xs[k + 1] :: (xs.take (n + (k + 1))).drop (k + 1 + 1) := by
            rw [List.drop_eq_getElem_cons (by rw [List.length_take]; omega)]
            simp
          rw [hl]
          simp [nth, hk1]
        · have hl : (xs.take (n + (k + 1))).drop (k + 1) = [] :=
            List.drop_eq_nil_of_le (by rw [List.length_take]; omega)
          have hl2 : (xs.take (n + (k + 1))).drop (k + 1 + 1) = [] :=
            List.drop_eq_nil_of_le (by rw [List.length_take]; omega)
          rw [hl, hl2]
          simp [nth, hk1]
      rw [hnext, List.range_succ (n := k + 1), List.map_append]
      rfl
    · rw [if_neg hk, if_neg (by omega)]
      rw [List.range_succ (n := k + 1), List.map_append]
      have e1 : xs.drop (n + k) = [] := List.drop_eq_nil_of_le (by omega)
      have e2 : xs.drop (n + (k + 1)) = [] := List.drop_eq_nil_of_le (by omega)
      have e3 : (xs.take (n + k)).drop (k + 1) = [] := List.drop_eq_nil_of_le (by rw [List.length_take]; omega)
      have e4 : (xs.take (n + (k + 1))).drop (k + 1 + 1) = [] :=
        List.drop_eq_nil_of_le (by rw [List.length_take]; omega)
      rw [e1, e2, e3, e4]
      have : nth (xs.map g) (k + 1) = .error .stopIteration := by
        simp only [nth]
        rw [List.getElem?_eq_none (by rw [List.length_map]; omega)]
      simp [next, this]

/-- The invariant without prefetching. -/
theorem run_plain (f : α → Except PyErr β) (g : α → β) (xs : List α) (h : ∀ x ∈ xs, f x = .ok (g x))
    (size : Option Int) (hs : size.getD 0 ≤ 0) (k : Nat) :
    ∃ ph, run f size k (start xs) = ((List.range k).map (nth (xs.map g)), ⟨xs.drop k, [], ph⟩) ∧
      (k ≤ xs.length → ph ≠ .finished) := by
  induction k with
  | zero => exact ⟨.fresh, rfl, by simp⟩
  | succ k ih =>
    obtain ⟨ph, e, hph⟩ := ih
    rw [run_succ', e]
    simp only
    have hneg : ¬ 0 < size.getD 0 := by omega
    by_cases hk : k < xs.length
    · refine ⟨.suspended, ?_, by simp⟩
      have hd : xs.drop k = xs[k] :: xs.drop (k + 1) := List.drop_eq_getElem_cons hk
      have hn : next f size ⟨xs.drop k, [], ph⟩ = (.ok (g xs[k]), (⟨xs.drop (k + 1), [], .suspended⟩ : St α β)) := by
        cases ph with
        | finished => exact absurd rfl (hph (by omega))
        | fresh => simp only [next]; rw [if_neg hneg, hd]; simp [h xs[k] (by simp)]
        | suspended => simp only [next]; rw [if_neg hneg, hd]; simp [h xs[k] (by simp)]
      rw [hn, List.range_succ, List.map_append]
      simp [nth, hk]
    · refine ⟨.finished, ?_, by omega⟩
      have hd : xs.drop k = [] := List.drop_eq_nil_of_le (by omega)
      have hd1 : xs.drop (k + 1) = [] := List.drop_eq_nil_of_le (by omega)
      have hn : next f size ⟨xs.drop k, [], ph⟩ = (.error .stopIteration, (⟨[], [], .finished⟩ : St α β)) := by
        cases ph with
        | finished => simp [next, hd]
        | fresh => simp only [next]; rw [if_neg hneg, hd]
        | suspended => simp only [next]; rw [if_neg hneg, hd]
      rw [hn, hd1, List.range_succ, List.map_append]
      have : nth (xs.map g) k = .error .stopIteration := by
        simp only [nth]
        rw [List.getElem?_eq_none (by rw [List.length_map]; omega)]
      simp [this]

/-- For every buffer size, including none, the first `k` calls give what the iterator itself gives, transferred. -/
theorem C35_same_elements (f : α → Except PyErr β) (g : α → β) (xs : List α) (h : ∀ x ∈ xs, f x = .ok (g x))
    (size : Option Int) (k : Nat) :
    (run f size k (start xs)).1 = (List.range k).map (nth (xs.map g)) := by
  by_cases hs : size.getD 0 ≤ 0
  · obtain ⟨ph, e, _⟩ := run_plain f g xs h size hs k
    rw [e]
  · cases size with
    | none => simp at hs
    | some n =>
      obtain ⟨m, rfl⟩ : ∃ m : Nat, n = m := ⟨n.toNat, by simp at hs; omega⟩
      cases k with
      | zero => rfl
      | succ k =>
        rw [run_prefetch f g xs m (by simp at hs; omega) k fun x hx => h x (List.mem_of_mem_take hx)]

/-- Nothing is read before the first call; after `k` calls at most `size + k - 1` elements have been read, exactly
that many if there are enough, and the queue then holds at most `size - 1` of them. -/
theorem C35_read_ahead (f : α → Except PyErr β) (g : α → β) (xs : List α) (h : ∀ x ∈ xs, f x = .ok (g x))
    (n : Nat) (hn : 0 < n) (k : Nat) :
    (run f (some n) 0 (start xs)).2.rest = xs ∧
    xs.length - (run f (some n) (k + 1) (start xs)).2.rest.length = min xs.length (n + (k + 1) - 1) ∧
    (run f (some n) (k + 1) (start xs)).2.queue.length ≤ n - 1 := by
  refine ⟨rfl, ?_, ?_⟩ <;> rw [run_prefetch f g xs n hn k fun x hx => h x (List.mem_of_mem_take hx)]
  · simp only [List.length_drop]
    omega
  · simp only [List.length_map, List.length_drop, List.length_take]
    omega

/-- Without prefetching, one element is read per call and none is held. -/
theorem C35_no_prefetch (f : α → Except PyErr β) (g : α → β) (xs : List α) (h : ∀ x ∈ xs, f x = .ok (g x))
    (size : Option Int) (hs : size.getD 0 ≤ 0) (k : Nat) :
    xs.length - (run f size k (start xs)).2.rest.length = min xs.length k ∧
    (run f size k (start xs)).2.queue = [] := by
  obtain ⟨ph, e, _⟩ := run_plain f g xs h size hs k
  rw [e]
  simp only [List.length_drop, and_true]
  omega

/-- Five elements and a buffer of two. -/
example : (run (α := Nat) (fun x => .ok (x + 10)) (some 2) 3 (start [0, 1, 2, 3, 4])).2.rest = [4] ∧
    (run (α := Nat) (fun x => .ok (x + 10)) (some 2) 3 (start [0, 1, 2, 3, 4])).1.length = 3 := ⟨rfl, rfl⟩

/-- If the transfer of the element after `pre` fails with `e`, then the consumer gets the first
`pre.length + 1 - size` elements and then the exception: up to `size - 1` good elements are lost. -/
theorem C35_error (f : α → Except PyErr β) (g : α → β) (pre : List α) (x : α) (post : List α) (e : PyErr)
    (h : ∀ y ∈ pre, f y = .ok (g y)) (hx : f x = .error e) (n : Nat) (hn : 0 < n) :
    (run f (some n) (pre.length + 1 - n + 1) (start (pre ++ x :: post))).1 =
      (List.range (pre.length + 1 - n)).map (nth (pre.map g)) ++ [.error e] := by
  rw [run_succ']
  simp only
  by_cases hlt : pre.length < n
  · have : pre.length + 1 - n = 0 := by omega
    rw [this]
    simp only [run, start, next, Option.getD_some]
    rw [if_pos (by omega)]
    simp only [if_true, Int.toNat_natCast, fillAndYield]
    rw [enqueue_err n pre x post [] hlt h hx]
    simp
  · obtain ⟨k, hk⟩ : ∃ k, pre.length + 1 - n = k + 1 := ⟨pre.length - n, by omega⟩
    have hl : n + k = pre.length := by omega
    rw [hk, run_prefetch f g _ n hn k fun y hy => h y (by rw [hl] at hy; simpa using hy)]
    simp only
    rw [if_pos (by simp; omega), hl]
    simp only [next, Option.getD_some]
    rw [if_pos (by omega)]
    simp only [fillAndYield, reduceCtorEq, if_false]
    rw [List.drop_left, show x :: post = [] ++ x :: post from rfl,
      enqueue_err (g := g) 1 [] x post _ (by simp) (by simp) hx]
    simp only
    congr 1
    apply List.map_congr_left
    intro i hi
    rw [List.mem_range] at hi
    simp only [nth, List.map_append]
    rw [List.getElem?_append_left (by rw [List.length_map]; omega)]

/-- When the transfer of an element fails, prefetching does change what the consumer sees: the elements that were
read ahead and already transferred are lost, since the generator ends with the exception. -/
theorem C35_error_counterexample :
    ∃ (f : Nat → Except PyErr Nat) (xs : List Nat),
      (run f none 1 (start xs)).1 = [.ok 0] ∧ (run f (some 2) 1 (start xs)).1 = [.error .valueError] ∧
      (run f (some 2) 2 (start xs)).1 = [.error .valueError, .error .stopIteration] :=
  ⟨fun x => if x = 1 then .error .valueError else .ok x, [0, 1, 2], rfl, rfl, rfl⟩

/-- Splitting gives equal consecutive pieces whose concatenation is the batch, on the devices in order. -/
theorem C36_split (rows : List α) (devices : List Device) (bufs : List (List α × Device))
    (h : putToDevices rows devices = .ok bufs) :
    bufs.map Prod.snd = devices ∧ (bufs.map Prod.fst).flatten = rows ∧
    ∀ b ∈ bufs, b.1.length * devices.length = rows.length := by
  unfold putToDevices at h
  obtain ⟨pieces, hp, h⟩ := ebind h
  injection h with h
  subst h
  obtain ⟨h1, h2, h3, h4⟩ := npSplit_ok hp
  refine ⟨?_, ?_, ?_⟩
  · rw [List.map_snd_zip (by omega)]
  · rw [List.map_fst_zip (by omega), h4]
  · intro b hb
    rw [h3 _ (List.of_mem_zip hb).1, Nat.div_mul_cancel h2]

/-- A batch is rejected exactly when it does not divide over the devices. -/
theorem C36_rejects (rows : List α) (devices : List Device) (hd : devices ≠ []) :
    (devices.length ∣ rows.length → ∃ bufs, putToDevices rows devices = .ok bufs) ∧
    (¬ devices.length ∣ rows.length → putToDevices rows devices = .error .valueError) := by
  have hn : devices.length ≠ 0 := by simpa using hd
  constructor
  · intro h
    unfold putToDevices npSplit
    rw [if_neg hn, if_neg (by simpa using Nat.mod_eq_zero_of_dvd h)]
    exact ⟨_, rfl⟩
  · intro h
    unfold putToDevices npSplit
    rw [if_neg hn, if_pos (fun h' => h (Nat.dvd_of_mod_eq_zero h'))]
    rfl

/-- Four rows on two devices. -/
example : putToDevices [1, 2, 3, 4] [⟨0, 0⟩, ⟨1, 0⟩] = .ok [([1, 2], ⟨0, 0⟩), ([3, 4], ⟨1, 0⟩)] := by
  simp [putToDevices, npSplit, List.range_succ]

/-- The global batch has `process_count` times the rows; in it the devices of each process hold, in mesh order,
exactly the rows of that process; hence every row of every process is there exactly once. -/
theorem C36_global (mesh : List Device) (hnd : mesh.Nodup) (P : Nat) (hP : ∀ d ∈ mesh, d.process < P)
    (rows : Nat → List α) (B : Nat) (hB : ∀ p < P, (rows p).length = B) (out : List α)
    (h : globalArray mesh P rows = .ok out) :
    out.length = B * P ∧ out.Perm ((List.range P).flatMap rows) ∧
    ∃ buf : Device → List α, out = mesh.flatMap buf ∧
      (∀ d ∈ mesh, (buf d).length * mesh.length = B * P) ∧
      ∀ p < P, (localDevices mesh p).flatMap buf = rows p := by
  unfold globalArray at h
  obtain ⟨bufs, hb, h⟩ := ebind h
  injection h with h
  have hloc : ∀ p < P, localBuffers mesh P p (rows p) = .ok ((bufs[p]?).getD []) := by
    intro p hp
    obtain ⟨b, h1, h2⟩ := (mapM_getElem? hb).2 p p (by simp [hp])
    rw [h1]
    exact h2
  set buf : Device → List α := fun d => bufferOf ((bufs[d.process]?).getD []) d with hbuf
  have key : ∀ p < P, ((localDevices mesh p).flatMap buf = rows p) ∧
      ∀ d ∈ localDevices mesh p, (buf d).length * mesh.length = B * P := by
    intro p hp
    have h1 := hloc p hp
    unfold localBuffers at h1
    obtain ⟨bs, e1, h1⟩ := ebind h1
    simp only [] at h1
    split_ifs at h1 with hc
    injection h1 with h1
    rw [not_or, not_not, not_not] at hc
    obtain ⟨s1, s2, s3⟩ := C36_split _ _ _ e1
    have hbd : ∀ d ∈ localDevices mesh p, buf d = bufferOf bs d := by
      intro d hd
      have : d.process = p := by simpa [localDevices] using (List.mem_filter.1 hd).2
      simp only [hbuf, this, ← h1]
    have hndl : (bs.map Prod.snd).Nodup := by rw [s1]; exact hnd.filter _
    constructor
    · have e2 : (localDevices mesh p).flatMap buf = (localDevices mesh p).flatMap (bufferOf bs) := by
        rw [List.flatMap_def, List.flatMap_def, List.map_congr_left hbd]
      rw [e2, ← s2, ← s1, flatMap_bufferOf bs hndl]
    · intro d hd
      rw [hbd d hd]
      have : d ∈ bs.map Prod.snd := by rw [s1]; exact hd
      obtain ⟨b, hb1, rfl⟩ := List.mem_map.1 this
      rw [bufferOf_mem bs hndl b hb1]
      have := List.all_eq_true.1 hc.2 b hb1
      rw [beq_iff_eq] at this
      rw [this, ← hB p hp, Nat.div_mul_cancel (Nat.dvd_of_mod_eq_zero hc.1)]
  have hperm : out.Perm ((List.range P).flatMap rows) := by
    rw [← h]
    refine (flatMap_by_process mesh P hP buf).trans ?_
    rw [List.flatMap_def, List.flatMap_def, List.map_congr_left fun p hp => (key p (List.mem_range.1 hp)).1]
  refine ⟨?_, hperm, buf, h.symm, ?_, fun p hp => (key p hp).1⟩
  · rw [hperm.length_eq, List.length_flatMap]
    rw [List.map_congr_left (g := fun _ => B) fun p hp => hB p (List.mem_range.1 hp)]
    simp [Nat.mul_comm]
  · intro d hd
    exact (key d.process (hP d hd)).2 d (by simp [localDevices, hd])

/-- With equally many devices in every process and a batch that divides over them the global batch is built. -/
theorem C36_global_exists (mesh : List Device) (P localCount : Nat) (hl : 0 < localCount)
    (hlc : ∀ p < P, (localDevices mesh p).length = localCount) (hm : mesh.length = P * localCount)
    (rows : Nat → List α) (B : Nat) (hB : ∀ p < P, (rows p).length = B) (hd : localCount ∣ B) :
    ∃ out, globalArray mesh P rows = .ok out := by
  have hloc : ∀ p ∈ List.range P, ∃ bs, localBuffers mesh P p (rows p) = .ok bs := by
    intro p hp
    rw [List.mem_range] at hp
    have hne : localDevices mesh p ≠ [] := by
      intro he
      have := hlc p hp
      rw [he] at this
      simp at this
      omega
    obtain ⟨bs, e⟩ := (C36_rejects (rows p) (localDevices mesh p) hne).1 (by rw [hlc p hp, hB p hp]; exact hd)
    refine ⟨bs, ?_⟩
    unfold localBuffers
    rw [e]
    change (if _ then _ else _) = _
    obtain ⟨c, hc⟩ := hd
    have hP : 0 < P := by omega
    have hg : (rows p).length * P = mesh.length * c := by
      rw [hB p hp, hm, hc, Nat.mul_assoc, Nat.mul_assoc, Nat.mul_comm c P, Nat.mul_left_comm]
    rw [if_neg]
    rw [not_or, not_not, not_not]
    refine ⟨by rw [hg]; exact Nat.mul_mod_right _ _, ?_⟩
    rw [List.all_eq_true]
    intro b hb
    have h3 := (C36_split _ _ _ e).2.2 b hb
    rw [hlc p hp, hB p hp, hc] at h3
    rw [beq_iff_eq, hg, Nat.mul_div_cancel_left _ (by rw [hm]; exact Nat.mul_pos hP hl)]
    rw [Nat.mul_comm] at h3
    exact Nat.eq_of_mul_eq_mul_left hl h3
  have : ∃ bufs, (List.range P).mapM (fun p => localBuffers mesh P p (rows p)) = .ok bufs := by
    choose! g hg using hloc
    exact ⟨_, DataPipeline.mapM_ok_eq hg⟩
  obtain ⟨bufs, hb⟩ := this
  unfold globalArray
  rw [hb]
  exact ⟨_, rfl⟩

/-- Two processes, two devices each, interleaved in the mesh. -/
example :
    let mesh : List Device := [⟨0, 0⟩, ⟨2, 1⟩, ⟨1, 0⟩, ⟨3, 1⟩]
    mesh.Nodup ∧ (∀ d ∈ mesh, d.process < 2) ∧ (∀ p < 2, (localDevices mesh p).length = 2) ∧
    globalArray mesh 2 (fun p => [10 * p, 10 * p + 1]) = .ok [0, 10, 1, 11] := by
  refine ⟨by decide, by decide, by decide, ?_⟩
  simp [globalArray, localBuffers, putToDevices, npSplit, localDevices, List.range_succ, bufferOf]
  rfl

end Verif.Prefetch
