import Verif.Model.AppRun
import Mathlib.Data.Finset.Card
import Mathlib.Data.List.Infix
import Mathlib.Tactic.Common

/-!
C128: every process of a job builds the same mesh if the processes hold devices in the same arrangement; the metrics in the directory are
those of process 0, complete and in their order, also if the program fails; hooks for a single process run there only.
-/

namespace Verif.AppRun

open Verif Partitioning

variable {α W S A : Type}

/-- The number of different coordinates on axis `a` among the devices of process `q`. -/
def extent (proc : α → Nat) (coords : α → List Nat) (devices : List α) (q a : Nat) : Nat :=
  ((devices.filter fun d => proc d = q).map fun d => (coords d).getD a 0).toFinset.card

/-- **C128**: if the devices of two processes have the same extents, the two processes build the same mesh, or raise the same
error. -/
theorem C128_same_mesh (tpu : Bool) (proc : α → Nat) (coords : α → List Nat) (n : Nat) (devices : List α) (k q q' : Nat)
    (hk : ∀ d ∈ devices, (coords d).length = k) (hq : ∃ d ∈ devices, proc d = q) (hq' : ∃ d ∈ devices, proc d = q')
    (h : ∀ a < k, extent proc coords devices q a = extent proc coords devices q' a) :
    processMesh tpu proc coords n devices q = processMesh tpu proc coords n devices q' := by
  have key : ∀ r, (∃ d ∈ devices, proc d = r) →
      hardwareMeshLocalShape ((devices.filter fun d => proc d = r).map coords) =
        (List.range k).map fun a => extent proc coords devices r a := by
    rintro r ⟨d, hd, hr⟩
    unfold hardwareMeshLocalShape
    generalize hl : (devices.filter fun d => proc d = r).map coords = l
    cases l with
    | nil =>
      have : d ∈ devices.filter fun d => proc d = r := by simp [hd, hr]
      rw [List.map_eq_nil_iff] at hl
      rw [hl] at this
      simp at this
    | cons c rest =>
      have hc : c.length = k := by
        have : c ∈ (devices.filter fun d => proc d = r).map coords := by rw [hl]; simp
        obtain ⟨d', hd', rfl⟩ := List.mem_map.1 this
        exact hk d' (List.mem_of_mem_filter hd')
      simp only [hc]
      apply List.map_congr_left
      intro a _
      unfold extent
      rw [← hl, List.map_map, List.card_toFinset]
      rfl
  have e : hardwareMeshLocalShape ((devices.filter fun d => proc d = q).map coords) =
      hardwareMeshLocalShape ((devices.filter fun d => proc d = q').map coords) := by
    rw [key q hq, key q' hq']
    apply List.map_congr_left
    intro a ha
    exact h a (List.mem_range.1 ha)
  unfold processMesh getAutoLogicalMesh getAutoLogicalMeshTpu getAutoLogicalMeshOther getLogicalMesh
  rw [e]

/-- Four TPU devices in a square, one column for each process. -/
def square : List (Nat × Nat) := [(0, 0), (0, 1), (1, 0), (1, 1)]

example : processMesh true Prod.snd (fun d => [0, d.1, d.2, 0]) 2 square 0 = processMesh true Prod.snd (fun d => [0, d.1, d.2, 0]) 2 square 1 :=
  C128_same_mesh true Prod.snd (fun d => [0, d.1, d.2, 0]) 2 square 4 0 1 (by simp) ⟨(0, 0), by decide, rfl⟩ ⟨(0, 1), by decide, rfl⟩
    (by decide)

/-- **C128**: on CPU and GPU, with the same number `D` of devices in every process and their numbers given process by process, all processes
build the same mesh. -/
theorem C128_same_mesh_other (D H n : Nat) (hD : 0 < D) (q q' : Nat) (hq : q < H) (hq' : q' < H) :
    processMesh false (fun id => id / D) (fun id => getDeviceCoordsOther D id (id / D)) n (List.range (D * H)) q =
      processMesh false (fun id => id / D) (fun id => getDeviceCoordsOther D id (id / D)) n (List.range (D * H)) q' := by
  have mem : ∀ r, r < H → D * r ∈ List.range (D * H) := fun r hr => List.mem_range.2 (Nat.mul_lt_mul_of_pos_left hr hD)
  have ext : ∀ r, r < H → ∀ a < 2, extent (fun id => id / D) (fun id => getDeviceCoordsOther D id (id / D)) (List.range (D * H)) r a =
      if a = 0 then D else 1 := by
    intro r hr a ha
    unfold extent getDeviceCoordsOther
    have ha : a = 0 ∨ a = 1 := by omega
    rcases ha with rfl | rfl
    · have : (((List.range (D * H)).filter fun id => id / D = r).map fun id => [id % D, id / D].getD 0 0).toFinset = Finset.range D := by
        ext x
        simp only [List.mem_toFinset, List.mem_map, List.mem_filter, List.mem_range, decide_eq_true_eq, Finset.mem_range]
        constructor
        · rintro ⟨id, _, rfl⟩
          exact Nat.mod_lt _ hD
        · intro hx
          refine ⟨D * r + x, ⟨?_, ?_⟩, ?_⟩
          · calc D * r + x < D * r + D := by omega
              _ = D * (r + 1) := (Nat.mul_succ D r).symm
              _ ≤ D * H := Nat.mul_le_mul_left _ hr
          · rw [Nat.mul_add_div hD, Nat.div_eq_of_lt hx, Nat.add_zero]
          · simp [Nat.mod_eq_of_lt hx]
      rw [this]
      simp
    · have : (((List.range (D * H)).filter fun id => id / D = r).map fun id => [id % D, id / D].getD 1 0).toFinset = {r} := by
        ext x
        simp only [List.mem_toFinset, List.mem_map, List.mem_filter, List.mem_range, decide_eq_true_eq, Finset.mem_singleton]
        constructor
        · rintro ⟨id, ⟨_, h⟩, rfl⟩
          exact h
        · rintro rfl
          refine ⟨D * x, ⟨List.mem_range.1 (mem x hr), ?_⟩, ?_⟩ <;> simp [Nat.mul_div_cancel_left _ hD]
      rw [this]
      simp
  apply C128_same_mesh _ _ _ _ _ 2
  · intro d _
    rfl
  · exact ⟨D * q, mem q hq, Nat.mul_div_cancel_left _ hD⟩
  · exact ⟨D * q', mem q' hq', Nat.mul_div_cancel_left _ hD⟩
  · intro a ha
    rw [ext q hq a ha, ext q' hq' a ha]

/-- Six devices, of which the second process holds two. -/
def uneven : List (Nat × Nat × Nat) := [(0, 0, 1), (0, 1, 1), (0, 2, 0), (1, 0, 0), (1, 1, 0), (1, 2, 0)]

/-- **C128**: if the processes hold different numbers of devices, one of them can build a mesh while the other one stops with an error. -/
theorem C128_different_hosts_counterexample :
    (∃ mesh, processMesh true (fun d => d.2.2) (fun d => [0, d.1, d.2.1, 0]) 2 uneven 0 = .ok mesh) ∧
    processMesh true (fun d => d.2.2) (fun d => [0, d.1, d.2.1, 0]) 2 uneven 1 = .error .valueError := by
  constructor
  · exact ⟨_, rfl⟩
  · rfl

/-- The metrics that are written, in their order. -/
def writes (ops : List (Op W)) : List W := ops.filterMap fun
  | .write x => some x
  | _ => none

theorem run_ops (q : Nat) (ops : List (Op W)) (w : Writer W) (hw : w.justLogging = decide (q > 0)) (h0 : 0 < q → w.waiting = []) :
    let w' := ops.foldl Op.apply w
    w'.justLogging = decide (q > 0) ∧ w'.log = w.log ++ writes ops ∧ (0 < q → w'.waiting = []) ∧
      w'.files ++ w'.waiting = w.files ++ w.waiting ++ (if q = 0 then writes ops else []) := by
  induction ops generalizing w with
  | nil => simpa [hw, writes] using h0
  | cons op ops ih =>
    rw [List.foldl_cons]
    cases op with
    | write x =>
      have := ih (Op.apply w (.write x)) hw (by intro hq; simp [Op.apply, hw, hq, h0 hq])
      refine ⟨this.1, ?_, this.2.2.1, ?_⟩
      · rw [this.2.1]; simp [Op.apply, writes]
      · rw [this.2.2.2]
        rcases Nat.eq_zero_or_pos q with rfl | hq
        · simp [Op.apply, writes, hw]
        · have hne : q ≠ 0 := by omega
          simp [Op.apply, hw, hq, hne]
    | flush =>
      have := ih (Op.apply w .flush) hw (by intro hq; simp [Op.apply, flush])
      refine ⟨this.1, ?_, this.2.2.1, ?_⟩
      · rw [this.2.1]; simp [Op.apply, writes, flush]
      · rw [this.2.2.2]; simp [Op.apply, flush, writes]
    | background =>
      cases hwait : w.waiting with
      | nil =>
        have e : Op.apply w .background = w := by simp [Op.apply, hwait]
        rw [e]
        have := ih w hw h0
        refine ⟨this.1, ?_, this.2.2.1, ?_⟩
        · rw [this.2.1]; simp [writes]
        · rw [this.2.2.2]; simp [writes, hwait]
      | cons x rest =>
        have e : Op.apply w .background = { w with waiting := rest, files := w.files ++ [x] } := by simp [Op.apply, hwait]
        rw [e]
        have := ih { w with waiting := rest, files := w.files ++ [x] } hw (by intro hq; rw [h0 hq] at hwait; cases hwait)
        refine ⟨this.1, ?_, this.2.2.1, ?_⟩
        · rw [this.2.1]; simp [writes]
        · rw [this.2.2.2]; simp [writes]

/-- **C128**: when a process ends, everything that its `main` wrote is in the log, and in process 0 (and only there) in the files, in the
same order, whether `main` raised or not; the exception of `main` goes on. -/
theorem C128_files (q : Nat) (mesh : NdArray (Option α)) (main : NdArray (Option α) → List (Op W) × Except PyErr Unit) :
    (appMain q (.ok mesh) main).2 = (main mesh).2 ∧ (appMain q (.ok mesh) main).1.log = writes (main mesh).1 ∧
      (appMain q (.ok mesh) main).1.files = if q = 0 then writes (main mesh).1 else [] := by
  have := run_ops q (main mesh).1 (createDefaultWriter (decide (q > 0))) rfl (fun _ => rfl)
  refine ⟨rfl, ?_, ?_⟩
  · simpa [appMain, flush, createDefaultWriter] using this.2.1
  · simpa [appMain, flush, createDefaultWriter] using this.2.2.2

/-- **C128**: the files of the directory at the end of a job are the metrics written by process 0, if it has a mesh, each once. -/
theorem C128_job (n : Nat) (hn : 0 < n) (mesh : Nat → Except PyErr (NdArray (Option α)))
    (main : Nat → NdArray (Option α) → List (Op W) × Except PyErr Unit) (mesh0 : NdArray (Option α)) (h0 : mesh 0 = .ok mesh0) :
    ((List.range n).map fun q => (appMain q (mesh q) (main q)).1.files).flatten = writes (main 0 mesh0).1 := by
  obtain ⟨n, rfl⟩ : ∃ k, n = k + 1 := ⟨n - 1, by omega⟩
  rw [List.range_succ_eq_map, List.map_cons, List.flatten_cons, List.map_map]
  have e : ∀ q, (appMain (q + 1) (mesh (q + 1)) (main (q + 1))).1.files = [] := by
    intro q
    cases h : mesh (q + 1) with
    | error err => rfl
    | ok m => simpa using (C128_files (q + 1) m (main (q + 1))).2.2
  rw [h0, (C128_files 0 mesh0 (main 0)).2.2, if_pos rfl, List.flatten_eq_nil_iff.2, List.append_nil]
  intro l hl
  obtain ⟨q, _, rfl⟩ := List.mem_map.1 hl
  exact e q

/-- **C128**: if a process is killed while `main` runs, its files contain the first metrics it wrote, without gaps, and nothing in
other processes than 0. -/
theorem C128_killed (q : Nat) (ops : List (Op W)) :
    (ops.foldl Op.apply (createDefaultWriter (decide (q > 0)))).files <+: if q = 0 then writes ops else [] := by
  have := (run_ops q ops (createDefaultWriter (decide (q > 0))) rfl (fun _ => rfl)).2.2.2
  exact ⟨_, by simpa [createDefaultWriter] using this⟩

/-- **C128**: without a mesh, `main` is not called: nothing is written, whatever `main` does, and the error goes on. -/
theorem C128_no_mesh (q : Nat) (err : PyErr) (main : NdArray (Option α) → List (Op W) × Except PyErr Unit) :
    (appMain q (.error err) main).2 = .error err ∧ (appMain q (.error err) main).1.log = [] ∧
      (appMain q (.error err) main).1.files = [] := ⟨rfl, rfl, rfl⟩

/-- A program that writes three metrics and fails; one write has reached the files before. -/
def failing : NdArray (Option Nat) → List (Op Nat) × Except PyErr Unit :=
  fun _ => ([.write 1, .background, .write 2, .write 3], .error .runtimeError)

example : (appMain 0 (.ok ⟨[], fun _ => some 0⟩) failing).1.files = [1, 2, 3] ∧ (appMain 1 (.ok ⟨[], fun _ => some 0⟩) failing).1.files = [] ∧
    (appMain 0 (.ok ⟨[], fun _ => some 0⟩) failing).2 = .error .runtimeError ∧
    ((failing ⟨[], fun _ => some 0⟩).1.foldl Op.apply (createDefaultWriter false)).files = [1] :=
  ⟨rfl, rfl, rfl, rfl⟩

example : ((List.range 3).map fun q => (appMain q (.ok ⟨[], fun _ => some 0⟩) failing).1.files).flatten = [1, 2, 3] :=
  C128_job 3 (by omega) (fun _ => .ok ⟨[], fun _ => some 0⟩) (fun _ => failing) _ rfl

/-- The calls of a hook with a list of arguments: what it returned, and its state at the end. -/
def calls (hook : S → A → Except PyErr (Bool × S)) : S → List A → Except PyErr (List Bool × S)
  | st, [] => .ok ([], st)
  | st, x :: xs =>
    match hook st x with
    | .error err => .error err
    | .ok (b, st) =>
      match calls hook st xs with
      | .error err => .error err
      | .ok (bs, st) => .ok (b :: bs, st)

/-- **C128**: an action for a single process behaves there as without the wrapper, and does nothing in the other processes: it is never
called, so that its state does not change and its errors do not appear. -/
theorem C128_single_process (action : S → A → Except PyErr (Bool × S)) (p q : Nat) (st : S) (args : List A) :
    calls (singleProcess action p q) st args =
      if q = p then calls action st args else .ok (List.replicate args.length false, st) := by
  split_ifs with h
  · have : singleProcess action p q = action := by funext st x; simp [singleProcess, h]
    rw [this]
  · induction args with
    | nil => rfl
    | cons x xs ih => simp [calls, singleProcess, h] at ih ⊢; simp [ih, List.replicate_succ]

/-- **C128**: the profiler runs in process 0 unless the option `all_processes` is set, and then in all processes. -/
theorem C128_profile (profile profileAll : S → A → Except PyErr (Bool × S)) (all : Option Bool) (q : Nat) (st : S) (args : List A) :
    calls (profileHook profile profileAll all q) st args =
      if all = some true then calls profileAll st args
      else if q = 0 then calls profile st args
      else .ok (List.replicate args.length false, st) := by
  rcases all with _ | ⟨_ | _⟩
  · exact C128_single_process profile 0 q st args
  · exact C128_single_process profile 0 q st args
  · rfl

/-- A hook that counts its calls and fails at the third one. -/
def counter (st : Nat) (_ : Unit) : Except PyErr (Bool × Nat) := if st = 2 then .error .runtimeError else .ok (true, st + 1)

example : calls (profileHook counter counter none 0) 0 [(), ()] = .ok ([true, true], 2) ∧
    calls (profileHook counter counter none 1) 0 [(), (), ()] = .ok ([false, false, false], 0) ∧
    calls (profileHook counter counter none 0) 0 [(), (), ()] = .error .runtimeError :=
  ⟨rfl, rfl, rfl⟩

end Verif.AppRun
