import Verif.Proofs.Spmd

/-! Property C121: the processes of a training job never wait for each other forever. -/

namespace Verif.Spmd

open Relation

variable {n : Nat}

/-- The directory at the start is empty, or the restored state is the one of its newest checkpoint. -/
def Restored (cfg : Cfg) (disk : List Nat) : Prop :=
  disk = [] ∨ cfg.init ∈ disk ∧ ∀ k ∈ disk, k ≤ cfg.init

/-- The steps of the training that are left. -/
def stepsLeft (cfg : Cfg) : List Nat := (List.range (cfg.trainSteps - cfg.init)).map fun j => cfg.init + 1 + j

theorem inv_start (cfg : Cfg) (hooks : Fin n → Nat → Nat) (h0 : Nat → Nat) (batches : Fin n → Nat) (disk : List Nat)
    (hh : ∀ i, hooks i = h0) (hb : ∀ i, cfg.trainSteps - cfg.init ≤ batches i) (hd : Restored cfg disk) :
    ∃ r, Inv cfg.every disk r (start cfg hooks batches disk) ∧ Good disk r ∧
      (∀ D, DiskOk disk (saves r) D → cfg.trainSteps ∈ D) ∧ Waited r ∧ trains r = stepsLeft cfg := by
  obtain ⟨r, h1, h2, h3, h4, h5⟩ := resolve cfg h0 (cfg.trainSteps - cfg.init) disk (le_refl _) hd
  refine ⟨r, ⟨[], .nil, fun j => ⟨[], r, rfl, ?_⟩⟩, h2, h3, h4, h5⟩
  have e : program cfg (hooks j) (batches j) = program cfg h0 (cfg.trainSteps - cfg.init) := by
    rw [program, program, loopPart, loopPart, hh j, Nat.min_eq_left (hb j), Nat.min_self]
  refine ⟨?_, fun _ => rfl, by simp [start, startProc], by simp [saves, start, startProc], by simp⟩
  simpa only [start, startProc, e] using h1

/-- C121: whatever the speed of the processes is, at every moment one of them can go on, until all are at the end. -/
theorem C121_no_deadlock (cfg : Cfg) (hooks : Fin n → Nat → Nat) (h0 : Nat → Nat) (batches : Fin n → Nat) (disk : List Nat)
    (hh : ∀ i, hooks i = h0) (hb : ∀ i, cfg.trainSteps - cfg.init ≤ batches i) (hd : Restored cfg disk)
    (s : Sys n) (hs : ReflTransGen (Step cfg.every) (start cfg hooks batches disk) s) :
    (∃ s', Step cfg.every s s') ∨ ∀ i, (s.procs i).prog = [] := by
  obtain ⟨r, h1, h2, _⟩ := inv_start cfg hooks h0 batches disk hh hb hd
  exact progress s (inv_reach h2 h1 hs)

/-- C121: no execution goes on forever. -/
theorem C121_ends (every : Nat) (f : Nat → Sys n) : ¬ ∀ k, Step every (f k) (f (k + 1)) := by
  intro h
  have key : ∀ k, ∑ j, todo ((f k).procs j) + k ≤ ∑ j, todo ((f 0).procs j) := by
    intro k
    induction k with
    | zero => simp
    | succ k ih =>
      have := total_step (h k)
      omega
  have := key (∑ j, todo ((f 0).procs j) + 1)
  omega

/-- C121: at every moment the operations that two processes have called are the same, up to those that the slower one has
not called yet. -/
theorem C121_agree (cfg : Cfg) (hooks : Fin n → Nat → Nat) (h0 : Nat → Nat) (batches : Fin n → Nat) (disk : List Nat)
    (hh : ∀ i, hooks i = h0) (hb : ∀ i, cfg.trainSteps - cfg.init ≤ batches i) (hd : Restored cfg disk)
    (s : Sys n) (hs : ReflTransGen (Step cfg.every) (start cfg hooks batches disk) s) (i j : Fin n) :
    (s.procs i).hist <+: (s.procs j).hist ∨ (s.procs j).hist <+: (s.procs i).hist := by
  obtain ⟨r, h1, h2, _⟩ := inv_start cfg hooks h0 batches disk hh hb hd
  obtain ⟨C, _, hp⟩ := inv_reach h2 h1 hs
  have key : ∀ i, (s.procs i).hist <+: coll r := by
    intro i
    obtain ⟨d, rem, hr, hpi⟩ := hp i
    rw [hr, coll_append]
    by_cases he : (s.procs i).entered = true
    · obtain ⟨x, rest, nm, e, hn, hi, _⟩ := hpi.inside he
      rw [hi, e]
      exact ⟨coll rest, by simp [coll, hn]⟩
    · rw [hpi.out (by simpa using he)]
      exact List.prefix_append _ _
  exact List.prefix_or_prefix_of_prefix (key i) (key j)

/-- C121: when all processes are at the end, all of them have called the same operations, among them every train step
exactly once and in order, nothing is written any more, and the last checkpoint exists. -/
theorem C121_completed (cfg : Cfg) (hooks : Fin n → Nat → Nat) (h0 : Nat → Nat) (batches : Fin n → Nat) (disk : List Nat)
    (hh : ∀ i, hooks i = h0) (hb : ∀ i, cfg.trainSteps - cfg.init ≤ batches i) (hd : Restored cfg disk)
    (s : Sys n) (hs : ReflTransGen (Step cfg.every) (start cfg hooks batches disk) s)
    (hdone : ∀ i, (s.procs i).prog = []) :
    ∃ calls : List Name, calls.filterMap Name.trainStep = stepsLeft cfg ∧
      ∀ i, (s.procs i).hist = calls ∧ (s.procs i).pending = none ∧ cfg.trainSteps ∈ s.disk := by
  obtain ⟨r, h1, h2, h3, h4, h5⟩ := inv_start cfg hooks h0 batches disk hh hb hd
  obtain ⟨C, hC, hp⟩ := inv_reach h2 h1 hs
  refine ⟨coll r, h5, fun i => ?_⟩
  obtain ⟨d, rem, hr, hpi⟩ := hp i
  have hrem : rem = [] := by
    have hres := hpi.res
    rw [hdone i] at hres
    cases hres
    rfl
  rw [hrem, List.append_nil] at hr
  subst hr
  have hent : (s.procs i).entered = false := by
    by_contra hne
    obtain ⟨x, rest, nm, e, _⟩ := hpi.inside (by simpa using hne)
    rw [hrem] at e
    simp at e
  have hnone : (s.procs i).pending = none := by
    rcases h4 with h | ⟨a, b, e, hb⟩
    · have := hpi.pend
      rw [h] at this
      simpa using (List.append_eq_nil_iff.1 this.symm).2
    · exact hpi.waited a b e hb
  have hsv := hpi.pend
  rw [hnone] at hsv
  simp only [Option.toList_none, List.append_nil] at hsv
  exact ⟨hpi.out hent, hnone, h3 _ (hsv ▸ hC)⟩

/-- Three processes with different numbers of batches, from step 4 to step 6, evaluations with two computations in step 6:
the hypotheses hold. -/
example : Restored ⟨4, 6, 2⟩ [2, 4] ∧ (∀ i : Fin 3, (⟨4, 6, 2⟩ : Cfg).trainSteps - (⟨4, 6, 2⟩ : Cfg).init ≤ i.1 + 2) :=
  ⟨Or.inr (by decide), by intro i; simp⟩

/-- The program of these processes. -/
example : program ⟨4, 6, 2⟩ (fun k => if k = 6 then 2 else 0) 7 =
    [.act (.sync (.train 5)), .act (.save 5 false), .act (.sync (.train 6)), .act (.save 6 false),
      .act (.sync (.hook 6 0)), .act (.sync (.hook 6 1)), .act .wait,
      .ifMissing 6 [.sync .last, .save 6 true, .wait], .act (.sync .completed)] := rfl

/-- A new training: the first checkpoint is saved before the loop. -/
example : Restored ⟨0, 6, 2⟩ [] ∧ firstPart ⟨0, 6, 2⟩ = [.ifMissing 0 [.sync .first, .save 0 true]] := ⟨Or.inl rfl, rfl⟩

/-- Two processes that wait in different operations. -/
theorem stuck (every : Nat) (s : Sys 2) (a b : Name) (hab : a ≠ b) (h : List Name)
    (ha : ∃ t, (s.procs 0).prog = .act (.sync a) :: t) (hb : ∃ t, (s.procs 1).prog = .act (.sync b) :: t)
    (hea : (s.procs 0).entered = true) (heb : (s.procs 1).entered = true)
    (hha : (s.procs 0).hist = h ++ [a]) (hhb : (s.procs 1).hist = h ++ [b])
    (hpa : (s.procs 0).pending = none) : ¬ ∃ s', Step every s s' := by
  rintro ⟨s', hs⟩
  obtain ⟨t, ha⟩ := ha
  obtain ⟨u, hb⟩ := hb
  have two : ∀ i : Fin 2, i = 0 ∨ i = 1 := by decide
  have hent : ∀ i, (s.procs i).entered = true := by
    intro i
    rcases two i with rfl | rfl
    · exact hea
    · exact heb
  have hhead : ∀ (i : Fin 2) (x : Instr) (r : List Instr), (s.procs i).prog = x :: r →
      (i = 0 ∧ x = .act (.sync a)) ∨ (i = 1 ∧ x = .act (.sync b)) := by
    intro i x r hp
    rcases two i with rfl | rfl
    · rw [ha] at hp
      exact Or.inl ⟨rfl, (List.cons.inj hp).1.symm⟩
    · rw [hb] at hp
      exact Or.inr ⟨rfl, (List.cons.inj hp).1.symm⟩
  cases hs with
  | enterSync hp he => rw [hent] at he; cases he
  | leaveSync hp he hc =>
    rcases hhead _ _ _ hp with ⟨rfl, e⟩ | ⟨rfl, e⟩
    · have h1 := hc 1
      simp only [Instr.act.injEq, Act.sync.injEq] at e
      rw [hha, hhb, e, List.length_append, List.length_singleton, Nat.add_sub_cancel] at h1
      simp only [List.getElem?_concat_length, Option.some.injEq] at h1
      exact hab h1.symm
    · have h1 := hc 0
      simp only [Instr.act.injEq, Act.sync.injEq] at e
      rw [hha, hhb, e, List.length_append, List.length_singleton, Nat.add_sub_cancel] at h1
      simp only [List.getElem?_concat_length, Option.some.injEq] at h1
      exact hab h1
  | skipSave hp _ => rcases hhead _ _ _ hp with ⟨_, e⟩ | ⟨_, e⟩ <;> simp at e
  | enterSave hp _ _ _ => rcases hhead _ _ _ hp with ⟨_, e⟩ | ⟨_, e⟩ <;> simp at e
  | leaveSave hp _ _ => rcases hhead _ _ _ hp with ⟨_, e⟩ | ⟨_, e⟩ <;> simp at e
  | wait hp _ => rcases hhead _ _ _ hp with ⟨_, e⟩ | ⟨_, e⟩ <;> simp at e
  | found hp _ => rcases hhead _ _ _ hp with ⟨_, e⟩ | ⟨_, e⟩ <;> simp at e
  | missing hp _ => rcases hhead _ _ _ hp with ⟨_, e⟩ | ⟨_, e⟩ <;> simp at e
  | commit _ hp _ _ =>
    have := hp 0
    rw [hpa] at this
    cases this

/-- One more step before an execution. -/
theorem reach_head {every : Nat} {a b : Sys n} {P : Sys n → Prop} (h : Step every a b)
    (hb : ∃ s, ReflTransGen (Step every) b s ∧ P s) : ∃ s, ReflTransGen (Step every) a s ∧ P s := by
  obtain ⟨s, h1, h2⟩ := hb
  exact ⟨s, h1.head h, h2⟩

/-- C121: a process without batches (fewer examples than processes) leaves the loop at once and waits for the last
checkpoint, while the other one waits in the first train step: nothing happens any more. -/
theorem C121_no_batches_counterexample : ∃ (cfg : Cfg) (hooks : Fin 2 → Nat → Nat) (batches : Fin 2 → Nat) (disk : List Nat)
    (s : Sys 2), Restored cfg disk ∧ (∀ i, hooks i = fun _ => 0) ∧
      ReflTransGen (Step cfg.every) (start cfg hooks batches disk) s ∧ (¬ ∃ s', Step cfg.every s s') ∧
      ¬ ∀ i, (s.procs i).prog = [] := by
  refine ⟨⟨1, 2, 5⟩, fun _ _ => 0, fun i => if i = 0 then 1 else 0, [1], ?_⟩
  suffices h : ∃ s, ReflTransGen (Step 5) (start ⟨1, 2, 5⟩ (fun _ _ => 0) (fun i => if i = 0 then 1 else 0) [1]) s ∧
      ((¬ ∃ s', Step 5 s s') ∧ ¬ ∀ i : Fin 2, (s.procs i).prog = []) by
    obtain ⟨s, h1, h2, h3⟩ := h
    exact ⟨s, Or.inr (by decide), fun _ => rfl, h1, h2, h3⟩
  refine reach_head (Step.enterSync (i := 0) (name := .train 2) rfl rfl) ?_
  refine reach_head (Step.wait (i := 1) rfl rfl) ?_
  refine reach_head (Step.missing (i := 1) (k := 2) rfl (by decide)) ?_
  refine reach_head (Step.enterSync (i := 1) (name := .last) rfl rfl) ⟨_, .refl, ?_, ?_⟩
  · exact stuck _ _ (.train 2) .last (by decide) [] ⟨_, rfl⟩ ⟨_, rfl⟩ rfl rfl rfl rfl rfl
  · intro h
    exact absurd (h 0) (by simp [Sys.set, start, startProc, program, firstPart, loopPart, iteration, lastPart])

/-- C121: hooks that run by the clock of each process (`every_secs`) can run in one process only: it waits in the evaluation
and the other one in the barrier of the last checkpoint. -/
theorem C121_clocks_counterexample : ∃ (cfg : Cfg) (hooks : Fin 2 → Nat → Nat) (batches : Fin 2 → Nat) (disk : List Nat)
    (s : Sys 2), Restored cfg disk ∧ (∀ i, cfg.trainSteps - cfg.init ≤ batches i) ∧
      ReflTransGen (Step cfg.every) (start cfg hooks batches disk) s ∧ (¬ ∃ s', Step cfg.every s s') ∧
      ¬ ∀ i, (s.procs i).prog = [] := by
  refine ⟨⟨1, 2, 5⟩, fun i _ => if i = 0 then 1 else 0, fun _ => 1, [1], ?_⟩
  suffices h : ∃ s, ReflTransGen (Step 5) (start ⟨1, 2, 5⟩ (fun i _ => if i = 0 then 1 else 0) (fun _ => 1) [1]) s ∧
      ((¬ ∃ s', Step 5 s s') ∧ ¬ ∀ i : Fin 2, (s.procs i).prog = []) by
    obtain ⟨s, h1, h2, h3⟩ := h
    exact ⟨s, Or.inr (by decide), fun _ => le_refl 1, h1, h2, h3⟩
  refine reach_head (Step.enterSync (i := 0) (name := .train 2) rfl rfl) ?_
  refine reach_head (Step.enterSync (i := 1) (name := .train 2) rfl rfl) ?_
  refine reach_head (Step.leaveSync (i := 0) (name := .train 2) rfl rfl (by unfold allCalled; decide)) ?_
  refine reach_head (Step.leaveSync (i := 1) (name := .train 2) rfl rfl (by unfold allCalled; decide)) ?_
  refine reach_head (Step.skipSave (i := 0) (k := 2) rfl (by simp [shouldSave])) ?_
  refine reach_head (Step.skipSave (i := 1) (k := 2) rfl (by simp [shouldSave])) ?_
  refine reach_head (Step.enterSync (i := 0) (name := .hook 2 0) rfl rfl) ?_
  refine reach_head (Step.wait (i := 1) rfl rfl) ?_
  refine reach_head (Step.missing (i := 1) (k := 2) rfl (by decide)) ?_
  refine reach_head (Step.enterSync (i := 1) (name := .last) rfl rfl) ⟨_, .refl, ?_, ?_⟩
  · exact stuck _ _ (.hook 2 0) .last (by decide) [.train 2] ⟨_, rfl⟩ ⟨_, rfl⟩ rfl rfl rfl rfl rfl
  · intro h
    have h0 := h 0
    change [Instr.act (.sync (.hook 2 0))] ++ _ = [] at h0
    simp at h0

end Verif.Spmd
