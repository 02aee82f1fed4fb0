import Verif.Proofs.Hooks

/-! C85: when the hooks of the training run, and what they see. -/

namespace Verif.Hooks

open Verif

variable {P B M : Type}

section

variable (update : P → B → P × M) (saves : Nat → Bool) (cost : Nat → PyDict (List Char) ℚ) (process : Nat)
  (clock : Nat → Nat → ℚ) (progressProcess : Option Nat) (progress : HookConfig)
  (hooks : List (List Char × HookConfig)) (initStep trainSteps : Nat) (params : P) (batches : List B)

/-- C85: the training never fails because of the hooks, and in each step there are, in this order: the report of progress, the
checkpoint and the evaluations, all with the parameters after exactly the updates of the steps so far.  An evaluation runs in
the first and in the last step, in the steps of the configuration, and when `every_secs` have passed since it ran; at most
once in a step.  Progress is reported by its process only, at the same moments but not in the first step. -/
theorem C85_hooks (h0 : ∀ h ∈ hooks, h.2.everySteps ≠ some 0) (h1 : progress.everySteps ≠ some 0) :
    ∃ runs : Nat → Nat → Bool,
      (∀ s, initStep + 1 ≤ s → (runs 0 s = true ↔ (∀ p ∈ progressProcess, process = p) ∧ s ≠ initStep + 1 ∧
        (Due progress (initStep + 1) trainSteps s ∨ Elapsed progress (clock 0) (runs 0) (initStep + 1) s))) ∧
      (∀ i h, hooks[i]? = some h → ∀ s, initStep + 1 ≤ s → (runs (i + 1) s = true ↔
        Due h.2 (initStep + 1) trainSteps s ∨ Elapsed h.2 (clock (i + 1)) (runs (i + 1)) (initStep + 1) s)) ∧
      train update saves cost process clock progressProcess progress hooks initStep trainSteps params batches =
        .ok ((List.range (min (trainSteps - initStep) batches.length)).flatMap fun j => (batches[j]?).elim [] fun b =>
          let s := initStep + 1 + j
          let r := update (after update params (batches.take j)) b
          (if runs 0 s then [.report s r.2 (cost s)] else []) ++ (if saves s then [.save s r.1] else []) ++
            (hooks.zipIdx 1).flatMap fun h => if runs h.2 s then [.run h.1.1 s r.1 (cost s)] else []) := by
  let runs : Nat → Nat → Bool := fun i s =>
    match i with
    | 0 => runsAt (.progress progressProcess) process (create progress (initStep + 1) trainSteps) (clock 0) (initStep + 1) s
    | i + 1 => (hooks[i]?).elim false fun h =>
      runsAt .callback process (create h.2 (initStep + 1) trainSteps) (clock (i + 1)) (initStep + 1) s
  refine ⟨runs, fun s hs => runsAt_progress process progressProcess progress (clock 0) (initStep + 1) trainSteps s h1 hs,
    ?_, ?_⟩
  · intro i h hi s hs
    have hr : runs (i + 1) =
        runsAt .callback process (create h.2 (initStep + 1) trainSteps) (clock (i + 1)) (initStep + 1) := by
      funext s
      show (hooks[i]?).elim false _ = _
      rw [hi]
      rfl
    rw [hr]
    exact runsAt_callback process h.2 (clock (i + 1)) (initStep + 1) trainSteps s (h0 h (List.mem_of_getElem? hi)) hs
  · rw [train_eq _ _ _ _ _ _ _ _ _ _ _ _ h0 h1]
    congr 1
    apply List.flatMap_congr
    intro j _
    cases batches[j]? with
    | none => rfl
    | some b =>
      simp only [Option.elim_some, stepEvents, hookEvents]
      congr 1
      apply List.flatMap_congr
      intro h hh
      have hi : hooks[h.2 - 1]? = some h.1 ∧ 1 ≤ h.2 := by
        obtain ⟨x, i⟩ := h
        have := List.mk_mem_zipIdx_iff_le_and_getElem?_sub.1 hh
        exact ⟨this.2, this.1⟩
      obtain ⟨i, hi2⟩ := Nat.exists_eq_add_of_le hi.2
      have hr : runs h.2 (initStep + 1 + j) =
          runsAt .callback process (create h.1.2 (initStep + 1) trainSteps) (clock h.2) (initStep + 1)
            (initStep + 1 + j) := by
        have e : h.2 = i + 1 := by omega
        rw [e] at hi ⊢
        show (hooks[i]?).elim false _ = _
        rw [show hooks[i]? = some h.1 from hi.1]
        rfl
      rw [hr]

/-- C85: every evaluation is done with the parameters after the first update of this run and with the final parameters, if
there is a batch for each step. -/
theorem C85_first_and_last (h0 : ∀ h ∈ hooks, h.2.everySteps ≠ some 0) (h1 : progress.everySteps ≠ some 0)
    (hi : initStep < trainSteps) (hb : trainSteps ≤ initStep + batches.length) :
    ∃ evs, train update saves cost process clock progressProcess progress hooks initStep trainSteps params batches = .ok evs ∧
      ∀ h ∈ hooks,
        .run h.1 (initStep + 1) (after update params (batches.take 1)) (cost (initStep + 1)) ∈ evs ∧
        .run h.1 trainSteps (after update params (batches.take (trainSteps - initStep))) (cost trainSteps) ∈ evs := by
  obtain ⟨runs, -, hr, heq⟩ := C85_hooks update saves cost process clock progressProcess progress hooks initStep
    trainSteps params batches h0 h1
  refine ⟨_, heq, ?_⟩
  intro h hh
  obtain ⟨i, hlt, hi2⟩ := List.getElem_of_mem hh
  have hget : hooks[i]? = some h := by rw [← hi2]; exact List.getElem?_eq_getElem hlt
  have key : ∀ j, j < trainSteps - initStep → Due h.2 (initStep + 1) trainSteps (initStep + 1 + j) →
      Event.run (M := M) h.1 (initStep + 1 + j) (after update params (batches.take (j + 1))) (cost (initStep + 1 + j)) ∈
        (List.range (min (trainSteps - initStep) batches.length)).flatMap fun j => (batches[j]?).elim [] fun b =>
          let s := initStep + 1 + j
          let r := update (after update params (batches.take j)) b
          (if runs 0 s then [.report s r.2 (cost s)] else []) ++ (if saves s then [.save s r.1] else []) ++
            (hooks.zipIdx 1).flatMap fun h => if runs h.2 s then [.run h.1.1 s r.1 (cost s)] else [] := by
    intro j hj hdue
    have hjb : j < batches.length := by omega
    rw [List.mem_flatMap]
    refine ⟨j, List.mem_range.2 (by omega), ?_⟩
    rw [List.getElem?_eq_getElem hjb]
    simp only [Option.elim_some]
    rw [List.mem_append]
    right
    rw [List.mem_flatMap]
    refine ⟨(h, i + 1), ?_, ?_⟩
    · rw [List.mk_mem_zipIdx_iff_le_and_getElem?_sub]
      exact ⟨by omega, by simpa using hget⟩
    · simp only []
      rw [if_pos ((hr i h hget _ (by omega)).2 (Or.inl hdue)), List.mem_singleton]
      congr 1
      rw [List.take_succ_eq_append_getElem hjb]
      unfold after
      rw [List.foldl_append]
      rfl
  constructor
  · exact key 0 (by omega) (Or.inr (Or.inr (Or.inl rfl)))
  · have := key (trainSteps - initStep - 1) (by omega) (Or.inr (Or.inr (Or.inr (by omega))))
    rw [show initStep + 1 + (trainSteps - initStep - 1) = trainSteps by omega,
      show trainSteps - initStep - 1 + 1 = trainSteps - initStep by omega] at this
    exact this

/-- The evaluations among the events. -/
def evaluations (evs : List (Event P M)) : List (Event P M) :=
  evs.filter fun e => match e with
    | .run _ _ _ _ => true
    | _ => false

theorem evaluations_step (b c : Bool) (s : Nat) (m : M) (p : P) (k : PyDict (List Char) ℚ)
    (l : List ((List Char × HookConfig) × Nat)) (r : (List Char × HookConfig) × Nat → Bool) :
    evaluations ((if b then [.report s m k] else []) ++ (if c then [.save s p] else []) ++
      l.flatMap fun h => if r h then [.run h.1.1 s p k] else []) =
    l.flatMap fun h => if r h then [Event.run h.1.1 s p k] else ([] : List (Event P M)) := by
  unfold evaluations
  rw [List.filter_append, List.filter_append]
  have e1 : ∀ (b c : Bool), (List.filter (fun e : Event P M => match e with
      | .run _ _ _ _ => true
      | _ => false) (if b then [.report s m k] else [])) ++
      (List.filter (fun e : Event P M => match e with
      | .run _ _ _ _ => true
      | _ => false) (if c then [.save s p] else [])) = [] := by
    intro b c
    cases b <;> cases c <;> rfl
  rw [e1, List.nil_append, List.filter_flatMap]
  apply List.flatMap_congr
  intro h _
  cases r h <;> rfl

/-- C85: without `every_secs` all processes run the same evaluations, whatever their clocks say. -/
theorem C85_same_on_all_processes (process' : Nat) (clock' : Nat → Nat → ℚ)
    (h0 : ∀ h ∈ hooks, h.2.everySteps ≠ some 0) (h1 : progress.everySteps ≠ some 0)
    (hs : ∀ h ∈ hooks, h.2.everySecs = none) :
    ∃ evs evs',
      train update saves cost process clock progressProcess progress hooks initStep trainSteps params batches = .ok evs ∧
      train update saves cost process' clock' progressProcess progress hooks initStep trainSteps params batches = .ok evs' ∧
      evaluations evs = evaluations evs' := by
  obtain ⟨runs, -, hr, heq⟩ := C85_hooks update saves cost process clock progressProcess progress hooks initStep
    trainSteps params batches h0 h1
  obtain ⟨runs', -, hr', heq'⟩ := C85_hooks update saves cost process' clock' progressProcess progress hooks initStep
    trainSteps params batches h0 h1
  refine ⟨_, _, heq, heq', ?_⟩
  conv_lhs => unfold evaluations
  conv_rhs => unfold evaluations
  rw [List.filter_flatMap, List.filter_flatMap]
  apply List.flatMap_congr
  intro j _
  cases batches[j]? with
  | none => rfl
  | some b =>
    simp only [Option.elim_some]
    change evaluations _ = evaluations _
    rw [evaluations_step, evaluations_step]
    apply List.flatMap_congr
    intro h hh
    have hi : hooks[h.2 - 1]? = some h.1 ∧ 1 ≤ h.2 := by
      obtain ⟨x, i⟩ := h
      have := List.mk_mem_zipIdx_iff_le_and_getElem?_sub.1 hh
      exact ⟨this.2, this.1⟩
    have hn : h.1.2.everySecs = none := hs _ (List.mem_of_getElem? hi.1)
    have e : h.2 - 1 + 1 = h.2 := by omega
    have a1 := hr _ _ hi.1 (initStep + 1 + j) (by omega)
    have a2 := hr' _ _ hi.1 (initStep + 1 + j) (by omega)
    rw [e] at a1 a2
    have n1 : ¬ Elapsed h.1.2 (clock h.2) (runs h.2) (initStep + 1) (initStep + 1 + j) := by
      rintro ⟨secs, hsecs, -⟩
      rw [hn] at hsecs
      cases hsecs
    have n2 : ¬ Elapsed h.1.2 (clock' h.2) (runs' h.2) (initStep + 1) (initStep + 1 + j) := by
      rintro ⟨secs, hsecs, -⟩
      rw [hn] at hsecs
      cases hsecs
    have : runs h.2 (initStep + 1 + j) = runs' h.2 (initStep + 1 + j) := by
      rw [Bool.eq_iff_iff, a1, a2]
      simp only [n1, n2, or_false]
    rw [this]

/-- C85: although documented to be always there, the first step is never reported. -/
theorem C85_first_report_counterexample (h0 : ∀ h ∈ hooks, h.2.everySteps ≠ some 0) (h1 : progress.everySteps ≠ some 0) :
    ∃ evs, train update saves cost process clock progressProcess progress hooks initStep trainSteps params batches = .ok evs ∧
      ∀ m c, .report (initStep + 1) m c ∉ evs := by
  obtain ⟨runs, hr, -, heq⟩ := C85_hooks update saves cost process clock progressProcess progress hooks initStep
    trainSteps params batches h0 h1
  refine ⟨_, heq, ?_⟩
  intro m c hmem
  rw [List.mem_flatMap] at hmem
  obtain ⟨j, hj, hm⟩ := hmem
  cases hb : batches[j]? with
  | none =>
    rw [hb] at hm
    simp at hm
  | some b =>
    rw [hb] at hm
    simp only [Option.elim_some, List.mem_append, List.mem_flatMap] at hm
    rcases hm with (hm | hm) | ⟨h, -, hm⟩
    · split at hm
      · rename_i hrun
        rw [List.mem_singleton] at hm
        injection hm with e1 e2 e3
        exact ((hr _ (by omega)).1 hrun).2.1 e1.symm
      · cases hm
    · split at hm
      · rw [List.mem_singleton] at hm
        cases hm
      · cases hm
    · split at hm
      · rw [List.mem_singleton] at hm
        cases hm
      · cases hm

/-- C85: the evaluation of the final parameters can be lost.  The checkpoint of the last step is written before the evaluation:
a process that is killed in between is started again from the last step, and evaluates nothing. -/
theorem C85_final_evaluation_lost_counterexample (h0 : ∀ h ∈ hooks, h.2.everySteps ≠ some 0)
    (h1 : progress.everySteps ≠ some 0) (hi : initStep < trainSteps) (hb : trainSteps ≤ initStep + batches.length)
    (hs : saves trainSteps = true) :
    ∃ pre post p,
      train update saves cost process clock progressProcess progress hooks initStep trainSteps params batches =
        .ok (pre ++ post) ∧
      .save trainSteps p ∈ pre ∧ (∀ name q c, .run name trainSteps q c ∉ pre) ∧
      ∀ batches', train update saves cost process clock progressProcess progress hooks trainSteps trainSteps p batches' =
        .ok [] := by
  obtain ⟨runs, -, -, heq⟩ := C85_hooks update saves cost process clock progressProcess progress hooks initStep
    trainSteps params batches h0 h1
  obtain ⟨n, hn⟩ : ∃ n, trainSteps - initStep = n + 1 := ⟨trainSteps - initStep - 1, by omega⟩
  have hlen : n < batches.length := by omega
  have hlast : initStep + 1 + n = trainSteps := by omega
  rw [hn, show min (n + 1) batches.length = n + 1 by omega, List.range_succ, List.flatMap_append] at heq
  rw [List.flatMap_singleton, List.getElem?_eq_getElem hlen] at heq
  simp only [Option.elim_some] at heq
  rw [← List.append_assoc] at heq
  refine ⟨_, _, (update (after update params (batches.take n)) batches[n]).1, heq, ?_, ?_, ?_⟩
  · rw [List.mem_append, List.mem_append]
    right; right
    rw [hlast, if_pos hs]
    exact List.mem_singleton.2 rfl
  · intro name q c hmem
    rw [List.mem_append] at hmem
    rcases hmem with hmem | hmem
    · rw [List.mem_flatMap] at hmem
      obtain ⟨j, hj, hm⟩ := hmem
      rw [List.mem_range] at hj
      rw [List.getElem?_eq_getElem (by omega)] at hm
      simp only [Option.elim_some, List.mem_append, List.mem_flatMap] at hm
      rcases hm with (hm | hm) | ⟨h, -, hm⟩
      · split at hm
        · cases List.mem_singleton.1 hm
        · cases hm
      · split at hm
        · cases List.mem_singleton.1 hm
        · cases hm
      · split at hm
        · have := List.mem_singleton.1 hm
          injection this with e1 e2
          omega
        · cases hm
    · rw [List.mem_append] at hmem
      rcases hmem with hm | hm
      · split at hm
        · cases List.mem_singleton.1 hm
        · cases hm
      · split at hm
        · cases List.mem_singleton.1 hm
        · cases hm
  · intro batches'
    unfold train
    rw [Nat.sub_self]
    rfl

/-- C85: `every_steps = 0` is accepted when the hooks are built, and fails after the first update. -/
theorem C85_zero_every_steps (c : HookConfig) (name : List Char) (rest : List (List Char × HookConfig)) (b : B)
    (bs : List B) (hc : c.everySteps = some 0) (hi : initStep < trainSteps) (h1 : progress.everySteps ≠ some 0) :
    train update saves cost process clock progressProcess progress ((name, c) :: rest) initStep trainSteps params (b :: bs) =
      .error .zeroDivisionError := by
  obtain ⟨n, hn⟩ : ∃ n, trainSteps - initStep = n + 1 := ⟨trainSteps - initStep - 1, by omega⟩
  obtain ⟨hcall, -⟩ := call_eq (.progress progressProcess) process (create progress (initStep + 1) trainSteps) (clock 0)
    (initStep + 1) h1 0
  unfold train
  have e1 : (List.range (n + 1)).map (initStep + 1 + ·) =
      (initStep + 1 + 0) :: ((List.range n).map Nat.succ).map (initStep + 1 + ·) := by
    rw [List.range_succ_eq_map, List.map_cons]
  rw [hn, e1, loop]
  simp only []
  rw [show ActionState.new = stAt (.progress progressProcess) process (create progress (initStep + 1) trainSteps) (clock 0)
    (initStep + 1) 0 from rfl, hcall]
  simp only [bind, Except.bind]
  have : call .callback process (create c (initStep + 1) trainSteps) .new (initStep + 1 + 0) (clock 1 (initStep + 1 + 0)) =
      .error .zeroDivisionError := by
    unfold call initAndCheck hookTrigger shouldTrigger
    simp only [ActionState.new, create, hc, if_true]
    rfl
  rw [List.map_cons, List.map_cons, callHooks]
  simp only [bind, Except.bind]
  rw [show stAt (.progress progressProcess) process (create progress (initStep + 1) trainSteps) (clock 0) (initStep + 1) 0 =
    ActionState.new from rfl, this]

end

/-- C85: the cost of training reported by the hooks is the one of a step on one device, times the steps so far and the
devices; values that are not positive are left out. -/
theorem C85_cost (flops seconds : Option ℚ) (devices step : Nat) :
    (∀ v, PyDict.get? (trainCost flops seconds devices step) "flops".toList = some v ↔
      ∃ f ∈ flops, 0 < f ∧ v = f * step * devices) ∧
    (∀ v, PyDict.get? (trainCost flops seconds devices step) "device_seconds".toList = some v ↔
      ∃ f ∈ seconds, 0 < f ∧ v = f * step * devices) ∧
    ∀ k, k ≠ "flops".toList → k ≠ "device_seconds".toList →
      PyDict.get? (trainCost flops seconds devices step) k = none := by
  have ne : "flops".toList ≠ "device_seconds".toList := by decide
  have hp : ∀ (x : Option ℚ) (v : ℚ), positive x = some v ↔ ∃ f ∈ x, 0 < f ∧ v = f := by
    intro x v
    cases x with
    | none => simp [positive]
    | some f =>
      by_cases hf : f ≤ 0
      · simp only [positive, Option.filter, hf, not_true_eq_false, decide_false, Option.mem_some]
        constructor
        · intro h
          cases h
        · rintro ⟨g, rfl, h, -⟩
          exact absurd hf (not_le.2 h)
      · simp only [positive, Option.filter, hf, not_false_eq_true, decide_true, if_true, Option.mem_some]
        constructor
        · rintro ⟨⟩
          exact ⟨_, rfl, not_le.1 hf, rfl⟩
        · rintro ⟨g, rfl, -, rfl⟩
          rfl
  generalize hA : positive flops = A
  generalize hB : positive seconds = B
  have ha : ∀ v, (∃ f ∈ flops, 0 < f ∧ v = f * step * devices) ↔ A.map (fun f : ℚ => f * step * devices) = some v := by
    intro v
    rw [← hA, Option.map_eq_some_iff]
    constructor
    · rintro ⟨f, h1, h2, h3⟩
      exact ⟨f, (hp _ _).2 ⟨f, h1, h2, rfl⟩, h3.symm⟩
    · rintro ⟨f, h1, h2⟩
      obtain ⟨f', h3, h4, rfl⟩ := (hp _ _).1 h1
      exact ⟨f, h3, h4, h2.symm⟩
  have hb : ∀ v, (∃ f ∈ seconds, 0 < f ∧ v = f * step * devices) ↔ B.map (fun f : ℚ => f * step * devices) = some v := by
    intro v
    rw [← hB, Option.map_eq_some_iff]
    constructor
    · rintro ⟨f, h1, h2, h3⟩
      exact ⟨f, (hp _ _).2 ⟨f, h1, h2, rfl⟩, h3.symm⟩
    · rintro ⟨f, h1, h2⟩
      obtain ⟨f', h3, h4, rfl⟩ := (hp _ _).1 h1
      exact ⟨f, h3, h4, h2.symm⟩
  simp only [ha, hb]
  unfold trainCost
  rw [hA, hB]
  generalize "flops".toList = kf at ne ⊢
  generalize "device_seconds".toList = kd at ne ⊢
  refine ⟨fun v => ?_, fun v => ?_, fun k h1 h2 => ?_⟩
  · cases A <;> cases B <;> simp [PyDict.get?, ne.symm]
  · cases A <;> cases B <;> simp [PyDict.get?, ne]
  · cases A <;> cases B <;> simp [PyDict.get?, h1.symm, h2.symm]

/-- Training with an evaluation every 60 seconds. -/
def exRun (clock : Nat → Nat → ℚ) : Except PyErr (List (Event Nat Unit)) :=
  train (fun p (_ : Unit) => (p + 1, ())) (fun s => s % 2 == 0) (fun s => trainCost (some 10) none 4 s) 0 clock (some 0)
    ⟨some 2, none, []⟩ (trainerHooks ⟨none, some 60, []⟩ none) 0 4 0 [(), (), (), (), ()]

/-- The steps of the evaluations. -/
def runSteps (evs : List (Event P M)) : List Nat :=
  evs.filterMap fun e => match e with
    | .run _ s _ _ => some s
    | _ => none

/-- C85: with `every_secs` processes with different clocks evaluate in different steps, although an evaluation is a
computation of all processes together. -/
theorem C85_clocks_disagree_counterexample :
    (exRun fun _ s => 50 * s).map runSteps = .ok [1, 3, 4] ∧
    (exRun fun _ s => 30 * s).map runSteps = .ok [1, 4] := by
  decide +kernel

/-- C85: without Big Vision, retrieval and zero-shot evaluations are silently left out of the contrastive training, whatever
the configuration asks for. -/
theorem C85_without_big_vision_counterexample (tasks datasets : List (List Char)) (retrieval zeroshot : HookConfig)
    (update : P → B → P × M) (saves : Nat → Bool) (cost : Nat → PyDict (List Char) ℚ) (process : Nat)
    (clock : Nat → Nat → ℚ) (progressProcess : Option Nat) (progress : HookConfig) (initStep trainSteps : Nat) (params : P)
    (batches : List B) (h1 : progress.everySteps ≠ some 0) :
    ∃ evs, train update saves cost process clock progressProcess progress
        (contrastiveHooks false none tasks retrieval datasets zeroshot) initStep trainSteps params batches = .ok evs ∧
      evaluations evs = [] := by
  have e : contrastiveHooks false none tasks retrieval datasets zeroshot = [] := by simp [contrastiveHooks]
  rw [e]
  obtain ⟨runs, -, -, heq⟩ := C85_hooks update saves cost process clock progressProcess progress [] initStep
    trainSteps params batches (by simp) h1
  refine ⟨_, heq, ?_⟩
  unfold evaluations
  rw [List.filter_flatMap, List.flatMap_eq_nil_iff]
  intro j _
  cases batches[j]? with
  | none => rfl
  | some b =>
    change evaluations _ = []
    simp only [Option.elim_some]
    rw [evaluations_step]
    rfl

/-- C85: also with Big Vision a configuration without few-shot evaluation, retrieval tasks and zero-shot datasets makes the
contrastive training run no evaluation at all. -/
theorem C85_nothing_to_evaluate (bigVision : Bool) (retrieval zeroshot : HookConfig)
    (update : P → B → P × M) (saves : Nat → Bool) (cost : Nat → PyDict (List Char) ℚ) (process : Nat)
    (clock : Nat → Nat → ℚ) (progressProcess : Option Nat) (progress : HookConfig) (initStep trainSteps : Nat) (params : P)
    (batches : List B) (h1 : progress.everySteps ≠ some 0) :
    ∃ evs, train update saves cost process clock progressProcess progress
        (contrastiveHooks bigVision none [] retrieval [] zeroshot) initStep trainSteps params batches = .ok evs ∧
      evaluations evs = [] := by
  have e : contrastiveHooks bigVision none [] retrieval [] zeroshot =
      contrastiveHooks false none [] retrieval [] zeroshot := by
    unfold contrastiveHooks
    cases bigVision
    · rfl
    · rw [if_neg (fun h : true = true ∧ ([] : List (List Char)) ≠ [] => h.2 rfl),
        if_neg (fun h : false = true ∧ ([] : List (List Char)) ≠ [] => h.2 rfl)]
      rfl
  rw [e]
  exact C85_without_big_vision_counterexample [] [] retrieval zeroshot update saves cost process clock progressProcess
    progress initStep trainSteps params batches h1

/-- C85: with Big Vision the evaluations of the contrastive training are the few-shot evaluation if it is configured, one for
each retrieval task, and a zero-shot evaluation if there is a dataset. -/
theorem C85_big_vision_hooks (fewshot : Option HookConfig) (tasks datasets : List (List Char))
    (retrieval zeroshot : HookConfig) (name : List Char) (cfg : HookConfig) :
    (name, cfg) ∈ contrastiveHooks true fewshot tasks retrieval datasets zeroshot ↔
      (name = "fewshot".toList ∧ fewshot = some cfg) ∨
      (∃ task ∈ tasks, name = "retrieval/".toList ++ task ∧ cfg = retrieval) ∨
      (datasets ≠ [] ∧ name = "zeroshot".toList ∧ cfg = zeroshot) := by
  unfold contrastiveHooks
  simp only [if_true, List.mem_append, Option.mem_toList, Option.map_eq_some_iff, Prod.mk.injEq, List.mem_map, true_and,
    or_assoc]
  refine or_congr ?_ (or_congr ?_ ?_)
  · constructor
    · rintro ⟨a, rfl, rfl, rfl⟩
      exact ⟨rfl, rfl⟩
    · rintro ⟨rfl, rfl⟩
      exact ⟨cfg, rfl, rfl, rfl⟩
  · constructor
    · rintro ⟨a, ha, rfl, rfl⟩
      exact ⟨a, ha, rfl, rfl⟩
    · rintro ⟨a, ha, rfl, rfl⟩
      exact ⟨a, ha, rfl, rfl⟩
  · by_cases h : datasets = [] <;> simp [h]

/-- An evaluation in the first and last step, in step 4 and every third step, and a few-shot evaluation every five steps. -/
def exHooks : List (List Char × HookConfig) := trainerHooks ⟨some 3, none, [4]⟩ (some ⟨some 5, none, []⟩)

example : (∀ h ∈ exHooks, h.2.everySteps ≠ some 0) ∧ (∀ h ∈ exHooks, h.2.everySecs = none) ∧ (2 : Nat) < 7 ∧
    7 ≤ 2 + [(), (), (), (), (), ()].length := by
  decide

example : (train (fun p (_ : Unit) => (p + 1, ())) (fun s => s % 2 == 0) (fun _ => []) 0 (fun _ _ => 0) (some 0)
    ⟨some 2, none, []⟩ exHooks 2 7 2 [(), (), (), (), (), ()]).map (fun evs => evs.filterMap fun e => match e with
      | .run name s p _ => if p = s then some (name, s) else none
      | _ => none) = (.ok [("eval".toList, 3), ("fewshot".toList, 3), ("eval".toList, 4), ("fewshot".toList, 5),
        ("eval".toList, 6), ("eval".toList, 7), ("fewshot".toList, 7)] : Except PyErr _) := by
  decide +kernel

end Verif.Hooks
