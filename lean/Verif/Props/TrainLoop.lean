import Verif.Proofs.TrainLoop

/-! Properties C51 (labels of checkpoints across crashes) and C69 (work lost in a crash). -/

namespace Verif.TrainLoop

open Verif Verif.TrainSpec

variable {P B : Type}

/-- C51: whatever happens (crashes at any moment, restarts, deletions of old checkpoints), the checkpoint labelled `k`
holds a state whose step is `k` and that results from the initial state by exactly `k - init.step` updates, each run
using batches from the beginning of an iterator. -/
theorem C51_labels (cfg : Config P B) (supply : List B → Prop) (hinit : cfg.init.step ≤ cfg.trainSteps)
    (hsup : ∀ bs, supply bs → cfg.trainSteps ≤ bs.length) (s : Sys P B) (h : Reachable cfg supply s)
    (k : Nat) (st : TS P) (hk : (k, st) ∈ s.disk) :
    st.step = k ∧ k ≤ cfg.trainSteps ∧
      ∃ runs : List (List B), (∀ r ∈ runs, ∃ bs, supply bs ∧ r <+: bs) ∧
        st.params = runs.flatten.foldl cfg.update cfg.init.params ∧ cfg.init.step + runs.flatten.length = k := by
  obtain ⟨h1, ⟨runs, h2, h3, h4⟩, h5⟩ := (inv_reachable hinit hsup h).disk k st hk
  exact ⟨h1, h5, runs, h2, h3, by rw [← h4, h1]⟩

/-- C51: when the program has completed, there is a checkpoint labelled with the total number of steps, and its state is
at that step; the process holds a state at that step too. -/
theorem C51_completed (cfg : Config P B) (supply : List B → Prop) (hinit : cfg.init.step ≤ cfg.trainSteps)
    (hsup : ∀ bs, supply bs → cfg.trainSteps ≤ bs.length) (s : Sys P B) (h : Reachable cfg supply s)
    (r : Run P B) (hr : s.run = some r) (hdone : r.phase = .done) :
    r.state.step = cfg.trainSteps ∧ ∃ st, (cfg.trainSteps, st) ∈ s.disk ∧ st.step = cfg.trainSteps := by
  have hi := inv_reachable hinit hsup h
  have hrun := hi.run r hr
  refine ⟨hrun.finalStep (Or.inr (Or.inr hdone)), ?_⟩
  obtain ⟨⟨k, st⟩, hm, he⟩ := List.mem_map.1 (hrun.done hdone)
  simp only at he
  subst he
  exact ⟨st, hm, (hi.disk _ _ hm).1⟩

/-- C51: the checkpoints of a single run that is not interrupted hold the initial state updated with the first batches
of the iterator. -/
theorem C51_uninterrupted (cfg : Config P B) (supply : List B → Prop) (hinit : cfg.init.step ≤ cfg.trainSteps)
    (hsup : ∀ bs, supply bs → cfg.trainSteps ≤ bs.length) (s0 s : Sys P B) (h0 : Step cfg supply ⟨[], none⟩ s0)
    (h : Relation.ReflTransGen (fun a b => Step cfg supply a b ∧ b.run ≠ none) s0 s) :
    ∃ bs, supply bs ∧ ∀ k st, (k, st) ∈ s.disk →
      cfg.init.step ≤ k ∧ st.step = k ∧
      st.params = (bs.take (k - cfg.init.step)).foldl cfg.update cfg.init.params := by
  have hreach : Reachable cfg supply s := by
    refine Relation.ReflTransGen.head h0 ?_
    exact Relation.ReflTransGen.mono (fun a b hab => hab.1) _ _ h
  have key : ∃ bs, supply bs ∧ s.run ≠ none ∧ Single cfg bs s := by
    cases h0 with
    | @start _ bs hb =>
      refine ⟨bs, hb, ?_⟩
      induction h with
      | refl =>
        refine ⟨by simp, by simp, ?_⟩
        rintro r hr
        simp only [Option.some.injEq] at hr
        subst hr
        exact ⟨⟨[], by simp, by simp [restore, latestStep, PyDict.keys], by simp [restore, latestStep, PyDict.keys]⟩,
          by simp⟩
      | tail hprev hstep ih =>
        have ih := ih (by
          refine Relation.ReflTransGen.head (Step.start hb) ?_
          exact Relation.ReflTransGen.mono (fun a b hab => hab.1) _ _ hprev)
        exact ⟨hstep.2, single_step ih.1 ih.2 hstep.1⟩
  obtain ⟨bs, hb, _, hsingle⟩ := key
  refine ⟨bs, hb, ?_⟩
  intro k st hk
  have h1 := (C51_labels cfg supply hinit hsup s hreach k st hk).1
  obtain ⟨n, _, h3, h4⟩ := hsingle.disk k st hk
  refine ⟨by omega, h1, ?_⟩
  have : k - cfg.init.step = n := by omega
  rw [this]
  exact h4

/-- C69: a process that is killed at any moment loses at most twice as many updates as there are steps between two
checkpoints: the state that the next process starts from is at most that far behind. -/
theorem C69_lost_work (cfg : Config P B) (supply : List B → Prop) (hinit : cfg.init.step ≤ cfg.trainSteps)
    (hsup : ∀ bs, supply bs → cfg.trainSteps ≤ bs.length) (hevery : 0 < cfg.every) (s : Sys P B)
    (h : Reachable cfg supply s) (r : Run P B) (hr : s.run = some r) :
    r.state.step ≤ (restore cfg s.disk).step + 2 * cfg.every ∧ (restore cfg s.disk).step ≤ r.state.step := by
  obtain ⟨d, ha⟩ := ahead_reachable hinit hsup hevery h r hr
  have hi := inv_reachable hinit hsup h
  rw [restore_step hi.disk ha.top]
  have h1 := ha.le
  have h2 := ha.le'
  have h3 := ha.near
  have near : ∀ a b : Nat, a / cfg.every = b / cfg.every → b < a + cfg.every := by
    intro a b hab
    have h4 := Nat.div_add_mod b cfg.every
    have h5 := Nat.mod_lt b hevery
    have h6 := Nat.mul_div_le a cfg.every
    rw [hab] at h6
    omega
  refine ⟨?_, by omega⟩
  rcases hp : r.phase with _ | _ | _ | _ | _ | _
  · have := (ha.firstPending hp).2
    omega
  · have := near _ _ (ha.same (Or.inl hp))
    omega
  · have := near _ _ (ha.lt hp).2
    omega
  · have := near _ _ (ha.same (Or.inr hp))
    omega
  · have := ha.last (Or.inl hp)
    omega
  · have := ha.last (Or.inr hp)
    omega

/-! Executions: training for three steps with a checkpoint every two steps, where an update appends the batch. -/

/-- A configuration for the examples. -/
def exampleConfig : Config (List Nat) Nat := ⟨3, 2, ⟨0, []⟩, fun p b => p ++ [b]⟩

/-- An iterator over three batches. -/
def exampleSupply (bs : List Nat) : Prop := bs = [10, 20, 30]

/-- The run is killed after its second checkpoint and the next one completes. -/
theorem example_history : Reachable exampleConfig exampleSupply
    ⟨[(0, ⟨0, []⟩), (2, ⟨2, [10, 20]⟩), (3, ⟨3, [10, 20, 10]⟩)],
      some ⟨⟨3, [10, 20, 10]⟩, 4, [20, 30], none, .done⟩⟩ := by
  refine Relation.ReflTransGen.head (Step.start (bs := [10, 20, 30]) rfl) ?_
  refine Relation.ReflTransGen.head (Step.saveFirst rfl (by simp [PyDict.keys])) ?_
  refine Relation.ReflTransGen.head (Step.train (by decide)) ?_
  refine Relation.ReflTransGen.head (Step.skipSave (by simp [shouldSave, exampleConfig, restore, latestStep, PyDict.keys])) ?_
  refine Relation.ReflTransGen.head Step.commit ?_
  refine Relation.ReflTransGen.head (Step.train (by decide)) ?_
  refine Relation.ReflTransGen.head (Step.save (by
    simp [shouldSave, exampleConfig, restore, latestStep, PyDict.keys, PyDict.set])) ?_
  refine Relation.ReflTransGen.head Step.commit ?_
  refine Relation.ReflTransGen.head Step.stop ?_
  refine Relation.ReflTransGen.head (Step.start (bs := [10, 20, 30]) rfl) ?_
  refine Relation.ReflTransGen.head (Step.skipFirst (by
    simp [restore, latestStep, PyDict.keys, PyDict.set, PyDict.get?, exampleConfig])) ?_
  refine Relation.ReflTransGen.head (Step.train (by decide)) ?_
  refine Relation.ReflTransGen.head (Step.skipSave (by
    simp [shouldSave, exampleConfig, restore, latestStep, PyDict.keys, PyDict.set, PyDict.get?])) ?_
  refine Relation.ReflTransGen.head (Step.endLoop (Or.inl (by decide))) ?_
  refine Relation.ReflTransGen.head (Step.finalSave (by decide)) ?_
  refine Relation.ReflTransGen.head Step.commit ?_
  exact Relation.ReflTransGen.single Step.lastWait

/-- The hypotheses of the theorems hold for this history. -/
example : exampleConfig.init.step ≤ exampleConfig.trainSteps ∧
    (∀ bs, exampleSupply bs → exampleConfig.trainSteps ≤ bs.length) ∧ 0 < exampleConfig.every := by
  refine ⟨by decide, ?_, by decide⟩
  rintro bs rfl
  decide

/-- C51: after a restart the data is read from the beginning again, although the position was saved: the final state of
an interrupted training is not the one of the uninterrupted training. -/
theorem C51_replay_counterexample : ∃ (cfg : Config (List Nat) Nat) (data : List Nat) (s : Sys (List Nat) Nat),
    Reachable cfg (fun bs => bs = data) s ∧ ∃ st, (cfg.trainSteps, st) ∈ s.disk ∧
      st.params ≠ (data.take cfg.trainSteps).foldl cfg.update cfg.init.params :=
  ⟨exampleConfig, [10, 20, 30], _, example_history, ⟨3, [10, 20, 10]⟩, by simp [exampleConfig], by decide⟩

/-- C51: the claim needs iterators that do not end early.  If the data ends before the last step, the state of the step
that was reached is stored under the label of the last step; a later run that does reach the last step leaves that
checkpoint as it is and its own state is never saved. -/
theorem C51_early_end_counterexample : ∃ (cfg : Config (List Nat) Nat) (s : Sys (List Nat) Nat) (r : Run (List Nat) Nat),
    Reachable cfg (fun _ => True) s ∧ s.run = some r ∧ r.phase = .done ∧ r.state.step = cfg.trainSteps ∧
      (∀ k st, (k, st) ∈ s.disk → st.step ≤ 1) ∧ cfg.trainSteps = 3 ∧ ∃ st, (3, st) ∈ s.disk := by
  refine ⟨exampleConfig, ⟨[(0, ⟨0, []⟩), (3, ⟨1, [10]⟩)], some ⟨⟨3, [10, 10, 20]⟩, 4, [30], none, .done⟩⟩,
    ⟨⟨3, [10, 10, 20]⟩, 4, [30], none, .done⟩, ?_, rfl, rfl, rfl, ?_, rfl, ⟨1, [10]⟩, by simp⟩
  · refine Relation.ReflTransGen.head (Step.start (bs := [10]) trivial) ?_
    refine Relation.ReflTransGen.head (Step.saveFirst rfl (by simp [PyDict.keys])) ?_
    refine Relation.ReflTransGen.head (Step.train (by decide)) ?_
    refine Relation.ReflTransGen.head (Step.skipSave (by simp [shouldSave, exampleConfig, restore, latestStep, PyDict.keys])) ?_
    refine Relation.ReflTransGen.head Step.commit ?_
    refine Relation.ReflTransGen.head (Step.endLoop (Or.inr rfl)) ?_
    refine Relation.ReflTransGen.head (Step.finalSave (by decide)) ?_
    refine Relation.ReflTransGen.head Step.commit ?_
    refine Relation.ReflTransGen.head Step.lastWait ?_
    refine Relation.ReflTransGen.head Step.stop ?_
    refine Relation.ReflTransGen.head (Step.start (bs := [10, 20, 30]) trivial) ?_
    refine Relation.ReflTransGen.head (Step.skipFirst (by
      simp [restore, latestStep, PyDict.keys, PyDict.set, PyDict.get?, exampleConfig])) ?_
    refine Relation.ReflTransGen.head (Step.train (by decide)) ?_
    refine Relation.ReflTransGen.head (Step.skipSave (by
      simp [shouldSave, exampleConfig, restore, latestStep, PyDict.keys, PyDict.set, PyDict.get?])) ?_
    refine Relation.ReflTransGen.head (Step.train (by decide)) ?_
    refine Relation.ReflTransGen.head (Step.skipSave (by
      simp [shouldSave, exampleConfig, restore, latestStep, PyDict.keys, PyDict.set, PyDict.get?])) ?_
    refine Relation.ReflTransGen.head (Step.endLoop (Or.inl (by decide))) ?_
    exact Relation.ReflTransGen.single (Step.finalExists (by decide))
  · intro k st hk
    simp only [List.mem_cons, Prod.mk.injEq, List.not_mem_nil, or_false] at hk
    rcases hk with ⟨_, rfl⟩ | ⟨_, rfl⟩ <;> simp

/-- C51: the claim needs an initial state that is not beyond the last step.  A state initialized from another checkpoint
at step 5 is stored under the label 3 when the training has 3 steps. -/
theorem C51_beyond_counterexample : ∃ (cfg : Config (List Nat) Nat) (s : Sys (List Nat) Nat),
    Reachable cfg (fun bs => bs = [10, 20, 30]) s ∧ ∃ k st, (k, st) ∈ s.disk ∧ st.step ≠ k := by
  refine ⟨⟨3, 2, ⟨5, []⟩, fun p b => p ++ [b]⟩, ⟨[(3, ⟨5, []⟩)], some ⟨⟨5, []⟩, 6, [10, 20, 30], none, .last⟩⟩, ?_,
    3, ⟨5, []⟩, by simp, by simp⟩
  refine Relation.ReflTransGen.head (Step.start (bs := [10, 20, 30]) rfl) ?_
  refine Relation.ReflTransGen.head (Step.skipFirst (by simp [restore, latestStep, PyDict.keys])) ?_
  refine Relation.ReflTransGen.head (Step.endLoop (Or.inl (by decide))) ?_
  refine Relation.ReflTransGen.head (Step.finalSave (by decide)) ?_
  exact Relation.ReflTransGen.single Step.commit

end Verif.TrainLoop
