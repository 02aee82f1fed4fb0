import Verif.Spec.Training
import Verif.Proofs.PyDict
import Mathlib.Data.List.Basic

/-! Invariants of the training program. -/

namespace Verif.TrainLoop

open Verif Verif.TrainSpec

variable {P B : Type}

theorem mem_set {κ ν : Type} [DecidableEq κ] {d : PyDict κ ν} {k k' : κ} {v v' : ν}
    (h : (k', v') ∈ PyDict.set d k v) : (k' = k ∧ v' = v) ∨ (k', v') ∈ d := by
  induction d with
  | nil =>
    simp only [PyDict.set, List.mem_singleton, Prod.mk.injEq] at h
    exact Or.inl h
  | cons e d ih =>
    obtain ⟨k0, v0⟩ := e
    rw [PyDict.set] at h
    split at h
    · rcases List.mem_cons.1 h with h | h
      · exact Or.inl (by simpa using h)
      · exact Or.inr (List.mem_cons_of_mem _ h)
    · rcases List.mem_cons.1 h with h | h
      · exact Or.inr (by rw [h]; exact List.mem_cons_self)
      · exact (ih h).imp id (List.mem_cons_of_mem _)

theorem mem_keys_set {κ ν : Type} [DecidableEq κ] {d : PyDict κ ν} {k k' : κ} {v : ν} :
    k' ∈ PyDict.keys (PyDict.set d k v) ↔ k' = k ∨ k' ∈ PyDict.keys d := by
  rw [PyDict.keys_set]
  split
  · constructor
    · exact Or.inr
    · rintro (rfl | h) <;> assumption
  · simp [or_comm]

theorem get?_mem {κ ν : Type} [DecidableEq κ] {d : PyDict κ ν} {k : κ} {v : ν} (h : PyDict.get? d k = some v) :
    (k, v) ∈ d := by
  induction d with
  | nil => simp [PyDict.get?] at h
  | cons e d ih =>
    obtain ⟨k0, v0⟩ := e
    rw [PyDict.get?] at h
    split at h
    · rename_i h0
      subst h0
      simp only [Option.some.injEq] at h
      subst h
      exact List.mem_cons_self
    · exact List.mem_cons_of_mem _ (ih h)

/-- A state with this label. -/
def Good (cfg : Config P B) (supply : List B → Prop) (k : Nat) (s : TS P) : Prop :=
  s.step = k ∧ Applied cfg supply s ∧ k ≤ cfg.trainSteps

/-- The state of a running process. -/
structure RunInv (cfg : Config P B) (supply : List B → Prop) (disk : PyDict Nat (TS P)) (r : Run P B) : Prop where
  applied : ∃ (runs : List (List B)) (done : List B), (∀ x ∈ runs, ∃ bs, supply bs ∧ x <+: bs) ∧
    supply (done ++ r.iter) ∧
    r.state.params = (runs.flatten ++ done).foldl cfg.update cfg.init.params ∧
    r.state.step = cfg.init.step + (runs.flatten ++ done).length
  le : r.state.step ≤ cfg.trainSteps
  enough : cfg.trainSteps ≤ r.iter.length + r.state.step
  nextLoop : r.phase = .first ∨ r.phase = .loop → r.next = r.state.step + 1
  nextSave : r.phase = .save → r.next = r.state.step
  finalStep : r.phase = .final ∨ r.phase = .last ∨ r.phase = .done → r.state.step = cfg.trainSteps
  pending : ∀ k s, r.pending = some (k, s) → Good cfg supply k s
  last : r.phase = .last → cfg.trainSteps ∈ PyDict.keys disk ∨ ∃ s, r.pending = some (cfg.trainSteps, s)
  done : r.phase = .done → cfg.trainSteps ∈ PyDict.keys disk

/-- The invariant about labels. -/
structure Inv (cfg : Config P B) (supply : List B → Prop) (s : Sys P B) : Prop where
  disk : ∀ k st, (k, st) ∈ s.disk → Good cfg supply k st
  run : ∀ r, s.run = some r → RunInv cfg supply s.disk r

theorem RunInv.appliedState {cfg : Config P B} {supply : List B → Prop} {disk : PyDict Nat (TS P)} {r : Run P B}
    (h : RunInv cfg supply disk r) : Applied cfg supply r.state := by
  obtain ⟨runs, done, h1, h2, h3, h4⟩ := h.applied
  refine ⟨runs ++ [done], ?_, ?_, ?_⟩
  · intro x hx
    rcases List.mem_append.1 hx with hx | hx
    · exact h1 x hx
    · rw [List.mem_singleton.1 hx]
      exact ⟨_, h2, List.prefix_append _ _⟩
  · simpa using h3
  · simpa using h4

theorem init_applied (cfg : Config P B) (supply : List B → Prop) : Applied cfg supply cfg.init :=
  ⟨[], by simp, by simp, by simp⟩

theorem restore_applied {cfg : Config P B} {supply : List B → Prop} {disk : PyDict Nat (TS P)}
    (hd : ∀ k st, (k, st) ∈ disk → Good cfg supply k st) (hinit : cfg.init.step ≤ cfg.trainSteps) :
    Applied cfg supply (restore cfg disk) ∧ (restore cfg disk).step ≤ cfg.trainSteps := by
  unfold restore
  split
  · exact ⟨init_applied cfg supply, hinit⟩
  · rename_i k _
    cases hg : PyDict.get? disk k with
    | none => exact ⟨init_applied cfg supply, hinit⟩
    | some st =>
      obtain ⟨h1, h2, h3⟩ := hd k st (get?_mem hg)
      exact ⟨h2, by simpa [h1] using h3⟩

theorem inv_step {cfg : Config P B} {supply : List B → Prop} (hinit : cfg.init.step ≤ cfg.trainSteps)
    (hsup : ∀ bs, supply bs → cfg.trainSteps ≤ bs.length) {s s' : Sys P B} (hs : Inv cfg supply s)
    (h : Step cfg supply s s') : Inv cfg supply s' := by
  cases h with
  | @start disk bs hb =>
    obtain ⟨ha, hle⟩ := restore_applied hs.disk hinit
    refine ⟨hs.disk, ?_⟩
    rintro r hr
    simp only [Option.some.injEq] at hr
    subst hr
    obtain ⟨runs, h1, h2, h3⟩ := ha
    exact ⟨⟨runs, [], h1, by simpa using hb, by simpa using h2, by simpa using h3⟩, hle, by
      have := hsup bs hb
      simp only
      omega, by simp, by simp, by simp, by simp, by simp, by simp⟩
  | @saveFirst disk state next bs h0 hno =>
    have hr := hs.run _ rfl
    refine ⟨hs.disk, ?_⟩
    rintro r he
    simp only [Option.some.injEq] at he
    subst he
    refine ⟨hr.applied, hr.le, hr.enough, fun _ => hr.nextLoop (Or.inl rfl), by simp, by simp, ?_, by simp, by simp⟩
    rintro k s he
    simp only [Option.some.injEq, Prod.mk.injEq] at he
    obtain ⟨rfl, rfl⟩ := he
    exact ⟨h0, hr.appliedState, Nat.zero_le _⟩
  | @skipFirst disk state next bs pending h0 =>
    have hr := hs.run _ rfl
    refine ⟨hs.disk, ?_⟩
    rintro r he
    simp only [Option.some.injEq] at he
    subst he
    exact ⟨hr.applied, hr.le, hr.enough, fun _ => hr.nextLoop (Or.inl rfl), by simp, by simp, hr.pending, by simp, by simp⟩
  | @train disk state next b bs pending hn =>
    have hr := hs.run _ rfl
    have hnext : next = state.step + 1 := hr.nextLoop (Or.inr rfl)
    refine ⟨hs.disk, ?_⟩
    rintro r he
    simp only [Option.some.injEq] at he
    subst he
    obtain ⟨runs, done, h1, h2, h3, h4⟩ := hr.applied
    simp only at h2 h3 h4
    refine ⟨⟨runs, done ++ [b], h1, by simpa using h2, ?_, ?_⟩, ?_, ?_, by simp, fun _ => hnext, by simp, hr.pending,
      by simp, by simp⟩
    · simp only
      rw [h3, ← List.append_assoc, List.foldl_append (l' := [b])]
      rfl
    · simp only [List.length_append, List.length_singleton] at h4 ⊢
      omega
    · simp only; omega
    · have := hr.enough
      simp only [List.length_cons] at this ⊢
      omega
  | @save disk state next bs hss =>
    have hr := hs.run _ rfl
    have hnext : next = state.step := hr.nextSave rfl
    refine ⟨hs.disk, ?_⟩
    rintro r he
    simp only [Option.some.injEq] at he
    subst he
    refine ⟨hr.applied, hr.le, hr.enough, fun _ => by simp only; omega, by simp, by simp, ?_, by simp, by simp⟩
    rintro k s he
    simp only [Option.some.injEq, Prod.mk.injEq] at he
    obtain ⟨rfl, rfl⟩ := he
    exact ⟨hnext.symm, hr.appliedState, hnext ▸ hr.le⟩
  | @skipSave disk state next bs pending hss =>
    have hr := hs.run _ rfl
    have hnext : next = state.step := hr.nextSave rfl
    refine ⟨hs.disk, ?_⟩
    rintro r he
    simp only [Option.some.injEq] at he
    subst he
    exact ⟨hr.applied, hr.le, hr.enough, fun _ => by simp only; omega, by simp, by simp, hr.pending, by simp, by simp⟩
  | @endLoop disk state next bs pending hend =>
    have hr := hs.run _ rfl
    have hnext : next = state.step + 1 := hr.nextLoop (Or.inr rfl)
    refine ⟨hs.disk, ?_⟩
    rintro r he
    simp only [Option.some.injEq] at he
    subst he
    refine ⟨hr.applied, hr.le, hr.enough, by simp, by simp, fun _ => ?_, hr.pending, by simp, by simp⟩
    have h1 : state.step ≤ cfg.trainSteps := hr.le
    have h2 : cfg.trainSteps ≤ bs.length + state.step := hr.enough
    simp only
    rcases hend with h | rfl
    · omega
    · simp at h2; omega
  | @finalExists disk state next bs hex =>
    have hr := hs.run _ rfl
    refine ⟨hs.disk, ?_⟩
    rintro r he
    simp only [Option.some.injEq] at he
    subst he
    exact ⟨hr.applied, hr.le, hr.enough, by simp, by simp, fun _ => hr.finalStep (Or.inl rfl), hr.pending, by simp,
      fun _ => hex⟩
  | @finalSave disk state next bs hex =>
    have hr := hs.run _ rfl
    have hstep := hr.finalStep (Or.inl rfl)
    refine ⟨hs.disk, ?_⟩
    rintro r he
    simp only [Option.some.injEq] at he
    subst he
    refine ⟨hr.applied, hr.le, hr.enough, by simp, by simp, fun _ => hstep, ?_, fun _ => Or.inr ⟨_, rfl⟩, by simp⟩
    rintro k s he
    simp only [Option.some.injEq, Prod.mk.injEq] at he
    obtain ⟨rfl, rfl⟩ := he
    exact ⟨hstep, hr.appliedState, le_refl _⟩
  | @lastWait disk state next bs =>
    have hr := hs.run _ rfl
    refine ⟨hs.disk, ?_⟩
    rintro r he
    simp only [Option.some.injEq] at he
    subst he
    refine ⟨hr.applied, hr.le, hr.enough, by simp, by simp, fun _ => hr.finalStep (Or.inr (Or.inl rfl)), hr.pending,
      by simp, fun _ => ?_⟩
    rcases hr.last rfl with h | ⟨s, h⟩
    · exact h
    · simp at h
  | @commit disk state next bs k s phase =>
    have hr := hs.run _ rfl
    have hg := hr.pending k s rfl
    refine ⟨?_, ?_⟩
    · intro k' st' hm
      rcases mem_set hm with ⟨rfl, rfl⟩ | hm
      · exact hg
      · exact hs.disk _ _ hm
    · rintro r he
      simp only [Option.some.injEq] at he
      subst he
      refine ⟨hr.applied, hr.le, hr.enough, hr.nextLoop, hr.nextSave, hr.finalStep, by simp, ?_, ?_⟩
      · intro hp
        left
        rcases hr.last hp with h | ⟨st, h⟩
        · exact mem_keys_set.2 (Or.inr h)
        · simp only [Option.some.injEq, Prod.mk.injEq] at h
          exact mem_keys_set.2 (Or.inl h.1.symm)
      · intro hp
        exact mem_keys_set.2 (Or.inr (hr.done hp))
  | @delete disk run k hk =>
    have hr := hs.run _ rfl
    have hkeep : cfg.trainSteps ∈ PyDict.keys disk → cfg.trainSteps ∈ PyDict.keys (disk.filter fun e => decide (e.1 ≠ k)) := by
      intro hm
      obtain ⟨k', hk', hlt⟩ := hk
      obtain ⟨⟨a, st⟩, hm', rfl⟩ := List.mem_map.1 hk'
      have := (hs.disk _ _ hm').2.2
      simp only at hlt this
      obtain ⟨⟨a', st'⟩, hm'', he⟩ := List.mem_map.1 hm
      simp only at he
      refine List.mem_map.2 ⟨(a', st'), List.mem_filter.2 ⟨hm'', ?_⟩, he⟩
      simp only [decide_eq_true_eq]
      omega
    refine ⟨fun k' st' hm => hs.disk _ _ (List.mem_filter.1 hm).1, ?_⟩
    rintro r he
    simp only [Option.some.injEq] at he
    subst he
    refine ⟨hr.applied, hr.le, hr.enough, hr.nextLoop, hr.nextSave, hr.finalStep, hr.pending, ?_, ?_⟩
    · intro hp
      exact (hr.last hp).imp hkeep id
    · intro hp
      exact hkeep (hr.done hp)
  | stop =>
    exact ⟨hs.disk, by simp⟩

theorem inv_reachable {cfg : Config P B} {supply : List B → Prop} (hinit : cfg.init.step ≤ cfg.trainSteps)
    (hsup : ∀ bs, supply bs → cfg.trainSteps ≤ bs.length) {s : Sys P B} (h : Reachable cfg supply s) :
    Inv cfg supply s := by
  induction h with
  | refl => exact ⟨by simp, by simp⟩
  | tail _ hstep ih => exact inv_step hinit hsup ih hstep

/-- `d` is the step of the state that a new process would start from. -/
def IsTop (cfg : Config P B) (disk : PyDict Nat (TS P)) (d : Nat) : Prop :=
  (disk = [] ∧ d = cfg.init.step) ∨ (d ∈ PyDict.keys disk ∧ ∀ k ∈ PyDict.keys disk, k ≤ d)

theorem isTop_exists (cfg : Config P B) (disk : PyDict Nat (TS P)) : ∃ d, IsTop cfg disk d := by
  cases h : latestStep disk with
  | none =>
    unfold latestStep PyDict.keys at h
    rw [List.max?_eq_none_iff, List.map_eq_nil_iff] at h
    exact ⟨_, Or.inl ⟨h, rfl⟩⟩
  | some d =>
    unfold latestStep at h
    obtain ⟨h1, h2⟩ := List.max?_eq_some_iff.1 h
    exact ⟨d, Or.inr ⟨h1, h2⟩⟩

theorem restore_step {cfg : Config P B} {supply : List B → Prop} {disk : PyDict Nat (TS P)}
    (hd : ∀ k st, (k, st) ∈ disk → Good cfg supply k st) {d : Nat} (h : IsTop cfg disk d) :
    (restore cfg disk).step = d := by
  rcases h with ⟨rfl, rfl⟩ | ⟨h1, h2⟩
  · rfl
  · have : latestStep disk = some d := List.max?_eq_some_iff.2 ⟨h1, h2⟩
    unfold restore
    rw [this]
    simp only
    cases hg : PyDict.get? disk d with
    | none => exact absurd h1 ((PyDict.get?_eq_none _ _).1 hg)
    | some st => exact (hd d st (get?_mem hg)).1

/-- The newest checkpoint, finished or being written. -/
def newest (d : Nat) : Option (Nat × TS P) → Nat
  | none => d
  | some (k, _) => k

/-- How far the process is ahead of its checkpoints. -/
structure Ahead (cfg : Config P B) (disk : PyDict Nat (TS P)) (r : Run P B) (d : Nat) : Prop where
  top : IsTop cfg disk d
  le : d ≤ newest d r.pending
  le' : newest d r.pending ≤ r.state.step
  near : newest d r.pending ≤ d + cfg.every
  firstPending : r.phase = .first → r.pending = none ∧ d = r.state.step
  same : r.phase = .loop ∨ r.phase = .final → newest d r.pending / cfg.every = r.state.step / cfg.every
  lt : r.phase = .save → newest d r.pending < r.state.step ∧
    newest d r.pending / cfg.every = (r.state.step - 1) / cfg.every
  last : r.phase = .last ∨ r.phase = .done → newest d r.pending = r.state.step

theorem ahead_step {cfg : Config P B} {supply : List B → Prop} (hevery : 0 < cfg.every)
    {s s' : Sys P B} (hi : Inv cfg supply s)
    (hs : ∀ r, s.run = some r → ∃ d, Ahead cfg s.disk r d)
    (h : Step cfg supply s s') : ∀ r, s'.run = some r → ∃ d, Ahead cfg s'.disk r d := by
  cases h with
  | @start disk bs hb =>
    rintro r hr
    simp only [Option.some.injEq] at hr
    subst hr
    obtain ⟨d, hd⟩ := isTop_exists cfg disk
    have hstep := restore_step hi.disk hd
    exact ⟨d, hd, le_refl _, Nat.le_of_eq hstep.symm, Nat.le_add_right _ _, fun _ => ⟨rfl, hstep.symm⟩, by simp, by simp, by simp⟩
  | @saveFirst disk state next bs h0 hno =>
    obtain ⟨d, ha⟩ := hs _ rfl
    rintro r he
    simp only [Option.some.injEq] at he
    subst he
    have hd : d = state.step := (ha.firstPending rfl).2
    refine ⟨d, ha.top, ?_, ?_, ?_, by simp, fun _ => by simp only [newest]; rw [h0], by simp, by simp⟩ <;>
      simp only [newest] <;> omega
  | @skipFirst disk state next bs pending h0 =>
    obtain ⟨d, ha⟩ := hs _ rfl
    rintro r he
    simp only [Option.some.injEq] at he
    subst he
    have hd := ha.firstPending rfl
    simp only at hd
    obtain ⟨rfl, rfl⟩ := hd
    exact ⟨_, ha.top, ha.le, ha.le', ha.near, by simp, fun _ => rfl, by simp, by simp⟩
  | @train disk state next b bs pending hn =>
    obtain ⟨d, ha⟩ := hs _ rfl
    rintro r he
    simp only [Option.some.injEq] at he
    subst he
    have h1 := ha.le'
    have h2 := ha.same (Or.inl rfl)
    simp only at h1 h2
    exact ⟨d, ha.top, ha.le, by simp only; omega, ha.near, by simp, by simp, fun _ => ⟨by simp only; omega, by
      simpa using h2⟩, by simp⟩
  | @save disk state next bs hss =>
    obtain ⟨d, ha⟩ := hs _ rfl
    have hnext : next = state.step := (hi.run _ rfl).nextSave rfl
    rintro r he
    simp only [Option.some.injEq] at he
    subst he
    obtain ⟨h1, h2⟩ := ha.lt rfl
    simp only [newest] at h1 h2
    refine ⟨d, ha.top, ?_, ?_, ?_, by simp, ?_, by simp, by simp⟩ <;> simp only [newest]
    · omega
    · omega
    · have h3 := Nat.div_add_mod (state.step - 1) cfg.every
      have h4 := Nat.mod_lt (state.step - 1) hevery
      have h5 := Nat.mul_div_le d cfg.every
      rw [h2] at h5
      omega
    · intro _; rw [hnext]
  | @skipSave disk state next bs pending hss =>
    obtain ⟨d, ha⟩ := hs _ rfl
    have hnext : next = state.step := (hi.run _ rfl).nextSave rfl
    rintro r he
    simp only [Option.some.injEq] at he
    subst he
    obtain ⟨h1, h2⟩ := ha.lt rfl
    have hle := ha.le
    simp only at h1 h2 hle
    refine ⟨d, ha.top, ha.le, ha.le', ha.near, by simp, fun _ => ?_, by simp, by simp⟩
    have hne : next % cfg.every ≠ 0 := by
      intro h0
      apply hss
      refine ⟨h0, ?_, ?_⟩
      · intro k hk
        rcases ha.top with ⟨rfl, _⟩ | ⟨_, hmax⟩
        · simp [PyDict.keys] at hk
        · have := hmax k hk
          omega
      · rintro k st rfl
        simp only [newest] at h1
        omega
    rw [hnext] at hne
    simp only
    rw [h2]
    have hpos : 0 < state.step := by omega
    have h6 : (state.step - 1 + 1) / cfg.every = (state.step - 1) / cfg.every := by
      rw [Nat.succ_div_of_not_dvd]
      rw [Nat.sub_add_cancel hpos]
      exact fun hdvd => hne (Nat.mod_eq_zero_of_dvd hdvd)
    rw [Nat.sub_add_cancel hpos] at h6
    exact h6.symm
  | @endLoop disk state next bs pending hend =>
    obtain ⟨d, ha⟩ := hs _ rfl
    rintro r he
    simp only [Option.some.injEq] at he
    subst he
    exact ⟨d, ha.top, ha.le, ha.le', ha.near, by simp, fun _ => ha.same (Or.inl rfl), by simp, by simp⟩
  | @finalExists disk state next bs hex =>
    obtain ⟨d, ha⟩ := hs _ rfl
    have hstep : state.step = cfg.trainSteps := (hi.run _ rfl).finalStep (Or.inl rfl)
    rintro r he
    simp only [Option.some.injEq] at he
    subst he
    refine ⟨d, ha.top, ha.le, ha.le', ha.near, by simp, by simp, by simp, fun _ => ?_⟩
    have h1 := ha.le'
    simp only [newest] at h1 ⊢
    rcases ha.top with ⟨rfl, _⟩ | ⟨_, hmax⟩
    · simp [PyDict.keys] at hex
    · have := hmax _ hex
      omega
  | @finalSave disk state next bs hex =>
    obtain ⟨d, ha⟩ := hs _ rfl
    have hstep : state.step = cfg.trainSteps := (hi.run _ rfl).finalStep (Or.inl rfl)
    rintro r he
    simp only [Option.some.injEq] at he
    subst he
    have h1 := ha.le'
    have h2 := ha.same (Or.inr rfl)
    simp only [newest] at h1 h2
    refine ⟨d, ha.top, ?_, ?_, ?_, by simp, by simp, by simp, fun _ => ?_⟩ <;> simp only [newest]
    · omega
    · omega
    · have h3 := Nat.div_add_mod state.step cfg.every
      have h4 := Nat.mod_lt state.step hevery
      have h5 := Nat.mul_div_le d cfg.every
      rw [h2] at h5
      omega
    · exact hstep.symm
  | @lastWait disk state next bs =>
    obtain ⟨d, ha⟩ := hs _ rfl
    rintro r he
    simp only [Option.some.injEq] at he
    subst he
    exact ⟨d, ha.top, ha.le, ha.le', ha.near, by simp, by simp, by simp, fun _ => ha.last (Or.inl rfl)⟩
  | @commit disk state next bs k s phase =>
    obtain ⟨d, ha⟩ := hs _ rfl
    rintro r he
    simp only [Option.some.injEq] at he
    subst he
    have h1 := ha.le
    have h2 := ha.le'
    simp only [newest] at h1 h2
    refine ⟨k, ?_, le_refl _, h2, Nat.le_add_right _ _, ?_, ha.same, ha.lt, ha.last⟩
    · right
      refine ⟨mem_keys_set.2 (Or.inl rfl), ?_⟩
      intro k' hk'
      rcases mem_keys_set.1 hk' with rfl | hk'
      · exact le_refl _
      · rcases ha.top with ⟨rfl, _⟩ | ⟨_, hmax⟩
        · simp [PyDict.keys] at hk'
        · exact le_trans (hmax k' hk') h1
    · intro hp
      have := (ha.firstPending hp).1
      simp at this
  | @delete disk run k hk =>
    obtain ⟨d, ha⟩ := hs _ rfl
    rintro r he
    simp only [Option.some.injEq] at he
    subst he
    refine ⟨d, ?_, ha.le, ha.le', ha.near, ha.firstPending, ha.same, ha.lt, ha.last⟩
    obtain ⟨k', hk', hlt⟩ := hk
    rcases ha.top with ⟨rfl, _⟩ | ⟨hmem, hmax⟩
    · simp [PyDict.keys] at hk'
    · right
      have hkd := hmax k' hk'
      constructor
      · obtain ⟨⟨a, st⟩, hm, rfl⟩ := List.mem_map.1 hmem
        refine List.mem_map.2 ⟨(a, st), List.mem_filter.2 ⟨hm, ?_⟩, rfl⟩
        simp only [decide_eq_true_eq] at hkd ⊢
        omega
      · intro x hx
        obtain ⟨⟨a, st⟩, hm, rfl⟩ := List.mem_map.1 hx
        exact hmax _ (List.mem_map.2 ⟨_, (List.mem_filter.1 hm).1, rfl⟩)
  | stop =>
    intro r hr
    simp at hr

theorem ahead_reachable {cfg : Config P B} {supply : List B → Prop} (hinit : cfg.init.step ≤ cfg.trainSteps)
    (hsup : ∀ bs, supply bs → cfg.trainSteps ≤ bs.length) (hevery : 0 < cfg.every) {s : Sys P B}
    (h : Reachable cfg supply s) : ∀ r, s.run = some r → ∃ d, Ahead cfg s.disk r d := by
  induction h with
  | refl => intro r hr; simp at hr
  | tail hreach hstep ih => exact ahead_step hevery (inv_reachable hinit hsup hreach) ih hstep

/-- The state after the first batches of `bs`. -/
def Upto (cfg : Config P B) (bs : List B) (s : TS P) : Prop :=
  ∃ n, n ≤ bs.length ∧ s.step = cfg.init.step + n ∧ s.params = (bs.take n).foldl cfg.update cfg.init.params

/-- The invariant of a single run. -/
structure Single (cfg : Config P B) (bs : List B) (s : Sys P B) : Prop where
  disk : ∀ k st, (k, st) ∈ s.disk → Upto cfg bs st
  run : ∀ r, s.run = some r → (∃ done, bs = done ++ r.iter ∧ r.state.step = cfg.init.step + done.length ∧
    r.state.params = done.foldl cfg.update cfg.init.params) ∧ ∀ k st, r.pending = some (k, st) → Upto cfg bs st

theorem upto_of_done {cfg : Config P B} {bs done rest : List B} {s : TS P} (h : bs = done ++ rest)
    (h1 : s.step = cfg.init.step + done.length) (h2 : s.params = done.foldl cfg.update cfg.init.params) :
    Upto cfg bs s :=
  ⟨done.length, by simp [h], h1, by rw [h2, h, List.take_left]⟩

theorem single_step {cfg : Config P B} {supply : List B → Prop} {bs : List B} {s s' : Sys P B}
    (hrun : s.run ≠ none) (hs : Single cfg bs s) (h : Step cfg supply s s') : Single cfg bs s' := by
  have self : ∀ {disk : PyDict Nat (TS P)} {r : Run P B}, Single cfg bs ⟨disk, some r⟩ → Upto cfg bs r.state := by
    intro disk r hr
    obtain ⟨⟨done, h1, h2, h3⟩, _⟩ := hr.run r rfl
    exact upto_of_done h1 h2 h3
  cases h with
  | start _ => exact absurd rfl hrun
  | stop => exact ⟨hs.disk, by simp⟩
  | commit =>
    obtain ⟨h1, h2⟩ := hs.run _ rfl
    refine ⟨?_, ?_⟩
    · intro k' st' hm
      rcases mem_set hm with ⟨rfl, rfl⟩ | hm
      · exact h2 _ _ rfl
      · exact hs.disk _ _ hm
    · rintro r he
      simp only [Option.some.injEq] at he
      subst he
      exact ⟨h1, by simp⟩
  | delete _ => exact ⟨fun k st hm => hs.disk k st (List.mem_filter.1 hm).1, hs.run⟩
  | train _ =>
    obtain ⟨⟨done, h1, h2, h3⟩, h4⟩ := hs.run _ rfl
    refine ⟨hs.disk, ?_⟩
    rintro r he
    simp only [Option.some.injEq] at he
    subst he
    rename_i b _ _ _
    refine ⟨⟨done ++ [b], by simpa using h1, ?_, ?_⟩, h4⟩
    · simp only [List.length_append, List.length_singleton] at h2 ⊢
      omega
    · simp only [List.foldl_append] at h3 ⊢
      rw [h3]
      rfl
  | saveFirst _ _ =>
    refine ⟨hs.disk, ?_⟩
    rintro r he
    simp only [Option.some.injEq] at he
    subst he
    refine ⟨(hs.run _ rfl).1, ?_⟩
    rintro k st he
    simp only [Option.some.injEq, Prod.mk.injEq] at he
    rw [← he.2]
    exact self hs
  | save _ =>
    refine ⟨hs.disk, ?_⟩
    rintro r he
    simp only [Option.some.injEq] at he
    subst he
    refine ⟨(hs.run _ rfl).1, ?_⟩
    rintro k st he
    simp only [Option.some.injEq, Prod.mk.injEq] at he
    rw [← he.2]
    exact self hs
  | finalSave _ =>
    refine ⟨hs.disk, ?_⟩
    rintro r he
    simp only [Option.some.injEq] at he
    subst he
    refine ⟨(hs.run _ rfl).1, ?_⟩
    rintro k st he
    simp only [Option.some.injEq, Prod.mk.injEq] at he
    rw [← he.2]
    exact self hs
  | skipFirst _ | skipSave _ | endLoop _ | finalExists _ | lastWait =>
    refine ⟨hs.disk, ?_⟩
    rintro r he
    simp only [Option.some.injEq] at he
    subst he
    have hr := hs.run _ rfl
    exact ⟨hr.1, hr.2⟩

end Verif.TrainLoop
