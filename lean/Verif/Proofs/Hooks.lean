import Verif.Spec.Hooks
import Mathlib.Data.List.Range
import Mathlib.Data.List.Basic
import Mathlib.Tactic.Linarith
import Mathlib.Tactic.NormNum

/-! Helper lemmas for the hooks (C85). -/

namespace Verif.Hooks

open Verif

variable {P B M : Type}

/-- `call` without errors. -/
def pureCall (kind : Kind) (process : Nat) (a : Action) (st : ActionState) (step : Nat) (t : ℚ) : Bool × ActionState :=
  match call kind process a st step t with
  | .ok r => r
  | .error _ => (false, st)

/-- The state before the call number `k`. -/
def stAt (kind : Kind) (process : Nat) (a : Action) (clock : Nat → ℚ) (first : Nat) : Nat → ActionState
  | 0 => .new
  | k + 1 => (pureCall kind process a (stAt kind process a clock first k) (first + k) (clock (first + k))).2

/-- Whether the hook runs in a step. -/
def runsAt (kind : Kind) (process : Nat) (a : Action) (clock : Nat → ℚ) (first s : Nat) : Bool :=
  (pureCall kind process a (stAt kind process a clock first (s - first)) s (clock s)).1

theorem hookTrigger_ok (kind : Kind) (process : Nat) (a : Action) (h0 : a.everySteps ≠ some 0) (st : ActionState)
    (step : Nat) (t : ℚ) : ∃ b, hookTrigger kind process a st step t = .ok b := by
  have h : ∃ b, shouldTrigger a st step t = .ok b := by
    unfold shouldTrigger
    rw [if_neg h0]
    split
    · exact ⟨_, rfl⟩
    · split <;> exact ⟨_, rfl⟩
  unfold hookTrigger
  cases kind with
  | callback => exact h
  | progress only =>
    simp only []
    split
    · exact ⟨_, rfl⟩
    · split
      · exact ⟨_, rfl⟩
      · exact h

section one

variable (kind : Kind) (process : Nat) (a : Action) (clock : Nat → ℚ) (first : Nat)

/-- The state just before `_should_trigger` in call number `k`. -/
def checked (k : Nat) : ActionState :=
  match (stAt kind process a clock first k).previous with
  | none => ⟨some (first + k, clock (first + k)), first + k⟩
  | some p => ⟨some p, first + k⟩

theorem step_eq (h0 : a.everySteps ≠ some 0) (k : Nat)
    (hlast : (stAt kind process a clock first k).previous ≠ none →
      (stAt kind process a clock first k).last + 1 = first + k) :
    call kind process a (stAt kind process a clock first k) (first + k) (clock (first + k)) =
      .ok (runsAt kind process a clock first (first + k), stAt kind process a clock first (k + 1)) ∧
    hookTrigger kind process a (checked kind process a clock first k) (first + k) (clock (first + k)) =
      .ok (runsAt kind process a clock first (first + k)) ∧
    stAt kind process a clock first (k + 1) =
      if runsAt kind process a clock first (first + k) then ⟨some (first + k, clock (first + k)), first + k⟩
      else checked kind process a clock first k := by
  obtain ⟨b, hb⟩ := hookTrigger_ok kind process a h0 (checked kind process a clock first k) (first + k)
    (clock (first + k))
  have hc : call kind process a (stAt kind process a clock first k) (first + k) (clock (first + k)) =
      .ok (b, if b then ⟨some (first + k, clock (first + k)), first + k⟩ else checked kind process a clock first k) := by
    have h1 : initAndCheck a (stAt kind process a clock first k) (first + k) (clock (first + k)) =
        .ok (checked kind process a clock first k) := by
      unfold initAndCheck checked
      cases hp : (stAt kind process a clock first k).previous with
      | none => rfl
      | some p =>
        simp only []
        rw [if_neg, ← hp]
        · rintro ⟨-, h⟩
          exact h (hlast (by rw [hp]; simp)).symm
    unfold call
    rw [h1]
    change (hookTrigger kind process a (checked kind process a clock first k) (first + k) (clock (first + k)) >>= _ :
      Except PyErr _) = _
    rw [hb]
    cases b with
    | false => rfl
    | true =>
      change Except.ok _ = _
      congr 2
      unfold checked
      cases (stAt kind process a clock first k).previous <;> rfl
  have hr : runsAt kind process a clock first (first + k) = b := by
    unfold runsAt pureCall
    rw [Nat.add_sub_cancel_left, hc]
  have hs : stAt kind process a clock first (k + 1) =
      if b then ⟨some (first + k, clock (first + k)), first + k⟩ else checked kind process a clock first k := by
    rw [stAt]
    unfold pureCall
    rw [hc]
  rw [hr, hs]
  exact ⟨hc, hb, rfl⟩

/-- The state after some calls: the previous run, or the first call. -/
theorem stAt_spec (h0 : a.everySteps ≠ some 0) (k : Nat) :
    (stAt kind process a clock first (k + 1)).last = first + k ∧
    ∃ s', (stAt kind process a clock first (k + 1)).previous = some (s', clock s') ∧ first ≤ s' ∧ s' < first + k + 1 ∧
      (s' = first ∨ runsAt kind process a clock first s' = true) ∧
      ∀ x, s' < x → x < first + k + 1 → runsAt kind process a clock first x = false := by
  induction k with
  | zero =>
    obtain ⟨-, -, h⟩ := step_eq kind process a clock first h0 0 (by intro h; exact absurd rfl h)
    have hc : checked kind process a clock first 0 = ⟨some (first + 0, clock (first + 0)), first + 0⟩ := rfl
    rw [hc, ite_self] at h
    rw [h]
    exact ⟨rfl, first, rfl, le_rfl, by omega, Or.inl rfl, by intro x h1 h2; omega⟩
  | succ k ih =>
    obtain ⟨hl, s', hp, h1, h2, h3, h4⟩ := ih
    obtain ⟨-, -, h⟩ := step_eq kind process a clock first h0 (k + 1) (by intro _; rw [hl]; omega)
    rw [h]
    by_cases hr : runsAt kind process a clock first (first + (k + 1)) = true
    · rw [if_pos hr]
      exact ⟨rfl, _, rfl, by omega, by omega, Or.inr hr, by intro x h1 h2; omega⟩
    · rw [if_neg hr]
      have hc : checked kind process a clock first (k + 1) = ⟨some (s', clock s'), first + (k + 1)⟩ := by
        unfold checked
        rw [hp]
      rw [hc]
      refine ⟨rfl, s', rfl, h1, by omega, h3, ?_⟩
      intro x hx hx2
      by_cases hxe : x = first + (k + 1)
      · subst hxe
        simpa using hr
      · exact h4 x hx (by omega)

theorem call_eq (h0 : a.everySteps ≠ some 0) (k : Nat) :
    call kind process a (stAt kind process a clock first k) (first + k) (clock (first + k)) =
      .ok (runsAt kind process a clock first (first + k), stAt kind process a clock first (k + 1)) ∧
    hookTrigger kind process a (checked kind process a clock first k) (first + k) (clock (first + k)) =
      .ok (runsAt kind process a clock first (first + k)) := by
  obtain ⟨h1, h2, -⟩ := step_eq kind process a clock first h0 k (by
    cases k with
    | zero => intro h; exact absurd rfl h
    | succ k => intro _; rw [(stAt_spec kind process a clock first h0 k).1]; omega)
  exact ⟨h1, h2⟩

end one

theorem shouldTrigger_iff (a : Action) (h0 : a.everySteps ≠ some 0) (st : ActionState) (step : Nat) (t : ℚ) (b : Bool)
    (h : shouldTrigger a st step t = .ok b) :
    b = true ↔ (∃ n ∈ a.everySteps, n ∣ step) ∨ (∃ secs ∈ a.everySecs, ∃ p ∈ st.previous, t - p.2 > secs) ∨
      step ∈ a.onSteps := by
  unfold shouldTrigger at h
  rw [if_neg h0] at h
  have hd : (∃ n ∈ a.everySteps, step % n = 0) ↔ ∃ n ∈ a.everySteps, n ∣ step := by
    simp only [Nat.dvd_iff_mod_eq_zero]
  split at h
  · rename_i h1
    injection h with h
    subst h
    exact ⟨fun _ => Or.inl (hd.1 h1), fun _ => rfl⟩
  · rename_i h1
    split at h
    · rename_i h2
      injection h with h
      subst h
      exact ⟨fun _ => Or.inr (Or.inl h2), fun _ => rfl⟩
    · rename_i h2
      injection h with h
      subst h
      rw [decide_eq_true_iff]
      constructor
      · exact fun h => Or.inr (Or.inr h)
      · rintro (h | h | h)
        · exact absurd (hd.2 h) h1
        · exact absurd h h2
        · exact h

theorem create_due (c : HookConfig) (first last s : Nat) :
    ((∃ n ∈ (create c first last).everySteps, n ∣ s) ∨ s ∈ (create c first last).onSteps) ↔ Due c first last s := by
  unfold Due create
  simp

theorem elapsed_iff (kind : Kind) (process : Nat) (c : HookConfig) (clock : Nat → ℚ) (first last k : Nat)
    (h0 : c.everySteps ≠ some 0) :
    (∃ s', (checked kind process (create c first last) clock first (k + 1)).previous = some (s', clock s') ∧
      s' < first + (k + 1)) ∧
    ((∃ secs ∈ (create c first last).everySecs,
      ∃ p ∈ (checked kind process (create c first last) clock first (k + 1)).previous,
        clock (first + (k + 1)) - p.2 > secs) ↔
      Elapsed c clock (runsAt kind process (create c first last) clock first) first (first + (k + 1))) := by
  obtain ⟨-, s', hp, h1, h2, h3, h4⟩ := stAt_spec kind process (create c first last) clock first h0 k
  have hc : (checked kind process (create c first last) clock first (k + 1)).previous = some (s', clock s') := by
    unfold checked
    rw [hp]
  refine ⟨⟨s', hc, by omega⟩, ?_⟩
  rw [hc]
  constructor
  · rintro ⟨secs, hsecs, p, hp, ht⟩
    cases hp
    exact ⟨secs, hsecs, s', h1, by omega, h3, fun x a b => h4 x a (by omega), ht⟩
  · rintro ⟨secs, hsecs, s2, g1, g2, g3, g4, ht⟩
    have : s2 = s' := by
      rcases lt_trichotomy s2 s' with hlt | heq | hgt
      · have := g4 s' hlt (by omega)
        rcases h3 with h3 | h3
        · omega
        · rw [h3] at this
          cases this
      · exact heq
      · have := h4 s2 hgt (by omega)
        rcases g3 with g3 | g3
        · omega
        · rw [g3] at this
          cases this
    subst this
    exact ⟨secs, hsecs, _, rfl, ht⟩

theorem runsAt_callback (process : Nat) (c : HookConfig) (clock : Nat → ℚ) (first last s : Nat)
    (h0 : c.everySteps ≠ some 0) (hs : first ≤ s) :
    runsAt .callback process (create c first last) clock first s = true ↔
      Due c first last s ∨
        Elapsed c clock (runsAt .callback process (create c first last) clock first) first s := by
  obtain ⟨k, rfl⟩ := Nat.exists_eq_add_of_le hs
  obtain ⟨-, h⟩ := call_eq .callback process (create c first last) clock first h0 k
  rw [shouldTrigger_iff _ h0 _ _ _ _ h, ← create_due]
  cases k with
  | zero =>
    have : first + 0 ∈ (create c first last).onSteps := by simp [create]
    exact ⟨fun _ => Or.inl (Or.inr this), fun _ => Or.inr (Or.inr this)⟩
  | succ k =>
    rw [(elapsed_iff .callback process c clock first last k h0).2, or_assoc, or_comm (a := _ ∈ _)]

theorem runsAt_progress (process : Nat) (only : Option Nat) (c : HookConfig) (clock : Nat → ℚ) (first last s : Nat)
    (h0 : c.everySteps ≠ some 0) (hs : first ≤ s) :
    runsAt (.progress only) process (create c first last) clock first s = true ↔
      (∀ p ∈ only, process = p) ∧ s ≠ first ∧ (Due c first last s ∨
        Elapsed c clock (runsAt (.progress only) process (create c first last) clock first) first s) := by
  obtain ⟨k, rfl⟩ := Nat.exists_eq_add_of_le hs
  obtain ⟨-, h⟩ := call_eq (.progress only) process (create c first last) clock first h0 k
  unfold hookTrigger at h
  simp only [] at h
  by_cases hproc : ∃ p ∈ only, process ≠ p
  · rw [if_pos hproc] at h
    injection h with h
    rw [← h]
    obtain ⟨p, hp, hne⟩ := hproc
    exact ⟨fun h => (by cases h), fun h => absurd (h.1 p hp) hne⟩
  · rw [if_neg hproc] at h
    have hproc' : ∀ p ∈ only, process = p := by
      intro p hp
      by_contra hne
      exact hproc ⟨p, hp, hne⟩
    cases k with
    | zero =>
      have hc : (checked (.progress only) process (create c first last) clock first 0).previous =
        some (first + 0, clock (first + 0)) := rfl
      rw [hc, if_pos ⟨_, rfl, rfl⟩] at h
      injection h with h
      rw [← h]
      exact ⟨fun h => (by cases h), fun h => absurd rfl h.2.1⟩
    | succ k =>
      obtain ⟨⟨s', hc, hlt⟩, he⟩ := elapsed_iff (.progress only) process c clock first last k h0
      rw [if_neg] at h
      · rw [shouldTrigger_iff _ h0 _ _ _ _ h, ← create_due, he]
        have hne : first + (k + 1) ≠ first := by omega
        rw [or_assoc, or_comm (a := _ ∈ _)]
        exact ⟨fun h => ⟨hproc', hne, h⟩, fun h => h.2.2⟩
      · rw [hc]
        rintro ⟨p, hp, he⟩
        cases hp
        simp only at he
        omega

/-- The states of the evaluation hooks before the call number `k`. -/
def statesAt (process : Nat) (clock : Nat → Nat → ℚ) (first last k i : Nat) (hooks : List (List Char × HookConfig)) :
    List ActionState :=
  (hooks.zipIdx i).map fun h => stAt .callback process (create h.1.2 first last) (clock h.2) first k

/-- The runs of the evaluation hooks in a step. -/
def hookEvents (process : Nat) (clock : Nat → Nat → ℚ) (cost : Nat → PyDict (List Char) ℚ) (first last : Nat) (s : Nat) (p : P)
    (i : Nat) (hooks : List (List Char × HookConfig)) : List (Event P M) :=
  (hooks.zipIdx i).flatMap fun h =>
    if runsAt .callback process (create h.1.2 first last) (clock h.2) first s then [.run h.1.1 s p (cost s)] else []

theorem callHooks_eq (pr : Program P B M) (first last k : Nat) (p : P) (hooks : List (List Char × HookConfig))
    (h0 : ∀ h ∈ hooks, h.2.everySteps ≠ some 0) (i : Nat) :
    callHooks pr (first + k) p i (hooks.map fun h => (h.1, create h.2 first last))
      (statesAt pr.process pr.clock first last k i hooks) =
    .ok (hookEvents pr.process pr.clock pr.cost first last (first + k) p i hooks,
      statesAt pr.process pr.clock first last (k + 1) i hooks) := by
  induction hooks generalizing i with
  | nil => rfl
  | cons h hooks ih =>
    obtain ⟨hc, -⟩ := call_eq .callback pr.process (create h.2 first last) (pr.clock i) first
      (h0 h List.mem_cons_self) k
    have ih' := ih (fun h hh => h0 h (List.mem_cons_of_mem _ hh)) (i + 1)
    simp only [List.map_cons, statesAt, List.zipIdx_cons, hookEvents, List.flatMap_cons, callHooks] at *
    rw [hc]
    simp only [bind, Except.bind]
    rw [ih']
    rfl

/-- The events of one step. -/
def stepEvents (pr : Program P B M) (progress : HookConfig) (hooks : List (List Char × HookConfig)) (first last s : Nat)
    (p : P) (b : B) : List (Event P M) :=
  (if runsAt (.progress pr.progressProcess) pr.process (create progress first last) (pr.clock 0) first s then
    [.report s (pr.update p b).2 (pr.cost s)] else []) ++
  (if pr.saves s then [.save s (pr.update p b).1] else []) ++
  hookEvents pr.process pr.clock pr.cost first last s (pr.update p b).1 1 hooks

theorem loop_eq (pr : Program P B M) (progress : HookConfig) (hooks : List (List Char × HookConfig)) (first last : Nat)
    (h0 : ∀ h ∈ hooks, h.2.everySteps ≠ some 0) (h1 : progress.everySteps ≠ some 0)
    (hp : pr.progress = create progress first last)
    (hh : pr.hooks = hooks.map fun h => (h.1, create h.2 first last)) (m : Nat) :
    ∀ (k : Nat) (bs : List B) (p : P),
    loop pr ((List.range m).map (first + k + ·)) bs p
      (stAt (.progress pr.progressProcess) pr.process (create progress first last) (pr.clock 0) first k)
      (statesAt pr.process pr.clock first last k 1 hooks) =
    .ok ((List.range (min m bs.length)).flatMap fun j => (bs[j]?).elim [] fun b =>
      stepEvents pr progress hooks first last (first + k + j) (after pr.update p (bs.take j)) b) := by
  induction m with
  | zero =>
    intro k bs p
    simp [loop]
  | succ m ih =>
    intro k bs p
    cases bs with
    | nil => simp [loop, List.range_succ_eq_map]
    | cons b bs =>
      obtain ⟨hc, -⟩ := call_eq (.progress pr.progressProcess) pr.process (create progress first last) (pr.clock 0)
        first h1 k
      have e1 : (List.range (m + 1)).map (first + k + ·) =
          (first + k) :: (List.range m).map (first + (k + 1) + ·) := by
        rw [List.range_succ_eq_map, List.map_cons, List.map_map]
        congr 1
        apply List.map_congr_left
        intro x _
        simp only [Function.comp]
        omega
      rw [e1, loop]
      simp only []
      rw [hp, hc]
      simp only [bind, Except.bind]
      rw [hh, callHooks_eq pr first last k _ hooks h0 1]
      simp only []
      rw [ih (k + 1) bs]
      simp only [pure, Except.pure]
      rw [List.length_cons, Nat.add_min_add_right, List.range_succ_eq_map, List.flatMap_cons, List.flatMap_map]
      congr 1
      simp only [List.getElem?_cons_zero, Option.elim_some, Nat.add_zero, List.take_zero, after, List.foldl_nil,
        stepEvents]
      congr 1
      apply List.flatMap_congr
      intro j _
      simp only [List.getElem?_cons_succ, List.take_succ_cons, List.foldl_cons]
      rw [show first + (k + 1) + j = first + k + (j + 1) by omega]

theorem train_eq (update : P → B → P × M) (saves : Nat → Bool) (cost : Nat → PyDict (List Char) ℚ) (process : Nat)
    (clock : Nat → Nat → ℚ) (progressProcess : Option Nat) (progress : HookConfig)
    (hooks : List (List Char × HookConfig)) (initStep trainSteps : Nat) (params : P) (batches : List B)
    (h0 : ∀ h ∈ hooks, h.2.everySteps ≠ some 0) (h1 : progress.everySteps ≠ some 0) :
    train update saves cost process clock progressProcess progress hooks initStep trainSteps params batches =
    .ok ((List.range (min (trainSteps - initStep) batches.length)).flatMap fun j => (batches[j]?).elim [] fun b =>
      stepEvents
        { update, saves, cost, process, clock, progressProcess
          progress := create progress (initStep + 1) trainSteps
          hooks := hooks.map fun h => (h.1, create h.2 (initStep + 1) trainSteps) }
        progress hooks (initStep + 1) trainSteps (initStep + 1 + j) (after update params (batches.take j)) b) := by
  have h := loop_eq
    { update, saves, cost, process, clock, progressProcess
      progress := create progress (initStep + 1) trainSteps
      hooks := hooks.map fun h => (h.1, create h.2 (initStep + 1) trainSteps) }
    progress hooks (initStep + 1) trainSteps h0 h1 rfl rfl (trainSteps - initStep) 0 batches params
  have hs : statesAt process clock (initStep + 1) trainSteps 0 1 hooks = hooks.map fun _ => .new := by
    unfold statesAt
    simp only [stAt]
    rw [List.map_const', List.map_const', List.length_zipIdx]
  rw [hs] at h
  exact h

end Verif.Hooks
