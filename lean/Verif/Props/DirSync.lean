import Verif.Model.DirSync
import Mathlib.Logic.Relation
import Mathlib.Tactic.Common
import Mathlib.Data.List.GetD

/-!
C113: directories exist before files are written into them.
-/

namespace Verif.DirSync

open Verif

/-- What can happen to the processes. -/
def Reachable (may : Bool) (start w : World) : Prop := Relation.ReflTransGen (Step may) start w

/-- A program whose process 0 creates the directory, before all processes meet and write their files. -/
def Guarded (dir : Str) (files : Nat → List Str) (program : Nat → List Act) : Prop :=
  ∃ name first, (first = .makedirs dir ∨ first = .makedirsIfMissing dir) ∧
    ∀ p, program p = (if p = 0 then [first] else []) ++ [.sync name] ++ (files p).map (Act.write dir)

theorem guarded_save (dir : Str) (files : Nat → List Str) : Guarded dir files (saveProgram dir files) :=
  ⟨_, _, .inl rfl, fun _ => rfl⟩

theorem guarded_manager (workdir : Str) (files : Nat → List Str) : Guarded (ckptDir workdir) files (managerProgram workdir files) :=
  ⟨_, _, .inr rfl, fun _ => rfl⟩

/-- Creating the directory. -/
theorem act_first (may : Bool) (dir : Str) (first : Act) (hf : first = .makedirs dir ∨ first = .makedirsIfMissing dir) (dirs : List Str)
    (files : List (Str × Str)) :
    act may dirs files first = some (if dir ∈ dirs then .ok (dirs, files) else if may then .ok (dir :: dirs, files) else .error .runtimeError) := by
  rcases hf with rfl | rfl
  · unfold act createDir
    by_cases h : dir ∈ dirs
    · simp only [if_pos h]; rfl
    · cases may
      · simp only [if_neg h]; rfl
      · simp only [if_neg h]; rfl
  · unfold act createDir
    by_cases h : dir ∈ dirs
    · simp only [if_pos h]
    · cases may
      · simp only [if_neg h]; rfl
      · simp only [if_neg h]; rfl

/-- Before the meeting: process 0 may have created the directory, nothing is written. -/
def Before (dir name : Str) (first : Act) (files : Nat → List Str) (n : Nat) (dirs0 : List Str) (files0 : List (Str × Str)) (w : World) : Prop :=
  w.raised = [] ∧ w.files = files0 ∧ w.progs.length = n ∧ (∀ d ∈ dirs0, d ∈ w.dirs) ∧
  (∀ p, 0 < p → p < n → w.progs[p]? = some (.sync name :: (files p).map (Act.write dir))) ∧
  (w.progs[0]? = some (first :: .sync name :: (files 0).map (Act.write dir)) ∨
    (w.progs[0]? = some (.sync name :: (files 0).map (Act.write dir)) ∧ dir ∈ w.dirs))

/-- After the meeting: the directory exists; every process has written a first part of its files. -/
def After (dir : Str) (files : Nat → List Str) (n : Nat) (files0 : List (Str × Str)) (w : World) : Prop :=
  w.raised = [] ∧ dir ∈ w.dirs ∧ w.progs.length = n ∧ (∀ f ∈ files0, f ∈ w.files) ∧
  (∀ f ∈ w.files, f ∈ files0 ∨ ∃ p < n, f.1 = dir ∧ f.2 ∈ files p) ∧
  ∀ p < n, ∃ done rest, files p = done ++ rest ∧ w.progs[p]? = some (rest.map (Act.write dir)) ∧ ∀ f ∈ done, (dir, f) ∈ w.files

theorem phases (may : Bool) (dir : Str) (files : Nat → List Str) (program : Nat → List Act) (n : Nat) (hn : 0 < n) (dirs0 : List Str)
    (files0 : List (Str × Str)) (hok : may = true ∨ dir ∈ dirs0) (name : Str) (first : Act)
    (hf : first = .makedirs dir ∨ first = .makedirsIfMissing dir)
    (hp : ∀ p, program p = (if p = 0 then [first] else []) ++ [.sync name] ++ (files p).map (Act.write dir))
    (w : World) (h : Reachable may (start n program dirs0 files0) w) :
    Before dir name first files n dirs0 files0 w ∨ After dir files n files0 w := by
  induction h with
  | refl =>
    left
    refine ⟨rfl, rfl, by simp [start], fun d h => h, ?_, .inl ?_⟩
    · intro p h0 hpn
      unfold start
      rw [List.getElem?_map, List.getElem?_range hpn]
      simp only [Option.map_some]
      rw [hp p, if_neg (by omega)]
      rfl
    · unfold start
      rw [List.getElem?_map, List.getElem?_range hn]
      simp only [Option.map_some]
      rw [hp 0, if_pos rfl]
      rfl
  | @tail a b _ hs ih =>
    rcases ih with hb | ha
    · obtain ⟨b1, b2, b3, b4, b5, b6⟩ := hb
      -- only process 0 can move on its own
      have only0 : ∀ i act' rest, a.progs[i]? = some (act' :: rest) → act may a.dirs a.files act' ≠ none →
          i = 0 ∧ act' = first ∧ rest = .sync name :: (files 0).map (Act.write dir) ∧
          a.progs[0]? = some (first :: .sync name :: (files 0).map (Act.write dir)) := by
        intro i act' rest hi hne
        by_cases h0 : i = 0
        · subst h0
          rcases b6 with b6 | ⟨b6, _⟩
          · rw [b6] at hi
            injection hi with hi
            injection hi with h1 h2
            exact ⟨rfl, h1.symm, h2.symm, b6⟩
          · rw [b6] at hi
            injection hi with hi
            injection hi with h1 h2
            subst h1
            exact absurd rfl hne
        · have hlt : i < n := by
            rw [← b3]
            exact (List.getElem?_eq_some_iff.1 hi).1
          rw [b5 i (by omega) hlt] at hi
          injection hi with hi
          injection hi with h1 h2
          subst h1
          exact absurd rfl hne
      cases hs with
      | one i act' rest _ dirs fs hi hact =>
        left
        obtain ⟨rfl, rfl, rfl, hp0⟩ := only0 i act' rest hi (by rw [hact]; simp)
        rw [act_first may dir _ hf] at hact
        injection hact with hact
        have hd : fs = a.files ∧ dir ∈ dirs ∧ ∀ d ∈ a.dirs, d ∈ dirs := by
          split at hact
          · rename_i hin
            injection hact with hact
            injection hact with h1 h2
            exact ⟨h2.symm, h1 ▸ hin, fun d hd => h1 ▸ hd⟩
          · split at hact
            · injection hact with hact
              injection hact with h1 h2
              exact ⟨h2.symm, by rw [← h1]; simp, fun d hd => by rw [← h1]; simp [hd]⟩
            · cases hact
        refine ⟨b1, hd.1.trans b2, by simpa using b3, fun d h => hd.2.2 d (b4 d h), ?_, .inr ⟨?_, hd.2.1⟩⟩
        · intro p h0 hpn
          simp only
          rw [List.getElem?_set_ne (by omega)]
          exact b5 p h0 hpn
        · simp only
          rw [List.getElem?_set_self (by omega)]
      | raise i act' rest _ e hi hact =>
        exfalso
        obtain ⟨rfl, rfl, rfl, hp0⟩ := only0 i act' rest hi (by rw [hact]; simp)
        rw [act_first may dir _ hf] at hact
        injection hact with hact
        split at hact
        · cases hact
        · rename_i hin
          split at hact
          · cases hact
          · rename_i hm
            rcases hok with h | h
            · exact hm h
            · exact hin (b4 dir h)
      | all nm _ hne hall =>
        right
        rcases b6 with b6 | ⟨b6, hd⟩
        · exfalso
          obtain ⟨rest, e⟩ := hall _ (List.mem_of_getElem? b6)
          rcases hf with rfl | rfl <;> cases e
        · refine ⟨b1, hd, by simpa using b3, ?_, ?_, ?_⟩
          · intro f hf'
            simp only
            rw [b2]
            exact hf'
          · intro f hf'
            left
            simp only at hf'
            rwa [b2] at hf'
          · intro p hpn
            refine ⟨[], files p, rfl, ?_, by simp⟩
            simp only
            rw [List.getElem?_map]
            by_cases h0 : p = 0
            · subst h0
              rw [b6]
              rfl
            · rw [b5 p (by omega) hpn]
              rfl
    · right
      obtain ⟨a1, a2, a3, a4, a5, a6⟩ := ha
      cases hs with
      | one i act' rest _ dirs fs hi hact =>
        have hlt : i < n := by
          rw [← a3]
          exact (List.getElem?_eq_some_iff.1 hi).1
        obtain ⟨done, todo, e1, e2, e3⟩ := a6 i hlt
        rw [hi] at e2
        injection e2 with e2
        cases todo with
        | nil => cases e2
        | cons f todo =>
          injection e2 with h1 h2
          subst h1 h2
          simp only [act, if_pos a2] at hact
          injection hact with hact
          injection hact with hact
          injection hact with g1 g2
          subst g1 g2
          refine ⟨a1, a2, by simpa using a3, ?_, ?_, ?_⟩
          · intro f hf'
            simp [a4 f hf']
          · intro g hg
            rcases List.mem_append.1 hg with hg | hg
            · exact a5 g hg
            · rw [List.mem_singleton] at hg
              subst hg
              exact .inr ⟨i, hlt, rfl, by rw [e1]; simp⟩
          · intro p hpn
            by_cases hpi : p = i
            · subst hpi
              refine ⟨done ++ [f], todo, by rw [e1]; simp, ?_, ?_⟩
              · simp only
                rw [List.getElem?_set_self (by omega)]
              · intro g hg
                rcases List.mem_append.1 hg with hg | hg
                · simp [e3 g hg]
                · rw [List.mem_singleton] at hg
                  subst hg
                  simp
            · obtain ⟨d', r', k1, k2, k3⟩ := a6 p hpn
              refine ⟨d', r', k1, ?_, fun g hg => by simp [k3 g hg]⟩
              simp only
              rw [List.getElem?_set_ne (by omega)]
              exact k2
      | raise i act' rest _ e hi hact =>
        exfalso
        have hlt : i < n := by
          rw [← a3]
          exact (List.getElem?_eq_some_iff.1 hi).1
        obtain ⟨done, todo, e1, e2, e3⟩ := a6 i hlt
        rw [hi] at e2
        injection e2 with e2
        cases todo with
        | nil => cases e2
        | cons f todo =>
          injection e2 with h1 h2
          subst h1 h2
          simp only [act, if_pos a2] at hact
          injection hact with hact
          cases hact
      | all nm _ hne hall =>
        exfalso
        obtain ⟨d', r', _, k2, _⟩ := a6 0 hn
        obtain ⟨rest, e⟩ := hall _ (List.mem_of_getElem? k2)
        cases r' with
        | nil => cases e
        | cons => cases e

/-- Nobody fails: whatever the order in which the processes run, no process raises, every file of the directory that did not exist at the start
is one of those that a process has to write, and when all processes are done all their files are written.  (The directory may be created,
or exists.) -/
theorem C113_writes (may : Bool) (dir : Str) (files : Nat → List Str) (program : Nat → List Act) (hg : Guarded dir files program) (n : Nat) (hn : 0 < n)
    (dirs0 : List Str) (files0 : List (Str × Str)) (hok : may = true ∨ dir ∈ dirs0) (w : World)
    (h : Reachable may (start n program dirs0 files0) w) :
    w.raised = [] ∧ (∀ f ∈ w.files, f ∈ files0 ∨ (dir ∈ w.dirs ∧ ∃ p < n, f.1 = dir ∧ f.2 ∈ files p)) ∧
    ((∀ q ∈ w.progs, q = []) → ∀ f, f ∈ w.files ↔ f ∈ files0 ∨ ∃ p < n, f.1 = dir ∧ f.2 ∈ files p) := by
  obtain ⟨name, first, hf, hp⟩ := hg
  rcases phases may dir files program n hn dirs0 files0 hok name first hf hp w h with hb | ha
  · obtain ⟨b1, b2, b3, b4, b5, b6⟩ := hb
    refine ⟨b1, fun f hf' => .inl (b2 ▸ hf'), ?_⟩
    intro hall
    exfalso
    rcases b6 with b6 | ⟨b6, _⟩
    · cases hall _ (List.mem_of_getElem? b6)
    · cases hall _ (List.mem_of_getElem? b6)
  · obtain ⟨a1, a2, a3, a4, a5, a6⟩ := ha
    refine ⟨a1, ?_, ?_⟩
    · intro f hf'
      rcases a5 f hf' with h1 | h1
      · exact .inl h1
      · exact .inr ⟨a2, h1⟩
    · intro hall f
      refine ⟨a5 f, ?_⟩
      rintro (h1 | ⟨p, hpn, h1, h2⟩)
      · exact a4 f h1
      · obtain ⟨done, rest, k1, k2, k3⟩ := a6 p hpn
        have hr := hall _ (List.mem_of_getElem? k2)
        have : rest = [] := by simpa using hr
        subst this
        rw [List.append_nil] at k1
        rw [k1] at h2
        have := k3 f.2 h2
        rw [← h1] at this
        exact this

/-- Nobody waits forever: as long as a process has something to do, something can happen. -/
theorem C113_progress (may : Bool) (dir : Str) (files : Nat → List Str) (program : Nat → List Act) (hg : Guarded dir files program) (n : Nat) (hn : 0 < n)
    (dirs0 : List Str) (files0 : List (Str × Str)) (hok : may = true ∨ dir ∈ dirs0) (w : World)
    (h : Reachable may (start n program dirs0 files0) w) (hne : ∃ q ∈ w.progs, q ≠ []) : ∃ w', Step may w w' := by
  obtain ⟨name, first, hf, hp⟩ := hg
  rcases phases may dir files program n hn dirs0 files0 hok name first hf hp w h with hb | ha
  · obtain ⟨b1, b2, b3, b4, b5, b6⟩ := hb
    rcases b6 with b6 | ⟨b6, _⟩
    · cases hr : (if dir ∈ w.dirs then Except.ok (w.dirs, w.files) else if may then .ok (dir :: w.dirs, w.files) else .error PyErr.runtimeError) with
      | ok r => exact ⟨_, .one 0 first _ w r.1 r.2 b6 (by rw [act_first may dir first hf, hr])⟩
      | error e => exact ⟨_, .raise 0 first _ w e b6 (by rw [act_first may dir first hf, hr])⟩
    · refine ⟨_, .all name w ?_ ?_⟩
      · intro e
        rw [e] at b3
        simp at b3
        omega
      · intro q hq
        obtain ⟨i, hi, rfl⟩ := List.getElem_of_mem hq
        by_cases h0 : i = 0
        · subst h0
          rw [List.getElem?_eq_getElem hi] at b6
          injection b6 with b6
          exact ⟨_, b6⟩
        · have := b5 i (by omega) (by omega)
          rw [List.getElem?_eq_getElem hi] at this
          injection this with this
          exact ⟨_, this⟩
  · obtain ⟨a1, a2, a3, a4, a5, a6⟩ := ha
    obtain ⟨q, hq, hne⟩ := hne
    obtain ⟨i, hi, rfl⟩ := List.getElem_of_mem hq
    obtain ⟨done, rest, k1, k2, k3⟩ := a6 i (by omega)
    cases rest with
    | nil =>
      rw [List.getElem?_eq_getElem hi] at k2
      injection k2 with k2
      exact absurd k2 hne
    | cons f rest =>
      refine ⟨_, .one i (.write dir f) (rest.map (Act.write dir)) w w.dirs (w.files ++ [(dir, f)]) k2 ?_⟩
      simp only [act, if_pos a2]

/-- If process 0 cannot create the directory, nobody writes a file: the other processes wait at the meeting, whatever happens. -/
theorem C113_failure (dir : Str) (files : Nat → List Str) (program : Nat → List Act) (hg : Guarded dir files program) (n : Nat) (hn : 1 < n)
    (dirs0 : List Str) (files0 : List (Str × Str)) (hno : dir ∉ dirs0) (w : World) (h : Reachable false (start n program dirs0 files0) w) :
    w.files = files0 ∧ (w.progs[0]? = some [] → w.raised = [0]) ∧
    ∀ p, 0 < p → p < n → ∃ name, w.progs[p]? = some (.sync name :: (files p).map (Act.write dir)) := by
  obtain ⟨name, first, hf, hp⟩ := hg
  have inv : w.files = files0 ∧ dir ∉ w.dirs ∧ w.progs.length = n ∧
      (∀ p, 0 < p → p < n → w.progs[p]? = some (.sync name :: (files p).map (Act.write dir))) ∧
      ((w.progs[0]? = some (first :: .sync name :: (files 0).map (Act.write dir)) ∧ w.raised = []) ∨ (w.progs[0]? = some [] ∧ w.raised = [0])) := by
    induction h with
    | refl =>
      refine ⟨rfl, hno, by simp [start], ?_, .inl ⟨?_, rfl⟩⟩
      · intro p h0 hpn
        unfold start
        rw [List.getElem?_map, List.getElem?_range hpn]
        simp only [Option.map_some]
        rw [hp p, if_neg (by omega)]
        rfl
      · unfold start
        rw [List.getElem?_map, List.getElem?_range (by omega)]
        simp only [Option.map_some]
        rw [hp 0, if_pos rfl]
        rfl
    | @tail a b _ hs ih =>
      obtain ⟨i1, i2, i3, i4, i5⟩ := ih
      have only0 : ∀ i act' rest, a.progs[i]? = some (act' :: rest) → act false a.dirs a.files act' ≠ none → i = 0 ∧ act' = first ∧ a.raised = [] := by
        intro i act' rest hi hne
        by_cases h0 : i = 0
        · subst h0
          rcases i5 with ⟨i5, i6⟩ | ⟨i5, _⟩
          · rw [i5] at hi
            injection hi with hi
            injection hi with h1 h2
            exact ⟨rfl, h1.symm, i6⟩
          · rw [i5] at hi
            cases hi
        · have hlt : i < n := by
            rw [← i3]
            exact (List.getElem?_eq_some_iff.1 hi).1
          rw [i4 i (by omega) hlt] at hi
          injection hi with hi
          injection hi with h1 h2
          subst h1
          exact absurd rfl hne
      cases hs with
      | one i act' rest _ dirs fs hi hact =>
        exfalso
        obtain ⟨rfl, rfl, _⟩ := only0 i act' rest hi (by rw [hact]; simp)
        rw [act_first false dir _ hf, if_neg i2] at hact
        injection hact with hact
        cases hact
      | raise i act' rest _ e hi hact =>
        obtain ⟨rfl, rfl, hr⟩ := only0 i act' rest hi (by rw [hact]; simp)
        refine ⟨i1, i2, by simpa using i3, ?_, .inr ⟨?_, by simp [hr]⟩⟩
        · intro p h0 hpn
          simp only
          rw [List.getElem?_set_ne (by omega)]
          exact i4 p h0 hpn
        · simp only
          rw [List.getElem?_set_self (by omega)]
      | all nm _ hne hall =>
        exfalso
        rcases i5 with ⟨i5, _⟩ | ⟨i5, _⟩
        · obtain ⟨rest, e⟩ := hall _ (List.mem_of_getElem? i5)
          rcases hf with rfl | rfl <;> cases e
        · obtain ⟨rest, e⟩ := hall _ (List.mem_of_getElem? i5)
          cases e
  obtain ⟨i1, i2, i3, i4, i5⟩ := inv
  refine ⟨i1, ?_, fun p h0 hpn => ⟨name, i4 p h0 hpn⟩⟩
  intro he
  rcases i5 with ⟨i5, _⟩ | ⟨_, i6⟩
  · rw [i5] at he
    cases he
  · exact i6

/-- The meeting is needed: without it a process may try to write before the directory exists, and raise. -/
theorem C113_without_sync (dir f : Str) :
    ∃ w, Reachable true (start 2 (fun p => (if p = 0 then [.makedirs dir] else []) ++ [.write dir f]) [] []) w ∧ w.raised = [1] := by
  refine ⟨_, .head (.raise 1 (.write dir f) [] _ .fileNotFoundError rfl ?_) .refl, rfl⟩
  simp [act, start]

/-- Both programs are of this kind; a run of two processes in which process 1 is first at the meeting. -/
example : Guarded "/w".toList (fun p => if p = 0 then ["a".toList] else ["b".toList]) (saveProgram "/w".toList fun p => if p = 0 then ["a".toList] else ["b".toList]) ∧
    Guarded "/w/ckpt".toList (fun _ => []) (managerProgram "/w".toList fun _ => []) ∧
    ∃ w, Reachable true (start 2 (saveProgram "/w".toList fun p => if p = 0 then ["a".toList] else ["b".toList]) [] []) w ∧
      w.files = [("/w".toList, "b".toList)] := by
  refine ⟨guarded_save _ _, guarded_manager "/w".toList _, ?_⟩
  refine ⟨_, .head (.one 0 (.makedirs "/w".toList) _ _ ["/w".toList] [] rfl rfl) (.head (.all ("checkpoints:mkdir:/w".toList) _ (by simp [start]) ?_)
    (.head (.one 1 (.write "/w".toList "b".toList) [] _ ["/w".toList] [("/w".toList, "b".toList)] rfl rfl) .refl)), rfl⟩
  intro p hp
  simp only [start] at hp
  rcases List.mem_cons.1 hp with rfl | hp
  · exact ⟨_, rfl⟩
  · rcases List.mem_cons.1 hp with rfl | hp
    · exact ⟨_, rfl⟩
    · cases hp

end Verif.DirSync
