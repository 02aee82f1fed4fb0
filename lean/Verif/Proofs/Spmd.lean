import Verif.Model.Spmd
import Mathlib.Algebra.BigOperators.Fin
import Mathlib.Algebra.Order.BigOperators.Group.Finset
import Mathlib.Data.Fintype.Lattice
import Mathlib.Logic.Relation

/-! Helper lemmas for C121: every process follows the same list of resolved statements. -/

namespace Verif.Spmd

/-- A statement whose outcome is known. -/
inductive R where
  | sync (name : Name)
  | skip (k : Nat)
  | save (k : Nat)
  | wait
  | check (k : Nat) (there : Bool)

/-- Collective operation of a resolved statement. -/
def R.name : R → Option Name
  | .sync n => some n
  | .save k => some (.save k)
  | _ => none

/-- Label that is saved. -/
def R.label : R → Option Nat
  | .save k => some k
  | _ => none

def coll (l : List R) : List Name := l.filterMap R.name

def saves (l : List R) : List Nat := l.filterMap R.label

@[simp] theorem saves_append (a b : List R) : saves (a ++ b) = saves a ++ saves b := by simp [saves]

/-- Number of the step of a train step. -/
def Name.trainStep : Name → Option Nat
  | .train k => some k
  | _ => none

def trains (l : List R) : List Nat := (coll l).filterMap Name.trainStep

@[simp] theorem trains_append (a b : List R) : trains (a ++ b) = trains a ++ trains b := by simp [trains, coll]

theorem trains_cons (x : R) (l : List R) : trains (x :: l) = trains [x] ++ trains l := by
  rw [← trains_append]
  rfl

theorem saves_cons (x : R) (l : List R) : saves (x :: l) = x.label.toList ++ saves l := by
  cases x <;> rfl

@[simp] theorem coll_append (a b : List R) : coll (a ++ b) = coll a ++ coll b := by simp [coll]

/-- A program and the statements it consists of when the answers are as given. -/
inductive Res (every : Nat) : Option Nat → List Instr → List R → Prop
  | nil {l} : Res every l [] []
  | sync {l nm t r} : Res every l t r → Res every l (.act (.sync nm) :: t) (.sync nm :: r)
  | skip {l k t r} : ¬ shouldSave every l k → Res every l t r → Res every l (.act (.save k false) :: t) (.skip k :: r)
  | save {l k f t r} : f = true ∨ shouldSave every l k → Res every (some k) t r →
      Res every l (.act (.save k f) :: t) (.save k :: r)
  | wait {l t r} : Res every l t r → Res every l (.act .wait :: t) (.wait :: r)
  | found {l k b t r} : Res every l t r → Res every l (.ifMissing k b :: t) (.check k true :: r)
  | missing {l k b t r} : Res every l (b.map .act ++ t) r → Res every l (.ifMissing k b :: t) (.check k false :: r)

/-- The directory after the given saves have been completed one after the other. -/
inductive DiskOk (disk0 : List Nat) : List Nat → List Nat → Prop
  | nil : DiskOk disk0 [] disk0
  | commit {C D k D'} : DiskOk disk0 C D → k ∈ D' → D' ⊆ k :: D → DiskOk disk0 (C ++ [k]) D'

theorem DiskOk.nil_eq {disk0 C D : List Nat} (h : DiskOk disk0 C D) (hC : C = []) : D = disk0 := by
  cases h with
  | nil => rfl
  | commit _ _ _ => simp at hC

theorem DiskOk.subset {disk0 C D : List Nat} (h : DiskOk disk0 C D) : ∀ k ∈ D, k ∈ disk0 ∨ k ∈ C := by
  induction h with
  | nil => exact fun k hk => Or.inl hk
  | commit _ _ hs ih =>
    intro k hk
    rcases List.mem_cons.1 (hs hk) with rfl | h
    · simp
    · rcases ih k h with h | h
      · exact Or.inl h
      · exact Or.inr (by simp [h])

theorem DiskOk.last {disk0 C D : List Nat} (h : DiskOk disk0 C D) (C' : List Nat) (k : Nat) (hC : C = C' ++ [k]) : k ∈ D := by
  cases h with
  | nil => simp at hC
  | commit _ hk _ =>
    obtain ⟨_, h2⟩ := List.append_inj' hC rfl
    simp only [List.cons.injEq, and_true] at h2
    exact h2 ▸ hk

/-- After the last save there was a wait. -/
def Waited (d : List R) : Prop := saves d = [] ∨ ∃ a b, d = a ++ .wait :: b ∧ saves b = []

/-- The answers are right. -/
def Good (disk0 : List Nat) (r : List R) : Prop :=
  ∀ d k b t, r = d ++ .check k b :: t → Waited d ∧ ∀ D, DiskOk disk0 (saves d) D → (k ∈ D ↔ b = true)

/-- What is known of a process that has done `d` of `d ++ rem`; `C` are the completed saves. -/
structure PInv (every : Nat) (C : List Nat) (p : Proc) (d rem : List R) : Prop where
  res : Res every p.latest p.prog rem
  out : p.entered = false → p.hist = coll d
  inside : p.entered = true → ∃ x rest nm, rem = x :: rest ∧ x.name = some nm ∧ p.hist = coll d ++ [nm] ∧
    (x.label ≠ none → p.pending = none)
  pend : saves d = C ++ p.pending.toList
  waited : ∀ a b, d = a ++ .wait :: b → saves b = [] → p.pending = none

/-- The invariant of the system. -/
def Inv {n : Nat} (every : Nat) (disk0 : List Nat) (r : List R) (s : Sys n) : Prop :=
  ∃ C, DiskOk disk0 C s.disk ∧ ∀ j, ∃ d rem, r = d ++ rem ∧ PInv every C (s.procs j) d rem

theorem set_procs {n : Nat} (s : Sys n) (i : Fin n) (p : Proc) (P : Fin n → Proc → Prop) (h : ∀ j, j ≠ i → P j (s.procs j))
    (hp : P i p) : ∀ j, P j ((s.set i p).procs j) := by
  intro j
  by_cases hj : j = i
  · subst hj
    simpa [Sys.set] using hp
  · simpa [Sys.set, hj] using h j hj

theorem waited_snoc {p : Option Nat} {d : List R} {x : R} (hx : x ≠ .wait)
    (h : ∀ a b, d = a ++ .wait :: b → saves b = [] → p = none) :
    ∀ a b, d ++ [x] = a ++ .wait :: b → saves b = [] → p = none := by
  intro a b e hb
  rcases List.eq_nil_or_concat b with rfl | ⟨b', y, rfl⟩
  · obtain ⟨_, h2⟩ := List.append_inj' e rfl
    simp only [List.cons.injEq, and_true] at h2
    exact absurd h2 hx
  · rw [List.concat_eq_append, ← List.cons_append, ← List.append_assoc] at e
    obtain ⟨h1, _⟩ := List.append_inj' e rfl
    refine h a b' h1 ?_
    rw [List.concat_eq_append, saves_append] at hb
    exact (List.append_eq_nil_iff.1 hb).1

theorem inv_step {n : Nat} {every : Nat} {disk0 : List Nat} {r : List R} (hg : Good disk0 r) {s s' : Sys n}
    (hi : Inv every disk0 r s) (h : Step every s s') : Inv every disk0 r s' := by
  obtain ⟨C, hC, hp⟩ := hi
  cases h with
  | @enterSync i nm rest hprog hent =>
    refine ⟨C, hC, set_procs s i _ (fun _ p => ∃ d rem, r = d ++ rem ∧ PInv every C p d rem) (fun j _ => hp j) ?_⟩
    obtain ⟨d, rem, hr, hpi⟩ := hp i
    refine ⟨d, rem, hr, ⟨hpi.res, by simp, ?_, hpi.pend, hpi.waited⟩⟩
    intro _
    have hres := hpi.res
    rw [hprog] at hres
    cases hres with
    | sync ht => exact ⟨_, _, nm, rfl, rfl, by simp [hpi.out hent], by simp [R.label]⟩
  | @leaveSync i nm rest hprog hent _ =>
    refine ⟨C, hC, set_procs s i _ (fun _ p => ∃ d rem, r = d ++ rem ∧ PInv every C p d rem) (fun j _ => hp j) ?_⟩
    obtain ⟨d, rem, hr, hpi⟩ := hp i
    have hres := hpi.res
    rw [hprog] at hres
    cases hres with
    | @sync _ _ _ r' ht =>
      refine ⟨d ++ [.sync nm], r', by simp [hr], ⟨ht, ?_, by simp, by simp [saves, R.label, ← hpi.pend], ?_⟩⟩
      · intro _
        obtain ⟨x, rest', nm', e, hn, hh, _⟩ := hpi.inside hent
        simp only [List.cons.injEq] at e
        obtain ⟨rfl, rfl⟩ := e
        simp only [R.name, Option.some.injEq] at hn
        subst hn
        simp [hh, coll, R.name]
      · exact waited_snoc (by simp) hpi.waited
  | @skipSave i k rest hprog hns =>
    refine ⟨C, hC, set_procs s i _ (fun _ p => ∃ d rem, r = d ++ rem ∧ PInv every C p d rem) (fun j _ => hp j) ?_⟩
    obtain ⟨d, rem, hr, hpi⟩ := hp i
    have hres := hpi.res
    rw [hprog] at hres
    have hent : (s.procs i).entered = false → (s.procs i).hist = coll d := hpi.out
    cases hres with
    | @skip _ _ _ r' _ ht =>
      have hf : (s.procs i).entered = false := by
        by_contra hne
        obtain ⟨x, rest', nm', e, hn, _, _⟩ := hpi.inside (by simpa using hne)
        simp only [List.cons.injEq] at e
        obtain ⟨rfl, rfl⟩ := e
        simp [R.name] at hn
      refine ⟨d ++ [.skip k], r', by simp [hr], ⟨ht, ?_, ?_, by simp [saves, R.label, ← hpi.pend], ?_⟩⟩
      · intro _
        simp [coll, R.name, hpi.out hf]
      · intro h
        simp [hf] at h
      · exact waited_snoc (by simp) hpi.waited
    | save hs _ =>
      exact absurd (hs.resolve_left (by simp)) hns
  | @enterSave i k force rest hprog hent hdo hpend =>
    refine ⟨C, hC, set_procs s i _ (fun _ p => ∃ d rem, r = d ++ rem ∧ PInv every C p d rem) (fun j _ => hp j) ?_⟩
    obtain ⟨d, rem, hr, hpi⟩ := hp i
    refine ⟨d, rem, hr, ⟨hpi.res, by simp, ?_, hpi.pend, hpi.waited⟩⟩
    intro _
    have hres := hpi.res
    rw [hprog] at hres
    cases hres with
    | skip hns _ => exact absurd (hdo.resolve_left (by simp)) hns
    | save _ ht => exact ⟨_, _, .save k, rfl, rfl, by simp [hpi.out hent], fun _ => hpend⟩
  | @leaveSave i k force rest hprog hent _ =>
    refine ⟨C, hC, set_procs s i _ (fun _ p => ∃ d rem, r = d ++ rem ∧ PInv every C p d rem) (fun j _ => hp j) ?_⟩
    obtain ⟨d, rem, hr, hpi⟩ := hp i
    have hres := hpi.res
    rw [hprog] at hres
    obtain ⟨x, rest', nm', e, hn, hh, hpn⟩ := hpi.inside hent
    cases hres with
    | skip _ _ =>
      simp only [List.cons.injEq] at e
      obtain ⟨rfl, rfl⟩ := e
      simp [R.name] at hn
    | @save _ _ _ _ r' _ ht =>
      simp only [List.cons.injEq] at e
      obtain ⟨rfl, rfl⟩ := e
      simp only [R.name, Option.some.injEq] at hn
      subst hn
      have hnone := hpn (by simp [R.label])
      have hsv := hpi.pend
      rw [hnone] at hsv
      refine ⟨d ++ [.save k], r', by simp [hr], ⟨ht, ?_, by simp, ?_, ?_⟩⟩
      · intro _
        simp [hh, coll, R.name]
      · rw [saves_append, hsv]
        simp [saves, R.label]
      · intro a b e hb
        exfalso
        rcases List.eq_nil_or_concat b with rfl | ⟨b', y, rfl⟩
        · obtain ⟨_, h2⟩ := List.append_inj' e rfl
          simp at h2
        · rw [List.concat_eq_append, ← List.cons_append, ← List.append_assoc] at e
          obtain ⟨_, h2⟩ := List.append_inj' e rfl
          simp only [List.cons.injEq, and_true] at h2
          subst h2
          simp [saves, R.label] at hb
  | @wait i rest hprog hpend =>
    refine ⟨C, hC, set_procs s i _ (fun _ p => ∃ d rem, r = d ++ rem ∧ PInv every C p d rem) (fun j _ => hp j) ?_⟩
    obtain ⟨d, rem, hr, hpi⟩ := hp i
    have hres := hpi.res
    rw [hprog] at hres
    cases hres with
    | @wait _ _ r' ht =>
      have hf : (s.procs i).entered = false := by
        by_contra hne
        obtain ⟨x, rest', nm', e, hn, _, _⟩ := hpi.inside (by simpa using hne)
        simp only [List.cons.injEq] at e
        obtain ⟨rfl, rfl⟩ := e
        simp [R.name] at hn
      refine ⟨d ++ [.wait], r', by simp [hr], ⟨ht, ?_, ?_, by simp [saves, R.label, ← hpi.pend], fun _ _ _ _ => hpend⟩⟩
      · intro _
        simp [coll, R.name, hpi.out hf]
      · intro h
        simp [hf] at h
  | @found i k body rest hprog hk =>
    refine ⟨C, hC, set_procs s i _ (fun _ p => ∃ d rem, r = d ++ rem ∧ PInv every C p d rem) (fun j _ => hp j) ?_⟩
    obtain ⟨d, rem, hr, hpi⟩ := hp i
    have hres := hpi.res
    rw [hprog] at hres
    have hf : (s.procs i).entered = false := by
      by_contra hne
      obtain ⟨x, rest', nm', e, hn, _, _⟩ := hpi.inside (by simpa using hne)
      subst e
      cases hres <;> simp [R.name] at hn
    have key : ∀ b t, rem = .check k b :: t → b = true := by
      rintro b t rfl
      obtain ⟨hw, hD⟩ := hg d k b t hr
      have hnone : (s.procs i).pending = none := by
        rcases hw with h | ⟨a, b', e, hb⟩
        · have := hpi.pend
          rw [h] at this
          have h2 := (List.append_eq_nil_iff.1 this.symm).2
          simpa using h2
        · exact hpi.waited a b' e hb
      have hsv := hpi.pend
      rw [hnone] at hsv
      simp only [Option.toList_none, List.append_nil] at hsv
      exact (hD _ (hsv ▸ hC)).1 hk
    cases hres with
    | @found _ _ _ _ r' ht =>
      refine ⟨d ++ [.check k true], r', by simp [hr], ⟨ht, ?_, ?_, by simp [saves, R.label, ← hpi.pend], ?_⟩⟩
      · intro _
        simp [coll, R.name, hpi.out hf]
      · intro h
        simp [hf] at h
      · exact waited_snoc (by simp) hpi.waited
    | missing _ => exact absurd (key _ _ rfl) (by simp)
  | @missing i k body rest hprog hk =>
    refine ⟨C, hC, set_procs s i _ (fun _ p => ∃ d rem, r = d ++ rem ∧ PInv every C p d rem) (fun j _ => hp j) ?_⟩
    obtain ⟨d, rem, hr, hpi⟩ := hp i
    have hres := hpi.res
    rw [hprog] at hres
    have hf : (s.procs i).entered = false := by
      by_contra hne
      obtain ⟨x, rest', nm', e, hn, _, _⟩ := hpi.inside (by simpa using hne)
      subst e
      cases hres <;> simp [R.name] at hn
    have key : ∀ b t, rem = .check k b :: t → b = false := by
      rintro b t rfl
      obtain ⟨hw, hD⟩ := hg d k b t hr
      have hnone : (s.procs i).pending = none := by
        rcases hw with h | ⟨a, b', e, hb⟩
        · have := hpi.pend
          rw [h] at this
          have h2 := (List.append_eq_nil_iff.1 this.symm).2
          simpa using h2
        · exact hpi.waited a b' e hb
      have hsv := hpi.pend
      rw [hnone] at hsv
      simp only [Option.toList_none, List.append_nil] at hsv
      have := (hD _ (hsv ▸ hC)).2
      by_contra hb
      exact hk (this (by simpa using hb))
    cases hres with
    | found _ => exact absurd (key _ _ rfl) (by simp)
    | @missing _ _ _ _ r' ht =>
      refine ⟨d ++ [.check k false], r', by simp [hr], ⟨ht, ?_, ?_, by simp [saves, R.label, ← hpi.pend], ?_⟩⟩
      · intro _
        simp [coll, R.name, hpi.out hf]
      · intro h
        simp [hf] at h
      · exact waited_snoc (by simp) hpi.waited
  | @commit k disk hn hpend hk hsub =>
    refine ⟨C ++ [k], hC.commit hk hsub, ?_⟩
    intro j
    obtain ⟨d, rem, hr, hpi⟩ := hp j
    refine ⟨d, rem, hr, ⟨hpi.res, hpi.out, ?_, ?_, fun _ _ _ _ => rfl⟩⟩
    · intro h
      obtain ⟨x, rest', nm', e, hn, hh, _⟩ := hpi.inside h
      exact ⟨x, rest', nm', e, hn, hh, fun _ => rfl⟩
    · rw [hpi.pend, hpend j]
      simp

theorem inv_reach {n : Nat} {every : Nat} {disk0 : List Nat} {r : List R} (hg : Good disk0 r) {s s' : Sys n}
    (hi : Inv every disk0 r s) (h : Relation.ReflTransGen (Step every) s s') : Inv every disk0 r s' := by
  induction h with
  | refl => exact hi
  | tail _ hs ih => exact inv_step hg ih hs

theorem coll_prefix {d d' rem rem' : List R} (e : d ++ rem = d' ++ rem') (h : d.length ≤ d'.length) :
    ∃ m, d' = d ++ m ∧ rem = m ++ rem' := by
  rcases List.append_eq_append_iff.1 e with ⟨m, h1, h2⟩ | ⟨m, h1, h2⟩
  · exact ⟨m, h1, h2⟩
  · have : m = [] := by
      have := congrArg List.length h1
      rw [List.length_append] at this
      exact List.length_eq_zero_iff.1 (by omega)
    subst this
    exact ⟨[], by simpa using h1.symm, by simpa using h2.symm⟩

/-- A process whose next statement is the collective operation `nm`, and which is not ahead of the others: it, or one that
is in the same place, or the background save, can go on. -/
theorem progress {n : Nat} {every : Nat} {disk0 : List Nat} {r : List R} (s : Sys n)
    (hi : Inv every disk0 r s) : (∃ s', Step every s s') ∨ ∀ j, (s.procs j).prog = [] := by
  rcases Nat.eq_zero_or_pos n with rfl | hn
  · exact Or.inr fun j => j.elim0
  obtain ⟨C, hC, hp⟩ := hi
  choose d rem hr hpi using hp
  have : Nonempty (Fin n) := ⟨⟨0, hn⟩⟩
  obtain ⟨i, hmin⟩ := Finite.exists_min fun j => (d j).length
  have hpre : ∀ j, ∃ m, d j = d i ++ m ∧ rem i = m ++ rem j :=
    fun j => coll_prefix ((hr i).symm.trans (hr j)) (hmin j)
  -- the background save can be completed when process `i` has one
  have hcommit : ∀ k, (s.procs i).pending = some k → ∃ s', Step every s s' := by
    intro k hk
    refine ⟨_, Step.commit (k := k) (disk := k :: s.disk) hn ?_ (by simp) (fun _ h => h)⟩
    intro j
    obtain ⟨m, hm, _⟩ := hpre j
    have h1 := (hpi j).pend
    rw [hm, saves_append, (hpi i).pend, hk, List.append_assoc] at h1
    have h2 := List.append_cancel_left h1
    cases hj : (s.procs j).pending with
    | none => rw [hj] at h2; simp at h2
    | some k' =>
      rw [hj] at h2
      simp only [Option.toList_some, List.singleton_append, List.cons.injEq] at h2
      rw [h2.1]
  -- all have called, or one of them can call
  have hcalled : ∀ x rest nm, rem i = x :: rest → x.name = some nm → (s.procs i).entered = true →
      (∀ j, (s.procs j).hist[(s.procs i).hist.length - 1]? = some nm) ∨ ∃ j, d j = d i ∧ (s.procs j).entered = false := by
    intro x rest nm hx hnm hent
    by_cases hex : ∃ j, d j = d i ∧ (s.procs j).entered = false
    · exact Or.inr hex
    refine Or.inl fun j => ?_
    push Not at hex
    obtain ⟨x', rest', nm', e, hn', hh, _⟩ := (hpi i).inside hent
    rw [hx] at e
    simp only [List.cons.injEq] at e
    obtain ⟨rfl, rfl⟩ := e
    rw [hnm] at hn'
    simp only [Option.some.injEq] at hn'
    subst hn'
    rw [hh, List.length_append, List.length_singleton, Nat.add_sub_cancel]
    obtain ⟨m, hm, hrm⟩ := hpre j
    have hpref : coll (d i) ++ [nm] <+: (s.procs j).hist := by
      rcases m with _ | ⟨y, m⟩
      · simp only [List.append_nil] at hm
        simp only [List.nil_append] at hrm
        obtain ⟨x', rest', nm', e, hn', hh', _⟩ := (hpi j).inside (by simpa using hex j hm)
        rw [← hrm, hx] at e
        simp only [List.cons.injEq] at e
        obtain ⟨rfl, rfl⟩ := e
        rw [hnm] at hn'
        simp only [Option.some.injEq] at hn'
        rw [hh', hm, hn']
      · rw [hx, List.cons_append] at hrm
        simp only [List.cons.injEq] at hrm
        have h1 : coll (d i) ++ [nm] <+: coll (d j) := by
          rw [hm, coll_append, ← hrm.1]
          exact ⟨coll m, by simp [coll, hnm]⟩
        by_cases he : (s.procs j).entered = true
        · obtain ⟨_, _, _, _, _, hh', _⟩ := (hpi j).inside he
          rw [hh']
          exact h1.trans (List.prefix_append _ _)
        · rw [(hpi j).out (by simpa using he)]
          exact h1
    obtain ⟨z, hz⟩ := hpref
    rw [← hz]
    simp
  have hres := (hpi i).res
  rcases hrem : rem i with _ | ⟨x, rest⟩
  · -- the last process is done, so all are
    refine Or.inr fun j => ?_
    obtain ⟨m, _, h⟩ := hpre j
    rw [hrem] at h
    have hj := (List.append_eq_nil_iff.1 h.symm).2
    have hres := (hpi j).res
    rw [hj] at hres
    generalize (s.procs j).prog = p at hres
    generalize (s.procs j).latest = l at hres
    cases hres
    rfl
  left
  have same : ∀ j, d j = d i → rem j = x :: rest := by
    intro j hj
    obtain ⟨m, hm, h⟩ := hpre j
    rw [hj] at hm
    have : m = [] := by simpa using hm.symm
    subst this
    rw [List.nil_append, hrem] at h
    exact h.symm
  -- a process in the same place that has not called can go on
  have henter : ∀ j, d j = d i → (s.procs j).entered = false → (∃ nm, x.name = some nm) → ∃ s', Step every s s' := by
    intro j hj hent ⟨nm, hnm⟩
    have hres := (hpi j).res
    rw [same j hj] at hres
    generalize hprog : (s.procs j).prog = p at hres
    generalize hlat : (s.procs j).latest = l at hres
    cases hres with
    | sync _ => exact ⟨_, .enterSync hprog hent⟩
    | skip _ _ => simp [R.name] at hnm
    | @save _ k f _ _ hs _ =>
      rcases hpn : (s.procs j).pending with _ | k'
      · exact ⟨_, .enterSave hprog hent (hlat ▸ hs) hpn⟩
      · refine hcommit k' ?_
        have h1 := (hpi j).pend
        have h2 := (hpi i).pend
        rw [hj, h2, hpn] at h1
        have h3 := List.append_cancel_left h1
        rcases hpi' : (s.procs i).pending with _ | k2
        · rw [hpi'] at h3; simp at h3
        · rw [hpi'] at h3
          simpa using h3
    | wait _ => simp [R.name] at hnm
    | found _ => simp [R.name] at hnm
    | missing _ => simp [R.name] at hnm
  rw [hrem] at hres
  generalize hprog : (s.procs i).prog = p at hres
  generalize hlat : (s.procs i).latest = l at hres
  cases hres with
  | @sync _ nm t _ _ =>
    rcases he : (s.procs i).entered with _ | _
    · exact henter i rfl he ⟨nm, rfl⟩
    · rcases hcalled _ _ nm hrem rfl he with h | ⟨j, hj, hj'⟩
      · exact ⟨_, .leaveSync hprog he h⟩
      · exact henter j hj hj' ⟨nm, rfl⟩
  | skip hns _ => exact ⟨_, .skipSave hprog (hlat ▸ hns)⟩
  | @save _ k f t _ hs _ =>
    rcases he : (s.procs i).entered with _ | _
    · exact henter i rfl he ⟨.save k, rfl⟩
    · rcases hcalled _ _ (.save k) hrem rfl he with h | ⟨j, hj, hj'⟩
      · exact ⟨_, .leaveSave hprog he h⟩
      · exact henter j hj hj' ⟨.save k, rfl⟩
  | wait _ =>
    rcases hpn : (s.procs i).pending with _ | k
    · exact ⟨_, .wait hprog hpn⟩
    · exact hcommit k hpn
  | @found _ k _ _ _ _ =>
    by_cases hk : k ∈ s.disk
    · exact ⟨_, .found hprog hk⟩
    · exact ⟨_, .missing hprog hk⟩
  | @missing _ k _ _ _ _ =>
    by_cases hk : k ∈ s.disk
    · exact ⟨_, .found hprog hk⟩
    · exact ⟨_, .missing hprog hk⟩

/-! ## Every execution ends -/

/-- Bound on what a statement still needs. -/
def weight : Instr → Nat
  | .act _ => 3
  | .ifMissing _ b => 1 + 3 * b.length

/-- Bound on what a process still needs. -/
def todo (p : Proc) : Nat :=
  (p.prog.map weight).sum + (if p.entered then 0 else 1) + p.pending.toList.length

theorem sum_act (b : List Act) : ((b.map Instr.act).map weight).sum = 3 * b.length := by
  induction b with
  | nil => rfl
  | cons a b ih =>
    simp only [List.map_cons, List.sum_cons, weight] at ih ⊢
    rw [ih, List.length_cons]
    omega

theorem total_set {n : Nat} (s : Sys n) (i : Fin n) (p : Proc) (h : todo p < todo (s.procs i)) :
    ∑ j, todo ((s.set i p).procs j) < ∑ j, todo (s.procs j) := by
  refine Finset.sum_lt_sum ?_ ⟨i, Finset.mem_univ i, ?_⟩
  · intro j _
    by_cases hj : j = i
    · subst hj
      simpa [Sys.set] using h.le
    · simp [Sys.set, hj]
  · simpa [Sys.set] using h

theorem toList_le {α : Type} (o : Option α) : o.toList.length ≤ 1 := by
  cases o <;> simp

theorem total_step {n : Nat} {every : Nat} {s s' : Sys n} (h : Step every s s') :
    ∑ j, todo (s'.procs j) < ∑ j, todo (s.procs j) := by
  cases h with
  | enterSync hp he =>
    refine total_set s _ _ ?_
    simp [todo, he]
  | leaveSync hp he _ =>
    refine total_set s _ _ ?_
    simp only [todo, hp, he, List.map_cons, List.sum_cons, weight, Bool.false_eq_true, if_true, if_false]
    omega
  | skipSave hp _ =>
    refine total_set s _ _ ?_
    simp only [todo, hp, List.map_cons, List.sum_cons, weight]
    omega
  | enterSave hp he _ _ =>
    refine total_set s _ _ ?_
    simp [todo, he]
  | @leaveSave i k _ _ hp he _ =>
    refine total_set s _ _ ?_
    have := toList_le (some k)
    simp only [todo, hp, he, List.map_cons, List.sum_cons, weight, Bool.false_eq_true, if_true, if_false]
    omega
  | wait hp _ =>
    refine total_set s _ _ ?_
    simp only [todo, hp, List.map_cons, List.sum_cons, weight]
    omega
  | found hp _ =>
    refine total_set s _ _ ?_
    simp only [todo, hp, List.map_cons, List.sum_cons, weight]
    omega
  | missing hp _ =>
    refine total_set s _ _ ?_
    simp only [todo, hp, List.map_cons, List.sum_cons, weight, List.map_append, List.sum_append, sum_act]
    omega
  | @commit k _ hn hp _ _ =>
    refine Finset.sum_lt_sum ?_ ⟨⟨0, hn⟩, Finset.mem_univ _, ?_⟩
    · intro j _
      simp [todo, hp j]
    · simp [todo, hp]

/-! ## The statements of the training program -/

/-- A form of `Good` that follows the list. -/
def GoodFrom (disk0 : List Nat) : List R → List R → Prop
  | _, [] => True
  | d0, x :: r =>
    (∀ k b, x = .check k b → Waited d0 ∧ ∀ D, DiskOk disk0 (saves d0) D → (k ∈ D ↔ b = true)) ∧
      GoodFrom disk0 (d0 ++ [x]) r

theorem GoodFrom.split {disk0 : List Nat} : ∀ {d0 r : List R}, GoodFrom disk0 d0 r → ∀ d k b t, r = d ++ .check k b :: t →
    Waited (d0 ++ d) ∧ ∀ D, DiskOk disk0 (saves (d0 ++ d)) D → (k ∈ D ↔ b = true)
  | d0, [], _, d, k, b, t, e => by simp at e
  | d0, x :: r, h, [], k, b, t, e => by
    simp only [List.nil_append, List.cons.injEq] at e
    simpa using h.1 k b e.1
  | d0, x :: r, h, y :: d, k, b, t, e => by
    simp only [List.cons_append, List.cons.injEq] at e
    have := h.2.split d k b t e.2
    rw [e.1] at this
    simpa using this

theorem GoodFrom.good {disk0 : List Nat} {r : List R} (h : GoodFrom disk0 [] r) : Good disk0 r := by
  intro d k b t e
  simpa using h.split d k b t e

theorem goodFrom_append {disk0 : List Nat} : ∀ (a d0 r : List R), (∀ x ∈ a, ∀ k b, x ≠ .check k b) →
    GoodFrom disk0 (d0 ++ a) r → GoodFrom disk0 d0 (a ++ r)
  | [], d0, r, _, h => by simpa using h
  | x :: a, d0, r, hx, h => by
    refine ⟨fun k b e => absurd e (hx x (by simp) k b), ?_⟩
    refine goodFrom_append a (d0 ++ [x]) r (fun y hy => hx y (by simp [hy])) ?_
    simpa using h

theorem res_syncs {every : Nat} {l : Option Nat} {t : List Instr} {r : List R} (h : Res every l t r) (f : Nat → Name) :
    ∀ is : List Nat, Res every l (is.map (fun i => .act (.sync (f i))) ++ t) (is.map (fun i => .sync (f i)) ++ r)
  | [] => h
  | _ :: is => .sync (res_syncs h f is)

/-- The loop in statements: no test of the directory, and the saved labels are some of the steps, in order. -/
theorem res_loop {every : Nat} (hooks : Nat → Nat) :
    ∀ (steps : List Nat) (l : Option Nat), ∃ l' a,
      (∀ t r, Res every l' t r → Res every l ((steps.flatMap fun k => iteration k (hooks k)) ++ t) (a ++ r)) ∧
      (∀ x ∈ a, ∀ k b, x ≠ .check k b) ∧ (saves a).Sublist steps ∧ trains a = steps
  | [], l => ⟨l, [], fun _ _ h => h, by simp, by simp [saves], rfl⟩
  | k :: steps, l => by
    classical
    have hh : saves ((List.range (hooks k)).map fun i => R.sync (.hook k i)) = [] := by
      simp [saves, R.label, Function.comp_def]
    have hh' : trains ((List.range (hooks k)).map fun i => R.sync (.hook k i)) = [] := by
      simp [trains, coll, R.name, Name.trainStep, Function.comp_def]
    have one : ∀ (l1 : Option Nat) (x : R), (x = .save k ∨ x = .skip k) →
        (∀ t r, Res every l1 t r → Res every l (.act (.save k false) :: t) (x :: r)) → ∃ l' a,
      (∀ t r, Res every l' t r → Res every l (((k :: steps).flatMap fun k => iteration k (hooks k)) ++ t) (a ++ r)) ∧
      (∀ x ∈ a, ∀ k b, x ≠ .check k b) ∧ (saves a).Sublist (k :: steps) ∧ trains a = k :: steps := by
      intro l1 x hx hstep
      obtain ⟨l', a, h1, h3, h4, h5⟩ := res_loop hooks steps l1
      exact ⟨l', .sync (.train k) :: x :: ((List.range (hooks k)).map fun i => R.sync (.hook k i)) ++ a, by
        intro t r ht
        simp only [List.flatMap_cons, iteration, List.cons_append, List.append_assoc]
        exact .sync (hstep _ _ (res_syncs (h1 t r ht) _ _)), by
        intro y hy
        simp only [List.cons_append, List.mem_cons, List.mem_append, List.mem_map] at hy
        rcases hy with rfl | rfl | ⟨i, _, rfl⟩ | hy
        · simp
        · rcases hx with rfl | rfl <;> simp
        · simp
        · exact h3 y hy, by
        rw [List.cons_append, List.cons_append, saves_cons, saves_cons, saves_append, hh]
        rcases hx with rfl | rfl
        · exact h4.cons_cons k
        · exact h4.cons k, by
        rw [List.cons_append, List.cons_append, trains_cons, trains_cons x, trains_append, h5, hh']
        rcases hx with rfl | rfl <;> rfl⟩
    by_cases hs : shouldSave every l k
    · exact one (some k) (.save k) (Or.inl rfl) fun _ _ h => .save (Or.inr hs) h
    · exact one l (.skip k) (Or.inr rfl) fun _ _ h => .skip hs h

/-- The end of the program, whatever the answer of the last test is. -/
def lastRes (N : Nat) (there : Bool) : List R :=
  .wait :: .check N there :: (if there then [] else [.sync .last, .save N, .wait]) ++ [.sync .completed]

theorem res_last {every : Nat} (cfg : Cfg) (l : Option Nat) (there : Bool) :
    Res every l (lastPart cfg) (lastRes cfg.trainSteps there) := by
  cases there with
  | true => exact .wait (.found (.sync .nil))
  | false => exact .wait (.missing (.sync (.save (Or.inl rfl) (.wait (.sync .nil)))))

/-- The first and the last checkpoint around statements `a` of the loop. -/
theorem good_program {disk0 : List Nat} {init N : Nat} {F a : List R} {steps : List Nat}
    (hd : disk0 = [] ∨ init ∈ disk0 ∧ ∀ k ∈ disk0, k ≤ init)
    (hsteps : steps = (List.range (N - init)).map fun j => init + 1 + j)
    (hF : GoodFrom disk0 [] F) (hFs : saves F = [] ∨ init = 0 ∧ disk0 = [] ∧ saves F = [0])
    (ha : ∀ x ∈ a, ∀ k b, x ≠ .check k b) (hs : (saves a).Sublist steps) :
    ∃ there, Good disk0 (F ++ a ++ lastRes N there) ∧
      (∀ D, DiskOk disk0 (saves (F ++ a ++ lastRes N there)) D → N ∈ D) ∧
      Waited (F ++ a ++ lastRes N there) := by
  classical
  -- the answer
  have hmem : ∀ k ∈ saves a, init < k ∧ k ≤ N := by
    intro k hk
    have := hs.subset hk
    rw [hsteps] at this
    simp only [List.mem_map, List.mem_range] at this
    omega
  have key : ∃ there : Bool, ∀ D, DiskOk disk0 (saves (F ++ a)) D → (N ∈ D ↔ there = true) := by
    by_cases hC : saves (F ++ a) = []
    · refine ⟨decide (N ∈ disk0), fun D hD => ?_⟩
      rw [hD.nil_eq hC]
      simp
    by_cases hSa : saves a = []
    · -- only the first checkpoint
      rw [saves_append, hSa, List.append_nil] at hC ⊢
      rcases hFs with h | ⟨h0, hd0, h⟩
      · exact absurd h hC
      refine ⟨decide (N = 0), fun D hD => ?_⟩
      rw [h] at hD
      constructor
      · intro hN
        rcases hD.subset N hN with h | h
        · simp [hd0] at h
        · simpa using h
      · intro hN
        have := hD.last [] 0 rfl
        simp only [decide_eq_true_eq] at hN
        rwa [hN]
    · obtain ⟨k0, hk0⟩ := List.exists_mem_of_ne_nil _ hSa
      have hlt : init < N := by
        have := hmem k0 hk0
        omega
      have hnd : N ∉ disk0 := by
        intro h
        rcases hd with h' | h'
        · simp [h'] at h
        · have := h'.2 N h
          omega
      have hnF : N ∉ saves F := by
        rcases hFs with h | ⟨h0, _, h⟩
        · simp [h]
        · rw [h]
          simp only [List.mem_singleton]
          omega
      refine ⟨decide (N ∈ saves a), fun D hD => ?_⟩
      constructor
      · intro hN
        rcases hD.subset N hN with h | h
        · exact absurd h hnd
        · rw [saves_append, List.mem_append] at h
          simpa using h.resolve_left hnF
      · intro hN
        simp only [decide_eq_true_eq] at hN
        obtain ⟨m, hm⟩ : ∃ m, N - init = m + 1 := ⟨N - init - 1, by omega⟩
        rw [hsteps, hm, List.range_succ, List.map_append] at hs
        obtain ⟨s1, s2, h1, h2, h3⟩ := List.sublist_append_iff.1 hs
        have hs2 : s2 = [N] := by
          rw [h1, List.mem_append] at hN
          have hn1 : N ∉ s1 := by
            intro h
            have := h2.subset h
            simp only [List.mem_map, List.mem_range] at this
            omega
          have hn2 := hN.resolve_left hn1
          have hl := h3.length_le
          simp only [List.map_cons, List.map_nil, List.length_cons, List.length_nil] at hl
          rcases s2 with _ | ⟨y, _ | ⟨z, s2⟩⟩
          · simp at hn2
          · simp only [List.mem_singleton] at hn2
            rw [hn2]
          · simp only [List.length_cons] at hl
            omega
        refine hD.last (saves F ++ s1) N ?_
        rw [saves_append, h1, hs2, List.append_assoc]
  obtain ⟨there, hthere⟩ := key
  have hw : saves (F ++ a ++ [R.wait]) = saves (F ++ a) := by
    rw [saves_append]
    simp [saves, R.label]
  refine ⟨there, GoodFrom.good ?_, ?_, ?_⟩
  · have h1 : ∀ r, GoodFrom disk0 F r → GoodFrom disk0 [] (F ++ r) := by
      have gen : ∀ (F d0 r : List R), GoodFrom disk0 d0 F → GoodFrom disk0 (d0 ++ F) r → GoodFrom disk0 d0 (F ++ r) := by
        intro F
        induction F with
        | nil => intro d0 r _ h; simpa using h
        | cons x F ih =>
          intro d0 r h h'
          exact ⟨h.1, ih _ _ h.2 (by simpa using h')⟩
      exact fun r h => gen F [] r hF (by simpa using h)
    rw [List.append_assoc]
    refine h1 _ (goodFrom_append a F _ ha ?_)
    refine ⟨by simp, ?_, ?_⟩
    · intro k b e
      simp only [R.check.injEq] at e
      obtain ⟨rfl, rfl⟩ := e
      refine ⟨Or.inr ⟨F ++ a, [], by simp, rfl⟩, fun D hD => hthere D (hw ▸ hD)⟩
    · cases there with
      | true => exact ⟨by simp, trivial⟩
      | false => exact ⟨by simp, by simp, by simp, by simp, trivial⟩
  · intro D hD
    cases hb : there with
    | true =>
      refine (hthere D ?_).2 hb
      rw [hb, saves_append] at hD
      rwa [show saves (lastRes N true) = [] from rfl, List.append_nil] at hD
    | false =>
      refine hD.last (saves (F ++ a)) N ?_
      rw [hb, saves_append]
      rfl
  · cases there with
    | true => exact Or.inr ⟨F ++ a, [.check N true, .sync .completed], by simp [lastRes], rfl⟩
    | false =>
      exact Or.inr ⟨F ++ a ++ [.wait, .check N false, .sync .last, .save N], [.sync .completed], by simp [lastRes], rfl⟩

/-- The statements of the training program, when all batches are there. -/
theorem resolve (cfg : Cfg) (hooks : Nat → Nat) (batches : Nat) (disk0 : List Nat)
    (hb : cfg.trainSteps - cfg.init ≤ batches)
    (hd : disk0 = [] ∨ cfg.init ∈ disk0 ∧ ∀ k ∈ disk0, k ≤ cfg.init) :
    ∃ r, Res cfg.every disk0.max? (program cfg hooks batches) r ∧ Good disk0 r ∧
      (∀ D, DiskOk disk0 (saves r) D → cfg.trainSteps ∈ D) ∧ Waited r ∧
      trains r = (List.range (cfg.trainSteps - cfg.init)).map fun j => cfg.init + 1 + j := by
  have e : loopPart cfg hooks batches = (((List.range (cfg.trainSteps - cfg.init)).map fun j =>
      cfg.init + 1 + j).flatMap fun k => iteration k (hooks k)) := by
    rw [loopPart, Nat.min_eq_left hb, List.flatMap_map]
  -- the first checkpoint
  have hfirst : ∃ F l1, (∀ t r, Res cfg.every l1 t r → Res cfg.every disk0.max? (firstPart cfg ++ t) (F ++ r)) ∧
      GoodFrom disk0 [] F ∧ (saves F = [] ∨ cfg.init = 0 ∧ disk0 = [] ∧ saves F = [0]) ∧ trains F = [] := by
    by_cases h0 : cfg.init = 0
    · by_cases hm : 0 ∈ disk0
      · refine ⟨[.check 0 true], disk0.max?, ?_, ⟨?_, trivial⟩, Or.inl rfl, rfl⟩
        · intro t r h
          rw [firstPart, if_pos h0]
          exact .found h
        · intro k b hk
          simp only [R.check.injEq] at hk
          obtain ⟨rfl, rfl⟩ := hk
          exact ⟨Or.inl rfl, fun D hD => by rw [hD.nil_eq rfl]; simpa using hm⟩
      · have hnil : disk0 = [] := by
          rcases hd with h | h
          · exact h
          · exact absurd (h0 ▸ h.1) hm
        refine ⟨[.check 0 false, .sync .first, .save 0], some 0, ?_, ⟨?_, by simp, by simp, trivial⟩, Or.inr ⟨h0, hnil, rfl⟩, rfl⟩
        · intro t r h
          rw [firstPart, if_pos h0]
          exact .missing (.sync (.save (Or.inl rfl) h))
        · intro k b hk
          simp only [R.check.injEq] at hk
          obtain ⟨rfl, rfl⟩ := hk
          exact ⟨Or.inl rfl, fun D hD => by rw [hD.nil_eq rfl]; simpa using hm⟩
    · refine ⟨[], disk0.max?, ?_, trivial, Or.inl rfl, rfl⟩
      intro t r h
      rw [firstPart, if_neg h0]
      exact h
  obtain ⟨F, l1, hF1, hF2, hF3, hF4⟩ := hfirst
  obtain ⟨l', a, ha1, ha2, ha3, ha4⟩ := res_loop (every := cfg.every) hooks
    ((List.range (cfg.trainSteps - cfg.init)).map fun j => cfg.init + 1 + j) l1
  obtain ⟨there, h1, h2, h3⟩ := good_program hd rfl hF2 hF3 ha2 ha3
  have hl : trains (lastRes cfg.trainSteps there) = [] := by cases there <;> rfl
  refine ⟨_, ?_, h1, h2, h3, by rw [trains_append, trains_append, hF4, ha4, hl, List.nil_append, List.append_nil]⟩
  rw [program, List.append_assoc, List.append_assoc, e]
  exact hF1 _ _ (ha1 _ _ (res_last cfg l' there))

end Verif.Spmd
