import Verif.Model.AttackFiles
import Verif.Props.AttackRun

/-!
Property C171: the files of an attack.
-/

namespace Verif.AttackFiles

open Verif SaveFile AttackRun

variable {β : Type}

/-! ### Writers of different files -/

/-- The operation changes the file. -/
def Touches (q : List Char) : Op β → Prop
  | .ensureDir _ => False
  | .create p => p = q
  | .append p _ => p = q
  | .rename src dst _ => src = q ∨ dst = q

/-- The content of a file after operations without `rename`. -/
def final (q : List Char) : Option (List β) → List (Op β) → Option (List β)
  | c, [] => c
  | c, .create p :: ops => final q (if p = q then some [] else c) ops
  | c, .append p b :: ops => final q (if p = q then c.map (· ++ b) else c) ops
  | c, _ :: ops => final q c ops

/-- The operations succeed if these directories and files exist. -/
def Succeeds : (List Char → Prop) → (List Char → Prop) → List (Op β) → Prop
  | _, _, [] => True
  | D, F, .ensureDir d :: ops => Succeeds (fun e => e = d ∨ D e) F ops
  | D, F, .create p :: ops => D (PyStr.dirname p) ∧ Succeeds D (fun q => q = p ∨ F q) ops
  | D, F, .append p _ :: ops => F p ∧ Succeeds D F ops
  | _, _, .rename _ _ _ :: _ => False

theorem succeeds_mono (ops : List (Op β)) {D D' F F' : List Char → Prop} (hD : ∀ d, D d → D' d) (hF : ∀ q, F q → F' q)
    (h : Succeeds D F ops) : Succeeds D' F' ops := by
  induction ops generalizing D D' F F' with
  | nil => trivial
  | cons op ops ih =>
    cases op with
    | ensureDir d => exact ih (fun e he => he.imp id (hD e)) hF h
    | create p => exact ⟨hD _ h.1, ih hD (fun q hq => hq.imp id (hF q)) h.2⟩
    | append p b => exact ⟨hF _ h.1, ih hD hF h.2⟩
    | rename a b c => exact h.elim

theorem succeeds_append (a b : List (Op β)) {D F : List Char → Prop} (ha : Succeeds D F a) (hb : Succeeds D F b) :
    Succeeds D F (a ++ b) := by
  induction a generalizing D F with
  | nil => exact hb
  | cons op ops ih =>
    cases op with
    | ensureDir d => exact ih ha (succeeds_mono b (fun _ h => .inr h) (fun _ h => h) hb)
    | create p => exact ⟨ha.1, ih ha.2 (succeeds_mono b (fun _ h => h) (fun _ h => .inr h) hb)⟩
    | append p x => exact ⟨ha.1, ih ha.2 hb⟩
    | rename x y z => exact ha.elim

theorem final_append (q : List Char) (a b : List (Op β)) (c : Option (List β)) : final q c (a ++ b) = final q (final q c a) b := by
  induction a generalizing c with
  | nil => rfl
  | cons op ops ih => cases op <;> exact ih _

theorem final_other (q : List Char) (ops : List (Op β)) (c : Option (List β)) (h : ∀ op ∈ ops, ¬ Touches q op) : final q c ops = c := by
  induction ops generalizing c with
  | nil => rfl
  | cons op ops ih =>
    have h1 := h op (by simp)
    have h2 := ih c fun o ho => h o (by simp [ho])
    cases op with
    | ensureDir d => exact h2
    | create p => simp only [final, if_neg (show ¬ p = q from h1), h2]
    | append p b => simp only [final, if_neg (show ¬ p = q from h1), h2]
    | rename a b c => exact h2

theorem final_prefix (q : List Char) (ops : List (Op β)) (c : List β) (h : Op.create q ∉ ops) :
    ∃ rest, final q (some c) ops = some (c ++ rest) := by
  induction ops generalizing c with
  | nil => exact ⟨[], by simp [final]⟩
  | cons op ops ih =>
    have h2 : Op.create q ∉ ops := fun hm => h (by simp [hm])
    cases op with
    | ensureDir d => exact ih c h2
    | create p =>
      have : ¬ p = q := by
        rintro rfl
        exact h (by simp)
      simp only [final, if_neg this]
      exact ih c h2
    | append p b =>
      by_cases hp : p = q
      · obtain ⟨rest, hr⟩ := ih (c ++ b) h2
        exact ⟨b ++ rest, by simp only [final, if_pos hp, Option.map_some, hr, List.append_assoc]⟩
      · simp only [final, if_neg hp]
        exact ih c h2
    | rename a b c' => exact ih c h2

theorem final_none (q : List Char) (ops : List (Op β)) (h : Op.create q ∉ ops) : final q none ops = none := by
  induction ops with
  | nil => rfl
  | cons op ops ih =>
    have h2 := ih fun hm => h (by simp [hm])
    cases op with
    | ensureDir d => exact h2
    | create p =>
      have : ¬ p = q := by
        rintro rfl
        exact h (by simp)
      simp only [final, if_neg this, h2]
    | append p b => simp only [final, Option.map_none, ite_self, h2]
    | rename a b c' => exact h2

variable {ι : Type} [DecidableEq ι]

/-- The state of the processes that write file `q`, which only process `i` touches. -/
structure Inv (fs₀ : FS β) (ops : ι → List (Op β)) (st : FS β × (ι → Thread β)) : Prop where
  suffix : ∀ i, (st.2 i).rem <:+ ops i
  noError : ∀ i, (st.2 i).err = none
  succeeds : ∀ i, Succeeds (fun d => st.1.dirs d = true) (fun q => (st.1.files q).isSome) (st.2 i).rem
  content : ∀ q i, (∀ k, k ≠ i → ∀ op ∈ ops k, ¬ Touches q op) →
    final q (st.1.files q) (st.2 i).rem = final q (fs₀.files q) (ops i)
  before : ∀ q i, (∀ k, k ≠ i → ∀ op ∈ ops k, ¬ Touches q op) →
    (ops i).Pairwise (fun a b => Touches q a → b ≠ .create q) → Op.create q ∈ (st.2 i).rem → st.1.files q = fs₀.files q

theorem exec_other (fs fs' : FS β) (op : Op β) (q : List Char) (h : ¬ Touches q op) (he : exec fs op = .ok fs') :
    fs'.files q = fs.files q := by
  cases op with
  | ensureDir d => cases he; rfl
  | create p =>
    simp only [exec] at he
    split_ifs at he
    cases he
    exact if_neg fun e => h e.symm
  | append p b =>
    simp only [exec] at he
    split at he
    · cases he
    · cases he
      exact if_neg fun e => h e.symm
  | rename a b c =>
    simp only [exec] at he
    split at he
    · cases he
    split_ifs at he
    cases he
    simp only [Touches, not_or] at h
    simp only
    rw [if_neg fun e => h.2 e.symm, if_neg fun e => h.1 e.symm]

theorem exec_ok (fs : FS β) (op : Op β) (ops : List (Op β))
    (h : Succeeds (fun d => fs.dirs d = true) (fun q => (fs.files q).isSome) (op :: ops)) :
    ∃ fs', exec fs op = .ok fs' ∧ Succeeds (fun d => fs'.dirs d = true) (fun q => (fs'.files q).isSome) ops ∧
      (∀ d, fs.dirs d = true → fs'.dirs d = true) ∧ (∀ q, (fs.files q).isSome → (fs'.files q).isSome) ∧
      ∀ q, final q (fs'.files q) ops = final q (fs.files q) (op :: ops) := by
  cases op with
  | ensureDir d =>
    refine ⟨_, rfl, ?_, ?_, fun _ h => h, fun _ => rfl⟩
    · exact succeeds_mono ops (fun e he => by simpa using he) (fun _ h => h) h
    · intro e he
      simp [he]
  | create p =>
    refine ⟨_, if_pos h.1, ?_, fun _ h => h, ?_, ?_⟩
    · refine succeeds_mono ops (fun _ h => h) (fun q hq => ?_) h.2
      by_cases e : q = p
      · simp [e]
      · simpa [e] using hq
    · intro q hq
      by_cases e : q = p
      · simp [e]
      · simpa [e] using hq
    · intro q
      simp only [final, eq_comm]
  | append p b =>
    obtain ⟨old, ho⟩ := Option.isSome_iff_exists.1 h.1
    refine ⟨{ fs with files := fun q => if q = p then some (old ++ b) else fs.files q }, by simp only [exec, ho], ?_, fun _ h => h, ?_, ?_⟩
    · refine succeeds_mono ops (fun _ h => h) (fun q hq => ?_) h.2
      by_cases e : q = p
      · simp [e]
      · simpa [e] using hq
    · intro q hq
      by_cases e : q = p
      · simp [e]
      · simpa [e] using hq
    · intro q
      by_cases e : q = p
      · subst e
        simp [final, ho]
      · simp [final, Ne.symm e, e]
  | rename a b c => exact h.elim

theorem inv_step {fs₀ : FS β} {ops : ι → List (Op β)} {st : FS β × (ι → Thread β)} (h : Inv fs₀ ops st) (k : ι) :
    Inv fs₀ ops (stepThread st k) := by
  unfold stepThread
  split
  · exact h
  rename_i op rest hrem
  have hs := h.succeeds k
  rw [hrem] at hs
  obtain ⟨fs', he, h1, h2, h3, h4⟩ := exec_ok st.1 op rest hs
  rw [he]
  have hsuf : op :: rest <:+ ops k := hrem ▸ h.suffix k
  have hop : op ∈ ops k := hsuf.subset (by simp)
  refine ⟨fun i => ?_, fun i => ?_, fun i => ?_, fun q i hown => ?_, fun q i hown hpw hmem => ?_⟩
  · by_cases e : i = k
    · subst e
      simp only [Function.update_self]
      exact (List.suffix_cons op rest).trans hsuf
    · simp only [Function.update_of_ne e]
      exact h.suffix i
  · by_cases e : i = k
    · subst e
      simp only [Function.update_self]
      exact h.noError i
    · simp only [Function.update_of_ne e]
      exact h.noError i
  · by_cases e : i = k
    · subst e
      simp only [Function.update_self]
      exact h1
    · simp only [Function.update_of_ne e]
      exact succeeds_mono _ h2 h3 (h.succeeds i)
  · by_cases e : i = k
    · subst e
      simp only [Function.update_self]
      rw [h4, ← hrem]
      exact h.content q i hown
    · simp only [Function.update_of_ne e]
      rw [exec_other _ _ _ q (hown k (Ne.symm e) op hop) he]
      exact h.content q i hown
  · by_cases e : i = k
    · subst e
      simp only [Function.update_self] at hmem
      have hpw' : (op :: rest).Pairwise (fun a b => Touches q a → b ≠ .create q) := hpw.sublist hsuf.sublist
      have : ¬ Touches q op := fun ht => (List.pairwise_cons.1 hpw').1 _ hmem ht rfl
      rw [exec_other _ _ _ q this he]
      exact h.before q i hown hpw (by rw [hrem]; simp [hmem])
    · simp only [Function.update_of_ne e] at hmem
      rw [exec_other _ _ _ q (hown k (Ne.symm e) op hop) he]
      exact h.before q i hown hpw hmem

theorem inv_run (fs : FS β) (ops : ι → List (Op β))
    (hs : ∀ i, Succeeds (fun d => fs.dirs d = true) (fun q => (fs.files q).isSome) (ops i)) (sched : List ι) :
    Inv fs ops (sched.foldl stepThread (fs, fun i => ⟨ops i, none⟩)) := by
  have key : ∀ (sched : List ι) st, Inv fs ops st → Inv fs ops (sched.foldl stepThread st) := by
    intro sched
    induction sched with
    | nil => exact fun _ h => h
    | cons k sched ih => exact fun st h => ih _ (inv_step h k)
  exact key sched _ ⟨fun _ => List.suffix_refl _, fun _ => rfl, hs, fun _ _ _ => rfl, fun _ _ _ _ _ => rfl⟩

/-! ### The files of an attack -/

theorem savez_succeeds (path : List Char) (pieces : List (List β)) (D F : List Char → Prop) : Succeeds D F (savezOps path pieces) := by
  refine ⟨.inl rfl, ?_⟩
  have key : ∀ (l : List (List β)) (D F : List Char → Prop), F path → Succeeds D F (l.map (Op.append path)) := by
    intro l
    induction l with
    | nil => exact fun _ _ _ => trivial
    | cons b l ih => exact fun D F h => ⟨h, ih D F h⟩
  exact key pieces _ _ (.inl rfl)

theorem savez_touches (path : List Char) (pieces : List (List β)) (q : List Char) (op : Op β) (h : op ∈ savezOps path pieces)
    (ht : Touches q op) : q = path := by
  simp only [savezOps, List.mem_cons, List.mem_map] at h
  rcases h with rfl | rfl | ⟨b, -, rfl⟩
  · exact ht.elim
  · exact ht.symm
  · exact ht.symm

theorem savez_final (path : List Char) (pieces : List (List β)) (c : Option (List β)) :
    final path c (savezOps path pieces) = some pieces.flatten := by
  simp only [savezOps, final, if_true]
  have key : ∀ (l : List (List β)) (a : List β), final path (some a) (l.map (Op.append path)) = some (a ++ l.flatten) := by
    intro l
    induction l with
    | nil => intro a; simp [final]
    | cons b l ih => intro a; simp [final, ih]
  simpa using key pieces []

theorem savez_pairwise (path : List Char) (pieces : List (List β)) (q : List Char) :
    (savezOps path pieces).Pairwise (fun a b => Touches q a → b ≠ .create q) := by
  have hmap : (pieces.map (Op.append path)).Pairwise (fun a b => Touches q a → b ≠ .create q) := by
    rw [List.pairwise_map]
    exact List.pairwise_of_forall fun a b _ => by simp
  refine List.pairwise_cons.2 ⟨fun _ _ h => h.elim, List.pairwise_cons.2 ⟨?_, hmap⟩⟩
  intro b hb _
  obtain ⟨x, -, rfl⟩ := List.mem_map.1 hb
  simp

theorem state_ne_examples (workdir filePrefix : List Char) (i count : Nat) :
    PyStr.pathJoin workdir "pgd_state.npz".toList ≠ examplesPath filePrefix i count := by
  intro h
  have h1 : (PyStr.pathJoin workdir "pgd_state.npz".toList).getLast? = some 'z' := by
    unfold PyStr.pathJoin
    split_ifs with h1 h2
    · rfl
    · simp
    · simp
  rw [h] at h1
  have hne := CkptPath.digits_natStr count
  have h2 : 'z' ∈ PyStr.natStr count := by
    unfold examplesPath pad3 at h1
    rw [← List.append_assoc, List.getLast?_append_of_ne_nil _ hne.1] at h1
    exact List.mem_of_getLast? h1
  exact absurd (hne.2 _ h2) (by unfold CkptNames.Digit; decide)

variable (workdir filePrefix : List Char) (count : Nat) (c : Contents β)

theorem process_succeeds (i : Nat) (D F : List Char → Prop) : Succeeds D F (processOps workdir filePrefix count c i) := by
  unfold processOps
  apply succeeds_append
  · split_ifs
    · exact savez_succeeds _ _ _ _
    · trivial
  · split
    · exact savez_succeeds _ _ _ _
    · trivial

theorem process_touches (i : Nat) (q : List Char) (op : Op β) (h : op ∈ processOps workdir filePrefix count c i) (ht : Touches q op) :
    (i = 0 ∧ q = PyStr.pathJoin workdir "pgd_state.npz".toList) ∨ (c.examples i ≠ none ∧ q = examplesPath filePrefix i count) := by
  unfold processOps at h
  rcases List.mem_append.1 h with h | h
  · split_ifs at h with h0
    · exact .inl ⟨h0, savez_touches _ _ _ _ h ht⟩
    · cases h
  · split at h
    · rename_i pieces hp
      exact .inr ⟨by simp [hp], savez_touches _ _ _ _ h ht⟩
    · cases h

theorem state_owned (k : Nat) (hk : k ≠ 0) (op : Op β) (h : op ∈ processOps workdir filePrefix count c k) :
    ¬ Touches (PyStr.pathJoin workdir "pgd_state.npz".toList) op := by
  intro ht
  rcases process_touches workdir filePrefix count c k _ op h ht with h | h
  · exact hk h.1
  · exact state_ne_examples _ _ _ _ h.2

theorem examples_owned (i k : Nat) (hk : k ≠ i) (op : Op β) (h : op ∈ processOps workdir filePrefix count c k) :
    ¬ Touches (examplesPath filePrefix i count) op := by
  intro ht
  rcases process_touches workdir filePrefix count c k _ op h ht with h | h
  · exact state_ne_examples _ _ _ _ h.2.symm
  · exact hk (C103_paths_distinct _ _ _ _ h.2).symm

theorem state_final (o : Option (List β)) :
    final (PyStr.pathJoin workdir "pgd_state.npz".toList) o (processOps workdir filePrefix count c 0) = some c.state.flatten := by
  unfold processOps
  rw [if_pos rfl, final_append, savez_final, final_other]
  intro op hop ht
  split at hop
  · exact state_ne_examples _ _ _ _ (savez_touches _ _ _ _ hop ht)
  · cases hop

theorem examples_final (i : Nat) (pieces : List (List β)) (h : c.examples i = some pieces) (o : Option (List β)) :
    final (examplesPath filePrefix i count) o (processOps workdir filePrefix count c i) = some pieces.flatten := by
  unfold processOps
  rw [final_append, h]
  exact savez_final _ _ _

theorem process_pairwise (i : Nat) (q : List Char) :
    (processOps workdir filePrefix count c i).Pairwise (fun a b => Touches q a → b ≠ .create q) := by
  unfold processOps
  rw [List.pairwise_append]
  refine ⟨?_, ?_, ?_⟩
  · split_ifs
    · exact savez_pairwise _ _ _
    · exact List.Pairwise.nil
  · split
    · exact savez_pairwise _ _ _
    · exact List.Pairwise.nil
  · intro a ha b hb hq he
    split_ifs at ha with h0
    · have h1 := savez_touches _ _ _ _ ha hq
      subst he
      split at hb
      · exact state_ne_examples workdir filePrefix i count (h1 ▸ savez_touches _ _ q _ hb rfl)
      · cases hb
    · cases ha

/-- C171.  When the processes of an attack write their files, in any interleaving, no process fails; a process that has finished has
left its complete examples under its own name, the first one also the complete statistics; and no other file is changed. -/
theorem C171_complete (fs : FS β) (sched : List Nat) :
    let st := run workdir filePrefix count c fs sched
    (∀ i, (st.2 i).err = none) ∧
    (∀ i pieces, (st.2 i).rem = [] → c.examples i = some pieces →
      st.1.files (examplesPath filePrefix i count) = some pieces.flatten) ∧
    ((st.2 0).rem = [] → st.1.files (PyStr.pathJoin workdir "pgd_state.npz".toList) = some c.state.flatten) ∧
    ∀ q, q ≠ PyStr.pathJoin workdir "pgd_state.npz".toList → (∀ i, q = examplesPath filePrefix i count → c.examples i = none) →
      st.1.files q = fs.files q := by
  intro st
  have h := inv_run fs (processOps workdir filePrefix count c) (fun i => process_succeeds _ _ _ _ i _ _) sched
  refine ⟨h.noError, fun i pieces hr he => ?_, fun hr => ?_, fun q hq hq' => ?_⟩
  · have := h.content _ i (fun k hk op hop => examples_owned workdir filePrefix count c i k hk op hop)
    rw [examples_final workdir filePrefix count c i pieces he] at this
    change final _ (st.1.files _) (st.2 i).rem = _ at this
    rwa [hr] at this
  · have := h.content _ 0 (fun k hk op hop => state_owned workdir filePrefix count c k hk op hop)
    rw [state_final] at this
    change final _ (st.1.files _) (st.2 0).rem = _ at this
    rwa [hr] at this
  · have hno : ∀ k, ∀ op ∈ processOps workdir filePrefix count c k, ¬ Touches q op := by
      intro k op hop ht
      rcases process_touches workdir filePrefix count c k q op hop ht with h | h
      · exact hq h.2
      · exact h.1 (hq' k h.2)
    have := h.content q 0 fun k _ => hno k
    rw [final_other q _ _ (hno 0), final_other q _ _ fun op hop => hno 0 op ((h.suffix 0).subset hop)] at this
    exact this

theorem crash_file (fs : FS β) (sched : List Nat) (q : List Char) (i : Nat) (content : List β)
    (hown : ∀ k, k ≠ i → ∀ op ∈ processOps workdir filePrefix count c k, ¬ Touches q op)
    (hf : ∀ o, final q o (processOps workdir filePrefix count c i) = some content) :
    (run workdir filePrefix count c fs sched).1.files q = fs.files q ∨
      ∃ written rest, (run workdir filePrefix count c fs sched).1.files q = some written ∧ content = written ++ rest := by
  have h := inv_run fs (processOps workdir filePrefix count c) (fun i => process_succeeds _ _ _ _ i _ _) sched
  by_cases hm : Op.create q ∈ ((run workdir filePrefix count c fs sched).2 i).rem
  · exact .inl (h.before q i hown (process_pairwise _ _ _ _ _ _) hm)
  · right
    have hc := h.content q i hown
    rw [hf] at hc
    change final q ((run workdir filePrefix count c fs sched).1.files q) ((run workdir filePrefix count c fs sched).2 i).rem = _ at hc
    rcases hw : (run workdir filePrefix count c fs sched).1.files q with _ | w
    · rw [hw, final_none _ _ hm] at hc
      cases hc
    · obtain ⟨rest, hr⟩ := final_prefix q _ w hm
      rw [hw, hr] at hc
      exact ⟨w, rest, rfl, (Option.some.inj hc).symm⟩

/-- C171.  If the processes are stopped at any moment, each of these files is as it was before, or contains a beginning of its
content. -/
theorem C171_crash (fs : FS β) (sched : List Nat) :
    let st := run workdir filePrefix count c fs sched
    (∀ i pieces, c.examples i = some pieces →
      st.1.files (examplesPath filePrefix i count) = fs.files (examplesPath filePrefix i count) ∨
        ∃ written rest, st.1.files (examplesPath filePrefix i count) = some written ∧ pieces.flatten = written ++ rest) ∧
    (st.1.files (PyStr.pathJoin workdir "pgd_state.npz".toList) = fs.files (PyStr.pathJoin workdir "pgd_state.npz".toList) ∨
      ∃ written rest, st.1.files (PyStr.pathJoin workdir "pgd_state.npz".toList) = some written ∧
        c.state.flatten = written ++ rest) :=
  ⟨fun i pieces he => crash_file _ _ _ _ _ _ _ i _ (fun k hk op hop => examples_owned workdir filePrefix count c i k hk op hop)
      (examples_final workdir filePrefix count c i pieces he),
    crash_file _ _ _ _ _ _ _ 0 _ (fun k hk op hop => state_owned workdir filePrefix count c k hk op hop)
      (state_final workdir filePrefix count c)⟩

/-- The statistics `[2, 2]`, and no examples. -/
def exContents : Contents Nat := ⟨[[2], [2]], fun _ => none⟩

/-- A file system with complete statistics `[1, 1]` of an earlier run. -/
def exFS : FS Nat := ⟨fun q => if q = "w/pgd_state.npz".toList then some [1, 1] else none, fun _ => true⟩

/-- C171, limit.  Unlike a checkpoint (C22), "the file is always that of the earlier run or that of the new run" is false: a process
that is stopped while it writes leaves a part of the new statistics, and the earlier ones are lost. -/
theorem C171_cut_counterexample :
    ((run "w".toList "w/examples".toList 1 exContents exFS [0, 0, 0]).1.files "w/pgd_state.npz".toList) = some [2] := by
  decide +kernel

/-- Two processes with examples, interleaved: all three files are complete. -/
example : let st := run "w".toList "w/examples".toList 2 ⟨[[2], [2]], fun i => some [[i], [7]]⟩ exFS [1, 0, 1, 0, 0, 1, 0, 1, 0, 0, 0, 0]
    (st.2 0).rem = [] ∧ (st.2 1).rem = [] ∧ st.1.files "w/pgd_state.npz".toList = some [2, 2] ∧
      st.1.files "w/examples-000-of-002".toList = some [0, 7] ∧ st.1.files "w/examples-001-of-002".toList = some [1, 7] := by
  intro st
  have h := C171_complete "w".toList "w/examples".toList 2 ⟨[[2], [2]], fun i => some [[i], [7]]⟩ exFS [1, 0, 1, 0, 0, 1, 0, 1, 0, 0, 0, 0]
  have r0 : (st.2 0).rem = [] := rfl
  have r1 : (st.2 1).rem = [] := rfl
  exact ⟨r0, r1, h.2.2.1 r0, h.2.1 0 _ r0 rfl, h.2.1 1 _ r1 rfl⟩

end Verif.AttackFiles
