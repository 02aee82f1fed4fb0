import Verif.Model.SaveFile
import Verif.Spec.CkptNames

set_option linter.unusedSectionVars false

namespace Verif.SaveFile

open Verif PyStr CkptPath

variable {β : Type}

theorem slash_not_mem_basename (p : List Char) : '/' ∉ basename p := by
  unfold basename
  rw [List.mem_reverse]
  intro h
  have := List.all_eq_true.1 (List.all_takeWhile (l := p.reverse) (p := (· ≠ '/'))) _ h
  simp at this

theorem takeWhile_append_stop {α} (p : α → Bool) (a b : List α) (x : α) (ha : ∀ y ∈ a, p y = true)
    (hx : p x = false) : (a ++ x :: b).takeWhile p = a := by
  induction a with
  | nil => simp [hx]
  | cons y a ih => simp [ha y (by simp), ih fun z hz => ha z (by simp [hz])]

theorem basename_append_slash (a b : List Char) (hb : '/' ∉ b) : basename (a ++ '/' :: b) = b := by
  unfold basename
  rw [List.reverse_append, List.reverse_cons, List.append_assoc, List.singleton_append,
    takeWhile_append_stop, List.reverse_reverse]
  · intro y hy
    simp only [ne_eq, decide_not, Bool.not_eq_eq_eq_not, Bool.not_true, decide_eq_false_iff_not]
    rintro rfl; exact hb (by simpa using hy)
  · simp

theorem takeWhile_all {α} (p : α → Bool) (a : List α) (ha : ∀ y ∈ a, p y = true) :
    a.takeWhile p = a := by
  induction a with
  | nil => rfl
  | cons y a ih => simp [ha y (by simp), ih fun z hz => ha z (by simp [hz])]

theorem dropWhile_eq_nil_iff' {α} {p : α → Bool} {a : List α} :
    a.dropWhile p = [] ↔ ∀ y ∈ a, p y = true := by
  induction a with
  | nil => simp
  | cons y a ih =>
    by_cases hy : p y = true
    · simp [hy, ih]
    · simp [hy]

theorem dropWhile_idem' {α} (p : α → Bool) (a : List α) :
    (a.dropWhile p).dropWhile p = a.dropWhile p := by
  induction a with
  | nil => simp
  | cons y a ih =>
    by_cases hy : p y = true
    · simp [hy, ih]
    · simp [hy]

theorem basename_of_no_slash (b : List Char) (hb : '/' ∉ b) : basename b = b := by
  unfold basename
  have : b.reverse.takeWhile (· ≠ '/') = b.reverse := by
    apply takeWhile_all
    intro y hy
    simp only [ne_eq, decide_not, Bool.not_eq_eq_eq_not, Bool.not_true, decide_eq_false_iff_not]
    rintro rfl; exact hb (by simpa using hy)
  rw [this, List.reverse_reverse]

theorem basename_pathJoin (a b : List Char) (hb : '/' ∉ b) : basename (pathJoin a b) = b := by
  unfold pathJoin
  rw [if_neg]
  · split
    · rename_i h
      rcases h with rfl | h
      · exact basename_of_no_slash b hb
      · obtain ⟨c, rfl⟩ : ∃ c, a = c ++ ['/'] := by
          rw [List.getLast?_eq_some_iff] at h
          exact h
        rw [List.append_assoc]
        exact basename_append_slash c b hb
    · exact basename_append_slash a b hb
  · intro h
    cases b with
    | nil => cases h
    | cons x b => cases h; simp at hb

theorem basename_tmpPath (p : List Char) :
    basename (tmpPath p) = ['.', 't', 'm', 'p', '.'] ++ basename p := by
  unfold tmpPath
  apply basename_pathJoin
  have := slash_not_mem_basename p
  simp [this]

theorem tmpPath_ne (p : List Char) : tmpPath p ≠ p := by
  intro h
  have := congrArg List.length (basename_tmpPath p)
  rw [h] at this
  simp at this
  omega

/-- A temporary file by its name. -/
def IsTmp (p : List Char) : Prop := ['.', 't', 'm', 'p', '.'] <+: basename p

theorem isTmp_tmpPath (p : List Char) : IsTmp (tmpPath p) :=
  ⟨basename p, (basename_tmpPath p).symm⟩

/-! ### Several threads -/

variable {ι : Type} [DecidableEq ι]

/-- State of one save: its remaining operations against the two files it touches. -/
inductive JobInv (j : Job β) (ow mk : Bool) (old : Option (List β)) (fs : FS β) (t : Thread β) : Prop
  | start (hrem : t.rem = saveOps j.path j.pieces ow mk) (herr : t.err = none)
      (hold : fs.files j.path = old)
  | created (hrem : t.rem = Op.create (tmpPath j.path) ::
        (j.pieces.map (Op.append (tmpPath j.path)) ++ [.rename (tmpPath j.path) j.path ow]))
      (herr : t.err = none) (hold : fs.files j.path = old)
  | writing (done todo : List (List β)) (hp : j.pieces = done ++ todo)
      (hrem : t.rem = todo.map (Op.append (tmpPath j.path)) ++ [.rename (tmpPath j.path) j.path ow])
      (herr : t.err = none) (hold : fs.files j.path = old)
      (htmp : fs.files (tmpPath j.path) = some done.flatten)
  | success (hrem : t.rem = []) (herr : t.err = none)
      (hnew : fs.files j.path = some j.pieces.flatten) (htmp : fs.files (tmpPath j.path) = none)
      (how : ow = true ∨ old = none)
  | failed (hrem : t.rem = []) (herr : t.err ≠ none) (hold : fs.files j.path = old)

theorem JobInv.frame {j : Job β} {ow mk old} {fs fs' : FS β} {t : Thread β}
    (h : JobInv j ow mk old fs t) (h1 : fs'.files j.path = fs.files j.path)
    (h2 : fs'.files (tmpPath j.path) = fs.files (tmpPath j.path)) : JobInv j ow mk old fs' t := by
  cases h with
  | start a b c => exact .start a b (h1.trans c)
  | created a b c => exact .created a b (h1.trans c)
  | writing d t' hp a b c e => exact .writing d t' hp a b (h1.trans c) (h2.trans e)
  | success a b c d e => exact .success a b (h1.trans c) (h2.trans d) e
  | failed a b c => exact .failed a b (h1.trans c)

/-- Files touched by an operation of a job. -/
theorem JobInv.touch {j : Job β} {ow mk old} {fs fs' : FS β} {t : Thread β}
    (h : JobInv j ow mk old fs t) {op rest} (hr : t.rem = op :: rest) (he : exec fs op = .ok fs')
    (q : List Char) (hq : q ≠ j.path) (hq' : q ≠ tmpPath j.path) : fs'.files q = fs.files q := by
  have hcreate : op = Op.create (tmpPath j.path) → fs'.files q = fs.files q := by
    rintro rfl
    simp only [exec] at he
    split at he
    · cases he; simp [hq']
    · cases he
  have hrename : op = Op.rename (tmpPath j.path) j.path ow → fs'.files q = fs.files q := by
    rintro rfl
    simp only [exec] at he
    split at he
    · cases he
    · split at he
      · cases he
      · cases he; simp [hq, hq']
  cases h with
  | start a b c =>
    rw [a] at hr
    unfold saveOps at hr
    cases mk with
    | true =>
      simp only [if_true, List.singleton_append, List.cons.injEq] at hr
      rw [← hr.1] at he
      cases he; rfl
    | false =>
      simp only [Bool.false_eq_true, if_false, List.nil_append, List.cons.injEq] at hr
      exact hcreate hr.1.symm
  | created a b c =>
    rw [a] at hr
    simp only [List.cons.injEq] at hr
    exact hcreate hr.1.symm
  | writing d t' hp a b c e =>
    rw [a] at hr
    cases t' with
    | nil =>
      simp only [List.map_nil, List.nil_append, List.cons.injEq] at hr
      exact hrename hr.1.symm
    | cons x t' =>
      simp only [List.map_cons, List.cons_append, List.cons.injEq] at hr
      rw [← hr.1] at he
      simp only [exec] at he
      rw [e] at he
      cases he; simp [hq']
  | success a => rw [a] at hr; cases hr
  | failed a => rw [a] at hr; cases hr

theorem JobInv.step_ok {j : Job β} {ow mk old} {fs fs' : FS β} {t : Thread β}
    (h : JobInv j ow mk old fs t) {op rest} (hr : t.rem = op :: rest) (he : exec fs op = .ok fs') :
    JobInv j ow mk old fs' ⟨rest, t.err⟩ := by
  have hne := tmpPath_ne j.path
  have hcreate : ∀ r, op = Op.create (tmpPath j.path) → fs.files j.path = old → t.err = none →
      r = (j.pieces.map (Op.append (tmpPath j.path)) ++ [.rename (tmpPath j.path) j.path ow]) →
      JobInv j ow mk old fs' ⟨r, t.err⟩ := by
    rintro r rfl hold herr rfl
    simp only [exec] at he
    split at he
    · cases he
      exact .writing [] j.pieces rfl rfl herr (by simp [hne.symm, hold]) (by simp)
    · cases he
  cases h with
  | start a b c =>
    rw [a] at hr
    unfold saveOps at hr
    cases mk with
    | true =>
      simp only [if_true, List.singleton_append, List.cons.injEq] at hr
      rw [← hr.1] at he
      cases he
      exact .created hr.2.symm b c
    | false =>
      simp only [Bool.false_eq_true, if_false, List.nil_append, List.cons.injEq] at hr
      exact hcreate _ hr.1.symm c b hr.2.symm
  | created a b c =>
    rw [a] at hr
    simp only [List.cons.injEq] at hr
    exact hcreate _ hr.1.symm c b hr.2.symm
  | writing d t' hp a b c e =>
    rw [a] at hr
    cases t' with
    | nil =>
      simp only [List.map_nil, List.nil_append, List.cons.injEq] at hr
      rw [← hr.1] at he
      simp only [exec] at he
      rw [e] at he
      simp only [] at he
      split at he
      · cases he
      · rename_i hc
        cases he
        rw [c] at hc
        refine .success hr.2.symm b (by simp [hp]) (by simp [hne]) ?_
        cases ow with
        | true => exact .inl rfl
        | false => right; simpa using hc
    | cons x t' =>
      simp only [List.map_cons, List.cons_append, List.cons.injEq] at hr
      rw [← hr.1] at he
      simp only [exec] at he
      rw [e] at he
      cases he
      exact .writing (d ++ [x]) t' (by simp [hp]) hr.2.symm b (by simp [hne.symm, c]) (by simp)
  | success a => rw [a] at hr; cases hr
  | failed a => rw [a] at hr; cases hr

theorem JobInv.step_err {j : Job β} {ow mk old} {fs : FS β} {t : Thread β}
    (h : JobInv j ow mk old fs t) {op rest} (hr : t.rem = op :: rest) (e : PyErr) :
    JobInv j ow mk old fs ⟨[], some e⟩ := by
  cases h with
  | start a b c => exact .failed rfl (by simp) c
  | created a b c => exact .failed rfl (by simp) c
  | writing d t' hp a b c => exact .failed rfl (by simp) c
  | success a => rw [a] at hr; cases hr
  | failed a => rw [a] at hr; cases hr

/-- Invariant of a concurrent save. -/
structure Inv (fs0 : FS β) (jobs : ι → Job β) (ow mk : Bool) (st : FS β × (ι → Thread β)) : Prop where
  job : ∀ i, JobInv (jobs i) ow mk (fs0.files (jobs i).path) st.1 (st.2 i)
  other : ∀ q, (∀ i, q ≠ (jobs i).path ∧ q ≠ tmpPath (jobs i).path) → st.1.files q = fs0.files q

theorem inv_step {fs0 : FS β} {jobs : ι → Job β} {ow mk} {st : FS β × (ι → Thread β)}
    (hd : ∀ i k, i ≠ k → (jobs i).path ≠ (jobs k).path ∧ tmpPath (jobs i).path ≠ tmpPath (jobs k).path ∧
      (jobs i).path ≠ tmpPath (jobs k).path)
    (h : Inv fs0 jobs ow mk st) (i : ι) : Inv fs0 jobs ow mk (stepThread st i) := by
  unfold stepThread
  split
  · exact h
  · rename_i op rest hr
    split
    · rename_i fs' he
      refine ⟨fun k => ?_, fun q hq => ?_⟩
      · by_cases hk : k = i
        · subst hk
          simp only [Function.update_self]
          exact (h.job k).step_ok hr he
        · simp only [Function.update_of_ne hk]
          refine (h.job k).frame ?_ ?_
          · exact (h.job i).touch hr he _ (hd k i hk).1 (hd k i hk).2.2
          · exact (h.job i).touch hr he _ (Ne.symm (hd i k (Ne.symm hk)).2.2) (hd k i hk).2.1
      · have := (h.job i).touch hr he q (hq i).1 (hq i).2
        exact this.trans (h.other q hq)
    · rename_i e he
      refine ⟨fun k => ?_, h.other⟩
      by_cases hk : k = i
      · subst hk
        simp only [Function.update_self]
        exact (h.job k).step_err hr e
      · simp only [Function.update_of_ne hk]
        exact h.job k

theorem inv_saveMany (fs0 : FS β) (jobs : ι → Job β) (ow mk : Bool) (sched : List ι)
    (hd : ∀ i k, i ≠ k → (jobs i).path ≠ (jobs k).path ∧ tmpPath (jobs i).path ≠ tmpPath (jobs k).path ∧
      (jobs i).path ≠ tmpPath (jobs k).path) :
    Inv fs0 jobs ow mk (saveMany fs0 jobs ow mk sched) := by
  unfold saveMany
  suffices ∀ st, Inv fs0 jobs ow mk st → Inv fs0 jobs ow mk (sched.foldl stepThread st) from
    this _ ⟨fun i => .start rfl rfl rfl, fun q _ => rfl⟩
  induction sched with
  | nil => intro st h; exact h
  | cons i sched ih => intro st h; exact ih _ (inv_step hd h i)

/-- Distinct final names in the sense of the file name are enough for independence. -/
theorem names_indep {jobs : ι → Job β} (h1 : ∀ i k, i ≠ k → basename (jobs i).path ≠ basename (jobs k).path)
    (h2 : ∀ i, ¬ IsTmp (jobs i).path) (i k : ι) (hik : i ≠ k) :
    (jobs i).path ≠ (jobs k).path ∧ tmpPath (jobs i).path ≠ tmpPath (jobs k).path ∧
      (jobs i).path ≠ tmpPath (jobs k).path := by
  refine ⟨fun e => h1 i k hik (by rw [e]), fun e => h1 i k hik ?_, fun e => h2 i ?_⟩
  · have := congrArg basename e
    rw [basename_tmpPath, basename_tmpPath, List.append_cancel_left_eq] at this
    exact this
  · rw [e]; exact isTmp_tmpPath _

/-! ### One save without a crash -/

theorem appends_run (fs : FS β) (t : List Char) (done : List β) (pieces : List (List β))
    (h : fs.files t = some done) :
    ∃ fs', (pieces.map (Op.append t)).foldlM exec fs = .ok fs' ∧
      fs'.files t = some (done ++ pieces.flatten) ∧ (∀ q, q ≠ t → fs'.files q = fs.files q) := by
  induction pieces generalizing fs done with
  | nil => exact ⟨fs, rfl, by simpa using h, fun _ _ => rfl⟩
  | cons x pieces ih =>
    have e : exec fs (Op.append t x) =
        .ok { fs with files := fun q => if q = t then some (done ++ x) else fs.files q } := by
      simp only [exec]; rw [h]
    obtain ⟨fs', h1, h2, h3⟩ := ih { fs with files := fun q => if q = t then some (done ++ x) else fs.files q }
      (done ++ x) (by simp)
    refine ⟨fs', ?_, by simpa using h2, ?_⟩
    · rw [List.map_cons, List.foldlM_cons, e]; exact h1
    · intro q hq
      rw [h3 q hq]; simp [hq]

theorem dirname_pathJoin_basename (p : List Char) : dirname (tmpPath p) = dirname p := by
  have key : ∀ (d b : List Char), '/' ∉ b → dirname (d ++ '/' :: b) =
      if d.all (· = '/') then d ++ ['/'] else (d.reverse.dropWhile (· = '/')).reverse := by
    intro d b hb
    have : ((d ++ '/' :: b).reverse.dropWhile (· ≠ '/')).reverse = d ++ ['/'] := by
      rw [List.reverse_append, List.reverse_cons, List.append_assoc, List.singleton_append,
        List.dropWhile_append_of_pos]
      · simp
      · intro y hy
        simp only [ne_eq, decide_not, Bool.not_eq_eq_eq_not, Bool.not_true, decide_eq_false_iff_not]
        rintro rfl; exact hb (by simpa using hy)
    unfold dirname
    simp only [this]
    rw [List.all_append]
    by_cases hd : d.all (· = '/') = true
    · rw [if_pos (by simp [hd]), if_pos hd]
    · rw [if_neg (by simp [hd]), if_neg hd]; simp
  have nos : ∀ b : List Char, '/' ∉ b → dirname b = [] := by
    intro b hb
    unfold dirname
    have : b.reverse.dropWhile (· ≠ '/') = [] := by
      rw [dropWhile_eq_nil_iff']
      intro y hy
      simp only [ne_eq, decide_not, Bool.not_eq_eq_eq_not, Bool.not_true, decide_eq_false_iff_not]
      rintro rfl; exact hb (by simpa using hy)
    rw [this]; simp
  have hb : '/' ∉ ['.', 't', 'm', 'p', '.'] ++ basename p := by
    have := slash_not_mem_basename p
    simp [this]
  have hhead : (['.', 't', 'm', 'p', '.'] ++ basename p).head? ≠ some '/' := by simp
  unfold tmpPath pathJoin
  rw [if_neg hhead]
  by_cases hs : '/' ∈ p
  · obtain ⟨d, b, rfl, hbb⟩ : ∃ d b, p = d ++ '/' :: b ∧ '/' ∉ b := by
      have := List.append_of_mem (a := '/') (l := p.reverse) (by simpa using hs)
      obtain ⟨s, t, hst, hns⟩ : ∃ s t, p.reverse = s ++ '/' :: t ∧ '/' ∉ s := by
        clear this
        have hs' : '/' ∈ p.reverse := by simpa using hs
        generalize p.reverse = r at hs'
        induction r with
        | nil => cases hs'
        | cons x r ih =>
          by_cases hx : x = '/'
          · exact ⟨[], r, by simp [hx], by simp⟩
          · have : '/' ∈ r := by
              rcases List.mem_cons.1 hs' with h | h
              · exact absurd h.symm hx
              · exact h
            obtain ⟨s, t, h1, h2⟩ := ih this
            exact ⟨x :: s, t, by simp [h1], by simp [h2, Ne.symm hx]⟩
      refine ⟨t.reverse, s.reverse, ?_, by simpa using hns⟩
      have := congrArg List.reverse hst
      simpa using this
    rw [key d b hbb]
    by_cases hd : d.all (· = '/') = true
    · rw [if_pos hd, if_pos (by simp)]
      rw [List.append_assoc, List.singleton_append, key d _ hb, if_pos hd]
    · rw [if_neg hd]
      set e := (d.reverse.dropWhile (· = '/')).reverse with he
      have hne : e ≠ [] := by
        intro h0
        apply hd
        rw [he, List.reverse_eq_nil_iff, dropWhile_eq_nil_iff'] at h0
        rw [List.all_eq_true]
        intro x hx
        exact h0 x (by simpa using hx)
      have hlast : e.getLast? ≠ some '/' := by
        rw [he, List.getLast?_reverse]
        intro h
        have := List.head?_dropWhile_not (fun c : Char => decide (c = '/')) d.reverse
        rw [h] at this
        simp at this
      rw [if_neg (by simp [hne, hlast]), key e _ hb, if_neg]
      · rw [he, List.reverse_reverse, dropWhile_idem']
      · intro hall
        rw [List.all_eq_true] at hall
        obtain ⟨x, hx⟩ : ∃ x, e.getLast? = some x := by
          cases h : e.getLast? with
          | none => exact absurd (List.getLast?_eq_none_iff.1 h) hne
          | some x => exact ⟨x, rfl⟩
        have := hall x (List.mem_of_getLast? hx)
        simp only [decide_eq_true_eq] at this
        exact hlast (by rw [hx, this])
  · rw [nos p hs, if_pos (.inl rfl), List.nil_append, nos _ hb]

/-- Result of the last two stages. -/
theorem saveCheckpoint_run (fs : FS β) (path : List Char) (pieces : List (List β)) (ow mk : Bool)
    (hdir : mk = true ∨ fs.dirs (dirname path) = true) :
    (((fs.files path).isSome = true ∧ ow = false) →
        saveCheckpoint fs path pieces ow mk = .error .alreadyExistsError) ∧
      (¬((fs.files path).isSome = true ∧ ow = false) →
        ∃ fs', saveCheckpoint fs path pieces ow mk = .ok fs' ∧ fs'.files path = some pieces.flatten ∧
          fs'.files (tmpPath path) = none ∧
          ∀ q, q ≠ path → q ≠ tmpPath path → fs'.files q = fs.files q) := by
  have hne := tmpPath_ne path
  obtain ⟨fs1, hfs1, hf1, hd1⟩ : ∃ fs1 : FS β,
      (saveOps path pieces ow mk).foldlM exec fs = (Op.create (tmpPath path) ::
        (pieces.map (.append (tmpPath path)) ++ [.rename (tmpPath path) path ow])).foldlM exec fs1 ∧
      fs1.files = fs.files ∧ fs1.dirs (dirname path) = true := by
    unfold saveOps
    cases mk with
    | true =>
      exact ⟨{ fs with dirs := fun e => e = dirname path || fs.dirs e }, rfl, rfl, by simp⟩
    | false =>
      refine ⟨fs, rfl, rfl, ?_⟩
      rcases hdir with h | h
      · cases h
      · exact h
  have hc : exec fs1 (Op.create (tmpPath path)) =
      .ok { fs1 with files := fun q => if q = tmpPath path then some [] else fs1.files q } := by
    simp only [exec]; rw [dirname_pathJoin_basename, if_pos hd1]
  obtain ⟨fs2, ha, ht, ho⟩ := appends_run
    { fs1 with files := fun q => if q = tmpPath path then some [] else fs1.files q }
    (tmpPath path) [] pieces (by simp)
  have hrun : saveCheckpoint fs path pieces ow mk = exec fs2 (.rename (tmpPath path) path ow) := by
    unfold saveCheckpoint
    rw [hfs1, List.foldlM_cons, hc]
    change List.foldlM exec _ _ = _
    rw [List.foldlM_append, ha]
    change List.foldlM exec fs2 [_] = _
    rw [List.foldlM_cons]
    cases exec fs2 (.rename (tmpPath path) path ow) <;> rfl
  have hp2 : fs2.files path = fs.files path := by
    rw [ho path hne.symm]; simp [hne.symm, hf1]
  rw [hrun]
  simp only [exec]
  rw [ht, hp2]
  simp only [List.nil_append]
  constructor
  · rintro ⟨h, rfl⟩
    rw [if_pos (by simp [h])]
  · intro h
    rw [if_neg (by cases ow <;> simp_all)]
    refine ⟨_, rfl, by simp, by simp [hne], ?_⟩
    intro q hq hq'
    simp only [hq, hq', if_false]
    rw [ho q hq']; simp [hq', hf1]

end Verif.SaveFile
