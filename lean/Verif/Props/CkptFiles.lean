import Verif.Proofs.CkptSteps
import Verif.Proofs.SaveFile

/-!
# Checkpoint files: atomic saves, complete steps and file names (C22-C25)
-/

namespace Verif.CkptFiles

open Verif PyStr CkptNames CkptPath SaveFile

variable {β : Type}

theorem basename_split {d b : List Char} (hb : '/' ∉ b) (hd : d = [] ∨ ∃ e, d = e ++ ['/']) :
    basename (d ++ b) = b := by
  rcases hd with rfl | ⟨e, rfl⟩
  · exact basename_of_no_slash b hb
  · rw [List.append_assoc]; exact basename_append_slash e b hb

theorem tmpName_iff (p : List Char) : TmpName p ↔ IsTmp p := by
  constructor
  · rintro ⟨d, b, hb, hd, rfl⟩
    refine ⟨b, ?_⟩
    rw [basename_split (by simpa using hb) hd]
  · rintro ⟨b, hb⟩
    refine ⟨(p.reverse.dropWhile (· ≠ '/')).reverse, b, ?_, ?_, ?_⟩
    · intro h
      exact slash_not_mem_basename p (by rw [← hb]; simp [h])
    · have := List.head?_dropWhile_not (fun c : Char => decide (c ≠ '/')) p.reverse
      cases h : p.reverse.dropWhile (· ≠ '/') with
      | nil => exact .inl rfl
      | cons x l =>
        rw [h] at this
        simp at this
        subst this
        exact .inr ⟨l.reverse, by simp⟩
    · rw [hb]
      unfold basename
      rw [← List.reverse_append, List.takeWhile_append_dropWhile, List.reverse_reverse]

/-! ## C22 -/

/-- Killing the process after any number of file system operations leaves the final file either as
it was or with the complete new content, every other (non temporary) file as it was, and, without
`overwrite`, an existing file always as it was. -/
theorem C22_crash_atomic (fs : FS β) (path : List Char) (pieces : List (List β)) (ow mk : Bool)
    (n : Nat) :
    let fs' := (saveMany fs (fun _ : Unit => ⟨path, pieces⟩) ow mk (List.replicate n ())).1
    (fs'.files path = fs.files path ∨ fs'.files path = some pieces.flatten) ∧
      (∀ q, q ≠ path → ¬ TmpName q → fs'.files q = fs.files q) ∧
      (ow = false → fs.files path ≠ none → fs'.files path = fs.files path) := by
  intro fs'
  have h := inv_saveMany fs (fun _ : Unit => (⟨path, pieces⟩ : Job β)) ow mk (List.replicate n ())
    (fun i k hik => absurd rfl hik)
  refine ⟨?_, ?_, ?_⟩
  · cases h.job () with
    | start a b c => exact .inl c
    | created a b c => exact .inl c
    | writing _ _ _ a b c => exact .inl c
    | success a b c => exact .inr c
    | failed a b c => exact .inl c
  · intro q hq ht
    refine h.other q fun _ => ⟨hq, ?_⟩
    rintro rfl
    exact ht ((tmpName_iff _).2 (isTmp_tmpPath path))
  · rintro rfl hold
    cases h.job () with
    | start a b c => exact c
    | created a b c => exact c
    | writing _ _ _ a b c => exact c
    | success a b c d e =>
      rcases e with e | e
      · cases e
      · exact absurd e hold
    | failed a b c => exact c

example : let fs : FS Nat := ⟨fun p => if p = "d/c".toList then some [7] else none, fun _ => true⟩
    (saveMany fs (fun _ : Unit => ⟨"d/c".toList, [[1], [2, 3]]⟩) true true
      (List.replicate 3 ())).1.files "d/c".toList = some [7] ∧
    (saveMany fs (fun _ : Unit => ⟨"d/c".toList, [[1], [2, 3]]⟩) true true
      (List.replicate 3 ())).1.files "d/.tmp.c".toList = some [1] ∧
    (saveMany fs (fun _ : Unit => ⟨"d/c".toList, [[1], [2, 3]]⟩) true true
      (List.replicate 5 ())).1.files "d/c".toList = some [1, 2, 3] := by
  decide

/-- A save without crash: it succeeds exactly when it may write the final name, and then the final
file has the new content, no temporary file is left and nothing else changed. -/
theorem C22_success (fs : FS β) (path : List Char) (pieces : List (List β)) (ow mk : Bool)
    (hdir : mk = true ∨ fs.dirs (dirname path) = true) :
    (fs.files path ≠ none ∧ ow = false →
        saveCheckpoint fs path pieces ow mk = .error .alreadyExistsError) ∧
      (fs.files path = none ∨ ow = true →
        ∃ fs', saveCheckpoint fs path pieces ow mk = .ok fs' ∧ fs'.files path = some pieces.flatten ∧
          ∀ q, q ≠ path → fs'.files q = fs.files q ∨ (TmpName q ∧ fs'.files q = none)) := by
  obtain ⟨h1, h2⟩ := saveCheckpoint_run fs path pieces ow mk hdir
  constructor
  · rintro ⟨h, how⟩
    exact h1 ⟨Option.isSome_iff_ne_none.2 h, how⟩
  · intro h
    obtain ⟨fs', e1, e2, e3, e4⟩ := h2 (by
      rintro ⟨ha, hb⟩
      rcases h with h | h
      · rw [h] at ha; cases ha
      · rw [h] at hb; cases hb)
    refine ⟨fs', e1, e2, fun q hq => ?_⟩
    by_cases ht : q = tmpPath path
    · subst ht
      exact .inr ⟨(tmpName_iff _).2 (isTmp_tmpPath path), e3⟩
    · exact .inl (e4 q hq ht)

example : ((saveCheckpoint (⟨fun _ => none, fun _ => false⟩ : FS Nat) "d/c".toList [[1], [2]] false true).toOption.map
    fun fs => (fs.files "d/c".toList, fs.files "d/.tmp.c".toList)) = some (some [1, 2], none) := by
  decide

/-- Without `makedirs` a missing directory makes the save fail and nothing is created. -/
theorem C22_missing_directory (fs : FS β) (path : List Char) (pieces : List (List β)) (ow : Bool)
    (hdir : fs.dirs (dirname path) = false) :
    saveCheckpoint fs path pieces ow false = .error .fileNotFoundError := by
  unfold saveCheckpoint saveOps
  simp only [Bool.false_eq_true, if_false, List.nil_append, List.foldlM_cons, exec,
    dirname_pathJoin_basename, hdir]
  rfl

example : dirname "x/y".toList = "x".toList ∧ dirname "/y".toList = "/".toList ∧
    dirname "x//y".toList = "x".toList ∧ tmpPath "/y".toList = "/.tmp.y".toList ∧
    tmpPath "a/b/y".toList = "a/b/.tmp.y".toList := by decide

/-- Saving several files at the same time, interleaved in any way and killed at any moment: every
file is either as before or complete; a thread that finished without exception has written its
file; other files are untouched. -/
theorem C22_concurrent {ι : Type} [DecidableEq ι] (fs : FS β) (jobs : ι → Job β) (ow mk : Bool)
    (sched : List ι) (hnames : ∀ i k, i ≠ k → basename (jobs i).path ≠ basename (jobs k).path)
    (htmp : ∀ i, ¬ TmpName (jobs i).path) :
    let st := saveMany fs jobs ow mk sched
    (∀ i, st.1.files (jobs i).path = fs.files (jobs i).path ∨
        st.1.files (jobs i).path = some (jobs i).pieces.flatten) ∧
      (∀ i, (st.2 i).rem = [] → (st.2 i).err = none →
        st.1.files (jobs i).path = some (jobs i).pieces.flatten) ∧
      (∀ q, (∀ i, q ≠ (jobs i).path) → ¬ TmpName q → st.1.files q = fs.files q) := by
  intro st
  have h := inv_saveMany fs jobs ow mk sched
    (names_indep hnames fun i hi => htmp i ((tmpName_iff _).2 hi))
  refine ⟨fun i => ?_, fun i hr he => ?_, fun q hq ht => ?_⟩
  · cases h.job i with
    | start a b c => exact .inl c
    | created a b c => exact .inl c
    | writing _ _ _ a b c => exact .inl c
    | success a b c => exact .inr c
    | failed a b c => exact .inl c
  · cases h.job i with
    | start a b c =>
      rw [hr] at a
      unfold saveOps at a
      simp at a
    | created a b c => rw [hr] at a; cases a
    | writing _ _ _ a b c => rw [hr] at a; simp at a
    | success a b c => exact c
    | failed a b c => exact absurd he b
  · refine h.other q fun i => ⟨hq i, ?_⟩
    rintro rfl
    exact ht ((tmpName_iff _).2 (isTmp_tmpPath _))

example : ∀ i k : Bool, i ≠ k →
    basename (if i then "d/c_1.index".toList else "d/c_1.data".toList) ≠
      basename (if k then "d/c_1.index".toList else "d/c_1.data".toList) := by decide

example : ¬ TmpName "d/c_1.index".toList := by
  rw [tmpName_iff]
  unfold IsTmp
  decide

/-! ## C24 -/

/-- Removing the shard suffix undoes adding it, for every path without newline. -/
theorem C24_round_trip (path : List Char) (hp : '\n' ∉ path) (shard count : Nat) :
    removeShardSuffix (addShardSuffix path shard count) = path :=
  removeShardSuffix_of_shard (shardStr_add shard count) hp

example : removeShardSuffix (addShardSuffix "/a_1.b-2-of/c-1-of-3".toList 12 345678) =
    "/a_1.b-2-of/c-1-of-3".toList := by decide +kernel

/-- Different shards (or shard counts, or paths) have different names. -/
theorem C24_injective (p q : List Char) (i j m n : Nat)
    (h : addShardSuffix p i m = addShardSuffix q j n) : p = q ∧ i = j ∧ m = n := by
  unfold addShardSuffix at h
  obtain ⟨h1, h2⟩ := shard_suffix_unique (shardStr_add i m) (shardStr_add j n) h
  refine ⟨h2, ?_⟩
  simp only [List.cons.injEq, List.append_assoc, List.cons_append, List.nil_append,
    true_and] at h1
  obtain ⟨h3, h4⟩ := splitDigits_unique (digits_pad5 i) (digits_pad5 j) h1
  simp only [List.cons.injEq, true_and] at h4
  have e1 := congrArg value h3
  have e2 := congrArg value h4
  rw [value_pad5, value_pad5] at e1 e2
  exact ⟨e1, e2⟩

example : addShardSuffix ['c'] 3 10 = "c-00003-of-00010".toList ∧
    addShardSuffix ['c'] 123456 7 = "c-123456-of-00007".toList := by decide +kernel

/-- A path is left alone exactly when it has no shard suffix. -/
theorem C24_unchanged_iff (path : List Char) (hp : '\n' ∉ path) :
    removeShardSuffix path = path ↔ ¬ ∃ q s, ShardStr s ∧ path = q ++ s := by
  constructor
  · rintro h ⟨q, s, hs, rfl⟩
    rw [List.mem_append, not_or] at hp
    rw [removeShardSuffix_of_shard hs hp.1] at h
    have := congrArg List.length h
    obtain ⟨d, e, -, -, rfl⟩ := hs
    simp at this
  · exact removeShardSuffix_of_no_shard hp

example : removeShardSuffix "/a/c_3.data-00-of".toList = "/a/c_3.data-00-of".toList ∧
    removeShardSuffix "/a/c_3.data-00-of-1".toList = "/a/c_3.data".toList := by decide +kernel

/-- Removing is not idempotent: only one suffix is removed at a time. -/
theorem C24_not_idempotent_counterexample :
    removeShardSuffix (removeShardSuffix (addShardSuffix "c-0-of-2".toList 1 4)) ≠
      removeShardSuffix (addShardSuffix "c-0-of-2".toList 1 4) := by decide +kernel

/-! ## C25 -/

/-- Step and suffix of a composed name are recovered, whatever the prefix. -/
theorem C25_parse (pre : List Char) (step : Nat) (suffix : Option (List Char)) (shard : List Char)
    (hpre : '\n' ∉ pre) (hsuf : ∀ s, suffix = some s → SuffixStr s) (hsh : shard = [] ∨ ShardStr shard) :
    parseStepAndSuffix (pre ++ ('_' :: natStr step ++ (suffix.getD [] ++ shard))) = .ok (step, suffix) := by
  obtain ⟨o, rfl, ho⟩ : ∃ o : Option (List Char), shard = o.getD [] ∧ ∀ s, o = some s → ShardStr s := by
    rcases hsh with rfl | h
    · exact ⟨none, rfl, by simp⟩
    · exact ⟨some shard, rfl, by rintro s ⟨⟩; exact h⟩
  rw [parse_ok_iff]
  · refine ⟨pre, natStr step, o.getD [], digits_natStr step, value_natStr step, hsuf, ?_, rfl⟩
    cases o with
    | none => exact .inl rfl
    | some s => exact .inr (ho s rfl)
  · intro hm
    rcases List.mem_append.1 hm with h | h
    · exact hpre h
    rcases List.mem_append.1 h with h | h
    · rcases List.mem_cons.1 h with h | h
      · cases h
      · exact digit_ne ((digits_natStr step).2 _ h) rfl rfl
    rcases List.mem_append.1 h with h | h
    · cases suffix with
      | none => cases h
      | some s =>
        obtain ⟨l, -, hl, rfl⟩ := hsuf s rfl
        rcases List.mem_cons.1 h with h | h
        · cases h
        · exact letter_ne (hl _ h) rfl rfl
    · cases o with
      | none => cases h
      | some s =>
        obtain ⟨d, e, hd, he, rfl⟩ := ho s rfl
        simp only [Option.getD_some, List.mem_cons, List.mem_append] at h
        rcases h with h | h | h | h | h | h | h
        · cases h
        · exact digit_ne (hd.2 _ h) rfl rfl
        · cases h
        · cases h
        · cases h
        · cases h
        · exact digit_ne (he.2 _ h) rfl rfl

example : parseStepAndSuffix "/a.b_3/c_7.x_120.data-00003-of-00010".toList =
    .ok (120, some ".data".toList) := by rfl

/-- Precisely the names of the grammar are accepted; any other (newline-free) name is a ValueError. -/
theorem C25_exact (f : List Char) (hf : '\n' ∉ f) :
    (∀ n x, parseStepAndSuffix f = .ok (n, x) ↔ Names f n x) ∧
      (parseStepAndSuffix f = .error .valueError ↔ ¬ ∃ n x, Names f n x) :=
  ⟨parse_ok_iff hf, parse_error_iff hf⟩

example : parseStepAndSuffix "/a/c.data".toList = .error .valueError ∧
    parseStepAndSuffix "/a/c_12-x".toList = .error .valueError := ⟨rfl, rfl⟩

/-- A name determines its step and suffix. -/
theorem C25_unique (f : List Char) (hf : '\n' ∉ f) {n m x y} (h : Names f n x) (h' : Names f m y) :
    n = m ∧ x = y := by
  have e := (parse_ok_iff hf n x).2 h
  rw [(parse_ok_iff hf m y).2 h'] at e
  cases e; exact ⟨rfl, rfl⟩

example : Names "c_12.data".toList 12 (some ".data".toList) :=
  ⟨['c'], ['1', '2'], [], ⟨by simp, by simp [Digit]⟩, rfl,
    by rintro y ⟨⟩; exact ⟨"data".toList, by decide, by simp [Letter], rfl⟩, .inl rfl, rfl⟩

/-! ## C23 -/

/-- What the iteration returns, for any set of files: no repetition, ordered, and exactly the steps all
of whose required suffixes are present in final form and not as a temporary file. -/
theorem C23_exact (files : List (List Char)) (hnl : ∀ f ∈ files, '\n' ∉ f) (pre : List Char)
    (suffixes : List (List Char)) (hs : suffixes ≠ []) (dec : Bool) (steps : List Nat)
    (h : iterateCompleteSteps files pre (some suffixes) dec = .ok steps) :
    (steps.Pairwise fun a b => if dec then b < a else a < b) ∧
      ∀ n, n ∈ steps ↔ ∀ x ∈ suffixes,
        (∃ f ∈ files, Extends f pre ∧ Names f n (some x)) ∧
          ¬ ∃ f ∈ files, Extends f (tmpPath pre) ∧ Names f n (some x) := by
  obtain ⟨h1, h2, -⟩ := iterate_spec hnl h
  refine ⟨h1, fun n => ?_⟩
  rw [h2 n]
  cases suffixes with
  | nil => exact absurd rfl hs
  | cons a l =>
    have : requiredOf (some (a :: l)) = (a :: l).map some := rfl
    rw [this]
    simp only [List.mem_map, forall_exists_index, and_imp, forall_apply_eq_imp_iff₂]
    rfl

/-- Files of steps 2 (complete, two data shards), 10 (complete), 7 (index missing), 9 (data being
written). -/
def sample : List (List Char) :=
  ["d/c_2.index", "d/c_2.data-0-of-2", "d/c_2.data-1-of-2", "d/c_7.data", "d/c_9.index",
    "d/c_9.data-0-of-1", "d/.tmp.c_9.data-0-of-1", "d/c_10.index", "d/c_10.data", "d/other"].map
    String.toList

example : iterateCompleteSteps sample "d/c".toList (some [".index".toList, ".data".toList]) true =
    .ok [10, 2] := by rfl

/-- Without required suffixes only files without suffix count. -/
theorem C23_no_suffix (files : List (List Char)) (hnl : ∀ f ∈ files, '\n' ∉ f) (pre : List Char)
    (suffixes : Option (List (List Char))) (hs : suffixes = none ∨ suffixes = some [])
    (dec : Bool) (steps : List Nat)
    (h : iterateCompleteSteps files pre suffixes dec = .ok steps) :
    (steps.Pairwise fun a b => if dec then b < a else a < b) ∧
      ∀ n, n ∈ steps ↔ (∃ f ∈ files, Extends f pre ∧ Names f n none) ∧
          ¬ ∃ f ∈ files, Extends f (tmpPath pre) ∧ Names f n none := by
  obtain ⟨h1, h2, -⟩ := iterate_spec hnl h
  refine ⟨h1, fun n => ?_⟩
  rw [h2 n]
  have : requiredOf suffixes = [none] := by rcases hs with rfl | rfl <;> rfl
  rw [this]
  simp only [List.mem_singleton, forall_eq]
  rfl

example : iterateCompleteSteps (["d/c_2", "d/c_11-0-of-1", "d/c_3.data"].map String.toList)
    "d/c".toList none false = .ok [2, 11] := by rfl

/-- When the iteration raises: precisely if a file matched by the pattern has no step number, or a step
has both a file without suffix and one with a suffix. -/
theorem C23_raises_iff (files : List (List Char)) (hnl : ∀ f ∈ files, '\n' ∉ f) (pre : List Char)
    (suffixes : Option (List (List Char))) (dec : Bool) :
    (∃ e, iterateCompleteSteps files pre suffixes dec = .error e) ↔
      (∃ f ∈ files, (Extends f pre ∨ Extends f (tmpPath pre)) ∧ ¬ ∃ n x, Names f n x) ∨
      ∃ n y, ∀ x, x = none ∨ x = some y → (∃ f ∈ files, Extends f pre ∧ Names f n x) ∧
          ¬ ∃ f ∈ files, Extends f (tmpPath pre) ∧ Names f n x := by
  constructor
  · rintro ⟨e, he⟩
    by_contra hcon
    rw [not_or] at hcon
    obtain ⟨ha, hb⟩ := hcon
    have : ∃ steps, iterateCompleteSteps files pre suffixes dec = .ok steps := by
      apply iterate_ok hnl
      · intro f hf hx
        by_contra hc; exact ha ⟨f, hf, .inl hx, hc⟩
      · intro f hf hx
        by_contra hc; exact ha ⟨f, hf, .inr hx, hc⟩
      · rintro ⟨n, y, h1, h2⟩
        exact hb ⟨n, y, by rintro x (rfl | rfl); exacts [h1, h2]⟩
    obtain ⟨st, hst⟩ := this
    rw [hst] at he; cases he
  · intro h
    cases hr : iterateCompleteSteps files pre suffixes dec with
    | error e => exact ⟨e, rfl⟩
    | ok steps =>
      exfalso
      obtain ⟨-, -, h3, h4, h5⟩ := iterate_spec hnl hr
      rcases h with ⟨f, hf, hx | hx, hn⟩ | ⟨n, y, hy⟩
      · exact hn (h3 f hf hx)
      · exact hn (h4 f hf hx)
      · exact h5 ⟨n, y, hy none (.inl rfl), hy (some y) (.inr rfl)⟩

example : iterateCompleteSteps (["d/c_2.data", "d/c_best"].map String.toList) "d/c".toList none true =
    .error .valueError ∧
    iterateCompleteSteps (["d/c_2.data", "d/c_2"].map String.toList) "d/c".toList none true =
    .error .typeError := ⟨rfl, rfl⟩

/-- The latest complete checkpoint is the one with the largest complete step. -/
theorem C23_latest (files : List (List Char)) (hnl : ∀ f ∈ files, '\n' ∉ f) (pre : List Char)
    (suffixes : List (List Char)) (hs : suffixes ≠ []) (r : Option (List Char))
    (h : findLatest files pre (some suffixes) = .ok r) :
    let complete := fun n => ∀ x ∈ suffixes,
        (∃ f ∈ files, Extends f pre ∧ Names f n (some x)) ∧
          ¬ ∃ f ∈ files, Extends f (tmpPath pre) ∧ Names f n (some x)
    (r = none ↔ ∀ n, ¬ complete n) ∧
      ∀ p, r = some p ↔ ∃ n, complete n ∧ (∀ m, complete m → m ≤ n) ∧ p = pre ++ '_' :: natStr n := by
  intro complete
  unfold findLatest at h
  cases hi : iterateCompleteSteps files pre (some suffixes) true with
  | error e => rw [hi] at h; cases h
  | ok steps =>
    obtain ⟨h1, h2⟩ := C23_exact files hnl pre suffixes hs true steps hi
    change ∀ n, n ∈ steps ↔ complete n at h2
    rw [hi] at h
    cases steps with
    | nil =>
      cases h
      have hno : ∀ n, ¬ complete n := fun n hn => by
        have := (h2 n).2 hn
        cases this
      exact ⟨⟨fun _ => hno, fun _ => rfl⟩,
        fun p => ⟨by simp, fun ⟨n, hn, _⟩ => absurd hn (hno n)⟩⟩
    | cons s rest =>
      cases h
      have hcs : complete s := (h2 s).1 (by simp)
      have hmax : ∀ m, complete m → m ≤ s := by
        intro m hm
        rcases List.mem_cons.1 ((h2 m).2 hm) with rfl | hm'
        · exact le_rfl
        · have := (List.pairwise_cons.1 h1).1 m hm'
          simp only [if_true] at this
          omega
      refine ⟨⟨by simp, fun h => absurd hcs (h s)⟩, fun p => ?_⟩
      constructor
      · rintro ⟨⟩
        exact ⟨s, hcs, hmax, rfl⟩
      · rintro ⟨n, hn, hn', rfl⟩
        have : n = s := le_antisymm (hmax n hn) (hn' s hcs)
        rw [this]

example : findLatest sample "d/c".toList (some [".index".toList, ".data".toList]) =
    .ok (some "d/c_10".toList) := by rfl

theorem extends_basename {pre f : List Char} (hp : VisibleName pre) (h : Extends f pre) :
    ∃ c t, c ≠ '.' ∧ basename f = c :: t := by
  obtain ⟨d, c, b, hc, hb, hd, rfl⟩ := hp
  obtain ⟨t, ht, rfl⟩ := h
  refine ⟨c, b ++ t, hc, ?_⟩
  have e : d ++ c :: b ++ t = d ++ (c :: (b ++ t)) := by simp
  rw [e]
  apply basename_split _ hd
  simp only [List.mem_cons, List.mem_append, not_or] at hb ⊢
  exact ⟨hb.1, hb.2, ht⟩

theorem tmpPath_append (p t : List Char) (ht : '/' ∉ t) : tmpPath (p ++ t) = tmpPath p ++ t := by
  have h1 : basename (p ++ t) = basename p ++ t := by
    unfold basename
    rw [List.reverse_append, List.takeWhile_append_of_pos, List.reverse_append, List.reverse_reverse]
    intro c hc
    have : c ≠ '/' := by rintro rfl; exact ht (List.mem_reverse.1 hc)
    simp [this]
  have h2 : dirname (p ++ t) = dirname p := by
    unfold dirname
    rw [List.reverse_append, List.dropWhile_append_of_pos]
    intro c hc
    have : c ≠ '/' := by rintro rfl; exact ht (List.mem_reverse.1 hc)
    simp [this]
  unfold tmpPath pathJoin
  rw [h1, h2]
  simp only [List.cons_append, List.nil_append, List.head?_cons, Option.some.injEq]
  split
  · rename_i h; cases h
  · split <;> simp

theorem slash_newline_shard {sh : List Char} (h : sh = [] ∨ ShardStr sh) : '/' ∉ sh ∧ '\n' ∉ sh := by
  rcases h with rfl | ⟨d, e, hd, he, rfl⟩
  · simp
  · have a1 : '/' ∉ d := fun h => digit_ne (hd.2 _ h) rfl rfl
    have a2 : '/' ∉ e := fun h => digit_ne (he.2 _ h) rfl rfl
    have a3 : '\n' ∉ d := fun h => digit_ne (hd.2 _ h) rfl rfl
    have a4 : '\n' ∉ e := fun h => digit_ne (he.2 _ h) rfl rfl
    simp [a1, a2, a3, a4]

/-- Crash clause, for all crash points and any number of shards per suffix: a step saved into a
directory without files of that step and killed at any moment (or with failing threads) is reported
complete exactly if, for every requested suffix, at least one of its files was finished and none is
in the middle of being written.  Every final file has its whole content. -/
theorem C23_crash {ι : Type} [DecidableEq ι] (fs : FS β) (pre : List Char) (step : Nat)
    (sfx sh : ι → List Char) (pieces : ι → List (List β)) (ow mk : Bool) (sched : List ι)
    (hsfx : ∀ i, SuffixStr (sfx i)) (hsh : ∀ i, sh i = [] ∨ ShardStr (sh i))
    (hinj : ∀ i k, sfx i = sfx k → sh i = sh k → i = k)
    (hvis : VisibleName pre) (hpre : '\n' ∉ pre)
    (hfresh : ∀ f, fs.files f ≠ none → Extends f pre ∨ Extends f (tmpPath pre) →
      ∀ x, ¬ Names f step x)
    (listing : List (List Char)) (hnl : ∀ f ∈ listing, '\n' ∉ f)
    (suffixes : List (List Char)) (hne : suffixes ≠ []) (dec : Bool) (steps : List Nat) :
    let path : ι → List Char := fun i => pre ++ ('_' :: natStr step ++ (sfx i ++ sh i))
    let fs' := (saveMany fs (fun i => ⟨path i, pieces i⟩) ow mk sched).1
    (∀ f, f ∈ listing ↔ fs'.files f ≠ none) →
      iterateCompleteSteps listing pre (some suffixes) dec = .ok steps →
      (step ∈ steps ↔ ∀ x ∈ suffixes,
        (∃ i, sfx i = x ∧ fs'.files (path i) = some (pieces i).flatten) ∧
          ∀ i, sfx i = x → fs'.files (tmpPath (path i)) = none) ∧
      ∀ i, fs'.files (path i) = none ∨ fs'.files (path i) = some (pieces i).flatten := by
  intro path fs' hlist hit
  let jobs : ι → Job β := fun i => ⟨path i, pieces i⟩
  have hslash : ∀ i, '/' ∉ ('_' :: natStr step ++ (sfx i ++ sh i)) := by
    intro i hm
    rcases List.mem_append.1 hm with h | h
    · rcases List.mem_cons.1 h with h | h
      · cases h
      · exact digit_ne ((digits_natStr step).2 _ h) rfl rfl
    rcases List.mem_append.1 h with h | h
    · obtain ⟨l, -, hl, e⟩ := hsfx i
      rw [e] at h
      rcases List.mem_cons.1 h with h | h
      · cases h
      · exact letter_ne (hl _ h) rfl rfl
    · exact (slash_newline_shard (hsh i)).1 h
  have htmpe : ∀ i, tmpPath (path i) = tmpPath pre ++ ('_' :: natStr step ++ (sfx i ++ sh i)) :=
    fun i => tmpPath_append _ _ (hslash i)
  have hext : ∀ i, Extends (path i) pre := fun i => ⟨_, hslash i, rfl⟩
  have hextt : ∀ i, Extends (tmpPath (path i)) (tmpPath pre) := fun i => ⟨_, hslash i, htmpe i⟩
  have hnames' : ∀ q i, Names (q ++ ('_' :: natStr step ++ (sfx i ++ sh i))) step (some (sfx i)) := by
    intro q i
    refine ⟨q, natStr step, sh i, digits_natStr step, value_natStr step, ?_, hsh i, by simp⟩
    rintro y ⟨⟩; exact hsfx i
  have hnames : ∀ i, Names (path i) step (some (sfx i)) := hnames' pre
  have hnamest : ∀ i, Names (tmpPath (path i)) step (some (sfx i)) := by
    intro i; rw [htmpe]; exact hnames' _ i
  have hpnl : ∀ i, '\n' ∉ path i := by
    intro i hm
    rcases List.mem_append.1 hm with h | h
    · exact hpre h
    rcases List.mem_append.1 h with h | h
    · rcases List.mem_cons.1 h with h | h
      · cases h
      · exact digit_ne ((digits_natStr step).2 _ h) rfl rfl
    rcases List.mem_append.1 h with h | h
    · obtain ⟨l, -, hl, e⟩ := hsfx i
      rw [e] at h
      rcases List.mem_cons.1 h with h | h
      · cases h
      · exact letter_ne (hl _ h) rfl rfl
    · exact (slash_newline_shard (hsh i)).2 h
  have hbase : ∀ i k, i ≠ k → basename (jobs i).path ≠ basename (jobs k).path := by
    intro i k hik e
    obtain ⟨d, c, b, hc, hb, hd, hpre'⟩ := hvis
    have hb' : ∀ i, basename (jobs i).path = c :: b ++ ('_' :: natStr step ++ (sfx i ++ sh i)) := by
      intro i
      have e : (jobs i).path = d ++ (c :: b ++ ('_' :: natStr step ++ (sfx i ++ sh i))) := by
        simp [jobs, path, hpre']
      rw [e]
      apply basename_split _ hd
      intro hm
      rcases List.mem_append.1 hm with h | h
      · exact hb h
      · exact hslash i h
    rw [hb' i, hb' k, List.append_cancel_left_eq, List.append_cancel_left_eq] at e
    have hpe : path i = path k := by simp only [path, e]
    have hs : sfx i = sfx k := Option.some.inj
      (C25_unique (path i) (hpnl i) (hnames i) (by rw [hpe]; exact hnames k)).2
    rw [hs, List.append_cancel_left_eq] at e
    exact hik (hinj i k hs e)
  have htmp : ∀ i, ¬ IsTmp (jobs i).path := by
    intro i ⟨t, ht⟩
    obtain ⟨c, t', hc, hb⟩ := extends_basename hvis (hext i)
    change _ = basename (path i) at ht
    rw [hb] at ht
    simp only [List.cons_append, List.cons.injEq] at ht
    exact hc ht.1.symm
  have hinv : Inv fs jobs ow mk (saveMany fs jobs ow mk sched) :=
    inv_saveMany fs jobs ow mk sched (names_indep hbase htmp)
  have hold : ∀ i, fs.files (path i) = none := by
    intro i
    by_contra hc
    exact hfresh _ hc (.inl (hext i)) _ (hnames i)
  have hcontent : ∀ i, fs'.files (path i) = none ∨ fs'.files (path i) = some (pieces i).flatten := by
    intro i
    cases hinv.job i with
    | start a b c => exact .inl (c.trans (hold i))
    | created a b c => exact .inl (c.trans (hold i))
    | writing _ _ _ a b c => exact .inl (c.trans (hold i))
    | success a b c => exact .inr c
    | failed a b c => exact .inl (c.trans (hold i))
  have hnot : ∀ f, fs'.files f ≠ none → ∀ x, Names f step x → Extends f pre ∨ Extends f (tmpPath pre) →
      ∃ k, f = path k ∨ f = tmpPath (path k) := by
    intro f hf x hn he
    by_contra hcon
    push Not at hcon
    have : fs'.files f = fs.files f := hinv.other f hcon
    exact hfresh f (by rw [← this]; exact hf) he x hn
  have htnl : ∀ i, fs'.files (tmpPath (path i)) ≠ none → '\n' ∉ tmpPath (path i) :=
    fun i h => hnl _ ((hlist _).2 h)
  refine ⟨?_, hcontent⟩
  rw [(C23_exact listing hnl pre suffixes hne dec steps hit).2 step]
  refine forall_congr' fun x => forall_congr' fun hx => and_congr ?_ ?_
  · constructor
    · rintro ⟨f, hf, hfe, hfn⟩
      have hfex := (hlist f).1 hf
      obtain ⟨k, hk | hk⟩ := hnot f hfex _ hfn (.inl hfe)
      · refine ⟨k, Option.some.inj (C25_unique f (hnl f hf) (by rw [hk]; exact hnames k) hfn).2, ?_⟩
        rcases hcontent k with h | h
        · rw [hk] at hfex; exact absurd h hfex
        · exact h
      · exfalso
        obtain ⟨c, t, hc, hb⟩ := extends_basename hvis hfe
        rw [hk, basename_tmpPath] at hb
        simp only [List.cons_append, List.cons.injEq] at hb
        exact hc hb.1.symm
    · rintro ⟨i, rfl, hi⟩
      exact ⟨path i, (hlist _).2 (by rw [hi]; simp), hext i, hnames i⟩
  · constructor
    · rintro h i rfl
      by_contra hc
      exact h ⟨tmpPath (path i), (hlist _).2 hc, hextt i, hnamest i⟩
    · rintro h ⟨f, hf, hfe, hfn⟩
      have hfex := (hlist f).1 hf
      obtain ⟨k, hk | hk⟩ := hnot f hfex _ hfn (.inr hfe)
      · refine htmp k ?_
        change IsTmp (path k)
        rw [← hk]
        obtain ⟨t, ht, e⟩ := hfe
        have : f = tmpPath (pre ++ t) := by rw [e, tmpPath_append _ _ ht]
        rw [this]
        exact isTmp_tmpPath _
      · have hs := (C25_unique f (hnl f hf) (by rw [hk]; exact hnamest k) hfn).2
        rw [hk] at hfex
        exact hfex (h k (Option.some.inj hs))

/-- Consequence for one file per suffix: the step is reported only if every requested file is there
with its whole content, so a save that died midway is not reported. -/
theorem C23_crash_single_files {ι : Type} [DecidableEq ι] (fs : FS β) (pre : List Char) (step : Nat)
    (sfx : ι → List Char) (pieces : ι → List (List β)) (ow mk : Bool) (sched : List ι)
    (hsfx : ∀ i, SuffixStr (sfx i)) (hinj : ∀ i k, sfx i = sfx k → i = k)
    (hvis : VisibleName pre) (hpre : '\n' ∉ pre)
    (hfresh : ∀ f, fs.files f ≠ none → Extends f pre ∨ Extends f (tmpPath pre) →
      ∀ x, ¬ Names f step x)
    (listing : List (List Char)) (hnl : ∀ f ∈ listing, '\n' ∉ f)
    (suffixes : List (List Char)) (dec : Bool) (steps : List Nat) :
    let path : ι → List Char := fun i => pre ++ ('_' :: natStr step ++ sfx i)
    let fs' := (saveMany fs (fun i => ⟨path i, pieces i⟩) ow mk sched).1
    (∀ f, f ∈ listing ↔ fs'.files f ≠ none) →
      iterateCompleteSteps listing pre (some suffixes) dec = .ok steps → step ∈ steps →
      ∀ i, sfx i ∈ suffixes → fs'.files (path i) = some (pieces i).flatten := by
  intro path fs' hlist hit hmem i hi
  have hpath : ∀ i, pre ++ ('_' :: natStr step ++ (sfx i ++ [])) = path i := by
    intro i; simp [path]
  have key := C23_crash fs pre step sfx (fun _ => []) pieces ow mk sched hsfx (fun _ => .inl rfl)
    (fun i k h _ => hinj i k h) hvis hpre hfresh listing hnl suffixes (List.ne_nil_of_mem hi) dec steps
  simp only [hpath] at key
  obtain ⟨k, hk, hk'⟩ := ((key hlist hit).1.1 hmem (sfx i) hi).1
  rw [hinj k i hk] at hk'
  exact hk'

-- Non-vacuity: an index file and two data shards, killed while the second shard is written.
example : (∀ f, (⟨fun _ => none, fun _ => true⟩ : FS Nat).files f ≠ none →
      Extends f "d/c".toList ∨ Extends f (tmpPath "d/c".toList) → ∀ x, ¬ Names f 5 x) ∧
    ShardStr "-00000-of-00002".toList ∧
    iterateCompleteSteps ["d/c_5.index".toList, "d/c_5.data-00000-of-00002".toList,
      "d/.tmp.c_5.data-00001-of-00002".toList] "d/c".toList
      (some [".index".toList, ".data".toList]) true = .ok [] ∧
    iterateCompleteSteps ["d/c_5.index".toList, "d/c_5.data-00000-of-00002".toList,
      "d/c_5.data-00001-of-00002".toList] "d/c".toList
      (some [".index".toList, ".data".toList]) true = .ok [5] := by
  refine ⟨fun f h => absurd rfl h, ⟨"00000".toList, "00002".toList, ?_, ?_, rfl⟩, rfl, rfl⟩ <;>
    simp [Digits, Digit]

example : VisibleName "d/c".toList ∧ SuffixStr ".index".toList ∧ SuffixStr ".data".toList :=
  ⟨⟨"d/".toList, 'c', [], by decide, by decide, .inr ⟨['d'], rfl⟩, rfl⟩,
    ⟨"index".toList, by decide, by simp [Letter], rfl⟩,
    ⟨"data".toList, by decide, by simp [Letter], rfl⟩⟩

/-- A step with two data shards, killed after the index and the first shard were written and before the
second was started, is reported as complete although the second shard does not exist. -/
theorem C23_missing_shard_counterexample :
    let jobs : Fin 3 → Job Nat := fun i => ⟨(["d/c_5.index", "d/c_5.data-00000-of-00002",
      "d/c_5.data-00001-of-00002"][i]).toList, [[i.val]]⟩
    let fs0 : FS Nat := ⟨fun _ => none, fun _ => true⟩
    let fs := (saveMany fs0 jobs true false [0, 0, 0, 1, 1, 1]).1
    let listing := ["d/c_5.index".toList, "d/c_5.data-00000-of-00002".toList]
    (∀ f ∈ listing, fs.files f ≠ none) ∧ fs.files "d/c_5.data-00001-of-00002".toList = none ∧
      findLatest listing "d/c".toList (some [".index".toList, ".data".toList]) =
        .ok (some "d/c_5".toList) := by
  refine ⟨by decide, by decide, rfl⟩

/-- A save refused because the file exists leaves its temporary file behind, which hides the complete
checkpoint from the search. -/
theorem C23_hidden_by_refused_save_counterexample :
    let fs0 : FS Nat := ⟨fun p => if p = "d/c_5".toList then some [1] else none, fun _ => true⟩
    let fs := (saveMany fs0 (fun _ : Unit => ⟨"d/c_5".toList, [[2]]⟩) false true
      (List.replicate 4 ())).1
    fs.files "d/c_5".toList = some [1] ∧ fs.files "d/.tmp.c_5".toList = some [2] ∧
      findLatest ["d/c_5".toList] "d/c".toList none = .ok (some "d/c_5".toList) ∧
      findLatest ["d/c_5".toList, "d/.tmp.c_5".toList] "d/c".toList none = .ok none := by
  refine ⟨by decide, by decide, rfl, rfl⟩

end Verif.CkptFiles
