import Verif.Model.DataShare
import Verif.Props.DataPipeline

/-! C96: what each process reads of a dataset (vmoe/data/builder.py, vmoe/data/input_pipeline.py). -/

namespace Verif.DataShare

open Verif DataPipeline

variable {V B α : Type}

theorem evenSplit_eq (n count i : Nat) :
    evenSplit n count i = (n / count * i + min i (n % count), n / count * (i + 1) + min (i + 1) (n % count)) := by
  unfold evenSplit
  by_cases h : i < n % count
  · simp only [if_pos h]
    rw [min_eq_left h.le, min_eq_left (by omega)]
    rfl
  · simp only [if_neg h]
    rw [min_eq_right (by omega), min_eq_right (by omega)]

theorem share_size (n count i : Nat) :
    (evenSplit n count i).2 - (evenSplit n count i).1 = n / count + if i < n % count then 1 else 0 := by
  rw [evenSplit_eq]
  simp only [Nat.mul_add, Nat.mul_one]
  generalize n / count = q
  generalize n % count = r
  generalize q * i = t
  split <;> omega

theorem start_count (n count : Nat) (h : 0 < count) : n / count * count + min count (n % count) = n := by
  rw [min_eq_right (Nat.mod_lt n h).le, Nat.mul_comm]
  exact Nat.div_add_mod n count

theorem shares_prefix (split : List α) (count m : Nat) :
    (List.range m).flatMap (asDataset split count) =
      split.take (split.length / count * m + min m (split.length % count)) := by
  induction m with
  | zero => simp
  | succ m ih =>
    rw [List.range_succ, List.flatMap_append, ih, List.flatMap_singleton, asDataset]
    simp only [evenSplit_eq]
    set a := split.length / count * m + min m (split.length % count) with ha
    set b := split.length / count * (m + 1) + min (m + 1) (split.length % count) with hb
    have hab : a ≤ b := by
      rw [ha, hb]
      exact Nat.add_le_add (Nat.mul_le_mul_left _ (Nat.le_succ m)) (min_le_min_right _ (Nat.le_succ m))
    conv_rhs => rw [show b = a + (b - a) by omega, List.take_add]

theorem length_asDataset (split : List α) (count i : Nat) (hi : i < count) :
    (asDataset split count i).length = split.length / count + if i < split.length % count then 1 else 0 := by
  rw [asDataset, List.length_take, List.length_drop, share_size]
  have h1 := start_count split.length count (by omega)
  have h2 : split.length / count * (i + 1) ≤ split.length / count * count := Nat.mul_le_mul_left _ (by omega)
  rw [evenSplit_eq]
  simp only [Nat.mul_add, Nat.mul_one] at *
  generalize split.length % count = r at *
  generalize split.length / count * i = t at *
  generalize split.length / count * count = u at *
  generalize split.length / count = q at *
  split <;> omega

/-- C96: the processes read disjoint consecutive parts of the split, which together are the whole split; their sizes differ
by at most one, and are the numbers that the padding is computed from. -/
theorem C96_shares (split : List α) (count : Nat) (hc : 0 < count) :
    (List.range count).flatMap (asDataset split count) = split ∧
    (∀ i j, i < count → j < count → (asDataset split count i).length ≤ (asDataset split count j).length + 1) ∧
    ∀ i < count, (numExamples split.length count)[i]? = some (asDataset split count i).length := by
  refine ⟨?_, ?_, ?_⟩
  · rw [shares_prefix, start_count _ _ hc, List.take_length]
  · intro i j hi hj
    rw [length_asDataset split count i hi, length_asDataset split count j hj]
    split <;> split <;> omega
  · intro i hi
    rw [length_asDataset split count i hi, numExamples, List.getElem?_map, List.getElem?_range hi, Option.map_some, share_size]

theorem ceilDiv_spec (m b : Nat) (hb : 0 < b) : m ≤ ceilDiv m b * b ∧ ∀ k, m ≤ k * b → ceilDiv m b ≤ k := by
  unfold ceilDiv
  have h2 := Nat.div_add_mod (m + b - 1) b
  have h3 := Nat.mod_lt (m + b - 1) hb
  constructor
  · rw [Nat.mul_comm]
    omega
  · intro k hk
    by_contra h
    have h4 : (k + 1) * b ≤ (m + b - 1) / b * b := Nat.mul_le_mul_right b (by omega)
    rw [Nat.add_mul, Nat.one_mul, Nat.mul_comm ((m + b - 1) / b) b] at h4
    omega

theorem flatMap_perm_append {β γ : Type} (l : List β) (f g h : β → List γ) (hp : ∀ x ∈ l, (f x).Perm (g x ++ h x)) :
    (l.flatMap f).Perm (l.flatMap g ++ l.flatMap h) := by
  induction l with
  | nil => simp
  | cons a l ih =>
    simp only [List.flatMap_cons]
    have h1 := (hp a (by simp)).append (ih fun x hx => hp x (by simp [hx]))
    refine h1.trans ?_
    rw [List.append_assoc, List.append_assoc]
    apply List.Perm.append_left
    rw [← List.append_assoc, ← List.append_assoc]
    exact List.Perm.append_right _ List.perm_append_comm

/-- C96: an evaluation without filter runs exactly `⌈n / batch_size⌉` batches in every process, and all processes together see
every example of the split exactly once, and only fake examples beside them. -/
theorem C96_evaluation (split : List Data) (pc dc batchSize b : Nat) (hpc : 0 < pc)
    (hbs : batchSizePerProcess batchSize pc dc = .ok b) (hb : 0 < b) (process : Data → Except PyErr Data) (g : Data → Data)
    (hg : ∀ d ∈ split, process d = .ok (g d)) (spec : PyDict String TensorSpec) (sched : Nat → List Data → List Data)
    (hs : ∀ p l, (sched p l).Perm l) :
    ∃ (k : Nat) (batches : Nat → List (List Data)), split.length ≤ k * batchSize ∧
      (∀ k', split.length ≤ k' * batchSize → k ≤ k') ∧
      (∀ p < pc, getEvalDataset (sourceOf split pc dc p) batchSize none process spec (sched p) = .ok (batches p) ∧
        (batches p).length = k ∧ ∀ x ∈ batches p, x.length = b) ∧
      ((List.range pc).flatMap fun p => (batches p).flatten).Perm
        (split.map (fun d => maskFn (g d)) ++ List.replicate (k * batchSize - split.length) (fakeElem spec)) := by
  have hbb : batchSize = b * pc := by
    unfold batchSizePerProcess at hbs
    split at hbs
    · cases hbs
    · rename_i h
      cases hbs
      push Not at h
      exact (Nat.div_mul_cancel (Nat.dvd_of_mod_eq_zero h.1)).symm
  obtain ⟨k, hk1, hk2, hk3⟩ := C33_padding (numExamples split.length pc) batchSize pc dc b hbs hb process g spec
  have hshare := C96_shares split pc hpc
  -- the first process has the most examples
  have hcov : ∀ k', Covers (numExamples split.length pc) b k' ↔ split.length ≤ k' * batchSize := by
    intro k'
    have hdm := Nat.div_add_mod split.length pc
    constructor
    · intro h
      have h0 := h _ (List.mem_of_getElem? (hshare.2.2 0 hpc))
      rw [length_asDataset split pc 0 hpc] at h0
      have h1 : split.length ≤ (split.length / pc + if 0 < split.length % pc then 1 else 0) * pc := by
        have hm := Nat.mod_lt split.length hpc
        rw [Nat.add_mul, Nat.mul_comm (split.length / pc)]
        split <;> omega
      calc split.length ≤ _ := h1
        _ ≤ k' * b * pc := Nat.mul_le_mul_right pc h0
        _ = k' * batchSize := by rw [hbb, Nat.mul_assoc]
    · intro h n hn
      obtain ⟨i, hi, rfl⟩ := List.mem_map.1 hn
      rw [share_size]
      rw [hbb, ← Nat.mul_assoc] at h
      split
      · rename_i hlt
        by_contra hcon
        have h1 : k' * b ≤ split.length / pc := by omega
        have h2 : k' * b * pc ≤ split.length / pc * pc := Nat.mul_le_mul_right pc h1
        rw [Nat.mul_comm (split.length / pc)] at h2
        omega
      · by_contra hcon
        have h1 : k' * b + 1 ≤ split.length / pc := by omega
        have h2 : (k' * b + 1) * pc ≤ split.length / pc * pc := Nat.mul_le_mul_right pc h1
        rw [Nat.mul_comm (split.length / pc), Nat.add_mul] at h2
        omega
  have hex : ∀ p, p < pc → ∃ batches, getEvalDataset (sourceOf split pc dc p) batchSize none process spec (sched p) = .ok batches ∧
      batches.length = k ∧ (∀ x ∈ batches, x.length = b) ∧
      batches.flatten = sched p ((asDataset split pc p).map fun d => maskFn (g d)) ++
        List.replicate (k * b - (asDataset split pc p).length) (fakeElem spec) := by
    intro p hp
    refine hk3 (sourceOf split pc dc p) (sched p) (hs p) rfl rfl rfl (hshare.2.2 p hp) ?_
    intro d hd
    exact hg d (List.mem_of_mem_drop (List.mem_of_mem_take hd))
  choose! batches h1 h2 h3 h4 using hex
  refine ⟨k, batches, (hcov k).1 hk1, fun k' h => hk2 k' ((hcov k').2 h), fun p hp => ⟨h1 p hp, h2 p hp, h3 p hp⟩, ?_⟩
  have hp := flatMap_perm_append (List.range pc) (fun p => (batches p).flatten)
    (fun p => (asDataset split pc p).map fun d => maskFn (g d))
    (fun p => List.replicate (k * b - (asDataset split pc p).length) (fakeElem spec)) (by
      intro p hp
      rw [h4 p (List.mem_range.1 hp)]
      exact (hs p _).append_right _)
  refine hp.trans ?_
  have e1 : ((List.range pc).flatMap fun p => (asDataset split pc p).map fun d => maskFn (g d)) =
      split.map fun d => maskFn (g d) := by
    rw [← List.map_flatMap, hshare.1]
  have e2 : ∀ m ≤ pc, ((List.range m).flatMap fun p => List.replicate (k * b - (asDataset split pc p).length) (fakeElem spec)) =
      List.replicate (k * b * m - ((List.range m).flatMap (asDataset split pc)).length) (fakeElem spec) ∧
      ((List.range m).flatMap (asDataset split pc)).length ≤ k * b * m := by
    intro m
    induction m with
    | zero => simp
    | succ m ih =>
      intro hm
      obtain ⟨i1, i2⟩ := ih (by omega)
      have hlen : (asDataset split pc m).length ≤ k * b := hk1 _ (List.mem_of_getElem? (hshare.2.2 m (by omega)))
      simp only [List.range_succ, List.flatMap_append, List.flatMap_singleton, List.length_append, i1, Nat.mul_add, Nat.mul_one]
      rw [← List.replicate_add]
      refine ⟨?_, by omega⟩
      congr 1
      omega
  rw [e1, (e2 pc le_rfl).1, hshare.1, hbb, Nat.mul_assoc]

/-- Five examples and two processes: the shares have three and two examples. -/
example : asDataset [1, 2, 3, 4, 5] 2 0 = [1, 2, 3] ∧ asDataset [1, 2, 3, 4, 5] 2 1 = [4, 5] := by decide +kernel

/-- Two processes, two devices, batches of four: the hypotheses hold with two examples per process. -/
example : batchSizePerProcess 4 2 2 = .ok 2 ∧ ∀ d ∈ ([[], []] : List Data), (Except.ok d : Except PyErr Data) = .ok (id d) :=
  ⟨rfl, fun _ _ => rfl⟩

theorem getTfdsBuilders_aux (tfds : Tfds B) (cache : Cache B) (calls : List BuilderArgs) (i : Nat) (a : BuilderArgs) (b : B)
    (ha : calls[i]? = some a) (hb : (getTfdsBuilders tfds cache calls)[i]? = some (.ok b)) :
    PyDict.get? cache (a.name, a.dataDir) = some b ∨ PyDict.get? cache (a.name, a.dataDir) = none ∧
      ∃ (j : Nat) (a' : BuilderArgs), j ≤ i ∧ calls[j]? = some a' ∧ a'.name = a.name ∧ a'.dataDir = a.dataDir ∧
        newBuilder tfds a' = .ok b ∧
        ∀ (l : Nat) (a'' : BuilderArgs), l < j → calls[l]? = some a'' → a''.name = a.name → a''.dataDir = a.dataDir →
          ∃ e, newBuilder tfds a'' = .error e := by
  induction calls generalizing cache i with
  | nil => simp at ha
  | cons c calls ih =>
    cases i with
    | zero =>
      simp only [List.getElem?_cons_zero, Option.some.injEq] at ha
      subst ha
      simp only [getTfdsBuilders, List.getElem?_cons_zero, Option.some.injEq] at hb
      unfold getTfdsBuilder at hb
      cases hc : PyDict.get? cache (c.name, c.dataDir) with
      | some b' =>
        rw [hc] at hb
        simp only [Except.ok.injEq] at hb
        exact .inl (by rw [hb])
      | none =>
        refine .inr ⟨rfl, 0, c, le_rfl, rfl, rfl, rfl, ?_, by intro l a'' hl; omega⟩
        rw [hc] at hb
        simp only at hb
        cases hn : newBuilder tfds c with
        | error e => rw [hn] at hb; simp at hb
        | ok b' => rw [hn] at hb; simpa using hb
    | succ i =>
      simp only [List.getElem?_cons_succ] at ha
      simp only [getTfdsBuilders, List.getElem?_cons_succ] at hb
      have h := ih (getTfdsBuilder tfds cache c).2 i ha hb
      unfold getTfdsBuilder at h
      cases hc : PyDict.get? cache (c.name, c.dataDir) with
      | some b' =>
        rw [hc] at h
        simp only at h
        rcases h with h | ⟨h, j, a', h1, h2, h3, h4, h5, h6⟩
        · exact .inl h
        · refine .inr ⟨h, j + 1, a', by omega, by simpa using h2, h3, h4, h5, ?_⟩
          intro l a'' hl hal hn hd
          cases l with
          | zero =>
            simp only [List.getElem?_cons_zero, Option.some.injEq] at hal
            subst hal
            rw [← hn, ← hd, hc] at h
            cases h
          | succ l => exact h6 l a'' (by omega) (by simpa using hal) hn hd
      | none =>
        rw [hc] at h
        simp only at h
        cases hnb : newBuilder tfds c with
        | error e =>
          rw [hnb] at h
          simp only at h
          rcases h with h | ⟨h, j, a', h1, h2, h3, h4, h5, h6⟩
          · exact .inl h
          · refine .inr ⟨h, j + 1, a', by omega, by simpa using h2, h3, h4, h5, ?_⟩
            intro l a'' hl hal hn hd
            cases l with
            | zero =>
              simp only [List.getElem?_cons_zero, Option.some.injEq] at hal
              subst hal
              exact ⟨e, hnb⟩
            | succ l => exact h6 l a'' (by omega) (by simpa using hal) hn hd
        | ok b' =>
          rw [hnb] at h
          simp only [PyDict.get?_set] at h
          by_cases hk : (c.name, c.dataDir) = (a.name, a.dataDir)
          · rw [if_pos hk] at h
            simp only [Option.some.injEq, reduceCtorEq, false_and, or_false] at h
            subst h
            simp only [Prod.mk.injEq] at hk
            refine .inr ⟨by rw [← hk.1, ← hk.2]; exact hc, 0, c, by omega, rfl, hk.1, hk.2, hnb, by intro l a'' hl; omega⟩
          · rw [if_neg hk] at h
            rcases h with h | ⟨h, j, a', h1, h2, h3, h4, h5, h6⟩
            · exact .inl h
            · refine .inr ⟨h, j + 1, a', by omega, by simpa using h2, h3, h4, h5, ?_⟩
              intro l a'' hl hal hn hd
              cases l with
              | zero =>
                simp only [List.getElem?_cons_zero, Option.some.injEq] at hal
                subst hal
                exact absurd (by rw [hn, hd]) hk
              | succ l => exact h6 l a'' (by omega) (by simpa using hal) hn hd

/-- C96: a builder is the one made by the first call with the same name and directory that did not fail.  In particular all
later calls get the same builder, whatever their `manual_dir` and `try_gcs`. -/
theorem C96_builder_cache (tfds : Tfds B) (calls : List BuilderArgs) (i : Nat) (a : BuilderArgs) (b : B)
    (ha : calls[i]? = some a) (hb : (getTfdsBuilders tfds [] calls)[i]? = some (.ok b)) :
    ∃ (j : Nat) (a' : BuilderArgs), j ≤ i ∧ calls[j]? = some a' ∧ a'.name = a.name ∧ a'.dataDir = a.dataDir ∧
      newBuilder tfds a' = .ok b ∧
      ∀ (l : Nat) (a'' : BuilderArgs), l < j → calls[l]? = some a'' → a''.name = a.name → a''.dataDir = a.dataDir →
        ∃ e, newBuilder tfds a'' = .error e := by
  rcases getTfdsBuilders_aux tfds [] calls i a b ha hb with h | ⟨_, h⟩
  · simp [PyDict.get?] at h
  · exact h

/-- C96: so the raw data directory of a second builder is ignored, without an error. -/
theorem C96_builder_cache_counterexample :
    ∃ (tfds : Tfds Key) (a a' : BuilderArgs) (b b' : Key), getTfdsBuilders tfds [] [a, a'] = [.ok b, .ok b] ∧
      newBuilder tfds a = .ok b ∧ newBuilder tfds a' = .ok b' ∧ b ≠ b' := by
  refine ⟨⟨fun _ => .error .valueError, fun n _ _ => .ok n, fun b m => .ok (b ++ m.getD [])⟩,
    ⟨"d".toList, none, some "x".toList, false⟩, ⟨"d".toList, none, some "y".toList, false⟩, "dx".toList, "dy".toList, ?_, ?_, ?_, ?_⟩
  all_goals decide +kernel

theorem get?_restrict (p : Key → Bool) (d : PyDict Key V) (k : Key) :
    PyDict.get? (restrict p d) k = if p k then PyDict.get? d k else none := by
  unfold restrict
  induction d with
  | nil => simp [PyDict.get?]
  | cons kv d ih =>
    obtain ⟨k', v⟩ := kv
    rw [List.filter_cons]
    by_cases hp : p k'
    · simp only [hp, if_true, PyDict.get?, ih]
      by_cases hk : k' = k
      · subst hk
        simp [hp]
      · simp [hk]
    · have hp' : p k' = false := by simpa using hp
      simp only [hp', Bool.false_eq_true, if_false, PyDict.get?, ih]
      by_cases hk : k' = k
      · subst hk
        simp [hp']
      · simp [hk]

theorem mem_keys_restrict (p : Key → Bool) (d : PyDict Key V) (k : Key) :
    k ∈ PyDict.keys (restrict p d) ↔ p k ∧ k ∈ PyDict.keys d := by
  rw [← not_iff_not, ← PyDict.get?_eq_none, get?_restrict]
  by_cases hp : p k
  · simp [hp, PyDict.get?_eq_none]
  · simp [hp]

theorem get?_append (a b : PyDict Key V) (k : Key) :
    PyDict.get? (a ++ b) k = (PyDict.get? a k).or (PyDict.get? b k) := by
  induction a with
  | nil => simp [PyDict.get?]
  | cons kv a ih =>
    obtain ⟨k', v⟩ := kv
    simp only [List.cons_append, PyDict.get?, ih]
    split <;> simp

theorem get?_head_name (a b c d : V) (rest : Option V) :
    (PyDict.get? [("name".toList, a), ("split".toList, b), ("shuffle_files".toList, c), ("shuffle_seed".toList, d)]
      "name".toList).or rest = some a := by
  rw [PyDict.get?, if_pos rfl]
  rfl

theorem get?_head_split (a b c d : V) (rest : Option V) :
    (PyDict.get? [("name".toList, a), ("split".toList, b), ("shuffle_files".toList, c), ("shuffle_seed".toList, d)]
      "split".toList).or rest = some b := by
  rw [PyDict.get?, if_neg (by decide), PyDict.get?, if_pos rfl]
  rfl

theorem get?_head_other (a b c d : V) (k : Key)
    (hk : k ∉ ["name".toList, "split".toList, "shuffle_files".toList, "shuffle_seed".toList]) (rest : Option V) :
    (PyDict.get? [("name".toList, a), ("split".toList, b), ("shuffle_files".toList, c), ("shuffle_seed".toList, d)] k).or rest =
      rest := by
  simp only [List.mem_cons, List.not_mem_nil, or_false, not_or] at hk
  obtain ⟨h1, h2, h3, h4⟩ := hk
  rw [PyDict.get?, if_neg (Ne.symm h1), PyDict.get?, if_neg (Ne.symm h2), PyDict.get?, if_neg (Ne.symm h3), PyDict.get?,
    if_neg (Ne.symm h4)]
  rfl

/-- C96: the number of training examples, from which the number of steps is computed, is that of the dataset read: whenever the
dataset of a variant can be created from a configuration, `get_data_num_examples` of this configuration succeeds, with a
builder of the same name, split, directories and `try_gcs`. -/
theorem C96_num_examples (ofBool : Bool → V) (none_ : V) (variant : Key) (config b : PyDict Key V)
    (h : datasetBuilder ofBool none_ variant config = .ok b) :
    ∃ b', countedBuilder config = .ok b' ∧ ∀ k ∈ ["name".toList, "split".toList, "data_dir".toList, "manual_dir".toList,
      "try_gcs".toList, "ignore_errors".toList], PyDict.get? b k = PyDict.get? b' k ∧ PyDict.get? b k = PyDict.get? config k := by
  unfold datasetBuilder at h
  simp only at h
  split at h
  · cases h
  rename_i hv
  split at h
  · rename_i name split hn hsp
    split at h
    · cases h
    rename_i hreq
    split at h
    · cases h
    rename_i hsf
    unfold getDatasetBuilder at h
    split at h
    · cases h
    rename_i hun
    split at h
    · cases h
    cases h
    rw [get?_restrict] at hn hsp
    rw [if_pos (by decide)] at hn hsp
    have hkn : "name".toList ∈ PyDict.keys config := by
      by_contra hc
      rw [(PyDict.get?_eq_none _ _).2 hc] at hn
      cases hn
    have hks : "split".toList ∈ PyDict.keys config := by
      by_contra hc
      rw [(PyDict.get?_eq_none _ _).2 hc] at hsp
      cases hsp
    refine ⟨restrict (fun k => k ∉ pipelineKeys) config, ?_, ?_⟩
    · unfold countedBuilder getDatasetBuilder
      simp only
      rw [if_neg, if_neg, if_neg]
      · push Not
        exact ⟨(mem_keys_restrict _ _ _).2 ⟨by decide, hkn⟩, (mem_keys_restrict _ _ _).2 ⟨by decide, hks⟩⟩
      · simp only [List.any_eq_true, decide_eq_true_eq, not_exists, not_and, not_not] at hun ⊢
        intro k hk
        obtain ⟨hk1, hk2⟩ := (mem_keys_restrict _ _ _).1 hk
        by_cases hd : k ∈ datasetParams
        · -- a parameter of `get_dataset` that is not one of the pipeline is a field of the builder
          have hall : ∀ k ∈ datasetParams, k ∉ pipelineKeys → k ∈ builderFields := by decide
          exact hall k hd (of_decide_eq_true hk1)
        · apply hun k
          rw [PyDict.keys, List.map_append, List.mem_append]
          right
          have hpd : k ≠ "prefetch_device".toList := by
            rintro rfl
            exact absurd hk1 (by decide)
          exact (mem_keys_restrict _ _ _).2 ⟨decide_eq_true hd, (mem_keys_restrict _ _ _).2 ⟨decide_eq_true hpd, hk2⟩⟩
      · push Not
        exact (mem_keys_restrict _ _ _).2 ⟨by decide, hkn⟩
    · intro k hk
      simp only [List.mem_cons, List.not_mem_nil, or_false] at hk
      rw [get?_append, get?_restrict, get?_restrict, get?_restrict]
      rcases hk with rfl | rfl | rfl | rfl | rfl | rfl
      · rw [hn, get?_head_name, get?_restrict, if_pos (by decide)]; exact ⟨hn.symm, rfl⟩
      · rw [hsp, get?_head_split, get?_restrict, if_pos (by decide)]; exact ⟨hsp.symm, rfl⟩
      all_goals
        rw [get?_head_other _ _ _ _ _ (by decide), if_pos (by decide), if_pos (by decide), get?_restrict, if_pos (by decide)]
        exact ⟨rfl, rfl⟩
  · cases h

/-- C96: files are shuffled for training only, with the seed of the configuration; an option that is neither one of the pipeline
nor one of the dataset is an error, and so are `shuffle_files`, `variant` and a missing name, split, batch size or process. -/
theorem C96_options (ofBool : Bool → V) (none_ : V) (variant : Key) (config : PyDict Key V) :
    (∀ b, datasetBuilder ofBool none_ variant config = .ok b →
      PyDict.get? b "shuffle_files".toList = some (ofBool (variant = "train".toList)) ∧
      PyDict.get? b "shuffle_seed".toList = some ((PyDict.get? config "shuffle_seed".toList).getD none_)) ∧
    ((∃ b, datasetBuilder ofBool none_ variant config = .ok b) ↔
      (∀ k ∈ ["name".toList, "split".toList, "batch_size".toList, "process".toList], k ∈ PyDict.keys config) ∧
      ∀ k ∈ PyDict.keys config, k ∈ ["name".toList, "split".toList, "batch_size".toList, "process".toList, "cache".toList,
        "num_parallel_calls".toList, "pre_filter_fn".toList, "prefetch".toList, "shuffle_buffer".toList, "shuffle_seed".toList,
        "prefetch_device".toList, "data_dir".toList, "manual_dir".toList, "try_gcs".toList, "ignore_errors".toList]) ∧
    ∀ e, datasetBuilder ofBool none_ variant config = .error e → e = .typeError := by
  have hget : ∀ k, k ∈ PyDict.keys config → ∃ v, PyDict.get? config k = some v := by
    intro k hk
    cases hg : PyDict.get? config k with
    | some v => exact ⟨v, rfl⟩
    | none => exact absurd hk ((PyDict.get?_eq_none _ _).1 hg)
  refine ⟨?_, ⟨?_, ?_⟩, ?_⟩
  · intro b h
    unfold datasetBuilder at h
    simp only at h
    split at h
    · cases h
    split at h
    · split at h
      · cases h
      split at h
      · cases h
      unfold getDatasetBuilder at h
      split at h
      · cases h
      split at h
      · cases h
      cases h
      constructor
      · rw [get?_append, PyDict.get?, if_neg (by decide), PyDict.get?, if_neg (by decide), PyDict.get?, if_pos rfl]
        rfl
      · rw [get?_append, PyDict.get?, if_neg (by decide), PyDict.get?, if_neg (by decide), PyDict.get?, if_neg (by decide),
          PyDict.get?, if_pos rfl, get?_restrict, if_pos (by decide)]
        rfl
    · cases h
  · rintro ⟨b, h⟩
    unfold datasetBuilder at h
    simp only at h
    split at h
    · cases h
    rename_i hv
    split at h
    · rename_i hn hsp
      split at h
      · cases h
      rename_i hreq
      split at h
      · cases h
      rename_i hsf
      unfold getDatasetBuilder at h
      split at h
      · cases h
      rename_i hun
      simp only [List.any_eq_true, decide_eq_true_eq, not_exists, not_and, not_not] at hun hreq
      constructor
      · intro k hk
        exact ((mem_keys_restrict _ _ _).1 (hreq k hk)).2
      · intro k hk
        by_cases hpd : k = "prefetch_device".toList
        · subst hpd
          decide
        have hk1 := (mem_keys_restrict (fun k => decide (k ≠ "prefetch_device".toList)) config k).2 ⟨decide_eq_true hpd, hk⟩
        by_cases hd : k ∈ datasetParams
        · have hkv : k ≠ "variant".toList := by
            rintro rfl
            exact hv hk1
          have hall : ∀ k ∈ datasetParams, k ≠ "variant".toList → k ∈ ["name".toList, "split".toList, "batch_size".toList,
              "process".toList, "cache".toList, "num_parallel_calls".toList, "pre_filter_fn".toList, "prefetch".toList,
              "shuffle_buffer".toList, "shuffle_seed".toList, "prefetch_device".toList, "data_dir".toList,
              "manual_dir".toList, "try_gcs".toList, "ignore_errors".toList] := by decide
          exact hall k hd hkv
        · have hk2 := (mem_keys_restrict (fun k => decide (k ∉ datasetParams)) _ k).2 ⟨decide_eq_true hd, hk1⟩
          have hks : k ≠ "shuffle_files".toList := by
            rintro rfl
            exact hsf hk2
          have hkb := hun k (by
            rw [PyDict.keys, List.map_append, List.mem_append]
            exact .inr hk2)
          have hall : ∀ k ∈ builderFields, k ≠ "shuffle_files".toList → k ∈ ["name".toList, "split".toList,
              "batch_size".toList, "process".toList, "cache".toList, "num_parallel_calls".toList, "pre_filter_fn".toList,
              "prefetch".toList, "shuffle_buffer".toList, "shuffle_seed".toList, "prefetch_device".toList, "data_dir".toList,
              "manual_dir".toList, "try_gcs".toList, "ignore_errors".toList] := by decide
          exact hall k hkb hks
    · cases h
  · rintro ⟨h1, h2⟩
    obtain ⟨name, hn⟩ := hget _ (h1 "name".toList (by decide))
    obtain ⟨split, hsp⟩ := hget _ (h1 "split".toList (by decide))
    unfold datasetBuilder
    simp only
    rw [if_neg, get?_restrict, if_pos (by decide), get?_restrict, if_pos (by decide), hn, hsp]
    · simp only
      rw [if_neg, if_neg]
      · unfold getDatasetBuilder
        rw [if_neg, if_neg]
        · exact ⟨_, rfl⟩
        · push Not
          rw [PyDict.keys, List.map_append]
          constructor
          · exact List.mem_append_left _ (List.mem_cons_self ..)
          · exact List.mem_append_left _ (List.mem_cons_of_mem _ (List.mem_cons_self ..))
        · simp only [List.any_eq_true, decide_eq_true_eq, not_exists, not_and, not_not]
          intro k hk
          rw [PyDict.keys, List.map_append, List.mem_append] at hk
          rcases hk with hk | hk
          · have hall : ∀ k ∈ ["name".toList, "split".toList, "shuffle_files".toList, "shuffle_seed".toList],
              k ∈ builderFields := by decide
            exact hall k hk
          · obtain ⟨hk1, hk2⟩ := (mem_keys_restrict _ _ _).1 hk
            obtain ⟨hk3, hk4⟩ := (mem_keys_restrict _ _ _).1 hk2
            have hall : ∀ k ∈ ["name".toList, "split".toList, "batch_size".toList, "process".toList, "cache".toList,
                "num_parallel_calls".toList, "pre_filter_fn".toList, "prefetch".toList, "shuffle_buffer".toList,
                "shuffle_seed".toList, "prefetch_device".toList, "data_dir".toList, "manual_dir".toList, "try_gcs".toList,
                "ignore_errors".toList], k ∉ datasetParams → k ≠ "prefetch_device".toList → k ∈ builderFields := by decide
            exact hall k (h2 k hk4) (of_decide_eq_true hk1) (of_decide_eq_true hk3)
      · intro hk
        have := h2 _ ((mem_keys_restrict _ _ _).1 ((mem_keys_restrict _ _ _).1 hk).2).2
        exact absurd this (by decide)
      · simp only [List.any_eq_true, decide_eq_true_eq, not_exists, not_and, not_not]
        intro k hk
        refine (mem_keys_restrict _ _ _).2 ⟨decide_eq_true ?_, h1 k hk⟩
        rintro rfl
        exact absurd hk (by decide)
    · intro hk
      exact absurd (h2 _ ((mem_keys_restrict _ _ _).1 hk).2) (by decide)
  · intro e h
    unfold datasetBuilder at h
    simp only at h
    split at h
    · cases h; rfl
    split at h
    · split at h
      · cases h; rfl
      split at h
      · cases h; rfl
      unfold getDatasetBuilder at h
      split at h
      · cases h; rfl
      split at h
      · cases h; rfl
      cases h
    · cases h; rfl

/-- A training configuration with a data directory and a shuffle buffer. -/
example : ∃ b, datasetBuilder (fun b => if b then 1 else 0) (7 : Nat) "train".toList
    [("name".toList, 0), ("split".toList, 1), ("batch_size".toList, 2), ("process".toList, 3), ("data_dir".toList, 4),
      ("shuffle_buffer".toList, 5), ("prefetch_device".toList, 6)] = .ok b ∧ PyDict.get? b "data_dir".toList = some 4 ∧
    PyDict.get? b "shuffle_files".toList = some 1 ∧ PyDict.get? b "shuffle_seed".toList = some 7 ∧
    PyDict.get? b "shuffle_buffer".toList = none :=
  ⟨_, rfl, by decide, by decide, by decide, by decide⟩

end Verif.DataShare
