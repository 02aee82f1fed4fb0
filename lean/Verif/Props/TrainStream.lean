import Verif.Model.TrainStream
import Verif.Props.DataShare
import Mathlib.Data.List.Perm.Basic

/-! C97: the batches of the training (vmoe/data/input_pipeline.py). -/

namespace Verif.TrainStream

open Verif DataPipeline DataShare

variable {α β : Type}

theorem length_bufferState (size : Nat) (hs : 0 < size) (pick : Nat → Nat) (x : Nat → α) (n : Nat) :
    (bufferState size pick x n).length = size - 1 := by
  induction n with
  | zero => simp [bufferState]
  | succ n ih =>
    have h := Nat.mod_lt (pick n) hs
    rw [bufferState, List.length_eraseIdx, List.length_append, ih, List.length_singleton, if_pos (by omega)]
    omega

theorem buffered_perm (size : Nat) (hs : 0 < size) (pick : Nat → Nat) (x : Nat → α) (n : Nat) :
    ((List.range n).map (buffered size pick x) ++ bufferState size pick x n).Perm ((List.range (n + (size - 1))).map x) := by
  induction n with
  | zero => simp [bufferState]
  | succ n ih =>
    have hl := length_bufferState size hs pick x n
    have hm := Nat.mod_lt (pick n) hs
    have hi : pick n % size < (bufferState size pick x n ++ [x (n + (size - 1))]).length := by
      rw [List.length_append, hl, List.length_singleton]
      omega
    rw [List.range_succ, List.map_append, List.append_assoc, show n + 1 + (size - 1) = n + (size - 1) + 1 by omega,
      List.range_succ (n := n + (size - 1)), List.map_append]
    have h1 : (List.map (buffered size pick x) [n] ++ bufferState size pick x (n + 1)).Perm
        (bufferState size pick x n ++ [x (n + (size - 1))]) := by
      rw [bufferState, List.map_singleton, List.singleton_append, buffered, List.getD_eq_getElem?_getD, List.getElem?_eq_getElem hi,
        Option.getD_some]
      exact List.getElem_cons_eraseIdx_perm hi
    refine (h1.append_left _).trans ?_
    rw [← List.append_assoc]
    exact ih.append_right _

theorem buffered_one (pick : Nat → Nat) (x : Nat → α) : buffered 1 pick x = x := by
  funext n
  have h := length_bufferState 1 (by omega) pick x n
  have h2 : bufferState 1 pick x n = [] := List.length_eq_zero_iff.1 h
  simp [buffered, h2, Nat.mod_one]

theorem repeated_block (epoch : Nat → List α) (num e : Nat) (he : (epoch e).length = num) :
    (List.range num).map (fun i => repeated num epoch (e * num + i)) = (epoch e).map .ok := by
  apply List.ext_getElem
  · simp [he]
  intro i h1 h2
  simp only [List.length_map, List.length_range] at h1
  rw [List.getElem_map, List.getElem_map, List.getElem_range, repeated]
  have hd : (e * num + i) / num = e := by
    rw [Nat.mul_comm, Nat.mul_add_div (by omega), Nat.div_eq_of_lt h1, Nat.add_zero]
  have hm : (e * num + i) % num = i := by
    rw [Nat.mul_comm, Nat.mul_add_mod, Nat.mod_eq_of_lt h1]
  rw [hd, hm, List.getElem?_eq_getElem (by omega)]

theorem repeated_ok (epoch : Nat → List α) (num n : Nat) (hn : 0 < num) (he : ∀ e, (epoch e).length = num) :
    ∃ d ∈ epoch (n / num), repeated num epoch n = .ok d := by
  have h : n % num < (epoch (n / num)).length := by
    rw [he]
    exact Nat.mod_lt n hn
  exact ⟨_, List.getElem_mem h, by rw [repeated, List.getElem?_eq_getElem h]⟩

theorem countP_epochs (f : Nat → β) (p : β → Bool) (num c : Nat)
    (hc : ∀ e, ((List.range num).map fun i => f (e * num + i)).countP p = c) (q : Nat) :
    ((List.range (q * num)).map f).countP p = q * c := by
  induction q with
  | zero => simp
  | succ q ih =>
    rw [Nat.succ_mul, List.range_add, List.map_append, List.countP_append, ih, List.map_map, Nat.succ_mul]
    congr 1
    exact hc q

theorem countP_range_mono (f : Nat → β) (p : β → Bool) {a b : Nat} (h : a ≤ b) :
    ((List.range a).map f).countP p ≤ ((List.range b).map f).countP p := by
  obtain ⟨c, rfl⟩ := Nat.exists_eq_add_of_le h
  rw [List.range_add, List.map_append, List.countP_append]
  omega

theorem le_ceil_mul (m num : Nat) (h : 0 < num) : m ≤ (m + (num - 1)) / num * num := by
  have h1 := (ceilDiv_spec m num h).1
  rw [ceilDiv] at h1
  rw [← Nat.add_sub_assoc h]
  exact h1

theorem flatMap_blocks (f : Nat → β) (b n : Nat) :
    ((List.range n).flatMap fun k => (List.range b).map fun i => f (k * b + i)) = (List.range (n * b)).map f := by
  induction n with
  | zero => simp
  | succ n ih =>
    rw [List.range_succ, List.flatMap_append, ih, List.flatMap_singleton, Nat.succ_mul, List.range_add, List.map_append,
      List.map_map]
    rfl

theorem mapM_ok_range (f : Nat → Except PyErr β) (g : Nat → β) (l : List Nat) (h : ∀ i, f i = .ok (g i)) :
    l.mapM f = .ok (l.map g) := by
  induction l with
  | nil => rfl
  | cons a l ih =>
    rw [List.mapM_cons, h a, ih]
    rfl

/-- Spec: the examples of this process that the training uses. -/
def kept (src : Source) (preFilter : Option (Data → Bool)) : List Data :=
  src.examples.filter fun d => preFilter.elim true (fun p => p d)

theorem epochs_perm (src : Source) (preFilter : Option (Data → Bool)) (cacheLoaded : Bool) (ch : Choices)
    (ho : ∀ e l, (ch.order e l).Perm l) (e : Nat) : (epochs src preFilter cacheLoaded ch e).Perm (kept src preFilter) := by
  unfold epochs filterData kept
  cases preFilter with
  | none => simpa using ho _ _
  | some p => exact (ho _ _).filter p

theorem elements_perm (src : Source) (preFilter : Option (Data → Bool)) (cacheLoaded : Bool) (process : Data → Except PyErr Data)
    (S P : Nat) (hS : 0 < S) (hP : 0 < P) (ch : Choices) (m : Nat) :
    ∃ rest : List (Except PyErr Data), rest.length = S + P - 2 ∧
      ((List.range m).map (elements src preFilter cacheLoaded process S P ch) ++ rest).Perm
        ((List.range (m + (S + P - 2))).map fun n => do
          process (← repeated (epochs src preFilter cacheLoaded ch 0).length (epochs src preFilter cacheLoaded ch) n)) := by
  set x := repeated (epochs src preFilter cacheLoaded ch 0).length (epochs src preFilter cacheLoaded ch) with hx
  let F : Except PyErr Data → Except PyErr Data := fun r => r >>= process
  have h2 := buffered_perm P hP ch.finish (fun n => F (buffered S ch.shuffle x n)) m
  have h1 := (buffered_perm S hS ch.shuffle x (m + (P - 1))).map F
  refine ⟨bufferState P ch.finish (fun n => F (buffered S ch.shuffle x n)) m ++ (bufferState S ch.shuffle x (m + (P - 1))).map F,
    ?_, ?_⟩
  · rw [List.length_append, List.length_map, length_bufferState P hP, length_bufferState S hS]
    omega
  · rw [← List.append_assoc]
    refine (h2.append_right _).trans ?_
    rw [List.map_append, List.map_map, List.map_map] at h1
    rw [show m + (S + P - 2) = m + (P - 1) + (S - 1) by omega]
    exact h1

/-- Counts the elements without error that satisfy a predicate. -/
def okAnd (p : Data → Bool) : Except PyErr Data → Bool
  | .ok d => p d
  | .error _ => false

/-- C97: if the process has an example, its training data never ends: every batch has exactly the batch size of the process and
consists of processed examples of this process that pass the filter.  All examples are used equally often, up to the two
buffers: in the first `n` batches, an example that occurs `c` times among those of the process was used at least
`c` times per complete pass, except for those still in a buffer, and at most `c` times per pass begun. -/
theorem C97_training (src : Source) (batchSize b : Nat) (preFilter : Option (Data → Bool)) (cacheLoaded : Bool)
    (process : Data → Except PyErr Data) (g : Data → Data) (S P : Nat) (ch : Choices)
    (hbs : batchSizePerProcess batchSize src.processCount src.deviceCount = .ok b) (hb : 0 < b) (hS : 0 < S) (hP : 0 < P)
    (ho : ∀ e l, (ch.order e l).Perm l) (hne : kept src preFilter ≠ [])
    (hg : ∀ d ∈ kept src preFilter, process d = .ok (g d)) :
    ∃ (next : Nat → Except PyErr (List Data)) (B : Nat → List Data),
      getTrainDataset src batchSize preFilter cacheLoaded process S P ch = .ok next ∧
      (∀ k, next k = .ok (B k) ∧ (B k).length = b ∧ ∀ y ∈ B k, ∃ d ∈ kept src preFilter, y = g d) ∧
      ∀ (n : Nat) (p : Data → Bool),
        (n * b + (S + P - 2)) / (kept src preFilter).length * ((kept src preFilter).map g).countP p ≤
          ((List.range n).flatMap B).countP p + (S + P - 2) ∧
        ((List.range n).flatMap B).countP p ≤
          ((n * b + (S + P - 2) + ((kept src preFilter).length - 1)) / (kept src preFilter).length) *
            ((kept src preFilter).map g).countP p := by
  set K := kept src preFilter with hK
  set z := elements src preFilter cacheLoaded process S P ch with hz
  set ep := epochs src preFilter cacheLoaded ch with hep
  have hperm : ∀ e, (ep e).Perm K := epochs_perm src preFilter cacheLoaded ch ho
  have hlen : ∀ e, (ep e).length = K.length := fun e => (hperm e).length_eq
  have hN : 0 < K.length := List.length_pos_iff.2 hne
  set f : Nat → Except PyErr Data := fun n => do process (← repeated (ep 0).length ep n) with hf
  have hfok : ∀ n, ∃ d ∈ K, f n = .ok (g d) := by
    intro n
    obtain ⟨d, hd, hr⟩ := repeated_ok ep (ep 0).length n (by rw [hlen]; exact hN) (fun e => by rw [hlen, hlen])
    refine ⟨d, (hperm _).subset hd, ?_⟩
    simp only [hf, hr]
    exact hg d ((hperm _).subset hd)
  have hel := elements_perm src preFilter cacheLoaded process S P hS hP ch
  have hzok : ∀ n, ∃ d ∈ K, z n = .ok (g d) := by
    intro n
    obtain ⟨rest, _, hp⟩ := hel (n + 1)
    have hmem : z n ∈ (List.range (n + 1)).map z ++ rest :=
      List.mem_append_left _ (List.mem_map_of_mem (List.mem_range.2 (by omega)))
    obtain ⟨j, _, hj⟩ := List.mem_map.1 (hp.subset hmem)
    obtain ⟨d, hd, he⟩ := hfok j
    exact ⟨d, hd, by rw [← hj]; exact he⟩
  choose v hv1 hv2 using hzok
  refine ⟨fun k => (List.range b).mapM fun i => z (k * b + i), fun k => (List.range b).map fun i => g (v (k * b + i)), ?_, ?_, ?_⟩
  · unfold getTrainDataset
    rw [hbs]
    change (if S = 0 ∨ P = 0 ∨ b = 0 then _ else _ : Except PyErr _) = _
    rw [if_neg (by omega)]
    rfl
  · intro k
    refine ⟨mapM_ok_range _ _ _ fun i => hv2 (k * b + i), by simp, ?_⟩
    intro y hy
    obtain ⟨i, _, rfl⟩ := List.mem_map.1 hy
    exact ⟨_, hv1 _, rfl⟩
  · intro n p
    rw [flatMap_blocks (fun i => g (v i)) b n]
    obtain ⟨rest, hr, hp⟩ := hel (n * b)
    have hcount := hp.countP_eq (okAnd p)
    rw [List.countP_append] at hcount
    have hE : ((List.range (n * b)).map z).countP (okAnd p) = ((List.range (n * b)).map fun i => g (v i)).countP p := by
      rw [List.countP_map, List.countP_map]
      congr 1
      funext i
      simp [hv2, okAnd]
    change ((List.range (n * b)).map z).countP (okAnd p) + _ = ((List.range (n * b + (S + P - 2))).map f).countP (okAnd p) at hcount
    rw [hE] at hcount
    have hblock : ∀ e, ((List.range K.length).map fun i => f (e * K.length + i)).countP (okAnd p) = (K.map g).countP p := by
      intro e
      have h1 := repeated_block ep (ep 0).length e (by rw [hlen, hlen])
      have h2 : ((List.range K.length).map fun i => f (e * K.length + i)) = (ep e).map fun d => process d := by
        rw [← hlen 0]
        have := congrArg (List.map fun r => (r >>= process : Except PyErr Data)) h1
        rw [List.map_map, List.map_map] at this
        exact this
      rw [h2, ((hperm e).map _).countP_eq, List.countP_map, List.countP_map]
      apply List.countP_congr
      intro d hd
      simp [hg d hd, okAnd]
    have hq := countP_epochs f (okAnd p) K.length _ hblock
    have hrest : rest.countP (okAnd p) ≤ S + P - 2 := by
      rw [← hr]
      exact List.countP_le_length
    generalize S + P - 2 = w at *
    have hlow := countP_range_mono f (okAnd p) (Nat.div_mul_le_self (n * b + w) K.length)
    have hup := countP_range_mono f (okAnd p) (le_ceil_mul (n * b + w) K.length hN)
    rw [hq] at hlow hup
    constructor
    · calc _ ≤ _ := hlow
        _ = _ := hcount.symm
        _ ≤ _ := Nat.add_le_add_left hrest _
    · calc _ ≤ _ := Nat.le_add_right _ _
        _ = _ := hcount
        _ ≤ _ := hup

/-- C97: a process without an example that passes the filter gets no batch at all.  This happens to the last process when there
are fewer examples than processes, while the first one goes on forever. -/
theorem C97_empty (src : Source) (batchSize b : Nat) (preFilter : Option (Data → Bool)) (cacheLoaded : Bool)
    (process : Data → Except PyErr Data) (S P : Nat) (ch : Choices)
    (hbs : batchSizePerProcess batchSize src.processCount src.deviceCount = .ok b) (hb : 0 < b) (hS : 0 < S) (hP : 0 < P)
    (ho : ∀ e l, (ch.order e l).Perm l) (hne : kept src preFilter = []) :
    ∃ next, getTrainDataset src batchSize preFilter cacheLoaded process S P ch = .ok next ∧
      ∀ k, next k = .error .stopIteration := by
  have hperm : ∀ e, (epochs src preFilter cacheLoaded ch e).Perm [] := by
    intro e
    rw [← hne]
    exact epochs_perm src preFilter cacheLoaded ch ho e
  have hz : ∀ n, elements src preFilter cacheLoaded process S P ch n = .error .stopIteration := by
    intro n
    obtain ⟨rest, _, hp⟩ := elements_perm src preFilter cacheLoaded process S P hS hP ch (n + 1)
    have hmem : elements src preFilter cacheLoaded process S P ch n ∈
        (List.range (n + 1)).map (elements src preFilter cacheLoaded process S P ch) ++ rest :=
      List.mem_append_left _ (List.mem_map_of_mem (List.mem_range.2 (by omega)))
    obtain ⟨j, _, hj⟩ := List.mem_map.1 (hp.subset hmem)
    rw [← hj, repeated, (hperm _).eq_nil]
    rfl
  refine ⟨fun k => (List.range b).mapM fun i => elements src preFilter cacheLoaded process S P ch (k * b + i), ?_, ?_⟩
  · unfold getTrainDataset
    rw [hbs]
    change (if S = 0 ∨ P = 0 ∨ b = 0 then _ else _ : Except PyErr _) = _
    rw [if_neg (by omega)]
    rfl
  · intro k
    obtain ⟨b', rfl⟩ : ∃ b', b = b' + 1 := ⟨b - 1, by omega⟩
    change (List.range (b' + 1)).mapM _ = _
    rw [List.range_succ_eq_map, List.mapM_cons, hz]
    rfl

/-- C97: with fewer examples than processes, the last process has none. -/
theorem C97_few_examples (split : List Data) (pc dc : Nat) (h : split.length < pc) :
    kept (sourceOf split pc dc (pc - 1)) none = [] ∧ (split ≠ [] → kept (sourceOf split pc dc 0) none ≠ []) := by
  have hk : ∀ i, kept (sourceOf split pc dc i) none = asDataset split pc i := by
    intro i
    simp [kept, sourceOf]
  rw [hk, hk]
  constructor
  · apply List.length_eq_zero_iff.1
    rw [length_asDataset split pc _ (by omega), Nat.div_eq_of_lt h, Nat.mod_eq_of_lt h, if_neg (by omega)]
  · intro hne
    apply List.length_pos_iff.1
    rw [length_asDataset split pc 0 (by omega), Nat.div_eq_of_lt h, Nat.mod_eq_of_lt h, if_pos (List.length_pos_iff.2 hne)]
    omega

/-- C97: an error of a batch is an error of the processing of one of the examples of the process. -/
theorem C97_errors (src : Source) (batchSize : Nat) (preFilter : Option (Data → Bool)) (cacheLoaded : Bool)
    (process : Data → Except PyErr Data) (S P : Nat) (ch : Choices) (ho : ∀ e l, (ch.order e l).Perm l)
    (hne : kept src preFilter ≠ []) (next : Nat → Except PyErr (List Data))
    (h : getTrainDataset src batchSize preFilter cacheLoaded process S P ch = .ok next) (k : Nat) (e : PyErr)
    (he : next k = .error e) : ∃ d ∈ kept src preFilter, process d = .error e := by
  unfold getTrainDataset at h
  cases hbs : batchSizePerProcess batchSize src.processCount src.deviceCount with
  | error e' => rw [hbs] at h; cases h
  | ok b =>
    rw [hbs] at h
    change (if S = 0 ∨ P = 0 ∨ b = 0 then _ else _ : Except PyErr _) = _ at h
    split at h
    · cases h
    rename_i hpos
    cases h
    have hmap : ∀ (l : List Nat) (f : Nat → Except PyErr Data), l.mapM f = .error e → ∃ i ∈ l, f i = .error e := by
      intro l f
      induction l with
      | nil => intro h; cases h
      | cons a l ih =>
        intro h
        rw [List.mapM_cons] at h
        cases ha : f a with
        | error e' =>
          rw [ha] at h
          cases h
          exact ⟨a, by simp, ha⟩
        | ok y =>
          rw [ha] at h
          cases hl : l.mapM f with
          | error e' =>
            rw [hl] at h
            cases h
            obtain ⟨i, hi, hfi⟩ := ih hl
            exact ⟨i, by simp [hi], hfi⟩
          | ok ys => rw [hl] at h; cases h
    obtain ⟨i, _, hi⟩ := hmap _ _ he
    obtain ⟨rest, _, hp⟩ := elements_perm src preFilter cacheLoaded process S P (by omega) (by omega) ch (k * b + i + 1)
    have hmem : elements src preFilter cacheLoaded process S P ch (k * b + i) ∈
        (List.range (k * b + i + 1)).map (elements src preFilter cacheLoaded process S P ch) ++ rest :=
      List.mem_append_left _ (List.mem_map_of_mem (List.mem_range.2 (by omega)))
    obtain ⟨j, _, hj⟩ := List.mem_map.1 (hp.subset hmem)
    have hperm := epochs_perm src preFilter cacheLoaded ch ho
    obtain ⟨d, hd, hr⟩ := repeated_ok (epochs src preFilter cacheLoaded ch) (epochs src preFilter cacheLoaded ch 0).length j
      (by rw [(hperm 0).length_eq]; exact List.length_pos_iff.2 hne) (fun e => by rw [(hperm e).length_eq, (hperm 0).length_eq])
    refine ⟨d, (hperm _).subset hd, ?_⟩
    rw [hr] at hj
    exact hj.trans hi

/-- C97: a batch size that is not a multiple of the numbers of processes and devices is refused, and so are empty buffers and
batches. -/
theorem C97_refused (src : Source) (batchSize : Nat) (preFilter : Option (Data → Bool)) (cacheLoaded : Bool)
    (process : Data → Except PyErr Data) (S P : Nat) (ch : Choices) :
    (∃ next, getTrainDataset src batchSize preFilter cacheLoaded process S P ch = .ok next) ↔
      src.processCount ∣ batchSize ∧ src.deviceCount ∣ batchSize ∧ 0 < batchSize ∧ 0 < S ∧ 0 < P := by
  unfold getTrainDataset batchSizePerProcess
  rw [Nat.dvd_iff_mod_eq_zero, Nat.dvd_iff_mod_eq_zero]
  by_cases h : batchSize % src.processCount ≠ 0 ∨ batchSize % src.deviceCount ≠ 0
  · rw [if_pos h]
    constructor
    · rintro ⟨_, h'⟩
      cases h'
    · rintro ⟨h1, h2, _⟩
      omega
  · rw [if_neg h]
    push Not at h
    change (∃ next, (if S = 0 ∨ P = 0 ∨ batchSize / src.processCount = 0 then _ else _ : Except PyErr _) = _) ↔ _
    have hd := Nat.div_add_mod batchSize src.processCount
    rw [h.1, Nat.add_zero] at hd
    have hz : batchSize / src.processCount = 0 ↔ batchSize = 0 := by
      constructor
      · intro h0
        rw [h0] at hd
        omega
      · intro h0
        rw [h0, Nat.zero_div]
    split
    · rename_i h0
      rw [hz] at h0
      constructor
      · rintro ⟨_, h'⟩
        cases h'
      · rintro ⟨_, _, h3, h4, h5⟩
        omega
    · rename_i h0
      rw [hz] at h0
      refine ⟨fun _ => ⟨h.1, h.2, by omega, by omega, by omega⟩, fun _ => ⟨_, rfl⟩⟩

/-- C97: without shuffling and parallel calls (buffers of one) and with `cache='loaded'`, the data is repeated in the same order
for ever, whatever the files do later. -/
theorem C97_cached (src : Source) (preFilter : Option (Data → Bool)) (process : Data → Except PyErr Data) (ch : Choices)
    (ho : ∀ e l, (ch.order e l).Perm l) (n : Nat) :
    elements src preFilter true process 1 1 ch (n + (kept src preFilter).length) = elements src preFilter true process 1 1 ch n := by
  have hlen : (epochs src preFilter true ch 0).length = (kept src preFilter).length :=
    (epochs_perm src preFilter true ch ho 0).length_eq
  have hep : ∀ e, epochs src preFilter true ch e = epochs src preFilter true ch 0 := fun e => rfl
  simp only [elements, buffered_one]
  congr 1
  rw [repeated, repeated, hep ((n + _) / _), hep (n / _), hlen, Nat.add_mod_right]

/-- The hypotheses of `C97_training` hold for two examples, a shuffle buffer of three and two parallel calls. -/
example : kept ⟨0, 1, 1, [2], [[], [("x", Tensor.bool true)]]⟩ none ≠ [] ∧ batchSizePerProcess 4 1 1 = .ok 4 :=
  ⟨by simp [kept], rfl⟩

/-- A buffer of two that gives the newer element first. -/
example : (List.range 4).map (buffered 2 (fun _ => 1) id) = [1, 2, 3, 4] ∧
    (List.range 4).map (buffered 2 (fun n => (n + 1) % 2) id) = [1, 0, 3, 2] := by decide +kernel

end Verif.TrainStream
