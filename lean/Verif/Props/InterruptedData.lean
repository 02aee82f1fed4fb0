import Verif.Props.TrainLoop
import Verif.Props.TrainStream

/-!
C157: the training data that a training which was interrupted and started again has used.  The iterator begins anew in every
process, because `get_dataset_iterator` drops the index of the last batch (vmoe/train/trainer.py:322-328).  So the guarantees on
the data of one iterator (C97) hold for each process that contributed to a state, not for the training as a whole.
-/

namespace Verif.InterruptedData

open Verif Verif.DataPipeline Verif.TrainStream Verif.TrainLoop

/-- Spec: the batches a process can be given: the beginning of an iterator over the training data, for any shuffling, long
enough for the whole training. -/
def Stream (src : Source) (batchSize : Nat) (preFilter : Option (Data → Bool)) (cacheLoaded : Bool)
    (process : Data → Except PyErr Data) (S P T : Nat) (bs : List (List Data)) : Prop :=
  ∃ (ch : Choices) (next : Nat → Except PyErr (List Data)), (∀ e l, (ch.order e l).Perm l) ∧
    getTrainDataset src batchSize preFilter cacheLoaded process S P ch = .ok next ∧
    T ≤ bs.length ∧ ∀ k (hk : k < bs.length), next k = .ok bs[k]

/-- The first batches of an iterator, counted as in C97. -/
theorem prefix_bounds (src : Source) (batchSize b : Nat) (preFilter : Option (Data → Bool)) (cacheLoaded : Bool)
    (process : Data → Except PyErr Data) (g : Data → Data) (S P T : Nat)
    (hbs : batchSizePerProcess batchSize src.processCount src.deviceCount = .ok b) (hb : 0 < b) (hS : 0 < S) (hP : 0 < P)
    (hne : kept src preFilter ≠ []) (hg : ∀ d ∈ kept src preFilter, process d = .ok (g d))
    (bs r : List (List Data)) (h : Stream src batchSize preFilter cacheLoaded process S P T bs) (hr : r <+: bs)
    (p : Data → Bool) :
    (∀ y ∈ r, y.length = b ∧ ∀ x ∈ y, ∃ d ∈ kept src preFilter, x = g d) ∧
    (r.length * b + (S + P - 2)) / (kept src preFilter).length * ((kept src preFilter).map g).countP p ≤
        r.flatten.countP p + (S + P - 2) ∧
      r.flatten.countP p ≤ ((r.length * b + (S + P - 2) + ((kept src preFilter).length - 1)) / (kept src preFilter).length) *
        ((kept src preFilter).map g).countP p := by
  obtain ⟨ch, next, ho, hn, -, hbatch⟩ := h
  obtain ⟨next', B, hn', hB, hcount⟩ := C97_training src batchSize b preFilter cacheLoaded process g S P ch hbs hb hS hP ho hne hg
  obtain rfl : next = next' := by
    rw [hn] at hn'
    exact Except.ok.inj hn'
  have hr' : r = (List.range r.length).map B := by
    apply List.ext_getElem (by simp)
    intro k h1 h2
    have h3 : k < bs.length := lt_of_lt_of_le h1 hr.length_le
    have h4 := hbatch k h3
    rw [(hB k).1] at h4
    simp only [List.getElem_map, List.getElem_range]
    rw [Except.ok.inj h4]
    exact List.IsPrefix.getElem hr h1
  have hflat : r.flatten = (List.range r.length).flatMap B := by
    conv_lhs => rw [hr']
    rw [List.flatMap_def]
  refine ⟨?_, ?_⟩
  · intro y hy
    rw [hr'] at hy
    obtain ⟨k, -, rfl⟩ := List.mem_map.1 hy
    exact (hB k).2
  · rw [hflat]
    exact hcount r.length p

/-- C157: whatever happens to the processes of a training, the state of a checkpoint results from whole batches of examples of
the training data, and it is the work of some processes, each of which used an iterator from its beginning.  An
example that occurs `c` times among those of the host was used at most `c` times for every pass begun by one of these
processes and, except for those in a buffer when a process ended, at least `c` times for every pass that one of them completed. -/
theorem C157_usage {Q : Type} (src : Source) (batchSize b : Nat) (preFilter : Option (Data → Bool)) (cacheLoaded : Bool)
    (process : Data → Except PyErr Data) (g : Data → Data) (S P : Nat)
    (hbs : batchSizePerProcess batchSize src.processCount src.deviceCount = .ok b) (hb : 0 < b) (hS : 0 < S) (hP : 0 < P)
    (hne : kept src preFilter ≠ []) (hg : ∀ d ∈ kept src preFilter, process d = .ok (g d))
    (cfg : Config Q (List Data)) (hinit : cfg.init.step ≤ cfg.trainSteps) (s : Sys Q (List Data))
    (h : Reachable cfg (Stream src batchSize preFilter cacheLoaded process S P cfg.trainSteps) s)
    (k : Nat) (st : TS Q) (hk : (k, st) ∈ s.disk) :
    ∃ runs : List (List (List Data)),
      st.params = runs.flatten.foldl cfg.update cfg.init.params ∧
      cfg.init.step + runs.flatten.length = k ∧
      (∀ r ∈ runs, ∀ y ∈ r, y.length = b ∧ ∀ x ∈ y, ∃ d ∈ kept src preFilter, x = g d) ∧
      ∀ p : Data → Bool,
        (runs.map fun r => (r.length * b + (S + P - 2)) / (kept src preFilter).length).sum *
            ((kept src preFilter).map g).countP p ≤ runs.flatten.flatten.countP p + runs.length * (S + P - 2) ∧
        runs.flatten.flatten.countP p ≤
          (runs.map fun r => (r.length * b + (S + P - 2) + ((kept src preFilter).length - 1)) /
              (kept src preFilter).length).sum * ((kept src preFilter).map g).countP p := by
  obtain ⟨-, -, runs, hruns, hp, hl⟩ := C51_labels cfg _ hinit (fun bs hbs => by
    obtain ⟨_, _, _, _, hlen, _⟩ := hbs
    exact hlen) s h k st hk
  refine ⟨runs, hp, hl, ?_, ?_⟩
  · intro r hr
    obtain ⟨bs, hs, hpre⟩ := hruns r hr
    exact (prefix_bounds src batchSize b preFilter cacheLoaded process g S P _ hbs hb hS hP hne hg bs r hs hpre fun _ => true).1
  · intro p
    clear hp hl
    induction runs with
    | nil => simp
    | cons r rest ih =>
      obtain ⟨bs, hs, hpre⟩ := hruns r (by simp)
      obtain ⟨-, h1, h2⟩ :=
        prefix_bounds src batchSize b preFilter cacheLoaded process g S P _ hbs hb hS hP hne hg bs r hs hpre p
      obtain ⟨h3, h4⟩ := ih fun r hr => hruns r (by simp [hr])
      simp only [List.map_cons, List.sum_cons, List.flatten_cons, List.flatten_append, List.countP_append, List.length_cons,
        Nat.add_mul, Nat.one_mul]
      constructor <;> omega

/-- C157: so a training made of many short processes uses an example at most as often as it has processes, if none of them
gets through the data. -/
theorem C157_short_processes {Q : Type} (src : Source) (batchSize b : Nat) (preFilter : Option (Data → Bool))
    (cacheLoaded : Bool) (process : Data → Except PyErr Data) (g : Data → Data) (S P : Nat)
    (hbs : batchSizePerProcess batchSize src.processCount src.deviceCount = .ok b) (hb : 0 < b) (hS : 0 < S) (hP : 0 < P)
    (hne : kept src preFilter ≠ []) (hg : ∀ d ∈ kept src preFilter, process d = .ok (g d))
    (cfg : Config Q (List Data)) (hinit : cfg.init.step ≤ cfg.trainSteps) (s : Sys Q (List Data))
    (h : Reachable cfg (Stream src batchSize preFilter cacheLoaded process S P cfg.trainSteps) s)
    (k : Nat) (st : TS Q) (hk : (k, st) ∈ s.disk) :
    ∃ runs : List (List (List Data)),
      st.params = runs.flatten.foldl cfg.update cfg.init.params ∧ cfg.init.step + runs.flatten.length = k ∧
      ((∀ r ∈ runs, r.length * b + (S + P - 2) ≤ (kept src preFilter).length) →
        ∀ p : Data → Bool,
          runs.flatten.flatten.countP p ≤ runs.length * ((kept src preFilter).map g).countP p) := by
  obtain ⟨runs, h1, h2, -, h4⟩ := C157_usage src batchSize b preFilter cacheLoaded process g S P hbs hb hS hP hne hg cfg hinit
    s h k st hk
  refine ⟨runs, h1, h2, fun hshort p => (h4 p).2.trans ?_⟩
  apply Nat.mul_le_mul_right
  have hN : 0 < (kept src preFilter).length := List.length_pos_iff.2 hne
  clear h1 h2 h4
  induction runs with
  | nil => simp
  | cons r rest ih =>
    have h5 := ih fun r hr => hshort r (by simp [hr])
    have h6 : (r.length * b + (S + P - 2) + ((kept src preFilter).length - 1)) / (kept src preFilter).length ≤ 1 := by
      have := hshort r (by simp)
      rw [← Nat.lt_succ_iff, Nat.div_lt_iff_lt_mul hN]
      omega
    simp only [List.map_cons, List.sum_cons, List.length_cons]
    omega

/-- Four different examples. -/
def fourExamples : List Data :=
  [[("a", Tensor.bool true)], [("b", Tensor.bool true)], [("c", Tensor.bool true)], [("d", Tensor.bool true)]]

/-- One host with these examples. -/
def fourSource : Source := ⟨0, 1, 1, [4], fourExamples⟩

/-- Four steps, a checkpoint after every second one, where the state is the list of the examples used. -/
def fourConfig : Config (List Data) (List Data) := ⟨4, 2, ⟨0, []⟩, fun p b => p ++ b⟩

/-- Without shuffling, an iterator gives the examples one by one. -/
theorem four_stream : Stream fourSource 1 none false (fun d => .ok d) 1 1 4 (fourExamples.map fun d => [d]) := by
  refine ⟨⟨fun _ l => l, fun _ => 0, fun _ => 0⟩, _, fun _ l => List.Perm.refl l, rfl, by simp [fourExamples], ?_⟩
  intro k hk
  have hk' : k < 4 := by simpa [fourExamples] using hk
  match k, hk' with
  | 0, _ => rfl
  | 1, _ => rfl
  | 2, _ => rfl
  | 3, _ => rfl

/-- C157: a training of as many steps as one pass needs, killed after half of them and started again, completes, but its final
state has used half of the examples twice and has never seen the other half. -/
theorem C157_never_seen_counterexample :
    ∃ (s : Sys (List Data) (List Data)) (r : Run (List Data) (List Data)) (a b c d : Data),
      Reachable fourConfig (Stream fourSource 1 none false (fun d => .ok d) 1 1 4) s ∧ s.run = some r ∧ r.phase = .done ∧
      fourSource.examples = [a, b, c, d] ∧ fourSource.examples.Nodup ∧ r.state.step = 4 ∧ r.state.params = [a, b, a, b] ∧
      (4, r.state) ∈ s.disk := by
  obtain ⟨a, b, c, d, hf⟩ : ∃ a b c d, fourExamples = [a, b, c, d] := ⟨_, _, _, _, rfl⟩
  have hst := four_stream
  rw [hf] at hst
  refine ⟨⟨[(0, ⟨0, []⟩), (2, ⟨2, [a, b]⟩), (4, ⟨4, [a, b, a, b]⟩)], some ⟨⟨4, [a, b, a, b]⟩, 5, [[c], [d]], none, .done⟩⟩,
    _, a, b, c, d, ?_, rfl, rfl, hf, ?_, rfl, rfl, by simp⟩
  · refine Relation.ReflTransGen.head (Step.start (bs := [[a], [b], [c], [d]]) hst) ?_
    refine Relation.ReflTransGen.head (Step.saveFirst rfl (by simp [PyDict.keys])) ?_
    refine Relation.ReflTransGen.head (Step.train (by decide)) ?_
    refine Relation.ReflTransGen.head (Step.skipSave (by simp [shouldSave, fourConfig, restore, latestStep, PyDict.keys])) ?_
    refine Relation.ReflTransGen.head Step.commit ?_
    refine Relation.ReflTransGen.head (Step.train (by decide)) ?_
    refine Relation.ReflTransGen.head (Step.save (by
      simp [shouldSave, fourConfig, restore, latestStep, PyDict.keys, PyDict.set])) ?_
    refine Relation.ReflTransGen.head Step.commit ?_
    refine Relation.ReflTransGen.head Step.stop ?_
    refine Relation.ReflTransGen.head (Step.start (bs := [[a], [b], [c], [d]]) hst) ?_
    refine Relation.ReflTransGen.head (Step.skipFirst (by
      simp [restore, latestStep, PyDict.keys, PyDict.set, PyDict.get?, fourConfig])) ?_
    refine Relation.ReflTransGen.head (Step.train (by change 3 ≤ 4; decide)) ?_
    refine Relation.ReflTransGen.head (Step.skipSave (by
      simp [shouldSave, fourConfig, restore, latestStep, PyDict.keys, PyDict.set, PyDict.get?])) ?_
    refine Relation.ReflTransGen.head (Step.train (by change 4 ≤ 4; decide)) ?_
    refine Relation.ReflTransGen.head (Step.save (by
      simp [shouldSave, fourConfig, restore, latestStep, PyDict.keys, PyDict.set, PyDict.get?])) ?_
    refine Relation.ReflTransGen.head Step.commit ?_
    refine Relation.ReflTransGen.head (Step.endLoop (Or.inl (by change 4 < 5; decide))) ?_
    exact Relation.ReflTransGen.single (Step.finalExists (by change 4 ∈ [0, 2, 4]; decide))
  · simp [fourSource, fourExamples]

/-- The hypotheses of `C157_usage` hold for these examples; each of the two processes of the training of the counterexample ends
before it gets through the data, so no example is used more than twice. -/
example : kept fourSource none ≠ [] ∧ (kept fourSource none).length = 4 ∧ batchSizePerProcess 1 1 1 = .ok 1 ∧
    (∀ r ∈ [[fourExamples.take 1, (fourExamples.take 2).drop 1], [fourExamples.take 1, (fourExamples.take 2).drop 1]],
      r.length * 1 + (1 + 1 - 2) ≤ (kept fourSource none).length) := by
  refine ⟨by simp [kept, fourSource, fourExamples], by simp [kept, fourSource, fourExamples], rfl, ?_⟩
  simp [kept, fourSource, fourExamples]

end Verif.InterruptedData
