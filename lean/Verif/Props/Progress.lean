import Verif.Proofs.Progress
import Mathlib.Tactic.NormNum

/-!
C123: what a progress report writes.
-/

namespace Verif.Progress

open Verif FlatDict

/-- The scalars of the metrics. -/
theorem scalars_ok (metrics : PyDict Key (Tree Leaf)) (hd : AreDicts metrics) (hn : NamesDiffer metrics)
    (hb : ∀ p, leafAt p (.node metrics) ≠ some .bad) :
    ∃ d, scalars metrics = .ok d ∧
      ∀ name x, PyDict.get? d name = some x ↔ ∃ p, leafAt p (.node metrics) = some (.num x) ∧ name = join p := by
  obtain ⟨items, h1, h2⟩ := mapM_scalars (flattenDict metrics) fun p h => hb p ((mem_flattenDict metrics hd p _).mp h)
  simp only [mem_flattenDict metrics hd] at h2
  refine ⟨PyDict.ofItems items, by rw [scalars, h1]; rfl, fun name x => ?_⟩
  rw [PyDict.ofItems, get?_foldl_set, h2]
  · simp [PyDict.get?]
  · intro k v w hv hw
    obtain ⟨p, hp, rfl⟩ := (h2 k v).mp hv
    obtain ⟨q, hq, he⟩ := (h2 _ w).mp hw
    have := hn p q _ _ hp hq he
    subst this
    rw [hp] at hq
    simpa using hq

theorem get?_addMemory (memory : Option ℚ) (d : PyDict Key ℚ) (name : Key) (x : ℚ) :
    PyDict.get? (addMemory memory d) name = some x ↔
      name = "host_memory_mb".toList ∧ memory = some x ∨
        ¬ (memory ≠ none ∧ name = "host_memory_mb".toList) ∧ PyDict.get? d name = some x := by
  cases memory with
  | none => simp [addMemory]
  | some y =>
    rw [addMemory, PyDict.get?_set]
    by_cases h : name = "host_memory_mb".toList
    · simp [h]
    · rw [if_neg (Ne.symm h)]
      simp only [h, false_and, and_false, not_false_eq_true, true_and, false_or]

theorem get?_addTimes (parts : PyDict Key ℚ) (hp : (PyDict.keys parts).Nodup) (d : PyDict Key ℚ) (name : Key) (x : ℚ) :
    PyDict.get? (addTimes parts d) name = some x ↔
      (∃ k, (k, x) ∈ parts ∧ name = "uptime_".toList ++ k) ∨
        (¬ ∃ k ∈ PyDict.keys parts, name = "uptime_".toList ++ k) ∧ PyDict.get? d name = some x := by
  have h := get?_foldl_set (parts.map fun p => ("uptime_".toList ++ p.1, p.2)) d ?_ name x
  · rw [List.foldl_map] at h
    rw [addTimes, h]
    apply or_congr
    · simp only [List.mem_map, Prod.mk.injEq, Prod.exists]
      constructor
      · rintro ⟨k, y, hm, rfl, rfl⟩
        exact ⟨k, hm, rfl⟩
      · rintro ⟨k, hm, rfl⟩
        exact ⟨k, x, hm, rfl, rfl⟩
    · apply and_congr_left'
      simp only [PyDict.keys, List.map_map, List.mem_map, not_iff_not, Function.comp]
      constructor
      · rintro ⟨e, he, rfl⟩
        exact ⟨e.1, ⟨e, he, rfl⟩, rfl⟩
      · rintro ⟨k, ⟨e, he, rfl⟩, rfl⟩
        exact ⟨e, he, rfl⟩
  · intro k v w hv hw
    obtain ⟨a, ha, he⟩ := List.mem_map.mp hv
    obtain ⟨b, hb, he'⟩ := List.mem_map.mp hw
    simp only [Prod.mk.injEq] at he he'
    have hk : a.1 = b.1 := List.append_cancel_left (he.1.trans he'.1.symm)
    have h1 := (PyDict.get?_eq_some parts hp a.1 a.2).mpr ha
    have h2 := (PyDict.get?_eq_some parts hp b.1 b.2).mpr hb
    rw [hk, h2] at h1
    rw [← he.2, ← he'.2]
    exact (Option.some.inj h1).symm

/-- C123: if no two metrics have the same joined name and all are numbers, then a report writes exactly: the time of every part of
the training, the memory of the host, and every metric, however deep it is nested, under its joined name, unless the report itself uses
this name. -/
theorem C123_report (memory : Option ℚ) (parts : PyDict Key ℚ) (metrics : PyDict Key (Tree Leaf))
    (hp : (PyDict.keys parts).Nodup) (hd : AreDicts metrics) (hn : NamesDiffer metrics)
    (hb : ∀ p, leafAt p (.node metrics) ≠ some .bad) :
    ∃ d, applyExtra true memory parts (some metrics) = .ok (some d) ∧
      ∀ name x, PyDict.get? d name = some x ↔
        (∃ k, (k, x) ∈ parts ∧ name = "uptime_".toList ++ k) ∨
        (name = "host_memory_mb".toList ∧ memory = some x) ∨
        (¬ Reserved memory parts name ∧ ∃ p, leafAt p (.node metrics) = some (.num x) ∧ name = join p) := by
  obtain ⟨d, h1, h2⟩ := scalars_ok metrics hd hn hb
  refine ⟨addTimes parts (addMemory memory d), ?_, fun name x => ?_⟩
  · rw [applyExtra, if_pos rfl, Option.getD_some, h1]
    rfl
  · rw [get?_addTimes parts hp, get?_addMemory, h2, Reserved, not_or]
    have hh : name = "host_memory_mb".toList → ¬ ∃ k ∈ PyDict.keys parts, name = "uptime_".toList ++ k := by
      rintro rfl ⟨k, _, h⟩
      have := congrArg List.head? h
      revert this
      simp
    generalize (∃ k ∈ PyDict.keys parts, name = "uptime_".toList ++ k) = A at *
    generalize (∃ p, leafAt p (.node metrics) = some (.num x) ∧ name = join p) = B at *
    generalize (∃ k, (k, x) ∈ parts ∧ name = "uptime_".toList ++ k) = C at *
    generalize (name = "host_memory_mb".toList) = D at *
    by_cases A <;> by_cases D <;> tauto

/-- C123: a report without metrics writes the times and the memory. -/
theorem C123_report_none (memory : Option ℚ) (parts : PyDict Key ℚ) :
    applyExtra true memory parts none = applyExtra true memory parts (some []) ∧
      ∀ p, leafAt p (.node ([] : PyDict Key (Tree Leaf))) = none := by
  refine ⟨rfl, fun p => ?_⟩
  cases p <;> rfl

/-- C123: a report raises exactly if there is a writer and some metric is not a number, and then it raises a TypeError and writes nothing;
without a writer nothing is written. -/
theorem C123_errors (writer : Bool) (memory : Option ℚ) (parts : PyDict Key ℚ) (metrics : PyDict Key (Tree Leaf))
    (hd : AreDicts metrics) (e : PyErr) :
    (applyExtra writer memory parts (some metrics) = .error e ↔
      writer = true ∧ e = .typeError ∧ ∃ p, leafAt p (.node metrics) = some .bad) ∧
    (applyExtra writer memory parts (some metrics) = .ok none ↔ writer = false) := by
  cases writer with
  | false => simp [applyExtra]
  | true =>
    simp only [applyExtra, if_true, Option.getD_some, true_and]
    by_cases hb : ∃ p, leafAt p (.node metrics) = some .bad
    · obtain ⟨p, hp⟩ := hb
      have h := mapM_bad _ p ((mem_flattenDict metrics hd p _).mpr hp)
      rw [scalars, h]
      have : ∃ p, leafAt p (.node metrics) = some .bad := ⟨p, hp⟩
      simp only [Except.map, Except.error.injEq, this, and_true, reduceCtorEq, Bool.true_eq_false]
      exact eq_comm
    · obtain ⟨items, h, _⟩ := mapM_scalars (flattenDict metrics) fun p h => hb ⟨p, (mem_flattenDict metrics hd p _).mp h⟩
      rw [scalars, h]
      simp [Except.map, hb]

theorem areDicts_iff {V : Type} (l : List (Key × Tree V)) :
    AreDicts l ↔ (PyDict.keys l).Nodup ∧ ∀ kt ∈ l, IsDict kt.2 := by
  induction l with
  | nil => simp [AreDicts, PyDict.keys]
  | cons e l ih =>
    obtain ⟨k, t⟩ := e
    rw [AreDicts, ih]
    simp only [PyDict.keys, List.map_cons, List.nodup_cons, List.mem_cons, forall_eq_or_imp]
    tauto

theorem join_train (k : Key) (p : List Key) : join (("train/".toList ++ k) :: p) = "train/".toList ++ join (k :: p) := by
  cases p with
  | nil => rfl
  | cons k' p => simp only [join, List.append_assoc]

theorem trainCost_keys (flops seconds : Option ℚ) (devices step : Nat) :
    (PyDict.keys (Hooks.trainCost flops seconds devices step)).Nodup ∧
      ∀ k ∈ PyDict.keys (Hooks.trainCost flops seconds devices step), k = "flops".toList ∨ k = "device_seconds".toList := by
  rw [Hooks.trainCost]
  cases Hooks.positive flops <;> cases Hooks.positive seconds <;> simp [PyDict.keys]

theorem trainMetrics_eq (flops seconds : Option ℚ) (devices step : Nat) (metrics : PyDict Key (Tree Leaf)) (hd : AreDicts metrics) :
    trainMetrics (Hooks.trainCost flops seconds devices step) metrics =
        ((Hooks.trainCost flops seconds devices step).map fun p => (p.1, .leaf (.num p.2))) ++
          (metrics.map fun p => ("train/".toList ++ p.1, p.2)) ∧
      (PyDict.keys (trainMetrics (Hooks.trainCost flops seconds devices step) metrics)).Nodup := by
  obtain ⟨hk, hc⟩ := trainCost_keys flops seconds devices step
  generalize Hooks.trainCost flops seconds devices step = cost at *
  have hm := ((areDicts_iff metrics).mp hd).1
  have e1 : PyDict.keys (metrics.map fun p => ("train/".toList ++ p.1, p.2)) =
      (PyDict.keys metrics).map ("train/".toList ++ ·) := by
    simp [PyDict.keys, List.map_map, Function.comp_def]
  have n1 : (PyDict.keys (metrics.map fun p => ("train/".toList ++ p.1, p.2))).Nodup := by
    rw [e1]
    exact hm.map fun a b h => List.append_cancel_left h
  have n2 : (PyDict.keys ((cost.map fun p => (p.1, (.leaf (.num p.2) : Tree Leaf))) ++
      (metrics.map fun p => ("train/".toList ++ p.1, p.2)))).Nodup := by
    rw [PyDict.keys, List.map_append, List.nodup_append]
    refine ⟨?_, n1, ?_⟩
    · rw [List.map_map]; exact hk
    · rintro a ha b hb rfl
      rw [List.map_map] at ha
      change a ∈ PyDict.keys (metrics.map _) at hb
      rw [e1, List.mem_map] at hb
      obtain ⟨k, _, rfl⟩ := hb
      rcases hc _ ha with h | h
      · have := congrArg List.head? h
        revert this
        simp
      · have := congrArg List.head? h
        revert this
        simp
  have e2 : trainMetrics cost metrics = (cost.map fun p => (p.1, (.leaf (.num p.2) : Tree Leaf))) ++
      (metrics.map fun p => ("train/".toList ++ p.1, p.2)) := by
    rw [trainMetrics, trainItems, PyDict.ofItems_of_nodup _ n1, PyDict.foldl_set_of_nodup _ _ n2]
  exact ⟨e2, e2 ▸ n2⟩

theorem leafAt_train (flops seconds : Option ℚ) (devices step : Nat) (metrics : PyDict Key (Tree Leaf)) (hd : AreDicts metrics)
    (q : List Key) (v : Leaf) :
    leafAt q (.node (trainMetrics (Hooks.trainCost flops seconds devices step) metrics)) = some v ↔
      (∃ k p, q = ("train/".toList ++ k) :: p ∧ leafAt (k :: p) (.node metrics) = some v) ∨
        ∃ k x, q = [k] ∧ (k, x) ∈ Hooks.trainCost flops seconds devices step ∧ v = .num x := by
  obtain ⟨he, hk⟩ := trainMetrics_eq flops seconds devices step metrics hd
  have hm := ((areDicts_iff metrics).mp hd).1
  cases q with
  | nil => simp [leafAt]
  | cons k q =>
    rw [leafAt, Option.bind_eq_some_iff]
    simp only [PyDict.get?_eq_some _ hk]
    simp only [he, List.mem_append, List.mem_map, Prod.mk.injEq, Prod.exists, List.cons.injEq]
    constructor
    · rintro ⟨t, (⟨k', x, hx, rfl, rfl⟩ | ⟨k', t', ht, rfl, rfl⟩), hl⟩
      · cases q with
        | nil => exact .inr ⟨_, x, ⟨rfl, rfl⟩, hx, by simpa [leafAt, eq_comm] using hl⟩
        | cons a q => simp [leafAt] at hl
      · refine .inl ⟨k', q, ⟨rfl, rfl⟩, ?_⟩
        rw [leafAt, (PyDict.get?_eq_some _ hm _ _).mpr ht]
        exact hl
    · rintro (⟨k', p, ⟨rfl, rfl⟩, hl⟩ | ⟨k', x, ⟨rfl, rfl⟩, hx, rfl⟩)
      · rw [leafAt, Option.bind_eq_some_iff] at hl
        obtain ⟨t, ht, hl⟩ := hl
        exact ⟨t, .inr ⟨k', t, (PyDict.get?_eq_some _ hm _ _).mp ht, rfl, rfl⟩, hl⟩
      · exact ⟨_, .inl ⟨_, x, hx, rfl, rfl⟩, rfl⟩

/-- C123: the report of a training step writes exactly: every metric under `train/` and its joined name, the costs, the memory and the
times.  No name of one kind hides another. -/
theorem C123_train (flops seconds : Option ℚ) (devices step : Nat) (memory : Option ℚ) (parts : PyDict Key ℚ)
    (metrics : PyDict Key (Tree Leaf)) (hp : (PyDict.keys parts).Nodup) (hd : AreDicts metrics) (hn : NamesDiffer metrics)
    (hb : ∀ p, leafAt p (.node metrics) ≠ some .bad) :
    ∃ d, applyExtra true memory parts (some (trainMetrics (Hooks.trainCost flops seconds devices step) metrics)) = .ok (some d) ∧
      ∀ name x, PyDict.get? d name = some x ↔
        (∃ p, leafAt p (.node metrics) = some (.num x) ∧ name = "train/".toList ++ join p) ∨
        ((∃ f, flops = some f ∧ 0 < f ∧ name = "flops".toList ∧ x = f * step * devices) ∨
          (∃ s, seconds = some s ∧ 0 < s ∧ name = "device_seconds".toList ∧ x = s * step * devices)) ∨
        (name = "host_memory_mb".toList ∧ memory = some x) ∨
        (∃ k, (k, x) ∈ parts ∧ name = "uptime_".toList ++ k) := by
  obtain ⟨he, hk⟩ := trainMetrics_eq flops seconds devices step metrics hd
  have hl := leafAt_train flops seconds devices step metrics hd
  have hc := (trainCost_keys flops seconds devices step).2
  have hnd := (trainCost_keys flops seconds devices step).1
  have hcost : ∀ name x, (name, x) ∈ Hooks.trainCost flops seconds devices step ↔
      ((∃ f, flops = some f ∧ 0 < f ∧ name = "flops".toList ∧ x = f * step * devices) ∨
          (∃ s, seconds = some s ∧ 0 < s ∧ name = "device_seconds".toList ∧ x = s * step * devices)) := by
    intro name x
    simp only [Hooks.trainCost, Hooks.positive, List.mem_append, Option.mem_toList, Option.map_eq_some_iff,
      Option.filter_eq_some_iff, decide_eq_true_eq, not_le, Prod.mk.injEq]
    constructor
    · rintro (⟨a, ⟨h1, h2⟩, h3, h4⟩ | ⟨a, ⟨h1, h2⟩, h3, h4⟩)
      · exact .inl ⟨a, h1, h2, h3.symm, h4.symm⟩
      · exact .inr ⟨a, h1, h2, h3.symm, h4.symm⟩
    · rintro (⟨a, h1, h2, h3, h4⟩ | ⟨a, h1, h2, h3, h4⟩)
      · exact .inl ⟨a, ⟨h1, h2⟩, h3.symm, h4.symm⟩
      · exact .inr ⟨a, ⟨h1, h2⟩, h3.symm, h4.symm⟩
  have htrain : ∀ s : Key, ¬ Reserved memory parts ("train/".toList ++ s) := by
    rintro s (⟨_, h⟩ | ⟨k, _, h⟩)
    · have := congrArg List.head? h
      revert this
      simp
    · have := congrArg List.head? h
      revert this
      simp
  have hres : ∀ k, k = "flops".toList ∨ k = "device_seconds".toList → ¬ Reserved memory parts k := by
    rintro k (rfl | rfl) (⟨_, h⟩ | ⟨k, _, h⟩)
    all_goals
      have := congrArg List.head? h
      revert this
      simp
  have hne : ∀ k s, k = "flops".toList ∨ k = "device_seconds".toList → k ≠ "train/".toList ++ s := by
    rintro k s (rfl | rfl) h
    all_goals
      have := congrArg List.head? h
      revert this
      simp
  generalize Hooks.trainCost flops seconds devices step = cost at *
  have hcm : ∀ k x, (k, x) ∈ cost → k = "flops".toList ∨ k = "device_seconds".toList := fun k x h =>
    hc k (List.mem_map.mpr ⟨(k, x), h, rfl⟩)
  have hA : AreDicts (trainMetrics cost metrics) := by
    rw [areDicts_iff]
    refine ⟨hk, fun kt h => ?_⟩
    rw [he, List.mem_append, List.mem_map, List.mem_map] at h
    rcases h with ⟨a, _, rfl⟩ | ⟨a, ha, rfl⟩
    · trivial
    · exact ((areDicts_iff metrics).mp hd).2 a ha
  have hB : NamesDiffer (trainMetrics cost metrics) := by
    intro p q v w hv hw hj
    rcases (hl p v).mp hv with ⟨k, p, rfl, h⟩ | ⟨k, y, rfl, h, hy⟩ <;>
      rcases (hl q w).mp hw with ⟨k', q, rfl, h'⟩ | ⟨k', y', rfl, h', hy'⟩
    · rw [join_train, join_train] at hj
      have := hn _ _ _ _ h h' (List.append_cancel_left hj)
      simp only [List.cons.injEq] at this
      rw [this.1, this.2]
    · rw [join_train] at hj
      exact absurd hj.symm (hne _ _ (hcm _ _ h'))
    · rw [join_train] at hj
      exact absurd hj (hne _ _ (hcm _ _ h))
    · exact congrArg (fun k => [k]) hj
  have hC : ∀ p, leafAt p (.node (trainMetrics cost metrics)) ≠ some .bad := by
    intro p h
    rcases (hl p _).mp h with ⟨k, p, rfl, h'⟩ | ⟨k, y, rfl, _, hy⟩
    · exact hb _ h'
    · cases hy
  obtain ⟨d, h1, h2⟩ := C123_report memory parts (trainMetrics cost metrics) hp hA hB hC
  refine ⟨d, h1, fun name x => ?_⟩
  rw [h2, ← hcost]
  constructor
  · rintro (h | h | ⟨hr, q, hq, rfl⟩)
    · exact .inr (.inr (.inr h))
    · exact .inr (.inr (.inl h))
    · rcases (hl q _).mp hq with ⟨k, p, rfl, h⟩ | ⟨k, y, rfl, h, hy⟩
      · exact .inl ⟨k :: p, h, join_train k p⟩
      · cases hy
        exact .inr (.inl h)
  · rintro (⟨p, h, rfl⟩ | h | h | h)
    · refine .inr (.inr ⟨htrain _, ?_⟩)
      cases p with
      | nil => simp [leafAt] at h
      | cons k p => exact ⟨("train/".toList ++ k) :: p, (hl _ _).mpr (.inl ⟨k, p, rfl, h⟩), (join_train k p).symm⟩
    · exact .inr (.inr ⟨hres _ (hcm _ _ h), [name], (hl _ _).mpr (.inr ⟨name, x, rfl, h, rfl⟩), rfl⟩)
    · exact .inr (.inl h)
    · exact .inl h

/-- C123: the conditions are needed: of two metrics with the same joined name only one is written, and a metric named like the memory is
not written. -/
theorem C123_names_counterexample :
    applyExtra true none [] (some [("a".toList, .node [("b".toList, .leaf (.num 1))]), ("a/b".toList, .leaf (.num 2))]) =
      .ok (some [("a/b".toList, 2)]) ∧
    applyExtra true (some 7) [] (some [("host_memory_mb".toList, .leaf (.num 1))]) =
      .ok (some [("host_memory_mb".toList, 7)]) := by
  constructor <;> rfl

section Example

/-- Metrics of a training step with an auxiliary loss. -/
def exampleMetrics : PyDict Key (Tree Leaf) :=
  [("loss".toList, .leaf (.num 3)), ("auxiliary".toList, .node [("router".toList, .leaf (.num (1 / 2)))])]

theorem exampleLeaf (p : List Key) (v : Leaf) (h : leafAt p (.node exampleMetrics) = some v) :
    p = ["loss".toList] ∧ v = .num 3 ∨ p = ["auxiliary".toList, "router".toList] ∧ v = .num (1 / 2) := by
  rw [← mem_flattenDict exampleMetrics (by simp [exampleMetrics, AreDicts, IsDict, PyDict.keys])] at h
  have : flattenDict exampleMetrics =
      [(["loss".toList], .num 3), (["auxiliary".toList, "router".toList], .num (1 / 2))] := rfl
  rw [this] at h
  simpa using h

example : ∃ d, applyExtra true (some 100) [("eval".toList, 5)]
      (some (trainMetrics (Hooks.trainCost (some 10) none 4 2) exampleMetrics)) = .ok (some d) ∧
    PyDict.get? d "train/auxiliary/router".toList = some (1 / 2) ∧ PyDict.get? d "flops".toList = some 80 ∧
    PyDict.get? d "uptime_eval".toList = some 5 := by
  obtain ⟨d, h1, h2⟩ := C123_train (some 10) none 4 2 (some 100) [("eval".toList, 5)] exampleMetrics (by simp [PyDict.keys])
    (by simp [exampleMetrics, AreDicts, IsDict, PyDict.keys])
    (by
      intro p q v w hv hw
      rcases exampleLeaf p v hv with ⟨rfl, _⟩ | ⟨rfl, _⟩ <;> rcases exampleLeaf q w hw with ⟨rfl, _⟩ | ⟨rfl, _⟩ <;> simp [join])
    (by
      intro p h
      rcases exampleLeaf p _ h with ⟨_, h⟩ | ⟨_, h⟩ <;> cases h)
  refine ⟨d, h1, ?_, ?_, ?_⟩
  · exact (h2 _ _).mpr (.inl ⟨["auxiliary".toList, "router".toList], rfl, rfl⟩)
  · exact (h2 _ _).mpr (.inr (.inl (.inl ⟨10, rfl, by norm_num, rfl, by norm_num⟩)))
  · exact (h2 _ _).mpr (.inr (.inr (.inr ⟨"eval".toList, by simp, rfl⟩)))

example : applyExtra true none [] (some [("loss".toList, .leaf .bad)]) = .error .typeError :=
  (C123_errors true none [] _ (by simp [AreDicts, IsDict, PyDict.keys]) _).1.mpr ⟨rfl, rfl, ["loss".toList], rfl⟩

end Example

end Verif.Progress
