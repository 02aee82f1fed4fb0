import Verif.Model.StepSummaries
import Verif.Props.TrainStep
import Verif.Props.Summarizer

/-!
C169: what the summaries of a train step are about (vmoe/train/trainer.py:676-682, vmoe/projects/contrastive/trainer.py:254-261).
-/

namespace Verif.StepSummaries

open Verif TrainStep Summarizer TreeSpec
open Verif.FlatDict (ItemsOk flattenItems flattenAt flatten join Flat)

variable {P O I L Y G R : Type}

/-- The leaves of a flattened dict. -/
def leaves {V : Type} (l : List (FlatDict.Key × Flat V)) : List (FlatDict.Key × V) :=
  l.filterMap fun kv =>
    match kv.2 with
    | .leaf v => some (kv.1, v)
    | .empty => none

theorem leaves_append {V : Type} (l l' : List (FlatDict.Key × Flat V)) : leaves (l ++ l') = leaves l ++ leaves l' := by
  simp [leaves]

theorem flatLeaves_eq {V : Type} (l : List (FlatDict.Key × FlatDict.Tree V)) :
    flatLeaves l = (leaves (flatten l)).map fun kv => (kv.1, .leaf kv.2) := by
  unfold flatLeaves leaves
  rw [List.map_filterMap]
  congr 1
  funext kv
  obtain ⟨k, v⟩ := kv
  cases v <;> rfl

theorem flattenItems_append {V : Type} (pre : List FlatDict.Key) (l l' : List (FlatDict.Key × FlatDict.Tree V)) :
    flattenItems pre (l ++ l') = flattenItems pre l ++ flattenItems pre l' := by
  induction l with
  | nil => rfl
  | cons kt l ih =>
    obtain ⟨k, t⟩ := kt
    rw [List.cons_append, flattenItems, flattenItems, ih, List.append_assoc]

theorem flattenItems_leaves {V : Type} (pre : List FlatDict.Key) (l : List (FlatDict.Key × V)) :
    flattenItems pre (l.map fun kv => (kv.1, FlatDict.Tree.leaf kv.2)) = l.map fun kv => (pre ++ [kv.1], Flat.leaf kv.2) := by
  induction l with
  | nil => rfl
  | cons kt l ih =>
    rw [List.map_cons, flattenItems, ih, flattenAt]
    rfl

theorem itemsOk_append {V : Type} {l l' : List (FlatDict.Key × FlatDict.Tree V)} (h : ItemsOk (l ++ l')) : ItemsOk l ∧ ItemsOk l' ∧
    ∀ k ∈ PyDict.keys l, k ∉ PyDict.keys l' := by
  induction l with
  | nil => exact ⟨trivial, h, fun k hk => by cases hk⟩
  | cons kt l ih =>
    obtain ⟨k, t⟩ := kt
    rw [List.cons_append, ItemsOk] at h
    obtain ⟨h1, h2, h3, h4⟩ := h
    obtain ⟨h5, h6, h7⟩ := ih h4
    simp only [PyDict.keys, List.map_append, List.mem_append, not_or] at h2
    refine ⟨?_, h6, fun k' hk' => ?_⟩
    · rw [ItemsOk]
      exact ⟨h1, h2.1, h3, h5⟩
    · simp only [PyDict.keys, List.map_cons, List.mem_cons] at hk'
      rcases hk' with rfl | hk'
      · exact h2.2
      · exact h7 k' hk'

theorem join_cons (k : FlatDict.Key) (p : List FlatDict.Key) (hp : p ≠ []) : join (k :: p) = join [k, join p] := by
  cases p with
  | nil => exact absurd rfl hp
  | cons a p => rfl

theorem leaves_map {V : Type} (f : FlatDict.Key → FlatDict.Key) (l : List (FlatDict.Key × Flat V)) :
    leaves (l.map fun kv => (f kv.1, kv.2)) = (leaves l).map fun kv => (f kv.1, kv.2) := by
  unfold leaves
  rw [List.map_filterMap, List.filterMap_map]
  congr 1
  funext kv
  obtain ⟨k, v⟩ := kv
  cases v <;> rfl

/-- The keys of the leaves are some of the keys. -/
theorem keys_leaves {V : Type} (l : List (FlatDict.Key × Flat V)) : ((leaves l).map Prod.fst).Sublist (l.map Prod.fst) := by
  induction l with
  | nil => exact .slnil
  | cons kv l ih =>
    obtain ⟨k, v⟩ := kv
    cases v with
    | leaf v => exact ih.cons_cons k
    | empty => exact ih.cons k

theorem ofItems_nodup {κ ν : Type} [DecidableEq κ] (items : List (κ × ν)) : (PyDict.keys (PyDict.ofItems items)).Nodup := by
  unfold PyDict.ofItems
  have : ∀ (l : List (κ × ν)) (d : PyDict κ ν), (PyDict.keys d).Nodup →
      (PyDict.keys (l.foldl (fun d kv => PyDict.set d kv.1 kv.2) d)).Nodup := by
    intro l
    induction l with
    | nil => exact fun d h => h
    | cons kv l ih => exact fun d h => ih _ (PyDict.nodup_keys_set d _ _ h)
  exact this items [] List.nodup_nil

/-- Flattening the flattened parts gives the same leaves as flattening all at once. -/
theorem leaves_twice {V : Type} (A B : List (FlatDict.Key × FlatDict.Tree V)) (k : FlatDict.Key) (h : ItemsOk (A ++ [(k, .node B)])) :
    leaves (flatten (PyDict.set (flatLeaves A) k (.node (flatLeaves B)))) = leaves (flatten (A ++ [(k, .node B)])) := by
  obtain ⟨hA, hkB, hkA⟩ := itemsOk_append h
  rw [ItemsOk] at hkB
  obtain ⟨hk, -, hB, -⟩ := hkB
  have hB : ItemsOk B := by simpa [FlatDict.Tree.Ok] using hB
  have hsplit : flatten (A ++ [(k, .node B)]) = flatten A ++ (flattenAt [k] (.node B)).map fun pv => (join pv.1, pv.2) := by
    rw [FlatDict.flatten_eq _ h, flattenItems_append, List.map_append, ← FlatDict.flatten_eq _ hA]
    simp [flattenItems]
  have hright : leaves ((flattenAt [k] (.node B)).map fun pv => (join pv.1, pv.2)) =
      (leaves (flatten B)).map fun kv => (join [k, kv.1], kv.2) := by
    cases B with
    | nil => rfl
    | cons b B =>
      rw [FlatDict.flattenAt_prefix, FlatDict.flatten_eq _ hB, flattenAt, ← leaves_map (fun x => join [k, x]), List.map_map, List.map_map]
      congr 1
      refine List.map_congr_left fun pv hpv => ?_
      simp only [Function.comp, List.singleton_append]
      rw [join_cons _ _ (FlatDict.flattenItems_paths _ pv hpv)]
  have hnotin : k ∉ (flatten A).map Prod.fst := by
    rw [FlatDict.flatten_eq _ hA, List.map_map]
    intro hm
    obtain ⟨pv, hpv, hj⟩ := List.mem_map.1 hm
    simp only [Function.comp] at hj
    have h1 := FlatDict.split_join pv.1 (FlatDict.flattenItems_paths _ pv hpv) (FlatDict.flattenItems_sep _ hA pv hpv)
    rw [hj, FlatDict.split_single k hk] at h1
    obtain ⟨k', p, h2, h3⟩ := FlatDict.flattenItems_head _ pv hpv
    rw [← h1, List.cons.injEq] at h2
    exact hkA k' h3 (by rw [← h2.1]; simp [PyDict.keys])
  have hndT : ((leaves (flatten (A ++ [(k, .node B)]))).map Prod.fst).Nodup := by
    refine (keys_leaves _).nodup ?_
    exact ofItems_nodup _
  rw [hsplit, leaves_append, hright] at hndT ⊢
  have hset : PyDict.set (flatLeaves A) k (.node (flatLeaves B)) = flatLeaves A ++ [(k, .node (flatLeaves B))] := by
    refine PyDict.set_of_not_mem _ _ _ fun hm => hnotin ?_
    rw [flatLeaves_eq, PyDict.keys, List.map_map] at hm
    exact (keys_leaves _).subset hm
  rw [hset]
  have hparts : (flattenItems [] (flatLeaves A ++ [(k, .node (flatLeaves B))])).map (fun pv => (join pv.1, pv.2)) =
      ((leaves (flatten A)).map fun kv => (kv.1, Flat.leaf kv.2)) ++
        (if leaves (flatten B) = [] then [(k, Flat.empty)]
          else (leaves (flatten B)).map fun kv => (join [k, kv.1], Flat.leaf kv.2)) := by
    rw [flattenItems_append, List.map_append, flatLeaves_eq, flattenItems_leaves, List.map_map]
    congr 1
    rw [flattenItems, flattenItems, List.append_nil, flatLeaves_eq, List.nil_append]
    cases hl : leaves (flatten B) with
    | nil => rfl
    | cons b l =>
      rw [List.map_cons, flattenAt, ← List.map_cons (f := fun kv : FlatDict.Key × V => (kv.1, FlatDict.Tree.leaf kv.2)),
        flattenItems_leaves, List.map_map]
      simp [Function.comp]
  have hflat : flatten (flatLeaves A ++ [(k, .node (flatLeaves B))]) =
      (flattenItems [] (flatLeaves A ++ [(k, .node (flatLeaves B))])).map fun pv => (join pv.1, pv.2) := by
    unfold flatten
    refine PyDict.ofItems_of_nodup _ ?_
    rw [hparts, PyDict.keys, List.map_append, List.map_map]
    split
    · refine List.Nodup.append ?_ (by simp) ?_
      · exact (keys_leaves _).nodup (ofItems_nodup _)
      · intro x hx hx'
        simp only [List.map_cons, List.map_nil, List.mem_singleton] at hx'
        subst hx'
        exact hnotin ((keys_leaves _).subset hx)
    · rw [List.map_append, List.map_map] at hndT
      rw [List.map_map]
      exact hndT
  rw [hflat, hparts, leaves_append]
  have hback : ∀ (f : FlatDict.Key → FlatDict.Key) (l : List (FlatDict.Key × V)),
      leaves (l.map fun kv => (f kv.1, Flat.leaf kv.2)) = l.map fun kv => (f kv.1, kv.2) := by
    intro f l
    unfold leaves
    rw [List.filterMap_map]
    exact List.filterMap_eq_map (f := fun kv : FlatDict.Key × V => (f kv.1, kv.2)) ▸ rfl
  congr 1
  · simpa using hback id (leaves (flatten A))
  · split
    · rename_i he
      rw [he]
      rfl
    · exact hback (fun x => join [k, x]) _

/-- The arrays that rules can name: the fields of the train state after the update, and the gradients. -/
noncomputable def seen (enc : Encoding P O G) (state : State P O) (grads : G) : List (FlatDict.Key × FlatDict.Tree (NdArray ℝ)) :=
  [("step".toList, .leaf ⟨[], fun _ => (state.step : ℝ)⟩),
   ("params".toList, .node (enc.params state.params)),
   ("opt_state".toList, .node (enc.opt state.opt)),
   ("rngs".toList, .node (state.rngs.map fun e => (e.1, .leaf (enc.rng e.2)))),
   ("params_grads".toList, .node (enc.grads grads))]

/-- `v` is an entry, called `name`, of what a rule makes of an array. -/
def IsSummary (s : Summaries R) (tree : List (FlatDict.Key × FlatDict.Tree (NdArray ℝ))) (name : List Char) (v : ℝ) : Prop :=
  ∃ path x r ts suffix summary, leafOf tree path = some x ∧ (r, ts) ∈ s.rules ∧ s.search r (join path) = true ∧
    transform [] x ts = .ok (suffix, summary) ∧
    ∃ idx, NdArray.Valid summary.shape idx ∧ name = join path ++ suffix ++ indexSuffix summary.shape idx ∧ v = summary.get idx

/-- Every rule can be applied to the arrays that it names, and makes at most `maxValues` values of them. -/
def Fits (s : Summaries R) (tree : List (FlatDict.Key × FlatDict.Tree (NdArray ℝ))) : Prop :=
  ∀ path x r ts, leafOf tree path = some x → (r, ts) ∈ s.rules → s.search r (join path) = true →
    ∃ suffix summary, transform [] x ts = .ok (suffix, summary) ∧ summary.shape.prod ≤ s.maxValues

theorem call_leaves (s : Summaries R) (tree) :
    call s.search s.maxValues s.rules tree = summarizeAll s.search s.maxValues s.rules (leaves (flatten tree)) := by
  unfold call leaves
  congr 2
  funext kv
  obtain ⟨k, v⟩ := kv
  cases v <;> rfl

theorem call_seen (s : Summaries R) (enc : Encoding P O G) (state : State P O) (grads : G) (h : ItemsOk (seen enc state grads)) :
    call s.search s.maxValues s.rules (stateFlat enc state grads) = call s.search s.maxValues s.rules (seen enc state grads) := by
  rw [call_leaves, call_leaves]
  congr 1
  exact leaves_twice (stateDict enc state) (enc.grads grads) "params_grads".toList h

theorem summarize_none (s : Summaries R) (key : List Char) (x : NdArray ℝ) (rules : List (R × List Transform)) :
    (summarize s.search s.maxValues key x rules).2 = none ↔ ∀ r ts, (r, ts) ∈ rules → s.search r key = true →
      ∃ suffix summary, transform [] x ts = .ok (suffix, summary) ∧ summary.shape.prod ≤ s.maxValues := by
  induction rules with
  | nil => simp [summarize]
  | cons q rules ih =>
    obtain ⟨r, ts⟩ := q
    rw [summarize]
    have key2 : ∀ a b : Gen, (Gen.andThen a b).2 = none ↔ a.2 = none ∧ b.2 = none := by
      intro a b
      unfold Gen.andThen
      cases h : a.2 <;> simp
    rw [key2, ih]
    constructor
    · rintro ⟨h1, h2⟩ r' ts' hm hs
      rcases List.mem_cons.1 hm with he | hm
      · cases he
        rw [if_pos hs] at h1
        cases ht : transform [] x ts with
        | error e => rw [ht] at h1; cases h1
        | ok p =>
          obtain ⟨suffix, summary⟩ := p
          rw [ht] at h1
          refine ⟨suffix, summary, rfl, ?_⟩
          by_contra hlt
          simp only at h1
          rw [if_pos (by omega)] at h1
          cases h1
      · exact h2 r' ts' hm hs
    · intro h
      refine ⟨?_, fun r' ts' hm hs => h r' ts' (List.mem_cons_of_mem _ hm) hs⟩
      split
      · rename_i hs
        obtain ⟨suffix, summary, ht, hle⟩ := h r ts (List.mem_cons_self ..) hs
        rw [ht]
        simp only
        rw [if_neg (by omega)]
      · rfl

theorem summarizeAll_none (s : Summaries R) (l : List (List Char × NdArray ℝ)) :
    (summarizeAll s.search s.maxValues s.rules l).2 = none ↔ ∀ key x, (key, x) ∈ l → ∀ r ts, (r, ts) ∈ s.rules →
      s.search r key = true → ∃ suffix summary, transform [] x ts = .ok (suffix, summary) ∧ summary.shape.prod ≤ s.maxValues := by
  induction l with
  | nil => simp [summarizeAll]
  | cons kx l ih =>
    obtain ⟨key, x⟩ := kx
    rw [summarizeAll]
    have key2 : ∀ a b : Gen, (Gen.andThen a b).2 = none ↔ a.2 = none ∧ b.2 = none := by
      intro a b
      unfold Gen.andThen
      cases h : a.2 <;> simp
    rw [key2, ih, summarize_none]
    constructor
    · rintro ⟨h1, h2⟩ k y hm
      rcases List.mem_cons.1 hm with he | hm
      · cases he; exact h1
      · exact h2 k y hm
    · exact fun h => ⟨h key x (List.mem_cons_self ..), fun k y hm => h k y (List.mem_cons_of_mem _ hm)⟩

theorem call_none (s : Summaries R) (tree) (hok : ItemsOk tree) :
    (call s.search s.maxValues s.rules tree).2 = none ↔ Fits s tree := by
  rw [call_leaves, summarizeAll_none]
  have hmem : ∀ key x, (key, x) ∈ leaves (flatten tree) ↔ ∃ path, leafOf tree path = some x ∧ key = join path := by
    intro key x
    rw [FlatDict.flatten_eq _ hok]
    unfold leaves
    rw [List.mem_filterMap]
    constructor
    · rintro ⟨⟨k, v⟩, hm, he⟩
      obtain ⟨pv, hpv, hj⟩ := List.mem_map.1 hm
      obtain ⟨p, w⟩ := pv
      cases hj
      cases w with
      | empty => cases he
      | leaf w =>
        cases he
        exact ⟨p, (FlatDict.mem_flattenItems tree hok p x).1 hpv, rfl⟩
    · rintro ⟨p, hp, rfl⟩
      exact ⟨(join p, .leaf x), List.mem_map.2 ⟨(p, .leaf x), (FlatDict.mem_flattenItems tree hok p x).2 hp, rfl⟩, rfl⟩
  constructor
  · exact fun h path x r ts hp hr hs => h (join path) x ((hmem _ _).2 ⟨path, hp, rfl⟩) r ts hr hs
  · intro h key x hm r ts hr hs
    obtain ⟨path, hp, rfl⟩ := (hmem _ _).1 hm
    exact h path x r ts hp hr hs

theorem updateMetrics_spec (l : List (List Char × ℝ)) : ∀ (metrics : List Char → ℝ) (k : List Char),
    ((∀ v, (k, v) ∉ l) → updateMetrics metrics l k = metrics k) ∧ (∀ v, (k, v) ∈ l → (k, updateMetrics metrics l k) ∈ l) := by
  induction l with
  | nil => exact fun metrics k => ⟨fun _ => rfl, fun v hv => by cases hv⟩
  | cons q l ih =>
    obtain ⟨name, w⟩ := q
    intro metrics k
    rw [updateMetrics]
    obtain ⟨h1, h2⟩ := ih (fun k => if k = name then w else metrics k) k
    refine ⟨fun h => ?_, fun v hv => ?_⟩
    · rw [h1 fun v hv => h v (List.mem_cons_of_mem _ hv), if_neg]
      rintro rfl
      exact h w (List.mem_cons_self ..)
    · by_cases hl : ∃ u, (k, u) ∈ l
      · obtain ⟨u, hu⟩ := hl
        exact List.mem_cons_of_mem _ (h2 u hu)
      · have hl : ∀ u, (k, u) ∉ l := fun u hu => hl ⟨u, hu⟩
        rcases List.mem_cons.1 hv with he | hv
        · cases he
          rw [h1 hl, if_pos rfl]
          exact List.mem_cons_self ..
        · exact absurd hv (hl v)

section
variable [AddCommGroup G] [Module ℝ G]

/-- C169: without a summarizer the train step is the one of C83; with one it changes nothing but what is reported: if the step with
summaries succeeds, then so does the step without, with the same train state and the same random keys. -/
theorem C169_training (env : Env P O I L Y G) (enc : Encoding P O G) (devices : Nat) (microsteps : Option Int) (state : State P O)
    (images : List I) (labels : List L) (log : Log) :
    StepSummaries.trainStep env enc (none : Option (Summaries R)) devices microsteps state images labels log =
      TrainStep.trainStep env devices microsteps state images labels log ∧
    ∀ (s : Summaries R) state' metrics' log', StepSummaries.trainStep env enc (some s) devices microsteps state images labels log =
        .ok (state', metrics', log') →
      ∃ metrics, TrainStep.trainStep env devices microsteps state images labels log = .ok (state', metrics, log') := by
  unfold StepSummaries.trainStep TrainStep.trainStep
  cases hacc : Trainer.accumulate devices (compute env) microsteps state.params images labels (state.rngs, log) with
  | error e => exact ⟨rfl, fun s st m lg h => by cases h⟩
  | ok r =>
    obtain ⟨g, ⟨rn, lg⟩, me⟩ := r
    refine ⟨rfl, fun s st m lg' h => ?_⟩
    simp only [bind, Except.bind, pure, Except.pure] at h ⊢
    split at h
    · cases h
    · cases h
      exact ⟨_, rfl⟩

/-- The step with summaries, with `m` microsteps. -/
theorem step_eq (env : Env P O I L Y G) (enc : Encoding P O G) (s : Summaries R) (devices : Nat) (hd : 0 < devices) (m : Nat)
    (hm : 0 < m) (state : State P O) (images : List I) (labels : List L) (log : Log)
    (hlen : labels.length = images.length) (hdev : devices ∣ images.length) (hdvd : m ∣ images.length / devices)
    (keys : Nat → Rngs) (hkeys : ∀ j, keys j = state.rngs.map fun e => (e.1, e.2 ++ List.replicate j 1 ++ [0]))
    (main aux : P → Nat → ℝ)
    (hmain : ∀ p j, main p j = ((env.loss (env.apply p (BatchSpec.every m j images) (keys j)).1
        (BatchSpec.every m j labels)).sum / (env.loss (env.apply p (BatchSpec.every m j images) (keys j)).1
        (BatchSpec.every m j labels)).length))
    (haux : ∀ p j, aux p j = ((env.apply p (BatchSpec.every m j images) (keys j)).2 "auxiliary_loss".toList).sum /
      ((env.apply p (BatchSpec.every m j images) (keys j)).2 "auxiliary_loss".toList).length)
    (grads : G)
    (hgrads : grads = (1 / (m : ℝ)) • ((List.range m).map fun j =>
      env.grad (fun p => main p j + aux p j) state.params).sum) (state' : State P O)
    (hstate : state' = ⟨state.step + 1, env.applyUpdates state.params (env.update grads state.opt state.params).1,
      (env.update grads state.opt state.params).2, state.rngs.map fun e => (e.1, e.2 ++ List.replicate m 1)⟩) :
    ∃ metrics log', TrainStep.trainStep env devices (some (m : Int)) state images labels log = .ok (state', metrics, log') ∧
      StepSummaries.trainStep env enc (some s) devices (some (m : Int)) state images labels log =
        match call s.search s.maxValues s.rules (stateFlat enc state' grads) with
        | (_, some e) => .error e
        | (pairs, none) => .ok (state', updateMetrics metrics pairs, log') := by
  classical
  obtain ⟨st, me, h1, h2, h3, h4, h5, -⟩ := C83_train_step env devices hd m hm state images labels log hlen hdev hdvd keys hkeys main aux
    hmain haux grads hgrads
  have hst : st = state' := by
    rw [hstate]
    obtain ⟨a, b, c, d⟩ := st
    simp only at h2 h3 h4 h5
    subst h2 h3 h4 h5
    rfl
  subst hst
  refine ⟨me, _, h1, ?_⟩
  -- the gradients, seen through another norm
  obtain ⟨st', me', h1', -, -, -, -, -, -, -, h6, -⟩ := C83_train_step { env with norm := fun g => if g = grads then 1 else 0 } devices hd m hm
    state images labels log hlen hdev hdvd keys hkeys main aux hmain haux grads hgrads
  simp only [if_true] at h6
  have hc : compute { env with norm := fun g => if g = grads then (1 : ℝ) else 0 } = compute env := rfl
  unfold TrainStep.trainStep at h1 h1'
  rw [hc] at h1'
  unfold StepSummaries.trainStep
  cases hacc : Trainer.accumulate devices (compute env) (some (m : Int)) state.params images labels (state.rngs, log) with
  | error e => rw [hacc] at h1; cases h1
  | ok r =>
    obtain ⟨g, ⟨rn, lg⟩, mt⟩ := r
    rw [hacc] at h1 h1'
    simp only [bind, Except.bind, pure, Except.pure] at h1 h1' ⊢
    have hg : g = grads := by
      have hm' := (Prod.mk.inj (Prod.mk.inj (Except.ok.inj h1')).2).1
      rw [← hm'] at h6
      by_contra hne
      beta_reduce at h6
      rw [if_neg (by decide : ¬ "global_norm/grads".toList = normName "params"),
        if_neg (by decide : ¬ "global_norm/grads".toList = normName "updates"),
        if_pos (by decide : "global_norm/grads".toList = normName "grads"), if_neg hne] at h6
      norm_num at h6
    subst hg
    have h1 := Except.ok.inj h1
    have e1 := (Prod.mk.inj h1).1
    have e2 := (Prod.mk.inj (Prod.mk.inj h1).2).1
    have e3 := (Prod.mk.inj (Prod.mk.inj h1).2).2
    rw [e1, e3]
    rw [e2]
    generalize call s.search s.maxValues s.rules (stateFlat enc st g) = out
    obtain ⟨pairs, err⟩ := out
    cases err <;> rfl

/-- C169: the values that a rule gives are about the arrays of the train state after the update, under their names, and about the
gradients of the step (averaged over the microsteps), under the names of the parameters after `params_grads/`.  Every such value is
reported, if no other has the same name; other reports are those of the step without summaries. -/
theorem C169_reported (env : Env P O I L Y G) (enc : Encoding P O G) (s : Summaries R) (devices : Nat) (hd : 0 < devices) (m : Nat)
    (hm : 0 < m) (state : State P O) (images : List I) (labels : List L) (log : Log)
    (hlen : labels.length = images.length) (hdev : devices ∣ images.length) (hdvd : m ∣ images.length / devices)
    (keys : Nat → Rngs) (hkeys : ∀ j, keys j = state.rngs.map fun e => (e.1, e.2 ++ List.replicate j 1 ++ [0]))
    (main aux : P → Nat → ℝ)
    (hmain : ∀ p j, main p j = ((env.loss (env.apply p (BatchSpec.every m j images) (keys j)).1
        (BatchSpec.every m j labels)).sum / (env.loss (env.apply p (BatchSpec.every m j images) (keys j)).1
        (BatchSpec.every m j labels)).length))
    (haux : ∀ p j, aux p j = ((env.apply p (BatchSpec.every m j images) (keys j)).2 "auxiliary_loss".toList).sum /
      ((env.apply p (BatchSpec.every m j images) (keys j)).2 "auxiliary_loss".toList).length)
    (grads : G)
    (hgrads : grads = (1 / (m : ℝ)) • ((List.range m).map fun j =>
      env.grad (fun p => main p j + aux p j) state.params).sum) (state' : State P O)
    (hstate : state' = ⟨state.step + 1, env.applyUpdates state.params (env.update grads state.opt state.params).1,
      (env.update grads state.opt state.params).2, state.rngs.map fun e => (e.1, e.2 ++ List.replicate m 1)⟩)
    (hok : ItemsOk (seen enc state' grads)) :
    ((∃ r, StepSummaries.trainStep env enc (some s) devices (some (m : Int)) state images labels log = .ok r) ↔
      Fits s (seen enc state' grads)) ∧
    ∀ st metrics' log', StepSummaries.trainStep env enc (some s) devices (some (m : Int)) state images labels log =
        .ok (st, metrics', log') →
      ∃ metrics, TrainStep.trainStep env devices (some (m : Int)) state images labels log = .ok (state', metrics, log') ∧
        (∀ name, (∀ v, ¬ IsSummary s (seen enc state' grads) name v) → metrics' name = metrics name) ∧
        (∀ name v, IsSummary s (seen enc state' grads) name v → IsSummary s (seen enc state' grads) name (metrics' name)) ∧
        ∀ name v, IsSummary s (seen enc state' grads) name v → (∀ w, IsSummary s (seen enc state' grads) name w → w = v) →
          metrics' name = v := by
  obtain ⟨metrics, log₁, h1, h2⟩ := step_eq env enc s devices hd m hm state images labels log hlen hdev hdvd keys hkeys main aux hmain
    haux grads hgrads state' hstate
  rw [h2, call_seen s enc state' grads hok]
  have hnone := call_none s (seen enc state' grads) hok
  cases hcall : call s.search s.maxValues s.rules (seen enc state' grads) with
  | mk pairs err =>
    rw [hcall] at hnone
    cases err with
    | some e =>
      refine ⟨⟨?_, fun h => absurd (hnone.2 h) (by simp)⟩, fun st me lg h => by cases h⟩
      rintro ⟨r, hr⟩
      cases hr
    | none =>
      refine ⟨⟨fun _ => hnone.1 rfl, fun _ => ⟨_, rfl⟩⟩, fun st me lg h => ?_⟩
      have hfits := hnone.1 rfl
      simp only [Except.ok.injEq, Prod.mk.injEq] at h
      obtain ⟨-, rfl, rfl⟩ := h
      have hmem : ∀ name v, (name, v) ∈ pairs ↔ IsSummary s (seen enc state' grads) name v := by
        intro name v
        have := C53_complete s.search s.maxValues s.rules (seen enc state' grads) hok (by rw [hcall]) name v
        rw [hcall] at this
        rw [this]
        constructor
        · rintro ⟨path, x, r, ts, suffix, summary, a1, a2, a3, a4, -, a5⟩
          exact ⟨path, x, r, ts, suffix, summary, a1, a2, a3, a4, a5⟩
        · rintro ⟨path, x, r, ts, suffix, summary, a1, a2, a3, a4, a5⟩
          obtain ⟨suffix', summary', b1, b2⟩ := hfits path x r ts a1 a2 a3
          rw [a4] at b1
          cases b1
          exact ⟨path, x, r, ts, suffix, summary, a1, a2, a3, a4, b2, a5⟩
      have hspec := updateMetrics_spec pairs metrics
      refine ⟨metrics, h1, fun name hn => (hspec name).1 fun v hv => hn v ((hmem _ _).1 hv), fun name v hv => ?_, fun name v hv hu => ?_⟩
      · exact (hmem _ _).1 ((hspec name).2 v ((hmem _ _).2 hv))
      · exact hu _ ((hmem _ _).1 ((hspec name).2 v ((hmem _ _).2 hv)))

omit [AddCommGroup G] [Module ℝ G] in
/-- C169: the names of all summaries begin with `step`, `params`, `opt_state` or `rngs`; so no rule can replace the reported losses or
norms. -/
theorem C169_names (s : Summaries R) (enc : Encoding P O G) (state : State P O) (grads : G) (name : List Char) (v : ℝ)
    (h : IsSummary s (seen enc state grads) name v) :
    (∃ field ∈ ["step", "params", "opt_state", "rngs"], field.toList <+: name) ∧
    name ∉ ["main_loss", "auxiliary_loss", "total_loss", "global_norm/grads", "global_norm/updates", "global_norm/params"].map
      String.toList := by
  have hfirst : ∃ field ∈ ["step", "params", "opt_state", "rngs"], field.toList <+: name := by
    obtain ⟨path, x, r, ts, suffix, summary, h1, -, -, -, idx, -, rfl, -⟩ := h
    have hj : ∀ (k : FlatDict.Key) p, k <+: join (k :: p) := by
      intro k p
      cases p with
      | nil => exact List.prefix_refl _
      | cons a p => exact List.prefix_append _ _
    cases path with
    | nil => simp [leafOf, leafAt] at h1
    | cons k p =>
      have hk : k ∈ PyDict.keys (seen enc state grads) := by
        by_contra hn
        rw [leafOf, leafAt, FlatDict.lookup_none hn] at h1
        cases h1
      have hpre : k <+: join (k :: p) ++ suffix ++ indexSuffix summary.shape idx := by
        rw [List.append_assoc]
        exact (hj k p).trans (List.prefix_append _ _)
      simp only [seen, PyDict.keys, List.map_cons, List.map_nil, List.mem_cons, List.not_mem_nil, or_false] at hk
      rcases hk with rfl | rfl | rfl | rfl | rfl
      · exact ⟨"step", by simp, hpre⟩
      · exact ⟨"params", by simp, hpre⟩
      · exact ⟨"opt_state", by simp, hpre⟩
      · exact ⟨"rngs", by simp, hpre⟩
      · exact ⟨"params", by simp, List.IsPrefix.trans (by decide) hpre⟩
  refine ⟨hfirst, fun hm => ?_⟩
  obtain ⟨field, hf, hp⟩ := hfirst
  have : ∀ field ∈ ["step", "params", "opt_state", "rngs"], ∀ name ∈ ["main_loss", "auxiliary_loss", "total_loss", "global_norm/grads",
      "global_norm/updates", "global_norm/params"].map String.toList, ¬ field.toList <+: name := by decide
  exact this field hf name hm hp

end
/-! Non-vacuity: one parameter `w`, and the rule that reports the parameters and the gradients. -/

/-- Arrays with one entry; the optimizer has no state. -/
noncomputable def exEnc : Encoding ℝ Unit ℝ where
  params p := [("w".toList, .leaf ⟨[], fun _ => p⟩)]
  opt _ := []
  rng _ := ⟨[2], fun _ => 0⟩
  grads g := [("w".toList, .leaf ⟨[], fun _ => g⟩)]

/-- Names that begin with `params`. -/
def exSummaries : Summaries Unit := ⟨fun _ key => decide ("params".toList <+: key), 1, [((), [])]⟩

theorem exLeaf (st : State ℝ Unit) (hr : st.rngs = [("dropout".toList, [0, 1, 1])]) (g : ℝ) :
    ItemsOk (seen exEnc st g) ∧ ∀ path x, leafOf (seen exEnc st g) path = some x → "params".toList <+: join path →
      (path = ["params".toList, "w".toList] ∧ x = ⟨[], fun _ => st.params⟩) ∨
      (path = ["params_grads".toList, "w".toList] ∧ x = ⟨[], fun _ => g⟩) := by
  have hok : ItemsOk (seen exEnc st g) := by
    simp only [seen, exEnc, hr, ItemsOk, FlatDict.Tree.Ok, PyDict.keys, List.map_cons, List.map_nil]
    simp only [List.not_mem_nil, and_true, not_false_eq_true, true_and]
    decide
  refine ⟨hok, fun path x hp hs => ?_⟩
  have hm := (FlatDict.mem_flattenItems _ hok path x).2 hp
  simp only [seen, exEnc, hr, List.map_cons, List.map_nil, flattenItems, flattenAt, List.nil_append, List.append_nil,
    List.cons_append, List.mem_cons, List.not_mem_nil, or_false, Prod.mk.injEq, reduceCtorEq, and_false, false_or,
    Flat.leaf.injEq] at hm
  rcases hm with ⟨rfl, rfl⟩ | ⟨rfl, rfl⟩ | ⟨rfl, rfl⟩ | ⟨rfl, rfl⟩
  · exact absurd hs (by decide)
  · exact .inl ⟨rfl, rfl⟩
  · exact absurd hs (by decide)
  · exact .inr ⟨rfl, rfl⟩

/-- Four examples and two microsteps: the parameter after the update and the gradient before it are reported, beside the losses. -/
example : ∃ st metrics log, StepSummaries.trainStep exEnv exEnc (some exSummaries) 1 (some 2)
      ⟨5, 0, (), [("dropout".toList, [0])]⟩ [1, 2, 3, 4] [0, 0, 0, 0] [] = .ok (st, metrics, log) ∧ st.step = 6 ∧
    metrics "params/w".toList = st.params ∧ metrics "params_grads/w".toList = - st.params ∧
    metrics "total_loss".toList = metrics "main_loss".toList + metrics "auxiliary_loss".toList := by
  have hex : ∀ {P : ℝ → Prop} {e : ℝ}, (∀ g, g = e → P g) → ∃ g, P g := fun h => ⟨_, h _ rfl⟩
  obtain ⟨g, hfit, hrep⟩ := hex fun g hg => C169_reported exEnv exEnc exSummaries 1 (by decide) 2 (by decide)
    ⟨5, 0, (), [("dropout".toList, [0])]⟩ [1, 2, 3, 4] [0, 0, 0, 0] [] rfl (by decide) (by decide) _ (fun _ => rfl) _ _
    (fun _ _ => rfl) (fun _ _ => rfl) g hg ⟨6, 0 + -g, (), [("dropout".toList, [0, 1, 1])]⟩ rfl (exLeaf _ rfl g).1
  generalize hst : (⟨6, 0 + -g, (), [("dropout".toList, [0, 1, 1])]⟩ : State ℝ Unit) = st at hfit hrep
  have hr : st.rngs = [("dropout".toList, [0, 1, 1])] := by rw [← hst]
  have hstep : st.step = 6 := by rw [← hst]
  have hp : st.params = 0 + -g := by rw [← hst]
  obtain ⟨hok, hleaf⟩ := exLeaf st hr g
  have hall : ∀ name v, IsSummary exSummaries (seen exEnc st g) name v ↔
      (name = "params/w".toList ∧ v = st.params) ∨ (name = "params_grads/w".toList ∧ v = g) := by
    intro name v
    constructor
    · rintro ⟨path, x, r, ts, suffix, summary, h1, h2, h3, h4, idx, h5, h6, h7⟩
      simp only [exSummaries, List.mem_singleton, Prod.mk.injEq] at h2
      obtain ⟨-, rfl⟩ := h2
      cases h4
      rcases hleaf path x h1 (of_decide_eq_true h3) with ⟨rfl, rfl⟩ | ⟨rfl, rfl⟩
      · cases h5
        exact .inl ⟨h6.trans (by dsimp only; decide), h7⟩
      · cases h5
        exact .inr ⟨h6.trans (by dsimp only; decide), h7⟩
    · rintro (⟨rfl, rfl⟩ | ⟨rfl, rfl⟩)
      · exact ⟨["params".toList, "w".toList], ⟨[], fun _ => st.params⟩, (), [], [], _, by simp [leafOf, leafAt, lookup, seen, exEnc],
          by simp [exSummaries], by decide, rfl, [], .nil, by dsimp only; decide, rfl⟩
      · exact ⟨["params_grads".toList, "w".toList], ⟨[], fun _ => v⟩, (), [], [], _, by simp [leafOf, leafAt, lookup, seen, exEnc],
          by simp [exSummaries], by decide, rfl, [], .nil, by dsimp only; decide, rfl⟩
  have hfits : Fits exSummaries (seen exEnc st g) := by
    intro path x r ts h1 h2 h3
    simp only [exSummaries, List.mem_singleton, Prod.mk.injEq] at h2
    obtain ⟨-, rfl⟩ := h2
    refine ⟨[], x, rfl, ?_⟩
    rcases hleaf path x h1 (of_decide_eq_true h3) with ⟨rfl, rfl⟩ | ⟨rfl, rfl⟩ <;> exact le_refl 1
  obtain ⟨⟨st', me, lg⟩, hrun⟩ := hfit.2 hfits
  obtain ⟨metrics, h1, h2, -, h4⟩ := hrep st' me lg hrun
  have hst' : st' = st := by
    obtain ⟨m', h'⟩ := (C169_training exEnv exEnc 1 (some 2) _ _ _ _).2 exSummaries st' me lg hrun
    have := h1.symm.trans h'
    cases this
    rfl
  subst hst'
  have hloss : ∀ k ∈ ["main_loss", "auxiliary_loss", "total_loss"].map String.toList, me k = metrics k := by
    intro k hk
    refine h2 k fun v hv => (C169_names _ _ _ _ k v hv).2 ?_
    clear hv
    revert k
    decide
  refine ⟨st', me, lg, hrun, hstep, ?_, ?_, ?_⟩
  · refine h4 _ _ ((hall _ _).2 (.inl ⟨rfl, rfl⟩)) fun w hw => ?_
    rcases (hall _ _).1 hw with ⟨-, h⟩ | ⟨h, -⟩
    · exact h
    · exact absurd h (by decide)
  · have : me "params_grads/w".toList = g := by
      refine h4 _ _ ((hall _ _).2 (.inr ⟨rfl, rfl⟩)) fun w hw => ?_
      rcases (hall _ _).1 hw with ⟨h, -⟩ | ⟨-, h⟩
      · exact absurd h (by decide)
      · exact h
    rw [this, hp]
    ring
  · obtain ⟨s, m, a1, -, -, -, -, -, -, a2, -⟩ := C83_train_step exEnv 1 (by decide) 2 (by decide)
      ⟨5, 0, (), [("dropout".toList, [0])]⟩ [1, 2, 3, 4] [0, 0, 0, 0] [] rfl (by decide) (by decide) _
      (fun _ => rfl) _ _ (fun _ _ => rfl) (fun _ _ => rfl) _ rfl
    have := h1.symm.trans a1
    simp only [Except.ok.injEq, Prod.mk.injEq] at this
    rw [hloss _ (by decide), hloss _ (by decide), hloss _ (by decide), this.2.1, a2]


end Verif.StepSummaries
