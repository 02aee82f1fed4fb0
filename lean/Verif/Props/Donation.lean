import Verif.Model.Donation
import Mathlib.Data.List.Nodup
import Mathlib.Tactic.Tauto

/-!
C117: deleting the donated buffers is not observable: the loop never touches a deleted buffer, and what it writes is what
the loop on values writes.
-/

namespace Verif.Donation

open Verif

variable {V K : Type}

/-! ### The loop on values -/

/-- The state of an evaluation after the batches of a data set. -/
def evalSpec (fns : Fns V K) (p : V) (batches : List (V × V × V)) : V :=
  batches.foldl (fun s b => fns.eval s p b.1 b.2.1 b.2.2) fns.init

/-- What the hooks write after a step that gave parameters `p`, rest `o` and metrics `x`. -/
def stepSpec (hooks : Hooks) (fns : Fns V K) (step : Nat) (p o x : V) : List (Event V K) :=
  (if hooks.progress step then [.progress step x] else []) ++
  (if hooks.checkpoint step then [.checkpoint step p o] else []) ++
  (if hooks.evaluation step then fns.datasets.map fun d => .evaluation step d.1 (evalSpec fns p d.2) else []) ++
  (if hooks.fewshot step then [.fewshot step p] else [])

/-- Parameters and rest of the state after the given batches. -/
def stateSpec (fns : Fns V K) (p o : V) (batches : List (V × V)) : V × V :=
  batches.foldl (fun s b => ((fns.train s.1 s.2 b.1 b.2).1, (fns.train s.1 s.2 b.1 b.2).2.1)) (p, o)

/-- What the run writes at the `i`-th step of the loop. -/
def eventsSpec (hooks : Hooks) (fns : Fns V K) (initStep : Nat) (p o : V) (batches : List (V × V)) (i : Nat) :
    List (Event V K) :=
  match batches[i]? with
  | none => []
  | some b =>
    let s := stateSpec fns p o (batches.take i)
    let r := fns.train s.1 s.2 b.1 b.2
    stepSpec hooks fns (initStep + 1 + i) r.1 r.2.1 r.2.2

/-- The memory holds `v` at `r`, below the addresses that were never used. -/
def Holds (m : Mem V) (r : Nat) (v : V) : Prop := r < m.next ∧ m.cells r = some v

theorem read_holds {m : Mem V} {r : Nat} {v : V} (h : Holds m r v) : read m r = .ok v := by
  unfold read; rw [h.2]

theorem holds_alloc (m : Mem V) (v : V) : Holds (alloc m v).1 (alloc m v).2 v :=
  ⟨Nat.lt_succ_self _, if_pos rfl⟩

theorem Holds.alloc {m : Mem V} {r : Nat} {v : V} (h : Holds m r v) (w : V) : Holds (alloc m w).1 r v :=
  ⟨Nat.lt_succ_of_lt h.1, (if_neg (Nat.ne_of_lt h.1)).trans h.2⟩

theorem Holds.delete {m : Mem V} {r : Nat} {v : V} (h : Holds m r v) (rs : List Nat) (hr : r ∉ rs) :
    Holds (delete m rs) r v := ⟨h.1, (if_neg hr).trans h.2⟩

theorem Holds.ne_alloc {m : Mem V} {r : Nat} {v : V} (h : Holds m r v) (w : V) : r ≠ (Donation.alloc m w).2 :=
  Nat.ne_of_lt h.1

theorem next_alloc (m : Mem V) (v : V) : (alloc m v).1.next = m.next + 1 := rfl

theorem evalStep_ok (g : V → V → V → V → V → V) (m : Mem V) (st p i l v : Nat) (vs vp vi vl vv : V)
    (hs : Holds m st vs) (hp : Holds m p vp) (hi : Holds m i vi) (hl : Holds m l vl) (hv : Holds m v vv)
    (hn : [st, p, i, l, v].Nodup) :
    ∃ m' st', evalStepPjit g m st p i l v = .ok (m', st') ∧ Holds m' st' (g vs vp vi vl vv) ∧
      (∀ r w, Holds m r w → r ∉ [st, i, l, v] → Holds m' r w) ∧ st' ≥ m.next := by
  refine ⟨_, _, ?_, holds_alloc (delete m [st, i, l, v]) _, fun r w h hr => (h.delete _ hr).alloc _, Nat.le_refl _⟩
  unfold evalStepPjit
  rw [if_neg (not_not.2 hn), read_holds hs, read_holds hp, read_holds hi, read_holds hl, read_holds hv]
  rfl

theorem evaluateDataset_ok (g : V → V → V → V → V → V) (p : Nat) (vp : V) (bs : List (V × V × V)) (m : Mem V) (st : Nat)
    (vs : V) (hs : Holds m st vs) (hp : Holds m p vp) (hne : st ≠ p) :
    ∃ m' st', evaluateDataset g p m st bs = .ok (m', st') ∧
      Holds m' st' (bs.foldl (fun s b => g s vp b.1 b.2.1 b.2.2) vs) ∧
      (∀ r w, Holds m r w → r ≠ st → Holds m' r w) := by
  induction bs generalizing m st vs with
  | nil => exact ⟨m, st, rfl, hs, fun r w h _ => h⟩
  | cons b bs ih =>
    have k1 := holds_alloc m b.1
    have k2 := holds_alloc (alloc m b.1).1 b.2.1
    have k3 := holds_alloc (alloc (alloc m b.1).1 b.2.1).1 b.2.2
    have up : ∀ r w, Holds m r w → Holds (alloc (alloc (alloc m b.1).1 b.2.1).1 b.2.2).1 r w :=
      fun r w h => ((h.alloc _).alloc _).alloc _
    have a1 : (alloc m b.1).2 = m.next := rfl
    have a2 : (alloc (alloc m b.1).1 b.2.1).2 = m.next + 1 := rfl
    have a3 : (alloc (alloc (alloc m b.1).1 b.2.1).1 b.2.2).2 = m.next + 2 := rfl
    have hs1 := hs.1
    have hp1 := hp.1
    obtain ⟨m1, st1, e1, h1, keep1, fresh1⟩ := evalStep_ok g (alloc (alloc (alloc m b.1).1 b.2.1).1 b.2.2).1 st p
      (alloc m b.1).2 (alloc (alloc m b.1).1 b.2.1).2 (alloc (alloc (alloc m b.1).1 b.2.1).1 b.2.2).2 vs vp b.1 b.2.1 b.2.2
      (up _ _ hs) (up _ _ hp) ((k1.alloc _).alloc _) (k2.alloc _) k3 (by
        rw [a1, a2, a3]
        simp only [List.nodup_cons, List.mem_cons, List.not_mem_nil, or_false, not_or, List.nodup_nil, and_true,
          not_false_eq_true]
        refine ⟨⟨hne, ?_, ?_, ?_⟩, ⟨?_, ?_, ?_⟩, ⟨?_, ?_⟩, ?_⟩ <;> omega)
    have hst1 : m.next + 3 ≤ st1 := fresh1
    have keep : ∀ r w, Holds m r w → r ≠ st → Holds m1 r w := by
      intro r w h hr
      apply keep1 r w (up r w h)
      have := h.1
      rw [a1, a2, a3]
      simp only [List.mem_cons, List.not_mem_nil, or_false, not_or]
      refine ⟨hr, ?_, ?_, ?_⟩ <;> omega
    obtain ⟨m2, st2, e2, h2, keep2⟩ := ih m1 st1 _ h1 (keep p vp hp (Ne.symm hne)) (by omega)
    refine ⟨m2, st2, ?_, h2, fun r w h hr => keep2 r w (keep r w h hr) (by have := h.1; omega)⟩
    unfold evaluateDataset
    simp only
    rw [e1]
    exact e2

theorem evaluateAll_ok (fns : Fns V K) (step p : Nat) (vp : V) (ds : List (K × List (V × V × V))) (m : Mem V)
    (hp : Holds m p vp) :
    ∃ m', evaluateAll fns.eval fns.init step p m ds = .ok (m', ds.map fun d => .evaluation step d.1 (evalSpec fns vp d.2)) ∧
      ∀ r w, Holds m r w → Holds m' r w := by
  induction ds generalizing m with
  | nil => exact ⟨m, rfl, fun _ _ h => h⟩
  | cons d ds ih =>
    obtain ⟨m1, st1, e1, h1, keep1⟩ := evaluateDataset_ok fns.eval p vp d.2 (alloc m fns.init).1 (alloc m fns.init).2 fns.init
      (holds_alloc _ _) (hp.alloc _) (Ne.symm (hp.ne_alloc _))
    have keep : ∀ r w, Holds m r w → Holds m1 r w := fun r w h => keep1 r w (h.alloc _) (h.ne_alloc _)
    obtain ⟨m2, e2, keep2⟩ := ih m1 (keep p vp hp)
    refine ⟨m2, ?_, fun r w h => keep2 r w (keep r w h)⟩
    unfold evaluateAll
    simp only
    rw [e1]
    change (read m1 st1 >>= _ : Except PyErr _) = _
    rw [read_holds h1]
    change (evaluateAll fns.eval fns.init step p m1 ds >>= _ : Except PyErr _) = _
    rw [e2]
    rfl

theorem trainStep_ok (f : V → V → V → V → V × V × V) (m : Mem V) (s : State) (i l : Nat) (vp vo vi vl : V)
    (hp : Holds m s.params vp) (ho : Holds m s.rest vo) (hi : Holds m i vi) (hl : Holds m l vl)
    (hn : [s.params, s.rest, i, l].Nodup) :
    ∃ m' s' x, trainStepPjit f m s i l = .ok (m', s', x) ∧ Holds m' s'.params (f vp vo vi vl).1 ∧
      Holds m' s'.rest (f vp vo vi vl).2.1 ∧ Holds m' x (f vp vo vi vl).2.2 ∧ s'.params ≠ s'.rest ∧
      read m' s.params = .error .runtimeError ∧ read m' s.rest = .error .runtimeError ∧
      read m' i = .error .runtimeError ∧ read m' l = .error .runtimeError := by
  have gone : ∀ r, r < m.next → r ∈ [s.params, s.rest, i, l] → read (alloc (alloc (alloc (delete m [s.params, s.rest, i, l])
      (f vp vo vi vl).1).1 (f vp vo vi vl).2.1).1 (f vp vo vi vl).2.2).1 r = .error .runtimeError := by
    intro r hr hm
    unfold read
    have : (alloc (alloc (alloc (delete m [s.params, s.rest, i, l])
      (f vp vo vi vl).1).1 (f vp vo vi vl).2.1).1 (f vp vo vi vl).2.2).1.cells r = none := by
      change (if r = m.next + 1 + 1 then _ else if r = m.next + 1 then _ else if r = m.next then _ else
        if r ∈ _ then none else _) = none
      rw [if_neg (by omega), if_neg (by omega), if_neg (by omega), if_pos hm]
    rw [this]
  refine ⟨_, ⟨_, _⟩, _, ?_, ((holds_alloc (delete m [s.params, s.rest, i, l]) _).alloc _).alloc _,
    (holds_alloc (alloc (delete m [s.params, s.rest, i, l]) _).1 _).alloc _, holds_alloc _ _, Nat.ne_of_lt (Nat.lt_succ_self _),
    gone _ hp.1 (by simp), gone _ ho.1 (by simp), gone _ hi.1 (by simp), gone _ hl.1 (by simp)⟩
  unfold trainStepPjit
  rw [if_neg (not_not.2 hn), read_holds hp, read_holds ho, read_holds hi, read_holds hl]
  rfl

theorem save_ok (m : Mem V) (step : Nat) (s : State) (vp vo : V) (hp : Holds m s.params vp) (ho : Holds m s.rest vo) :
    saveCheckpoint (K := K) m step s = .ok [.checkpoint step vp vo] := by
  unfold saveCheckpoint
  rw [read_holds hp, read_holds ho]; rfl

theorem loop_ok (hooks : Hooks) (fns : Fns V K) (bs : List (V × V)) (n : Nat) (m : Mem V) (s : State) (vp vo : V)
    (hp : Holds m s.params vp) (ho : Holds m s.rest vo) (hne : s.params ≠ s.rest) :
    ∃ m' s', loop hooks fns (n + 1) m s bs = .ok (m', s',
        (List.range bs.length).flatMap (eventsSpec hooks fns n vp vo bs)) ∧
      Holds m' s'.params (stateSpec fns vp vo bs).1 ∧ Holds m' s'.rest (stateSpec fns vp vo bs).2 := by
  induction bs generalizing n m s vp vo with
  | nil => exact ⟨m, s, rfl, hp, ho⟩
  | cons b bs ih =>
    have up : ∀ r w, Holds m r w → Holds (alloc (alloc m b.1).1 b.2).1 r w := fun r w h => (h.alloc _).alloc _
    have a1 : (alloc m b.1).2 = m.next := rfl
    have a2 : (alloc (alloc m b.1).1 b.2).2 = m.next + 1 := rfl
    have hp1 := hp.1
    have ho1 := ho.1
    obtain ⟨m1, s1, x, e1, h1p, h1o, h1x, h1ne, _⟩ := trainStep_ok fns.train (alloc (alloc m b.1).1 b.2).1 s (alloc m b.1).2
      (alloc (alloc m b.1).1 b.2).2 vp vo b.1 b.2 (up _ _ hp) (up _ _ ho) ((holds_alloc m b.1).alloc _)
      (holds_alloc _ _) (by
        rw [a1, a2]
        simp only [List.nodup_cons, List.mem_cons, List.not_mem_nil, or_false, not_or, List.nodup_nil, and_true,
          not_false_eq_true]
        refine ⟨⟨hne, ?_, ?_⟩, ⟨?_, ?_⟩, ?_⟩ <;> omega)
    have q1 : progressHook (K := K) hooks m1 (n + 1) x = .ok (if hooks.progress (n + 1) then
        [.progress (n + 1) (fns.train vp vo b.1 b.2).2.2] else []) := by
      unfold progressHook
      split
      · rw [read_holds h1x]; rfl
      · rfl
    have q2 : checkpointHook (K := K) hooks m1 (n + 1) s1 = .ok (if hooks.checkpoint (n + 1) then
        [.checkpoint (n + 1) (fns.train vp vo b.1 b.2).1 (fns.train vp vo b.1 b.2).2.1] else []) := by
      unfold checkpointHook
      split
      · exact save_ok _ _ _ _ _ h1p h1o
      · rfl
    have q3 : ∃ m2, evaluationHook hooks fns.eval fns.init fns.datasets m1 (n + 1) s1 = .ok (m2,
        if hooks.evaluation (n + 1) then fns.datasets.map fun d =>
          .evaluation (n + 1) d.1 (evalSpec fns (fns.train vp vo b.1 b.2).1 d.2) else []) ∧
        ∀ r w, Holds m1 r w → Holds m2 r w := by
      unfold evaluationHook
      split
      · exact evaluateAll_ok fns (n + 1) s1.params _ fns.datasets m1 h1p
      · exact ⟨m1, rfl, fun _ _ h => h⟩
    obtain ⟨m2, q3, keep2⟩ := q3
    have q4 : fewshotHook (K := K) hooks m2 (n + 1) s1 = .ok (if hooks.fewshot (n + 1) then
        [.fewshot (n + 1) (fns.train vp vo b.1 b.2).1] else []) := by
      unfold fewshotHook
      split
      · rw [read_holds (keep2 _ _ h1p)]; rfl
      · rfl
    obtain ⟨m3, s3, e3, h3p, h3o⟩ := ih (n + 1) m2 s1 _ _ (keep2 _ _ h1p) (keep2 _ _ h1o) h1ne
    refine ⟨m3, s3, ?_, h3p, h3o⟩
    unfold loop
    simp only
    rw [e1]
    change (progressHook hooks m1 (n + 1) x >>= _ : Except PyErr _) = _
    rw [q1]
    change (checkpointHook hooks m1 (n + 1) s1 >>= _ : Except PyErr _) = _
    rw [q2]
    change (evaluationHook hooks fns.eval fns.init fns.datasets m1 (n + 1) s1 >>= _ : Except PyErr _) = _
    rw [q3]
    change (fewshotHook hooks m2 (n + 1) s1 >>= _ : Except PyErr _) = _
    rw [q4]
    change (loop hooks fns (n + 1 + 1) m2 s1 bs >>= _ : Except PyErr _) = _
    rw [e3]
    change Except.ok _ = Except.ok _
    congr 3
    rw [List.length_cons, List.range_succ_eq_map, List.flatMap_cons, List.flatMap_map]
    congr 1
    apply List.flatMap_congr
    intro i _
    simp only [eventsSpec]
    rw [List.getElem?_cons_succ]
    rcases bs[i]? with _ | c
    · rfl
    · simp only [List.take_succ_cons, stateSpec, List.foldl_cons]
      rw [show n + 1 + 1 + i = n + 1 + (i + 1) by omega]

/-- C117.  The loop never reads a buffer that was donated to an earlier step: for every number of batches, every choice of the
steps at which the hooks act, all data sets (of any number of batches) and all functions, nothing is raised, and the run writes,
in order, exactly what the loop on values writes: the metrics of each step, checkpoints of the state after that step, the
evaluation of every data set from a new state with the parameters after that step, and the first and last checkpoints. -/
theorem C117_refines (hooks : Hooks) (fns : Fns V K) (saveFirst saveLast : Bool) (initStep trainSteps : Nat) (m : Mem V)
    (s : State) (vp vo : V) (hp : Holds m s.params vp) (ho : Holds m s.rest vo) (hne : s.params ≠ s.rest)
    (batches : List (V × V)) :
    run hooks fns saveFirst saveLast initStep trainSteps m s batches = .ok (
      (if saveFirst then [.checkpoint initStep vp vo] else []) ++
      (List.range batches.length).flatMap (eventsSpec hooks fns initStep vp vo batches) ++
      (if saveLast then [.checkpoint trainSteps (stateSpec fns vp vo batches).1 (stateSpec fns vp vo batches).2] else [])) := by
  obtain ⟨m', s', e, hp', ho'⟩ := loop_ok hooks fns batches initStep m s vp vo hp ho hne
  unfold run
  have sv : ∀ (needed : Bool) (m : Mem V) (step : Nat) (s : State) (vp vo : V), Holds m s.params vp → Holds m s.rest vo →
      saveIf (K := K) needed m step s = .ok (if needed then [.checkpoint step vp vo] else []) := by
    intro needed m step s vp vo h1 h2
    cases needed
    · rfl
    · exact save_ok _ _ _ _ _ h1 h2
  rw [sv _ _ _ _ _ _ hp ho]
  change (loop hooks fns (initStep + 1) m s batches >>= _ : Except PyErr _) = _
  rw [e]
  change (saveIf (K := K) saveLast m' trainSteps s' >>= _ : Except PyErr _) = _
  rw [sv _ _ _ _ _ _ hp' ho']
  rfl

/-- C117.  The buffers really are gone: after a training step the state and the batch given to it cannot be read. -/
theorem C117_deleted (f : V → V → V → V → V × V × V) (m : Mem V) (s : State) (i l : Nat) (vp vo vi vl : V)
    (hp : Holds m s.params vp) (ho : Holds m s.rest vo) (hi : Holds m i vi) (hl : Holds m l vl)
    (hn : [s.params, s.rest, i, l].Nodup) :
    ∃ m' s' x, trainStepPjit f m s i l = .ok (m', s', x) ∧ ∀ r ∈ [s.params, s.rest, i, l], read m' r = .error .runtimeError := by
  obtain ⟨m', s', x, e, _, _, _, _, h1, h2, h3, h4⟩ := trainStep_ok f m s i l vp vo vi vl hp ho hi hl hn
  refine ⟨m', s', x, e, ?_⟩
  intro r hr
  simp only [List.mem_cons, List.not_mem_nil, or_false] at hr
  rcases hr with rfl | rfl | rfl | rfl <;> assumption

/-- C117.  A state whose parts are one buffer cannot be given to the training step at all. -/
theorem C117_shared_buffer (f : V → V → V → V → V × V × V) (m : Mem V) (r i l : Nat) :
    trainStepPjit f m ⟨r, r⟩ i l = .error .runtimeError := by
  unfold trainStepPjit
  rw [if_pos]
  simp

/-- Example: state buffers 0 and 1. -/
def exMem : Mem Nat := ⟨fun r => if r = 0 then some 5 else if r = 1 then some 7 else none, 2⟩

-- Non-vacuity: two steps, evaluation at the second of two data sets.
example : Holds exMem 0 5 ∧ Holds exMem 1 7 ∧
    run ⟨fun _ => true, fun s => s == 1, fun s => s == 2, fun _ => false⟩
      ⟨fun p o i l => (p + i, o + l, p), fun s p i _ v => s + p * i * v, 0, [('a', [(1, 0, 1), (2, 0, 1)]), ('b', [])]⟩
      true true 0 2 exMem ⟨0, 1⟩ [(10, 1), (20, 2)] =
    .ok [.checkpoint 0 5 7, .progress 1 5, .checkpoint 1 15 8, .progress 2 15, .evaluation 2 'a' 105, .evaluation 2 'b' 0,
      .checkpoint 2 35 10] := by
  refine ⟨⟨by decide, rfl⟩, ⟨by decide, rfl⟩, ?_⟩
  rw [C117_refines _ _ _ _ _ _ _ ⟨0, 1⟩ 5 7 ⟨by decide, rfl⟩ ⟨by decide, rfl⟩ (by decide)]
  rfl

end Verif.Donation
