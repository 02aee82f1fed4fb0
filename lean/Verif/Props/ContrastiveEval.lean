import Verif.Model.ContrastiveEval
import Verif.Proofs.PyDict
import Verif.Proofs.FewshotAction
import Mathlib.Tactic.Linarith

/-!
Property C94: reports of the zero-shot and retrieval evaluations (vmoe/projects/contrastive/evaluators.py:40-181,
vmoe/projects/contrastive/trainer.py:124-130,183-189).
-/

namespace Verif.ContrastiveEval

open Verif Verif.PyDict
open Verif.FewshotAction (get?_foldl_not get?_foldl_mem nodup_ofItems split_last)

variable {A I T Z : Type}

/-- C94: a batch of images is embedded as images and a batch of texts as texts, each in its own place of the result and nothing in
the other; with both or none `ValueError` is raised. -/
theorem C94_apply (model : A → Option I → Option T → Z) (vars : A) :
    (∀ x : I, applyFn model vars (some x) (none : Option T) = .ok (some (model vars (some x) none), none)) ∧
    (∀ y : T, applyFn model vars (none : Option I) (some y) = .ok (none, some (model vars none (some y)))) ∧
    (∀ (x : I) (y : T), applyFn model vars (some x) (some y) = .error .valueError) ∧
    applyFn model vars (none : Option I) (none : Option T) = .error .valueError :=
  ⟨fun _ => rfl, fun _ => rfl, fun _ _ => rfl, rfl⟩

theorem get?_merge (a b : PyDict Key ℝ) (hb : (keys b).Nodup) (k : Key) :
    get? (merge a b) k = (get? b k).orElse (fun _ => get? a k) := by
  unfold merge
  by_cases h : k ∈ keys b
  · obtain ⟨⟨k', v⟩, hv, rfl⟩ := List.mem_map.1 h
    have hg := (get?_eq_some b hb k' v).2 hv
    rw [get?_foldl_mem b a k' v hv fun w hw => by
      have := (get?_eq_some b hb k' w).2 hw
      rw [hg] at this
      exact (Option.some.inj this).symm]
    simp [hg]
  · rw [get?_foldl_not b a k h, (get?_eq_none b k).2 h]
    rfl

theorem given_spec (kw : PyDict Key (Option ℝ)) (h : (keys kw).Nodup) :
    (keys (given kw)).Nodup ∧ ∀ k, get? (given kw) k = (get? kw k).bind id := by
  induction kw with
  | nil => simp [given, keys, get?]
  | cons kv kw ih =>
    obtain ⟨k', o⟩ := kv
    have hn : k' ∉ keys kw ∧ (keys kw).Nodup := by simpa [keys] using h
    obtain ⟨h1, h2⟩ := ih hn.2
    cases o with
    | none =>
      have hg : given ((k', none) :: kw) = given kw := by simp [given]
      rw [hg]
      refine ⟨h1, fun k => ?_⟩
      rw [h2]
      by_cases hk : k' = k
      · subst hk
        rw [(get?_eq_none kw k').2 hn.1]
        simp [get?]
      · simp [get?, hk]
    | some v =>
      have hg : given ((k', some v) :: kw) = (k', v) :: given kw := by simp [given]
      rw [hg]
      constructor
      · have : k' ∉ keys (given kw) := by
          rw [← get?_eq_none, h2, (get?_eq_none kw k').2 hn.1]
          rfl
        simpa [keys] using ⟨by simpa [keys] using this, by simpa [keys] using h1⟩
      · intro k
        by_cases hk : k' = k
        · simp [get?, hk]
        · simp [get?, hk, h2]

/-- A report has the given keyword arguments that are not None, the entries of `own` that these do not replace, and nothing
else. -/
def Reports (own : Key → Option ℝ) (kwargs : PyDict Key (Option ℝ)) (report : PyDict Key ℝ) : Prop :=
  ∀ k, get? report k = match get? kwargs k with
    | some (some v) => some v
    | _ => own k

theorem reports_merge (m : PyDict Key ℝ) (kwargs : PyDict Key (Option ℝ)) (h : (keys kwargs).Nodup) :
    Reports (get? m) kwargs (merge m (given kwargs)) := by
  intro k
  obtain ⟨h1, h2⟩ := given_spec kwargs h
  rw [get?_merge _ _ h1, h2]
  cases get? kwargs k with
  | none => rfl
  | some o => cases o <;> rfl

theorem key_metric_inj {rp t t' m m' : Key} (hm : '/' ∉ m) (hm' : '/' ∉ m') (h : key rp t m = key rp t' m') : t = t' ∧ m = m' := by
  unfold key at h
  exact split_last hm hm' (List.cons.inj (List.append_cancel_left h)).2

theorem loop_ok (rp : Key) (evaluate : Key → PyDict Key ℝ) (t0 : ℝ) (clock : Nat → ℝ) (acc : Key → ℝ) (tasks : List Key)
    (hn : tasks.Nodup) (he : ∀ t ∈ tasks, get? (evaluate t) "accuracy".toList = some (acc t)) (i : Nat) (m : PyDict Key ℝ) :
    ∃ r, zeroShotLoop rp evaluate t0 clock i tasks m = .ok r ∧
      (∀ j (hj : j < tasks.length), get? r (key rp tasks[j] "accuracy".toList) = some (acc tasks[j]) ∧
        get? r (key rp tasks[j] "duration_secs".toList) = some (clock (i + j) - t0)) ∧
      ∀ k, (∀ t ∈ tasks, k ≠ key rp t "accuracy".toList ∧ k ≠ key rp t "duration_secs".toList) → get? r k = get? m k := by
  induction tasks generalizing i m with
  | nil => exact ⟨m, rfl, by simp, fun _ _ => rfl⟩
  | cons t ts ih =>
    have hn' : t ∉ ts ∧ ts.Nodup := by simpa using hn
    obtain ⟨r, h1, h2, h3⟩ := ih hn'.2 (fun t' h => he t' (by simp [h])) (i + 1)
      (set (set m (key rp t "accuracy".toList) (acc t)) (key rp t "duration_secs".toList) (clock i - t0))
    have hsa : '/' ∉ "accuracy".toList := by decide
    have hsd : '/' ∉ "duration_secs".toList := by decide
    have hne : ("accuracy".toList : Key) ≠ "duration_secs".toList := by decide
    have hother : ∀ t' ∈ ts, t ≠ t' := fun t' h e => hn'.1 (e ▸ h)
    refine ⟨r, ?_, ?_, ?_⟩
    · simp only [zeroShotLoop, he t (by simp)]
      exact h1
    · intro j hj
      cases j with
      | zero =>
        simp only [List.getElem_cons_zero, Nat.add_zero]
        constructor
        · rw [h3 _ fun t' h => ⟨fun e => hother t' h (key_metric_inj hsa hsa e).1, fun e => hne (key_metric_inj hsa hsd e).2⟩,
            get?_set, if_neg (fun e => hne (key_metric_inj hsd hsa e).2.symm), get?_set, if_pos rfl]
        · rw [h3 _ fun t' h => ⟨fun e => hne (key_metric_inj hsd hsa e).2.symm, fun e => hother t' h (key_metric_inj hsd hsd e).1⟩,
            get?_set, if_pos rfl]
      | succ j =>
        have := h2 j (by simpa using hj)
        simp only [List.getElem_cons_succ]
        rw [show i + (j + 1) = i + 1 + j by omega]
        exact this
    · intro k hk
      rw [h3 k fun t' h => hk t' (by simp [h]), get?_set, if_neg (Ne.symm (hk t (by simp)).2), get?_set,
        if_neg (Ne.symm (hk t (by simp)).1)]

/-- C94: the zero-shot report has for every task its own accuracy, with the variables of the call; the given keyword arguments that
are not None win; there is nothing else but the durations.  The duration of a task is the time since the beginning of the
whole evaluation. -/
theorem C94_zero_shot (rp : Key) (tasks : List Key) (hn : tasks.Nodup) (evaluate : A → Key → PyDict Key ℝ) (acc : A → Key → ℝ)
    (he : ∀ v, ∀ t ∈ tasks, get? (evaluate v t) "accuracy".toList = some (acc v t)) (t0 : ℝ) (clock : Nat → ℝ) (vars : A)
    (kwargs : PyDict Key (Option ℝ)) (hk : (keys kwargs).Nodup) :
    ∃ report own, zeroShot rp tasks evaluate t0 clock vars kwargs = .ok report ∧ Reports own kwargs report ∧
      (∀ j (hj : j < tasks.length), own (rp ++ "/".toList ++ tasks[j] ++ "/accuracy".toList) = some (acc vars tasks[j]) ∧
        own (rp ++ "/".toList ++ tasks[j] ++ "/duration_secs".toList) = some (clock j - t0)) ∧
      ∀ k, own k ≠ none → ∃ t ∈ tasks, k = rp ++ "/".toList ++ t ++ "/accuracy".toList ∨
        k = rp ++ "/".toList ++ t ++ "/duration_secs".toList := by
  obtain ⟨r, h1, h2, h3⟩ := loop_ok rp (evaluate vars) t0 clock (acc vars) tasks hn (he vars) 0 []
  have ea : ∀ t, rp ++ "/".toList ++ t ++ "/accuracy".toList = key rp t "accuracy".toList := fun t => by simp [key]
  have ed : ∀ t, rp ++ "/".toList ++ t ++ "/duration_secs".toList = key rp t "duration_secs".toList := fun t => by simp [key]
  refine ⟨merge r (given kwargs), get? r, ?_, reports_merge r kwargs hk, ?_, ?_⟩
  · unfold zeroShot
    rw [h1]
    rfl
  · intro j hj
    rw [ea, ed]
    simpa using h2 j hj
  · intro k hk
    by_contra hc
    push Not at hc
    refine hk (h3 k fun t ht => ?_)
    rw [← ea, ← ed]
    exact hc t ht

/-- C94: the reported duration is not that of the task: it is longer by the time of all previous tasks. -/
theorem C94_duration_counterexample (rp : Key) (t t' : Key) (hne : t ≠ t') (evaluate : A → Key → PyDict Key ℝ) (a a' : ℝ) (vars : A)
    (h : get? (evaluate vars t) "accuracy".toList = some a) (h' : get? (evaluate vars t') "accuracy".toList = some a')
    (t0 : ℝ) (clock : Nat → ℝ) (hc : t0 < clock 0) :
    ∃ report secs, zeroShot rp [t, t'] evaluate t0 clock vars [] = .ok report ∧
      get? report (rp ++ "/".toList ++ t' ++ "/duration_secs".toList) = some secs ∧ secs = (clock 1 - clock 0) + (clock 0 - t0) ∧
      clock 1 - clock 0 < secs := by
  classical
  obtain ⟨r, h1, h2, _⟩ := loop_ok rp (evaluate vars) t0 clock (fun x => if x = t then a else a') [t, t'] (by simpa using hne) (by
    intro x hx
    simp only [List.mem_cons, List.not_mem_nil, or_false] at hx
    rcases hx with rfl | rfl
    · simpa using h
    · simpa [Ne.symm hne] using h') 0 []
  refine ⟨merge r (given []), clock 1 - t0, ?_, ?_, by ring, by linarith⟩
  · unfold zeroShot
    rw [h1]
    rfl
  · have := (h2 1 (by simp)).2
    have ed : rp ++ "/".toList ++ t' ++ "/duration_secs".toList = key rp t' "duration_secs".toList := by simp [key]
    rw [ed]
    simpa [merge, given] using this

/-- C94: the retrieval report has every metric of both directions under its own name, the given keyword arguments that are not None
win, and there is nothing else but the duration of this task.  A missing direction raises `KeyError`. -/
theorem C94_retrieval (rp task : Key) (evaluate : A → PyDict Key (PyDict Key ℝ)) (t0 t1 : ℝ) (vars : A)
    (kwargs : PyDict Key (Option ℝ)) (hk : (keys kwargs).Nodup) :
    (∀ t2i i2t, get? (evaluate vars) "txt2img".toList = some t2i → get? (evaluate vars) "img2txt".toList = some i2t →
      (keys t2i).Nodup → (keys i2t).Nodup →
      ∃ report own, retrieval rp task evaluate t0 t1 vars kwargs = .ok report ∧ Reports own kwargs report ∧
        (∀ m v, get? t2i m = some v → own (rp ++ "/".toList ++ task ++ "/txt2img/".toList ++ m) = some v) ∧
        (∀ m v, get? i2t m = some v → own (rp ++ "/".toList ++ task ++ "/img2txt/".toList ++ m) = some v) ∧
        own (rp ++ "/".toList ++ task ++ "/duration_secs".toList) = some (t1 - t0) ∧
        ∀ k, own k ≠ none → (∃ m ∈ keys t2i, k = rp ++ "/".toList ++ task ++ "/txt2img/".toList ++ m) ∨
          (∃ m ∈ keys i2t, k = rp ++ "/".toList ++ task ++ "/img2txt/".toList ++ m) ∨
          k = rp ++ "/".toList ++ task ++ "/duration_secs".toList) ∧
    ((get? (evaluate vars) "txt2img".toList = none ∨ get? (evaluate vars) "img2txt".toList = none) →
      retrieval rp task evaluate t0 t1 vars kwargs = .error .keyError) := by
  constructor
  · intro t2i i2t h1 h2 n1 n2
    let a : List (Key × ℝ) := t2i.map fun kv => (key rp task ("txt2img/".toList ++ kv.1), kv.2)
    let b : List (Key × ℝ) := i2t.map fun kv => (key rp task ("img2txt/".toList ++ kv.1), kv.2)
    let m := set (merge (merge [] (ofItems a)) (ofItems b)) (key rp task "duration_secs".toList) (t1 - t0)
    have kd : rp ++ "/".toList ++ task ++ "/duration_secs".toList = key rp task "duration_secs".toList := by simp [key]
    have kt : ∀ x, rp ++ "/".toList ++ task ++ "/txt2img/".toList ++ x = key rp task ("txt2img/".toList ++ x) := fun x => by
      simp [key]
    have ki : ∀ x, rp ++ "/".toList ++ task ++ "/img2txt/".toList ++ x = key rp task ("img2txt/".toList ++ x) := fun x => by
      simp [key]
    have kinj : ∀ x y : Key, key rp task x = key rp task y → x = y := fun x y h => by
      unfold key at h
      have := List.append_cancel_left (List.cons.inj (List.append_cancel_left h)).2
      exact (List.cons.inj this).2
    have dt : ∀ x : Key, "duration_secs".toList ≠ "txt2img/".toList ++ x := fun x h => by simp at h
    have di : ∀ x : Key, "duration_secs".toList ≠ "img2txt/".toList ++ x := fun x h => by simp at h
    have ti : ∀ x y : Key, "txt2img/".toList ++ x ≠ "img2txt/".toList ++ y := fun x y h => by simp at h
    have getm : ∀ k, k ≠ key rp task "duration_secs".toList → get? m k =
        (get? (ofItems b) k).orElse (fun _ => get? (ofItems a) k) := by
      intro k hk
      simp only [m]
      rw [get?_set, if_neg (Ne.symm hk), get?_merge _ _ (nodup_ofItems b), get?_merge _ _ (nodup_ofItems a)]
      cases get? (ofItems b) k with
      | some v => rfl
      | none => cases get? (ofItems a) k <;> rfl
    have nota : ∀ k, k ∉ keys a → get? (ofItems a) k = none := fun k h => get?_foldl_not a [] k h
    have notb : ∀ k, k ∉ keys b → get? (ofItems b) k = none := fun k h => get?_foldl_not b [] k h
    refine ⟨merge m (given kwargs), get? m, ?_, reports_merge m kwargs hk, ?_, ?_, ?_, ?_⟩
    · simp only [retrieval, h1, h2]
      rfl
    · intro x v hx
      rw [kt, getm _ fun h => dt x (kinj _ _ h).symm, notb]
      · have hm := (get?_eq_some t2i n1 x v).1 hx
        have : get? (ofItems a) (key rp task ("txt2img/".toList ++ x)) = some v := by
          apply get?_foldl_mem
          · exact List.mem_map.2 ⟨(x, v), hm, rfl⟩
          · intro w hw
            obtain ⟨⟨x', w'⟩, hw', he⟩ := List.mem_map.1 hw
            simp only [Prod.mk.injEq] at he
            have hxx := List.append_cancel_left (kinj _ _ he.1)
            subst hxx
            have := (get?_eq_some t2i n1 x' w').2 hw'
            rw [hx] at this
            rw [← he.2, Option.some.inj this]
        rw [this]
        rfl
      · intro h
        obtain ⟨e, he, heq⟩ := List.mem_map.1 h
        obtain ⟨kv, _, rfl⟩ := List.mem_map.1 he
        exact ti _ _ (kinj _ _ heq).symm
    · intro x v hx
      rw [ki, getm _ fun h => di x (kinj _ _ h).symm]
      have hm := (get?_eq_some i2t n2 x v).1 hx
      have : get? (ofItems b) (key rp task ("img2txt/".toList ++ x)) = some v := by
        apply get?_foldl_mem
        · exact List.mem_map.2 ⟨(x, v), hm, rfl⟩
        · intro w hw
          obtain ⟨⟨x', w'⟩, hw', he⟩ := List.mem_map.1 hw
          simp only [Prod.mk.injEq] at he
          have hxx := List.append_cancel_left (kinj _ _ he.1)
          subst hxx
          have := (get?_eq_some i2t n2 x' w').2 hw'
          rw [hx] at this
          rw [← he.2, Option.some.inj this]
      rw [this]
      rfl
    · rw [kd]
      simp only [m]
      rw [get?_set, if_pos rfl]
    · intro k hk'
      by_cases hd : k = key rp task "duration_secs".toList
      · exact Or.inr (Or.inr (by rw [hd, kd]))
      rw [getm k hd] at hk'
      by_cases hb : k ∈ keys b
      · obtain ⟨e, he, rfl⟩ := List.mem_map.1 hb
        obtain ⟨kv, hkv, rfl⟩ := List.mem_map.1 he
        exact Or.inr (Or.inl ⟨kv.1, List.mem_map.2 ⟨kv, hkv, rfl⟩, by rw [ki]⟩)
      · rw [notb k hb] at hk'
        by_cases ha : k ∈ keys a
        · obtain ⟨e, he, rfl⟩ := List.mem_map.1 ha
          obtain ⟨kv, hkv, rfl⟩ := List.mem_map.1 he
          exact Or.inl ⟨kv.1, List.mem_map.2 ⟨kv, hkv, rfl⟩, by rw [kt]⟩
        · rw [nota k ha] at hk'
          exact absurd rfl hk'
  · intro h
    unfold retrieval
    simp only
    cases h1 : get? (evaluate vars) "txt2img".toList with
    | none => rfl
    | some t2i =>
      simp only
      cases h2 : get? (evaluate vars) "img2txt".toList with
      | none => rfl
      | some i2t =>
        rw [h1, h2] at h
        rcases h with h | h <;> cases h

-- Non-vacuity: two tasks, the second one of 3 seconds after one of 5 seconds; a keyword argument replaces the first accuracy.
example : ∃ report, zeroShot "z".toList ["a".toList, "b".toList]
      (fun (v : ℝ) t => [("accuracy".toList, if t = "a".toList then v else 2 * v)]) 10 (fun i => if i = 0 then 15 else 18) 1
      [("z/a/accuracy".toList, some 9), ("y".toList, none)] = .ok report ∧
    get? report "z/a/accuracy".toList = some 9 ∧ get? report "z/b/accuracy".toList = some 2 ∧
    get? report "z/b/duration_secs".toList = some 8 ∧ get? report "y".toList = none := by
  obtain ⟨report, own, h1, h2, h3, h4⟩ := C94_zero_shot "z".toList ["a".toList, "b".toList] (by decide)
    (fun (v : ℝ) t => [("accuracy".toList, if t = "a".toList then v else 2 * v)]) (fun v t => if t = "a".toList then v else 2 * v)
    (by intro v t _; simp [get?]) 10 (fun i => if i = 0 then 15 else 18) 1 [("z/a/accuracy".toList, some 9), ("y".toList, none)]
    (by simp [keys])
  have h31 := h3 1 (by simp)
  refine ⟨report, h1, ?_, ?_, ?_, ?_⟩
  · rw [h2]; simp [get?]
  · rw [h2]
    have : own "z/b/accuracy".toList = some 2 := by
      refine h31.1.trans ?_
      simp
    rw [this]; simp [get?]
  · rw [h2]
    have : own "z/b/duration_secs".toList = some 8 := by
      refine h31.2.trans ?_
      norm_num
    rw [this]; simp [get?]
  · rw [h2]
    have : own "y".toList = none := by
      by_contra hc
      obtain ⟨t, _, h | h⟩ := h4 _ hc
      · have := congrArg List.length h
        simp at this
      · have := congrArg List.length h
        simp at this
    simp only [get?]
    rw [this]
    simp

-- Non-vacuity of the counterexample and of the retrieval.
example : ∃ (evaluate : Unit → Key → PyDict Key ℝ) (clock : Nat → ℝ), "a".toList ≠ "b".toList ∧
    get? (evaluate () "a".toList) "accuracy".toList = some 1 ∧ get? (evaluate () "b".toList) "accuracy".toList = some 1 ∧
    (0 : ℝ) < clock 0 :=
  ⟨fun _ _ => [("accuracy".toList, 1)], fun _ => 1, by decide, by simp [get?], by simp [get?], by norm_num⟩

example : ∃ (evaluate : Unit → PyDict Key (PyDict Key ℝ)) (t2i i2t : PyDict Key ℝ),
    get? (evaluate ()) "txt2img".toList = some t2i ∧ get? (evaluate ()) "img2txt".toList = some i2t ∧ (keys t2i).Nodup ∧
    (keys i2t).Nodup ∧ t2i ≠ [] :=
  ⟨fun _ => [("txt2img".toList, [("r@1".toList, 0.5)]), ("img2txt".toList, [("r@1".toList, 0.25), ("r@5".toList, 1)])],
    [("r@1".toList, 0.5)], [("r@1".toList, 0.25), ("r@5".toList, 1)], by simp [get?], by simp [get?], by simp [keys],
    by simp [keys], by simp⟩

end Verif.ContrastiveEval
