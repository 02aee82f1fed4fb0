import Verif.Model.FewshotAction
import Verif.Proofs.PyDict
import Verif.Proofs.Summarizer
import Verif.Proofs.EnsembleEval
import Verif.Props.EvalAction

/-!
Helper lemmas about the few-shot action.
-/

namespace Verif.FewshotAction

open Verif Verif.Fewshot Verif.EvalAction Verif.PyDict

variable {A β K : Type}

/-- The last occurrence of a character splits a list in one way. -/
theorem split_last {x : Char} {a b s t : List Char} (hs : x ∉ s) (ht : x ∉ t) (h : a ++ x :: s = b ++ x :: t) :
    a = b ∧ s = t := by
  induction a generalizing b with
  | nil =>
    cases b with
    | nil => simpa using h
    | cons y b =>
      simp only [List.nil_append, List.cons_append, List.cons.injEq] at h
      exact absurd (h.2 ▸ by simp) hs
  | cons y a ih =>
    cases b with
    | nil =>
      simp only [List.nil_append, List.cons_append, List.cons.injEq] at h
      exact absurd (h.2 ▸ by simp) ht
    | cons z b =>
      simp only [List.cons_append, List.cons.injEq] at h
      obtain ⟨h1, h2⟩ := ih h.2
      exact ⟨by rw [h.1, h1], h2⟩

theorem natStr_not_mem (n : Nat) (x : Char) (hx : ¬ CkptNames.Digit x) : x ∉ PyStr.natStr n :=
  fun h => hx ((CkptPath.digits_natStr n).2 _ h)

theorem intStr_slash (a : Int) : '/' ∉ Summarizer.intStr a := by
  unfold Summarizer.intStr
  have := natStr_not_mem a.natAbs '/' (by simp [CkptNames.Digit])
  split <;> simp [this]

theorem intStr_inj {a b : Int} (h : Summarizer.intStr a = Summarizer.intStr b) : a = b := by
  unfold Summarizer.intStr at h
  have hd : ∀ n : Nat, '-' ∉ PyStr.natStr n := fun n => natStr_not_mem n '-' (by simp [CkptNames.Digit])
  split at h <;> split at h
  · have := Summarizer.natStr_inj (List.cons.inj h).2
    omega
  · exact absurd (h ▸ by simp) (hd b.natAbs)
  · exact absurd (h ▸ by simp) (hd a.natAbs)
  · have := Summarizer.natStr_inj h
    omega

theorem shotKey_inj {pre n n' : Key} {s s' : Int} (h : shotKey pre n s = shotKey pre n' s') : n = n' ∧ s = s' := by
  unfold shotKey at h
  have h1 := (List.cons.inj (List.append_cancel_left h)).2
  have hx : ∀ s : Int, '/' ∉ Summarizer.intStr s ++ "shot".toList := fun s => by
    simp [intStr_slash]
  obtain ⟨e1, e2⟩ := split_last (hx s) (hx s') h1
  exact ⟨e1, intStr_inj (List.append_cancel_right e2)⟩

theorem bestKey_inj {pre : Key} {s s' : Int} (h : bestKey pre s = bestKey pre s') : s = s' := by
  unfold bestKey at h
  exact intStr_inj (List.append_cancel_right (List.cons.inj (List.append_cancel_left h)).2)

theorem secsKey_inj {pre n n' : Key} (h : secsKey pre n = secsKey pre n') : n = n' := by
  unfold secsKey at h
  exact List.append_cancel_right (List.cons.inj (List.append_cancel_left h)).2

theorem last_shotKey (pre n : Key) (s : Int) : (shotKey pre n s).getLast? = some 't' := by
  have : shotKey pre n s = (pre ++ '/' :: (n ++ '/' :: (Summarizer.intStr s ++ "sho".toList))) ++ ['t'] := by
    simp [shotKey]
  rw [this, List.getLast?_concat]

theorem last_bestKey (pre : Key) (s : Int) : (bestKey pre s).getLast? = some '2' := by
  have : bestKey pre s = (pre ++ '/' :: (Summarizer.intStr s ++ "shot_best_l".toList)) ++ ['2'] := by
    simp [bestKey]
  rw [this, List.getLast?_concat]

theorem last_secsKey (pre n : Key) : (secsKey pre n).getLast? = some 's' := by
  have : secsKey pre n = (pre ++ '/' :: (n ++ "/duration_sec".toList)) ++ ['s'] := by
    simp [secsKey]
  rw [this, List.getLast?_concat]

theorem last_totalKey (pre : Key) : (pre ++ "/duration_secs".toList).getLast? = some 's' := by
  have : pre ++ "/duration_secs".toList = (pre ++ "/duration_sec".toList) ++ ['s'] := by simp
  rw [this, List.getLast?_concat]

theorem ne_of_last {a b : Key} {x y : Char} (ha : a.getLast? = some x) (hb : b.getLast? = some y) (h : x ≠ y) : a ≠ b :=
  fun e => h (Option.some.inj (by rw [← ha, ← hb, e]))

theorem secs_ne_total (pre n : Key) : secsKey pre n ≠ pre ++ "/duration_secs".toList := by
  intro h
  have := congrArg List.length h
  simp [secsKey] at this

theorem seedName_inj (cfg : Config) {n n' : Key} {i j : Nat} (hi : i < cfg.seedsPerStep) (hj : j < cfg.seedsPerStep)
    (h : seedName cfg n i = seedName cfg n' j) : n = n' ∧ i = j := by
  unfold seedName at h
  split at h
  · exact ⟨h, by omega⟩
  · have hd : ∀ n : Nat, '-' ∉ PyStr.natStr n := fun n => natStr_not_mem n '-' (by simp [CkptNames.Digit])
    have e : ∀ (n : Key) (i : Nat), n ++ "-seed-".toList ++ PyStr.natStr i =
        (n ++ "-seed".toList) ++ '-' :: PyStr.natStr i := fun n i => by simp
    rw [e, e] at h
    obtain ⟨h1, h2⟩ := split_last (hd i) (hd j) h
    exact ⟨List.append_cancel_right h1, Summarizer.natStr_inj h2⟩

section Dict
variable {κ ν : Type} [DecidableEq κ]

theorem get?_foldl_not (items d : List (κ × ν)) (k : κ) (h : k ∉ keys items) :
    get? (items.foldl (fun d kv => set d kv.1 kv.2) d) k = get? d k := by
  induction items generalizing d with
  | nil => rfl
  | cons e items ih =>
    simp only [keys, List.map_cons, List.mem_cons, not_or] at h
    rw [List.foldl_cons, ih _ h.2, get?_set, if_neg (Ne.symm h.1)]

theorem get?_foldl_mem (items d : List (κ × ν)) (k : κ) (v : ν) (hm : (k, v) ∈ items)
    (hu : ∀ w, (k, w) ∈ items → w = v) :
    get? (items.foldl (fun d kv => set d kv.1 kv.2) d) k = some v := by
  induction items generalizing d with
  | nil => simp at hm
  | cons e items ih =>
    rw [List.foldl_cons]
    by_cases hk : k ∈ keys items
    · obtain ⟨⟨k', w⟩, hw, rfl⟩ := List.mem_map.1 hk
      have hwv := hu w (by simp only [List.mem_cons]; exact Or.inr hw)
      subst hwv
      exact ih _ hw fun w' h' => hu w' (List.mem_cons_of_mem _ h')
    · rw [get?_foldl_not _ _ _ hk]
      rcases List.mem_cons.1 hm with h | h
      · rw [← h, get?_set, if_pos rfl]
      · exact absurd (List.mem_map.2 ⟨_, h, rfl⟩) hk

theorem nodup_ofItems (items : List (κ × ν)) : (keys (ofItems items)).Nodup := by
  unfold ofItems
  have : ∀ (items d : List (κ × ν)), (keys d).Nodup →
      (keys (items.foldl (fun d kv => set d kv.1 kv.2) d)).Nodup := by
    intro items
    induction items with
    | nil => exact fun d h => h
    | cons e items ih => exact fun d h => ih _ (nodup_keys_set d e.1 e.2 h)
  exact this items [] (by simp [keys])

end Dict

theorem merge_items_mem (a : PyDict Key Value) (items : List (Key × Value)) (k : Key) (v : Value) (hm : (k, v) ∈ items)
    (hu : ∀ w, (k, w) ∈ items → w = v) : get? (merge a (ofItems items)) k = some v := by
  rw [get?_merge _ _ (nodup_ofItems items)]
  unfold ofItems
  rw [get?_foldl_mem items [] k v hm hu]
  rfl

theorem merge_items_not (a : PyDict Key Value) (items : List (Key × Value)) (k : Key) (h : k ∉ keys items) :
    get? (merge a (ofItems items)) k = get? a k := by
  rw [get?_merge _ _ (nodup_ofItems items)]
  unfold ofItems
  rw [get?_foldl_not items [] k h]
  rfl

theorem foldlM_nested {σ ι κ : Type} (f : ι → σ → κ → Except PyErr σ) (l : List ι) (m : List κ) (a : σ) :
    l.foldlM (fun acc i => m.foldlM (f i) acc) a =
      (l.flatMap fun i => m.map fun x => (i, x)).foldlM (fun acc p => f p.1 acc p.2) a := by
  induction l generalizing a with
  | nil => rfl
  | cons i l ih =>
    rw [List.foldlM_cons, List.flatMap_cons, List.foldlM_append, List.foldlM_map]
    congr 1
    funext b
    exact ih b

/-- Every iterator is at its beginning. -/
def Fresh (S : Store β) : Prop := ∀ id it, get? S id = some it → it.remaining = it.contents

/-- Two stores with the same iterators in the same positions. -/
def Same (S T : Store β) : Prop := ∀ id, get? T id = get? S id

/-- All batches of an iterator. -/
def batchesOf (S : Store β) (id : Id) : List β := match get? S id with
  | some it => it.contents
  | none => []

/-- The iterators of a task exist and are two different ones. -/
def TaskOk (S : Store β) (i : Info) : Prop := get? S i.train ≠ none ∧ get? S i.test ≠ none ∧ i.train ≠ i.test

theorem drain_some (T : Store β) (id : Id) (it : Iter β) (h : get? T id = some it) :
    drain T id = (it.remaining, set T id ⟨it.contents, []⟩) := by
  simp only [drain, h]

theorem reset_some (T : Store β) (id : Id) (it : Iter β) (h : get? T id = some it) :
    reset T id = set T id ⟨it.contents, it.contents⟩ := by
  simp only [reset, h]

theorem evalOne_ok (lib : Lib K) (cfg : Config) (eval : EvalFn A β K) (c : Call A) (sub : Nat) (S T : Store β)
    (hf : Fresh S) (hs : Same S T) (all : Results) (metrics : PyDict Key Value) (ni : Key × Info) (ht : TaskOk S ni.2)
    (res : PyDict (Int × ℝ) ℝ)
    (he : eval ni.2.numClasses (makeState lib cfg sub c.step) c.vars (batchesOf S ni.2.train) (batchesOf S ni.2.test)
      (permuteSeed lib cfg sub c.step) = .ok res) :
    ∃ T', Same S T' ∧ evalOne lib cfg eval c sub (T, all, metrics) ni =
      .ok (T', set all (seedName cfg ni.1 sub) res,
        set metrics (secsKey cfg.reportProgressName (seedName cfg ni.1 sub)) .seconds) := by
  obtain ⟨h1, h2, h3⟩ := ht
  obtain ⟨itr, e1⟩ := Option.ne_none_iff_exists'.1 h1
  obtain ⟨ite, e2⟩ := Option.ne_none_iff_exists'.1 h2
  have r1 := hf _ _ e1
  have r2 := hf _ _ e2
  have b1 : batchesOf S ni.2.train = itr.contents := by simp [batchesOf, e1]
  have b2 : batchesOf S ni.2.test = ite.contents := by simp [batchesOf, e2]
  have d1 := drain_some T ni.2.train itr (by rw [hs, e1])
  have d2 := drain_some (set T ni.2.train ⟨itr.contents, []⟩) ni.2.test ite (by
    rw [get?_set, if_neg h3, hs, e2])
  have d3 := reset_some (set (set T ni.2.train ⟨itr.contents, []⟩) ni.2.test ⟨ite.contents, []⟩) ni.2.train
    ⟨itr.contents, []⟩ (by rw [get?_set, if_neg (Ne.symm h3), get?_set, if_pos rfl])
  have d4 := reset_some (set (set (set T ni.2.train ⟨itr.contents, []⟩) ni.2.test ⟨ite.contents, []⟩) ni.2.train
    ⟨itr.contents, itr.contents⟩) ni.2.test ⟨ite.contents, []⟩ (by
      rw [get?_set, if_neg h3, get?_set, if_pos rfl])
  refine ⟨reset (reset (set (set T ni.2.train ⟨itr.contents, []⟩) ni.2.test ⟨ite.contents, []⟩) ni.2.train) ni.2.test,
    ?_, ?_⟩
  · rw [d3, d4]
    intro id
    rw [get?_set, get?_set, get?_set, get?_set]
    by_cases k2 : ni.2.test = id
    · subst k2
      rw [if_pos rfl, e2]
      cases ite
      simp only at r2
      simp [r2]
    · by_cases k1 : ni.2.train = id
      · subst k1
        rw [if_neg k2, if_pos rfl, e1]
        cases itr
        simp only at r1
        simp [r1]
      · rw [if_neg k2, if_neg k1, if_neg k2, if_neg k1, hs]
  · unfold evalOne
    simp only [d1, d2]
    rw [r1, r2, ← b1, ← b2, he]
    rfl

/-- The pairs of seeds and tasks, in the order of the loops. -/
def pairs (cfg : Config) (infos : PyDict Key Info) : List (Nat × Key × Info) :=
  (List.range cfg.seedsPerStep).flatMap fun s => infos.map fun ni => (s, ni)

theorem mem_pairs {cfg : Config} {infos : PyDict Key Info} {p : Nat × Key × Info} :
    p ∈ pairs cfg infos ↔ p.1 < cfg.seedsPerStep ∧ p.2 ∈ infos := by
  unfold pairs
  simp only [List.mem_flatMap, List.mem_range, List.mem_map]
  constructor
  · rintro ⟨s, hs, ni, hni, rfl⟩
    exact ⟨hs, hni⟩
  · rintro ⟨h1, h2⟩
    exact ⟨p.1, h1, p.2, h2, rfl⟩

theorem evalAll_ok (lib : Lib K) (cfg : Config) (eval : EvalFn A β K) (c : Call A) (infos : PyDict Key Info)
    (S T : Store β) (hf : Fresh S) (hs : Same S T) (ht : ∀ ni ∈ infos, TaskOk S ni.2)
    (res : Key → Nat → PyDict (Int × ℝ) ℝ)
    (he : ∀ ni ∈ infos, ∀ sub < cfg.seedsPerStep, eval ni.2.numClasses (makeState lib cfg sub c.step) c.vars
      (batchesOf S ni.2.train) (batchesOf S ni.2.test) (permuteSeed lib cfg sub c.step) = .ok (res ni.1 sub)) :
    ∃ T', Same S T' ∧ evalAll lib cfg eval c infos T =
      .ok (T', ofItems ((pairs cfg infos).map fun p => (seedName cfg p.2.1 p.1, res p.2.1 p.1)),
        ofItems ((pairs cfg infos).map fun p =>
          (secsKey cfg.reportProgressName (seedName cfg p.2.1 p.1), Value.seconds))) := by
  unfold evalAll ofItems
  rw [foldlM_nested (fun sub acc ni => evalOne lib cfg eval c sub acc ni)]
  change ∃ T', Same S T' ∧ (pairs cfg infos).foldlM _ _ = _
  have hp : ∀ p ∈ pairs cfg infos, p.1 < cfg.seedsPerStep ∧ p.2 ∈ infos := fun p => mem_pairs.1
  have go : ∀ (l : List (Nat × Key × Info)), (∀ p ∈ l, p.1 < cfg.seedsPerStep ∧ p.2 ∈ infos) →
      ∀ (T : Store β) (all : Results) (metrics : PyDict Key Value), Same S T → ∃ T', Same S T' ∧
      l.foldlM (fun acc p => evalOne lib cfg eval c p.1 acc p.2) (T, all, metrics) = Except.ok (ε := PyErr)
        (T', (l.map fun p => (seedName cfg p.2.1 p.1, res p.2.1 p.1)).foldl (fun d kv => set d kv.1 kv.2) all,
          (l.map fun p => (secsKey cfg.reportProgressName (seedName cfg p.2.1 p.1), Value.seconds)).foldl
            (fun d kv => set d kv.1 kv.2) metrics) := by
    intro l
    induction l with
    | nil => exact fun _ T all metrics h => ⟨T, h, rfl⟩
    | cons p l ih =>
      intro hl T all metrics h
      obtain ⟨q1, q2⟩ := hl p (by simp)
      obtain ⟨T1, h1, e1⟩ := evalOne_ok lib cfg eval c p.1 S T hf h all metrics p.2 (ht _ q2) _ (he _ q2 _ q1)
      obtain ⟨T2, h2, e2⟩ := ih (fun q hq => hl q (by simp [hq])) T1 _ _ h1
      refine ⟨T2, h2, ?_⟩
      rw [List.foldlM_cons, e1]
      exact e2
  exact go _ hp T [] [] hs

theorem pairs_nodup (cfg : Config) (infos : PyDict Key Info) (hn : (keys infos).Nodup)
    (res : Key → Nat → PyDict (Int × ℝ) ℝ) :
    (keys ((pairs cfg infos).map fun p => (seedName cfg p.2.1 p.1, res p.2.1 p.1))).Nodup := by
  have e : keys ((pairs cfg infos).map fun p => (seedName cfg p.2.1 p.1, res p.2.1 p.1)) =
      (List.range cfg.seedsPerStep).flatMap fun s => (keys infos).map fun n => seedName cfg n s := by
    simp [keys, pairs, List.map_flatMap, Function.comp_def]
  rw [e, List.nodup_flatMap]
  constructor
  · intro s hs
    rw [List.mem_range] at hs
    exact hn.map_on fun a _ b _ h => (seedName_inj cfg hs hs h).1
  · refine List.Pairwise.imp_of_mem ?_ List.nodup_range
    intro s t hs ht hst
    rw [List.mem_range] at hs ht
    simp only [Function.onFun]
    rw [List.disjoint_left]
    intro a ha hb
    obtain ⟨n, _, rfl⟩ := List.mem_map.1 ha
    obtain ⟨m, _, hm⟩ := List.mem_map.1 hb
    exact hst (seedName_inj cfg ht hs hm).2.symm

end Verif.FewshotAction
