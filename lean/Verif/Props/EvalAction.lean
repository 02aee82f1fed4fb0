import Verif.Model.EvalAction
import Verif.Proofs.PyDict
import Verif.Props.Evaluator

/-!
Property C77: reports of the evaluation on several datasets (vmoe/evaluate/evaluator.py:61-223).
-/

namespace Verif.EvalAction

open Verif Verif.Evaluator Verif.PyDict

variable {X L R A : Type}

theorem get?_merge (a b : PyDict (List Char) Value) (hb : (keys b).Nodup) (k : List Char) :
    get? (merge a b) k = (get? b k).orElse (fun _ => get? a k) := by
  unfold merge
  induction b generalizing a with
  | nil => simp [get?]
  | cons kv b ih =>
    obtain ⟨k', v⟩ := kv
    have hn : k' ∉ keys b ∧ (keys b).Nodup := by simpa [keys] using hb
    rw [List.foldl_cons, ih _ hn.2, get?_set]
    by_cases hk : k' = k
    · subst hk
      rw [(get?_eq_none b k').2 hn.1]
      simp [get?]
    · simp [get?, hk]

/-- The entries of one dataset in the report. -/
noncomputable def entries (F : Fns X L R) (rngs : R) (nd : List Char × Dataset X) :
    List (List Char × Value) :=
  let s := evaluateDataset F (initState rngs) nd.2.remaining
  [(key nd.1 "prec@1", .number (fdiv s.sumCorrect s.num)),
   (key nd.1 "loss", .number (fdiv s.sumLoss s.num)), (key nd.1 "duration_secs", .seconds)]

theorem key_last (name : List Char) (metric : String) (h : metric.toList ≠ []) :
    (key name metric).getLast? = metric.toList.getLast? := by
  unfold key
  rw [List.getLast?_append, List.getLast?_cons_of_ne_nil h]
  cases hm : metric.toList.getLast? with
  | none => exact absurd (List.getLast?_eq_none_iff.1 hm) h
  | some _ => rfl

theorem key_inj (metric : String) {a b : List Char} (h : key a metric = key b metric) : a = b :=
  List.append_cancel_right h

theorem prec_ne_loss (a b : List Char) : key a "prec@1" ≠ key b "loss" := fun h => by
  have := congrArg List.getLast? h
  rw [key_last _ _ (by decide), key_last _ _ (by decide)] at this
  exact absurd this (by decide)

theorem loss_ne_secs (a b : List Char) : key a "loss" ≠ key b "duration_secs" := fun h => by
  have := congrArg (fun l => (l.reverse.drop 1).head?) h
  simp [key] at this

theorem prec_ne_secs (a b : List Char) : key a "prec@1" ≠ key b "duration_secs" := fun h => by
  have := congrArg List.getLast? h
  rw [key_last _ _ (by decide), key_last _ _ (by decide)] at this
  exact absurd this (by decide)

theorem entries_nodup (F : Fns X L R) (rngs : R) (ds : PyDict (List Char) (Dataset X))
    (h : (keys ds).Nodup) : (keys (ds.flatMap (entries F rngs))).Nodup := by
  induction ds with
  | nil => simp [keys]
  | cons nd ds ih =>
    obtain ⟨n, d⟩ := nd
    have hn : n ∉ keys ds ∧ (keys ds).Nodup := by simpa [keys] using h
    have hk : ∀ k ∈ keys (ds.flatMap (entries F rngs)), ∃ n' ∈ keys ds,
        k = key n' "prec@1" ∨ k = key n' "loss" ∨ k = key n' "duration_secs" := by
      intro k hk
      simp only [keys, List.mem_map, List.mem_flatMap] at hk
      obtain ⟨kv, ⟨nd', hnd, hkv⟩, rfl⟩ := hk
      refine ⟨nd'.1, List.mem_map.2 ⟨nd', hnd, rfl⟩, ?_⟩
      simp only [entries, List.mem_cons, List.not_mem_nil, or_false] at hkv
      rcases hkv with rfl | rfl | rfl <;> simp
    have happ : keys (((n, d) :: ds).flatMap (entries F rngs)) =
        [key n "prec@1", key n "loss", key n "duration_secs"] ++
          keys (ds.flatMap (entries F rngs)) := by
      simp [keys, entries]
    rw [happ, List.nodup_append]
    refine ⟨?_, ih hn.2, ?_⟩
    · simp [prec_ne_loss, prec_ne_secs, loss_ne_secs]
    · intro a ha b hb hab
      subst hab
      obtain ⟨n', hn', hkey⟩ := hk a hb
      have hne : n ≠ n' := fun h => hn.1 (h ▸ hn')
      simp only [List.mem_cons, List.not_mem_nil, or_false] at ha
      rcases ha with rfl | rfl | rfl
      · rcases hkey with h | h | h
        · exact hne (key_inj _ h)
        · exact prec_ne_loss _ _ h
        · exact prec_ne_secs _ _ h
      · rcases hkey with h | h | h
        · exact prec_ne_loss _ _ h.symm
        · exact hne (key_inj _ h)
        · exact loss_ne_secs _ _ h
      · rcases hkey with h | h | h
        · exact prec_ne_secs _ _ h.symm
        · exact loss_ne_secs _ _ h.symm
        · exact hne (key_inj _ h)

theorem loop_eq (F : Fns X L R) (rngs : R) (step : Nat) (ds : PyDict (List Char) (Dataset X))
    (hnd : (keys ds).Nodup) (compiled : List (List Char)) (writes metrics) :
    let new := (keys ds).filter (fun n => n ∉ compiled)
    loop F rngs step ds compiled writes metrics =
      (ds.map (fun nd => (nd.1, nd.2.reset)), compiled ++ new,
        writes ++ new.map (fun n => (step, [(key n "compile_secs", Value.seconds)])),
        (ds.flatMap (entries F rngs)).foldl (fun d kv => set d kv.1 kv.2) metrics) := by
  induction ds generalizing compiled writes metrics with
  | nil => simp [loop, keys]
  | cons nd ds ih =>
    obtain ⟨n, d⟩ := nd
    have hn : n ∉ keys ds ∧ (keys ds).Nodup := by simpa [keys] using hnd
    intro new
    unfold loop compileForDataset
    by_cases hc : n ∈ compiled
    · simp only [if_pos hc]
      rw [ih hn.2]
      have : new = (keys ds).filter (fun n => n ∉ compiled) := by
        simp [new, keys, hc]
      simp only [this, List.map_cons, List.flatMap_cons, List.foldl_append]
      rfl
    · simp only [if_neg hc]
      rw [ih hn.2]
      have hf : (keys ds).filter (fun m => m ∉ compiled ++ [n]) =
          (keys ds).filter (fun m => m ∉ compiled) := by
        apply List.filter_congr
        intro m hm
        have : m ≠ n := fun h => hn.1 (h ▸ hm)
        simp [this]
      have : new = n :: (keys ds).filter (fun n => n ∉ compiled) := by
        simp [new, keys, hc]
      simp only [this, hf, List.map_cons, List.flatMap_cons, List.foldl_append, List.append_assoc]
      rfl

theorem given_spec (kw : PyDict (List Char) (Option ℝ)) (h : (keys kw).Nodup) :
    (keys (given kw)).Nodup ∧ ∀ k, get? (given kw) k =
      (get? kw k).bind (fun o => o.map fun v => Value.number (some v)) := by
  induction kw with
  | nil => simp [given, keys, get?]
  | cons kv kw ih =>
    obtain ⟨k', o⟩ := kv
    have hn : k' ∉ keys kw ∧ (keys kw).Nodup := by simpa [keys] using h
    obtain ⟨h1, h2⟩ := ih hn.2
    cases o with
    | none =>
      have hg : given ((k', none) :: kw) = given kw := by simp [given]
      rw [hg]
      refine ⟨h1, fun k => ?_⟩
      rw [h2]
      by_cases hk : k' = k
      · subst hk
        rw [(get?_eq_none kw k').2 hn.1]
        simp [get?]
      · simp [get?, hk]
    | some v =>
      have hg : given ((k', some v) :: kw) = (k', Value.number (some v)) :: given kw := by
        simp [given]
      rw [hg]
      constructor
      · have : k' ∉ keys (given kw) := by
          rw [← get?_eq_none, h2, (get?_eq_none kw k').2 hn.1]
          rfl
        simpa [keys] using ⟨by simpa [keys] using this, by simpa [keys] using h1⟩
      · intro k
        by_cases hk : k' = k
        · simp [get?, hk]
        · simp [get?, hk, h2]

/-- Weighted mean over examples `(image, labels, validity)`; not a finite number if all weights are
zero. -/
noncomputable def weightedMean (q : X → List ℝ → ℝ) (ex : List (X × List ℝ × ℝ)) : Option ℝ :=
  open Classical in
  if (ex.map fun e => e.2.2).sum = 0 then none
  else some ((ex.map fun e => e.2.2 * q e.1 e.2.1).sum / (ex.map fun e => e.2.2).sum)

/-- What a report must contain: given keyword arguments that are not None (they win); for every
dataset the mean accuracy and loss over all its examples and a duration; nothing else. -/
structure IsReport (data : List (List Char × List (List (X × List ℝ × ℝ))))
    (loss correct : X → List ℝ → ℝ) (kwargs : PyDict (List Char) (Option ℝ))
    (report : PyDict (List Char) Value) : Prop where
  given : ∀ k v, get? kwargs k = some (some v) → get? report k = some (.number (some v))
  prec : ∀ name ex, (name, ex) ∈ data → (∀ v, get? kwargs (name ++ "/prec@1".toList) ≠ some (some v)) →
    get? report (name ++ "/prec@1".toList) = some (.number (weightedMean correct ex.flatten))
  loss : ∀ name ex, (name, ex) ∈ data → (∀ v, get? kwargs (name ++ "/loss".toList) ≠ some (some v)) →
    get? report (name ++ "/loss".toList) = some (.number (weightedMean loss ex.flatten))
  secs : ∀ name ∈ data.map Prod.fst,
    (∀ v, get? kwargs (name ++ "/duration_secs".toList) ≠ some (some v)) →
    get? report (name ++ "/duration_secs".toList) = some .seconds
  only : ∀ k, get? report k ≠ none → (∃ v, get? kwargs k = some (some v)) ∨
    ∃ name ∈ data.map Prod.fst, k = name ++ "/prec@1".toList ∨ k = name ++ "/loss".toList ∨
      k = name ++ "/duration_secs".toList

/-- The datasets at their beginning. -/
def fresh (data : List (List Char × List (List (X × List ℝ × ℝ)))) : PyDict (List Char) (Dataset X) :=
  data.map fun ne => (ne.1, ⟨ne.2.map toBatch, ne.2.map toBatch⟩)

theorem keys_fresh (data : List (List Char × List (List (X × List ℝ × ℝ)))) :
    keys (fresh data) = data.map Prod.fst := by
  simp [keys, fresh, Function.comp_def]

theorem callback_fresh (F : A → Fns X L R) (rngs : R) (f : A → X → L)
    (loss : A → L → List ℝ → List ℝ) (pred : A → L → Nat)
    (hF : ∀ a, PerExample (F a) (f a) (loss a) (pred a))
    (data : List (List Char × List (List (X × List ℝ × ℝ)))) (hd : (data.map Prod.fst).Nodup)
    (compiled writes) (c : Call A) (hkw : (keys c.kwargs).Nodup) :
    let new := (data.map Prod.fst).filter (fun n => n ∉ compiled)
    ∃ report, callback F rngs ⟨fresh data, compiled, writes⟩ c =
        ⟨fresh data, compiled ++ new,
          writes ++ new.map (fun n => (c.step, [(n ++ "/compile_secs".toList, Value.seconds)])) ++
            [(c.step, report)]⟩ ∧
      IsReport data (lossOf (f c.params) (loss c.params)) (correctOf (f c.params) (pred c.params))
        c.kwargs report := by
  intro new
  have hnd : (keys (fresh data)).Nodup := by rw [keys_fresh]; exact hd
  have hl := loop_eq (F c.params) rngs c.step (fresh data) hnd compiled writes []
  simp only [keys_fresh] at hl
  have hent := entries_nodup (F c.params) rngs (fresh data) hnd
  have hitems : ((fresh data).flatMap (entries (F c.params) rngs)).foldl
      (fun d kv => set d kv.1 kv.2) [] = (fresh data).flatMap (entries (F c.params) rngs) :=
    ofItems_of_nodup _ hent
  rw [hitems] at hl
  obtain ⟨hg1, hg2⟩ := given_spec c.kwargs hkw
  refine ⟨merge ((fresh data).flatMap (entries (F c.params) rngs)) (EvalAction.given c.kwargs), ?_, ?_⟩
  · unfold callback
    simp only [hl]
    have hreset : (fresh data).map (fun nd => (nd.1, nd.2.reset)) = fresh data := by
      simp [fresh, Dataset.reset, Function.comp_def]
    rw [hreset]
    rfl
  · have hval : ∀ k v, (k, v) ∈ (fresh data).flatMap (entries (F c.params) rngs) →
        (∀ w, get? c.kwargs k ≠ some (some w)) →
        get? (merge ((fresh data).flatMap (entries (F c.params) rngs))
          (EvalAction.given c.kwargs)) k = some v := by
      intro k v hkv hno
      rw [get?_merge _ _ hg1, hg2, (get?_eq_some _ hent k v).2 hkv]
      cases hk : get? c.kwargs k with
      | none => rfl
      | some o =>
        cases o with
        | none => rfl
        | some w => exact absurd hk (hno w)
    have hsum : ∀ ex : List (List (X × List ℝ × ℝ)),
        let s := evaluateDataset (F c.params) (initState rngs) (ex.map toBatch)
        fdiv s.sumCorrect s.num =
          weightedMean (correctOf (f c.params) (pred c.params)) ex.flatten ∧
        fdiv s.sumLoss s.num = weightedMean (lossOf (f c.params) (loss c.params)) ex.flatten := by
      intro ex s
      obtain ⟨h1, h2, h3⟩ := C34_batches (F c.params) (f c.params) (loss c.params) (pred c.params)
        (hF c.params) (initState rngs) ex
      have e1 : s.num = (ex.flatten.map fun e => e.2.2).sum := by
        refine h1.trans ?_
        simp [initState]
      have e2 : s.sumLoss = (ex.flatten.map fun e => e.2.2 *
          lossOf (f c.params) (loss c.params) e.1 e.2.1).sum := by
        refine h2.trans ?_
        simp [initState]
      have e3 : s.sumCorrect = (ex.flatten.map fun e => e.2.2 *
          correctOf (f c.params) (pred c.params) e.1 e.2.1).sum := by
        refine h3.trans ?_
        simp [initState]
      unfold fdiv weightedMean
      rw [e1, e2, e3]
      exact ⟨rfl, rfl⟩
    have hmem : ∀ name ex, (name, ex) ∈ data →
        ∀ kv ∈ entries (F c.params) rngs (name, ⟨ex.map toBatch, ex.map toBatch⟩),
          kv ∈ (fresh data).flatMap (entries (F c.params) rngs) := by
      intro name ex h kv hkv
      exact List.mem_flatMap.2 ⟨_, List.mem_map.2 ⟨_, h, rfl⟩, hkv⟩
    refine ⟨?_, ?_, ?_, ?_, ?_⟩
    · intro k v hk
      rw [get?_merge _ _ hg1, hg2, hk]
      rfl
    · intro name ex h hno
      rw [← (hsum ex).1]
      exact hval _ _ (hmem name ex h _ (by simp [entries, key])) hno
    · intro name ex h hno
      rw [← (hsum ex).2]
      exact hval _ _ (hmem name ex h _ (by simp [entries, key])) hno
    · intro name h hno
      obtain ⟨⟨n, ex⟩, hne, rfl⟩ := List.mem_map.1 h
      exact hval _ _ (hmem n ex hne _ (by simp [entries, key])) hno
    · intro k hk
      by_cases hv : ∃ v, get? c.kwargs k = some (some v)
      · exact Or.inl hv
      right
      push Not at hv
      have hgn : get? (EvalAction.given c.kwargs) k = none := by
        rw [hg2]
        cases hk : get? c.kwargs k with
        | none => rfl
        | some o =>
          cases o with
          | none => rfl
          | some w => exact absurd hk (hv w)
      rw [get?_merge _ _ hg1, hgn] at hk
      have hk' : k ∈ keys ((fresh data).flatMap (entries (F c.params) rngs)) := by
        by_contra hne
        exact hk ((get?_eq_none _ _).2 hne)
      simp only [keys, List.mem_map, List.mem_flatMap, fresh] at hk'
      obtain ⟨kv, ⟨nd, ⟨ne, hne, rfl⟩, hkv⟩, rfl⟩ := hk'
      refine ⟨ne.1, List.mem_map.2 ⟨ne, hne, rfl⟩, ?_⟩
      simp only [entries, List.mem_cons, List.not_mem_nil, or_false] at hkv
      rcases hkv with rfl | rfl | rfl <;> simp [key]

/-- C77: over any sequence of calls, starting with datasets at their beginning and nothing compiled:
every dataset is compiled exactly once, during the first call; every call then writes one report, at
its own step, with the parameters of that call, over all examples of every dataset (no matter how
many evaluations came before); and the datasets are again at their beginning. -/
theorem C77_reports (F : A → Fns X L R) (rngs : R) (f : A → X → L)
    (loss : A → L → List ℝ → List ℝ) (pred : A → L → Nat)
    (hF : ∀ a, PerExample (F a) (f a) (loss a) (pred a))
    (data : List (List Char × List (List (X × List ℝ × ℝ)))) (hd : (data.map Prod.fst).Nodup)
    (c : Call A) (cs : List (Call A)) (hkw : ∀ c' ∈ c :: cs, (keys c'.kwargs).Nodup) :
    ∃ reports : List (PyDict (List Char) Value),
      run F rngs ⟨fresh data, [], []⟩ (c :: cs) =
        ⟨fresh data, data.map Prod.fst,
          data.map (fun ne => (c.step, [(ne.1 ++ "/compile_secs".toList, Value.seconds)])) ++
            List.zipWith (fun c r => (c.step, r)) (c :: cs) reports⟩ ∧
      List.Forall₂ (fun c r => IsReport data (lossOf (f c.params) (loss c.params))
        (correctOf (f c.params) (pred c.params)) c.kwargs r) (c :: cs) reports := by
  have hrest : ∀ (cs : List (Call A)) (writes), (∀ c' ∈ cs, (keys c'.kwargs).Nodup) →
      ∃ reports : List (PyDict (List Char) Value),
      run F rngs ⟨fresh data, data.map Prod.fst, writes⟩ cs =
        ⟨fresh data, data.map Prod.fst,
          writes ++ List.zipWith (fun c r => (c.step, r)) cs reports⟩ ∧
      List.Forall₂ (fun c r => IsReport data (lossOf (f c.params) (loss c.params))
        (correctOf (f c.params) (pred c.params)) c.kwargs r) cs reports := by
    intro cs
    induction cs with
    | nil => intro writes _; exact ⟨[], by simp [run], .nil⟩
    | cons c cs ih =>
      intro writes hkw
      obtain ⟨r, hr, hrep⟩ := callback_fresh F rngs f loss pred hF data hd (data.map Prod.fst) writes c
        (hkw c (by simp))
      have hnew : (data.map Prod.fst).filter (fun n => n ∉ data.map Prod.fst) = [] := by
        rw [List.filter_eq_nil_iff]
        intro n hn
        simpa using hn
      rw [hnew] at hr
      simp only [List.append_nil, List.map_nil] at hr
      obtain ⟨rs, hrs, hf⟩ := ih (writes ++ [(c.step, r)]) fun c' h => hkw c' (by simp [h])
      refine ⟨r :: rs, ?_, .cons hrep hf⟩
      unfold run at hrs ⊢
      rw [List.foldl_cons, hr, hrs]
      simp
  obtain ⟨r, hr, hrep⟩ := callback_fresh F rngs f loss pred hF data hd [] [] c (hkw c (by simp))
  have hnew : (data.map Prod.fst).filter (fun n => n ∉ ([] : List (List Char))) = data.map Prod.fst := by
    simp
  rw [hnew] at hr
  simp only [List.nil_append] at hr
  obtain ⟨rs, hrs, hf⟩ := hrest cs ((data.map Prod.fst).map (fun n =>
    (c.step, [(n ++ "/compile_secs".toList, Value.seconds)])) ++ [(c.step, r)])
    fun c' h => hkw c' (by simp [h])
  refine ⟨r :: rs, ?_, .cons hrep hf⟩
  unfold run at hrs ⊢
  rw [List.foldl_cons, hr, hrs]
  simp [Function.comp_def]

-- Non-vacuity: two datasets, one of them with only a fake example, evaluated twice; the second call
-- gives a keyword argument that replaces the accuracy of the first dataset.
example : ∃ w₁ w₂ r₁ r₂,
    let F : ℝ → Fns ℝ ℝ Unit := fun a => ⟨fun r => (r, r), fun xs _ => xs.map (· + a),
      fun ls ys => List.zipWith (fun l y => [l - y.sum]) ls ys, fun ls => ls.map fun _ => 1⟩
    let data : List (List Char × List (List (ℝ × List ℝ × ℝ))) :=
      [("a".toList, [[(3, [0, 1], 1)], [(5, [0, 1], 1)]]), ("b".toList, [[(7, [0, 1], 0)]])]
    (run F () ⟨fresh data, [], []⟩ [⟨10, 1, []⟩, ⟨20, 2, [("a/prec@1".toList, some 7)]⟩]).writes =
      [w₁, w₂, (10, r₁), (20, r₂)] ∧
    get? r₁ "a/loss".toList = some (.number (some 4)) ∧
    get? r₁ "b/loss".toList = some (.number none) ∧
    get? r₂ "a/loss".toList = some (.number (some 5)) ∧
    get? r₂ "a/prec@1".toList = some (.number (some 7)) := by
  obtain ⟨rs, h1, h2⟩ := C77_reports
    (fun a : ℝ => (⟨fun r => (r, r), fun xs _ => xs.map (· + a),
      fun ls ys => List.zipWith (fun l y => [l - y.sum]) ls ys, fun ls => ls.map fun _ => 1⟩ :
        Fns ℝ ℝ Unit)) () (fun a x => x + a) (fun _ l y => [l - y.sum]) (fun _ _ => 1)
    (fun a => ⟨fun _ _ => rfl, fun _ _ => rfl, fun _ => rfl⟩)
    [("a".toList, [[(3, [0, 1], 1)], [(5, [0, 1], 1)]]), ("b".toList, [[(7, [0, 1], 0)]])]
    (by simp) ⟨10, 1, []⟩ [⟨20, 2, [("a/prec@1".toList, some 7)]⟩] (by simp [keys])
  obtain ⟨r₁, rs', e1, e2, rfl⟩ := List.forall₂_cons_left_iff.1 h2
  obtain ⟨r₂, rs'', e3, -, rfl⟩ := List.forall₂_cons_left_iff.1 e2
  refine ⟨(10, [("a".toList ++ "/compile_secs".toList, .seconds)]),
    (10, [("b".toList ++ "/compile_secs".toList, .seconds)]), r₁, r₂, ?_, ?_, ?_, ?_, ?_⟩
  · rw [h1]
    rfl
  · refine (e1.loss "a".toList [[(3, [0, 1], 1)], [(5, [0, 1], 1)]] (by simp) (by simp [get?])).trans ?_
    norm_num [weightedMean, lossOf]
  · refine (e1.loss "b".toList [[(7, [0, 1], 0)]] (by simp) (by simp [get?])).trans ?_
    norm_num [weightedMean]
  · refine (e3.loss "a".toList [[(3, [0, 1], 1)], [(5, [0, 1], 1)]] (by simp) (by
      simp [get?])).trans ?_
    norm_num [weightedMean, lossOf]
  · exact e3.given _ 7 (by simp [get?])

end Verif.EvalAction
