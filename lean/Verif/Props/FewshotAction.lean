import Verif.Model.FewshotAction
import Verif.Proofs.FewshotAction
import Verif.Props.Fewshot
import Verif.Props.FewshotBest

/-!
Property C93: reports of the few-shot evaluation (vmoe/evaluate/fewshot.py:52-224, 310-329).
-/

namespace Verif.FewshotAction

open Verif Verif.Fewshot Verif.FewshotSpec Verif.EvalAction Verif.PyDict

variable {A β K : Type} {D : Nat}

/-- The random keys that a task must get: none without names; otherwise one per name, made from the seed, the index of the
repetition and, only if asked for, the step. -/
def specRngs (lib : Lib K) (cfg : Config) (i step : Nat) : PyDict Key K :=
  match cfg.rngKeys with
  | [] => []
  | k :: ks =>
    let base := lib.foldIn (lib.prngKey cfg.seed) i
    ofItems ((k :: ks).zip (lib.split (match cfg.seedFoldInStep with
      | true => lib.foldIn base step
      | false => base) (ks.length + 1)))

/-- The seed for choosing the examples: in the range of a 31-bit number, and independent of the step unless asked for. -/
def IsSeed (lib : Lib K) (cfg : Config) (i step s : Nat) : Prop :=
  s < 2 ^ 31 ∧ ∃ q : Int, (s : Int) + q * (2 ^ 31 : Int) =
    lib.hash (match cfg.seedFoldInStep with
      | true => [cfg.seed, (step : Int), (i : Int)]
      | false => [cfg.seed, (i : Int)])

/-- How a task is called in the report: with its own name if there is one repetition, and otherwise with the index of the
repetition appended. -/
def shown (cfg : Config) (name : Key) (i : Nat) : Key := match cfg.seedsPerStep with
  | 1 => name
  | _ => name ++ '-' :: 's' :: 'e' :: 'e' :: 'd' :: '-' :: PyStr.natStr i

/-- The evaluation of every task in every repetition, on all batches of its two splits, gives the accuracies `acc`. -/
def Evaluates (lib : Lib K) (cfg : Config) (eval : EvalFn A β K) (S : Store β) (infos : PyDict Key Info) (c : Call A)
    (acc : Key → Nat → Int → ℝ → ℝ) : Prop :=
  ∀ name info, (name, info) ∈ infos → ∀ i < cfg.seedsPerStep, ∀ s, IsSeed lib cfg i c.step s → ∃ res,
    eval info.numClasses (specRngs lib cfg i c.step) c.vars (batchesOf S info.train) (batchesOf S info.test) s = .ok res ∧
    ∀ shot ∈ cfg.shots, ∀ l2 ∈ cfg.l2Regs, get? res (shot, l2) = some (acc name i shot l2)

/-- The keyword argument is missing or None. -/
def NotGiven (kwargs : PyDict Key (Option ℝ)) (k : Key) : Prop := ∀ v, get? kwargs k ≠ some (some v)

/-- What a report must contain.  `best` is the chosen regularization per number of shots. -/
structure IsReport (cfg : Config) (names : List Key) (acc : Key → Nat → Int → ℝ → ℝ) (best : Int → ℝ)
    (kwargs : PyDict Key (Option ℝ)) (report : PyDict Key Value) : Prop where
  given : ∀ k v, get? kwargs k = some (some v) → get? report k = some (.number (some v))
  chosen : ∀ shot ∈ cfg.shots, best shot ∈ cfg.l2Regs ∧ (names ≠ [] → ∀ l2 ∈ cfg.l2Regs,
    ∃ name ∈ names, ∃ i < cfg.seedsPerStep, acc name i shot l2 ≤ acc name i shot (best shot))
  bestL2 : ∀ shot ∈ cfg.shots, ∀ k, k = cfg.reportProgressName ++ "/".toList ++ Summarizer.intStr shot ++
    "shot_best_l2".toList → NotGiven kwargs k → get? report k = some (.number (some (best shot)))
  accuracy : ∀ name ∈ names, ∀ i < cfg.seedsPerStep, ∀ shot ∈ cfg.shots, ∀ k,
    k = cfg.reportProgressName ++ "/".toList ++ shown cfg name i ++ "/".toList ++ Summarizer.intStr shot ++ "shot".toList →
    (∀ m s, cfg.mainTask = some (m, s) → k ≠ cfg.mainTaskPrefix ++ "/".toList ++ m ++ "/".toList ++ Summarizer.intStr s ++
      "shot".toList) →
    NotGiven kwargs k → get? report k = some (.number (some (acc name i shot (best shot))))
  main : ∀ m s, cfg.mainTask = some (m, s) → ∀ k, k = cfg.mainTaskPrefix ++ "/".toList ++ m ++ "/".toList ++
    Summarizer.intStr s ++ "shot".toList → NotGiven kwargs k → get? report k = some (.number (some
      ((∑ i ∈ Finset.range cfg.seedsPerStep, acc m i s (best s)) / cfg.seedsPerStep)))
  secs : ∀ name ∈ names, ∀ i < cfg.seedsPerStep, ∀ k, k = cfg.reportProgressName ++ "/".toList ++ shown cfg name i ++
    "/duration_secs".toList → NotGiven kwargs k → get? report k = some .seconds
  total : ∀ k, k = cfg.reportProgressName ++ "/duration_secs".toList → NotGiven kwargs k → get? report k = some .seconds
  only : ∀ k, get? report k ≠ none → (∃ v, get? kwargs k = some (some v)) ∨
    k = cfg.reportProgressName ++ "/duration_secs".toList ∨
    (∃ shot ∈ cfg.shots, k = cfg.reportProgressName ++ "/".toList ++ Summarizer.intStr shot ++ "shot_best_l2".toList) ∨
    (∃ name ∈ names, ∃ i < cfg.seedsPerStep, k = cfg.reportProgressName ++ "/".toList ++ shown cfg name i ++
      "/duration_secs".toList ∨ ∃ shot ∈ cfg.shots, k = cfg.reportProgressName ++ "/".toList ++ shown cfg name i ++
      "/".toList ++ Summarizer.intStr shot ++ "shot".toList) ∨
    ∃ m s, cfg.mainTask = some (m, s) ∧ k = cfg.mainTaskPrefix ++ "/".toList ++ m ++ "/".toList ++ Summarizer.intStr s ++
      "shot".toList

theorem makeState_eq (lib : Lib K) (cfg : Config) (i step : Nat) : makeState lib cfg i step = specRngs lib cfg i step := by
  unfold makeState specRngs
  cases cfg.rngKeys with
  | nil => rfl
  | cons k ks => cases cfg.seedFoldInStep <;> rfl

theorem permuteSeed_isSeed (lib : Lib K) (cfg : Config) (i step : Nat) :
    IsSeed lib cfg i step (permuteSeed lib cfg i step) := by
  unfold IsSeed permuteSeed
  have e : (if cfg.seedFoldInStep then [cfg.seed, (step : Int), (i : Int)] else [cfg.seed, (i : Int)]) =
      (match cfg.seedFoldInStep with
      | true => [cfg.seed, (step : Int), (i : Int)]
      | false => [cfg.seed, (i : Int)]) := by cases cfg.seedFoldInStep <;> rfl
  rw [e]
  generalize lib.hash _ = h
  have h1 := Int.emod_nonneg h (show (2 ^ 31 : Int) ≠ 0 by norm_num)
  have h2 := Int.emod_lt_of_pos h (show (0 : Int) < 2 ^ 31 by norm_num)
  refine ⟨by omega, h / 2 ^ 31, ?_⟩
  rw [Int.toNat_of_nonneg h1]
  have := Int.emod_add_mul_ediv h (2 ^ 31)
  linarith

theorem shown_eq (cfg : Config) (name : Key) (i : Nat) : shown cfg name i = seedName cfg name i := by
  unfold shown seedName
  split
  · rename_i h; simp [h]
  · rename_i h
    rw [if_neg h]
    simp

theorem shotKey_eq (pre n : Key) (s : Int) : shotKey pre n s =
    pre ++ "/".toList ++ n ++ "/".toList ++ Summarizer.intStr s ++ "shot".toList := by
  simp [shotKey]

theorem bestKey_eq (pre : Key) (s : Int) : bestKey pre s = pre ++ "/".toList ++ Summarizer.intStr s ++
    "shot_best_l2".toList := by
  simp [bestKey]

theorem secsKey_eq (pre n : Key) : secsKey pre n = pre ++ "/".toList ++ n ++ "/duration_secs".toList := by
  simp [secsKey]

theorem mainAccuracy_ok (cfg : Config) (all : Results) (best : PyDict Int ℝ) (name : Key) (shot : Int)
    (hpos : 0 < cfg.seedsPerStep) (v : Nat → ℝ)
    (h : ∀ i < cfg.seedsPerStep, lookup all best (seedName cfg name i) shot = .ok (v i)) :
    mainAccuracy cfg all best name shot = .ok ((∑ i ∈ Finset.range cfg.seedsPerStep, v i) / cfg.seedsPerStep) := by
  unfold mainAccuracy
  by_cases h1 : cfg.seedsPerStep = 1
  · rw [if_pos h1]
    have := h 0 hpos
    unfold seedName at this
    rw [if_pos h1] at this
    rw [this, h1]
    simp
  · rw [if_neg h1]
    have hl : ∀ n ≤ cfg.seedsPerStep, (List.range n).foldlM (fun s subSeed => do
        let a ← lookup all best (name ++ "-seed-".toList ++ PyStr.natStr subSeed) shot
        .ok (s + a)) (0 : ℝ) = Except.ok (ε := PyErr) (∑ i ∈ Finset.range n, v i) := by
      intro n
      induction n with
      | zero => intro _; rfl
      | succ n ih =>
        intro hn
        have hv := h n (by omega)
        unfold seedName at hv
        rw [if_neg h1] at hv
        rw [List.range_succ, List.foldlM_append, ih (by omega), Finset.sum_range_succ]
        change (lookup _ _ _ _ >>= _ : Except PyErr _) >>= _ = _
        rw [hv]
        rfl
    rw [hl _ le_rfl]
    change (if cfg.seedsPerStep = 0 then _ else _) = _
    rw [if_neg (by omega)]

theorem findBestL2_nodup (argsort : List ℝ → List Nat) (all : Results) (shots : List Int) (l2Regs : List ℝ)
    (best : PyDict Int ℝ) (h : findBestL2 argsort all shots l2Regs = .ok best) : (keys best).Nodup := by
  unfold findBestL2 at h
  have go : ∀ (shots : List Int) (d : PyDict Int ℝ), (keys d).Nodup → shots.foldlM (fun best shot => do
      let accs ← all.mapM fun nr => l2Regs.mapM fun l2 => match PyDict.get? nr.2 (shot, l2) with
        | some a => .ok a
        | none => .error .keyError
      let j ← bestL2 argsort l2Regs.length accs
      match l2Regs[j]? with
      | some l2 => .ok (PyDict.set best shot l2)
      | none => .error .indexError) d = Except.ok (ε := PyErr) best → (keys best).Nodup := by
    intro shots
    induction shots with
    | nil =>
      intro d hd h
      cases h
      exact hd
    | cons s shots ih =>
      intro d hd h
      rw [List.foldlM_cons] at h
      cases h1 : all.mapM fun nr => l2Regs.mapM fun l2 => match PyDict.get? nr.2 (s, l2) with
        | some a => Except.ok (ε := PyErr) a
        | none => .error .keyError with
      | error e => rw [h1] at h; cases h
      | ok accs =>
        rw [h1] at h
        change ((bestL2 _ _ _ >>= _ : Except PyErr _) >>= _) = _ at h
        cases h2 : bestL2 argsort l2Regs.length accs with
        | error e => rw [h2] at h; cases h
        | ok j =>
          rw [h2] at h
          change ((match l2Regs[j]? with | some l2 => _ | none => _ : Except PyErr _) >>= _) = _ at h
          cases h3 : l2Regs[j]? with
          | none => rw [h3] at h; cases h
          | some l2 =>
            rw [h3] at h
            exact ih _ (nodup_keys_set d s l2 hd) h
  exact go shots [] (by simp [keys]) h

theorem callback_ok (lib : Lib K) (argsort : List ℝ → List Nat) (ha : ArgsortOk argsort) (cfg : Config)
    (eval : EvalFn A β K) (infos : PyDict Key Info) (hn : (keys infos).Nodup) (hpos : 0 < cfg.seedsPerStep)
    (hl2 : cfg.l2Regs ≠ []) (hmain : ∀ m s, cfg.mainTask = some (m, s) → m ∈ keys infos ∧ s ∈ cfg.shots)
    (S : Store β) (hf : Fresh S) (ht : ∀ ni ∈ infos, TaskOk S ni.2) (st : State β) (hs : Same S st.store) (c : Call A)
    (hkw : (keys c.kwargs).Nodup) (acc : Key → Nat → Int → ℝ → ℝ) (hev : Evaluates lib cfg eval S infos c acc) :
    ∃ st' best report, callback lib argsort cfg eval infos st c = .ok st' ∧ Same S st'.store ∧
      st'.writes = st.writes ++ [(c.step, report)] ∧ st'.lastMetrics = some report ∧
      IsReport cfg (keys infos) acc best c.kwargs report := by
  classical
  have hev' : ∀ ni ∈ infos, ∀ i, ∃ res, i < cfg.seedsPerStep → (eval ni.2.numClasses (makeState lib cfg i c.step) c.vars
      (batchesOf S ni.2.train) (batchesOf S ni.2.test) (permuteSeed lib cfg i c.step) = .ok res ∧
      ∀ shot ∈ cfg.shots, ∀ l2 ∈ cfg.l2Regs, get? res (shot, l2) = some (acc ni.1 i shot l2)) := by
    intro ni hni i
    by_cases hi : i < cfg.seedsPerStep
    · obtain ⟨res, h1, h2⟩ := hev ni.1 ni.2 hni i hi _ (permuteSeed_isSeed lib cfg i c.step)
      exact ⟨res, fun _ => ⟨by rw [makeState_eq]; exact h1, h2⟩⟩
    · exact ⟨[], fun h => absurd h hi⟩
  -- The results as a function of the name.
  have hres : ∃ res : Key → Nat → PyDict (Int × ℝ) ℝ, ∀ ni ∈ infos, ∀ i < cfg.seedsPerStep,
      eval ni.2.numClasses (makeState lib cfg i c.step) c.vars (batchesOf S ni.2.train) (batchesOf S ni.2.test)
        (permuteSeed lib cfg i c.step) = .ok (res ni.1 i) ∧
      ∀ shot ∈ cfg.shots, ∀ l2 ∈ cfg.l2Regs, get? (res ni.1 i) (shot, l2) = some (acc ni.1 i shot l2) := by
    refine ⟨fun n i => if h : ∃ ni ∈ infos, ni.1 = n then
      (hev' h.choose h.choose_spec.1 i).choose else [], ?_⟩
    intro ni hni i hi
    have hex : ∃ ni' ∈ infos, ni'.1 = ni.1 := ⟨ni, hni, rfl⟩
    have heq : hex.choose = ni := by
      have h1 := hex.choose_spec.1
      have h2 := hex.choose_spec.2
      have g1 := (get?_eq_some infos hn hex.choose.1 hex.choose.2).2 h1
      have g2 := (get?_eq_some infos hn ni.1 ni.2).2 hni
      rw [h2, g2] at g1
      exact Prod.ext h2 (Option.some.inj g1).symm
    simp only [dif_pos hex]
    have := (hev' hex.choose hex.choose_spec.1 i).choose_spec hi
    simpa only [heq] using this
  obtain ⟨res, hres⟩ := hres
  obtain ⟨T', hT, hall⟩ := evalAll_ok lib cfg eval c infos S st.store hf hs ht res fun ni hni i hi => (hres ni hni i hi).1
  have hnd := pairs_nodup cfg infos hn res
  rw [ofItems_of_nodup _ hnd] at hall
  set all : Results := (pairs cfg infos).map fun p => (seedName cfg p.2.1 p.1, res p.2.1 p.1) with hadef
  have hmem : ∀ nr ∈ all, ∃ n i, n ∈ keys infos ∧ i < cfg.seedsPerStep ∧ nr = (seedName cfg n i, res n i) := by
    intro nr hnr
    obtain ⟨p, hp, rfl⟩ := List.mem_map.1 hnr
    obtain ⟨h1, h2⟩ := mem_pairs.1 hp
    exact ⟨p.2.1, p.1, List.mem_map.2 ⟨p.2, h2, rfl⟩, h1, rfl⟩
  have hin : ∀ n ∈ keys infos, ∀ i < cfg.seedsPerStep, (seedName cfg n i, res n i) ∈ all := by
    intro n hn' i hi
    obtain ⟨ni, hni, rfl⟩ := List.mem_map.1 hn'
    exact List.mem_map.2 ⟨(i, ni), mem_pairs.2 ⟨hi, hni⟩, rfl⟩
  have hacc : ∀ n ∈ keys infos, ∀ i < cfg.seedsPerStep, ∀ shot ∈ cfg.shots, ∀ l2 ∈ cfg.l2Regs,
      get? (res n i) (shot, l2) = some (acc n i shot l2) := by
    intro n hn' i hi
    obtain ⟨ni, hni, rfl⟩ := List.mem_map.1 hn'
    exact (hres ni hni i hi).2
  obtain ⟨bestD, hbest, hbs⟩ := C70_undominated argsort ha all cfg.shots cfg.l2Regs hl2
    (fun r shot l2 => (get? r (shot, l2)).getD 0) (by
      intro nr hnr shot hs' l2 hl
      obtain ⟨n, i, h1, h2, rfl⟩ := hmem nr hnr
      rw [hacc n h1 i h2 shot hs' l2 hl]
      rfl)
  let best : Int → ℝ := fun s => (get? bestD s).getD 0
  have hb : ∀ shot ∈ cfg.shots, get? bestD shot = some (best shot) ∧ best shot ∈ cfg.l2Regs := by
    intro shot hs'
    obtain ⟨l2, h1, h2, _⟩ := (hbs shot).2 hs'
    have : best shot = l2 := by simp [best, h2]
    exact ⟨by rw [h2, this], this ▸ h1⟩
  have hlook : ∀ n ∈ keys infos, ∀ i < cfg.seedsPerStep, ∀ shot ∈ cfg.shots,
      lookup all bestD (seedName cfg n i) shot = .ok (acc n i shot (best shot)) := by
    intro n hn' i hi shot hs'
    unfold lookup
    rw [(get?_eq_some all hnd _ _).2 (hin n hn' i hi)]
    simp only
    rw [(hb shot hs').1]
    simp only
    rw [hacc n hn' i hi shot hs' _ (hb shot hs').2]
  have hbkeys : ∀ s, s ∈ keys bestD → s ∈ cfg.shots := by
    intro s hs'
    by_contra hc
    exact (get?_eq_none bestD s).1 ((hbs s).1 hc) hs'
  -- The accuracies of all tasks.
  let val : Key × Int → ℝ := fun ns => (get? ((get? all ns.1).getD []) (ns.2, best ns.2)).getD 0
  have hval : ∀ n ∈ keys infos, ∀ i < cfg.seedsPerStep, ∀ shot ∈ cfg.shots,
      val (seedName cfg n i, shot) = acc n i shot (best shot) := by
    intro n hn' i hi shot hs'
    simp only [val]
    rw [(get?_eq_some all hnd _ _).2 (hin n hn' i hi)]
    simp [hacc n hn' i hi shot hs' _ (hb shot hs').2]
  let names : List (Key × Int) := (keys all).flatMap fun name => cfg.shots.map fun shot => (name, shot)
  have hnames : ∀ ns, ns ∈ names ↔ ∃ n i, n ∈ keys infos ∧ i < cfg.seedsPerStep ∧ ns.1 = seedName cfg n i ∧ ns.2 ∈ cfg.shots := by
    intro ns
    simp only [names, List.mem_flatMap, List.mem_map]
    constructor
    · rintro ⟨nm, hnm, shot, hs', rfl⟩
      obtain ⟨nr, hnr, rfl⟩ := List.mem_map.1 hnm
      obtain ⟨n, i, h1, h2, rfl⟩ := hmem nr hnr
      exact ⟨n, i, h1, h2, rfl, hs'⟩
    · rintro ⟨n, i, h1, h2, h3, h4⟩
      exact ⟨ns.1, List.mem_map.2 ⟨_, hin n h1 i h2, h3.symm⟩, ns.2, h4, rfl⟩
  have hitems : (names.mapM fun ns => do
      let a ← lookup all bestD ns.1 ns.2
      .ok (shotKey cfg.reportProgressName ns.1 ns.2, Value.number (some a))) = Except.ok (ε := PyErr)
      (names.map fun ns => (shotKey cfg.reportProgressName ns.1 ns.2, Value.number (some (val ns)))) := by
    apply EnsembleEval.mapM_ok
    intro ns hns
    obtain ⟨n, i, h1, h2, h3, h4⟩ := (hnames ns).1 hns
    have hv := hval n h1 i h2 ns.2 h4
    rw [← h3] at hv
    rw [h3, hlook n h1 i h2 ns.2 h4, ← hv]
    obtain ⟨a, b⟩ := ns
    simp only at h3
    subst h3
    rfl
  let m0 : PyDict Key Value := ofItems ((pairs cfg infos).map fun p =>
    (secsKey cfg.reportProgressName (seedName cfg p.2.1 p.1), Value.seconds))
  let m1 := set m0 (cfg.reportProgressName ++ "/duration_secs".toList) Value.seconds
  let i2 : List (Key × Value) := bestD.map fun sl => (bestKey cfg.reportProgressName sl.1, Value.number (some sl.2))
  let m2 := merge m1 (ofItems i2)
  let i3 : List (Key × Value) := names.map fun ns => (shotKey cfg.reportProgressName ns.1 ns.2, Value.number (some (val ns)))
  let m3 := merge m2 (ofItems i3)
  let mainV : Key → Int → ℝ := fun m s =>
    (∑ i ∈ Finset.range cfg.seedsPerStep, acc m i s (best s)) / cfg.seedsPerStep
  let m4 : PyDict Key Value := match cfg.mainTask with
    | none => m3
    | some (m, s) => set m3 (shotKey cfg.mainTaskPrefix m s) (.number (some (mainV m s)))
  have hm4 : addMainTask cfg all bestD m3 = Except.ok (ε := PyErr) m4 := by
    simp only [m4, addMainTask]
    cases hmt : cfg.mainTask with
    | none => rfl
    | some ms =>
      obtain ⟨m, s⟩ := ms
      obtain ⟨q1, q2⟩ := hmain m s hmt
      simp only
      rw [mainAccuracy_ok cfg all bestD m s hpos (fun i => acc m i s (best s)) fun i hi => hlook m q1 i hi s q2]
      rfl
  have hcall : callback lib argsort cfg eval infos st c =
      .ok ⟨T', st.writes ++ [(c.step, merge m4 (EvalAction.given c.kwargs))], some (merge m4 (EvalAction.given c.kwargs))⟩ := by
    unfold callback
    simp only [hall]
    change (findBestL2 argsort all cfg.shots cfg.l2Regs >>= _ : Except PyErr _) = _
    rw [hbest]
    change (names.mapM _ >>= _ : Except PyErr _) = _
    rw [hitems]
    change (addMainTask cfg all bestD m3 >>= _ : Except PyErr _) = _
    rw [hm4]
    rfl
  obtain ⟨hg1, hg2⟩ := given_spec c.kwargs hkw
  have hfin : ∀ k, NotGiven c.kwargs k → get? (merge m4 (EvalAction.given c.kwargs)) k = get? m4 k := by
    intro k hk
    rw [get?_merge _ _ hg1, hg2]
    cases hq : get? c.kwargs k with
    | none => rfl
    | some o =>
      cases o with
      | none => rfl
      | some w => exact absurd hq (hk w)
  have h43 : ∀ k, (∀ m s, cfg.mainTask = some (m, s) → k ≠ shotKey cfg.mainTaskPrefix m s) → get? m4 k = get? m3 k := by
    intro k hk
    simp only [m4]
    cases hmt : cfg.mainTask with
    | none => rfl
    | some ms =>
      simp only
      rw [get?_set, if_neg (Ne.symm (hk ms.1 ms.2 hmt))]
  have h32 : ∀ k, k.getLast? ≠ some 't' → get? m3 k = get? m2 k := by
    intro k hk
    apply merge_items_not
    intro hm
    obtain ⟨e, he, rfl⟩ := List.mem_map.1 hm
    obtain ⟨ns, _, rfl⟩ := List.mem_map.1 he
    exact hk (last_shotKey _ _ _)
  have h21 : ∀ k, k.getLast? ≠ some '2' → get? m2 k = get? m1 k := by
    intro k hk
    apply merge_items_not
    intro hm
    obtain ⟨e, he, rfl⟩ := List.mem_map.1 hm
    obtain ⟨ns, _, rfl⟩ := List.mem_map.1 he
    exact hk (last_bestKey _ _)
  have hnomain : ∀ k, k.getLast? ≠ some 't' → ∀ m s, cfg.mainTask = some (m, s) → k ≠ shotKey cfg.mainTaskPrefix m s := by
    intro k hk m s _ e
    exact hk (e ▸ last_shotKey _ _ _)
  refine ⟨_, best, _, hcall, hT, rfl, rfl, ?_⟩
  refine ⟨?_, ?_, ?_, ?_, ?_, ?_, ?_, ?_⟩
  · intro k v hk
    rw [get?_merge _ _ hg1, hg2, hk]
    rfl
  · intro shot hs'
    refine ⟨(hb shot hs').2, fun hne l2 hl => ?_⟩
    obtain ⟨l2b, g1, g2, g3⟩ := (hbs shot).2 hs'
    have hbl : best shot = l2b := by simp [best, g2]
    have hane : all ≠ [] := by
      obtain ⟨n, hn'⟩ := List.exists_mem_of_ne_nil _ hne
      intro h0
      have := hin n hn' 0 hpos
      rw [h0] at this
      simp at this
    obtain ⟨nr, hnr, hle⟩ := g3 hane l2 hl
    obtain ⟨n, i, q1, q2, rfl⟩ := hmem nr hnr
    refine ⟨n, q1, i, q2, ?_⟩
    simp only at hle
    rw [hacc n q1 i q2 shot hs' l2 hl, hacc n q1 i q2 shot hs' l2b g1] at hle
    rw [hbl]
    exact hle
  · rintro shot hs' k rfl hk
    rw [← bestKey_eq] at hk ⊢
    rw [hfin _ hk, h43 _ (hnomain _ (by rw [last_bestKey]; simp)), h32 _ (by rw [last_bestKey]; simp)]
    have hbnd := findBestL2_nodup argsort all cfg.shots cfg.l2Regs bestD hbest
    apply merge_items_mem
    · exact List.mem_map.2 ⟨(shot, best shot), (get?_eq_some bestD hbnd _ _).1 (hb shot hs').1, rfl⟩
    · intro w hw
      obtain ⟨⟨s', l⟩, hsl, he⟩ := List.mem_map.1 hw
      simp only [Prod.mk.injEq] at he
      have := bestKey_inj he.1
      subst this
      have h1 := (get?_eq_some bestD hbnd _ _).2 hsl
      rw [(hb s' hs').1] at h1
      rw [← he.2, Option.some.inj h1]
  · rintro n hn' i hi shot hs' k rfl hk hno
    rw [shown_eq, ← shotKey_eq] at hk hno ⊢
    rw [hfin _ hno, h43 _ fun m s hm => by rw [shotKey_eq cfg.mainTaskPrefix]; exact hk m s hm]
    apply merge_items_mem
    · refine List.mem_map.2 ⟨(seedName cfg n i, shot), (hnames _).2 ⟨n, i, hn', hi, rfl, hs'⟩, ?_⟩
      rw [hval n hn' i hi shot hs']
    · intro w hw
      obtain ⟨⟨nm, s'⟩, hsl, he⟩ := List.mem_map.1 hw
      simp only [Prod.mk.injEq] at he
      obtain ⟨e1, e2⟩ := shotKey_inj he.1
      subst e1 e2
      rw [← he.2, hval n hn' i hi s' hs']
  · rintro m s hm k rfl hno
    rw [← shotKey_eq] at hno ⊢
    rw [hfin _ hno]
    simp only [m4, hm]
    rw [get?_set, if_pos rfl]
  · rintro n hn' i hi k rfl hno
    rw [shown_eq, ← secsKey_eq] at hno ⊢
    rw [hfin _ hno, h43 _ (hnomain _ (by rw [last_secsKey]; simp)), h32 _ (by rw [last_secsKey]; simp),
      h21 _ (by rw [last_secsKey]; simp)]
    simp only [m1]
    rw [get?_set, if_neg (Ne.symm (secs_ne_total _ _))]
    apply get?_foldl_mem
    · obtain ⟨ni, hni, rfl⟩ := List.mem_map.1 hn'
      exact List.mem_map.2 ⟨(i, ni), mem_pairs.2 ⟨hi, hni⟩, rfl⟩
    · intro w hw
      obtain ⟨p, _, he⟩ := List.mem_map.1 hw
      simp only [Prod.mk.injEq] at he
      exact he.2.symm
  · rintro k rfl hno
    rw [hfin _ hno, h43 _ (hnomain _ (by rw [last_totalKey]; simp)), h32 _ (by rw [last_totalKey]; simp),
      h21 _ (by rw [last_totalKey]; simp)]
    simp only [m1]
    rw [get?_set, if_pos rfl]
  · intro k hk
    by_cases hv : ∃ v, get? c.kwargs k = some (some v)
    · exact Or.inl hv
    right
    push Not at hv
    rw [hfin k hv] at hk
    by_cases hm : ∃ m s, cfg.mainTask = some (m, s) ∧ k = shotKey cfg.mainTaskPrefix m s
    · obtain ⟨m, s, h1, h2⟩ := hm
      exact Or.inr (Or.inr (Or.inr ⟨m, s, h1, by rw [h2, shotKey_eq]⟩))
    push Not at hm
    rw [h43 k hm] at hk
    by_cases h3 : k ∈ keys i3
    · obtain ⟨e, he, rfl⟩ := List.mem_map.1 h3
      obtain ⟨ns, hns, rfl⟩ := List.mem_map.1 he
      obtain ⟨n, i, q1, q2, q3, q4⟩ := (hnames ns).1 hns
      refine Or.inr (Or.inr (Or.inl ⟨n, q1, i, q2, Or.inr ⟨ns.2, q4, ?_⟩⟩))
      rw [shown_eq, ← shotKey_eq, ← q3]
    simp only [m3] at hk
    rw [merge_items_not _ _ _ h3] at hk
    by_cases h2 : k ∈ keys i2
    · obtain ⟨e, he, rfl⟩ := List.mem_map.1 h2
      obtain ⟨sl, hsl, rfl⟩ := List.mem_map.1 he
      refine Or.inr (Or.inl ⟨sl.1, hbkeys _ (List.mem_map.2 ⟨sl, hsl, rfl⟩), ?_⟩)
      rw [← bestKey_eq]
    simp only [m2] at hk
    rw [merge_items_not _ _ _ h2] at hk
    simp only [m1] at hk
    rw [get?_set] at hk
    split at hk
    · rename_i h1
      exact Or.inl h1.symm
    · by_cases h0 : k ∈ keys ((pairs cfg infos).map fun p =>
          (secsKey cfg.reportProgressName (seedName cfg p.2.1 p.1), Value.seconds))
      · obtain ⟨e, he, rfl⟩ := List.mem_map.1 h0
        obtain ⟨p, hp, rfl⟩ := List.mem_map.1 he
        obtain ⟨q1, q2⟩ := mem_pairs.1 hp
        refine Or.inr (Or.inr (Or.inl ⟨p.2.1, List.mem_map.2 ⟨_, q2, rfl⟩, p.1, q1, Or.inl ?_⟩))
        rw [shown_eq, ← secsKey_eq]
      · simp only [m0] at hk
        unfold ofItems at hk
        rw [get?_foldl_not _ _ _ h0] at hk
        exact absurd rfl hk

/-- C93: over any sequence of calls, starting with the data sets at their beginning: every call writes exactly one report, at
its own step and with its own variables, over all batches of every task in every repetition, no matter how many calls came
before; afterwards the data sets are at their beginning, and the last report is available.  Tasks may share data sets. -/
theorem C93_reports (lib : Lib K) (argsort : List ℝ → List Nat) (ha : ArgsortOk argsort) (cfg : Config)
    (eval : EvalFn A β K) (infos : PyDict Key Info) (hn : (keys infos).Nodup) (hpos : 0 < cfg.seedsPerStep)
    (hl2 : cfg.l2Regs ≠ []) (hmain : ∀ m s, cfg.mainTask = some (m, s) → m ∈ keys infos ∧ s ∈ cfg.shots)
    (S : Store β) (hf : Fresh S) (ht : ∀ ni ∈ infos, TaskOk S ni.2) (calls : List (Call A))
    (hkw : ∀ c ∈ calls, (keys c.kwargs).Nodup) (acc : Call A → Key → Nat → Int → ℝ → ℝ)
    (hev : ∀ c ∈ calls, Evaluates lib cfg eval S infos c (acc c)) :
    ∃ st' reports, run lib argsort cfg eval infos ⟨S, [], none⟩ calls = .ok st' ∧ Same S st'.store ∧
      st'.writes = List.zipWith (fun c r => (c.step, r)) calls reports ∧ st'.lastMetrics = reports.getLast? ∧
      List.Forall₂ (fun c r => ∃ best, IsReport cfg (keys infos) (acc c) best c.kwargs r) calls reports := by
  have go : ∀ (calls : List (Call A)), (∀ c ∈ calls, (keys c.kwargs).Nodup ∧ Evaluates lib cfg eval S infos c (acc c)) →
      ∀ st : State β, Same S st.store → ∃ st' reports, run lib argsort cfg eval infos st calls = .ok st' ∧
      Same S st'.store ∧ st'.writes = st.writes ++ List.zipWith (fun c r => (c.step, r)) calls reports ∧
      st'.lastMetrics = (reports.getLast?).orElse (fun _ => st.lastMetrics) ∧
      List.Forall₂ (fun c r => ∃ best, IsReport cfg (keys infos) (acc c) best c.kwargs r) calls reports := by
    intro calls
    induction calls with
    | nil => exact fun _ st hs => ⟨st, [], rfl, hs, by simp, by simp, .nil⟩
    | cons c cs ih =>
      intro hc st hs
      obtain ⟨h1, h2⟩ := hc c (by simp)
      obtain ⟨st1, best, report, e1, e2, e3, e4, e5⟩ := callback_ok lib argsort ha cfg eval infos hn hpos hl2 hmain S hf ht st hs c h1
        (acc c) h2
      obtain ⟨st2, reports, f1, f2, f3, f4, f5⟩ := ih (fun c' h => hc c' (by simp [h])) st1 e2
      refine ⟨st2, report :: reports, ?_, f2, ?_, ?_, .cons ⟨best, e5⟩ f5⟩
      · unfold run at f1 ⊢
        rw [List.foldlM_cons, e1]
        exact f1
      · rw [f3, e3]
        simp
      · rw [f4, e4]
        cases hr : reports with
        | nil => rfl
        | cons r rs =>
          rw [List.getLast?_cons_cons]
          cases hq : (r :: rs).getLast? with
          | none => simp at hq
          | some x => rfl
  obtain ⟨st', reports, h1, h2, h3, h4, h5⟩ := go calls (fun c hc => ⟨hkw c hc, hev c hc⟩) ⟨S, [], none⟩ fun _ => rfl
  exact ⟨st', reports, h1, h2, by simpa using h3, by simpa using h4, h5⟩

theorem set_set {κ ν : Type} [DecidableEq κ] (d : PyDict κ ν) (k : κ) (v w : ν) : set (set d k v) k w = set d k w := by
  induction d with
  | nil => simp [PyDict.set]
  | cons e d ih =>
    obtain ⟨k0, v0⟩ := e
    by_cases h : k0 = k
    · simp [PyDict.set, h]
    · simp [PyDict.set, h, ih]

theorem set_comm {κ ν : Type} [DecidableEq κ] (d : PyDict κ ν) (k k' : κ) (v w : ν) (hne : k ≠ k') (hk : get? d k ≠ none) :
    set (set d k v) k' w = set (set d k' w) k v := by
  induction d with
  | nil => simp [get?] at hk
  | cons e d ih =>
    obtain ⟨k0, v0⟩ := e
    by_cases h : k0 = k
    · subst h
      simp [PyDict.set, hne]
    · have hk' : get? d k ≠ none := by simpa [get?, h] using hk
      by_cases h' : k0 = k'
      · subst h'
        simp [PyDict.set, h]
      · simp [PyDict.set, h, h', ih hk']

theorem set_same {κ ν : Type} [DecidableEq κ] (d : PyDict κ ν) (k : κ) (v : ν) (h : get? d k = some v) : set d k v = d := by
  induction d with
  | nil => simp [get?] at h
  | cons e d ih =>
    obtain ⟨k0, v0⟩ := e
    by_cases hk : k0 = k
    · subst hk
      simp [get?] at h
      simp [PyDict.set, h]
    · simp [get?, hk] at h
      simp [PyDict.set, hk, ih h]

theorem evalOne_store (lib : Lib K) (cfg : Config) (eval : EvalFn A β K) (c : Call A) (sub : Nat) (T T' : Store β)
    (hf : Fresh T) (all all' : Results) (m m' : PyDict Key Value) (ni : Key × Info) (ht : TaskOk T ni.2)
    (h : evalOne lib cfg eval c sub (T, all, m) ni = .ok (T', all', m')) : T' = T := by
  obtain ⟨h1, h2, h3⟩ := ht
  obtain ⟨itr, e1⟩ := Option.ne_none_iff_exists'.1 h1
  obtain ⟨ite, e2⟩ := Option.ne_none_iff_exists'.1 h2
  have r1 := hf _ _ e1
  have r2 := hf _ _ e2
  have d1 := drain_some T ni.2.train itr e1
  have d2 := drain_some (set T ni.2.train ⟨itr.contents, []⟩) ni.2.test ite (by
    rw [get?_set, if_neg h3, e2])
  have d3 := reset_some (set (set T ni.2.train ⟨itr.contents, []⟩) ni.2.test ⟨ite.contents, []⟩) ni.2.train
    ⟨itr.contents, []⟩ (by rw [get?_set, if_neg (Ne.symm h3), get?_set, if_pos rfl])
  have d4 := reset_some (set (set (set T ni.2.train ⟨itr.contents, []⟩) ni.2.test ⟨ite.contents, []⟩) ni.2.train
    ⟨itr.contents, itr.contents⟩) ni.2.test ⟨ite.contents, []⟩ (by
      rw [get?_set, if_neg h3, get?_set, if_pos rfl])
  unfold evalOne at h
  simp only [d1, d2] at h
  cases he : eval ni.2.numClasses (makeState lib cfg sub c.step) c.vars itr.remaining ite.remaining
      (permuteSeed lib cfg sub c.step) with
  | error e => rw [he] at h; cases h
  | ok res =>
    rw [he] at h
    have h' := congrArg (fun r : Except PyErr (Store β × Results × PyDict Key Value) => match r with
      | .ok x => x.1 | .error _ => []) h
    have h'' : reset (reset (set (set T ni.2.train ⟨itr.contents, []⟩) ni.2.test ⟨ite.contents, []⟩) ni.2.train)
      ni.2.test = T' := h'
    rw [← h'', d3, d4]
    have q1 : get? T ni.2.train = some ⟨itr.contents, itr.contents⟩ := by
      rw [e1]; cases itr; simp only at r1; rw [r1]
    have q2 : get? T ni.2.test = some ⟨ite.contents, ite.contents⟩ := by
      rw [e2]; cases ite; simp only at r2; rw [r2]
    rw [set_comm (set (set T _ _) _ _) ni.2.train ni.2.test _ _ h3 (by
        rw [get?_set, if_neg (Ne.symm h3), get?_set, if_pos rfl]; simp),
      set_set, set_comm T ni.2.train ni.2.test _ _ h3 (by rw [q1]; simp), set_set, set_same T _ _ q2, set_same T _ _ q1]

theorem evalAll_store (lib : Lib K) (cfg : Config) (eval : EvalFn A β K) (c : Call A) (infos : PyDict Key Info)
    (T : Store β) (hf : Fresh T) (ht : ∀ ni ∈ infos, TaskOk T ni.2) (r : Store β × Results × PyDict Key Value)
    (h : evalAll lib cfg eval c infos T = .ok r) : r.1 = T := by
  unfold evalAll at h
  rw [foldlM_nested (fun sub acc ni => evalOne lib cfg eval c sub acc ni)] at h
  change (pairs cfg infos).foldlM _ _ = _ at h
  have go : ∀ (l : List (Nat × Key × Info)), (∀ p ∈ l, p ∈ pairs cfg infos) → ∀ (all : Results) (m : PyDict Key Value),
      l.foldlM (fun acc p => evalOne lib cfg eval c p.1 acc p.2) (T, all, m) = Except.ok (ε := PyErr) r → r.1 = T := by
    intro l
    induction l with
    | nil => intro _ all m h; cases h; rfl
    | cons p l ih =>
      intro hp all m h
      rw [List.foldlM_cons] at h
      cases he : evalOne lib cfg eval c p.1 (T, all, m) p.2 with
      | error e => rw [he] at h; cases h
      | ok x =>
        obtain ⟨T', all', m'⟩ := x
        have := evalOne_store lib cfg eval c p.1 T T' hf all all' m m' p.2 (ht _ (mem_pairs.1 (hp p (by simp))).2) he
        subst this
        rw [he] at h
        exact ih (fun q hq => hp q (by simp [hq])) all' m' h
  exact go _ (fun p hp => hp) [] [] h

/-- The part of the callback after the evaluations. -/
noncomputable def finish (argsort : List ℝ → List Nat) (cfg : Config) (kwargs : PyDict Key (Option ℝ))
    (all : Results) (metrics : PyDict Key Value) : Except PyErr (PyDict Key Value) := do
  let metrics := set metrics (cfg.reportProgressName ++ "/duration_secs".toList) .seconds
  let best ← findBestL2 argsort all cfg.shots cfg.l2Regs
  let metrics := merge metrics (ofItems (best.map fun sl => (bestKey cfg.reportProgressName sl.1, .number (some sl.2))))
  let items ← ((keys all).flatMap fun name => cfg.shots.map fun shot => (name, shot)).mapM fun ns => do
    let a ← lookup all best ns.1 ns.2
    .ok (shotKey cfg.reportProgressName ns.1 ns.2, Value.number (some a))
  let metrics ← addMainTask cfg all best (merge metrics (ofItems items))
  .ok (merge metrics (EvalAction.given kwargs))

theorem callback_eq (lib : Lib K) (argsort : List ℝ → List Nat) (cfg : Config) (eval : EvalFn A β K)
    (infos : PyDict Key Info) (st : State β) (c : Call A) : callback lib argsort cfg eval infos st c =
      (evalAll lib cfg eval c infos st.store >>= fun r => finish argsort cfg c.kwargs r.2.1 r.2.2 >>= fun m =>
        .ok ⟨r.1, st.writes ++ [(c.step, m)], some m⟩) := by
  unfold callback finish
  simp only [bind_assoc]
  rfl

/-- C93: unless the step is folded into the seed, repeating a call (with the same variables and keyword arguments, at any step)
repeats the report. -/
theorem C93_repeat (lib : Lib K) (argsort : List ℝ → List Nat) (cfg : Config) (hfold : cfg.seedFoldInStep = false)
    (eval : EvalFn A β K) (infos : PyDict Key Info) (st st1 : State β) (hf : Fresh st.store)
    (ht : ∀ ni ∈ infos, TaskOk st.store ni.2) (c : Call A) (step : Nat)
    (h : callback lib argsort cfg eval infos st c = .ok st1) :
    ∃ st2 report, callback lib argsort cfg eval infos st1 { c with step } = .ok st2 ∧
      st1.lastMetrics = some report ∧ st2.lastMetrics = some report ∧
      st2.writes = st.writes ++ [(c.step, report), (step, report)] ∧ st2.store = st.store := by
  have hev : evalAll lib cfg eval { c with step } infos = evalAll lib cfg eval c infos := by
    have hone : ∀ sub, evalOne lib cfg eval { c with step } sub = evalOne lib cfg eval c sub := by
      intro sub
      funext acc ni
      simp only [evalOne, makeState, permuteSeed, hfold]
      rfl
    unfold evalAll
    simp only [hone]
  rw [callback_eq] at h
  cases he : evalAll lib cfg eval c infos st.store with
  | error e => rw [he] at h; cases h
  | ok r =>
    have hr := evalAll_store lib cfg eval c infos st.store hf ht r he
    rw [he] at h
    change (finish argsort cfg c.kwargs r.2.1 r.2.2 >>= _ : Except PyErr _) = _ at h
    cases hfi : finish argsort cfg c.kwargs r.2.1 r.2.2 with
    | error e => rw [hfi] at h; cases h
    | ok m =>
      rw [hfi] at h
      have h' : (⟨r.1, st.writes ++ [(c.step, m)], some m⟩ : State β) = st1 := Except.ok.inj h
      subst h'
      refine ⟨⟨r.1, st.writes ++ [(c.step, m)] ++ [(step, m)], some m⟩, m, ?_, rfl, rfl, by simp, hr⟩
      rw [callback_eq, hev]
      simp only
      rw [hr, he]
      change (finish argsort cfg c.kwargs r.2.1 r.2.2 >>= _ : Except PyErr _) = _
      rw [hfi]
      change Except.ok _ = _
      rw [hr]

theorem foldlM_fails {σ ι : Type} (f : σ → ι → Except PyErr σ) (l : List ι) (x : ι) (hx : x ∈ l)
    (hfail : ∀ a, ∃ e, f a x = .error e) (a : σ) : ∃ e, l.foldlM f a = .error e := by
  induction l generalizing a with
  | nil => simp at hx
  | cons y l ih =>
    rw [List.foldlM_cons]
    cases hy : f a y with
    | error e => exact ⟨e, rfl⟩
    | ok b =>
      rcases List.mem_cons.1 hx with rfl | h
      · obtain ⟨e, he⟩ := hfail a
        rw [he] at hy
        cases hy
      · exact ih h b

/-- C93: a task with the same split for training and testing always fails: both are one iterator, and nothing is left for
testing. -/
theorem C93_same_split (lib : Lib K) (argsort : List ℝ → List Nat) (cfg : Config) (hpos : 0 < cfg.seedsPerStep)
    (eigh : EighFn) (perm : Nat → Nat → List Nat → List Nat)
    (fn : A → PyDict Key K → β → PyDict Key K × List ((Fin D → ℝ) × Int × Bool))
    (infos : PyDict Key Info) (ni : Key × Info) (hni : ni ∈ infos) (hsame : ni.2.train = ni.2.test)
    (st : State β) (c : Call A) :
    ∃ e, callback lib argsort cfg (computeFewshotMetrics eigh perm fn cfg) infos st c = .error e := by
  have hone : ∀ sub acc, ∃ e, evalOne lib cfg (computeFewshotMetrics eigh perm fn cfg) c sub acc ni = .error e := by
    intro sub acc
    obtain ⟨T, all, m⟩ := acc
    have hempty : (drain (drain T ni.2.train).2 ni.2.test).1 = [] := by
      rw [← hsame]
      cases h : get? T ni.2.train with
      | none => simp [drain, h]
      | some it =>
        rw [drain_some T _ it h]
        simp [drain, get?_set]
    unfold evalOne
    simp only
    rw [hempty]
    unfold computeFewshotMetrics
    cases h : computeRepresentation (fn c.vars) (makeState lib cfg sub c.step) (drain T ni.2.train).1 with
    | error e => exact ⟨e, rfl⟩
    | ok r => exact ⟨.valueError, rfl⟩
  have hall : ∃ e, evalAll lib cfg (computeFewshotMetrics eigh perm fn cfg) c infos st.store = .error e := by
    unfold evalAll
    refine foldlM_fails _ _ 0 (List.mem_range.2 hpos) ?_ _
    intro a
    exact foldlM_fails _ infos ni hni (hone 0) a
  obtain ⟨e, he⟩ := hall
  refine ⟨e, ?_⟩
  rw [callback_eq, he]
  rfl

theorem seed_unique {lib : Lib K} {cfg : Config} {i step s s' : Nat} (h : IsSeed lib cfg i step s)
    (h' : IsSeed lib cfg i step s') : s = s' := by
  obtain ⟨a1, q, a2⟩ := h
  obtain ⟨b1, q', b2⟩ := h'
  rw [← b2] at a2
  omega

/-- C93: the evaluations meet what `C93_reports` asks for if every split has a batch and every data set a class: the accuracies are
those after training on the examples chosen (property C58) from all valid training examples, measured on all valid test
examples; the random keys pass from the training batches to the test batches. -/
theorem C93_evaluates (lib : Lib K) (cfg : Config) (eigh : EighFn) (perm : Nat → Nat → List Nat → List Nat)
    (hp : ∀ s, PermOk (perm s)) (fn : A → PyDict Key K → β → PyDict Key K × List ((Fin D → ℝ) × Int × Bool))
    (S : Store β) (infos : PyDict Key Info) (hn : (keys infos).Nodup) (hb : ∀ ni ∈ infos, batchesOf S ni.2.train ≠ [] ∧
      batchesOf S ni.2.test ≠ [] ∧ 0 < ni.2.numClasses) (c : Call A) :
    ∃ acc, Evaluates lib cfg (computeFewshotMetrics eigh perm fn cfg) S infos c acc ∧
      ∀ ni ∈ infos, ∀ i < cfg.seedsPerStep, ∀ s, IsSeed lib cfg i c.step s → ∃ state state' train test,
        computeRepresentation (fn c.vars) (specRngs lib cfg i c.step) (batchesOf S ni.2.train) = .ok (state, train) ∧
        computeRepresentation (fn c.vars) state (batchesOf S ni.2.test) = .ok (state', test) ∧
        ∀ shot ∈ cfg.shots, ∀ l2 ∈ cfg.l2Regs, ∃ idx sel,
          allIdx (classIndices (perm s) train ni.2.numClasses) shot = .ok idx ∧ select train idx = .ok sel ∧
          acc ni.1 i shot l2 = score eigh ni.2.numClasses sel test l2 := by
  classical
  have hrep : ∀ (state : PyDict Key K) (l : List β), l ≠ [] → ∃ r, computeRepresentation (fn c.vars) state l = .ok r := by
    intro state l hl
    obtain ⟨s', h⟩ := (C58_representation (fn c.vars) state l).2 hl
    exact ⟨_, h⟩
  have hone : ∀ ni ∈ infos, ∀ i s, ∃ state state' train test res,
      computeRepresentation (fn c.vars) (specRngs lib cfg i c.step) (batchesOf S ni.2.train) = .ok (state, train) ∧
      computeRepresentation (fn c.vars) state (batchesOf S ni.2.test) = .ok (state', test) ∧
      computeFewshotMetrics eigh perm fn cfg ni.2.numClasses (specRngs lib cfg i c.step) c.vars (batchesOf S ni.2.train)
        (batchesOf S ni.2.test) s = .ok res ∧
      ∀ shot ∈ cfg.shots, ∀ l2 ∈ cfg.l2Regs, ∃ idx sel,
          allIdx (classIndices (perm s) train ni.2.numClasses) shot = .ok idx ∧ select train idx = .ok sel ∧
          get? res (shot, l2) = some (score eigh ni.2.numClasses sel test l2) := by
    intro ni hni i s
    obtain ⟨b1, b2, b3⟩ := hb ni hni
    obtain ⟨⟨state, train⟩, h1⟩ := hrep (specRngs lib cfg i c.step) _ b1
    obtain ⟨⟨state', test⟩, h2⟩ := hrep state _ b2
    obtain ⟨res, h3, h4⟩ := C58_results eigh (perm s) (hp s) cfg.shots cfg.l2Regs ni.2.numClasses b3 train test
    refine ⟨state, state', train, test, res, h1, h2, ?_, fun shot hs l2 hl => (h4 shot l2).1 hs hl⟩
    unfold computeFewshotMetrics
    rw [h1]
    change (computeRepresentation (fn c.vars) state (batchesOf S ni.2.test) >>= _ : Except PyErr _) = _
    rw [h2]
    exact h3
  let acc : Key → Nat → Int → ℝ → ℝ := fun n i shot l2 => match get? infos n with
    | none => 0
    | some info => match computeFewshotMetrics eigh perm fn cfg info.numClasses (specRngs lib cfg i c.step) c.vars
        (batchesOf S info.train) (batchesOf S info.test) (permuteSeed lib cfg i c.step) with
      | .ok res => (get? res (shot, l2)).getD 0
      | .error _ => 0
  have hacc : ∀ ni ∈ infos, ∀ i, ∀ res shot l2 v, computeFewshotMetrics eigh perm fn cfg ni.2.numClasses (specRngs lib cfg i c.step) c.vars
        (batchesOf S ni.2.train) (batchesOf S ni.2.test) (permuteSeed lib cfg i c.step) = .ok res →
      get? res (shot, l2) = some v → acc ni.1 i shot l2 = v := by
    intro ni hni i res shot l2 v h1 h2
    simp only [acc]
    rw [(get?_eq_some infos hn ni.1 ni.2).2 hni]
    simp only
    rw [h1]
    simp [h2]
  refine ⟨acc, ?_, ?_⟩
  · intro name info hni i hi s hs
    have := seed_unique hs (permuteSeed_isSeed lib cfg i c.step)
    subst this
    obtain ⟨_, _, _, _, res, _, _, h3, h4⟩ := hone (name, info) hni i (permuteSeed lib cfg i c.step)
    refine ⟨res, h3, fun shot hs l2 hl => ?_⟩
    obtain ⟨idx, sel, _, _, h5⟩ := h4 shot hs l2 hl
    rw [hacc (name, info) hni i res shot l2 _ h3 h5, h5]
  · intro ni hni i hi s hs
    have := seed_unique hs (permuteSeed_isSeed lib cfg i c.step)
    subst this
    obtain ⟨state, state', train, test, res, h1, h2, h3, h4⟩ := hone ni hni i (permuteSeed lib cfg i c.step)
    refine ⟨state, state', train, test, h1, h2, fun shot hs l2 hl => ?_⟩
    obtain ⟨idx, sel, h5, h6, h7⟩ := h4 shot hs l2 hl
    exact ⟨idx, sel, h5, h6, hacc ni hni i res shot l2 _ h3 h7⟩

theorem getDataset_ok (load : Key → Key → Except PyErr (List β)) (S S' : Store β) (name split : Key)
    (hS : ∀ id it, get? S id = some it → it.remaining = it.contents ∧ load id.1 id.2 = .ok it.contents)
    (h : getDataset load S name split = .ok S') :
    (∀ id it, get? S' id = some it → it.remaining = it.contents ∧ load id.1 id.2 = .ok it.contents) ∧
    (∃ it, get? S' (name, split) = some it) ∧ ∀ id it, get? S id = some it → get? S' id = some it := by
  unfold getDataset at h
  cases hg : get? S (name, split) with
  | some it =>
    rw [hg] at h
    cases h
    exact ⟨hS, ⟨it, hg⟩, fun _ _ h => h⟩
  | none =>
    rw [hg] at h
    simp only at h
    cases hl : load name split with
    | error e => rw [hl] at h; cases h
    | ok b =>
      rw [hl] at h
      have h' : PyDict.set S (name, split) ⟨b, b⟩ = S' := Except.ok.inj h
      subst h'
      refine ⟨?_, ⟨⟨b, b⟩, by rw [get?_set, if_pos rfl]⟩, ?_⟩
      · intro id it hit
        rw [get?_set] at hit
        split at hit
        · rename_i heq
          subst heq
          cases hit
          exact ⟨rfl, hl⟩
        · exact hS id it hit
      · intro id it hit
        rw [get?_set, if_neg, hit]
        rintro rfl
        rw [hg] at hit
        cases hit

/-- C93: every configured task gets the batches of its splits, at their beginning, and its number of classes; two tasks (or the
two splits of a task) have the same iterator exactly if name and split agree. -/
theorem C93_datasets (load : Key → Key → Except PyErr (List β)) (classes : Key → Except PyErr Nat)
    (datasets : PyDict Key (Key × Key × Key)) (hn : (keys datasets).Nodup) (S : Store β) (infos : PyDict Key Info)
    (h : getDatasets load classes datasets = .ok (S, infos)) :
    Fresh S ∧ keys infos = keys datasets ∧ ∀ key name tr te, (key, name, tr, te) ∈ datasets → ∃ n,
      classes name = .ok n ∧ (key, ⟨(name, tr), (name, te), n⟩) ∈ infos ∧
      load name tr = .ok (batchesOf S (name, tr)) ∧ load name te = .ok (batchesOf S (name, te)) ∧
      (tr ≠ te ↔ TaskOk S ⟨(name, tr), (name, te), n⟩) := by
  unfold getDatasets at h
  have go : ∀ (ds : PyDict Key (Key × Key × Key)) (S0 : Store β) (I0 : PyDict Key Info), (keys I0 ++ keys ds).Nodup →
      (∀ id it, get? S0 id = some it → it.remaining = it.contents ∧ load id.1 id.2 = .ok it.contents) →
      ds.foldlM (fun (store, infos) (key, name, tr, te) => do
        let store ← getDataset load store name tr
        let store ← getDataset load store name te
        let n ← classes name
        .ok (store, PyDict.set infos key ⟨(name, tr), (name, te), n⟩)) (S0, I0) = Except.ok (ε := PyErr) (S, infos) →
      (∀ id it, get? S id = some it → it.remaining = it.contents ∧ load id.1 id.2 = .ok it.contents) ∧
      (∀ id it, get? S0 id = some it → get? S id = some it) ∧ (∃ J, infos = I0 ++ J ∧ keys J = keys ds) ∧
      ∀ key name tr te, (key, name, tr, te) ∈ ds → ∃ n, classes name = .ok n ∧
        (key, ⟨(name, tr), (name, te), n⟩) ∈ infos ∧ (∃ it, get? S (name, tr) = some it) ∧
        ∃ it, get? S (name, te) = some it := by
    intro ds
    induction ds with
    | nil =>
      intro S0 I0 _ hS h
      cases h
      exact ⟨hS, fun _ _ h => h, ⟨[], by simp, rfl⟩, by simp⟩
    | cons d ds ih =>
      obtain ⟨key, name, tr, te⟩ := d
      intro S0 I0 hnd hS h
      rw [List.foldlM_cons] at h
      simp only at h
      cases h1 : getDataset load S0 name tr with
      | error e => rw [h1] at h; cases h
      | ok S1 =>
        rw [h1] at h
        change ((getDataset load S1 name te >>= _ : Except PyErr _) >>= _) = _ at h
        cases h2 : getDataset load S1 name te with
        | error e => rw [h2] at h; cases h
        | ok S2 =>
          rw [h2] at h
          change ((classes name >>= _ : Except PyErr _) >>= _) = _ at h
          cases h3 : classes name with
          | error e => rw [h3] at h; cases h
          | ok n =>
            rw [h3] at h
            obtain ⟨a1, a2, a3⟩ := getDataset_ok load S0 S1 name tr hS h1
            obtain ⟨b1, b2, b3⟩ := getDataset_ok load S1 S2 name te a1 h2
            have hkey : key ∉ keys I0 := by
              rw [List.nodup_append] at hnd
              intro hm
              exact hnd.2.2 key hm key (by simp [keys]) rfl
            have hset : PyDict.set I0 key ⟨(name, tr), (name, te), n⟩ = I0 ++ [(key, ⟨(name, tr), (name, te), n⟩)] :=
              set_of_not_mem _ _ _ hkey
            obtain ⟨c1, c2, ⟨J, c3, c4⟩, c5⟩ := ih S2 (PyDict.set I0 key ⟨(name, tr), (name, te), n⟩) (by
              rw [hset]
              simpa [keys] using hnd) b1 h
            refine ⟨c1, fun id it hit => c2 id it (b3 id it (a3 id it hit)),
              ⟨(key, ⟨(name, tr), (name, te), n⟩) :: J, by rw [c3, hset]; simp, by simpa [keys] using c4⟩, ?_⟩
            intro key' name' tr' te' hm
            rcases List.mem_cons.1 hm with he | he
            · cases he
              obtain ⟨i1, g1⟩ := a2
              obtain ⟨i2, g2⟩ := b2
              refine ⟨n, h3, ?_, ⟨i1, c2 _ _ (b3 _ _ g1)⟩, i2, c2 _ _ g2⟩
              rw [c3, hset]
              simp
            · exact c5 key' name' tr' te' he
  obtain ⟨h1, _, ⟨J, h3, h4⟩, h5⟩ := go datasets [] [] (by simpa [keys] using hn) (by simp [get?]) h
  refine ⟨fun id it hit => (h1 id it hit).1, by rw [h3, List.nil_append, h4], ?_⟩
  intro key name tr te hm
  obtain ⟨n, a1, a2, ⟨i1, a3⟩, i2, a4⟩ := h5 key name tr te hm
  refine ⟨n, a1, a2, ?_, ?_, ?_⟩
  · simp only [batchesOf, a3]
    exact (h1 _ _ a3).2
  · simp only [batchesOf, a4]
    exact (h1 _ _ a4).2
  · unfold TaskOk
    simp [a3, a4]

/-- Two tasks that share the data for training; two repetitions; task `a` with 5 shots is the main one. -/
noncomputable def exampleConfig : Config :=
  ⟨[5], [1], [], 0, false, 2, some ("a".toList, 5), "0".toList, "fewshot".toList⟩

/-- The iterators of the example. -/
def exampleStore : Store Nat :=
  [(("d".toList, "train".toList), ⟨[1, 2], [1, 2]⟩), (("d".toList, "test".toList), ⟨[3], [3]⟩),
    (("d".toList, "val".toList), ⟨[4, 5], [4, 5]⟩)]

/-- The tasks of the example. -/
def exampleInfos : PyDict Key Info :=
  [("a".toList, ⟨("d".toList, "train".toList), ("d".toList, "test".toList), 2⟩),
    ("b".toList, ⟨("d".toList, "train".toList), ("d".toList, "val".toList), 2⟩)]

/-- An evaluation that adds all batches and the variable. -/
def exampleEval : EvalFn ℝ Nat Unit := fun _ _ v tr te _ => .ok [((5, 1), v + tr.sum + te.sum)]

-- Non-vacuity: two calls; every report is over all batches, and the second one gets a keyword argument.
example : ∃ r₁ r₂ st, run (⟨fun _ => (), fun _ _ => (), fun _ n => List.replicate n (), fun _ => -1⟩ : Lib Unit) stableArgsort
      exampleConfig exampleEval exampleInfos ⟨exampleStore, [], none⟩
      [⟨10, 0, []⟩, ⟨20, 1, [("x".toList, some 7), ("y".toList, none)]⟩] = .ok st ∧ st.writes = [(10, r₁), (20, r₂)] ∧
    get? r₁ "0/a/5shot".toList = some (.number (some 6)) ∧ get? r₁ "fewshot/b-seed-1/5shot".toList = some (.number (some 12)) ∧
    get? r₂ "0/a/5shot".toList = some (.number (some 7)) ∧ get? r₂ "x".toList = some (.number (some 7)) ∧
    get? r₂ "y".toList = none := by
  have hev : ∀ c ∈ [(⟨10, 0, []⟩ : Call ℝ), ⟨20, 1, [("x".toList, some 7), ("y".toList, none)]⟩],
      Evaluates (⟨fun _ => (), fun _ _ => (), fun _ n => List.replicate n (), fun _ => -1⟩ : Lib Unit) exampleConfig exampleEval
        exampleStore exampleInfos c (fun name _ _ _ => c.vars + 3 + if name = "a".toList then 3 else 9) := by
    intro c _ name info hni i _ s _
    refine ⟨_, rfl, ?_⟩
    intro shot hs l2 hl
    simp only [exampleConfig, List.mem_singleton] at hs hl
    subst hs hl
    simp only [exampleInfos, List.mem_cons, List.not_mem_nil, or_false, Prod.mk.injEq] at hni
    rcases hni with ⟨rfl, rfl⟩ | ⟨rfl, rfl⟩
    · simp [get?, batchesOf, exampleStore]
    · simp [get?, batchesOf, exampleStore]
  obtain ⟨st, reports, h1, h2, h3, h4, h5⟩ := C93_reports
    (⟨fun _ => (), fun _ _ => (), fun _ n => List.replicate n (), fun _ => -1⟩ : Lib Unit) stableArgsort stableArgsort_ok
    exampleConfig exampleEval exampleInfos (by simp [keys, exampleInfos]) (by simp [exampleConfig]) (by simp [exampleConfig])
    (by
      intro m s h
      simp only [exampleConfig, Option.some.injEq, Prod.mk.injEq] at h
      simp [exampleConfig, exampleInfos, keys, ← h.1, ← h.2]) exampleStore
    (by
      intro id it h
      simp only [exampleStore, get?] at h
      split at h
      · cases h; rfl
      split at h
      · cases h; rfl
      split at h
      · cases h; rfl
      · cases h)
    (by
      intro ni hni
      simp only [exampleInfos, List.mem_cons, List.not_mem_nil, or_false] at hni
      rcases hni with rfl | rfl <;> simp [TaskOk, exampleStore, get?])
    [⟨10, 0, []⟩, ⟨20, 1, [("x".toList, some 7), ("y".toList, none)]⟩] (by simp [keys])
    (fun c name _ _ _ => c.vars + 3 + if name = "a".toList then 3 else 9) hev
  obtain ⟨r₁, rs, ⟨b₁, e1⟩, e2, rfl⟩ := List.forall₂_cons_left_iff.1 h5
  obtain ⟨r₂, rs', ⟨b₂, e3⟩, e4, rfl⟩ := List.forall₂_cons_left_iff.1 e2
  have e5 := List.forall₂_nil_left_iff.1 e4
  subst e5
  have hno : ∀ k v, k ≠ "x".toList → get? ([("x".toList, some 7), ("y".toList, none)] : PyDict Key (Option ℝ)) k ≠ some (some v) := by
    intro k v hk
    simp only [get?]
    rw [if_neg (Ne.symm hk)]
    split <;> simp
  refine ⟨r₁, r₂, st, h1, h3, ?_, ?_, ?_, ?_, ?_⟩
  · refine (e1.main "a".toList 5 rfl _ (by decide +kernel) (by intro v; simp [get?])).trans ?_
    simp [exampleConfig]; norm_num
  · refine (e1.accuracy "b".toList (by simp [keys, exampleInfos]) 1 (by simp [exampleConfig]) 5 (by simp [exampleConfig]) _ ?_ ?_
      (by intro v; simp [get?])).trans ?_
    · decide +kernel
    · intro m s h
      simp only [exampleConfig, Option.some.injEq, Prod.mk.injEq] at h
      rw [← h.1, ← h.2]
      decide +kernel
    · simp; norm_num
  · refine (e3.main "a".toList 5 rfl _ (by decide +kernel) fun v => hno _ v (by decide)).trans ?_
    simp [exampleConfig]; norm_num
  · exact e3.given _ 7 (by simp [get?])
  · by_contra hc
    rcases e3.only _ hc with ⟨v, hv⟩ | h | ⟨_, hs, h⟩ | ⟨n, hn, i, hi, h | ⟨_, hs, h⟩⟩ | ⟨m, s, hm, h⟩
    · simp [get?] at hv
    all_goals
      have := congrArg List.length h
      simp [exampleConfig] at this

/-- C93: a main task that is not configured, or with a number of shots that is not evaluated, raises `KeyError` (after all
evaluations); without repetitions there is nothing to average, and the main task raises `ZeroDivisionError`. -/
theorem C93_main_task_rejected (cfg : Config) (all : Results) (best : PyDict Int ℝ) (metrics : PyDict Key Value) (m : Key) (s : Int)
    (hm : cfg.mainTask = some (m, s)) :
    (0 < cfg.seedsPerStep → (shown cfg m 0 ∉ keys all ∨ s ∉ keys best) →
      addMainTask cfg all best metrics = .error .keyError) ∧
    (cfg.seedsPerStep = 0 → addMainTask cfg all best metrics = .error .zeroDivisionError) := by
  constructor
  · intro hpos hbad
    have hlook : lookup all best (seedName cfg m 0) s = .error .keyError := by
      rw [shown_eq] at hbad
      unfold lookup
      cases h1 : get? all (seedName cfg m 0) with
      | none => rfl
      | some r =>
        have h2 : get? best s = none := by
          rw [get?_eq_none]
          rcases hbad with h | h
          · rw [(get?_eq_none _ _).2 h] at h1
            cases h1
          · exact h
        simp only [h2]
    unfold addMainTask mainAccuracy
    rw [hm]
    simp only
    unfold seedName at hlook
    by_cases h1 : cfg.seedsPerStep = 1
    · rw [if_pos h1] at hlook ⊢
      rw [hlook]
      rfl
    · rw [if_neg h1] at hlook ⊢
      obtain ⟨k, hk⟩ := Nat.exists_eq_succ_of_ne_zero (Nat.pos_iff_ne_zero.1 hpos)
      rw [hk, List.range_succ_eq_map, List.foldlM_cons, hlook]
      rfl
  · intro h0
    unfold addMainTask mainAccuracy
    rw [hm]
    simp only
    rw [if_neg (by omega), h0]
    rfl

end Verif.FewshotAction
