import Verif.Model.AttackRun
import Verif.Props.ExampleStorage
import Verif.Proofs.CkptPath

/-!
# The files and reports of an attack (C103)
-/

namespace Verif.AttackRun

open Verif ExampleStorageSpec

variable {X R I L : Type}

/-- One batch of a run: the examples, the attacked examples, the mask, and what is known before and after. -/
structure Rec (X : Type) where
  x : List X
  xm : List X
  valid : List Bool
  o0 : List (Attack.Out Key)
  om : List (Attack.Out Key)

/-- The arrays have a row for every example. -/
def Rec.Ok (r : Rec X) : Prop := r.o0.length = r.valid.length ∧ r.om.length = r.valid.length

theorem zipWith_mask_length (v : List Bool) (o : List (Attack.Out Key)) (h : v.length = o.length) :
    (List.zipWith Attack.maskOut v o).length = v.length := by
  rw [List.length_zipWith]
  omega

/-- The loop: there is a record for every batch; the state is the sum over the records, and each record was stored. -/
theorem loop_recs (image : X → I) (label : X → L) (routers : List Key) (attack : List X → R → List X × R)
    (compute : List X → R → List (Attack.Out Key)) (batches : List (List X × List Bool)) (step : Nat)
    (s s' : Attack.State Key × R) (storage storage' : Option (Key × ExampleStorage.Storage (Cell I L)))
    (h : loop image label routers attack compute step batches s storage = .ok (s', storage')) :
    ∃ recs : List (Rec X), recs.map (fun r => (r.x, r.valid)) = batches ∧ (∀ r ∈ recs, r.Ok) ∧
      s'.1 = recs.foldl (fun st r => st.add (Attack.batchStats (some r.valid) r.o0 r.om)) s.1 ∧
      (storage = none → storage' = none) ∧
      (∀ path st, storage = some (path, st) → ∃ st' calls, storage' = some (path, st') ∧
        ExampleStorage.run st calls = .ok st' ∧ (recs = [] → calls = []) ∧ ∀ k, given k calls = recs.flatMap fun r =>
          (arrays image label routers r.x r.xm r.valid r.o0 r.om).filterMap
            fun kv => if kv.1 = k then some kv.2 else none) := by
  induction batches generalizing step s storage with
  | nil =>
    injection h with h
    obtain ⟨rfl, rfl⟩ := Prod.mk.inj h
    refine ⟨[], rfl, by simp, rfl, id, fun path st e => ⟨st, [], e, rfl, fun _ => rfl, fun k => rfl⟩⟩
  | cons b rest ih =>
    unfold loop at h
    cases h1 : Attack.statefulAttack attack compute s b.1 (some b.2) with
    | error e => rw [h1] at h; cases h
    | ok s1 =>
      rw [h1] at h
      simp only at h
      cases h2 : storeBatch storage step (batchArrays image label routers attack compute s.2 b.1 b.2) with
      | error e => rw [h2] at h; cases h
      | ok st1 =>
        rw [h2] at h
        simp only at h
        obtain ⟨recs, e1, e2, e3, e4, e5⟩ := ih (step + 1) s1 st1 h
        unfold Attack.statefulAttack at h1
        simp only at h1
        by_cases hl : b.2.length ≠ (compute b.1 s.2).length ∨
            b.2.length ≠ (compute (attack b.1 s.2).1 (attack b.1 s.2).2).length
        · rw [if_pos hl] at h1; cases h1
        · rw [if_neg hl] at h1
          push Not at hl
          injection h1 with h1
          refine ⟨⟨b.1, (attack b.1 s.2).1, b.2, List.zipWith Attack.maskOut b.2 (compute b.1 s.2),
            List.zipWith Attack.maskOut b.2 (compute (attack b.1 s.2).1 (attack b.1 s.2).2)⟩ :: recs, ?_, ?_, ?_, ?_, ?_⟩
          · rw [List.map_cons, e1]
          · intro r hr
            rcases List.mem_cons.1 hr with rfl | hr
            · exact ⟨zipWith_mask_length _ _ hl.1, zipWith_mask_length _ _ hl.2⟩
            · exact e2 r hr
          · rw [e3, ← h1]
            rfl
          · rintro rfl
            refine e4 ?_
            injection h2 with h2
            exact h2.symm
          · rintro path st rfl
            unfold storeBatch at h2
            simp only at h2
            cases h3 : ExampleStorage.store st step (batchArrays image label routers attack compute s.2 b.1 b.2) with
            | mk st2 err =>
              rw [h3] at h2
              cases err with
              | some e => cases h2
              | none =>
                injection h2 with h2
                obtain ⟨st', calls, g1, g2, -, g3⟩ := e5 path st2 h2.symm
                refine ⟨st', .store step (batchArrays image label routers attack compute s.2 b.1 b.2) :: calls, g1, ?_,
                  (fun h => by simp at h), ?_⟩
                · unfold ExampleStorage.run at g2 ⊢
                  rw [List.foldlM_cons]
                  simp only [h3]
                  exact g2
                · intro k
                  rw [given, g3 k]
                  rfl

theorem foldl_stats (recs : List (Rec X)) (hr : ∀ r ∈ recs, r.Ok) (s : Attack.State Key) :
    let s' := recs.foldl (fun st r => st.add (Attack.batchStats (some r.valid) r.o0 r.om)) s
    s'.numImages = s.numImages + ((recs.flatMap Rec.valid).count true : Int) ∧
    s'.numChanges = s.numChanges + ((List.zip ((recs.flatMap Rec.o0).map (·.pred)) ((recs.flatMap Rec.om).map
      (·.pred))).countP (fun p => decide (p.1 ≠ p.2)) : Int) ∧
    s'.sumLoss = (s.sumLoss.1 + ((recs.flatMap Rec.o0).map (·.loss)).sum,
      s.sumLoss.2 + ((recs.flatMap Rec.om).map (·.loss)).sum) ∧
    ∀ k, s'.sumIou k = s.sumIou k +
      (recs.map fun r => Attack.sumIou (r.o0.map (·.cw k)) (r.om.map (·.cw k))).sum := by
  induction recs generalizing s with
  | nil => simp
  | cons r recs ih =>
    obtain ⟨a, b, c, d⟩ := ih (fun r h => hr r (List.mem_cons_of_mem _ h))
      (s.add (Attack.batchStats (some r.valid) r.o0 r.om))
    have hok := hr r List.mem_cons_self
    have hc : ∀ v : List Bool, (v.map fun b => if b then (1 : Int) else 0).sum = (v.count true : Int) := by
      intro v
      induction v with
      | nil => rfl
      | cons b v ih => cases b <;> simp [ih, add_comm]
    have hz : ∀ a b : List (Attack.Out Key), (List.zipWith (fun a b : Attack.Out Key => if b.pred ≠ a.pred then (1 : Int) else 0)
        a b).sum = ((List.zip (a.map (·.pred)) (b.map (·.pred))).countP (fun p => decide (p.1 ≠ p.2)) : Int) := by
      intro a
      induction a with
      | nil => intro b; rfl
      | cons o a ih =>
        intro b
        cases b with
        | nil => rfl
        | cons o' b =>
          rw [List.zipWith_cons_cons, List.sum_cons, ih, List.map_cons, List.map_cons, List.zip_cons_cons, List.countP_cons]
          by_cases h : o.pred = o'.pred
          · simp [h]
          · have h' : ¬ o'.pred = o.pred := fun e => h e.symm
            simp [h, h', add_comm]
    refine ⟨?_, ?_, ?_, ?_⟩
    · rw [List.foldl_cons, a, List.flatMap_cons, List.count_append]
      change s.numImages + (r.valid.map fun b => if b then (1 : Int) else 0).sum + _ = _
      rw [hc]
      push_cast
      ring
    · rw [List.foldl_cons, b, List.flatMap_cons, List.flatMap_cons, List.map_append, List.map_append,
        List.zip_append (by rw [List.length_map, List.length_map, hok.1, hok.2]), List.countP_append]
      change s.numChanges + (List.zipWith _ _ _).sum + _ = _
      rw [hz]
      push_cast
      ring
    · rw [List.foldl_cons, c, List.flatMap_cons, List.flatMap_cons, List.map_append, List.map_append,
        List.sum_append, List.sum_append]
      change (s.sumLoss.1 + (r.o0.map (·.loss)).sum + _, s.sumLoss.2 + (r.om.map (·.loss)).sum + _) = _
      rw [add_assoc, add_assoc]
    · intro k
      rw [List.foldl_cons, d k, List.map_cons, List.sum_cons]
      change s.sumIou k + Attack.sumIou _ _ + _ = _
      rw [add_assoc]

/-- Spec: the sum over the tokens of an example of the intersections over unions of the experts used before and after. -/
noncomputable def exampleIou (a b : List (List ℝ)) : ℝ := (List.zipWith Attack.tokenIou a b).sum

theorem sumIou_eq (T : Nat) (a b : List (List (List ℝ))) (h : ∀ t ∈ a, t.length = T) :
    Attack.sumIou a b = (List.zipWith exampleIou a b).sum / T := by
  unfold Attack.sumIou
  cases a with
  | nil => simp
  | cons t a =>
    have : t.length = T := h t List.mem_cons_self
    simp only [List.head?_cons, Option.map_some, Option.getD_some, this]
    rfl

theorem sumIou_recs (T : Nat) (k : Key) (recs : List (Rec X)) (hr : ∀ r ∈ recs, r.Ok)
    (h : ∀ t ∈ (recs.flatMap Rec.o0).map (·.cw k), t.length = T) :
    (recs.map fun r => Attack.sumIou (r.o0.map (·.cw k)) (r.om.map (·.cw k))).sum =
      (List.zipWith exampleIou ((recs.flatMap Rec.o0).map (·.cw k)) ((recs.flatMap Rec.om).map (·.cw k))).sum / T := by
  induction recs with
  | nil => simp
  | cons r recs ih =>
    rw [List.flatMap_cons, List.map_append] at h
    have hok := hr r List.mem_cons_self
    rw [List.map_cons, List.sum_cons, ih (fun r h => hr r (List.mem_cons_of_mem _ h))
      (fun t ht => h t (List.mem_append_right _ ht)), sumIou_eq T _ _ (fun t ht => h t (List.mem_append_left _ ht)),
      List.flatMap_cons, List.flatMap_cons, List.map_append, List.map_append, List.zipWith_append
        (by rw [List.length_map, List.length_map, hok.1, hok.2]), List.sum_append, add_div]

theorem filterMap_of_mem {V : Type} (l : PyDict Key V) (h : (PyDict.keys l).Nodup) (k : Key) (v : V) (hm : (k, v) ∈ l) :
    (l.filterMap fun kv => if kv.1 = k then some kv.2 else none) = [v] := by
  induction l with
  | nil => cases hm
  | cons a l ih =>
    rw [show PyDict.keys (a :: l) = a.1 :: PyDict.keys l from rfl, List.nodup_cons] at h
    rcases List.mem_cons.1 hm with rfl | hm
    · rw [List.filterMap_cons, if_pos rfl]
      simp only
      have : (l.filterMap fun kv => if kv.1 = k then some kv.2 else none) = [] := by
        rw [List.filterMap_eq_nil_iff]
        intro b hb
        refine if_neg fun e => h.1 ?_
        rw [← e]
        exact List.mem_map.2 ⟨b, hb, rfl⟩
      rw [this]
    · have hk : a.1 ≠ k := by
        rintro rfl
        exact h.1 (List.mem_map.2 ⟨_, hm, rfl⟩)
      rw [List.filterMap_cons, if_neg hk]
      exact ih h.2 hm

theorem arrays_nodup (image : X → I) (label : X → L) (routers : List Key) (hr : routers.Nodup) (x xm : List X)
    (valid : List Bool) (o0 om : List (Attack.Out Key)) :
    (PyDict.keys (arrays image label routers x xm valid o0 om)).Nodup := by
  have e : PyDict.keys (arrays image label routers x xm valid o0 om) =
      ["x_0".toList, "y_0".toList, "l_0".toList, "x_m".toList, "y_m".toList, "l_m".toList, "y".toList, "valid".toList] ++
        ((routers.map fun k => "cw_0/".toList ++ k) ++ routers.map fun k => "cw_m/".toList ++ k) := by
    unfold PyDict.keys arrays
    rw [List.map_append, List.map_append, List.map_map, List.map_map]
    rfl
  rw [e, List.nodup_append, List.nodup_append]
  refine ⟨by decide, ⟨?_, ?_, ?_⟩, ?_⟩
  · exact hr.map fun a b h => List.append_cancel_left h
  · exact hr.map fun a b h => List.append_cancel_left h
  · intro a ha b hb
    obtain ⟨k, -, rfl⟩ := List.mem_map.1 ha
    obtain ⟨k', -, rfl⟩ := List.mem_map.1 hb
    intro h
    have := congrArg (fun l => l[3]?) h
    simp at this
  · intro a ha b hb h
    have hb' : b.head? = some 'c' := by
      rcases List.mem_append.1 hb with hb | hb <;> obtain ⟨k, -, rfl⟩ := List.mem_map.1 hb <;> rfl
    subst h
    simp only [List.mem_cons, List.not_mem_nil, or_false] at ha
    rcases ha with rfl | rfl | rfl | rfl | rfl | rfl | rfl | rfl <;> exact absurd hb' (by decide)

theorem column (image : X → I) (label : X → L) (routers : List Key) (hr : routers.Nodup) (recs : List (Rec X)) (k : Key)
    {α : Type} (col : Rec X → List α) (g : α → Cell I L)
    (h : ∀ r, (k, (col r).map g) ∈ arrays image label routers r.x r.xm r.valid r.o0 r.om) :
    (recs.flatMap fun r => (arrays image label routers r.x r.xm r.valid r.o0 r.om).filterMap
      fun kv => if kv.1 = k then some kv.2 else none) = recs.map fun r => (col r).map g := by
  induction recs with
  | nil => rfl
  | cons r recs ih =>
    rw [List.flatMap_cons, ih, filterMap_of_mem _ (arrays_nodup image label routers hr _ _ _ _ _) k _ (h r)]
    rfl

theorem flatten_map (recs : List (Rec X)) {α β : Type} (col : Rec X → List α) (g : α → β) :
    (recs.map fun r => (col r).map g).flatten = (recs.flatMap col).map g := by
  induction recs with
  | nil => rfl
  | cons r recs ih => rw [List.map_cons, List.flatten_cons, ih, List.flatMap_cons, List.map_append]

theorem file_columns (image : X → I) (label : X → L) (routers : List Key) (hr : routers.Nodup) (recs : List (Rec X))
    (hne : recs ≠ []) (f : PyDict Key (List (Cell I L))) (calls : List (ExampleStorage.Call (Cell I L)))
    (hf : ∀ k, PyDict.get? f k = if given k calls = [] then none else some (given k calls).flatten)
    (hg : ∀ k, given k calls = recs.flatMap fun r => (arrays image label routers r.x r.xm r.valid r.o0 r.om).filterMap
      fun kv => if kv.1 = k then some kv.2 else none) (k : Key) {α : Type} (col : Rec X → List α) (g : α → Cell I L)
    (h : ∀ r, (k, (col r).map g) ∈ arrays image label routers r.x r.xm r.valid r.o0 r.om) :
    PyDict.get? f k = some ((recs.flatMap col).map g) := by
  rw [hf k, hg k, column image label routers hr recs k col g h, if_neg (by simpa using hne), flatten_map]

theorem length_flatMap_ok (recs : List (Rec X)) (hr : ∀ r ∈ recs, r.Ok) :
    (recs.flatMap Rec.o0).length = (recs.flatMap Rec.valid).length ∧
      (recs.flatMap Rec.om).length = (recs.flatMap Rec.valid).length := by
  induction recs with
  | nil => exact ⟨rfl, rfl⟩
  | cons r recs ih =>
    obtain ⟨a, b⟩ := ih fun r h => hr r (List.mem_cons_of_mem _ h)
    obtain ⟨c, d⟩ := hr r List.mem_cons_self
    simp only [List.flatMap_cons, List.length_append]
    omega

/-- What a finished run is made of. -/
theorem run_recs (cfg : Config) (workdir : Key) (index count : Nat) (image : X → I) (label : X → L)
    (routers : List Key) (attack : List X → R → List X × R) (compute : List X → R → List (Attack.Out Key)) (rng : R)
    (batches : List (List X × List Bool)) (res : Result I L)
    (h : run cfg workdir index count image label routers attack compute rng batches = .ok res) :
    cfg.restoreFrom = some "checkpoint".toList ∧
    ∃ recs : List (Rec X), recs.map (fun r => (r.x, r.valid)) = batches ∧ (∀ r ∈ recs, r.Ok) ∧
      res.report = Attack.report (recs.foldl (fun st r => st.add (Attack.batchStats (some r.valid) r.o0 r.om))
        Attack.State.create) ∧ res.reportStep = cfg.numUpdates ∧
      res.state = (if index = 0 then some (PyStr.pathJoin workdir "pgd_state.npz".toList,
        recs.foldl (fun st r => st.add (Attack.batchStats (some r.valid) r.o0 r.om)) Attack.State.create) else none) ∧
      (makeStorage (Row := Cell I L) cfg workdir index count = none → res.examples = none) ∧
      ∀ path st, makeStorage (Row := Cell I L) cfg workdir index count = some (path, st) → ∃ calls st' st'',
        ExampleStorage.run st calls = .ok st' ∧ ExampleStorage.write st' = .ok st'' ∧
        res.examples = st''.file.map (fun f => (path, f)) ∧ (recs = [] → calls = []) ∧
        ∀ k, given k calls = recs.flatMap fun r => (arrays image label routers r.x r.xm r.valid r.o0 r.om).filterMap
          fun kv => if kv.1 = k then some kv.2 else none := by
  unfold run at h
  by_cases hc : cfg.restoreFrom = some "checkpoint".toList
  · refine ⟨hc, ?_⟩
    rw [if_neg (fun e => e hc)] at h
    cases h1 : loop image label routers attack compute 1 batches (Attack.State.create, rng)
        (makeStorage cfg workdir index count) with
    | error e => rw [h1] at h; cases h
    | ok r =>
      rw [h1] at h
      obtain ⟨s, storage⟩ := r
      simp only at h
      obtain ⟨recs, e1, e2, e3, e4, e5⟩ := loop_recs image label routers attack compute batches 1 _ _ _ _ h1
      cases h2 : writeExamples storage with
      | error e => rw [h2] at h; cases h
      | ok ex =>
        rw [h2] at h
        injection h with h
        subst h
        simp only at e3
        refine ⟨recs, e1, e2, by rw [← e3], rfl, by rw [← e3], ?_, ?_⟩
        · intro hn
          rw [e4 hn] at h2
          injection h2 with h2
          exact h2.symm
        · intro path st hs
          obtain ⟨st', calls, g1, g2, g4, g3⟩ := e5 path st hs
          rw [g1] at h2
          unfold writeExamples at h2
          simp only at h2
          cases h3 : ExampleStorage.write st' with
          | error e => rw [h3] at h2; cases h2
          | ok st'' =>
            rw [h3] at h2
            injection h2 with h2
            exact ⟨calls, st', st'', g2, h3, h2.symm, g4, g3⟩
  · rw [if_pos hc] at h
    cases h

theorem makeStorage_create {Row : Type} (cfg : Config) (workdir : Key) (index count : Nat) (path : Key)
    (st : ExampleStorage.Storage Row) (h : makeStorage cfg workdir index count = some (path, st)) :
    ∃ n, st = ExampleStorage.create n := by
  unfold makeStorage at h
  cases hs : cfg.storeExamples with
  | none => rw [hs] at h; cases h
  | some c =>
    rw [hs] at h
    obtain ⟨a, b⟩ := c
    cases a <;> cases b <;> first
      | (cases h; done)
      | (injection h with h; exact ⟨_, (Prod.mk.inj h).2.symm⟩)

theorem run_zero (calls : List (ExampleStorage.Call (Cell I L))) (st' : ExampleStorage.Storage (Cell I L))
    (h : ExampleStorage.run (ExampleStorage.create 0) calls = .ok st') (k : Key) : given k calls = [] := by
  suffices H : ∀ (calls : List (ExampleStorage.Call (Cell I L))) (st st' : ExampleStorage.Storage (Cell I L)),
      st.transferEvery = 0 → ExampleStorage.run st calls = .ok st' → given k calls = [] from
    H calls _ st' rfl h
  clear h calls st'
  intro calls
  induction calls with
  | nil => intro st st' _ _; rfl
  | cons c calls ih =>
    intro st st' h0 h
    unfold ExampleStorage.run at h
    rw [List.foldlM_cons] at h
    cases c with
    | store step arr =>
      unfold ExampleStorage.store at h
      simp only [h0, if_true] at h
      cases h
    | write =>
      rw [given]
      simp only at h
      cases hw : ExampleStorage.write st with
      | error e => rw [hw] at h; cases h
      | ok s =>
        rw [hw] at h
        refine ih s st' ?_ h
        unfold ExampleStorage.write at hw
        have ht : (ExampleStorage.transfer st).transferEvery = 0 := by
          unfold ExampleStorage.transfer
          have : ∀ (l : PyDict Key (List (List (Cell I L)))) (s : ExampleStorage.Storage (Cell I L)),
              s.transferEvery = 0 → (l.foldl (fun s kv => { s with
                data := PyDict.set s.data kv.1 (ExampleStorage.getList s.data kv.1 ++ kv.2),
                temp := PyDict.set s.temp kv.1 [] }) s).transferEvery = 0 := by
            intro l
            induction l with
            | nil => intro s hs; exact hs
            | cons a l ih => intro s hs; exact ih _ hs
          exact this _ _ h0
        simp only at hw
        by_cases c1 : (ExampleStorage.transfer st).data.isEmpty = true
        · rw [if_pos c1] at hw
          injection hw with hw
          rw [← hw]
          exact ht
        · rw [if_neg c1] at hw
          by_cases c2 : (ExampleStorage.transfer st).data.any (·.2.isEmpty) = true
          · rw [if_pos c2] at hw
            cases hw
          · rw [if_neg c2] at hw
            injection hw with hw
            rw [← hw]
            exact ht

theorem file_of_run (image : X → I) (label : X → L) (routers : List Key) (hr : routers.Nodup) (recs : List (Rec X))
    (hne : recs ≠ []) (n : Int) (calls : List (ExampleStorage.Call (Cell I L)))
    (st' st'' : ExampleStorage.Storage (Cell I L)) (f : PyDict Key (List (Cell I L)))
    (h1 : ExampleStorage.run (ExampleStorage.create n) calls = .ok st') (h2 : ExampleStorage.write st' = .ok st'')
    (h3 : st''.file = some f)
    (hg : ∀ k, given k calls = recs.flatMap fun r => (arrays image label routers r.x r.xm r.valid r.o0 r.om).filterMap
      fun kv => if kv.1 = k then some kv.2 else none) (k : Key) :
    PyDict.get? f k = if given k calls = [] then none else some (given k calls).flatten := by
  have hv : given "valid".toList calls ≠ [] := by
    rw [hg, column image label routers hr recs "valid".toList Rec.valid .valid fun r => by simp [arrays]]
    simpa using hne
  have hn : n ≠ 0 := by
    rintro rfl
    exact hv (run_zero calls st' h1 _)
  obtain ⟨s, a, -, b⟩ := ExampleStorage.C63_complete n hn calls
  have e : ExampleStorage.run (ExampleStorage.create n) (calls ++ [.write]) = .ok st'' := by
    unfold ExampleStorage.run at h1 ⊢
    rw [List.foldlM_append, h1]
    change List.foldlM _ st' _ = _
    rw [List.foldlM_cons]
    simp only [h2]
    rfl
  rw [e] at a
  injection a with a
  obtain ⟨f', b1, -, b2⟩ := b ⟨_, hv⟩
  rw [← a, h3] at b1
  injection b1 with b1
  rw [b1]
  exact b2 k

/-- The stored examples and the reported numbers are about the same data: the images, labels and masks in the file are those
of the whole dataset in its order, and losses, changed predictions and changed experts of the report are those of the rows
of the file, relative to the number of real examples. -/
theorem C103_examples_and_reports (cfg : Config) (workdir : Key) (index count : Nat) (image : X → I) (label : X → L)
    (routers : List Key) (hr : routers.Nodup) (attack : List X → R → List X × R)
    (compute : List X → R → List (Attack.Out Key)) (rng : R) (batches : List (List X × List Bool)) (res : Result I L)
    (h : run cfg workdir index count image label routers attack compute rng batches = .ok res) (path : Key)
    (f : PyDict Key (List (Cell I L))) (hf : res.examples = some (path, f)) :
    ∃ (valid : List Bool) (y0 ym : List Int) (l0 lm : List ℝ) (cw0 cwm : Key → List (List (List ℝ))),
      PyDict.get? f "x_0".toList = some ((batches.flatMap Prod.fst).map fun e => .image (image e)) ∧
      PyDict.get? f "y".toList = some ((batches.flatMap Prod.fst).map fun e => .label (label e)) ∧
      valid = batches.flatMap Prod.snd ∧ PyDict.get? f "valid".toList = some (valid.map .valid) ∧
      PyDict.get? f "y_0".toList = some (y0.map .pred) ∧ PyDict.get? f "y_m".toList = some (ym.map .pred) ∧
      PyDict.get? f "l_0".toList = some (l0.map .loss) ∧ PyDict.get? f "l_m".toList = some (lm.map .loss) ∧
      y0.length = valid.length ∧ ym.length = valid.length ∧ l0.length = valid.length ∧ lm.length = valid.length ∧
      res.report.loss0 = l0.sum / (valid.count true : ℕ) ∧ res.report.lossM = lm.sum / (valid.count true : ℕ) ∧
      res.report.predictionChanges =
        ((List.zip y0 ym).countP (fun p => decide (p.1 ≠ p.2)) : ℕ) / ((valid.count true : ℕ) : ℝ) ∧
      (∀ file s, res.state = some (file, s) → s.numImages = (valid.count true : Int) ∧ s.sumLoss = (l0.sum, lm.sum) ∧
        s.numChanges = ((List.zip y0 ym).countP (fun p => decide (p.1 ≠ p.2)) : Int)) ∧
      ∀ k ∈ routers, PyDict.get? f ("cw_0/".toList ++ k) = some ((cw0 k).map .weights) ∧
        PyDict.get? f ("cw_m/".toList ++ k) = some ((cwm k).map .weights) ∧
        (cw0 k).length = valid.length ∧ (cwm k).length = valid.length ∧
        ∀ T, (∀ t ∈ cw0 k, t.length = T) → res.report.routingChanges k =
          1 - (List.zipWith exampleIou (cw0 k) (cwm k)).sum / T / ((valid.count true : ℕ) : ℝ) := by
  obtain ⟨-, recs, e1, e2, e3, -, e5, e6, e7⟩ := run_recs cfg workdir index count image label routers attack compute rng
    batches res h
  cases hm : makeStorage (Row := Cell I L) cfg workdir index count with
  | none => rw [e6 hm] at hf; cases hf
  | some q =>
    obtain ⟨path', st⟩ := q
    obtain ⟨calls, st', st'', g1, g2, g3, g5, g4⟩ := e7 path' st hm
    obtain ⟨n, rfl⟩ := makeStorage_create cfg workdir index count path' st hm
    have hne : recs ≠ [] := by
      intro hn
      rw [g5 hn] at g1
      injection g1 with g1
      rw [← g1] at g2
      injection g2 with g2
      rw [g3, ← g2] at hf
      cases hf
    have hfile := fun k => file_of_run image label routers hr recs hne n calls st' st'' f g1 g2
      (by
        rw [g3] at hf
        cases hs : st''.file with
        | none => rw [hs] at hf; cases hf
        | some f' =>
          rw [hs] at hf
          injection hf with hf
          rw [(Prod.mk.inj hf).2]) g4 k
    have col := fun k => @file_columns X I L image label routers hr recs hne f calls hfile g4 k
    obtain ⟨s1, s2, s3, s4⟩ := foldl_stats recs e2 Attack.State.create
    obtain ⟨len0, lenm⟩ := length_flatMap_ok recs e2
    have hx : recs.flatMap Rec.x = batches.flatMap Prod.fst := by
      rw [← e1, List.flatMap_map]
    have hv : recs.flatMap Rec.valid = batches.flatMap Prod.snd := by
      rw [← e1, List.flatMap_map]
    have hc : (((recs.flatMap Rec.valid).count true : Int) : ℝ) = ((recs.flatMap Rec.valid).count true : ℕ) := by simp
    refine ⟨recs.flatMap Rec.valid, (recs.flatMap Rec.o0).map (·.pred), (recs.flatMap Rec.om).map (·.pred),
      (recs.flatMap Rec.o0).map (·.loss), (recs.flatMap Rec.om).map (·.loss),
      fun k => (recs.flatMap Rec.o0).map (·.cw k), fun k => (recs.flatMap Rec.om).map (·.cw k),
      ?_, ?_, hv, ?_, ?_, ?_, ?_, ?_, ?_, ?_, ?_, ?_, ?_, ?_, ?_, ?_, ?_⟩
    · rw [← hx]
      exact col _ Rec.x _ fun r => by simp [arrays]
    · rw [← hx]
      exact col _ Rec.x _ fun r => by simp [arrays]
    · exact col _ Rec.valid _ fun r => by simp [arrays]
    · rw [List.map_map]
      exact col _ Rec.o0 _ fun r => by simp [arrays]
    · rw [List.map_map]
      exact col _ Rec.om _ fun r => by simp [arrays]
    · rw [List.map_map]
      exact col _ Rec.o0 _ fun r => by simp [arrays]
    · rw [List.map_map]
      exact col _ Rec.om _ fun r => by simp [arrays]
    · rw [List.length_map, len0]
    · rw [List.length_map, lenm]
    · rw [List.length_map, len0]
    · rw [List.length_map, lenm]
    · rw [e3]
      simp only [Attack.report, s1, s3]
      simp [Attack.State.create]
    · rw [e3]
      simp only [Attack.report, s1, s3]
      simp [Attack.State.create]
    · rw [e3]
      simp only [Attack.report, s1, s2]
      simp [Attack.State.create]
    · intro file s hs
      rw [e5] at hs
      by_cases hi : index = 0
      · rw [if_pos hi] at hs
        injection hs with hs
        rw [← (Prod.mk.inj hs).2, s1, s2, s3]
        simp [Attack.State.create]
      · rw [if_neg hi] at hs
        cases hs
    · intro k hk
      refine ⟨?_, ?_, ?_, ?_, ?_⟩
      · rw [List.map_map]
        exact col _ Rec.o0 _ fun r => List.mem_append_right _ (List.mem_append_left _ (List.mem_map.2 ⟨k, hk, rfl⟩))
      · rw [List.map_map]
        exact col _ Rec.om _ fun r => List.mem_append_right _ (List.mem_append_right _ (List.mem_map.2 ⟨k, hk, rfl⟩))
      · rw [List.length_map, len0]
      · rw [List.length_map, lenm]
      · intro T hT
        rw [e3]
        simp only [Attack.report, s1, s4]
        rw [sumIou_recs T k recs e2 hT]
        simp [Attack.State.create]

/-- The examples are written, to a file of this process, by every run with a storage over a dataset that is not empty;
without batches there is no such file. -/
theorem C103_examples_written (cfg : Config) (c : StoreConfig) (hs : cfg.storeExamples = some c)
    (hc : c.filePrefix ≠ none ∨ c.transferEverySteps ≠ none) (workdir : Key) (index count : Nat) (image : X → I)
    (label : X → L) (routers : List Key) (hr : routers.Nodup) (attack : List X → R → List X × R)
    (compute : List X → R → List (Attack.Out Key)) (rng : R) (batches : List (List X × List Bool)) (res : Result I L)
    (h : run cfg workdir index count image label routers attack compute rng batches = .ok res) :
    (batches = [] → res.examples = none) ∧ (batches ≠ [] → ∃ f, res.examples =
      some (examplesPath (c.filePrefix.getD (PyStr.pathJoin workdir "examples".toList)) index count, f)) := by
  obtain ⟨-, recs, e1, e2, -, -, -, -, e7⟩ := run_recs cfg workdir index count image label routers attack compute rng
    batches res h
  have hm : makeStorage (Row := Cell I L) cfg workdir index count =
      some (examplesPath (c.filePrefix.getD (PyStr.pathJoin workdir "examples".toList)) index count,
        ExampleStorage.create (c.transferEverySteps.getD 1)) := by
    unfold makeStorage
    rw [hs]
    obtain ⟨a, b⟩ := c
    cases a <;> cases b <;> first
      | rfl
      | (rcases hc with hc | hc <;> exact absurd rfl hc)
  obtain ⟨calls, st', st'', g1, g2, g3, g5, g4⟩ := e7 _ _ hm
  constructor
  · rintro rfl
    rw [g5 (List.map_eq_nil_iff.1 e1)] at g1
    injection g1 with g1
    rw [← g1] at g2
    injection g2 with g2
    rw [g3, ← g2]
    rfl
  · intro hne
    have hne' : recs ≠ [] := by
      rintro rfl
      exact hne e1.symm
    have hv : given "valid".toList calls ≠ [] := by
      rw [g4, column image label routers hr recs "valid".toList Rec.valid .valid fun r => by simp [arrays]]
      simpa using hne'
    have hn : c.transferEverySteps.getD 1 ≠ 0 := by
      intro h0
      rw [h0] at g1
      exact hv (run_zero calls st' g1 _)
    obtain ⟨s, a, -, b⟩ := ExampleStorage.C63_complete _ hn calls
    have e : ExampleStorage.run (ExampleStorage.create (c.transferEverySteps.getD 1)) (calls ++ [.write]) = .ok st'' := by
      unfold ExampleStorage.run at g1 ⊢
      rw [List.foldlM_append, g1]
      change List.foldlM _ st' _ = _
      rw [List.foldlM_cons]
      simp only [g2]
      rfl
    rw [e] at a
    injection a with a
    obtain ⟨f, b1, -, -⟩ := b ⟨_, hv⟩
    exact ⟨f, by rw [g3, a, b1]; rfl⟩

/-- Whether examples are stored, and which process it is, has no effect on the reported numbers: two runs over the same
batches that both finish report the same. -/
theorem C103_same_report (cfg cfg' : Config) (workdir workdir' : Key) (index index' count count' : Nat) (image : X → I)
    (label : X → L) (routers : List Key) (attack : List X → R → List X × R)
    (compute : List X → R → List (Attack.Out Key)) (rng : R) (batches : List (List X × List Bool)) (res res' : Result I L)
    (h : run cfg workdir index count image label routers attack compute rng batches = .ok res)
    (h' : run cfg' workdir' index' count' image label routers attack compute rng batches = .ok res') :
    res.report = res'.report ∧ res.reportStep = cfg.numUpdates := by
  have key : ∀ (batches : List (List X × List Bool)) (step : Nat) (s : Attack.State Key × R)
      (st st' : Option (Key × ExampleStorage.Storage (Cell I L))) r r',
      loop image label routers attack compute step batches s st = .ok r →
      loop image label routers attack compute step batches s st' = .ok r' → r.1 = r'.1 := by
    intro batches
    induction batches with
    | nil =>
      intro step s st st' r r' h h'
      injection h with h
      injection h' with h'
      rw [← h, ← h']
    | cons b rest ih =>
      intro step s st st' r r' h h'
      unfold loop at h h'
      cases h1 : Attack.statefulAttack attack compute s b.1 (some b.2) with
      | error e => rw [h1] at h; cases h
      | ok s1 =>
        rw [h1] at h h'
        simp only at h h'
        cases h2 : storeBatch st step (batchArrays image label routers attack compute s.2 b.1 b.2) with
        | error e => rw [h2] at h; cases h
        | ok t =>
          cases h3 : storeBatch st' step (batchArrays image label routers attack compute s.2 b.1 b.2) with
          | error e => rw [h3] at h'; cases h'
          | ok t' =>
            rw [h2] at h
            rw [h3] at h'
            exact ih _ _ _ _ _ _ h h'
  have fin : ∀ (cfg : Config) (workdir : Key) (index count : Nat) (res : Result I L),
      run cfg workdir index count image label routers attack compute rng batches = .ok res →
      ∃ st r, loop image label routers attack compute 1 batches (Attack.State.create, rng) st = .ok r ∧
        res.report = Attack.report r.1.1 ∧ res.reportStep = cfg.numUpdates := by
    intro cfg workdir index count res h
    unfold run at h
    by_cases hc : cfg.restoreFrom ≠ some "checkpoint".toList
    · rw [if_pos hc] at h; cases h
    · rw [if_neg hc] at h
      cases h1 : loop image label routers attack compute 1 batches (Attack.State.create, rng)
          (makeStorage cfg workdir index count) with
      | error e => rw [h1] at h; cases h
      | ok r =>
        rw [h1] at h
        obtain ⟨s, storage⟩ := r
        simp only at h
        cases h2 : writeExamples storage with
        | error e => rw [h2] at h; cases h
        | ok ex =>
          rw [h2] at h
          injection h with h
          refine ⟨_, _, h1, ?_, ?_⟩ <;> rw [← h]
  obtain ⟨_, r, a1, a2, a3⟩ := fin _ _ _ _ _ h
  obtain ⟨_, r', b1, b2, -⟩ := fin _ _ _ _ _ h'
  exact ⟨by rw [a2, b2, key _ _ _ _ _ _ _ a1 b1], a3⟩

/-- Only the first process writes the file with the state, and always at the same place. -/
theorem C103_state_file (cfg : Config) (workdir : Key) (index count : Nat) (image : X → I) (label : X → L)
    (routers : List Key) (attack : List X → R → List X × R) (compute : List X → R → List (Attack.Out Key)) (rng : R)
    (batches : List (List X × List Bool)) (res : Result I L)
    (h : run cfg workdir index count image label routers attack compute rng batches = .ok res) :
    (index ≠ 0 → res.state = none) ∧ (index = 0 → ∃ s, res.state =
      some (PyStr.pathJoin workdir "pgd_state.npz".toList, s) ∧ Attack.report s = res.report) := by
  obtain ⟨-, recs, -, -, e3, -, e5, -, -⟩ := run_recs cfg workdir index count image label routers attack compute rng
    batches res h
  exact ⟨fun hi => by rw [e5, if_neg hi], fun hi => ⟨_, by rw [e5, if_pos hi], e3.symm⟩⟩

theorem value_pad3 (n : Nat) : CkptNames.value (pad3 n) = n := by
  unfold pad3
  rw [CkptPath.value_append, CkptPath.value_replicate_zero, CkptPath.value_natStr]
  simp

/-- Two processes of a run never write their examples to the same file, however many processes there are. -/
theorem C103_paths_distinct (filePrefix : Key) (i j count : Nat)
    (h : examplesPath filePrefix i count = examplesPath filePrefix j count) : i = j := by
  unfold examplesPath at h
  have h1 := List.append_cancel_left (List.append_cancel_right (List.append_cancel_right h) |>.trans (by rfl))
  rw [← value_pad3 i, ← value_pad3 j, h1]

/-- Anything but `restore_from = 'checkpoint'` is rejected before any work is done. -/
theorem C103_restore_from (cfg : Config) (hc : cfg.restoreFrom ≠ some "checkpoint".toList) (workdir : Key)
    (index count : Nat) (image : X → I) (label : X → L) (routers : List Key) (attack : List X → R → List X × R)
    (compute : List X → R → List (Attack.Out Key)) (rng : R) (batches : List (List X × List Bool)) :
    run cfg workdir index count image label routers attack compute rng batches = .error .valueError := if_pos hc

/-- A configuration whose `store_examples` is a dictionary without entries: `makeStorage` takes it as absent. -/
def emptyStore : Config := { restoreFrom := some "checkpoint".toList, storeExamples := some {}, numUpdates := 40 }

/-- "Examples are stored if `store_examples` is in the configuration" is false: with a dictionary without entries, which asks
for the default prefix and period, no run stores any. -/
theorem C103_empty_config_counterexample (workdir : Key) (index count : Nat) (image : X → I) (label : X → L)
    (routers : List Key) (attack : List X → R → List X × R) (compute : List X → R → List (Attack.Out Key)) (rng : R)
    (batches : List (List X × List Bool)) (res : Result I L)
    (h : run emptyStore workdir index count image label routers attack compute rng batches = .ok res) :
    res.examples = none := by
  obtain ⟨-, recs, -, -, -, -, -, e6, -⟩ := run_recs _ workdir index count image label routers attack compute rng
    batches res h
  exact e6 rfl

/-- A transfer period of zero fails at the first batch. -/
theorem C103_zero_period (cfg : Config) (c : StoreConfig) (hs : cfg.storeExamples = some c)
    (hc : c.transferEverySteps = some 0) (workdir : Key) (index count : Nat) (image : X → I) (label : X → L)
    (routers : List Key) (hr : routers.Nodup) (attack : List X → R → List X × R)
    (compute : List X → R → List (Attack.Out Key)) (rng : R) (batches : List (List X × List Bool)) (hb : batches ≠ [])
    (res : Result I L) : run cfg workdir index count image label routers attack compute rng batches ≠ .ok res := by
  intro h
  obtain ⟨-, recs, e1, -, -, -, -, -, e7⟩ := run_recs cfg workdir index count image label routers attack compute rng
    batches res h
  obtain ⟨p, hp⟩ : ∃ p, makeStorage (Row := Cell I L) cfg workdir index count = some (p, ExampleStorage.create 0) := by
    unfold makeStorage
    rw [hs]
    obtain ⟨a, b⟩ := c
    simp only at hc
    subst hc
    cases a <;> exact ⟨_, rfl⟩
  obtain ⟨calls, st', st'', g1, -, -, -, g4⟩ := e7 _ _ hp
  have hne' : recs ≠ [] := by
    rintro rfl
    exact hb e1.symm
  have := run_zero calls st' g1 "valid".toList
  rw [g4, column image label routers hr recs "valid".toList Rec.valid .valid fun r => by simp [arrays]] at this
  exact hne' (List.map_eq_nil_iff.1 this)

/-! ### Examples -/

/-- A run of two batches: examples are numbers, the prediction is the number itself, the attack adds one to even numbers. -/
noncomputable def demo (cfg : Config) (index : Nat) : Except PyErr (Result Nat Nat) :=
  run cfg "w".toList index 2 (fun n => n) (fun n => n % 2) ["moe".toList]
    (fun x (rng : Nat) => (x.map fun n => if n % 2 = 0 then n + 1 else n, rng + 1))
    (fun x _ => x.map fun n : Nat => { pred := (n : Int), correct := 1, loss := (n : ℝ), cw := fun _ => [[1, 0]] }) 0
    [([4, 5], [true, true]), ([6, 0], [true, false])]

/-- Examples of a run with a storage. -/
def demoConfig : Config :=
  { restoreFrom := some "checkpoint".toList, storeExamples := some { transferEverySteps := some 2 }, numUpdates := 40 }

example : ∃ res f, demo demoConfig 1 = .ok res ∧ res.state = none ∧
    res.examples = some ("w/examples-001-of-002".toList, f) := ⟨_, _, rfl, rfl, rfl⟩

example : ∃ res s, demo demoConfig 0 = .ok res ∧ res.state = some ("w/pgd_state.npz".toList, s) ∧ s.numImages = 3 :=
  ⟨_, _, rfl, rfl, rfl⟩

example : ∃ res, demo emptyStore 0 = .ok res ∧ res.examples = none := ⟨_, rfl, rfl⟩

example : ["moe".toList].Nodup := by decide

example : examplesPath "p".toList 1000 2000 = "p-1000-of-2000".toList := by decide

example : ∀ res, demo { demoConfig with storeExamples := some { transferEverySteps := some 0 } } 0 ≠ .ok res :=
  fun _ => C103_zero_period _ _ rfl rfl _ _ _ _ _ _ (by decide) _ _ _ _ (by simp) _

end Verif.AttackRun
