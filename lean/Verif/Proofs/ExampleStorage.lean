import Verif.Proofs.PyDict
import Verif.Proofs.ExceptLemmas
import Verif.Spec.ExampleStorage

namespace Verif.ExampleStorage

open Verif ExampleStorageSpec

variable {Row : Type}

theorem getList_set (d : PyDict Key (List (List Row))) (k k' : Key) (v : List (List Row)) :
    getList (PyDict.set d k v) k' = if k = k' then v else getList d k' := by
  unfold getList
  rw [PyDict.get?_set]
  split <;> rfl

theorem mem_keys_set (d : PyDict Key (List (List Row))) (k k' : Key) (v : List (List Row)) :
    k' ∈ PyDict.keys (PyDict.set d k v) ↔ k' ∈ PyDict.keys d ∨ k' = k := by
  rw [PyDict.keys_set]
  split
  · rename_i h
    constructor
    · exact .inl
    · rintro (h' | rfl)
      · exact h'
      · exact h
  · simp

theorem getList_nil_of (d : PyDict Key (List (List Row))) (k : Key) (h : k ∉ PyDict.keys d) : getList d k = [] := by
  unfold getList
  rw [(PyDict.get?_eq_none d k).2 h]
  rfl

theorem getList_of_mem (d : PyDict Key (List (List Row))) (hd : (PyDict.keys d).Nodup) (k : Key) (v : List (List Row))
    (h : (k, v) ∈ d) : getList d k = v := by
  unfold getList
  rw [(PyDict.get?_eq_some d hd k v).2 h]
  rfl

/-- The relation of the state and what was given. -/
structure Inv (s : Storage Row) (st : Key → List (List Row)) : Prop where
  all : ∀ k, getList s.data k ++ getList s.temp k = st k
  known : ∀ k, k ∈ PyDict.keys s.temp ↔ st k ≠ []
  sub : ∀ k ∈ PyDict.keys s.data, k ∈ PyDict.keys s.temp
  full : ∀ k ∈ PyDict.keys s.data, getList s.data k ≠ []
  nodupData : (PyDict.keys s.data).Nodup
  nodupTemp : (PyDict.keys s.temp).Nodup

theorem transfer_loop (l : PyDict Key (List (List Row))) (hl : (PyDict.keys l).Nodup) (s : Storage Row)
    (st : Key → List (List Row)) (hs : ∀ k v, (k, v) ∈ l → getList s.temp k = v)
    (hall : ∀ k, getList s.data k ++ getList s.temp k = st k) (hknown : ∀ k, k ∈ PyDict.keys s.temp ↔ st k ≠ [])
    (hsub : ∀ k ∈ PyDict.keys s.data, k ∈ PyDict.keys s.temp) (hfull : ∀ k ∈ PyDict.keys s.data, getList s.data k ≠ [])
    (hd : (PyDict.keys s.data).Nodup) (ht : (PyDict.keys s.temp).Nodup)
    (hin : ∀ k ∈ PyDict.keys l, k ∈ PyDict.keys s.temp)
    (hdone : ∀ k, k ∉ PyDict.keys l → getList s.temp k = [] ∧ (st k ≠ [] → k ∈ PyDict.keys s.data)) :
    let s' := l.foldl (fun s kv => { s with data := PyDict.set s.data kv.1 (getList s.data kv.1 ++ kv.2),
                                            temp := PyDict.set s.temp kv.1 [] }) s
    Inv s' st ∧ (∀ k, getList s'.temp k = []) ∧ (∀ k, st k ≠ [] → k ∈ PyDict.keys s'.data) ∧ s'.file = s.file ∧
      s'.transferEvery = s.transferEvery := by
  induction l generalizing s with
  | nil =>
    exact ⟨⟨hall, hknown, hsub, hfull, hd, ht⟩, fun k => (hdone k (by simp [PyDict.keys])).1,
      fun k => (hdone k (by simp [PyDict.keys])).2, rfl, rfl⟩
  | cons kv l ih =>
    obtain ⟨k0, v0⟩ := kv
    have hn : k0 ∉ PyDict.keys l ∧ (PyDict.keys l).Nodup := List.nodup_cons.1 hl
    have hv : getList s.temp k0 = v0 := hs k0 v0 (by simp)
    have hk0 : k0 ∈ PyDict.keys s.temp := hin k0 (by simp [PyDict.keys])
    have hst : getList s.data k0 ++ v0 = st k0 := by rw [← hv]; exact hall k0
    rw [List.foldl_cons]
    have := ih hn.2 { s with data := PyDict.set s.data k0 (getList s.data k0 ++ v0), temp := PyDict.set s.temp k0 [] }
      ?_ ?_ ?_ ?_ ?_ ?_ ?_ ?_ ?_
    · exact this
    · intro k v h
      simp only [getList_set]
      rw [if_neg, hs k v (by simp [h])]
      rintro rfl
      exact hn.1 (List.mem_map.2 ⟨_, h, rfl⟩)
    · intro k
      simp only [getList_set]
      by_cases h : k0 = k
      · subst h
        simp [hst]
      · rw [if_neg h, if_neg h]
        exact hall k
    · intro k
      simp only [mem_keys_set]
      rw [← hknown k]
      constructor
      · rintro (h | rfl)
        · exact h
        · exact hk0
      · exact .inl
    · intro k hk
      simp only [mem_keys_set] at hk ⊢
      rcases hk with hk | rfl
      · exact .inl (hsub k hk)
      · exact .inr rfl
    · intro k hk
      simp only [mem_keys_set] at hk
      simp only [getList_set]
      by_cases h : k0 = k
      · subst h
        rw [if_pos rfl, hst]
        exact (hknown k0).1 hk0
      · rw [if_neg h]
        exact hfull k (hk.resolve_right (Ne.symm h))
    · exact PyDict.nodup_keys_set _ _ _ hd
    · exact PyDict.nodup_keys_set _ _ _ ht
    · intro k hk
      simp only [mem_keys_set]
      exact .inl (hin k (by simp only [PyDict.keys, List.map_cons, List.mem_cons]; exact .inr hk))
    · intro k hk
      simp only [getList_set, mem_keys_set]
      by_cases h : k0 = k
      · simp [h]
      · rw [if_neg h]
        obtain ⟨h1, h2⟩ := hdone k (by
          simp only [PyDict.keys, List.map_cons, List.mem_cons]
          rintro (h' | h')
          · exact h h'.symm
          · exact hk h')
        exact ⟨h1, fun h3 => .inl (h2 h3)⟩

theorem transfer_inv (s : Storage Row) (st : Key → List (List Row)) (h : Inv s st) :
    Inv (transfer s) st ∧ (∀ k, getList (transfer s).temp k = []) ∧ (∀ k, st k ≠ [] → k ∈ PyDict.keys (transfer s).data) ∧
      (transfer s).file = s.file ∧ (transfer s).transferEvery = s.transferEvery := by
  refine transfer_loop s.temp h.nodupTemp s st (fun k v hk => getList_of_mem _ h.nodupTemp k v hk) h.all h.known h.sub h.full
    h.nodupData h.nodupTemp (fun k hk => hk) ?_
  intro k hk
  refine ⟨getList_nil_of _ k hk, fun h1 => absurd ((h.known k).2 h1) hk⟩

theorem append_inv (arrays : PyDict Key (List Row)) (s : Storage Row) (st : Key → List (List Row)) (h : Inv s st) :
    Inv { s with temp := arrays.foldl (fun t kv => PyDict.set t kv.1 (getList t kv.1 ++ [kv.2])) s.temp }
      (fun k => st k ++ arrays.filterMap fun kv => if kv.1 = k then some kv.2 else none) := by
  induction arrays generalizing s st with
  | nil => simpa using h
  | cons kv arrays ih =>
    obtain ⟨k0, v0⟩ := kv
    have h1 : Inv { s with temp := PyDict.set s.temp k0 (getList s.temp k0 ++ [v0]) }
        (fun k => st k ++ if k0 = k then [v0] else []) := by
      refine ⟨?_, ?_, ?_, h.full, h.nodupData, PyDict.nodup_keys_set _ _ _ h.nodupTemp⟩
      · intro k
        simp only [getList_set]
        by_cases hk : k0 = k
        · subst hk
          rw [if_pos rfl, if_pos rfl, ← h.all k0, List.append_assoc]
        · rw [if_neg hk, if_neg hk, List.append_nil]
          exact h.all k
      · intro k
        simp only [mem_keys_set]
        by_cases hk : k0 = k
        · subst hk
          simp
        · rw [if_neg hk, List.append_nil, ← h.known k]
          constructor
          · rintro (h' | h')
            · exact h'
            · exact absurd h'.symm hk
          · exact .inl
      · intro k hk
        simp only [mem_keys_set]
        exact .inl (h.sub k hk)
    have h2 := ih _ _ h1
    rw [List.foldl_cons]
    convert h2 using 2 with k
    rw [List.append_assoc]
    congr 1
    rw [List.filterMap_cons]
    by_cases hk : k0 = k
    · simp [hk]
    · simp [hk]

/-- What `write` does. -/
theorem write_inv (s : Storage Row) (st : Key → List (List Row)) (h : Inv s st) :
    ∃ s', write s = .ok s' ∧ Inv s' st ∧ s'.transferEvery = s.transferEvery ∧
      ((∀ k, st k = []) → s'.file = s.file) ∧
      ((∃ k, st k ≠ []) → ∃ f, s'.file = some f ∧ (PyDict.keys f).Nodup ∧
        ∀ k, PyDict.get? f k = if st k = [] then none else some (st k).flatten) := by
  obtain ⟨hi, h1, h2, h3, h4⟩ := transfer_inv s st h
  have hdata : ∀ k, getList (transfer s).data k = st k := by
    intro k
    have := hi.all k
    rwa [h1 k, List.append_nil] at this
  have hany : ((transfer s).data.any (·.2.isEmpty)) = false := by
    rw [List.any_eq_false]
    rintro ⟨k, v⟩ hkv hv
    have hm : k ∈ PyDict.keys (transfer s).data := List.mem_map.2 ⟨_, hkv, rfl⟩
    refine hi.full k hm ?_
    rw [getList_of_mem _ hi.nodupData k v hkv]
    simpa using hv
  unfold write
  simp only
  by_cases he : (transfer s).data.isEmpty = true
  · rw [if_pos he]
    refine ⟨_, rfl, hi, h4, fun _ => h3, ?_⟩
    rintro ⟨k, hk⟩
    have := h2 k hk
    rw [List.isEmpty_iff] at he
    rw [he] at this
    simp [PyDict.keys] at this
  · rw [if_neg he, if_neg (by simp [hany])]
    refine ⟨_, rfl, ⟨hi.all, hi.known, hi.sub, hi.full, hi.nodupData, hi.nodupTemp⟩, h4, ?_, ?_⟩
    · intro hno
      exfalso
      apply he
      rw [List.isEmpty_iff]
      rw [List.eq_nil_iff_forall_not_mem]
      rintro ⟨k, v⟩ hkv
      have hm : k ∈ PyDict.keys (transfer s).data := List.mem_map.2 ⟨_, hkv, rfl⟩
      exact hi.full k hm (by rw [hdata k, hno k])
    · intro _
      have hkeys : PyDict.keys ((transfer s).data.map fun kv => (kv.1, kv.2.flatten)) = PyDict.keys (transfer s).data := by
        simp [PyDict.keys, List.map_map, Function.comp_def]
      refine ⟨_, rfl, by rw [hkeys]; exact hi.nodupData, ?_⟩
      intro k
      split
      · rename_i hk
        rw [PyDict.get?_eq_none, hkeys]
        intro hm
        exact hi.full k hm (by rw [hdata k, hk])
      · rename_i hk
        rw [PyDict.get?_eq_some _ (by rw [hkeys]; exact hi.nodupData)]
        obtain ⟨⟨k', v⟩, hv, rfl⟩ := List.mem_map.1 (h2 k hk)
        refine List.mem_map.2 ⟨_, hv, ?_⟩
        rw [← hdata, getList_of_mem _ hi.nodupData _ _ hv]

theorem store_inv (s : Storage Row) (st : Key → List (List Row)) (h : Inv s st) (hte : s.transferEvery ≠ 0) (step : Int)
    (arrays : PyDict Key (List Row)) :
    ∃ s', store s step arrays = (s', none) ∧ s'.transferEvery = s.transferEvery ∧
      Inv s' (fun k => st k ++ arrays.filterMap fun kv => if kv.1 = k then some kv.2 else none) ∧ s'.file = s.file := by
  have h1 := append_inv arrays s st h
  unfold store
  simp only
  rw [if_neg hte]
  split
  · obtain ⟨h2, _, _, h3, h4⟩ := transfer_inv _ _ h1
    exact ⟨_, rfl, h4, h2, h3⟩
  · exact ⟨_, rfl, rfl, h1, rfl⟩

theorem run_inv (calls : List (Call Row)) (s : Storage Row) (st : Key → List (List Row)) (h : Inv s st)
    (hte : s.transferEvery ≠ 0) :
    ∃ s', run s calls = .ok s' ∧ s'.transferEvery = s.transferEvery ∧ Inv s' fun k => st k ++ given k calls := by
  induction calls generalizing s st with
  | nil => exact ⟨s, rfl, rfl, by simpa [given] using h⟩
  | cons c calls ih =>
    cases c with
    | write =>
      obtain ⟨s1, h1, h2, h3, _⟩ := write_inv s st h
      obtain ⟨s2, h4, h5, h6⟩ := ih s1 st h2 (by rw [h3]; exact hte)
      refine ⟨s2, ?_, by rw [h5, h3], h6⟩
      unfold run at h4 ⊢
      rw [List.foldlM_cons]
      simp only [h1]
      exact h4
    | store step arrays =>
      obtain ⟨s1, h1, h2, h3, _⟩ := store_inv s st h hte step arrays
      obtain ⟨s2, h4, h5, h6⟩ := ih s1 _ h3 (by rw [h2]; exact hte)
      refine ⟨s2, ?_, by rw [h5, h2], ?_⟩
      · unfold run at h4 ⊢
        rw [List.foldlM_cons]
        simp only [h1]
        exact h4
      · convert h6 using 2 with k
        simp [given]

theorem create_inv (te : Int) : Inv (create te : Storage Row) fun _ => [] := by
  refine ⟨?_, ?_, ?_, ?_, ?_, ?_⟩ <;> simp [create, getList, PyDict.get?, PyDict.keys]

end Verif.ExampleStorage
