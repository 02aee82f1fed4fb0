import Verif.Model.MoeAxes
import Verif.Proofs.PyDict
import Mathlib.Data.List.InsertIdx
import Mathlib.Tactic.Common

/-!
C109: names of the axes of expert variables.
-/

namespace Verif.MoeAxes

open Verif

/-! ### Dicts -/

theorem bind_ok {α β : Type} {x : Except PyErr α} {f : α → Except PyErr β} {b : β} (h : x >>= f = .ok b) : ∃ a, x = .ok a ∧ f a = .ok b := by
  cases x with
  | error e => cases h
  | ok a => exact ⟨a, rfl, h⟩

theorem mapValues_get {κ α β : Type} [DecidableEq κ] (f : κ → α → Except PyErr β) (d : PyDict κ α) (d' : PyDict κ β) (h : mapValues f d = .ok d')
    (k : κ) :
    (PyDict.get? d k = none ∧ PyDict.get? d' k = none) ∨
    ∃ x y, PyDict.get? d k = some x ∧ f k x = .ok y ∧ PyDict.get? d' k = some y := by
  induction d generalizing d' with
  | nil => cases h; exact .inl ⟨rfl, rfl⟩
  | cons p d ih =>
    obtain ⟨k', x⟩ := p
    unfold mapValues at h
    obtain ⟨y, hy, h⟩ := bind_ok h
    obtain ⟨d1, h1, h⟩ := bind_ok h
    cases h
    unfold PyDict.get?
    by_cases hk : k' = k
    · subst hk
      simp only [if_true]
      exact .inr ⟨x, y, rfl, hy, rfl⟩
    · simp only [if_neg hk]
      exact ih d1 h1

theorem mapValues_ok {κ α β : Type} [DecidableEq κ] (f : κ → α → Except PyErr β) (d : PyDict κ α) (h : ∀ p ∈ d, ∃ y, f p.1 p.2 = .ok y) :
    ∃ d', mapValues f d = .ok d' := by
  induction d with
  | nil => exact ⟨[], rfl⟩
  | cons p d ih =>
    obtain ⟨k, x⟩ := p
    obtain ⟨y, hy⟩ := h (k, x) (by simp)
    obtain ⟨d', hd⟩ := ih fun p hp => h p (by simp [hp])
    refine ⟨(k, y) :: d', ?_⟩
    unfold mapValues
    rw [hy]
    change (mapValues f d >>= _ : Except PyErr _) = _
    rw [hd]
    rfl

theorem axesCollection_inj {a b : Key} (h : axesCollection a = axesCollection b) : a = b := by
  unfold axesCollection at h
  exact List.append_cancel_right h

theorem get?_addAxes (names : PyDict Key Key) (d : PyDict Key (Option Int)) (k : Key) :
    PyDict.get? (addAxes d names) k = if k ∈ (PyDict.keys names).map axesCollection then some none else PyDict.get? d k := by
  unfold addAxes
  induction names generalizing d with
  | nil => simp [PyDict.keys]
  | cons p names ih =>
    rw [List.foldl_cons, ih, PyDict.get?_set]
    have e : PyDict.keys (p :: names) = p.1 :: PyDict.keys names := rfl
    rw [e, List.map_cons]
    by_cases h1 : k ∈ List.map axesCollection (PyDict.keys names)
    · rw [if_pos h1, if_pos (List.mem_cons_of_mem _ h1)]
    · rw [if_neg h1]
      by_cases h2 : k = axesCollection p.1
      · simp [h2]
      · rw [if_neg fun e => h2 (e : _ = k).symm, if_neg]
        intro hm
        rcases List.mem_cons.1 hm with hm | hm
        · exact h2 hm
        · exact h1 hm

theorem nodup_addAxes (names : PyDict Key Key) (d : PyDict Key (Option Int)) (h : (PyDict.keys d).Nodup) : (PyDict.keys (addAxes d names)).Nodup := by
  unfold addAxes
  induction names generalizing d with
  | nil => exact h
  | cons p names ih =>
    rw [List.foldl_cons]
    exact ih _ (PyDict.nodup_keys_set _ _ _ h)

theorem wraps_mem (axes : PyDict Key (Option Int)) (h : (PyDict.keys axes).Nodup) (names : PyDict Key Key) (w : Wrap) :
    w ∈ wraps axes names ↔ ∃ c n, PyDict.get? axes c = some w.pos ∧ PyDict.get? names c = some n ∧ w = ⟨w.pos, n, axesCollection c⟩ := by
  unfold wraps
  rw [List.mem_filterMap]
  constructor
  · rintro ⟨⟨c, a⟩, hm, hw⟩
    rw [Option.map_eq_some_iff] at hw
    obtain ⟨n, hn, rfl⟩ := hw
    exact ⟨c, n, (PyDict.get?_eq_some axes h c a).2 hm, hn, rfl⟩
  · rintro ⟨c, n, h1, h2, h3⟩
    refine ⟨(c, w.pos), (PyDict.get?_eq_some axes h c _).1 h1, ?_⟩
    rw [Option.map_eq_some_iff]
    exact ⟨n, h2, h3.symm⟩

theorem wraps_cols (axes : PyDict Key (Option Int)) (h : (PyDict.keys axes).Nodup) (names : PyDict Key Key) : ((wraps axes names).map Wrap.col).Nodup := by
  unfold wraps
  induction axes with
  | nil => simp
  | cons p axes ih =>
    simp only [PyDict.keys, List.map_cons, List.nodup_cons] at h
    rw [List.filterMap_cons]
    cases hn : PyDict.get? names p.1 with
    | none => simp only [Option.map_none]; exact ih h.2
    | some n =>
      simp only [Option.map_some, List.map_cons, List.nodup_cons]
      refine ⟨?_, ih h.2⟩
      intro hm
      obtain ⟨w, hw, e⟩ := List.mem_map.1 hm
      obtain ⟨q, hq, e2⟩ := List.mem_filterMap.1 hw
      rw [Option.map_eq_some_iff] at e2
      obtain ⟨m, _, rfl⟩ := e2
      have := axesCollection_inj e
      exact h.1 (this ▸ List.mem_map_of_mem hq)

/-- What the calls do with one collection. -/
theorem foldlM_get (ws : List Wrap) (hnd : (ws.map Wrap.col).Nodup) (v out : Vars) (h : ws.foldlM (fun v w => transOut w v) v = .ok out) (c : Key)
    (vs : PyDict Key Entry) (hv : PyDict.get? v c = some vs) :
    (c ∉ ws.map Wrap.col → PyDict.get? out c = some vs) ∧
    ∀ w ∈ ws, w.col = c → ∃ vs', mapValues (fun _ e => insertEntry w e) vs = .ok vs' ∧ PyDict.get? out c = some vs' := by
  induction ws generalizing v vs with
  | nil =>
    cases h
    exact ⟨fun _ => hv, by simp⟩
  | cons w ws ih =>
    rw [List.foldlM_cons] at h
    obtain ⟨v1, h1, h⟩ := bind_ok h
    rw [List.map_cons, List.nodup_cons] at hnd
    rcases mapValues_get _ v v1 h1 c with ⟨g1, _⟩ | ⟨x, y, g1, g2, g3⟩
    · rw [hv] at g1; cases g1
    · rw [hv] at g1
      injection g1 with g1
      subst g1
      by_cases hc : c = w.col
      · rw [if_pos hc] at g2
        have hno := (ih hnd.2 v1 h y g3).1 (hc ▸ hnd.1)
        refine ⟨fun hn => absurd (by rw [hc]; simp) hn, ?_⟩
        intro w' hw' hcw
        rcases List.mem_cons.1 hw' with rfl | hm
        · exact ⟨y, g2, hno⟩
        · exact absurd (List.mem_map.2 ⟨w', hm, hcw.trans hc⟩) hnd.1
      · rw [if_neg hc] at g2
        injection g2 with g2
        subst g2
        obtain ⟨i1, i2⟩ := ih hnd.2 v1 h vs g3
        refine ⟨fun hn => i1 fun hm => hn (by simp [hm]), ?_⟩
        intro w' hw' hcw
        rcases List.mem_cons.1 hw' with rfl | hm
        · exact absurd hcw.symm hc
        · exact i2 w' hm hcw

/-! ### The layer -/

/-- The names of collections are not confused with those of their metadata. -/
def Separate (variableAxes : PyDict Key (Option Int)) (names : PyDict Key Key) : Prop :=
  (PyDict.keys variableAxes).Nodup ∧ ∀ c ∈ PyDict.keys variableAxes ++ PyDict.keys names, ∀ n ∈ PyDict.keys names, c ≠ axesCollection n

/-- The entry of a variable. -/
def entry (v : Vars) (c p : Key) : Option Entry := (PyDict.get? v c).bind fun vs => PyDict.get? vs p

/-- Every array of a lifted collection has one copy per expert along the axis of its collection, and every array that all experts share is unchanged. -/
theorem C109_arrays (experts : Nat) (variableAxes : PyDict Key (Option Int)) (names : PyDict Key Key) (hs : Separate variableAxes names) (v out : Vars)
    (h : spmdWithAxes experts variableAxes names v = .ok out) (c p : Key) (a : Option Int) (ha : PyDict.get? variableAxes c = some a) (e : Entry)
    (he : entry v c p = some e) :
    (∀ i, a = some i → ∃ sh sh', e = .array sh ∧ vmapShape experts i sh = .ok sh' ∧ entry out c p = some (.array sh')) ∧
    (a = none → entry out c p = some e) := by
  unfold spmdWithAxes at h
  obtain ⟨v1, h1, h⟩ := bind_ok h
  have hc : c ∈ PyDict.keys variableAxes := by
    by_contra hn
    rw [(PyDict.get?_eq_none _ _).2 hn] at ha
    cases ha
  have hax : PyDict.get? (addAxes variableAxes names) c = some a := by
    rw [get?_addAxes, if_neg, ha]
    intro hm
    obtain ⟨n, hn, rfl⟩ := List.mem_map.1 hm
    exact hs.2 _ (List.mem_append_left _ hc) n hn rfl
  have hnot : c ∉ (wraps (addAxes variableAxes names) names).map Wrap.col := by
    intro hm
    obtain ⟨w, hw, rfl⟩ := List.mem_map.1 hm
    obtain ⟨c', n, _, g2, g3⟩ := (wraps_mem _ (nodup_addAxes _ _ hs.1) names w).1 hw
    have : c' ∈ PyDict.keys names := by
      by_contra hn
      rw [(PyDict.get?_eq_none _ _).2 hn] at g2
      cases g2
    refine hs.2 _ (List.mem_append_left _ hc) c' this ?_
    rw [g3]
  unfold entry at he ⊢
  rcases mapValues_get _ v v1 h1 c with ⟨g1, _⟩ | ⟨vs, vs1, g1, g2, g3⟩
  · rw [g1] at he; cases he
  · rw [g1] at he
    have he : PyDict.get? vs p = some e := he
    rw [hax] at g2
    have := (foldlM_get _ (wraps_cols _ (nodup_addAxes _ _ hs.1) names) v1 out h c vs1 g3).1 hnot
    rw [this]
    cases a with
    | none =>
      injection g2 with g2
      subst g2
      refine ⟨?_, fun _ => he⟩
      intro i hi
      cases hi
    | some a =>
      refine ⟨?_, fun hi => by cases hi⟩
      intro i hi
      injection hi with hi
      subst hi
      change mapValues _ vs = .ok vs1 at g2
      rcases mapValues_get _ vs vs1 g2 p with ⟨k1, _⟩ | ⟨x, y, k1, k2, k3⟩
      · rw [k1] at he; cases he
      · rw [k1] at he
        injection he with he
        subst he
        cases x with
        | axes l => cases k2
        | array sh =>
          simp only at k2
          cases hsh : vmapShape experts a sh with
          | error e => rw [hsh] at k2; cases k2
          | ok sh' =>
            rw [hsh] at k2
            injection k2 with k2
            subst k2
            exact ⟨sh, sh', rfl, hsh, k3⟩

/-- The metadata of a lifted collection with a named axis gets that name at the position of the axis; other metadata is unchanged. -/
theorem C109_names (experts : Nat) (variableAxes : PyDict Key (Option Int)) (names : PyDict Key Key) (hs : Separate variableAxes names) (v out : Vars)
    (h : spmdWithAxes experts variableAxes names v = .ok out) (c p : Key) (l : List Key) (hl : entry v (axesCollection c) p = some (.axes l))
    (n : Key) (hn : PyDict.get? names c = some n) :
    match PyDict.get? variableAxes c with
    | some (some a) => entry out (axesCollection c) p = some (.axes (pyInsert l a n))
    | some none => False
    | none => entry out (axesCollection c) p = some (.axes l) := by
  unfold spmdWithAxes at h
  obtain ⟨v1, h1, h⟩ := bind_ok h
  have hcn : c ∈ PyDict.keys names := by
    by_contra hno
    rw [(PyDict.get?_eq_none _ _).2 hno] at hn
    cases hn
  have hax : PyDict.get? (addAxes variableAxes names) (axesCollection c) = some none := by
    rw [get?_addAxes, if_pos (List.mem_map_of_mem hcn)]
  have haxc : PyDict.get? (addAxes variableAxes names) c = PyDict.get? variableAxes c := by
    rw [get?_addAxes, if_neg]
    intro hm
    obtain ⟨m, hm, e⟩ := List.mem_map.1 hm
    exact hs.2 c (List.mem_append_right _ hcn) m hm e.symm
  have hnd := nodup_addAxes names _ hs.1
  unfold entry at hl ⊢
  rcases mapValues_get _ v v1 h1 (axesCollection c) with ⟨g1, _⟩ | ⟨vs, vs1, g1, g2, g3⟩
  · rw [g1] at hl; cases hl
  · rw [g1] at hl
    have hl : PyDict.get? vs p = some (.axes l) := hl
    rw [hax] at g2
    injection g2 with g2
    subst g2
    obtain ⟨f1, f2⟩ := foldlM_get _ (wraps_cols _ hnd names) v1 out h _ vs g3
    cases hva : PyDict.get? variableAxes c with
    | none =>
      simp only
      rw [f1]
      · exact hl
      · intro hm
        obtain ⟨w, hw, e⟩ := List.mem_map.1 hm
        obtain ⟨c', n', k1, k2, k3⟩ := (wraps_mem _ hnd names w).1 hw
        rw [k3] at e
        have := axesCollection_inj e
        subst this
        rw [haxc, hva] at k1
        cases k1
    | some a =>
      obtain ⟨vs', k1, k2⟩ := f2 ⟨a, n, axesCollection c⟩
        ((wraps_mem _ hnd names _).2 ⟨c, n, by rw [haxc, hva], hn, rfl⟩) rfl
      rcases mapValues_get _ vs vs' k1 p with ⟨j1, _⟩ | ⟨x, y, j1, j2, j3⟩
      · rw [j1] at hl; cases hl
      · rw [j1] at hl
        injection hl with hl
        subst hl
        cases a with
        | none => cases j2
        | some a =>
          simp only
          injection j2 with j2
          subst j2
          rw [k2]
          exact j3

/-- The names stay at their dimensions: of each variable of a lifted collection with a named axis (not negative) the named dimensions are those of one
expert, with the dimension of the experts and its name at the position of the axis. -/
theorem C109_aligned (experts : Nat) (variableAxes : PyDict Key (Option Int)) (names : PyDict Key Key) (hs : Separate variableAxes names) (v out : Vars)
    (h : spmdWithAxes experts variableAxes names v = .ok out) (c p q : Key) (a : Nat) (ha : PyDict.get? variableAxes c = some (some (a : Int))) (n : Key)
    (hn : PyDict.get? names c = some n) (sh : List Nat) (hsh : entry v c p = some (.array sh)) (l : List Key)
    (hl : entry v (axesCollection c) q = some (.axes l)) (hlen : l.length = sh.length) :
    ∃ sh' l', entry out c p = some (.array sh') ∧ entry out (axesCollection c) q = some (.axes l') ∧ a ≤ sh.length ∧
      l'.zip sh' = (l.zip sh).insertIdx a (n, experts) ∧ l'.length = sh'.length := by
  obtain ⟨sh0, sh', h0, h1, h2⟩ := (C109_arrays experts variableAxes names hs v out h c p (some a) ha (.array sh) hsh).1 a rfl
  injection h0 with h0
  subst h0
  have h3 := C109_names experts variableAxes names hs v out h c q l hl n hn
  rw [ha] at h3
  simp only at h3
  unfold vmapShape at h1
  simp only at h1
  split at h1
  · cases h1
  · rename_i hb
    push Not at hb
    have hle : a ≤ sh.length := by omega
    injection h1 with h1
    rw [if_neg (by omega)] at h1
    simp only [Int.toNat_natCast] at h1
    refine ⟨sh', _, h2, h3, hle, ?_, ?_⟩
    · unfold pyInsert
      simp only
      rw [if_neg (by omega)]
      have : (min (a : Int) (l.length : Int)).toNat = a := by omega
      rw [this, ← h1]
      have key : ∀ (a : Nat) (l : List Key) (sh : List Nat), a ≤ sh.length → l.length = sh.length →
          (l.insertIdx a n).zip (sh.insertIdx a experts) = (l.zip sh).insertIdx a (n, experts) := by
        intro a
        induction a with
        | zero => intro l sh _ _; simp
        | succ a ih =>
          intro l sh h1 h2
          cases sh with
          | nil => simp at h1
          | cons d sh =>
            cases l with
            | nil => simp at h2
            | cons x l =>
              simp only [List.insertIdx_succ_cons, List.zip_cons_cons]
              rw [ih l sh (by simpa using h1) (by simpa using h2)]
      exact key a l sh hle hlen
    · unfold pyInsert
      simp only
      rw [if_neg (by omega)]
      have : (min (a : Int) (l.length : Int)).toNat = a := by omega
      rw [this, ← h1, List.length_insertIdx_of_le_length (by omega), List.length_insertIdx_of_le_length hle, hlen]

/-- An expert sees of the stored metadata the names of its own axes; metadata of a layer with another name at the axis is refused. -/
theorem C109_read (a : Nat) (n c : Key) (l : List Key) (ha : a ≤ l.length) :
    removeEntry ⟨some a, n, c⟩ (.axes (pyInsert l a n)) = .ok (.axes l) ∧
    ∀ m, m ≠ n → removeEntry ⟨some a, m, c⟩ (.axes (pyInsert l a n)) = .error .valueError := by
  have hp : pyInsert l a n = l.insertIdx a n := by
    unfold pyInsert
    simp only
    rw [if_neg (by omega)]
    congr 1
    omega
  have hi : pyIndex (l.insertIdx a n) (a : Int) = .ok a := by
    unfold pyIndex
    rw [List.length_insertIdx_of_le_length ha, if_neg (by omega), if_neg (by omega)]
    simp
  constructor
  · unfold removeEntry
    simp only [hp, hi]
    rw [List.getElem?_insertIdx_self, if_pos ha, if_pos rfl, List.eraseIdx_insertIdx_self]
  · intro m hm
    unfold removeEntry
    simp only [hp, hi]
    rw [List.getElem?_insertIdx_self, if_pos ha, if_neg]
    intro e
    injection e with e
    exact hm e.symm

/-- The layer can be made if every collection is lifted or shared, axes fit the variables, and collections with a named axis have one. -/
theorem C109_total (experts : Nat) (variableAxes : PyDict Key (Option Int)) (names : PyDict Key Key) (hs : Separate variableAxes names) (v : Vars)
    (hcol : ∀ p ∈ v, (∃ c ∈ PyDict.keys names, p.1 = axesCollection c ∧ (∀ q ∈ p.2, ∃ l, q.2 = .axes l) ∧ PyDict.get? variableAxes c ≠ some none) ∨
      PyDict.get? variableAxes p.1 = some none ∨
      ∃ a : Nat, PyDict.get? variableAxes p.1 = some (some (a : Int)) ∧ ∀ q ∈ p.2, ∃ sh, q.2 = .array sh ∧ a ≤ sh.length) :
    ∃ out, spmdWithAxes experts variableAxes names v = .ok out := by
  have hnd := nodup_addAxes names _ hs.1
  have haxc : ∀ c ∈ PyDict.keys variableAxes ++ PyDict.keys names,
      PyDict.get? (addAxes variableAxes names) c = PyDict.get? variableAxes c := by
    intro c hc
    rw [get?_addAxes, if_neg]
    intro hm
    obtain ⟨m, hm, e⟩ := List.mem_map.1 hm
    exact hs.2 c hc m hm e.symm
  have hmem : ∀ c a, PyDict.get? variableAxes c = some a → c ∈ PyDict.keys variableAxes ++ PyDict.keys names := by
    intro c a h
    apply List.mem_append_left
    by_contra hn
    rw [(PyDict.get?_eq_none _ _).2 hn] at h
    cases h
  obtain ⟨v1, h1⟩ := mapValues_ok (fun c vs => expertCollection experts (PyDict.get? (addAxes variableAxes names) c) vs) v (by
    intro p hp
    rcases hcol p hp with ⟨c, hc, e, _⟩ | h | ⟨a, h, hq⟩
    · rw [e, get?_addAxes, if_pos (List.mem_map_of_mem hc)]
      exact ⟨p.2, rfl⟩
    · rw [haxc _ (hmem _ _ h), h]
      exact ⟨p.2, rfl⟩
    · rw [haxc _ (hmem _ _ h), h]
      unfold expertCollection
      apply mapValues_ok
      intro q hq'
      obtain ⟨sh, e, hle⟩ := hq q hq'
      rw [e]
      refine ⟨.array (sh.insertIdx a experts), ?_⟩
      simp only
      unfold vmapShape
      simp only
      rw [if_neg (by omega), if_neg (by omega)]
      rfl)
  unfold spmdWithAxes
  simp only
  rw [h1]
  change ∃ out, (wraps _ names).foldlM (fun v w => transOut w v) v1 = .ok out
  -- the collections of the metadata hold metadata only
  have inv : ∀ (ws : List Wrap) (u : Vars), (∀ w ∈ ws, ∃ a, w.pos = some a ∨ w.col ∉ PyDict.keys u) →
      (∀ w ∈ ws, ∀ p ∈ u, p.1 = w.col → ∀ q ∈ p.2, ∃ l, q.2 = .axes l) → ∃ out, ws.foldlM (fun v w => transOut w v) u = .ok out := by
    intro ws
    induction ws with
    | nil => intro u _ _; exact ⟨u, rfl⟩
    | cons w ws ih =>
      intro u hpos hu
      obtain ⟨u1, e1⟩ := mapValues_ok (fun c vs => if c = w.col then mapValues (fun _ e => insertEntry w e) vs else .ok vs) u (by
        intro p hp
        by_cases hc : p.1 = w.col
        · rw [if_pos hc]
          apply mapValues_ok
          intro q hq
          obtain ⟨l, e⟩ := hu w (by simp) p hp hc q hq
          obtain ⟨a, ha | ha⟩ := hpos w (by simp)
          · rw [e]
            unfold insertEntry
            rw [ha]
            exact ⟨_, rfl⟩
          · exact absurd (hc ▸ List.mem_map_of_mem hp) ha
        · rw [if_neg hc]
          exact ⟨p.2, rfl⟩)
      have keys1 : ∀ {α β : Type} (f : Key → α → Except PyErr β) (d : PyDict Key α) (d' : PyDict Key β), mapValues f d = .ok d' →
          PyDict.keys d' = PyDict.keys d ∧ ∀ q' ∈ d', ∃ q ∈ d, q.1 = q'.1 ∧ f q.1 q.2 = .ok q'.2 := by
        intro α β f d
        induction d with
        | nil => intro d' h; cases h; exact ⟨rfl, by simp⟩
        | cons p d ih =>
          intro d' h
          unfold mapValues at h
          obtain ⟨y, hy, h⟩ := bind_ok h
          obtain ⟨d1, hd, h⟩ := bind_ok h
          cases h
          obtain ⟨i1, i2⟩ := ih d1 hd
          refine ⟨?_, ?_⟩
          · unfold PyDict.keys at i1 ⊢
            simp [i1]
          · intro q' hq'
            rcases List.mem_cons.1 hq' with rfl | hq'
            · exact ⟨p, by simp, rfl, hy⟩
            · obtain ⟨q, hq, e⟩ := i2 q' hq'
              exact ⟨q, by simp [hq], e⟩
      rw [List.foldlM_cons]
      have e1' : transOut w u = .ok u1 := e1
      rw [e1']
      change ∃ out, ws.foldlM (fun v w => transOut w v) u1 = .ok out
      obtain ⟨k1, k2⟩ := keys1 _ u u1 e1
      apply ih u1
      · intro w' hw'
        rw [k1]
        exact hpos w' (by simp [hw'])
      · intro w' hw' p' hp' hc' q' hq'
        obtain ⟨p, hp, e, hf⟩ := k2 p' hp'
        by_cases hc : p.1 = w.col
        · rw [if_pos hc] at hf
          obtain ⟨q, hq, _, hfq⟩ := (keys1 _ _ _ hf).2 q' hq'
          obtain ⟨l, el⟩ := hu w (by simp) p hp hc q hq
          rw [el] at hfq
          unfold insertEntry at hfq
          cases hwp : w.pos with
          | none => rw [hwp] at hfq; cases hfq
          | some a =>
            rw [hwp] at hfq
            injection hfq with hfq
            exact ⟨_, hfq.symm⟩
        · rw [if_neg hc] at hf
          injection hf with hf
          rw [← hf] at hq'
          exact hu w' (by simp [hw']) p hp (e.trans hc') q' hq'
  apply inv
  · intro w hw
    obtain ⟨c, n, g1, g2, g3⟩ := (wraps_mem _ hnd names w).1 hw
    cases hp : w.pos with
    | some a => exact ⟨a, .inl rfl⟩
    | none =>
      refine ⟨0, .inr ?_⟩
      have hcn : c ∈ PyDict.keys names := by
        by_contra hno
        rw [(PyDict.get?_eq_none _ _).2 hno] at g2
        cases g2
      rw [hp, haxc c (List.mem_append_right _ hcn)] at g1
      intro hmem'
      have hk : w.col ∈ PyDict.keys v := by
        by_contra hno
        have := mapValues_get _ v v1 h1 w.col
        rw [(PyDict.get?_eq_none _ _).2 hno] at this
        rcases this with ⟨_, hh⟩ | ⟨_, _, hh, _⟩
        · exact (PyDict.get?_eq_none _ _).1 hh hmem'
        · cases hh
      obtain ⟨p, hp', e⟩ := List.mem_map.1 hk
      rw [g3] at e
      rcases hcol p hp' with ⟨c', hc', e', _, hno⟩ | hh | ⟨a, hh, _⟩
      · rw [e] at e'
        have := axesCollection_inj e'
        subst this
        exact hno g1
      · have := hmem _ _ hh
        exact hs.2 _ this c hcn e
      · have := hmem _ _ hh
        exact hs.2 _ this c hcn e
  · intro w hw p' hp' hc q' hq'
    obtain ⟨c, n, g1, g2, g3⟩ := (wraps_mem _ hnd names w).1 hw
    have hcn : c ∈ PyDict.keys names := by
      by_contra hno
      rw [(PyDict.get?_eq_none _ _).2 hno] at g2
      cases g2
    have hkk : ∀ (f : Key → PyDict Key Entry → Except PyErr (PyDict Key Entry)) (d d' : Vars), mapValues f d = .ok d' → ∀ q' ∈ d',
        ∃ q ∈ d, q.1 = q'.1 ∧ f q.1 q.2 = .ok q'.2 := by
      intro f d
      induction d with
      | nil => intro d' h; cases h; simp
      | cons p d ih =>
        intro d' h
        unfold mapValues at h
        obtain ⟨y, hy, h⟩ := bind_ok h
        obtain ⟨d1, hd, h⟩ := bind_ok h
        cases h
        intro q' hq'
        rcases List.mem_cons.1 hq' with rfl | hq'
        · exact ⟨p, by simp, rfl, hy⟩
        · obtain ⟨q, hq, e⟩ := ih d1 hd q' hq'
          exact ⟨q, by simp [hq], e⟩
    obtain ⟨p, hp, e, hf⟩ := hkk _ v v1 h1 p' hp'
    have ec : p.1 = axesCollection c := by rw [e, hc, g3]
    rw [ec, get?_addAxes, if_pos (List.mem_map_of_mem hcn)] at hf
    injection hf with hf
    rw [← hf] at hq'
    rcases hcol p hp with ⟨_, _, _, hax, _⟩ | hh | ⟨a, hh, _⟩
    · exact hax q' hq'
    · exact absurd ec (hs.2 _ (hmem _ _ hh) c hcn)
    · exact absurd ec (hs.2 _ (hmem _ _ hh) c hcn)

/-! ### Negative axes, and an example -/

/-- The variables of an expert with one weight. -/
def dense : Vars := [("params".toList, [("kernel".toList, .array [3, 5])]), ("params_axes".toList, [("kernel_axes".toList, .axes ["in".toList, "out".toList])])]

/-- With the negative axis -1 the experts are the last dimension, but their name is not the last name: `in` and the experts are swapped with `out`. -/
theorem C109_negative_counterexample :
    ∃ out, spmdWithAxes 8 [("params".toList, some (-1))] [("params".toList, "expert".toList)] dense = .ok out ∧
      entry out "params".toList "kernel".toList = some (.array [3, 5, 8]) ∧
      entry out "params_axes".toList "kernel_axes".toList = some (.axes ["in".toList, "expert".toList, "out".toList]) :=
  ⟨_, rfl, rfl, rfl⟩

/-- The layer of the test: experts along the first axis. -/
example : Separate [("params".toList, some 0)] [("params".toList, "expert".toList)] ∧
    ∃ out, spmdWithAxes 8 [("params".toList, some 0)] [("params".toList, "expert".toList)] dense = .ok out ∧
      entry out "params".toList "kernel".toList = some (.array [8, 3, 5]) ∧
      entry out "params_axes".toList "kernel_axes".toList = some (.axes ["expert".toList, "in".toList, "out".toList]) := by
  refine ⟨?_, _, rfl, rfl, rfl⟩
  unfold Separate
  decide +kernel

/-- Its hypotheses for `C109_total`, and for `C109_read`. -/
example : (∀ p ∈ dense, (∃ c ∈ PyDict.keys [("params".toList, "expert".toList)], p.1 = axesCollection c ∧ (∀ q ∈ p.2, ∃ l, q.2 = .axes l) ∧
      PyDict.get? [("params".toList, some (0 : Int))] c ≠ some none) ∨
      PyDict.get? [("params".toList, some (0 : Int))] p.1 = some none ∨
      ∃ a : Nat, PyDict.get? [("params".toList, some (0 : Int))] p.1 = some (some (a : Int)) ∧ ∀ q ∈ p.2, ∃ sh, q.2 = .array sh ∧ a ≤ sh.length) ∧
    removeEntry ⟨some 1, "expert".toList, []⟩ (.axes (pyInsert ["in".toList, "out".toList] 1 "expert".toList)) = .ok (.axes ["in".toList, "out".toList]) := by
  refine ⟨?_, rfl⟩
  intro p hp
  rcases List.mem_cons.1 hp with rfl | hp
  · refine .inr (.inr ⟨0, rfl, ?_⟩)
    intro q hq
    rcases List.mem_cons.1 hq with rfl | hq
    · exact ⟨[3, 5], rfl, by simp⟩
    · cases hq
  · rcases List.mem_cons.1 hp with rfl | hp
    · refine .inl ⟨"params".toList, by simp [PyDict.keys], rfl, ?_, ?_⟩
      · intro q hq
        rcases List.mem_cons.1 hq with rfl | hq
        · exact ⟨_, rfl⟩
        · cases hq
      · intro h
        cases h
    · cases hp

end Verif.MoeAxes
