import Verif.Spec.Mapping
import Verif.Proofs.Mapping
import Verif.Props.NaturalSort

/-!
C54: mapping the arrays of a checkpoint onto the arrays of a model (vmoe/initialization/mapping.py:86-237).  Also the part
of C56 about shapes that do not match, and the part of C55 about the order of stacked arrays.
-/

namespace Verif.Mapping

open Verif FlatDict MappingSpec TreeSpec MeshSpec

variable {D α : Type}

theorem find_none (rules : List Rule) (k : Key) : find rules k = none ↔ ∀ r ∈ rules, r.search k = false := by
  induction rules with
  | nil => simp [find]
  | cons r rules ih =>
    unfold find
    by_cases h : r.search k = true
    · simp [h]
    · rw [if_neg h, ih]
      simp [h]

theorem find_some (rules : List Rule) (k : Key) (r : Rule) (h : find rules k = some r) : FirstMatch rules k r := by
  induction rules with
  | nil => cases h
  | cons r' rules ih =>
    unfold find at h
    split at h
    · rename_i hs
      cases h
      exact ⟨[], rules, rfl, hs, by simp⟩
    · rename_i hs
      obtain ⟨b, a, rfl, h1, h2⟩ := ih h
      refine ⟨r' :: b, a, rfl, h1, ?_⟩
      intro x hx
      rcases List.mem_cons.1 hx with rfl | hx
      · simpa using hs
      · exact h2 x hx

theorem find_first (rules : List Rule) (k : Key) (r : Rule) (h : FirstMatch rules k r) : find rules k = some r := by
  obtain ⟨b, a, rfl, h1, h2⟩ := h
  induction b with
  | nil => simp [find, h1]
  | cons x b ih =>
    rw [List.cons_append, find, if_neg (by simp [h2 x (by simp)])]
    exact ih fun y hy => h2 y (by simp [hy])

theorem handledBy_iff (rules : List Rule) (k : Key) (a : Action) : HandledBy rules k a ↔ a = act rules k := by
  unfold act
  constructor
  · rintro (⟨r, hr, rfl⟩ | ⟨hn, rfl⟩)
    · rw [find_first rules k r hr]; rfl
    · rw [(find_none rules k).2 hn]; rfl
  · rintro rfl
    cases hf : find rules k with
    | none => exact .inr ⟨(find_none rules k).1 hf, rfl⟩
    | some r => exact .inl ⟨r, find_some rules k r hf, rfl⟩

theorem goesTo_iff (rules : List Rule) (k dst : Key) : (∃ a, GoesTo rules k dst a) ↔ To rules dst k := by
  unfold GoesTo To
  constructor
  · rintro ⟨a, h1, h2⟩
    rw [handledBy_iff] at h1
    subst h1
    exact h2
  · intro h
    exact ⟨act rules k, (handledBy_iff _ _ _).2 rfl, h⟩

theorem mem_srcs (env : Env D α) (rules : List Rule) (source : PyDict Key (Flat (Arr D α))) (dst k : Key) :
    k ∈ srcsFor rules (NaturalSort.naturalSort env.float (PyDict.keys source)) dst ↔
      k ∈ PyDict.keys source ∧ ∃ a, GoesTo rules k dst a := by
  unfold srcsFor
  rw [List.mem_filter, goesTo_iff]
  unfold NaturalSort.naturalSort
  rw [(List.mergeSort_perm _ _).mem_iff]
  simp

theorem leafOf_mapItems {V W : Type} (f : List Key → V → W) (l : List (Key × FlatDict.Tree V)) (hl : ItemsOk l)
    (p : List Key) (t : V) (h : leafOf l p = some t) : leafOf (Partitioning.mapItems f [] l) p = some (f p t) := by
  unfold leafOf at *
  rw [← mem_flattenItems _ (Partitioning.mapItems_ok f [] l hl), Partitioning.flattenItems_map]
  rw [← mem_flattenItems l hl] at h
  exact List.mem_map.2 ⟨_, h, rfl⟩

theorem get?_of_leafOf (target : List (Key × FlatDict.Tree (Arr D α))) (ht : ItemsOk target) (p : List Key) (t : Arr D α)
    (h : leafOf target p = some t) : PyDict.get? (flatten target) (join p) = some (.leaf t) := by
  unfold leafOf at h
  rw [← mem_flattenItems target ht] at h
  exact get?_flatten_of_mem target ht h

/-- C54: the result has the structure of the target.  An array of the target that no source is used for keeps its value.
An array that one source is used for with a rule other than stacking gets what this rule makes of this source; and the only
other possibility is that all the sources used for it are stacked, in the natural order of their names. -/
theorem C54_assignment [DecidableEq D] (env : Env D α) (rules : List Rule) (flags : Flags)
    (source target : List (Key × FlatDict.Tree (Arr D α))) (ht : ItemsOk target) (r : FlatDict.Tree (Arr D α))
    (h : mapStateDict env rules flags source target = .ok r) :
    ∃ l, r = .node l ∧ ItemsRel (fun _ _ _ => True) [] target l ∧
      ∀ p t, leafOf target p = some t → ∃ v, leafOf l p = some v ∧
        (((∀ k ∈ PyDict.keys (flatten source), ∀ a, ¬ GoesTo rules k (join p) a) ∧ v = t) ∨
         (∃ k a s x, k ∈ PyDict.keys (flatten source) ∧ GoesTo rules k (join p) a ∧
            (∀ k' ∈ PyDict.keys (flatten source), ∀ a', GoesTo rules k' (join p) a' → k' = k) ∧
            a.kind = .single s ∧ PyDict.get? (flatten source) k = some (.leaf x) ∧
            applyTx env flags (.single s x t) = .ok v) ∨
         (∃ k ks a axis xs, (∀ k', k' ∈ k :: ks ↔ k' ∈ PyDict.keys (flatten source) ∧ ∃ a', GoesTo rules k' (join p) a') ∧
            (k :: ks).Sublist (NaturalSort.naturalSort env.float (PyDict.keys (flatten source))) ∧
            (∀ k' ∈ k :: ks, ∀ a', GoesTo rules k' (join p) a' → ∃ axis', a'.kind = .stack axis') ∧
            GoesTo rules k (join p) a ∧ a.kind = .stack axis ∧
            List.Forall₂ (fun k' x => PyDict.get? (flatten source) k' = some (.leaf x)) (k :: ks) xs ∧
            applyTx env flags (.stack axis xs t) = .ok v)) := by
  obtain ⟨txs, hb, hok, rfl⟩ := mapStateDict_spec env rules flags source target ht r h
  refine ⟨_, rfl, Partitioning.mapItems_rel _ _ (fun _ _ => trivial) _ _, ?_⟩
  intro p t hp
  refine ⟨_, leafOf_mapItems _ target ht p t hp, ?_⟩
  have hg := get?_of_leafOf target ht p t hp
  have hmem := mem_srcs env rules (flatten source) (join p)
  by_cases hne : srcsFor rules (NaturalSort.naturalSort env.float (PyDict.keys (flatten source))) (join p) = []
  · left
    constructor
    · intro k hk a ha
      have := (hmem k).2 ⟨hk, a, ha⟩
      rw [hne] at this
      cases this
    · unfold newValue
      rw [hb.absent _ (.inr hne)]
  · right
    obtain ⟨tx, htx, his⟩ := hb.present _ t hg hne
    obtain ⟨w, hw⟩ := hok _ tx htx
    have hv : newValue env flags txs p t = w := by
      unfold newValue
      rw [htx]
      simp only
      rw [hw]
      rfl
    rw [hv]
    rcases his with ⟨k, s, x, h1, h2, h3, rfl⟩ | ⟨axis, xs, ⟨k, ks, h1, h2⟩, h3, h4, rfl⟩
    · left
      rw [h1] at hmem
      obtain ⟨hk, a, ha⟩ := (hmem k).1 (by simp)
      have hae := (handledBy_iff _ _ _).1 ha.1
      refine ⟨k, a, s, x, hk, ha, ?_, by rw [hae]; exact h2, h3, hw⟩
      intro k' hk' a' ha'
      simpa using (hmem k').2 ⟨hk', a', ha'⟩
    · right
      have hsub : (k :: ks).Sublist (NaturalSort.naturalSort env.float (PyDict.keys (flatten source))) := by
        rw [← h1]; exact List.filter_sublist
      rw [h1] at hmem h3 h4
      obtain ⟨hk, a, ha⟩ := (hmem k).1 (by simp)
      have hae := (handledBy_iff _ _ _).1 ha.1
      refine ⟨k, ks, a, axis, xs, hmem, hsub, ?_, ha, by rw [hae]; exact h2, h4, hw⟩
      intro k' hk' a' ha'
      have h5 := h3 k' hk'
      rw [← (handledBy_iff _ _ _).1 ha'.1] at h5
      cases hkk : a'.kind with
      | stack ax => exact ⟨ax, rfl⟩
      | drop => rw [hkk] at h5; cases h5
      | single _ => rw [hkk] at h5; cases h5
      | other => rw [hkk] at h5; cases h5

/-- C54: with `raise_if_source_unmatched`, success means that every name of the source is matched by a rule. -/
theorem C54_strict_source [DecidableEq D] (env : Env D α) (rules : List Rule) (flags : Flags)
    (source target : List (Key × FlatDict.Tree (Arr D α))) (ht : ItemsOk target) (r : FlatDict.Tree (Arr D α))
    (h : mapStateDict env rules flags source target = .ok r) (hf : flags.raiseSource = true) :
    ∀ k ∈ PyDict.keys (flatten source), ∃ rule, FirstMatch rules k rule := by
  obtain ⟨txs, hb, _⟩ := mapStateDict_spec env rules flags source target ht r h
  intro k hk
  cases hfi : find rules k with
  | none => exact absurd hfi (hb.strictSource hf k hk)
  | some rule => exact ⟨rule, find_some rules k rule hfi⟩

/-- C54: with `raise_if_target_unmatched`, success means that every array of the target is assigned. -/
theorem C54_strict_target [DecidableEq D] (env : Env D α) (rules : List Rule) (flags : Flags)
    (source target : List (Key × FlatDict.Tree (Arr D α))) (ht : ItemsOk target) (r : FlatDict.Tree (Arr D α))
    (h : mapStateDict env rules flags source target = .ok r) (hf : flags.raiseTarget = true) (p : List Key) (t : Arr D α)
    (hp : leafOf target p = some t) : ∃ k ∈ PyDict.keys (flatten source), ∃ a, GoesTo rules k (join p) a := by
  obtain ⟨txs, hb, _⟩ := mapStateDict_spec env rules flags source target ht r h
  have hne := hb.strictTarget hf _ t (get?_of_leafOf target ht p t hp)
  obtain ⟨k, hk⟩ := List.exists_mem_of_ne_nil _ hne
  exact ⟨k, (mem_srcs env rules _ _ k).1 hk⟩

/-- C54: success means that every source that is not dropped goes to an existing entry of the target, and an array goes to an
array. -/
theorem C54_sources_used [DecidableEq D] (env : Env D α) (rules : List Rule) (flags : Flags)
    (source target : List (Key × FlatDict.Tree (Arr D α))) (ht : ItemsOk target) (r : FlatDict.Tree (Arr D α))
    (h : mapStateDict env rules flags source target = .ok r) (k dst : Key) (a : Action)
    (hk : k ∈ PyDict.keys (flatten source)) (ha : GoesTo rules k dst a) :
    (∃ x t, PyDict.get? (flatten source) k = some (.leaf x) ∧ PyDict.get? (flatten target) dst = some (.leaf t)) ∨
    (PyDict.get? (flatten source) k = some .empty ∧ PyDict.get? (flatten target) dst = some .empty) := by
  obtain ⟨txs, hb, _⟩ := mapStateDict_spec env rules flags source target ht r h
  obtain ⟨h1, h2, rfl⟩ := ha
  rw [handledBy_iff] at h1
  subst h1
  exact hb.dst k hk h2

/-- C54: if two sources are used for the same array of the target and one of them is not stacked, an exception is
raised. -/
theorem C54_twice_raises [DecidableEq D] (env : Env D α) (rules : List Rule) (flags : Flags)
    (source target : List (Key × FlatDict.Tree (Arr D α))) (ht : ItemsOk target) (p : List Key) (t : Arr D α)
    (hp : leafOf target p = some t) (k k' : Key) (a a' : Action) (hk : k ∈ PyDict.keys (flatten source))
    (hk' : k' ∈ PyDict.keys (flatten source)) (hne : k ≠ k') (ha : GoesTo rules k (join p) a)
    (ha' : GoesTo rules k' (join p) a') (hs : ∀ axis, a.kind ≠ .stack axis) :
    ∃ e, mapStateDict env rules flags source target = .error e := by
  cases h : mapStateDict env rules flags source target with
  | error e => exact ⟨e, rfl⟩
  | ok r =>
    exfalso
    obtain ⟨l, _, _, hl⟩ := C54_assignment env rules flags source target ht r h
    obtain ⟨v, _, h1 | h1 | h1⟩ := hl p t hp
    · exact h1.1 k hk a ha
    · obtain ⟨k0, _, _, _, _, _, hu, _⟩ := h1
      exact hne ((hu k hk a ha).trans (hu k' hk' a' ha').symm)
    · obtain ⟨k0, ks, _, _, _, hm, _, hst, _⟩ := h1
      obtain ⟨ax, hax⟩ := hst k ((hm k).2 ⟨hk, a, ha⟩) a ha
      exact hs ax hax

/-- C54: it succeeds if the names are compatible with the rules and every transformation succeeds: sources are matched,
go to existing entries of the same sort, no two of them to the same entry unless stacked, and the target is covered if
required. -/
theorem C54_success [DecidableEq D] (env : Env D α) (rules : List Rule) (flags : Flags)
    (source target : List (Key × FlatDict.Tree (Arr D α))) (hso : ItemsOk source) (ht : ItemsOk target)
    (hmatched : flags.raiseSource = true → ∀ k ∈ PyDict.keys (flatten source), ∃ r, FirstMatch rules k r)
    (hdst : ∀ k ∈ PyDict.keys (flatten source), ∀ dst a, GoesTo rules k dst a →
      (∃ x t, PyDict.get? (flatten source) k = some (.leaf x) ∧ PyDict.get? (flatten target) dst = some (.leaf t) ∧
        a.kind ≠ .other) ∨
      (PyDict.get? (flatten source) k = some .empty ∧ PyDict.get? (flatten target) dst = some .empty))
    (honce : ∀ k ∈ PyDict.keys (flatten source), ∀ k' ∈ PyDict.keys (flatten source), ∀ dst a a', k ≠ k' →
      GoesTo rules k dst a → GoesTo rules k' dst a' → ∃ axis, a.kind = .stack axis)
    (hcovered : flags.raiseTarget = true → ∀ dst t, PyDict.get? (flatten target) dst = some (.leaf t) →
      ∃ k ∈ PyDict.keys (flatten source), ∃ a, GoesTo rules k dst a)
    (hsingle : ∀ k ∈ PyDict.keys (flatten source), ∀ dst a s x t, GoesTo rules k dst a → a.kind = .single s →
      PyDict.get? (flatten source) k = some (.leaf x) → PyDict.get? (flatten target) dst = some (.leaf t) →
      ∃ v, applyTx env flags (.single s x t) = .ok v)
    (hstack : ∀ k ks dst a axis xs t, (∀ k', k' ∈ k :: ks ↔ k' ∈ PyDict.keys (flatten source) ∧ ∃ a', GoesTo rules k' dst a') →
      (k :: ks).Sublist (NaturalSort.naturalSort env.float (PyDict.keys (flatten source))) →
      GoesTo rules k dst a → a.kind = .stack axis →
      List.Forall₂ (fun k' x => PyDict.get? (flatten source) k' = some (.leaf x)) (k :: ks) xs →
      PyDict.get? (flatten target) dst = some (.leaf t) → ∃ v, applyTx env flags (.stack axis xs t) = .ok v) :
    ∃ r, mapStateDict env rules flags source target = .ok r := by
  have hgt : ∀ k, (act rules k).kind ≠ .drop → GoesTo rules k ((act rules k).rename k) (act rules k) :=
    fun k hk => ⟨(handledBy_iff _ _ _).2 rfl, hk, rfl⟩
  have hc : Compatible rules flags (flatten source) (flatten target) := by
    refine ⟨?_, ?_, ?_, ?_⟩
    · intro hf m hm hn
      obtain ⟨r, hr⟩ := hmatched hf m hm
      rw [find_first rules m r hr] at hn
      cases hn
    · intro m hm hd
      exact hdst m hm _ _ (hgt m hd)
    · intro m hm m' hm' hne hd hd' he
      obtain ⟨axis, hax⟩ := honce m hm m' hm' _ _ _ hne (hgt m hd) (by rw [he]; exact hgt m' hd')
      rw [hax]
      rfl
    · intro hf k t hk
      obtain ⟨m, hm, ha⟩ := hcovered hf k t hk
      exact ⟨m, hm, (goesTo_iff _ _ _).1 ha⟩
  obtain ⟨txs, htxs⟩ := build_total env rules flags (flatten source) (flatten target) (flatten_keys_nodup source hso)
    (flatten_keys_nodup target ht) hc
  have hb := build_spec env rules flags _ _ (flatten_keys_nodup target ht) txs htxs
  obtain ⟨out, hout⟩ := apply_total env flags txs (flatten target) (by
    rintro ⟨dst, tx⟩ hkt
    have hg := (PyDict.get?_eq_some _ hb.nodup dst tx).2 hkt
    have hmem := mem_srcs env rules (flatten source) dst
    have hleaf : ∃ t, PyDict.get? (flatten target) dst = some (.leaf t) := by
      by_contra hcc
      push Not at hcc
      rw [hb.absent dst (.inl hcc)] at hg
      cases hg
    obtain ⟨t, htl⟩ := hleaf
    have hne : srcsFor rules (NaturalSort.naturalSort env.float (PyDict.keys (flatten source))) dst ≠ [] := by
      intro hnil
      rw [hb.absent dst (.inr hnil)] at hg
      cases hg
    obtain ⟨tx', htx', his⟩ := hb.present dst t htl hne
    rw [hg] at htx'
    cases htx'
    rcases his with ⟨k, s, x, h1, h2, h3, rfl⟩ | ⟨axis, xs, ⟨k, ks, h1, h2⟩, h3, h4, rfl⟩
    · rw [h1] at hmem
      obtain ⟨hk, a, ha⟩ := (hmem k).1 (by simp)
      exact hsingle k hk dst a s x t ha (by rw [(handledBy_iff _ _ _).1 ha.1]; exact h2) h3 htl
    · have hsub : (k :: ks).Sublist (NaturalSort.naturalSort env.float (PyDict.keys (flatten source))) := by
        rw [← h1]; exact List.filter_sublist
      rw [h1] at hmem h4
      obtain ⟨hk, a, ha⟩ := (hmem k).1 (by simp)
      exact hstack k ks dst a axis xs t hmem hsub ha (by rw [(handledBy_iff _ _ _).1 ha.1]; exact h2) h4 htl)
  obtain ⟨_, d, hd, hfs⟩ := finish_spec env rules flags source target ht txs out hb hout
  refine ⟨.node (Partitioning.mapItems (newValue env flags txs) [] target), ?_⟩
  unfold mapStateDict
  rw [htxs]
  change (apply env flags txs (flatten target) >>= _ : Except PyErr _) = _
  rw [hout]
  change (unflatten out >>= _ : Except PyErr _) = _
  rw [hd]
  exact hfs

/-- C56: an assigned array has the type and the shape of the target. -/
theorem C56_target_shape [DecidableEq D] (env : Env D α) (flags : Flags) (tx : Tx D α) (v : Arr D α)
    (h : applyTx env flags tx = .ok v) : v.dtype = tx.target.dtype ∧ v.value.shape = tx.target.value.shape := by
  unfold applyTx at h
  obtain ⟨w, hw, h⟩ := ebind h
  have hd : (astype env tx.target.dtype w).dtype = tx.target.dtype := by
    unfold astype
    split <;> simp_all
  simp only at h
  have h' : (if (astype env tx.target.dtype w).value.shape = tx.target.value.shape then
      (Except.ok (astype env tx.target.dtype w) : Except PyErr (Arr D α))
    else if flags.raiseShape = true then Except.error .valueError
    else (broadcastTo (astype env tx.target.dtype w).value tx.target.value.shape >>= fun y =>
      Except.ok (⟨(astype env tx.target.dtype w).dtype, y, false⟩ : Arr D α))) = .ok v := by
    split at h
    · cases h
    · exact h
  split at h'
  · rename_i hs
    cases h'
    exact ⟨hd, hs⟩
  · split at h'
    · cases h'
    · obtain ⟨y, hy, h2⟩ := ebind h'
      cases h2
      refine ⟨hd, ?_⟩
      unfold broadcastTo at hy
      split at hy
      · cases hy; rfl
      · cases hy

/-- C56: with `raise_if_shape_mismatched` (the default), what a transformation makes is never broadcast: if its shape is
not the target's, an exception is raised; otherwise the entries are kept, up to the conversion of their type. -/
theorem C56_no_broadcast [DecidableEq D] (env : Env D α) (flags : Flags) (hf : flags.raiseShape = true) (tx : Tx D α)
    (w : Arr D α) (hw : tx.call env = .ok w) :
    (w.value.shape ≠ tx.target.value.shape → applyTx env flags tx = .error .valueError) ∧
    ∀ v, applyTx env flags tx = .ok v → w.value.shape = tx.target.value.shape ∧
      ∀ idx, v.value.get idx = if w.dtype = tx.target.dtype then w.value.get idx else env.cast tx.target.dtype (w.value.get idx) := by
  have hshape : (astype env tx.target.dtype w).value.shape = w.value.shape := by
    unfold astype
    split <;> rfl
  have hget : ∀ idx, (astype env tx.target.dtype w).value.get idx =
      if w.dtype = tx.target.dtype then w.value.get idx else env.cast tx.target.dtype (w.value.get idx) := by
    intro idx
    unfold astype
    split <;> rfl
  have key : applyTx env flags tx = if w.dtype ≠ tx.target.dtype ∧ flags.raiseDtype = true then .error .valueError
      else if (astype env tx.target.dtype w).value.shape = tx.target.value.shape then .ok (astype env tx.target.dtype w)
      else .error .valueError := by
    unfold applyTx
    rw [hw]
    change (if _ then _ else _ : Except PyErr _) = _
    split
    · rfl
    · split
      · rfl
      · rfl
  rw [key, hshape]
  constructor
  · intro hne
    rw [if_neg hne]
    split <;> rfl
  · intro v hv
    split at hv
    · cases hv
    · split at hv
      · rename_i hs
        cases hv
        exact ⟨hs, hget⟩
      · cases hv

/-- C55: in the arrays stacked for a target, one whose name contains a smaller number comes first, when the names are equal
up to there.  `ks` and its hypothesis are as in the conclusion of `C54_assignment`. -/
theorem C55_stack_order (fl : ℚ → ℚ) (hfl : ∀ a b : Nat, a < b → b ≤ 2 ^ 53 → fl a < fl b) (names ks : List Key)
    (hsub : ks.Sublist (NaturalSort.naturalSort fl names)) (p q1 q2 : List Char) (a b : Nat)
    (hp : NumberedNames.NumberMayFollow p) (hq1 : NumberedNames.NumberEndsBefore q1) (hq2 : NumberedNames.NumberEndsBefore q2)
    (hab : a < b) (hb : b ≤ 2 ^ 53) :
    NumberedNames.Before ks (p ++ PyStr.natStr a ++ q1) (p ++ PyStr.natStr b ++ q2) := by
  have h := NaturalSort.C55_numeric_order fl hfl names p q1 q2 a b hp hq1 hq2 hab hb
  obtain ⟨f, hf⟩ := List.sublist_iff_exists_orderEmbedding_getElem?_eq.1 hsub
  intro i j hi hj h1 h2
  have e1 := hf i
  have e2 := hf j
  rw [List.getElem?_eq_getElem hi] at e1
  rw [List.getElem?_eq_getElem hj] at e2
  obtain ⟨l1, g1⟩ := List.getElem?_eq_some_iff.1 e1.symm
  obtain ⟨l2, g2⟩ := List.getElem?_eq_some_iff.1 e2.symm
  have := h (f i) (f j) l1 l2 (g1.trans h1) (g2.trans h2)
  exact f.lt_iff_lt.1 this

/-! ### A concrete case

The source has two arrays `a_10`, `a_2` that are stacked to `s`, an array `b` copied to `c`, an array `x` that is dropped;
the target has also an array `d` that keeps its value. -/

/-- Natural numbers as entries; the type of an array is a natural number too. -/
def exEnv : Env Nat Nat :=
  { promote := fun a _ => a, cast := fun _ x => x, sqrt := id, zoom := fun x _ => x, noise := fun _ => { shape := [], get := fun _ => 0 }, float := id }

def exArr (v : Nat) : Arr Nat Nat := { dtype := 0, value := { shape := [2], get := fun i => v + i.headD 0 }, abstract := false }

def exSource : List (Key × FlatDict.Tree (Arr Nat Nat)) :=
  [("a_10".toList, .leaf (exArr 100)), ("a_2".toList, .leaf (exArr 20)), ("b".toList, .leaf (exArr 7)),
   ("x".toList, .leaf (exArr 9))]

def exTarget : List (Key × FlatDict.Tree (Arr Nat Nat)) :=
  [("m".toList, .node [("s".toList, .leaf { dtype := 0, value := { shape := [2, 2], get := fun _ => 0 }, abstract := false }),
    ("c".toList, .leaf (exArr 0))]), ("d".toList, .leaf (exArr 3))]

def exRules (single : Single) : List Rule :=
  [{ search := fun k => k.head? == some 'a', action := { rename := fun _ => "m/s".toList, kind := .stack 0 } },
   { search := fun k => k == "b".toList, action := { rename := fun _ => "m/c".toList, kind := .single single } },
   { search := fun k => k.head? == some 'x', action := { rename := id, kind := .drop } }]

def exFlags : Flags := { raiseTarget := false }

theorem exSource_keys : PyDict.keys (flatten exSource) = ["a_10".toList, "a_2".toList, "b".toList, "x".toList] := by
  decide +kernel

theorem exSource_ok : ItemsOk exSource := by
  simp only [exSource, ItemsOk, Tree.Ok, PyDict.keys]
  decide

theorem exTarget_ok : ItemsOk exTarget := by
  simp only [exTarget, ItemsOk, Tree.Ok, PyDict.keys]
  decide

theorem exAct (k dst : Key) (a : Action) (h : GoesTo (exRules .copy) k dst a) :
    a = act (exRules .copy) k ∧ a.kind ≠ .drop ∧ a.rename k = dst :=
  ⟨(handledBy_iff _ _ _).1 h.1, h.2⟩

theorem exActs : act (exRules .copy) "a_10".toList = ⟨fun _ => "m/s".toList, .stack 0⟩ ∧
    act (exRules .copy) "a_2".toList = ⟨fun _ => "m/s".toList, .stack 0⟩ ∧
    act (exRules .copy) "b".toList = ⟨fun _ => "m/c".toList, .single .copy⟩ ∧
    act (exRules .copy) "x".toList = ⟨id, .drop⟩ := by
  refine ⟨?_, ?_, ?_, ?_⟩ <;> rfl

/-- The hypotheses of `C54_success` are met, so those of `C54_assignment`, `C54_strict_source` and `C54_sources_used`
are. -/
theorem exSucceeds : ∃ r, mapStateDict exEnv (exRules .copy) exFlags exSource exTarget = .ok r := by
  obtain ⟨e1, e2, e3, e4⟩ := exActs
  have hgt : ∀ k ∈ PyDict.keys (flatten exSource), ∀ dst a, GoesTo (exRules .copy) k dst a →
      (k = "a_10".toList ∧ dst = "m/s".toList ∧ a = ⟨fun _ => "m/s".toList, .stack 0⟩) ∨
      (k = "a_2".toList ∧ dst = "m/s".toList ∧ a = ⟨fun _ => "m/s".toList, .stack 0⟩) ∨
      (k = "b".toList ∧ dst = "m/c".toList ∧ a = ⟨fun _ => "m/c".toList, .single .copy⟩) := by
    intro k hk dst a h
    obtain ⟨ha, hd, hr⟩ := exAct k dst a h
    rw [exSource_keys] at hk
    simp only [List.mem_cons, List.not_mem_nil, or_false] at hk
    rcases hk with rfl | rfl | rfl | rfl
    · rw [e1] at ha; subst ha; exact .inl ⟨rfl, hr.symm, rfl⟩
    · rw [e2] at ha; subst ha; exact .inr (.inl ⟨rfl, hr.symm, rfl⟩)
    · rw [e3] at ha; subst ha; exact .inr (.inr ⟨rfl, hr.symm, rfl⟩)
    · rw [e4] at ha; subst ha; exact absurd rfl hd
  have s1 : PyDict.get? (flatten exSource) "a_10".toList = some (.leaf (exArr 100)) := rfl
  have s2 : PyDict.get? (flatten exSource) "a_2".toList = some (.leaf (exArr 20)) := rfl
  have s3 : PyDict.get? (flatten exSource) "b".toList = some (.leaf (exArr 7)) := rfl
  have t1 : PyDict.get? (flatten exTarget) "m/s".toList =
    some (.leaf { dtype := 0, value := { shape := [2, 2], get := fun _ => 0 }, abstract := false }) := rfl
  have t2 : PyDict.get? (flatten exTarget) "m/c".toList = some (.leaf (exArr 0)) := rfl
  refine C54_success _ _ _ _ _ ?_ ?_ ?_ ?_ ?_ ?_ ?_ ?_
  · exact exSource_ok
  · exact exTarget_ok
  · intro _ k hk
    rw [exSource_keys] at hk
    cases hf : find (exRules .copy) k with
    | some r => exact ⟨r, find_some _ _ _ hf⟩
    | none =>
      have : ∀ k ∈ ["a_10".toList, "a_2".toList, "b".toList, "x".toList], (find (exRules .copy) k).isSome = true := by
        decide +kernel
      have := this k hk
      rw [hf] at this
      cases this
  · intro k hk dst a h
    rcases hgt k hk dst a h with ⟨rfl, rfl, rfl⟩ | ⟨rfl, rfl, rfl⟩ | ⟨rfl, rfl, rfl⟩
    · exact .inl ⟨_, _, s1, t1, by simp⟩
    · exact .inl ⟨_, _, s2, t1, by simp⟩
    · exact .inl ⟨_, _, s3, t2, by simp⟩
  · intro k hk k' hk' dst a a' hne h h'
    rcases hgt k hk dst a h with ⟨rfl, rfl, rfl⟩ | ⟨rfl, rfl, rfl⟩ | ⟨rfl, rfl, rfl⟩
    · exact ⟨0, rfl⟩
    · exact ⟨0, rfl⟩
    · rcases hgt k' hk' _ a' h' with ⟨rfl, h2, rfl⟩ | ⟨rfl, h2, rfl⟩ | ⟨rfl, h2, rfl⟩
      · exact absurd h2 (by decide)
      · exact absurd h2 (by decide)
      · exact absurd rfl hne
  · intro h
    cases h
  · intro k hk dst a s x t h ha hx ht
    rcases hgt k hk dst a h with ⟨rfl, rfl, rfl⟩ | ⟨rfl, rfl, rfl⟩ | ⟨rfl, rfl, rfl⟩
    · cases ha
    · cases ha
    · rw [s3] at hx; rw [t2] at ht
      cases hx; cases ht; cases ha
      exact ⟨_, rfl⟩
  · intro k ks dst a axis xs t hm hsub ha hax hxs ht
    have hk := ((hm k).1 (by simp)).1
    have hdst : dst = "m/s".toList ∧ axis = 0 := by
      rcases hgt k hk dst a ha with ⟨rfl, rfl, rfl⟩ | ⟨rfl, rfl, rfl⟩ | ⟨rfl, rfl, rfl⟩
      · cases hax; exact ⟨rfl, rfl⟩
      · cases hax; exact ⟨rfl, rfl⟩
      · cases hax
    obtain ⟨rfl, rfl⟩ := hdst
    rw [t1] at ht
    cases ht
    have hnd : (k :: ks).Nodup := by
      refine hsub.nodup ?_
      unfold NaturalSort.naturalSort
      rw [(List.mergeSort_perm _ _).nodup_iff]
      decide +kernel
    have hperm : (k :: ks).Perm ["a_10".toList, "a_2".toList] := by
      rw [List.perm_ext_iff_of_nodup hnd (by decide +kernel)]
      intro k'
      rw [hm k']
      constructor
      · rintro ⟨hk', a', ha'⟩
        rcases hgt k' hk' _ a' ha' with ⟨rfl, _, _⟩ | ⟨rfl, _, _⟩ | ⟨_, h2, _⟩
        · decide
        · decide
        · exact absurd h2 (by decide)
      · intro hk'
        simp only [List.mem_cons, List.not_mem_nil, or_false] at hk'
        rw [exSource_keys, goesTo_iff]
        rcases hk' with rfl | rfl
        · exact ⟨by decide, by decide⟩
        · exact ⟨by decide, by decide⟩
    obtain ⟨y1, y2, rfl, h1, h2⟩ : ∃ y1 y2, xs = [y1, y2] ∧ (∃ n, y1 = exArr n) ∧ ∃ n, y2 = exArr n := by
      have hlen := hperm.length_eq
      obtain ⟨k2, rfl⟩ : ∃ k2, ks = [k2] := List.length_eq_one_iff.1 (by simpa using hlen)
      have hall : ∀ k' ∈ [k, k2], ∀ x, PyDict.get? (flatten exSource) k' = some (.leaf x) → ∃ n, x = exArr n := by
        intro k' hk' x hx
        have := hperm.mem_iff.1 hk'
        simp only [List.mem_cons, List.not_mem_nil, or_false] at this
        rcases this with rfl | rfl
        · rw [s1] at hx; cases hx; exact ⟨_, rfl⟩
        · rw [s2] at hx; cases hx; exact ⟨_, rfl⟩
      cases hxs with
      | cons g1 r1 =>
        cases r1 with
        | cons g2 r2 =>
          cases r2
          exact ⟨_, _, rfl, hall _ (by simp) _ g1, hall _ (by simp) _ g2⟩
    obtain ⟨n1, rfl⟩ := h1
    obtain ⟨n2, rfl⟩ := h2
    exact ⟨_, rfl⟩

example : ∃ r l, mapStateDict exEnv (exRules .copy) exFlags exSource exTarget = .ok r ∧ exFlags.raiseSource = true ∧
    r = .node l ∧ leafOf l ["d".toList] = some (exArr 3) := by
  obtain ⟨r, hr⟩ := exSucceeds
  obtain ⟨l, rfl, _, h⟩ := C54_assignment _ _ _ _ _ exTarget_ok r hr
  refine ⟨_, l, hr, rfl, rfl, ?_⟩
  have hno : ∀ k ∈ PyDict.keys (flatten exSource), ¬ To (exRules .copy) (join ["d".toList]) k := by
    rw [exSource_keys]
    decide +kernel
  obtain ⟨v, hv, h1 | ⟨k, a, _, _, hk, ha, _⟩ | ⟨k, _, a, _, _, hm, _, _, ha, _⟩⟩ := h ["d".toList] (exArr 3) rfl
  · rw [hv, h1.2]
  · exact absurd ((goesTo_iff _ _ _).1 ⟨a, ha⟩) (hno k hk)
  · have hk := ((hm k).1 (by simp)).1
    exact absurd ((goesTo_iff _ _ _).1 ⟨a, ha⟩) (hno k hk)

/-- The hypotheses of `C54_twice_raises`: `b` is copied to the array that `a_2` is stacked to. -/
example : ∃ e, mapStateDict exEnv
    [{ search := fun k => k == "b".toList, action := { rename := fun _ => "m/s".toList, kind := .single .copy } },
     { search := fun _ => true, action := { rename := fun _ => "m/s".toList, kind := .stack 0 } }]
    exFlags exSource exTarget = .error e :=
  C54_twice_raises _ _ _ _ _ exTarget_ok ["m".toList, "s".toList] _ rfl "b".toList "a_2".toList _ _
    (by rw [exSource_keys]; decide) (by rw [exSource_keys]; decide) (by decide)
    ⟨(handledBy_iff _ _ _).2 rfl, by decide, rfl⟩ ⟨(handledBy_iff _ _ _).2 rfl, by decide, rfl⟩
    (by intro axis h; cases h)

/-- The hypotheses of `C54_strict_target`: with the default flags every array of the target is assigned. -/
example : ∃ r, mapStateDict exEnv [{ search := fun _ => true, action := { rename := id, kind := .single .copy } }] {}
    [("d".toList, .leaf (exArr 1))] [("d".toList, .leaf (exArr 3))] = .ok r := by
  have hn : ∀ fl, NaturalSort.naturalSort fl (PyDict.keys (flatten [("d".toList, FlatDict.Tree.leaf (exArr 1))])) =
      ["d".toList] := fun fl => List.mergeSort_singleton _
  refine ⟨.node [("d".toList, .leaf (exArr 1))], ?_⟩
  have hb : build exEnv [{ search := fun _ => true, action := { rename := id, kind := .single .copy } }] {}
      (flatten [("d".toList, .leaf (exArr 1))]) (flatten [("d".toList, .leaf (exArr 3))]) =
      .ok [("d".toList, .single .copy (exArr 1) (exArr 3))] := by
    unfold build
    rw [hn]
    rfl
  have ha : apply exEnv {} [("d".toList, .single .copy (exArr 1) (exArr 3))] (flatten [("d".toList, .leaf (exArr 3))]) =
      .ok [("d".toList, .leaf (exArr 1))] := by
    unfold apply
    rw [List.mergeSort_singleton]
    rfl
  unfold mapStateDict
  rw [hb]
  change (apply _ _ _ _ >>= _ : Except PyErr _) = _
  rw [ha]
  rfl

/-- `C56_target_shape`, `C56_no_broadcast`: repeating an array of shape `[2]` gives the target's shape `[3, 2]`, which
copying does not give; without the flag copying broadcasts. -/
def exWide : Arr Nat Nat := { dtype := 1, value := { shape := [3, 2], get := fun _ => 0 }, abstract := false }

example : (∃ v, applyTx exEnv {} (.single (.expandTile [0] [3]) (exArr 5) exWide) = .ok v ∧ v.value.get [2, 1] = 6) ∧
    applyTx exEnv {} (.single .copy (exArr 5) exWide) = .error .valueError ∧
    ∃ v, applyTx exEnv { raiseShape := false } (.single .copy (exArr 5) exWide) = .ok v ∧ v.value.get [2, 1] = 6 :=
  ⟨⟨_, rfl, rfl⟩, rfl, ⟨_, rfl, rfl⟩⟩

end Verif.Mapping
