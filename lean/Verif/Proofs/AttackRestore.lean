import Verif.Model.AttackRestore
import Verif.Proofs.InitVmoe

/-! `from_state_dict` with a state that has the structure of the target. -/

namespace Verif.AttackRestore

open Verif FlatDict InitVmoe Partitioning TreeSpec

variable {V W : Type}

theorem get?_eq_lookup {T : Type} (l : List (Key × T)) (k : Key) : PyDict.get? l k = lookup k l := by
  induction l with
  | nil => rfl
  | cons e l ih =>
    obtain ⟨k', t⟩ := e
    simp only [PyDict.get?, lookup, ih]

theorem lookup_of_mem {T : Type} (l : List (Key × T)) (hn : (l.map Prod.fst).Nodup) (k : Key) (t : T) (h : (k, t) ∈ l) :
    lookup k l = some t := by
  induction l with
  | nil => simp at h
  | cons e l ih =>
    obtain ⟨k', t'⟩ := e
    simp only [List.map_cons, List.nodup_cons] at hn
    simp only [lookup]
    rcases List.mem_cons.1 h with e | h
    · injection e with e1 e2
      subst e1 e2
      simp
    · rw [if_neg, ih hn.2 h]
      intro e
      exact hn.1 (List.mem_map.2 ⟨_, h, e.symm⟩)

theorem lookup_none {T : Type} (l : List (Key × T)) (k : Key) : lookup k l = none ↔ k ∉ l.map Prod.fst := by
  induction l with
  | nil => simp [lookup]
  | cons e l ih =>
    obtain ⟨k', t'⟩ := e
    simp only [lookup, List.map_cons, List.mem_cons, not_or]
    split
    · rename_i h
      simp [h]
    · rename_i h
      rw [ih]
      constructor
      · intro h'
        exact ⟨fun e => h e.symm, h'⟩
      · exact fun h' => h'.2

theorem lookup_same : ∀ (a : List (Key × FlatDict.Tree V)) (b : List (Key × FlatDict.Tree W)), sameOf a b = true →
    ∀ k t, lookup k a = some t → ∃ s, lookup k b = some s ∧ sameAt t s = true
  | [], [], _, _, _, h => by simp [lookup] at h
  | (k, t) :: l, (k', t') :: m, h, k0, t0, h0 => by
    simp only [sameOf, Bool.and_eq_true, decide_eq_true_eq] at h
    obtain ⟨⟨rfl, h1⟩, h2⟩ := h
    simp only [lookup] at h0 ⊢
    split at h0
    · rename_i e
      cases h0
      exact ⟨t', by simp [e], h1⟩
    · rename_i e
      rw [if_neg e]
      exact lookup_same l m h2 k0 t0 h0
  | [], _ :: _, h, _, _, _ => by simp [sameOf] at h
  | _ :: _, [], h, _, _, _ => by simp [sameOf] at h

theorem lookup_sortItems (l : List (Key × FlatDict.Tree V)) (h : ItemsOk l) (k : Key) :
    lookup k (sortItems l) = (lookup k l).map sortTree := by
  unfold sortItems
  rw [lookup_perm _ (sortSub l) (List.mergeSort_perm _ _) (by
        rw [((List.mergeSort_perm _ _).map Prod.fst).nodup_iff, sortSub_keys]
        exact itemsOk_nodup l h), lookup_sortSub]

/-- Dicts of the same structure have the same keys, and the values have the same structure. -/
theorem lookup_structure (l : List (Key × FlatDict.Tree V)) (m : List (Key × FlatDict.Tree W)) (hl : ItemsOk l) (hm : ItemsOk m)
    (h : sameOf (sortItems l) (sortItems m) = true) (k : Key) (t : FlatDict.Tree V) (ht : lookup k l = some t) :
    ∃ s, lookup k m = some s ∧ sameAt (sortTree t) (sortTree s) = true := by
  obtain ⟨s', h1, h2⟩ := lookup_same _ _ h k (sortTree t) (by rw [lookup_sortItems l hl, ht]; rfl)
  rw [lookup_sortItems m hm, Option.map_eq_some_iff] at h1
  obtain ⟨s, h3, rfl⟩ := h1
  exact ⟨s, h3, h2⟩

mutual
/-- `from_state_dict` with a state of the same structure gives the tree with the leaves of the state. -/
theorem fromState_same : ∀ (t : FlatDict.Tree V) (s : FlatDict.Tree W), t.Ok → s.Ok →
    sameAt (sortTree t) (sortTree s) = true →
    ∃ r, fromStateDict t s = .ok r ∧ ∀ path, leafAt path r = leafAt path s
  | .leaf _, s, _, _, _ => ⟨s, rfl, fun _ => rfl⟩
  | .node l, .leaf _, _, _, h => by simp [sortTree, sameAt] at h
  | .node l, .node m, hl, hm, h => by
    rw [FlatDict.Tree.Ok] at hl hm
    simp only [sortTree, sameAt] at h
    have key : ∀ k t, (k, t) ∈ l → ∃ s, lookup k m = some s ∧ s.Ok ∧ sameAt (sortTree t) (sortTree s) = true := by
      intro k t hm'
      obtain ⟨s, h1, h2⟩ := lookup_structure l m hl hm h k t (lookup_of_mem l (itemsOk_nodup l hl) k t hm')
      exact ⟨s, h1, itemsOk_mem m hm _ (lookup_mem m k s h1), h2⟩
    obtain ⟨r, h1, h2, h3⟩ := fromItems_same l m (fun k t h => itemsOk_mem l hl _ h) key
    refine ⟨.node r, ?_, ?_⟩
    · rw [fromStateDict, h1]
      rfl
    · intro path
      cases path with
      | nil => rfl
      | cons k ks =>
        simp only [leafAt]
        by_cases hk : k ∈ l.map Prod.fst
        · have hr : lookup k r ≠ none := fun e => (lookup_none r k).1 e (h2 ▸ hk)
          obtain ⟨t, ht⟩ := Option.ne_none_iff_exists'.1 hr
          obtain ⟨s, hs, hts⟩ := h3 k t ht
          rw [ht, hs]
          exact hts ks
        · have hr : lookup k r = none := (lookup_none r k).2 (h2 ▸ hk)
          have hs : lookup k m = none := by
            cases e : lookup k m with
            | none => rfl
            | some s =>
              obtain ⟨t, ht, _⟩ := lookup_structure m l hm hl (sameOf_symm _ _ h) k s e
              exact absurd ((lookup_none l k).2 hk) (by rw [ht]; simp)
          rw [hr, hs]
/-- The same for the items of a dict. -/
theorem fromItems_same : ∀ (l : List (Key × FlatDict.Tree V)) (m : List (Key × FlatDict.Tree W)),
    (∀ k t, (k, t) ∈ l → t.Ok) →
    (∀ k t, (k, t) ∈ l → ∃ s, lookup k m = some s ∧ s.Ok ∧ sameAt (sortTree t) (sortTree s) = true) →
    ∃ r, fromStateItems l m = .ok r ∧ r.map Prod.fst = l.map Prod.fst ∧
      ∀ k t, lookup k r = some t → ∃ s, lookup k m = some s ∧ ∀ path, leafAt path t = leafAt path s
  | [], m, _, _ => ⟨[], by simp [fromStateItems], rfl, fun k t h => by simp [lookup] at h⟩
  | (k, t) :: l, m, hok, h => by
    obtain ⟨s, h1, h2, h3⟩ := h k t (by simp)
    obtain ⟨c, h4, h5⟩ := fromState_same t s (hok k t (by simp)) h2 h3
    obtain ⟨r, h6, h7, h8⟩ := fromItems_same l m (fun k t h => hok k t (List.mem_cons_of_mem _ h))
      (fun k t h' => h k t (List.mem_cons_of_mem _ h'))
    refine ⟨(k, c) :: r, ?_, by simp [h7], ?_⟩
    · rw [fromStateItems, get?_eq_lookup, h1]
      simp only []
      rw [h4]
      change (fromStateItems l m >>= _) = _
      rw [h6]
      rfl
    · intro k' t' h'
      simp only [lookup] at h'
      split at h'
      · rename_i e
        cases h'
        subst e
        exact ⟨s, h1, h5⟩
      · exact h8 k' t' h'
end

end Verif.AttackRestore
