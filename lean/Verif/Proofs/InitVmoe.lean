import Verif.Model.InitVmoe
import Verif.Spec.Slices
import Verif.Spec.Trees
import Verif.Proofs.CkptRegions
import Verif.Proofs.ExceptLemmas
import Verif.Proofs.PyDict
import Verif.Proofs.FlatDict
import Verif.Proofs.HardwareMesh

/-! Lemmas about trees for the initialization from checkpoints. -/

namespace Verif.InitVmoe

open Verif FlatDict

variable {V W X D α : Type}

/-! ### Structure and leaves -/

mutual
theorem sameAt_length : ∀ (a : FlatDict.Tree V) (b : FlatDict.Tree W), sameAt a b = true →
    (leavesAt a).length = (leavesAt b).length
  | .leaf _, .leaf _, _ => rfl
  | .node l, .node m, h => by
    simp only [sameAt] at h
    simpa [leavesAt] using sameOf_length l m h
  | .leaf _, .node _, h => by simp [sameAt] at h
  | .node _, .leaf _, h => by simp [sameAt] at h
theorem sameOf_length : ∀ (a : List (Key × FlatDict.Tree V)) (b : List (Key × FlatDict.Tree W)), sameOf a b = true →
    (leavesOf a).length = (leavesOf b).length
  | [], [], _ => rfl
  | (k, t) :: l, (k', t') :: m, h => by
    simp only [sameOf, Bool.and_eq_true] at h
    simp only [leavesOf, List.length_append, sameAt_length t t' h.1.2, sameOf_length l m h.2]
  | [], _ :: _, h => by simp [sameOf] at h
  | _ :: _, [], h => by simp [sameOf] at h
end

mutual
theorem sameAt_unique : ∀ (a b : FlatDict.Tree V), sameAt a b = true → leavesAt a = leavesAt b → a = b
  | .leaf _, .leaf _, _, h => by
    simp only [leavesAt, List.cons.injEq, and_true] at h
    rw [h]
  | .node l, .node m, hs, h => by
    simp only [sameAt] at hs
    simp only [leavesAt] at h
    rw [sameOf_unique l m hs h]
  | .leaf _, .node _, h, _ => by simp [sameAt] at h
  | .node _, .leaf _, h, _ => by simp [sameAt] at h
theorem sameOf_unique : ∀ (a b : List (Key × FlatDict.Tree V)), sameOf a b = true → leavesOf a = leavesOf b → a = b
  | [], [], _, _ => rfl
  | (k, t) :: l, (k', t') :: m, hs, h => by
    simp only [sameOf, Bool.and_eq_true, decide_eq_true_eq] at hs
    simp only [leavesOf] at h
    obtain ⟨h1, h2⟩ := List.append_inj h (sameAt_length t t' hs.1.2)
    rw [hs.1.1, sameAt_unique t t' hs.1.2 h1, sameOf_unique l m hs.2 h2]
  | [], _ :: _, h, _ => by simp [sameOf] at h
  | _ :: _, [], h, _ => by simp [sameOf] at h
end

mutual
theorem sameAt_trans : ∀ (a : FlatDict.Tree V) (b : FlatDict.Tree W) (c : FlatDict.Tree X), sameAt a b = true →
    sameAt b c = true → sameAt a c = true
  | .leaf _, .leaf _, .leaf _, _, _ => rfl
  | .node l, .node m, .node n, h, h' => by
    simp only [sameAt] at h h' ⊢
    exact sameOf_trans l m n h h'
  | .leaf _, .node _, _, h, _ => by simp [sameAt] at h
  | .node _, .leaf _, _, h, _ => by simp [sameAt] at h
  | .leaf _, .leaf _, .node _, _, h => by simp [sameAt] at h
  | .node _, .node _, .leaf _, _, h => by simp [sameAt] at h
theorem sameOf_trans : ∀ (a : List (Key × FlatDict.Tree V)) (b : List (Key × FlatDict.Tree W))
    (c : List (Key × FlatDict.Tree X)), sameOf a b = true → sameOf b c = true → sameOf a c = true
  | [], [], [], _, _ => rfl
  | (k, t) :: l, (k', t') :: m, (k'', t'') :: n, h, h' => by
    simp only [sameOf, Bool.and_eq_true, decide_eq_true_eq] at h h' ⊢
    exact ⟨⟨h.1.1.trans h'.1.1, sameAt_trans t t' t'' h.1.2 h'.1.2⟩, sameOf_trans l m n h.2 h'.2⟩
  | [], _ :: _, _, h, _ => by simp [sameOf] at h
  | _ :: _, [], _, h, _ => by simp [sameOf] at h
  | [], [], _ :: _, _, h => by simp [sameOf] at h
  | _ :: _, _ :: _, [], _, h => by simp [sameOf] at h
end

mutual
theorem sameAt_symm : ∀ (a : FlatDict.Tree V) (b : FlatDict.Tree W), sameAt a b = true → sameAt b a = true
  | .leaf _, .leaf _, _ => rfl
  | .node l, .node m, h => by
    simp only [sameAt] at h ⊢
    exact sameOf_symm l m h
  | .leaf _, .node _, h => by simp [sameAt] at h
  | .node _, .leaf _, h => by simp [sameAt] at h
theorem sameOf_symm : ∀ (a : List (Key × FlatDict.Tree V)) (b : List (Key × FlatDict.Tree W)), sameOf a b = true →
    sameOf b a = true
  | [], [], _ => rfl
  | (k, t) :: l, (k', t') :: m, h => by
    simp only [sameOf, Bool.and_eq_true, decide_eq_true_eq] at h ⊢
    exact ⟨⟨h.1.1.symm, sameAt_symm t t' h.1.2⟩, sameOf_symm l m h.2⟩
  | [], _ :: _, h => by simp [sameOf] at h
  | _ :: _, [], h => by simp [sameOf] at h
end

/-! ### Filling -/

mutual
theorem fillAt_spec : ∀ (t : FlatDict.Tree V) (ws rest : List W), ws.length = (leavesAt t).length →
    ∃ t', fillAt t (ws ++ rest) = .ok (t', rest) ∧ leavesAt t' = ws ∧ sameAt t t' = true
  | .leaf v, ws, rest, h => by
    simp only [leavesAt, List.length_singleton] at h
    match ws, h with
    | [w], _ => exact ⟨.leaf w, rfl, rfl, rfl⟩
  | .node l, ws, rest, h => by
    obtain ⟨l', h1, h2, h3⟩ := fillOf_spec l ws rest h
    refine ⟨.node l', ?_, h2, h3⟩
    simp only [fillAt, h1]
    rfl
theorem fillOf_spec : ∀ (l : List (Key × FlatDict.Tree V)) (ws rest : List W), ws.length = (leavesOf l).length →
    ∃ l', fillOf l (ws ++ rest) = .ok (l', rest) ∧ leavesOf l' = ws ∧ sameOf l l' = true
  | [], ws, rest, h => by
    have : ws = [] := by simpa [leavesOf] using h
    subst this
    exact ⟨[], rfl, rfl, rfl⟩
  | (k, t) :: l, ws, rest, h => by
    simp only [leavesOf, List.length_append] at h
    obtain ⟨t', h1, h2, h3⟩ := fillAt_spec t (ws.take (leavesAt t).length) (ws.drop (leavesAt t).length ++ rest)
      (by rw [List.length_take]; omega)
    obtain ⟨l', h4, h5, h6⟩ := fillOf_spec l (ws.drop (leavesAt t).length) rest (by rw [List.length_drop]; omega)
    rw [← List.append_assoc, List.take_append_drop] at h1
    refine ⟨(k, t') :: l', ?_, ?_, ?_⟩
    · simp only [fillOf, h1]
      change (fillOf l _ >>= _ : Except PyErr _) = _
      rw [h4]
      rfl
    · rw [leavesOf, h2, h5, List.take_append_drop]
    · simp [sameOf, h3, h6]
end

theorem unflatten_spec (l : List (Key × FlatDict.Tree V)) (ws : List W) (h : ws.length = (leaves l).length) :
    ∃ l', unflatten l ws = .ok l' ∧ leavesOf l' = ws ∧ sameOf (sortItems l) l' = true := by
  obtain ⟨l', h1, h2, h3⟩ := fillOf_spec (sortItems l) ws [] h
  rw [List.append_nil] at h1
  refine ⟨l', ?_, h2, h3⟩
  unfold unflatten
  rw [h1]
  rfl

/-! ### Sorting -/

mutual
/-- The dicts in the tree are sorted. -/
def SortedAt : FlatDict.Tree V → Prop
  | .leaf _ => True
  | .node l => l.Pairwise (fun a b => a.1 ≤ b.1) ∧ SortedSub l
/-- The dicts in the values are sorted. -/
def SortedSub : List (Key × FlatDict.Tree V) → Prop
  | [] => True
  | (_, t) :: l => SortedAt t ∧ SortedSub l
end

theorem sortedSub_iff (l : List (Key × FlatDict.Tree V)) : SortedSub l ↔ ∀ e ∈ l, SortedAt e.2 := by
  induction l with
  | nil => simp [SortedSub]
  | cons e l ih =>
    obtain ⟨k, t⟩ := e
    simp [SortedSub, ih]

theorem pairwise_sort (l : List (Key × FlatDict.Tree V)) :
    (l.mergeSort fun a b => decide (a.1 ≤ b.1)).Pairwise fun a b => a.1 ≤ b.1 := by
  have h := List.pairwise_mergeSort (le := fun a b : Key × FlatDict.Tree V => decide (a.1 ≤ b.1))
    (fun a b c h1 h2 => by
      simp only [decide_eq_true_eq] at h1 h2 ⊢
      exact le_trans h1 h2)
    (fun a b => by
      simp only [Bool.or_eq_true, decide_eq_true_eq]
      exact le_total _ _) l
  exact h.imp fun h => by simpa using h

theorem sort_of_pairwise (l : List (Key × FlatDict.Tree V)) (h : l.Pairwise fun a b => a.1 ≤ b.1) :
    (l.mergeSort fun a b => decide (a.1 ≤ b.1)) = l :=
  List.mergeSort_of_pairwise (h.imp fun h => by simpa using h)

mutual
theorem sortTree_sorted : ∀ t : FlatDict.Tree V, SortedAt (sortTree t)
  | .leaf _ => by simp [sortTree, SortedAt]
  | .node l => by
    simp only [sortTree, SortedAt]
    refine ⟨pairwise_sort _, ?_⟩
    rw [sortedSub_iff]
    intro e he
    exact (sortedSub_iff _).1 (sortSub_sorted l) e ((List.mergeSort_perm _ _).mem_iff.1 he)
theorem sortSub_sorted : ∀ l : List (Key × FlatDict.Tree V), SortedSub (sortSub l)
  | [] => trivial
  | (_, t) :: l => ⟨sortTree_sorted t, sortSub_sorted l⟩
end

theorem sortItems_sorted (l : List (Key × FlatDict.Tree V)) : SortedAt (.node (sortItems l)) := by
  have := sortTree_sorted (.node l)
  simpa [sortTree, sortItems] using this

mutual
theorem sortTree_of_sorted : ∀ t : FlatDict.Tree V, SortedAt t → sortTree t = t
  | .leaf _, _ => rfl
  | .node l, h => by
    simp only [SortedAt] at h
    rw [sortTree, sortSub_of_sorted l h.2, sort_of_pairwise l h.1]
theorem sortSub_of_sorted : ∀ l : List (Key × FlatDict.Tree V), SortedSub l → sortSub l = l
  | [], _ => rfl
  | (k, t) :: l, h => by
    simp only [SortedSub] at h
    rw [sortSub, sortTree_of_sorted t h.1, sortSub_of_sorted l h.2]
end

theorem sortItems_of_sorted (l : List (Key × FlatDict.Tree V)) (h : SortedAt (.node l)) : sortItems l = l := by
  have := sortTree_of_sorted (.node l) h
  simpa [sortTree, sortItems] using this

theorem sameOf_keys : ∀ (a : List (Key × FlatDict.Tree V)) (b : List (Key × FlatDict.Tree W)), sameOf a b = true →
    a.map Prod.fst = b.map Prod.fst
  | [], [], _ => rfl
  | (k, t) :: l, (k', t') :: m, h => by
    simp only [sameOf, Bool.and_eq_true, decide_eq_true_eq] at h
    simp [h.1.1, sameOf_keys l m h.2]
  | [], _ :: _, h => by simp [sameOf] at h
  | _ :: _, [], h => by simp [sameOf] at h

mutual
theorem sorted_of_sameAt : ∀ (a : FlatDict.Tree V) (b : FlatDict.Tree W), sameAt a b = true → SortedAt a → SortedAt b
  | .leaf _, .leaf _, _, _ => by simp [SortedAt]
  | .node l, .node m, h, hs => by
    simp only [sameAt] at h
    simp only [SortedAt] at hs ⊢
    refine ⟨?_, sorted_of_sameOf l m h hs.2⟩
    have h1 := List.pairwise_map.2 hs.1
    rw [sameOf_keys l m h] at h1
    exact List.pairwise_map.1 h1
  | .leaf _, .node _, h, _ => by simp [sameAt] at h
  | .node _, .leaf _, h, _ => by simp [sameAt] at h
theorem sorted_of_sameOf : ∀ (a : List (Key × FlatDict.Tree V)) (b : List (Key × FlatDict.Tree W)), sameOf a b = true →
    SortedSub a → SortedSub b
  | [], [], _, _ => trivial
  | (k, t) :: l, (k', t') :: m, h, hs => by
    simp only [sameOf, Bool.and_eq_true, decide_eq_true_eq] at h
    exact ⟨sorted_of_sameAt t t' h.1.2 hs.1, sorted_of_sameOf l m h.2 hs.2⟩
  | [], _ :: _, h, _ => by simp [sameOf] at h
  | _ :: _, [], h, _ => by simp [sameOf] at h
end

/-- A tree with the structure of a sorted tree is sorted. -/
theorem sortItems_of_same (l : List (Key × FlatDict.Tree V)) (m : List (Key × FlatDict.Tree W))
    (h : sameOf (sortItems l) m = true) : sortItems m = m :=
  sortItems_of_sorted m (sorted_of_sameAt (.node (sortItems l)) (.node m) h (sortItems_sorted l))

/-! ### The sorted tree has the same leaves at the same paths -/

theorem lookup_perm {T : Type} (l m : List (Key × T)) (h : l.Perm m) (hn : (l.map Prod.fst).Nodup) (k : Key) :
    TreeSpec.lookup k l = TreeSpec.lookup k m := by
  induction h with
  | nil => rfl
  | cons e _ ih =>
    obtain ⟨k', t⟩ := e
    simp only [List.map_cons, List.nodup_cons] at hn
    simp only [TreeSpec.lookup, ih hn.2]
  | swap a b l =>
    obtain ⟨ka, ta⟩ := a
    obtain ⟨kb, tb⟩ := b
    simp only [List.map_cons, List.nodup_cons, List.mem_cons, not_or] at hn
    simp only [TreeSpec.lookup]
    by_cases h1 : kb = k <;> by_cases h2 : ka = k <;> simp [h1, h2]
    exact absurd (h1.trans h2.symm) hn.1.1
  | trans h1 _ ih1 ih2 =>
    rw [ih1 hn, ih2 ((h1.map Prod.fst).nodup_iff.1 hn)]

theorem sortSub_keys (l : List (Key × FlatDict.Tree V)) : (sortSub l).map Prod.fst = l.map Prod.fst := by
  induction l with
  | nil => rfl
  | cons e l ih => simp [sortSub, ih]

theorem lookup_sortSub (l : List (Key × FlatDict.Tree V)) (k : Key) :
    TreeSpec.lookup k (sortSub l) = (TreeSpec.lookup k l).map sortTree := by
  induction l with
  | nil => rfl
  | cons e l ih =>
    obtain ⟨k', t⟩ := e
    simp only [sortSub, TreeSpec.lookup]
    split <;> simp [ih]

theorem lookup_mem {T : Type} (l : List (Key × T)) (k : Key) (t : T) (h : TreeSpec.lookup k l = some t) : (k, t) ∈ l := by
  induction l with
  | nil => simp [TreeSpec.lookup] at h
  | cons e l ih =>
    obtain ⟨k', t'⟩ := e
    simp only [TreeSpec.lookup] at h
    split at h
    · rename_i hk
      cases h
      simp [hk]
    · exact List.mem_cons_of_mem _ (ih h)

theorem itemsOk_nodup (l : List (Key × FlatDict.Tree V)) (h : ItemsOk l) : (l.map Prod.fst).Nodup := by
  induction l with
  | nil => simp
  | cons e l ih =>
    obtain ⟨k, t⟩ := e
    simp only [ItemsOk] at h
    simp only [List.map_cons, List.nodup_cons]
    exact ⟨h.2.1, ih h.2.2.2⟩

theorem itemsOk_mem (l : List (Key × FlatDict.Tree V)) (h : ItemsOk l) (e : Key × FlatDict.Tree V) (he : e ∈ l) : e.2.Ok := by
  induction l with
  | nil => simp at he
  | cons e' l ih =>
    obtain ⟨k, t⟩ := e'
    simp only [ItemsOk] at h
    rcases List.mem_cons.1 he with rfl | he
    · exact h.2.2.1
    · exact ih h.2.2.2 he

theorem leafAt_sort (p : List Key) (t : FlatDict.Tree V) (h : t.Ok) :
    TreeSpec.leafAt p (sortTree t) = TreeSpec.leafAt p t := by
  induction p generalizing t with
  | nil => cases t <;> simp [sortTree, TreeSpec.leafAt]
  | cons k ks ih =>
    match t with
    | .leaf _ => rfl
    | .node l =>
      have hl : ItemsOk l := by simpa [FlatDict.Tree.Ok] using h
      simp only [sortTree, TreeSpec.leafAt]
      rw [lookup_perm _ (sortSub l) (List.mergeSort_perm _ _) (by
        rw [((List.mergeSort_perm _ _).map Prod.fst).nodup_iff, sortSub_keys]
        exact itemsOk_nodup l hl), lookup_sortSub]
      cases h' : TreeSpec.lookup k l with
      | none => rfl
      | some t => exact ih t (itemsOk_mem l hl _ (lookup_mem l k t h'))

theorem itemsOk_iff (l : List (Key × FlatDict.Tree V)) :
    ItemsOk l ↔ (l.map Prod.fst).Nodup ∧ ∀ e ∈ l, '/' ∉ e.1 ∧ e.2.Ok := by
  induction l with
  | nil => simp [ItemsOk]
  | cons e l ih =>
    obtain ⟨k, t⟩ := e
    simp only [ItemsOk, ih, List.map_cons, List.nodup_cons, List.forall_mem_cons, PyDict.keys]
    tauto

mutual
theorem sortTree_ok : ∀ t : FlatDict.Tree V, t.Ok → (sortTree t).Ok
  | .leaf _, _ => by simp [sortTree, FlatDict.Tree.Ok]
  | .node l, h => by
    have hl : ItemsOk l := by simpa [FlatDict.Tree.Ok] using h
    have h1 := (itemsOk_iff _).1 (sortSub_ok l hl)
    simp only [sortTree, FlatDict.Tree.Ok]
    rw [itemsOk_iff]
    refine ⟨((List.mergeSort_perm _ _).map Prod.fst).nodup_iff.2 h1.1, fun e he => h1.2 e ?_⟩
    exact (List.mergeSort_perm _ _).mem_iff.1 he
theorem sortSub_ok : ∀ l : List (Key × FlatDict.Tree V), ItemsOk l → ItemsOk (sortSub l)
  | [], _ => by simp [sortSub, ItemsOk]
  | (k, t) :: l, h => by
    simp only [ItemsOk] at h
    simp only [sortSub, ItemsOk]
    refine ⟨h.1, ?_, sortTree_ok t h.2.2.1, sortSub_ok l h.2.2.2⟩
    have := sortSub_keys l
    simp only [PyDict.keys] at h ⊢
    rw [this]
    exact h.2.1
end

theorem sortItems_ok (l : List (Key × FlatDict.Tree V)) (h : ItemsOk l) : ItemsOk (sortItems l) := by
  have := sortTree_ok (.node l) (by simpa [FlatDict.Tree.Ok] using h)
  simpa [sortTree, sortItems, FlatDict.Tree.Ok] using this

theorem leafOf_sort (l : List (Key × FlatDict.Tree V)) (h : ItemsOk l) (p : List Key) :
    TreeSpec.leafOf (sortItems l) p = TreeSpec.leafOf l p := by
  have := leafAt_sort p (.node l) (by simpa [FlatDict.Tree.Ok] using h)
  simpa [sortTree, sortItems, TreeSpec.leafOf] using this

/-! ### Mapping a function over a tree -/

mutual
theorem leavesAt_map (f : V → W) : ∀ (p : List Key) (t : FlatDict.Tree V),
    leavesAt (Partitioning.mapTree (fun _ => f) p t) = (leavesAt t).map f ∧ sameAt t (Partitioning.mapTree (fun _ => f) p t) = true
  | _, .leaf _ => ⟨rfl, rfl⟩
  | p, .node l => by
    have := leavesOf_map f p l
    exact ⟨by simpa [Partitioning.mapTree, leavesAt] using this.1, by simpa [Partitioning.mapTree, sameAt] using this.2⟩
theorem leavesOf_map (f : V → W) : ∀ (p : List Key) (l : List (Key × FlatDict.Tree V)),
    leavesOf (Partitioning.mapItems (fun _ => f) p l) = (leavesOf l).map f ∧ sameOf l (Partitioning.mapItems (fun _ => f) p l) = true
  | _, [] => ⟨rfl, rfl⟩
  | p, (k, t) :: l => by
    have h1 := leavesAt_map f (p ++ [k]) t
    have h2 := leavesOf_map f p l
    simp [Partitioning.mapItems, leavesOf, sameOf, h1, h2]
end

theorem lookup_mapItems (f : V → W) (p : List Key) (l : List (Key × FlatDict.Tree V)) (k : Key) :
    TreeSpec.lookup k (Partitioning.mapItems (fun _ => f) p l) =
      (TreeSpec.lookup k l).map (Partitioning.mapTree (fun _ => f) (p ++ [k])) := by
  induction l with
  | nil => rfl
  | cons e l ih =>
    obtain ⟨k', t⟩ := e
    simp only [Partitioning.mapItems, TreeSpec.lookup]
    split
    · rename_i h
      subst h
      rfl
    · exact ih

theorem leafAt_map (f : V → W) (path p : List Key) (t : FlatDict.Tree V) :
    TreeSpec.leafAt path (Partitioning.mapTree (fun _ => f) p t) = (TreeSpec.leafAt path t).map f := by
  induction path generalizing p t with
  | nil => cases t <;> simp [Partitioning.mapTree, TreeSpec.leafAt]
  | cons k ks ih =>
    match t with
    | .leaf _ => rfl
    | .node l =>
      simp only [Partitioning.mapTree, TreeSpec.leafAt, lookup_mapItems]
      cases TreeSpec.lookup k l with
      | none => rfl
      | some t => exact ih _ t

theorem leafOf_map (f : V → W) (l : List (Key × FlatDict.Tree V)) (path : List Key) :
    TreeSpec.leafOf (Partitioning.mapItems (fun _ => f) [] l) path = (TreeSpec.leafOf l path).map f := by
  have := leafAt_map f path [] (.node l)
  simpa [Partitioning.mapTree, TreeSpec.leafOf] using this

/-! ### Lists in `Except` -/

theorem mapM_ok_of {A B : Type} (f : A → Except PyErr B) (g : A → B) (l : List A) (h : ∀ a ∈ l, f a = .ok (g a)) :
    l.mapM f = .ok (l.map g) := by
  induction l with
  | nil => rfl
  | cons a l ih =>
    rw [List.mapM_cons, h a (by simp), ih fun b hb => h b (List.mem_cons_of_mem _ hb)]
    rfl

theorem mapM_eq_ok {A B : Type} (f : A → Except PyErr B) (l : List A) (bs : List B)
    (h : List.Forall₂ (fun a b => f a = .ok b) l bs) : l.mapM f = .ok bs := by
  induction h with
  | nil => rfl
  | cons h _ ih =>
    rw [List.mapM_cons, h, ih]
    rfl

theorem mapM_exists {A B : Type} (f : A → Except PyErr B) (l : List A) (h : ∀ a ∈ l, ∃ b, f a = .ok b) :
    ∃ bs, l.mapM f = .ok bs ∧ (∀ b ∈ bs, ∃ a ∈ l, f a = .ok b) ∧ ∀ a ∈ l, ∃ b ∈ bs, f a = .ok b := by
  induction l with
  | nil => exact ⟨[], rfl, by simp, by simp⟩
  | cons a l ih =>
    obtain ⟨b, hb⟩ := h a (by simp)
    obtain ⟨bs, h1, h2, h3⟩ := ih fun x hx => h x (List.mem_cons_of_mem _ hx)
    refine ⟨b :: bs, ?_, ?_, ?_⟩
    · rw [List.mapM_cons, hb, h1]
      rfl
    · intro x hx
      rcases List.mem_cons.1 hx with rfl | hx
      · exact ⟨a, by simp, hb⟩
      · obtain ⟨y, hy, he⟩ := h2 x hx
        exact ⟨y, List.mem_cons_of_mem _ hy, he⟩
    · intro x hx
      rcases List.mem_cons.1 hx with rfl | hx
      · exact ⟨b, by simp, hb⟩
      · obtain ⟨y, hy, he⟩ := h3 x hx
        exact ⟨y, List.mem_cons_of_mem _ hy, he⟩

/-! ### Saving -/

open Ckpt

theorem saveLoop_shapes (P p : Nat) (mb : Option Nat) (l : List (Ckpt.Leaf α)) (i : Nat) (bytes : List Nat) (r)
    (h : saveLoop P p mb l i bytes = .ok r) : r.2.1.map IndexInfo.shape = l.map fun a => a.value.shape := by
  induction l generalizing i bytes r with
  | nil =>
    simp only [saveLoop, Except.ok.injEq] at h
    subst h
    rfl
  | cons a l ih =>
    simp only [saveLoop] at h
    split at h
    · cases h
    · split at h
      · cases h
      · split at h
        · cases h
        · rename_i hr
          cases h
          simp only [List.map_cons, ih _ _ _ hr]
          rfl

theorem saveProcess_index (P p : Nat) (ns mb : Option Nat) (l : List (Ckpt.Leaf α)) (o : ProcessOutput α)
    (h : saveProcess P p ns mb l = .ok o) : o.index = none ∨
      ∃ n infos, o.index = some (n, infos) ∧ infos.map IndexInfo.shape = l.map fun a => a.value.shape := by
  simp only [saveProcess] at h
  split at h
  · cases h
  · rename_i hr
    cases h
    by_cases hp : p = 0
    · right
      exact ⟨_, _, if_pos hp, saveLoop_shapes _ _ _ _ _ _ _ hr⟩
    · left
      exact if_neg hp

theorem saveTree_none (P p : Nat) (ns mb : Option Nat) (tree : List (Key × FlatDict.Tree (Saved D α)))
    (o : ProcessOutput α) (h : saveProcess P p ns mb ((leaves tree).map Saved.array) = .ok o) (hi : o.index = none) :
    saveTree P p ns mb tree = .ok (o, none) := by
  unfold saveTree
  simp only [h]
  change (match o.index with
    | none => (pure (o, none) : Except PyErr _)
    | some (n, infos) => _) = _
  rw [hi]
  rfl

theorem saveTree_some (P p : Nat) (ns mb : Option Nat) (tree : List (Key × FlatDict.Tree (Saved D α)))
    (o : ProcessOutput α) (h : saveProcess P p ns mb ((leaves tree).map Saved.array) = .ok o) (n : Nat)
    (infos : List IndexInfo) (hi : o.index = some (n, infos)) (l : List (Key × FlatDict.Tree (IndexLeaf D)))
    (hl : unflatten tree (List.zipWith IndexLeaf.mk ((leaves tree).map Saved.dtype) infos) = .ok l) :
    saveTree P p ns mb tree = .ok (o, some ⟨some v1, n, l⟩) := by
  unfold saveTree
  simp only [h]
  change (match o.index with
    | none => (pure (o, none) : Except PyErr _)
    | some (n, infos) => _) = _
  rw [hi]
  simp only [hl]
  rfl

/-! ### Regions -/

open Ckpt.Spec

theorem inRegion_iff (s : SliceNd) (idx : List Nat) : inRegion s idx = true ↔ InSlice s idx := by
  induction s generalizing idx with
  | nil => cases idx <;> simp [inRegion, InSlice]
  | cons a s ih =>
    cases idx with
    | nil => simp [inRegion, InSlice]
    | cons i idx =>
      have := ih idx
      simp only [InSlice] at this
      simp only [inRegion, InSlice, List.forall₂_cons, Bool.and_eq_true, this]
      exact and_congr_left fun _ => and_congr decide_eq_true_iff decide_eq_true_iff

theorem globalPos_sub (d : JaxIndex) (shape idx : List Nat) (h : InIndex d shape idx) :
    globalPos d (List.zipWith (fun i s => i - Slice.start s) idx (shardIndexToSlicend d shape)) = idx ∧
      (List.zipWith (fun i s => i - Slice.start s) idx (shardIndexToSlicend d shape)).length = d.length := by
  induction d generalizing shape idx with
  | nil =>
    cases shape <;> cases idx <;> simp_all [InIndex, globalPos, shardIndexToSlicend]
  | cons a d ih =>
    cases shape with
    | nil => simp [InIndex] at h
    | cons n shape =>
      cases idx with
      | nil => simp [InIndex] at h
      | cons i idx =>
        obtain ⟨x, y⟩ := a
        simp only [InIndex] at h
        obtain ⟨h1, h2⟩ := ih shape idx h.2.2
        simp only [globalPos, shardIndexToSlicend] at h1 h2 ⊢
        simp only [List.zipWith_cons_cons, h1, List.length_cons, h2, and_true]
        have : Slice.start (Slice.mk (x.getD 0) (y.getD n)) = x.getD 0 := rfl
        rw [this]
        have h0 := h.1
        rw [Nat.add_sub_cancel' h0]

end Verif.InitVmoe
