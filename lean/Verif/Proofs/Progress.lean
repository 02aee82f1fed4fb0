import Verif.Spec.Progress
import Verif.Proofs.FlatDict
import Verif.Proofs.PyDict

/-!
Helper lemmas about progress reports.
-/

namespace Verif.Progress

open Verif FlatDict

/-- The value of a key after some assignments, if the same key always gets the same value. -/
theorem get?_foldl_set {κ ν : Type} [DecidableEq κ] (items : List (κ × ν)) (d : PyDict κ ν)
    (hf : ∀ k v w, (k, v) ∈ items → (k, w) ∈ items → v = w) (k : κ) (v : ν) :
    PyDict.get? (items.foldl (fun d kv => PyDict.set d kv.1 kv.2) d) k = some v ↔
      (k, v) ∈ items ∨ k ∉ PyDict.keys items ∧ PyDict.get? d k = some v := by
  induction items generalizing d with
  | nil => simp [PyDict.keys]
  | cons e l ih =>
    obtain ⟨k0, v0⟩ := e
    rw [List.foldl_cons, ih _ (fun k v w h h' => hf k v w (List.mem_cons_of_mem _ h) (List.mem_cons_of_mem _ h')),
      PyDict.get?_set]
    by_cases hk : k0 = k
    · subst hk
      simp only [if_true, PyDict.keys, List.map_cons, List.mem_cons, true_or, not_true_eq_false, false_and, or_false,
        Prod.mk.injEq, true_and, Option.some.injEq]
      constructor
      · rintro (h | ⟨_, h⟩)
        · exact .inr h
        · exact .inl h.symm
      · rintro (h | h)
        · subst h
          by_cases hm : k0 ∈ l.map Prod.fst
          · obtain ⟨⟨k1, w⟩, hw, rfl⟩ := List.mem_map.mp hm
            rw [← hf k1 v w (by simp) (List.mem_cons_of_mem _ hw)] at hw
            exact .inl hw
          · exact .inr ⟨hm, rfl⟩
        · exact .inl h
    · simp only [if_neg hk, PyDict.keys, List.map_cons, List.mem_cons, Prod.mk.injEq, Ne.symm hk, false_and, false_or]

mutual
theorem mem_flattenAt {V : Type} (t : Tree V) (ht : IsDict t) (p : List Key) (v : V) :
    (p, Flat.leaf v) ∈ flattenAt [] t ↔ leafAt p t = some v := by
  match t, ht with
  | .leaf w, _ =>
    cases p <;> simp [flattenAt, leafAt, eq_comm]
  | .node [], _ =>
    cases p <;> simp [flattenAt, leafAt, PyDict.get?]
  | .node (kt :: l), ht =>
    rw [flattenAt]
    exact mem_flattenItems (kt :: l) ht p v
theorem mem_flattenItems {V : Type} (l : List (Key × Tree V)) (hl : AreDicts l) (p : List Key) (v : V) :
    (p, Flat.leaf v) ∈ flattenItems [] l ↔ leafAt p (.node l) = some v := by
  match l, hl with
  | [], _ => cases p <;> simp [flattenItems, leafAt, PyDict.get?]
  | (k, t) :: l, hl =>
    rw [AreDicts] at hl
    rw [flattenItems, List.mem_append, mem_flattenItems l hl.2.2 p v, flattenAt_prefix]
    cases p with
    | nil =>
      simp [leafAt]
    | cons k' p =>
      have h1 : (k' :: p, Flat.leaf v) ∈ (flattenAt [] t).map (fun pv => ([] ++ [k] ++ pv.1, pv.2)) ↔
          k' = k ∧ leafAt p t = some v := by
        rw [List.mem_map]
        constructor
        · rintro ⟨⟨q, w⟩, hm, he⟩
          simp only [List.nil_append, List.cons_append, Prod.mk.injEq, List.cons.injEq] at he
          obtain ⟨⟨rfl, rfl⟩, rfl⟩ := he
          exact ⟨rfl, (mem_flattenAt t hl.2.1 q v).mp hm⟩
        · rintro ⟨rfl, h⟩
          exact ⟨(p, .leaf v), (mem_flattenAt t hl.2.1 p v).mpr h, rfl⟩
      rw [h1]
      simp only [leafAt, PyDict.get?]
      by_cases hk : k = k'
      · subst hk
        have : PyDict.get? l k = none := (PyDict.get?_eq_none l k).mpr hl.1
        simp [this]
      · simp [hk, Ne.symm hk]
end

theorem mem_flattenDict (m : PyDict Key (Tree Leaf)) (hm : AreDicts m) (p : List Key) (v : Leaf) :
    (p, v) ∈ flattenDict m ↔ leafAt p (.node m) = some v := by
  rw [flattenDict, List.mem_filterMap, ← mem_flattenItems m hm]
  constructor
  · rintro ⟨⟨q, f⟩, h, he⟩
    cases f with
    | leaf w =>
      simp only [leafItem, Option.some.injEq, Prod.mk.injEq] at he
      obtain ⟨rfl, rfl⟩ := he
      exact h
    | empty => cases he
  · intro h
    exact ⟨_, h, rfl⟩

theorem scalarItem_ok (p : List Key) (v : Leaf) (k : Key) (x : ℚ) :
    scalarItem (p, v) = .ok (k, x) ↔ v = .num x ∧ k = join p := by
  cases v with
  | num y =>
    simp only [scalarItem, toFloat, Except.map, Except.ok.injEq, Prod.mk.injEq, Leaf.num.injEq]
    constructor
    · rintro ⟨h1, h2⟩; exact ⟨h2, h1.symm⟩
    · rintro ⟨h1, h2⟩; exact ⟨h2.symm, h1⟩
  | bad => simp [scalarItem, toFloat, Except.map]

theorem mapM_scalars (l : List (List Key × Leaf)) :
    (∀ p, (p, Leaf.bad) ∉ l) → ∃ items, l.mapM scalarItem = .ok items ∧
      ∀ k x, (k, x) ∈ items ↔ ∃ p, (p, Leaf.num x) ∈ l ∧ k = join p := by
  induction l with
  | nil => intro _; exact ⟨[], rfl, by simp⟩
  | cons e l ih =>
    obtain ⟨p, v⟩ := e
    intro h
    obtain ⟨items, h1, h2⟩ := ih fun q hq => h q (List.mem_cons_of_mem _ hq)
    cases v with
    | bad => exact absurd (List.mem_cons_self) (h p)
    | num x =>
      refine ⟨(join p, x) :: items, ?_, ?_⟩
      · rw [List.mapM_cons, h1]; rfl
      · intro k y
        simp only [List.mem_cons, Prod.mk.injEq, h2, Leaf.num.injEq]
        constructor
        · rintro (⟨rfl, rfl⟩ | ⟨q, hq, rfl⟩)
          · exact ⟨p, .inl ⟨rfl, rfl⟩, rfl⟩
          · exact ⟨q, .inr hq, rfl⟩
        · rintro ⟨q, (⟨rfl, rfl⟩ | hq), rfl⟩
          · exact .inl ⟨rfl, rfl⟩
          · exact .inr ⟨q, hq, rfl⟩

theorem mapM_bad (l : List (List Key × Leaf)) (p : List Key) (h : (p, Leaf.bad) ∈ l) :
    l.mapM scalarItem = .error .typeError := by
  induction l with
  | nil => cases h
  | cons e l ih =>
    rw [List.mapM_cons]
    obtain ⟨q, v⟩ := e
    cases v with
    | bad => rfl
    | num x =>
      rcases List.mem_cons.mp h with h | h
      · simp at h
      · change ((l.mapM scalarItem) >>= fun r => pure ((join q, x) :: r)) = _
        rw [ih h]
        rfl

end Verif.Progress
