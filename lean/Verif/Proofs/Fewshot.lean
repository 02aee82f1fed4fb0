import Verif.Spec.Fewshot
import Verif.Proofs.PyDict
import Verif.Proofs.EnsembleEval
import Verif.Proofs.FewshotRidge
import Mathlib.Data.List.Perm.Subperm

namespace Verif.Fewshot

open Verif FewshotSpec

variable {D : Nat}

theorem representation_loop {σ β : Type} (fn : σ → β → σ × List ((Fin D → ℝ) × Int × Bool)) (batches : List β) (s : σ)
    (acc : List (List (Example D))) :
    ∃ s', batches.foldl (fun (state, chunks) batch =>
      let (state, rows) := fn state batch
      (state, chunks ++ [(rows.filter fun r => r.2.2).map fun r => (r.1, r.2.1)])) (s, acc) =
      (s', acc ++ (trace fn s batches).map fun rows => (rows.filter fun r => r.2.2).map fun r => (r.1, r.2.1)) := by
  induction batches generalizing s acc with
  | nil => exact ⟨s, by simp [trace]⟩
  | cons b bs ih =>
    rw [List.foldl_cons]
    obtain ⟨s', h⟩ := ih (fn s b).1 (acc ++ [((fn s b).2.filter fun r => r.2.2).map fun r => (r.1, r.2.1)])
    refine ⟨s', ?_⟩
    simp only [trace, List.map_cons]
    rw [h]
    simp

theorem mem_whereLabel (ex : List (Example D)) (c i : Nat) :
    i ∈ whereLabel ex c ↔ ∃ e, ex[i]? = some e ∧ e.2 = (c : Int) := by
  unfold whereLabel
  rw [List.mem_filter, List.mem_range]
  constructor
  · rintro ⟨h, h2⟩
    rw [List.getElem?_eq_getElem h] at h2 ⊢
    exact ⟨_, rfl, by simpa using h2⟩
  · rintro ⟨e, h1, h2⟩
    refine ⟨?_, by simp [h1, h2]⟩
    rw [List.getElem?_eq_some_iff] at h1
    exact h1.1

theorem nodup_whereLabel (ex : List (Example D)) (c : Nat) : (whereLabel ex c).Nodup := List.nodup_range.filter _

/-- Positions of the examples with `p`. -/
theorem filter_range_map {α : Type} (p : α → Bool) (l : List α) :
    ((List.range l.length).filter fun i => l[i]?.any p).filterMap (l[·]?) = l.filter p := by
  induction l using List.reverseRecOn with
  | nil => rfl
  | append_singleton l a ih =>
    rw [List.length_append, List.length_singleton, List.range_succ, List.filter_append, List.filterMap_append, List.filter_append]
    have h1 : ∀ i ∈ List.range l.length, (l ++ [a])[i]? = l[i]? := fun i hi => by
      rw [List.getElem?_append_left (List.mem_range.1 hi)]
    congr 1
    · rw [← ih]
      rw [List.filter_congr (q := fun i => l[i]?.any p) fun i hi => by rw [h1 i hi]]
      apply List.filterMap_congr
      intro i hi
      exact h1 i (List.mem_filter.1 hi).1
    · by_cases h : p a
      · simp [h]
      · simp [h]

theorem filterMap_getElem_length (l : List α) (idx : List Nat) (h : ∀ i ∈ idx, i < l.length) :
    (idx.filterMap (l[·]?)).length = idx.length := by
  induction idx with
  | nil => rfl
  | cons i idx ih =>
    rw [List.filterMap_cons, List.getElem?_eq_getElem (h i (by simp))]
    simp only [List.length_cons]
    rw [ih fun j hj => h j (by simp [hj])]

theorem length_whereLabel (ex : List (Example D)) (c : Nat) : (whereLabel ex c).length = ofClass ex c := by
  unfold whereLabel ofClass
  rw [List.countP_eq_length_filter, ← filter_range_map (fun e : Example D => decide (e.2 = (c : Int))) ex]
  rw [filterMap_getElem_length]
  intro i hi
  exact List.mem_range.1 (List.mem_filter.1 hi).1

theorem select_ok (ex : List (Example D)) (idx : List Nat) (h : ∀ i ∈ idx, i < ex.length) :
    select ex idx = .ok (idx.filterMap (ex[·]?)) := by
  unfold select
  induction idx with
  | nil => rfl
  | cons i idx ih =>
    have hi := h i (by simp)
    rw [List.mapM_cons, List.getElem?_eq_getElem hi, ih fun j hj => h j (by simp [hj]), List.filterMap_cons,
      List.getElem?_eq_getElem hi]
    rfl

theorem sliceTo_sublist (l : List Nat) (shot : Int) : (sliceTo l shot).Sublist l := by
  unfold sliceTo
  split <;> exact List.take_sublist _ _

/-- The positions for one class. -/
theorem class_part (perm : Nat → List Nat → List Nat) (hp : PermOk perm) (ex : List (Example D)) (c i : Nat) (shot : Int)
    (h : i ∈ sliceTo (perm c (whereLabel ex c)) shot) : ∃ e, ex[i]? = some e ∧ e.2 = (c : Int) :=
  (mem_whereLabel ex c i).1 ((hp c _).mem_iff.1 ((sliceTo_sublist _ _).subset h))

theorem nodup_flatten (perm : Nat → List Nat → List Nat) (hp : PermOk perm) (ex : List (Example D)) (n : Nat) (shot : Int) :
    ((classIndices perm ex n).map fun l => sliceTo l shot).flatten.Nodup := by
  unfold classIndices
  rw [List.map_map, List.nodup_flatten]
  constructor
  · intro l hl
    obtain ⟨c, _, rfl⟩ := List.mem_map.1 hl
    exact (sliceTo_sublist _ _).nodup ((hp c _).nodup_iff.2 (nodup_whereLabel ex c))
  · rw [List.pairwise_map]
    refine (List.nodup_range (n := n)).imp ?_
    intro a b hab
    simp only [Function.comp_def]
    intro i hi hj
    obtain ⟨e, h1, h2⟩ := class_part perm hp ex a i shot hi
    obtain ⟨e', h1', h2'⟩ := class_part perm hp ex b i shot hj
    rw [h1] at h1'
    cases h1'
    rw [h2] at h2'
    exact hab (by exact_mod_cast h2')

theorem filterMap_countP {α : Type} (l : List α) (p : α → Bool) (idx : List Nat) (h : ∀ i ∈ idx, i < l.length) :
    (idx.filterMap (l[·]?)).countP p = idx.countP fun i => l[i]?.any p := by
  induction idx with
  | nil => rfl
  | cons i idx ih =>
    have hi := h i (by simp)
    rw [List.filterMap_cons, List.getElem?_eq_getElem hi]
    simp only [List.countP_cons]
    rw [ih fun j hj => h j (by simp [hj]), List.getElem?_eq_getElem hi]
    rfl

theorem countP_flatten_class (perm : Nat → List Nat → List Nat) (hp : PermOk perm) (ex : List (Example D)) (n : Nat) (shot : Int)
    (c : Nat) (hc : c < n) :
    ((classIndices perm ex n).map fun l => sliceTo l shot).flatten.countP (fun i => ex[i]?.any fun e => e.2 = (c : Int)) =
      (sliceTo (perm c (whereLabel ex c)) shot).length := by
  unfold classIndices
  rw [List.map_map, List.countP_flatten, List.map_map]
  have key : ∀ m, c < m → ∀ f : Nat → Nat, (∀ a, a ≠ c → f a = 0) → ((List.range m).map f).sum = f c := by
    intro m
    induction m with
    | zero => intro h; omega
    | succ m ih =>
      intro hm f hf
      rw [List.range_succ, List.map_append, List.sum_append, List.map_singleton, List.sum_singleton]
      by_cases h : c = m
      · subst h
        have : ((List.range c).map f).sum = 0 := by
          apply List.sum_eq_zero
          intro x hx
          obtain ⟨a, ha, rfl⟩ := List.mem_map.1 hx
          exact hf a (by have := List.mem_range.1 ha; omega)
        omega
      · rw [ih (by omega) f hf, hf m (by omega)]
        rfl
  rw [key n hc]
  · simp only [Function.comp_def]
    rw [List.countP_eq_length]
    intro i hi
    obtain ⟨e, h1, h2⟩ := class_part perm hp ex c i shot hi
    simp [h1, h2]
  · intro a ha
    simp only [Function.comp_def]
    rw [List.countP_eq_zero]
    intro i hi
    obtain ⟨e, h1, h2⟩ := class_part perm hp ex a i shot hi
    rw [h1]
    simp only [Option.any_some, decide_eq_true_eq, h2]
    intro h
    exact ha (by exact_mod_cast h)

theorem mem_flatten (perm : Nat → List Nat → List Nat) (ex : List (Example D)) (n : Nat) (shot : Int) (i : Nat) :
    i ∈ ((classIndices perm ex n).map fun l => sliceTo l shot).flatten ↔
      ∃ c < n, i ∈ sliceTo (perm c (whereLabel ex c)) shot := by
  unfold classIndices
  rw [List.map_map, List.mem_flatten]
  constructor
  · rintro ⟨l, hl, hi⟩
    obtain ⟨c, hc, rfl⟩ := List.mem_map.1 hl
    exact ⟨c, List.mem_range.1 hc, hi⟩
  · rintro ⟨c, hc, hi⟩
    exact ⟨_, List.mem_map.2 ⟨c, List.mem_range.2 hc, rfl⟩, hi⟩

theorem flatten_lt (perm : Nat → List Nat → List Nat) (hp : PermOk perm) (ex : List (Example D)) (n : Nat) (shot : Int) :
    ∀ i ∈ ((classIndices perm ex n).map fun l => sliceTo l shot).flatten, i < ex.length := by
  intro i hi
  obtain ⟨c, _, h⟩ := (mem_flatten perm ex n shot i).1 hi
  obtain ⟨e, h1, _⟩ := class_part perm hp ex c i shot h
  rw [List.getElem?_eq_some_iff] at h1
  exact h1.1

theorem allIdx_ok (perm : Nat → List Nat → List Nat) (ex : List (Example D)) (n : Nat) (hn : 0 < n) (shot : Int) :
    allIdx (classIndices perm ex n) shot = .ok ((classIndices perm ex n).map fun l => sliceTo l shot).flatten := by
  unfold allIdx
  rw [if_neg]
  unfold classIndices
  simp
  omega

end Verif.Fewshot
