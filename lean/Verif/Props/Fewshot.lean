import Verif.Proofs.Fewshot
import Verif.Props.FewshotRidge

/-! C58: the examples of the few-shot evaluation (vmoe/evaluate/fewshot.py:227-277). -/

namespace Verif.Fewshot

open Verif FewshotSpec

variable {D : Nat}

/-- C58: the examples used are the valid ones of all batches, in their order; a data set without batches raises
`ValueError`. -/
theorem C58_representation {σ β : Type} (fn : σ → β → σ × List ((Fin D → ℝ) × Int × Bool)) (state : σ) (batches : List β) :
    (batches = [] → computeRepresentation fn state batches = .error .valueError) ∧
    (batches ≠ [] → ∃ state', computeRepresentation fn state batches = .ok (state',
      (trace fn state batches).flatten.filterMap fun r => if r.2.2 then some (r.1, r.2.1) else none)) := by
  constructor
  · rintro rfl
    rfl
  · intro hne
    obtain ⟨s', h⟩ := representation_loop fn batches state []
    refine ⟨s', ?_⟩
    unfold computeRepresentation
    rw [h]
    simp only [List.nil_append]
    rw [if_neg]
    · congr 2
      generalize trace fn state batches = tr
      induction tr with
      | nil => rfl
      | cons rows tr ih =>
        rw [List.map_cons, List.flatten_cons, ih, List.flatten_cons, List.filterMap_append]
        congr 1
        induction rows with
        | nil => rfl
        | cons r rows ih2 =>
          by_cases hr : r.2.2
          · simp [hr, ih2]
          · simp [hr, ih2]
    · cases batches with
      | nil => exact absurd rfl hne
      | cons b bs => simp [trace]

/-- C58: with `shot ≥ 0` examples per class, the positions of the training examples are all different and valid, and for every
class there are `min shot available` of them; only examples with a label in the range of the classes are used. -/
theorem C58_subset (perm : Nat → List Nat → List Nat) (hp : PermOk perm) (train : List (Example D)) (numClasses : Nat)
    (hn : 0 < numClasses) (shot : Nat) :
    ∃ idx sel, allIdx (classIndices perm train numClasses) shot = .ok idx ∧ select train idx = .ok sel ∧
      idx.Nodup ∧ (∀ i ∈ idx, i < train.length) ∧ sel = idx.filterMap (train[·]?) ∧ sel.length = idx.length ∧
      (∀ c < numClasses, ofClass sel c = min shot (ofClass train c)) ∧
      ∀ e ∈ sel, e ∈ train ∧ 0 ≤ e.2 ∧ e.2 < numClasses := by
  have hlt := flatten_lt perm hp train numClasses shot
  refine ⟨_, _, allIdx_ok perm train numClasses hn shot, select_ok train _ hlt, nodup_flatten perm hp train numClasses shot, hlt,
    rfl, filterMap_getElem_length train _ hlt, ?_, ?_⟩
  · intro c hc
    unfold ofClass
    rw [filterMap_countP train _ _ hlt, countP_flatten_class perm hp train numClasses shot c hc]
    unfold sliceTo
    rw [if_pos (by omega), List.length_take, (hp c _).length_eq, length_whereLabel]
    rfl
  · intro e he
    obtain ⟨i, hi, h⟩ := List.mem_filterMap.1 he
    refine ⟨List.mem_of_getElem? h, ?_⟩
    obtain ⟨c, hc, h2⟩ := (mem_flatten perm train numClasses shot i).1 hi
    obtain ⟨e', h3, h4⟩ := class_part perm hp train c i shot h2
    rw [h] at h3
    cases h3
    rw [h4]
    constructor
    · positivity
    · exact_mod_cast hc

/-- C58: the set for fewer shots is contained in the set for more shots. -/
theorem C58_nested (perm : Nat → List Nat → List Nat) (train : List (Example D)) (numClasses : Nat) (s s' : Nat) (h : s ≤ s')
    (idx idx' : List Nat) (h1 : allIdx (classIndices perm train numClasses) s = .ok idx)
    (h2 : allIdx (classIndices perm train numClasses) s' = .ok idx') : ∀ i ∈ idx, i ∈ idx' := by
  have hn : 0 < numClasses := by
    by_contra hn
    have : numClasses = 0 := by omega
    subst this
    cases h1
  rw [allIdx_ok perm train numClasses hn] at h1 h2
  cases h1
  cases h2
  intro i hi
  rw [mem_flatten] at hi ⊢
  obtain ⟨c, hc, hi⟩ := hi
  refine ⟨c, hc, ?_⟩
  unfold sliceTo at hi ⊢
  rw [if_pos (by omega)] at hi ⊢
  exact (List.take_prefix_take_left (by simpa using h)).subset hi

/-- C58: with at least as many shots as examples of every class, all examples with a label in range are used, each once, whatever
the permutations are; so every seed gives the same accuracy. -/
theorem C58_all (perm : Nat → List Nat → List Nat) (hp : PermOk perm) (train : List (Example D)) (numClasses : Nat)
    (hn : 0 < numClasses) (shot : Nat) (hs : ∀ c < numClasses, ofClass train c ≤ shot) (idx : List Nat) (sel : List (Example D))
    (h1 : allIdx (classIndices perm train numClasses) shot = .ok idx) (h2 : select train idx = .ok sel) :
    sel.Perm (train.filter fun e => 0 ≤ e.2 ∧ e.2 < numClasses) ∧
    ∀ (eigh eigh' : EighFn), EighOk eigh → EighOk eigh' → ∀ (test : List (Example D)) (l2 : ℝ), 0 < l2 →
      score eigh numClasses sel test l2 =
        score eigh' numClasses (train.filter fun e => 0 ≤ e.2 ∧ e.2 < numClasses) test l2 := by
  have key : sel.Perm (train.filter fun e => 0 ≤ e.2 ∧ e.2 < numClasses) := by
    rw [allIdx_ok perm train numClasses hn] at h1
    cases h1
    rw [select_ok train _ (flatten_lt perm hp train numClasses shot)] at h2
    cases h2
    rw [← filter_range_map (fun e : Example D => decide (0 ≤ e.2 ∧ e.2 < numClasses)) train]
    apply List.Perm.filterMap
    rw [List.perm_ext_iff_of_nodup (nodup_flatten perm hp train numClasses shot) (List.nodup_range.filter _)]
    intro i
    rw [mem_flatten, List.mem_filter, List.mem_range]
    constructor
    · rintro ⟨c, hc, hi⟩
      obtain ⟨e, h3, h4⟩ := class_part perm hp train c i shot hi
      refine ⟨(List.getElem?_eq_some_iff.1 h3).1, ?_⟩
      rw [h3]
      simp only [Option.any_some, decide_eq_true_eq, h4]
      exact ⟨by positivity, by exact_mod_cast hc⟩
    · rintro ⟨hi, h3⟩
      rw [List.getElem?_eq_getElem hi] at h3
      simp only [Option.any_some, decide_eq_true_eq] at h3
      obtain ⟨c, hc⟩ := Int.eq_ofNat_of_zero_le h3.1
      have hcn : c < numClasses := by have := h3.2; rw [hc] at this; exact_mod_cast this
      refine ⟨c, hcn, ?_⟩
      unfold sliceTo
      rw [if_pos (by omega), List.take_of_length_le]
      · rw [(hp c _).mem_iff, mem_whereLabel]
        exact ⟨_, List.getElem?_eq_getElem hi, hc⟩
      · rw [(hp c _).length_eq, length_whereLabel]
        simpa using hs c hcn
  exact ⟨key, fun eigh eigh' he he' test l2 hl => C59_order eigh eigh' he he' _ _ _ _ key (List.Perm.refl _) l2 hl⟩

/-- The inner loop over the regularizations. -/
theorem inner_loop (l2Regs : List ℝ) (shot : Int) (g : ℝ → ℝ) (d : PyDict (Int × ℝ) ℝ) (k : Int × ℝ) :
    PyDict.get? (l2Regs.foldl (fun results l2 => PyDict.set results (shot, l2) (g l2)) d) k =
      if k.1 = shot ∧ k.2 ∈ l2Regs then some (g k.2) else PyDict.get? d k := by
  induction l2Regs generalizing d with
  | nil => simp
  | cons l rest ih =>
    rw [List.foldl_cons, ih, PyDict.get?_set]
    obtain ⟨a, b⟩ := k
    by_cases h1 : a = shot
    · subst h1
      by_cases h2 : b ∈ rest
      · simp [h2]
      · by_cases h3 : b = l
        · subst h3; simp
        · simp [h2, h3, Ne.symm h3]
    · simp [h1, Ne.symm h1]

/-- C58: the results are, for every number of shots and every regularization (and nothing else), the accuracy after training on
the examples for this number of shots. -/
theorem C58_results (eigh : EighFn) (perm : Nat → List Nat → List Nat) (hp : PermOk perm) (shots : List Int) (l2Regs : List ℝ)
    (numClasses : Nat) (hn : 0 < numClasses) (train test : List (Example D)) :
    ∃ results, fewshotMetrics eigh perm shots l2Regs numClasses train test = .ok results ∧
      ∀ shot l2, (shot ∈ shots → l2 ∈ l2Regs → ∃ idx sel, allIdx (classIndices perm train numClasses) shot = .ok idx ∧
          select train idx = .ok sel ∧ PyDict.get? results (shot, l2) = some (score eigh numClasses sel test l2)) ∧
        (¬ (shot ∈ shots ∧ l2 ∈ l2Regs) → PyDict.get? results (shot, l2) = none) := by
  have sel : ∀ shot, ∃ idx sel, allIdx (classIndices perm train numClasses) shot = .ok idx ∧ select train idx = .ok sel := by
    intro shot
    exact ⟨_, _, allIdx_ok perm train numClasses hn shot, select_ok train _ (flatten_lt perm hp train numClasses shot)⟩
  choose I S hI hS using sel
  have loop : ∀ (todo : List Int) (d : PyDict (Int × ℝ) ℝ), ∃ r, todo.foldlM (fun results shot => do
      let idx ← allIdx (classIndices perm train numClasses) shot
      let xy ← select train idx
      .ok (l2Regs.foldl (fun results l2 => PyDict.set results (shot, l2) (score eigh numClasses xy test l2)) results)) d =
        Except.ok (ε := PyErr) r ∧
      ∀ k, PyDict.get? r k = if k.1 ∈ todo ∧ k.2 ∈ l2Regs then some (score eigh numClasses (S k.1) test k.2)
        else PyDict.get? d k := by
    intro todo
    induction todo with
    | nil => intro d; exact ⟨d, rfl, by simp⟩
    | cons a todo ih =>
      intro d
      obtain ⟨r, h1, h2⟩ := ih (l2Regs.foldl (fun results l2 => PyDict.set results (a, l2)
        (score eigh numClasses (S a) test l2)) d)
      refine ⟨r, ?_, ?_⟩
      · rw [List.foldlM_cons, hI a]
        change ((select train (I a) >>= _ : Except PyErr _) >>= _) = _
        rw [hS a]
        exact h1
      · intro k
        rw [h2, inner_loop l2Regs a (fun l2 => score eigh numClasses (S a) test l2)]
        obtain ⟨x, y⟩ := k
        by_cases hy : y ∈ l2Regs
        · by_cases hx : x ∈ todo
          · simp [hx, hy]
          · by_cases hxa : x = a
            · subst hxa; simp [hx, hy]
            · simp [hx, hy, hxa]
        · simp [hy]
  obtain ⟨r, h1, h2⟩ := loop shots []
  refine ⟨r, h1, fun shot l2 => ⟨fun a b => ⟨I shot, S shot, hI shot, hS shot, ?_⟩, fun h => ?_⟩⟩
  · rw [h2, if_pos ⟨a, b⟩]
  · rw [h2, if_neg h]
    rfl

/-- C58: without classes there is nothing to train on, and `ValueError` is raised. -/
theorem C58_no_classes (eigh : EighFn) (perm : Nat → List Nat → List Nat) (shot : Int) (shots : List Int) (l2Regs : List ℝ)
    (train test : List (Example D)) :
    fewshotMetrics eigh perm (shot :: shots) l2Regs 0 train test = .error .valueError := by
  unfold fewshotMetrics
  rw [List.foldlM_cons]
  rfl

/-- Reversing the positions is a permutation. -/
example : PermOk fun _ l => l.reverse := fun _ l => l.reverse_perm

/-- Five examples with labels 0, 1, 0, 0, 7: of two classes with two shots, examples 3 and 2 of class 0 and example 1 of class 1
are used (with reversed positions). -/
example : (allIdx (classIndices (fun _ l => l.reverse) ([(0, 0), (0, 1), (0, 0), (0, 0), (0, 7)] : List (Example 1)) 2) 2) =
    .ok [3, 2, 1] := by
  have h0 : whereLabel ([(0, 0), (0, 1), (0, 0), (0, 0), (0, 7)] : List (Example 1)) 0 = [0, 2, 3] := rfl
  have h1 : whereLabel ([(0, 0), (0, 1), (0, 0), (0, 0), (0, 7)] : List (Example 1)) 1 = [1] := rfl
  simp only [classIndices, List.range_succ, List.range_zero, List.nil_append, List.map_cons, List.map_nil,
    List.singleton_append, h0, h1]
  rfl

end Verif.Fewshot
