import Verif.Proofs.Fewshot
import Mathlib.Data.List.Sort

/-! C70: the choice of the regularization (vmoe/evaluate/fewshot.py:294-307). -/

namespace Verif.Fewshot

open Verif FewshotSpec

theorem sorted_perm_range (l : List Nat) (n : Nat) (hp : l.Perm (List.range n)) (hs : l.Pairwise (· ≤ ·)) : l = List.range n :=
  hp.eq_of_pairwise (fun _ _ _ _ h1 h2 => Nat.le_antisymm h1 h2) hs (List.pairwise_lt_range.imp fun h => Nat.le_of_lt h)

/-- The ranks are the inverse of the permutation that sorts. -/
theorem ranks_inverse (argsort : List ℝ → List Nat) (ha : ArgsortOk argsort) (accs : List ℝ) :
    (ranks argsort accs).length = accs.length ∧
    ∀ j < accs.length, (ranks argsort accs).getD j 0 < accs.length ∧
      (argsort accs).getD ((ranks argsort accs).getD j 0) 0 = j := by
  obtain ⟨h1, h2⟩ := ha accs
  have hlen : (argsort accs).length = accs.length := by rw [h1.length_eq, List.length_range]
  obtain ⟨h3, h4⟩ := ha ((argsort accs).map fun (n : Nat) => (n : ℝ))
  rw [List.length_map, hlen] at h3
  have hr : (ranks argsort accs).length = accs.length := by
    unfold ranks
    rw [h3.length_eq, List.length_range]
  have hmap : (ranks argsort accs).map (fun i => (argsort accs).getD i 0) = List.range accs.length := by
    apply sorted_perm_range
    · have p1 : ((ranks argsort accs).map fun i => (argsort accs).getD i 0).Perm
          ((List.range accs.length).map fun i => (argsort accs).getD i 0) := h3.map _
      have p2 : (List.range accs.length).map (fun i => (argsort accs).getD i 0) = argsort accs := by
        apply List.ext_getElem (by simp [hlen])
        intro i hi hi'
        simp [List.getD_eq_getElem?_getD, hi']
      rw [p2] at p1
      exact p1.trans h1
    · rw [List.pairwise_map]
      refine List.Pairwise.imp_of_mem ?_ h4
      intro a b ha' hb' hab
      have ha2 : a < (argsort accs).length := by rw [hlen]; exact List.mem_range.1 (h3.mem_iff.1 ha')
      have hb2 : b < (argsort accs).length := by rw [hlen]; exact List.mem_range.1 (h3.mem_iff.1 hb')
      simp only [List.getD_eq_getElem?_getD, List.getElem?_map, List.getElem?_eq_getElem ha2, List.getElem?_eq_getElem hb2,
        Option.map_some, Option.getD_some] at hab ⊢
      exact_mod_cast hab
  refine ⟨hr, fun j hj => ?_⟩
  have hj' : j < (ranks argsort accs).length := by omega
  have hg : (ranks argsort accs).getD j 0 = (ranks argsort accs)[j] := by
    simp [List.getD_eq_getElem?_getD, hj']
  rw [hg]
  constructor
  · exact List.mem_range.1 (h3.mem_iff.1 (List.getElem_mem hj'))
  · have := congrArg (fun l => l.getD j 0) hmap
    simpa [List.getD_eq_getElem?_getD, hj', hj] using this

/-- A higher accuracy has a higher rank. -/
theorem ranks_lt (argsort : List ℝ → List Nat) (ha : ArgsortOk argsort) (accs : List ℝ) (i j : Nat) (hi : i < accs.length)
    (hj : j < accs.length) (h : accs.getD i 0 < accs.getD j 0) :
    (ranks argsort accs).getD i 0 < (ranks argsort accs).getD j 0 := by
  obtain ⟨hr, hinv⟩ := ranks_inverse argsort ha accs
  obtain ⟨a1, a2⟩ := hinv i hi
  obtain ⟨b1, b2⟩ := hinv j hj
  by_contra hcon
  have hle : (ranks argsort accs).getD j 0 ≤ (ranks argsort accs).getD i 0 := not_lt.1 hcon
  obtain ⟨h1, h2⟩ := ha accs
  have hlen : (argsort accs).length = accs.length := by rw [h1.length_eq, List.length_range]
  rcases Nat.lt_or_eq_of_le hle with hlt | heq
  · have := List.pairwise_iff_getElem.1 h2 _ _ (by omega) (by omega) hlt
    have e1 : (argsort accs)[(ranks argsort accs).getD j 0] = j := by
      have := b2
      rwa [List.getD_eq_getElem?_getD, List.getElem?_eq_getElem (by omega), Option.getD_some] at this
    have e2 : (argsort accs)[(ranks argsort accs).getD i 0] = i := by
      have := a2
      rwa [List.getD_eq_getElem?_getD, List.getElem?_eq_getElem (by omega), Option.getD_some] at this
    rw [e1, e2] at this
    linarith
  · rw [heq, a2] at b2
    subst b2
    exact lt_irrefl _ h

theorem argmaxList_spec (l : List ℝ) (hl : l ≠ []) :
    ∃ j, argmaxList l = .ok j ∧ j < l.length ∧ (∀ i < l.length, l.getD i 0 ≤ l.getD j 0) ∧ ∀ i < j, l.getD i 0 < l.getD j 0 := by
  obtain ⟨r, h1, h2, h3⟩ := EnsembleEval.argmax_spec (List.length_pos_iff.2 hl) (fun i : Fin l.length => l[i])
  refine ⟨r, by unfold argmaxList; rw [h1], r.2, ?_, ?_⟩
  · intro i hi
    have := h2 ⟨i, hi⟩
    simpa [List.getD_eq_getElem?_getD, hi] using this
  · intro i hi
    have hi' : i < l.length := by have := r.2; omega
    have := h3 ⟨i, hi'⟩ hi
    simpa [List.getD_eq_getElem?_getD, hi'] using this

/-- The chosen position. -/
theorem best_spec (argsort : List ℝ → List Nat) (ha : ArgsortOk argsort) (n : Nat) (hn : 0 < n) (accs : List (List ℝ))
    (hl : ∀ a ∈ accs, a.length = n) :
    ∃ j, bestL2 argsort n accs = .ok j ∧ j < n ∧
      (accs ≠ [] → ∀ i < n, ¬ ∀ a ∈ accs, a.getD j 0 < a.getD i 0) := by
  unfold bestL2
  simp only
  rw [if_neg (by omega)]
  by_cases he : accs = []
  · subst he
    exact ⟨0, rfl, hn, fun h => absurd rfl h⟩
  · rw [if_neg (by simpa using he)]
    obtain ⟨j, h1, h2, h3, _⟩ := argmaxList_spec ((List.range n).map fun j =>
      ((accs.map (ranks argsort)).map fun r => ((r.getD j 0 : Nat) : ℝ)).sum / (accs.map (ranks argsort)).length)
      (by simp; omega)
    have hjn : j < n := by simpa using h2
    refine ⟨j, h1, hjn, fun _ i hi hall => ?_⟩
    have h4 := h3 i (by simpa using hi)
    simp only [List.getD_eq_getElem?_getD, List.getElem?_map, List.getElem?_range hi, List.getElem?_range hjn,
      Option.map_some, Option.getD_some] at h4
    have hpos : (0 : ℝ) < (accs.map (ranks argsort)).length := by
      rw [List.length_map]
      exact_mod_cast List.length_pos_iff.2 he
    rw [div_le_div_iff_of_pos_right hpos] at h4
    have key : ∀ l : List (List ℝ), l ≠ [] → (∀ a ∈ l, a.length = n ∧ a.getD j 0 < a.getD i 0) →
        ((l.map (ranks argsort)).map fun r => (((r[j]?).getD 0 : Nat) : ℝ)).sum <
          ((l.map (ranks argsort)).map fun r => (((r[i]?).getD 0 : Nat) : ℝ)).sum := by
      intro l hne hall
      have each : ∀ a ∈ l, (((ranks argsort a)[j]?.getD 0 : Nat) : ℝ) < (((ranks argsort a)[i]?.getD 0 : Nat) : ℝ) := by
        intro a ham
        obtain ⟨q1, q2⟩ := hall a ham
        have := ranks_lt argsort ha a j i (by omega) (by omega) q2
        simp only [List.getD_eq_getElem?_getD] at this
        exact_mod_cast this
      rw [List.map_map, List.map_map]
      exact List.sum_lt_sum_of_ne_nil hne _ _ each
    have := key accs he fun a ham => ⟨hl a ham, hall a ham⟩
    linarith

/-- C70: with results for all data sets, shots and regularizations, one regularization is chosen per number of shots; it is one
of the given ones, and no given regularization has a higher accuracy in all data sets.  With a single data set the choice thus
has the highest accuracy. -/
theorem C70_undominated {ν : Type} (argsort : List ℝ → List Nat) (ha : ArgsortOk argsort)
    (allResults : PyDict ν (PyDict (Int × ℝ) ℝ)) (shots : List Int) (l2Regs : List ℝ) (hl : l2Regs ≠ [])
    (acc : PyDict (Int × ℝ) ℝ → Int → ℝ → ℝ)
    (hres : ∀ nr ∈ allResults, ∀ shot ∈ shots, ∀ l2 ∈ l2Regs, PyDict.get? nr.2 (shot, l2) = some (acc nr.2 shot l2)) :
    ∃ best, findBestL2 argsort allResults shots l2Regs = .ok best ∧
      ∀ shot, (shot ∉ shots → PyDict.get? best shot = none) ∧
        (shot ∈ shots → ∃ l2 ∈ l2Regs, PyDict.get? best shot = some l2 ∧
          (allResults ≠ [] → ∀ l2' ∈ l2Regs, ∃ nr ∈ allResults, acc nr.2 shot l2' ≤ acc nr.2 shot l2)) := by
  have pos : 0 < l2Regs.length := List.length_pos_iff.2 hl
  have choice : ∀ shot ∈ shots, ∃ (j : Nat) (hj : j < l2Regs.length),
      (allResults.mapM fun nr => l2Regs.mapM fun l2 => match PyDict.get? nr.2 (shot, l2) with
        | some a => Except.ok a
        | none => .error PyErr.keyError) = .ok (allResults.map fun nr => l2Regs.map (acc nr.2 shot)) ∧
      bestL2 argsort l2Regs.length (allResults.map fun nr => l2Regs.map (acc nr.2 shot)) = .ok j ∧
      (allResults ≠ [] → ∀ l2' ∈ l2Regs, ∃ nr ∈ allResults, acc nr.2 shot l2' ≤ acc nr.2 shot l2Regs[j]) := by
    intro shot hs
    obtain ⟨j, h1, h2, h3⟩ := best_spec argsort ha l2Regs.length pos (allResults.map fun nr => l2Regs.map (acc nr.2 shot)) (by
      intro a ham
      obtain ⟨nr, _, rfl⟩ := List.mem_map.1 ham
      simp)
    refine ⟨j, h2, ?_, h1, ?_⟩
    · apply EnsembleEval.mapM_ok
      intro nr hnr
      apply EnsembleEval.mapM_ok
      intro l2 hl2
      rw [hres nr hnr shot hs l2 hl2]
    · intro hne l2' hl2'
      obtain ⟨i, hi, rfl⟩ := List.mem_iff_getElem.1 hl2'
      have := h3 (by simpa using hne) i hi
      push Not at this
      obtain ⟨a, ham, hle⟩ := this
      obtain ⟨nr, hnr, rfl⟩ := List.mem_map.1 ham
      refine ⟨nr, hnr, ?_⟩
      simpa [List.getD_eq_getElem?_getD, hi, h2] using hle
  have loop : ∀ (todo : List Int), (∀ s ∈ todo, s ∈ shots) → ∀ d : PyDict Int ℝ, ∃ best, todo.foldlM (fun best shot => do
      let accs ← allResults.mapM fun nr => l2Regs.mapM fun l2 => match PyDict.get? nr.2 (shot, l2) with
        | some a => .ok a
        | none => .error .keyError
      let j ← bestL2 argsort l2Regs.length accs
      match l2Regs[j]? with
      | some l2 => .ok (PyDict.set best shot l2)
      | none => .error .indexError) d = Except.ok (ε := PyErr) best ∧
      ∀ shot, (shot ∉ todo → PyDict.get? best shot = PyDict.get? d shot) ∧
        (shot ∈ todo → ∃ l2 ∈ l2Regs, PyDict.get? best shot = some l2 ∧
          (allResults ≠ [] → ∀ l2' ∈ l2Regs, ∃ nr ∈ allResults, acc nr.2 shot l2' ≤ acc nr.2 shot l2)) := by
    intro todo
    induction todo with
    | nil => intro _ d; exact ⟨d, rfl, by simp⟩
    | cons s todo ih =>
      intro hsub d
      obtain ⟨j, hj, h1, h2, h3⟩ := choice s (hsub s (by simp))
      obtain ⟨best, h4, h5⟩ := ih (fun t ht => hsub t (by simp [ht])) (PyDict.set d s l2Regs[j])
      refine ⟨best, ?_, ?_⟩
      · rw [List.foldlM_cons, h1]
        change ((bestL2 _ _ _ >>= _ : Except PyErr _) >>= _) = _
        rw [h2]
        change ((match l2Regs[j]? with | some l2 => _ | none => _ : Except PyErr _) >>= _) = _
        rw [List.getElem?_eq_getElem hj]
        exact h4
      · intro shot
        constructor
        · intro hn
          rw [(h5 shot).1 (by simp at hn; exact hn.2), PyDict.get?_set, if_neg]
          simp at hn
          exact Ne.symm hn.1
        · intro hm
          by_cases ht : shot ∈ todo
          · exact (h5 shot).2 ht
          · have : shot = s := by simpa [ht] using hm
            subst this
            refine ⟨l2Regs[j], List.getElem_mem hj, ?_, h3⟩
            rw [(h5 shot).1 ht, PyDict.get?_set, if_pos rfl]
  obtain ⟨best, h1, h2⟩ := loop shots (fun s hs => hs) []
  exact ⟨best, h1, fun shot => ⟨fun h => (h2 shot).1 h, (h2 shot).2⟩⟩

/-- C70: no regularization to choose from raises `ValueError`. -/
theorem C70_empty (argsort : List ℝ → List Nat) (accs : List (List ℝ)) : bestL2 argsort 0 accs = .error .valueError := rfl

/-- A stable sort of the positions. -/
noncomputable def stableArgsort (l : List ℝ) : List Nat := (List.range l.length).insertionSort fun i j => l.getD i 0 ≤ l.getD j 0

theorem stableArgsort_ok : ArgsortOk stableArgsort := by
  intro l
  have : Std.Total fun i j : Nat => l.getD i 0 ≤ l.getD j 0 := ⟨fun a b => le_total _ _⟩
  have : IsTrans Nat fun i j : Nat => l.getD i 0 ≤ l.getD j 0 := ⟨fun a b c h1 h2 => le_trans h1 h2⟩
  exact ⟨List.perm_insertionSort _ _, List.pairwise_insertionSort _ _⟩

/-- C70: ties are ranked by position, so the choice may be worse than another regularization in one data set although it is better
in none: with equal accuracies in the first data set, the third regularization is chosen and the first is better. -/
theorem C70_tie_counterexample :
    ∃ (argsort : List ℝ → List Nat) (accs : List (List ℝ)), ArgsortOk argsort ∧ (∀ a ∈ accs, a.length = 3) ∧
      bestL2 argsort 3 accs = .ok 2 ∧ (∀ a ∈ accs, a.getD 2 0 ≤ a.getD 0 0) ∧ ∃ a ∈ accs, a.getD 2 0 < a.getD 0 0 := by
  refine ⟨stableArgsort, [[5, 5, 5], [3, 1, 2]], stableArgsort_ok, by simp, ?_, ?_, ?_⟩
  · have r1 : ranks stableArgsort [5, 5, 5] = [0, 1, 2] := by
      have : stableArgsort [5, 5, 5] = [0, 1, 2] := by
        simp [stableArgsort, List.range_succ, List.insertionSort]
      unfold ranks
      rw [this]
      norm_num [stableArgsort, List.range_succ, List.insertionSort]
    have r2 : ranks stableArgsort [3, 1, 2] = [2, 0, 1] := by
      have : stableArgsort [3, 1, 2] = [1, 2, 0] := by
        norm_num [stableArgsort, List.range_succ, List.insertionSort, List.orderedInsert]
      unfold ranks
      rw [this]
      norm_num [stableArgsort, List.range_succ, List.insertionSort, List.orderedInsert]
    unfold bestL2
    simp only [List.map_cons, List.map_nil, r1, r2]
    rw [if_neg (by norm_num), if_neg (by simp)]
    obtain ⟨j, h1, h2, h3, h4⟩ := argmaxList_spec ((List.range 3).map fun j =>
      ([[0, 1, 2], [2, 0, 1]].map fun r => ((r.getD j 0 : Nat) : ℝ)).sum / ([[0, 1, 2], [2, 0, 1]] : List (List Nat)).length)
      (by simp)
    have h3' := h3 2 (by simp)
    have hj : j < 3 := by simpa using h2
    have : j = 2 := by
      rcases (by omega : j = 0 ∨ j = 1 ∨ j = 2) with rfl | rfl | rfl
      · norm_num [List.range_succ] at h3'
      · norm_num [List.range_succ] at h3'
      · rfl
    subst this
    simpa only [List.map_cons, List.map_nil] using h1
  · norm_num
  · norm_num

/-- The contract of `argsort` can be met. -/
example : ∃ argsort, ArgsortOk argsort := ⟨stableArgsort, stableArgsort_ok⟩

/-- Results for two data sets, one number of shots, two regularizations. -/
example : ∀ nr ∈ ([("a", [((1, 0.1), 0.5), ((1, 0.2), 0.75)]), ("b", [((1, 0.1), 0.5), ((1, 0.2), 0.25)])] :
    PyDict String (PyDict (Int × ℝ) ℝ)), ∀ shot ∈ [(1 : Int)], ∀ l2 ∈ [(0.1 : ℝ), 0.2],
      PyDict.get? nr.2 (shot, l2) = some ((PyDict.get? nr.2 (shot, l2)).getD 0) := by
  intro nr hnr shot hs l2 hl2
  simp only [List.mem_cons, List.not_mem_nil, or_false] at hnr hs hl2
  subst hs
  rcases hnr with rfl | rfl <;> rcases hl2 with rfl | rfl <;> norm_num [PyDict.get?, List.find?]

end Verif.Fewshot
