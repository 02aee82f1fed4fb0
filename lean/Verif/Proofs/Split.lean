import Verif.Spec.Slices
import Mathlib.Tactic.Ring
import Mathlib.Tactic.Linarith
import Mathlib.Algebra.Order.BigOperators.Group.List

/-!
Helper lemmas about `_split_slicend`.
-/

namespace Verif.Ckpt

open Verif Spec

theorem inSlice_iff (s : SliceNd) (idx : List Nat) :
    InSlice s idx ↔ s.length = idx.length ∧ ∀ i (h : i < s.length) (h' : i < idx.length),
      Slice.start s[i] ≤ idx[i] ∧ idx[i] < Slice.stop s[i] := by
  unfold InSlice
  rw [List.forall₂_iff_get]
  simp [Slice.start, Slice.stop]

theorem inSlice_set (s : SliceNd) (i : Nat) (hi : i < s.length) (p : Slice) (idx : List Nat)
    (hsub : Slice.start s[i] ≤ Slice.start p ∧ Slice.stop p ≤ Slice.stop s[i]) :
    InSlice (s.set i p) idx ↔ InSlice s idx ∧ ∃ h : i < idx.length,
      Slice.start p ≤ idx[i] ∧ idx[i] < Slice.stop p := by
  rw [inSlice_iff, inSlice_iff]
  simp only [List.length_set]
  constructor
  · rintro ⟨hl, h⟩
    have hi' : i < idx.length := hl ▸ hi
    have h0 := h i hi hi'
    simp only [List.getElem_set_self] at h0
    refine ⟨⟨hl, fun j hj hj' => ?_⟩, hi', h0⟩
    by_cases hij : i = j
    · subst hij; omega
    · have := h j hj hj'
      simpa [List.getElem_set, hij] using this
  · rintro ⟨⟨hl, h⟩, hi', h0⟩
    refine ⟨hl, fun j hj hj' => ?_⟩
    by_cases hij : i = j
    · subst hij; simpa using h0
    · simpa [List.getElem_set, hij] using h j hj hj'

theorem prod_set_mul (l : List Nat) (i : Nat) (hi : i < l.length) (a : Nat) :
    (l.set i a).prod * l[i] = l.prod * a := by
  induction l generalizing i with
  | nil => simp at hi
  | cons x l ih =>
    cases i with
    | zero => simp only [List.set_cons_zero, List.prod_cons, List.getElem_cons_zero]; ring
    | succ i =>
      simp only [List.set_cons_succ, List.prod_cons, List.getElem_cons_succ]
      rw [mul_assoc, ih i (by simpa using hi), mul_assoc]

theorem sliceShape_set (s : SliceNd) (i : Nat) (a b : Nat) :
    sliceShape (s.set i (Slice.mk a b)) = (sliceShape s).set i (b - a) := by
  unfold sliceShape
  rw [List.map_set]; rfl

theorem pyRange_eq (start stop step n : Nat) (hs : 0 < step) (h : stop - start = n * step) :
    pyRange start stop step = (List.range n).map (fun j => start + j * step) := by
  unfold pyRange
  congr 2
  rw [h, Nat.add_sub_assoc (by omega), Nat.mul_comm, Nat.mul_add_div hs,
    Nat.div_eq_of_lt (by omega), Nat.add_zero]

/-- Exactly one of the consecutive blocks of `step` items contains a given position. -/
theorem countP_blocks (start step n x : Nat) (hs : 0 < step) :
    (List.range n).countP (fun j => start + j * step ≤ x ∧ x < start + j * step + step) =
      if start ≤ x ∧ x < start + n * step then 1 else 0 := by
  induction n with
  | zero => simp
  | succ n ih =>
    rw [List.range_succ, List.countP_append, ih, List.countP_singleton]
    simp only [decide_eq_true_eq]
    have e : (n + 1) * step = n * step + step := by ring
    rw [e]
    by_cases h1 : start ≤ x ∧ x < start + n * step
    · rw [if_pos h1, if_neg (by omega), if_pos (by omega)]
    · rw [if_neg h1]
      by_cases h2 : start + n * step ≤ x ∧ x < start + n * step + step
      · rw [if_pos h2, if_pos (by omega)]
      · rw [if_neg h2, if_neg (by omega)]

theorem countP_eq_sum_ite {α : Type*} (p : α → Bool) (l : List α) :
    l.countP p = (l.map fun c => if p c then 1 else 0).sum := by
  induction l with
  | nil => rfl
  | cons a l ih => rw [List.countP_cons, List.map_cons, List.sum_cons, ih, add_comm]

theorem numSplits_spec (size items m : Nat) (hsize : 0 < size) :
    0 < numSplits size items m ∧ numSplits size items m ∣ size ∧
      (numSplits size items m = size ∨ items / numSplits size items m ≤ m) := by
  unfold numSplits
  cases h : (List.range' 2 8).filter (fun s => decide (size % s = 0 ∧ items / s ≤ m)) with
  | nil => simpa using hsize
  | cons s t =>
    have hs : s ∈ (List.range' 2 8).filter (fun s => decide (size % s = 0 ∧ items / s ≤ m)) := by
      rw [h]; simp
    rw [List.mem_filter, List.mem_range'] at hs
    obtain ⟨⟨i, _, hi⟩, hs⟩ := hs
    simp only [decide_eq_true_eq] at hs
    simp only [List.headD_cons]
    exact ⟨by omega, Nat.dvd_of_mod_eq_zero hs.1, Or.inr hs.2⟩

/-- Invariant of one chunk with the dimensions in `rest` still to be processed. -/
structure ChunkInv (s : SliceNd) (rest : List (Nat × Nat)) (items : Nat) (c : SliceNd) : Prop where
  len : c.length = s.length
  todo : ∀ i h h', (i, Slice.stop (s[i]'h) - Slice.start (s[i]'h)) ∈ rest → c[i]'h' = s[i]'h
  done : ∀ i (_ : i < s.length) (h' : i < c.length), (∀ z, (i, z) ∉ rest) →
    Slice.stop c[i] - Slice.start c[i] = 1
  prod : (sliceShape c).prod = items
  sub : ∀ i (h : i < s.length) (h' : i < c.length),
    Slice.start s[i] ≤ Slice.start c[i] ∧ Slice.start c[i] < Slice.stop c[i] ∧
      Slice.stop c[i] ≤ Slice.stop s[i]

theorem chunkInv_weaken {s : SliceNd} {i : Nat} {rest : List (Nat × Nat)} {items : Nat}
    {c : SliceNd} (hi : i < s.length) (h1 : Slice.stop s[i] - Slice.start s[i] = 1)
    (h : ChunkInv s ((i, 1) :: rest) items c) : ChunkInv s rest items c where
  len := h.len
  todo j hj hj' hm := h.todo j hj hj' (List.mem_cons_of_mem _ hm)
  done j hj hj' hm := by
    by_cases hij : j = i
    · subst hij
      rw [h.todo j hj hj' (by rw [h1]; simp)]
      exact h1
    · exact h.done j hj hj' (fun z hz => by
        rcases List.mem_cons.1 hz with hz | hz
        · exact hij (Prod.mk.inj hz).1
        · exact hm z hz)
  prod := h.prod
  sub := h.sub

/-- What a split must satisfy, as an intermediate form. -/
structure SplitOk (s : SliceNd) (m : Nat) (chunks : List SliceNd) : Prop where
  count : ∀ idx, chunks.countP (fun c => InSlice c idx) = if InSlice s idx then 1 else 0
  bound : ∀ c ∈ chunks, (sliceShape c).prod ≤ m
  len : ∀ c ∈ chunks, c.length = s.length
  sub : ∀ c ∈ chunks, ∀ i (h : i < s.length) (h' : i < c.length),
    Slice.start s[i] ≤ Slice.start c[i] ∧ Slice.start c[i] < Slice.stop c[i] ∧
      Slice.stop c[i] ≤ Slice.stop s[i]

theorem splitLoop_ok (s : SliceNd) (m : Nat) (hm : 1 ≤ m)
    (hpos : ∀ i (h : i < s.length), Slice.start s[i] < Slice.stop s[i])
    (rest : List (Nat × Nat)) (items : Nat) (chunks : List SliceNd)
    (hrest : ∀ p ∈ rest, ∃ h : p.1 < s.length, p.2 = Slice.stop s[p.1] - Slice.start s[p.1])
    (hnd : (rest.map Prod.fst).Nodup)
    (hinv : ∀ c ∈ chunks, ChunkInv s rest items c)
    (hcount : ∀ idx, chunks.countP (fun c => InSlice c idx) = if InSlice s idx then 1 else 0) :
    SplitOk s m (splitLoop s m rest items chunks) := by
  induction rest generalizing items chunks with
  | nil =>
    refine ⟨hcount, fun c hc => ?_, fun c hc => (hinv c hc).len, fun c hc => (hinv c hc).sub⟩
    simp only [splitLoop] at hc
    refine le_trans (le_of_eq ?_) hm
    apply List.prod_eq_one
    intro x hx
    unfold sliceShape at hx
    obtain ⟨i, hi, rfl⟩ := List.mem_iff_getElem.1 hx
    simp only [List.length_map] at hi
    simp only [List.getElem_map]
    exact (hinv c hc).done i ((hinv c hc).len ▸ hi) hi (by simp)
  | cons p rest ih =>
    obtain ⟨i, size⟩ := p
    obtain ⟨hi, hsize⟩ := hrest (i, size) (by simp)
    simp only at hi hsize
    have hposi := hpos i hi
    simp only [List.map_cons, List.nodup_cons] at hnd
    unfold splitLoop
    by_cases h1 : size = 1
    · rw [if_pos h1]
      refine ih items chunks (fun p hp => hrest p (List.mem_cons_of_mem _ hp)) hnd.2 ?_ hcount
      intro c hc
      have := hinv c hc
      rw [h1] at this
      exact chunkInv_weaken hi (by omega) this
    rw [if_neg h1]
    have hgetD : s.getD i (Slice.mk 0 0) = s[i] := by
      rw [List.getD_eq_getElem?_getD, List.getElem?_eq_getElem hi]; rfl
    simp only [hgetD]
    obtain ⟨hsp0, hspd, hspm⟩ := numSplits_spec size items m (by omega)
    set n := numSplits size items m with hn
    set step := size / n with hstep
    have hns : n * step = size := Nat.mul_div_cancel' hspd
    have hstep0 : 0 < step := by
      rcases Nat.eq_zero_or_pos step with h | h
      · rw [h] at hns; omega
      · exact h
    rw [pyRange_eq (Slice.start s[i]) (Slice.stop s[i]) step n hstep0 (by omega)]
    simp only [List.map_map]
    set chunks' := chunks.flatMap (fun chunk => (List.range n).map
      ((fun j => chunk.set i (Slice.mk j (j + step))) ∘ fun j => Slice.start s[i] + j * step))
      with hchunks'
    -- elements of chunks'
    have hmem : ∀ c' ∈ chunks', ∃ c ∈ chunks, ∃ j < n, c' =
        c.set i (Slice.mk (Slice.start s[i] + j * step) (Slice.start s[i] + j * step + step)) := by
      intro c' hc'
      rw [hchunks', List.mem_flatMap] at hc'
      obtain ⟨c, hc, hc'⟩ := hc'
      rw [List.mem_map] at hc'
      obtain ⟨j, hj, rfl⟩ := hc'
      exact ⟨c, hc, j, List.mem_range.1 hj, rfl⟩
    have hjn : ∀ j < n, j * step + step ≤ size := by
      intro j hj
      calc j * step + step = (j + 1) * step := by ring
        _ ≤ n * step := Nat.mul_le_mul_right _ hj
        _ = size := hns
    have hcount' : ∀ idx, chunks'.countP (fun c => InSlice c idx) =
        if InSlice s idx then 1 else 0 := by
      intro idx
      rw [← hcount idx, hchunks', List.countP_flatMap, countP_eq_sum_ite]
      congr 1
      apply List.map_congr_left
      intro c hc
      have hI := hinv c hc
      have hic : i < c.length := hI.len ▸ hi
      have hci : c[i] = s[i] := hI.todo i hi hic (by rw [← hsize]; simp)
      simp only [Function.comp_def, List.countP_map]
      have hiff : ∀ j < n, (InSlice (c.set i (Slice.mk (Slice.start s[i] + j * step)
          (Slice.start s[i] + j * step + step))) idx ↔ InSlice c idx ∧ ∃ h : i < idx.length,
            Slice.start s[i] + j * step ≤ idx[i] ∧ idx[i] < Slice.start s[i] + j * step + step) := by
        intro j hj
        have := hjn j hj
        apply inSlice_set c i hic
        rw [hci]
        simp only [Slice.start, Slice.stop, Slice.mk, ofLex_toLex] at *
        omega
      by_cases hin : InSlice c idx
      · obtain ⟨hl, hall⟩ := (inSlice_iff c idx).1 hin
        have hii : i < idx.length := hl ▸ hic
        have hx := hall i hic hii
        rw [hci] at hx
        rw [if_pos (by simpa using hin)]
        rw [List.countP_congr (q := fun j => decide (Slice.start s[i] + j * step ≤ idx[i] ∧
          idx[i] < Slice.start s[i] + j * step + step))]
        · rw [countP_blocks _ _ _ _ hstep0, if_pos]
          omega
        · intro j hj
          simp only [decide_eq_true_eq]
          rw [hiff j (List.mem_range.1 hj)]
          exact ⟨fun h => h.2.2, fun h => ⟨hin, hii, h⟩⟩
      · rw [if_neg (by simpa using hin), List.countP_eq_zero]
        intro j hj
        simp only [decide_eq_true_eq]
        rw [hiff j (List.mem_range.1 hj)]
        exact fun h => hin h.1
    have hprod' : ∀ c' ∈ chunks', (sliceShape c').prod = items / n := by
      intro c' hc'
      obtain ⟨c, hc, j, hj, rfl⟩ := hmem c' hc'
      have hI := hinv c hc
      have hic : i < c.length := hI.len ▸ hi
      have hci : c[i] = s[i] := hI.todo i hi hic (by rw [← hsize]; simp)
      rw [sliceShape_set, Nat.add_sub_cancel_left]
      have hp := prod_set_mul (sliceShape c) i (by simpa [sliceShape] using hic) step
      have hg : (sliceShape c)[i]'(by simpa [sliceShape] using hic) = size := by
        simp [sliceShape, hci, hsize]
      rw [hg, hI.prod, ← hns, ← mul_assoc] at hp
      have := Nat.eq_of_mul_eq_mul_right hstep0 hp
      rw [← this, Nat.mul_div_cancel _ hsp0]
    have hsub' : ∀ c' ∈ chunks', ∀ k (h : k < s.length) (h' : k < c'.length),
        Slice.start s[k] ≤ Slice.start c'[k] ∧ Slice.start c'[k] < Slice.stop c'[k] ∧
        Slice.stop c'[k] ≤ Slice.stop s[k] := by
      intro c' hc' k hk hk'
      obtain ⟨c, hc, j, hj, rfl⟩ := hmem c' hc'
      have hI := hinv c hc
      simp only [List.length_set] at hk'
      have hj' := hjn j hj
      by_cases hik : i = k
      · subst hik
        simp only [List.getElem_set_self]
        simp only [Slice.start, Slice.stop, Slice.mk, ofLex_toLex] at *
        omega
      · simpa [List.getElem_set, hik] using hI.sub k hk hk'
    have hlen' : ∀ c' ∈ chunks', c'.length = s.length := by
      intro c' hc'
      obtain ⟨c, hc, j, hj, rfl⟩ := hmem c' hc'
      simp [(hinv c hc).len]
    by_cases hle : items / n ≤ m
    · rw [if_pos hle]
      exact ⟨hcount', fun c hc => (hprod' c hc).trans_le hle, hlen', hsub'⟩
    · rw [if_neg hle]
      have hnsize : n = size := hspm.resolve_right hle
      have hstep1 : step = 1 := by
        rw [hstep, hnsize]; exact Nat.div_self (by omega)
      refine ih _ chunks' (fun p hp => hrest p (List.mem_cons_of_mem _ hp)) hnd.2 ?_ hcount'
      intro c' hc'
      obtain ⟨c, hc, j, hj, hceq⟩ := hmem c' hc'
      have hI := hinv c hc
      refine ⟨hlen' c' hc', ?_, ?_, hprod' c' hc', hsub' c' hc'⟩
      · intro k hk hk' hmk
        have hik : i ≠ k := by
          rintro rfl
          exact hnd.1 (List.mem_map.2 ⟨_, hmk, rfl⟩)
        subst hceq
        simp only [List.length_set] at hk'
        simp only [List.getElem_set, hik, if_false]
        exact hI.todo k hk hk' (List.mem_cons_of_mem _ hmk)
      · intro k hk hk' hmk
        subst hceq
        simp only [List.length_set] at hk'
        by_cases hik : i = k
        · subst hik
          simp only [List.getElem_set_self]
          simp only [Slice.start, Slice.stop, Slice.mk, ofLex_toLex]
          omega
        · simp only [List.getElem_set, hik, if_false]
          refine hI.done k hk hk' (fun z hz => ?_)
          rcases List.mem_cons.1 hz with hz | hz
          · exact hik (Prod.mk.inj hz).1.symm
          · exact hmk z hz

theorem sortedDims_perm (shape : List Nat) :
    (sortedDims shape).Perm (shape.zipIdx.map (fun p => (p.2, p.1))) :=
  List.perm_insertionSort _ _

theorem splitSlicend_ok (s : SliceNd) (hs : ∀ x ∈ s, Slice.start x < Slice.stop x) (m : Nat)
    (hm : 1 ≤ m) : SplitOk s m (splitSlicend s (some m)) := by
  have hpos : ∀ i (h : i < s.length), Slice.start s[i] < Slice.stop s[i] :=
    fun i h => hs _ (List.getElem_mem h)
  unfold splitSlicend
  simp only [Option.getD_some]
  have hc1 : ∀ idx, ([s] : List SliceNd).countP (fun c => InSlice c idx) =
      if InSlice s idx then 1 else 0 := by
    intro idx
    rw [List.countP_singleton]
    by_cases h : InSlice s idx <;> simp [h]
  split
  · rename_i h
    refine ⟨hc1, ?_, by simp, ?_⟩
    · intro c hc
      rw [List.mem_singleton.1 hc]
      omega
    · intro c hc i h h'
      obtain rfl := List.mem_singleton.1 hc
      exact ⟨le_refl _, hpos i h, le_refl _⟩
  · have hperm := sortedDims_perm (sliceShape s)
    have hmemd : ∀ p, p ∈ sortedDims (sliceShape s) ↔
        ∃ h : p.1 < s.length, p.2 = Slice.stop s[p.1] - Slice.start s[p.1] := by
      intro p
      rw [hperm.mem_iff, List.mem_map]
      constructor
      · rintro ⟨⟨z, i⟩, hq, rfl⟩
        rw [List.mem_zipIdx_iff_getElem?] at hq
        obtain ⟨h, e⟩ := List.getElem?_eq_some_iff.1 hq
        simp only [sliceShape, List.length_map] at h
        refine ⟨h, ?_⟩
        simpa [sliceShape] using e.symm
      · rintro ⟨h, e⟩
        refine ⟨(p.2, p.1), ?_, rfl⟩
        rw [List.mem_zipIdx_iff_getElem?, List.getElem?_eq_some_iff]
        refine ⟨by simpa [sliceShape] using h, ?_⟩
        simpa [sliceShape] using e.symm
    refine splitLoop_ok s m hm hpos _ _ _ (fun p hp => (hmemd p).1 hp) ?_ ?_ hc1
    · rw [(hperm.map Prod.fst).nodup_iff, List.map_map]
      have : (Prod.fst ∘ fun p : Nat × Nat => (p.2, p.1)) = Prod.snd := by funext p; rfl
      rw [this, List.zipIdx_map_snd]
      exact List.nodup_range'
    · intro c hc
      obtain rfl := List.mem_singleton.1 hc
      refine ⟨rfl, fun _ _ _ _ => rfl, ?_, rfl, fun i h _ => ⟨le_refl _, hpos i h, le_refl _⟩⟩
      intro i h _ hno
      exact absurd ((hmemd (i, Slice.stop c[i] - Slice.start c[i])).2 ⟨h, rfl⟩) (hno _)

theorem splitSlicend_none (s : SliceNd) : splitSlicend s none = [s] := by
  simp [splitSlicend]

theorem splitSlicend_empty (s : SliceNd) (m : Option Nat) (h : (sliceShape s).prod = 0) :
    splitSlicend s m = [s] := by
  unfold splitSlicend
  simp [h]

end Verif.Ckpt
