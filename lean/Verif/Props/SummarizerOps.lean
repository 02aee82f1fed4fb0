import Verif.Proofs.Summarizer
import Mathlib.Algebra.BigOperators.Group.Finset.Basic
import Mathlib.Algebra.Order.BigOperators.Group.Finset

/-! C53: the values of the summaries and the names of their operations. -/

namespace Verif.Summarizer

open Verif FlatDict NdArray TreeSpec

/-- The axis `a` of an array with `n` axes is reduced. -/
def Reduced (n : Nat) : Option (List Int) → Nat → Prop
  | none, _ => True
  | some l, a => (a : Int) ∈ l ∨ (a : Int) - n ∈ l

/-- The value of an operation on the entries of `x` at the indices `S`. -/
structure IsValue (op : List Char) (S : Finset (List Nat)) (x : List Nat → ℝ) (v : ℝ) : Prop where
  mean : op = "mean".toList → v * S.card = ∑ j ∈ S, x j
  std : op = "std".toList → ∃ m, m * S.card = ∑ j ∈ S, x j ∧ 0 ≤ v ∧ v ^ 2 * S.card = ∑ j ∈ S, (x j - m) ^ 2
  sum : op = "sum".toList → v = ∑ j ∈ S, x j
  min : op = "min".toList → (∃ j ∈ S, v = x j) ∧ ∀ j ∈ S, v ≤ x j
  max : op = "max".toList → (∃ j ∈ S, v = x j) ∧ ∀ j ∈ S, x j ≤ v
  norm : op = "norm".toList → 0 ≤ v ∧ v ^ 2 = ∑ j ∈ S, x j ^ 2

theorem sum_map_toFinset (l : List (List Nat)) (hl : l.Nodup) (f : List Nat → ℝ) :
    (l.map f).sum = ∑ j ∈ l.toFinset, f j := by
  rw [List.sum_toFinset f hl]

theorem meanOf_mul (l : List ℝ) : meanOf l * l.length = l.sum := by
  unfold meanOf
  cases l with
  | nil => simp
  | cons a l =>
    have : ((a :: l).length : ℝ) ≠ 0 := by
      rw [List.length_cons]
      exact Nat.cast_ne_zero.2 (Nat.succ_ne_zero _)
    field_simp

theorem foldl_min (l : List ℝ) (a : ℝ) : (l.foldl min a = a ∨ l.foldl min a ∈ l) ∧ l.foldl min a ≤ a ∧
    ∀ b ∈ l, l.foldl min a ≤ b := by
  induction l generalizing a with
  | nil => exact ⟨.inl rfl, le_rfl, by simp⟩
  | cons c l ih =>
    obtain ⟨h1, h2, h3⟩ := ih (Min.min a c)
    refine ⟨?_, h2.trans (min_le_left _ _), ?_⟩
    · rcases h1 with h1 | h1
      · rw [List.foldl_cons, h1]
        rcases min_choice a c with h | h
        · exact .inl h
        · rw [h]; exact .inr List.mem_cons_self
      · exact .inr (List.mem_cons_of_mem _ h1)
    · intro b hb
      rcases List.mem_cons.1 hb with rfl | hb
      · exact h2.trans (min_le_right _ _)
      · exact h3 b hb

theorem foldl_max (l : List ℝ) (a : ℝ) : (l.foldl max a = a ∨ l.foldl max a ∈ l) ∧ a ≤ l.foldl max a ∧
    ∀ b ∈ l, b ≤ l.foldl max a := by
  induction l generalizing a with
  | nil => exact ⟨.inl rfl, le_rfl, by simp⟩
  | cons c l ih =>
    obtain ⟨h1, h2, h3⟩ := ih (Max.max a c)
    refine ⟨?_, (le_max_left _ _).trans h2, ?_⟩
    · rcases h1 with h1 | h1
      · rw [List.foldl_cons, h1]
        rcases max_choice a c with h | h
        · exact .inl h
        · rw [h]; exact .inr List.mem_cons_self
      · exact .inr (List.mem_cons_of_mem _ h1)
    · intro b hb
      rcases List.mem_cons.1 hb with rfl | hb
      · exact (le_max_right _ _).trans h2
      · exact h3 b hb

theorem opOf_value (op : List Char) (f : List ℝ → ℝ) (h : opOf op = some f) (l : List (List Nat)) (hl : l.Nodup)
    (x : List Nat → ℝ) (hne : op = "min".toList ∨ op = "max".toList → l ≠ []) :
    IsValue op l.toFinset x (f (l.map x)) := by
  have hcard : (l.toFinset.card : ℝ) = ((l.map x).length : ℝ) := by
    rw [List.toFinset_card_of_nodup hl, List.length_map]
  constructor <;> rintro rfl
  · have hf : f = meanOf := by simpa [opOf] using h.symm
    rw [hf, hcard, meanOf_mul, sum_map_toFinset l hl]
  · have hf : f = fun l => Real.sqrt (meanOf (l.map fun x => (x - meanOf l) ^ 2)) := by simpa [opOf] using h.symm
    rw [hf]
    refine ⟨meanOf (l.map x), ?_, Real.sqrt_nonneg _, ?_⟩
    · rw [hcard, meanOf_mul, sum_map_toFinset l hl]
    · have h0 : 0 ≤ meanOf ((l.map x).map fun y => (y - meanOf (l.map x)) ^ 2) := by
        unfold meanOf
        refine div_nonneg (List.sum_nonneg ?_) (Nat.cast_nonneg _)
        intro y hy
        obtain ⟨z, -, rfl⟩ := List.mem_map.1 hy
        positivity
      rw [Real.sq_sqrt h0, hcard, ← List.length_map (f := fun y => (y - meanOf (l.map x)) ^ 2), meanOf_mul,
        List.map_map, sum_map_toFinset l hl]
      rfl
  · have hf : f = List.sum := by simpa [opOf] using h.symm
    rw [hf, sum_map_toFinset l hl]
  · have hf : f = fun l => l.tail.foldl Min.min (l.headD 0) := by simpa [opOf] using h.symm
    rw [hf]
    obtain ⟨j, l', rfl⟩ := List.exists_cons_of_ne_nil (hne (.inl rfl))
    obtain ⟨h1, h2, h3⟩ := foldl_min (l'.map x) (x j)
    simp only [List.map_cons, List.tail_cons, List.headD_cons, List.mem_toFinset, List.mem_cons]
    constructor
    · rcases h1 with h1 | h1
      · exact ⟨j, .inl rfl, h1⟩
      · obtain ⟨i, hi, e⟩ := List.mem_map.1 h1
        exact ⟨i, .inr hi, e.symm⟩
    · rintro i (rfl | hi)
      · exact h2
      · exact h3 _ (List.mem_map.2 ⟨i, hi, rfl⟩)
  · have hf : f = fun l => l.tail.foldl Max.max (l.headD 0) := by simpa [opOf] using h.symm
    rw [hf]
    obtain ⟨j, l', rfl⟩ := List.exists_cons_of_ne_nil (hne (.inr rfl))
    obtain ⟨h1, h2, h3⟩ := foldl_max (l'.map x) (x j)
    simp only [List.map_cons, List.tail_cons, List.headD_cons, List.mem_toFinset, List.mem_cons]
    constructor
    · rcases h1 with h1 | h1
      · exact ⟨j, .inl rfl, h1⟩
      · obtain ⟨i, hi, e⟩ := List.mem_map.1 h1
        exact ⟨i, .inr hi, e.symm⟩
    · rintro i (rfl | hi)
      · exact h2
      · exact h3 _ (List.mem_map.2 ⟨i, hi, rfl⟩)
  · have hf : f = fun l => Real.sqrt (l.map fun x => x ^ 2).sum := by simpa [opOf] using h.symm
    rw [hf]
    refine ⟨Real.sqrt_nonneg _, ?_⟩
    have h0 : 0 ≤ ((l.map x).map fun y => y ^ 2).sum := by
      refine List.sum_nonneg ?_
      intro y hy
      obtain ⟨z, -, rfl⟩ := List.mem_map.1 hy
      positivity
    rw [Real.sq_sqrt h0, List.map_map, sum_map_toFinset l hl]
    rfl

theorem mem_resolveAxes {n : Nat} {axes : Option (List Int)} {l : List Nat} (h : resolveAxes n axes = .ok l) (a : Nat)
    (ha : a < n) : a ∈ l ↔ Reduced n axes a := by
  cases axes with
  | none =>
    cases h
    simp [Reduced, ha]
  | some axes =>
    obtain ⟨l', hl', hl⟩ := ebind h
    split at hl
    · cases hl
      rw [mapM_mem hl']
      constructor
      · rintro ⟨b, hb, he⟩
        rcases (resolveAxis_iff he).2 with h | h
        · exact .inl (h ▸ hb)
        · exact .inr (h ▸ hb)
      · rintro (hb | hb)
        · exact ⟨_, hb, by unfold resolveAxis; rw [if_pos (by omega)]; rfl⟩
        · refine ⟨_, hb, ?_⟩
          unfold resolveAxis
          rw [if_neg (by omega), if_pos (by omega)]
          congr 1
          omega
    · cases hl

theorem resolveAxes_lt {n : Nat} {axes : Option (List Int)} {l : List Nat} (h : resolveAxes n axes = .ok l) (a : Nat)
    (ha : a ∈ l) : a < n := by
  cases axes with
  | none =>
    cases h
    exact List.mem_range.1 ha
  | some axes =>
    obtain ⟨l', hl', hl⟩ := ebind h
    split at hl
    · cases hl
      obtain ⟨b, -, hb⟩ := (mapM_mem hl' a).1 ha
      exact (resolveAxis_iff hb).1
    · cases hl

theorem valid_iff_getD (shape idx : List Nat) :
    Valid shape idx ↔ idx.length = shape.length ∧ ∀ a < shape.length, idx.getD a 0 < shape.getD a 0 := by
  unfold Valid
  rw [List.forall₂_iff_get]
  constructor
  · rintro ⟨h1, h2⟩
    refine ⟨h1, fun a ha => ?_⟩
    have := h2 a (by omega) ha
    rw [List.getD_eq_getElem _ _ (by omega), List.getD_eq_getElem _ _ ha]
    exact this
  · rintro ⟨h1, h2⟩
    refine ⟨h1, fun a ha hb => ?_⟩
    have := h2 a hb
    rwa [List.getD_eq_getElem _ _ ha, List.getD_eq_getElem _ _ hb] at this

/-- C53: each entry after an operation is the mean, standard deviation, sum, minimum, maximum or norm of the entries which
have the same index on the axes that are not reduced. -/
theorem C53_operations (op : List Char) (axes : Option (List Int)) (x y : NdArray ℝ) (h : applyOp op axes x = .ok y)
    (idx : List Nat) (hidx : Valid y.shape idx) :
    ∃ S : Finset (List Nat),
      (∀ j, j ∈ S ↔ Valid x.shape j ∧
        ∀ a < x.shape.length, ¬ Reduced x.shape.length axes a → j.getD a 0 = idx.getD a 0) ∧
      IsValue op S x.get (y.get idx) := by
  unfold applyOp at h
  cases ho : opOf op with
  | none => rw [ho] at h; cases h
  | some f =>
    rw [ho] at h
    obtain ⟨l, hl, h⟩ := ebind h
    split at h
    · cases h
    · rename_i hpos
      cases h
      let L := (product x.shape).filter fun j =>
        decide (∀ a < x.shape.length, a ∉ l → j.getD a 0 = idx.getD a 0)
      have hL : L.Nodup := (product_nodup x.shape).filter _
      have hmem : ∀ j, j ∈ L ↔ Valid x.shape j ∧
          ∀ a < x.shape.length, ¬ Reduced x.shape.length axes a → j.getD a 0 = idx.getD a 0 := by
        intro j
        rw [List.mem_filter, mem_product, decide_eq_true_iff]
        constructor
        · rintro ⟨h1, h2⟩
          exact ⟨h1, fun a ha hr => h2 a ha fun hm => hr ((mem_resolveAxes hl a ha).1 hm)⟩
        · rintro ⟨h1, h2⟩
          exact ⟨h1, fun a ha hr => h2 a ha fun hm => hr ((mem_resolveAxes hl a ha).2 hm)⟩
      refine ⟨L.toFinset, fun j => by rw [List.mem_toFinset, hmem], ?_⟩
      refine opOf_value op f ho L hL x.get ?_
      intro hop hnil
      have hz : ¬ ∃ a ∈ l, x.shape.getD a 0 = 0 := fun hz => hpos ⟨hop, hz⟩
      have hin : idx ∈ L := by
        rw [hmem]
        refine ⟨?_, fun a _ _ => rfl⟩
        rw [valid_iff_getD] at hidx ⊢
        dsimp only at hidx
        have hlen : (keepShape l x.shape).length = x.shape.length := by simp [keepShape]
        rw [hlen] at hidx
        refine ⟨hidx.1, fun a ha => ?_⟩
        have h1 := hidx.2 a ha
        rw [keepShape_getD _ _ _ ha] at h1
        by_cases hm : a ∈ l
        · rw [if_pos hm] at h1
          have : x.shape.getD a 0 ≠ 0 := fun h0 => hz ⟨a, hm, h0⟩
          omega
        · rwa [if_neg hm] at h1
      rw [hnil] at hin
      cases hin

/-- The text of an integer: its digits without leading zeros, after a minus sign if it is negative. -/
def IsIntText (a : Int) (s : List Char) : Prop :=
  ∃ digits : List Char, CkptNames.Digits digits ∧ (digits.head? = some '0' → digits = ['0']) ∧
    CkptNames.value digits = a.natAbs ∧ s = if a < 0 then '-' :: digits else digits

/-- The text of a tuple of integers, empty if there is no tuple. -/
inductive IsAxesText : Option (List Int) → List Char → Prop
  | none : IsAxesText none []
  | empty : IsAxesText (some []) "()".toList
  | single (a : Int) (s : List Char) : IsIntText a s → IsAxesText (some [a]) ('(' :: s ++ ",)".toList)
  | many (l : List Int) (ss : List (List Char)) : 2 ≤ l.length → List.Forall₂ IsIntText l ss →
      IsAxesText (some l) ('(' :: (List.intercalate ", ".toList ss) ++ [')'])

/-- The operations are applied one after the other, and the names are appended in this order. -/
inductive Chain : List Transform → NdArray ℝ → List Char → NdArray ℝ → Prop
  | nil (x : NdArray ℝ) : Chain [] x [] x
  | cons (op : List Char) (axes : Option (List Int)) (ts : List Transform) (x y z : NdArray ℝ) (s t : List Char) :
      applyOp op axes x = .ok y → IsAxesText axes t → Chain ts y s z →
      Chain (⟨op, axes⟩ :: ts) x ('_' :: op ++ t ++ s) z

theorem head_natStr (n : Nat) (h : (PyStr.natStr n).head? = some '0') : PyStr.natStr n = ['0'] := by
  by_cases hn : n = 0
  · subst hn; rfl
  · exfalso
    unfold PyStr.natStr at h
    rw [if_neg hn, List.head?_map, List.head?_reverse, List.getLast?_eq_some_getLast (Nat.digits_ne_nil_iff_ne_zero.2 hn)] at h
    have h1 := Nat.getLast_digit_ne_zero 10 hn
    have h2 := Nat.digits_lt_base (by norm_num : 1 < 10) (List.getLast_mem (Nat.digits_ne_nil_iff_ne_zero (b := 10).2 hn))
    revert h h1 h2
    generalize (Nat.digits 10 n).getLast _ = d
    intro h h1 h2
    interval_cases d <;> revert h h1 <;> decide

theorem isIntText_intStr (a : Int) : IsIntText a (intStr a) :=
  ⟨PyStr.natStr a.natAbs, CkptPath.digits_natStr _, head_natStr _, CkptPath.value_natStr _, rfl⟩

theorem foldl_intercalate (l : List Int) (s : List Char) :
    l.foldl (fun s c => s ++ ',' :: ' ' :: intStr c) s = List.intercalate ", ".toList (s :: l.map intStr) := by
  induction l generalizing s with
  | nil => simp [List.intercalate]
  | cons c l ih =>
    rw [List.foldl_cons, ih]
    cases l with
    | nil => simp [List.intercalate]
    | cons d l => simp [List.intercalate, List.intersperse]

theorem isAxesText (axes : Option (List Int)) :
    IsAxesText axes (match axes with | none => [] | some axes => tupleStr axes) := by
  match axes with
  | none => exact .none
  | some [] => exact .empty
  | some [a] => exact .single a _ (isIntText_intStr a)
  | some (a :: b :: l) =>
    have : tupleStr (a :: b :: l) = '(' :: (List.intercalate ", ".toList ((a :: b :: l).map intStr)) ++ [')'] := by
      change '(' :: ((b :: l).foldl (fun s c => s ++ ',' :: ' ' :: intStr c) (intStr a) ++ [')']) = _
      rw [foldl_intercalate]
      rfl
    dsimp only
    rw [this]
    refine .many _ _ (by simp) ?_
    rw [List.forall₂_map_right_iff, List.forall₂_same]
    exact fun a _ => isIntText_intStr a

theorem transform_chain (ts : List Transform) (suffix : List Char) (x y : NdArray ℝ) (s : List Char)
    (h : transform suffix x ts = .ok (s, y)) : ∃ s', s = suffix ++ s' ∧ Chain ts x s' y := by
  induction ts generalizing suffix x with
  | nil => cases h; exact ⟨[], by simp, .nil _⟩
  | cons t ts ih =>
    obtain ⟨z, hz, h⟩ := ebind h
    obtain ⟨s', rfl, hc⟩ := ih _ _ h
    obtain ⟨op, axes⟩ := t
    have ht := isAxesText axes
    cases axes with
    | none => exact ⟨_, by simp, .cons op none ts x z y s' _ hz ht hc⟩
    | some axes => exact ⟨_, by simp, .cons op (some axes) ts x z y s' _ hz ht hc⟩

theorem transform_of_chain (ts : List Transform) (suffix : List Char) (x y : NdArray ℝ) (s : List Char)
    (h : Chain ts x s y) : ∃ s', transform suffix x ts = .ok (s', y) := by
  induction h generalizing suffix with
  | nil x => exact ⟨_, rfl⟩
  | cons op axes ts x y z s t h1 h2 h3 ih =>
    unfold transform
    dsimp only
    rw [h1]
    exact ih _

/-- C53: the summary is the last array of the chain of the operations of the rule, and its name tells the operations and
their axes in order; there is a summary whenever no operation of the chain fails. -/
theorem C53_transform (ts : List Transform) (x : NdArray ℝ) :
    (∀ s y, transform [] x ts = .ok (s, y) → Chain ts x s y) ∧
    ∀ s y, Chain ts x s y → ∃ s', transform [] x ts = .ok (s', y) ∧ Chain ts x s' y := by
  refine ⟨fun s y h => ?_, fun s y h => ?_⟩
  · obtain ⟨s', rfl, hc⟩ := transform_chain ts [] x y s h
    exact hc
  · obtain ⟨s', hs⟩ := transform_of_chain ts [] x y s h
    obtain ⟨t, rfl, hc⟩ := transform_chain ts [] x y s' hs
    exact ⟨_, hs, hc⟩

/-- A case of `C53_transform`: the mean over the last axis and then the norm. -/
example : ∃ y, transform [] ⟨[2, 3], fun idx => (idx.getD 1 0 : ℝ)⟩ [⟨"mean".toList, some [-1]⟩, ⟨"norm".toList, none⟩] =
    .ok ("_mean(-1,)_norm".toList, y) ∧ y.shape = [1, 1] := ⟨_, rfl, rfl⟩

/-- A case of `C53_operations`: the norm over the first axis. -/
example : ∃ y, applyOp "norm".toList (some [0]) ⟨[2, 3], fun idx => (idx.getD 1 0 : ℝ)⟩ = .ok y ∧ Valid y.shape [0, 2] :=
  ⟨_, rfl, .cons (by decide) (.cons (by decide) .nil)⟩

end Verif.Summarizer
