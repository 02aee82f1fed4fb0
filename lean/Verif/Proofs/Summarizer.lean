import Verif.Model.Summarizer
import Verif.Proofs.FlatLeaf
import Verif.Proofs.CkptPath
import Verif.Proofs.NdArray
import Verif.Proofs.ExceptLemmas

/-! Helper lemmas about the tree summarizer. -/

namespace Verif.Summarizer

open Verif FlatDict NdArray

theorem mem_product {shape idx : List Nat} : idx ∈ product shape ↔ Valid shape idx := by
  induction shape generalizing idx with
  | nil =>
    simp only [product, List.mem_singleton, Valid]
    constructor
    · rintro rfl; exact List.Forall₂.nil
    · intro h; cases h; rfl
  | cons d ds ih =>
    simp only [product, List.mem_flatMap, List.mem_range, List.mem_map]
    constructor
    · rintro ⟨i, hi, t, ht, rfl⟩
      exact List.Forall₂.cons hi (ih.1 ht)
    · intro h
      cases h with
      | cons h1 h2 => exact ⟨_, h1, _, ih.2 h2, rfl⟩

theorem product_nodup (shape : List Nat) : (product shape).Nodup := by
  induction shape with
  | nil => simp [product]
  | cons d ds ih =>
    rw [product, List.nodup_flatMap]
    refine ⟨fun i _ => ih.map fun a b h => (List.cons.inj h).2, ?_⟩
    refine List.nodup_range.imp ?_
    intro i j hij
    simp only [Function.onFun]
    rw [List.disjoint_left]
    intro a ha hb
    obtain ⟨t, _, rfl⟩ := List.mem_map.1 ha
    obtain ⟨u, _, hu⟩ := List.mem_map.1 hb
    exact hij (List.cons.inj hu).1.symm

theorem product_length (shape : List Nat) : (product shape).length = shape.prod := by
  induction shape with
  | nil => rfl
  | cons d ds ih => simp [product, List.length_flatMap, ih]

theorem value_unique {l : List (List Char × ℝ)} (h : (l.map Prod.fst).Nodup) {k : List Char} {v w : ℝ} (hv : (k, v) ∈ l)
    (hw : (k, w) ∈ l) : v = w := by
  have := (PyDict.get?_eq_some l h k v).2 hv
  have h2 := (PyDict.get?_eq_some l h k w).2 hw
  rw [this] at h2
  exact Option.some.inj h2

theorem split_comma {a b c d : List Char} (ha : ',' ∉ a) (hc : ',' ∉ c) (h : a ++ ',' :: b = c ++ ',' :: d) :
    a = c ∧ b = d := by
  have h1 := CkptPath.takeWhile_append_of_all (fun x => decide (x ≠ ',')) a (',' :: b)
    (fun x hx => decide_eq_true fun (e : x = ',') => ha (e ▸ hx)) (by rintro x ⟨⟩; simp)
  have h2 := CkptPath.takeWhile_append_of_all (fun x => decide (x ≠ ',')) c (',' :: d)
    (fun x hx => decide_eq_true fun (e : x = ',') => hc (e ▸ hx)) (by rintro x ⟨⟩; simp)
  have e1 : a = c := by rw [← h1.1, h, h2.1]
  have e2 : ',' :: b = ',' :: d := by rw [← h1.2, h, h2.2]
  exact ⟨e1, by simpa using e2⟩

theorem joinWith_inj : ∀ (a b : List (List Char)), a.length = b.length → (∀ p ∈ a, ',' ∉ p) → (∀ p ∈ b, ',' ∉ p) →
    joinWith ',' a = joinWith ',' b → a = b
  | [], [], _, _, _, _ => rfl
  | [p], [q], _, _, _, h => by rw [show p = q from h]
  | p :: p' :: ps, q :: q' :: qs, hl, ha, hb, h => by
    obtain ⟨h1, h2⟩ := split_comma (ha p (by simp)) (hb q (by simp)) h
    rw [h1, joinWith_inj (p' :: ps) (q' :: qs) (by simpa using hl) (fun x hx => ha x (by simp [List.mem_cons.1 hx]))
      (fun x hx => hb x (by simp [List.mem_cons.1 hx])) h2]
  | [], _ :: _, hl, _, _, _ => by simp at hl
  | _ :: _, [], hl, _, _, _ => by simp at hl
  | [_], _ :: _ :: _, hl, _, _, _ => by simp at hl
  | _ :: _ :: _, [_], hl, _, _, _ => by simp at hl

theorem natStr_comma (n : Nat) : ',' ∉ PyStr.natStr n := by
  intro h
  have := (CkptPath.digits_natStr n).2 _ h
  simp [CkptNames.Digit] at this

theorem natStr_inj {a b : Nat} (h : PyStr.natStr a = PyStr.natStr b) : a = b := by
  rw [← CkptPath.value_natStr a, h, CkptPath.value_natStr]

/-- The indices shown in the name. -/
def shown (shape idx : List Nat) : List Nat :=
  ((List.zip idx shape).filter fun p => decide (1 < p.2)).map Prod.fst

theorem indexStr_eq (shape idx : List Nat) : indexStr shape idx = joinWith ',' ((shown shape idx).map PyStr.natStr) := by
  unfold indexStr shown
  rw [List.map_map]
  rfl

theorem shown_inj {shape idx idx' : List Nat} (h : Valid shape idx) (h' : Valid shape idx') :
    (shown shape idx).length = (shown shape idx').length ∧ (shown shape idx = shown shape idx' → idx = idx') := by
  induction h generalizing idx' with
  | nil => cases h'; exact ⟨rfl, fun _ => rfl⟩
  | @cons i d is ds hi _ ih =>
    cases h' with
    | @cons i' _ is' _ hi' h2 =>
      obtain ⟨ih1, ih2⟩ := ih h2
      unfold shown at ih1 ih2 ⊢
      simp only [List.zip_cons_cons]
      by_cases hd : 1 < d
      · rw [List.filter_cons_of_pos (by simpa using hd), List.filter_cons_of_pos (by simpa using hd)]
        refine ⟨by simpa using ih1, ?_⟩
        intro e
        simp only [List.map_cons, List.cons.injEq] at e
        rw [e.1, ih2 e.2]
      · rw [List.filter_cons_of_neg (by simpa using hd), List.filter_cons_of_neg (by simpa using hd)]
        refine ⟨ih1, ?_⟩
        intro e
        rw [ih2 e, show i = i' by omega]

theorem joinWith_nil {l : List Nat} : joinWith ',' (l.map PyStr.natStr) = [] ↔ l = [] := by
  match l with
  | [] => simp [joinWith]
  | [a] => simpa [joinWith] using (CkptPath.digits_natStr a).1
  | a :: b :: l => simp [joinWith]

theorem indexSuffix_inj {shape idx idx' : List Nat} (h : Valid shape idx) (h' : Valid shape idx')
    (e : indexSuffix shape idx = indexSuffix shape idx') : idx = idx' := by
  obtain ⟨hl, hinj⟩ := shown_inj h h'
  apply hinj
  unfold indexSuffix at e
  rw [indexStr_eq, indexStr_eq] at e
  simp only [joinWith_nil] at e
  by_cases h0 : shown shape idx = []
  · have : shown shape idx' = [] := List.length_eq_zero_iff.1 (by rw [← hl, h0]; rfl)
    rw [h0, this]
  · have h1 : shown shape idx' ≠ [] := fun h1 => h0 (List.length_eq_zero_iff.1 (by rw [hl, h1]; rfl))
    rw [if_neg h0, if_neg h1] at e
    have e' := List.append_cancel_right (List.cons.inj e).2
    have := joinWith_inj _ _ (by simpa using hl) (by simp [natStr_comma]) (by simp [natStr_comma]) e'
    exact List.map_injective_iff.2 (fun a b hab => natStr_inj hab) this

variable {R : Type}

theorem andThen_none {a b : Gen} (h : (a.andThen b).2 = none) : a.2 = none ∧ b.2 = none ∧ (a.andThen b).1 = a.1 ++ b.1 := by
  unfold Gen.andThen at h ⊢
  cases ha : a.2 with
  | none =>
    simp only [ha] at h ⊢
    exact ⟨trivial, h, trivial⟩
  | some e => simp [ha] at h

theorem summarize_mem (search : R → List Char → Bool) (maxValues : Nat) (key : List Char) (x : NdArray ℝ)
    (rules : List (R × List Transform)) (h : (summarize search maxValues key x rules).2 = none) (name : List Char) (v : ℝ) :
    (name, v) ∈ (summarize search maxValues key x rules).1 ↔
      ∃ r ts, (r, ts) ∈ rules ∧ search r key = true ∧ ∃ suffix summary, transform [] x ts = .ok (suffix, summary) ∧
        summary.shape.prod ≤ maxValues ∧
        ∃ idx, Valid summary.shape idx ∧ name = key ++ suffix ++ indexSuffix summary.shape idx ∧ v = summary.get idx := by
  induction rules with
  | nil => simp [summarize]
  | cons rt rules ih =>
    obtain ⟨r, ts⟩ := rt
    rw [summarize] at h ⊢
    obtain ⟨h1, h2, h3⟩ := andThen_none h
    rw [h3, List.mem_append, ih h2]
    have first : (name, v) ∈ (if search r key then
        match transform [] x ts with
        | .error e => ([], some e)
        | .ok (suffix, summary) =>
          if maxValues < summary.shape.prod then ([], some .valueError)
          else (yieldValues (key ++ suffix) summary, none)
        else ([], none) : Gen).1 ↔ search r key = true ∧ ∃ suffix summary, transform [] x ts = .ok (suffix, summary) ∧
        summary.shape.prod ≤ maxValues ∧
        ∃ idx, Valid summary.shape idx ∧ name = key ++ suffix ++ indexSuffix summary.shape idx ∧ v = summary.get idx := by
      by_cases hs : search r key = true
      · rw [if_pos hs] at h1 ⊢
        cases ht : transform [] x ts with
        | error e => rw [ht] at h1; cases h1
        | ok p =>
          obtain ⟨suffix, summary⟩ := p
          rw [ht] at h1
          by_cases hle : maxValues < summary.shape.prod
          · simp [if_pos hle] at h1
          · simp only [if_neg hle]
            constructor
            · intro hm
              obtain ⟨idx, hi, he⟩ := List.mem_map.1 hm
              simp only [Prod.mk.injEq] at he
              exact ⟨hs, suffix, summary, rfl, Nat.not_lt.1 hle, idx, mem_product.1 hi, he.1.symm, he.2.symm⟩
            · rintro ⟨_, s', y', he, _, idx, hi, hn, hv⟩
              cases he
              exact List.mem_map.2 ⟨idx, mem_product.2 hi, by rw [hn, hv]⟩
      · simp [hs]
    refine (or_congr first Iff.rfl).trans ?_
    constructor
    · rintro (⟨hs, rest⟩ | ⟨r', ts', hm, rest⟩)
      · exact ⟨r, ts, by simp, hs, rest⟩
      · exact ⟨r', ts', by simp [hm], rest⟩
    · rintro ⟨r', ts', hm, rest⟩
      rcases List.mem_cons.1 hm with he | hm
      · cases he
        exact .inl rest
      · exact .inr ⟨r', ts', hm, rest⟩

theorem summarizeAll_mem (search : R → List Char → Bool) (maxValues : Nat) (rules : List (R × List Transform))
    (l : List (List Char × NdArray ℝ)) (h : (summarizeAll search maxValues rules l).2 = none) (name : List Char) (v : ℝ) :
    (name, v) ∈ (summarizeAll search maxValues rules l).1 ↔
      ∃ key x, (key, x) ∈ l ∧ ∃ r ts, (r, ts) ∈ rules ∧ search r key = true ∧ ∃ suffix summary,
        transform [] x ts = .ok (suffix, summary) ∧ summary.shape.prod ≤ maxValues ∧
        ∃ idx, Valid summary.shape idx ∧ name = key ++ suffix ++ indexSuffix summary.shape idx ∧ v = summary.get idx := by
  induction l with
  | nil => simp [summarizeAll]
  | cons kx l ih =>
    obtain ⟨key, x⟩ := kx
    rw [summarizeAll] at h ⊢
    obtain ⟨h1, h2, h3⟩ := andThen_none h
    rw [h3, List.mem_append, ih h2, summarize_mem _ _ _ _ _ h1]
    constructor
    · rintro (hr | ⟨k', x', hm, rest⟩)
      · exact ⟨key, x, by simp, hr⟩
      · exact ⟨k', x', by simp [hm], rest⟩
    · rintro ⟨k', x', hm, rest⟩
      rcases List.mem_cons.1 hm with he | hm
      · cases he
        exact .inl rest
      · exact .inr ⟨k', x', hm, rest⟩

theorem resolveAxis_iff {n : Nat} {a : Int} {b : Nat} (h : resolveAxis n a = .ok b) :
    b < n ∧ ((b : Int) = a ∨ (b : Int) - n = a) := by
  unfold resolveAxis at h
  split at h
  · cases h; omega
  · split at h
    · cases h; omega
    · cases h

theorem mapM_mem {α β : Type} {f : α → Except PyErr β} {l : List α} {l' : List β} (h : l.mapM f = .ok l') (b : β) :
    b ∈ l' ↔ ∃ a ∈ l, f a = .ok b := by
  induction l generalizing l' with
  | nil => cases h; simp
  | cons a l ih =>
    rw [List.mapM_cons] at h
    obtain ⟨b', hb, h⟩ := ebind h
    obtain ⟨l'', hl, h⟩ := ebind h
    cases h
    simp only [List.mem_cons, ih hl, exists_eq_or_imp]
    constructor
    · rintro (rfl | h)
      · exact .inl hb
      · exact .inr h
    · rintro (h | h)
      · rw [hb] at h; exact .inl (Except.ok.inj h).symm
      · exact .inr h

theorem mapM_all {α β : Type} {f : α → Except PyErr β} {l : List α} {l' : List β} (h : l.mapM f = .ok l') :
    ∀ a ∈ l, ∃ b, f a = .ok b := by
  induction l generalizing l' with
  | nil => simp
  | cons a l ih =>
    rw [List.mapM_cons] at h
    obtain ⟨b', hb, h⟩ := ebind h
    obtain ⟨l'', hl, h⟩ := ebind h
    intro x hx
    rcases List.mem_cons.1 hx with rfl | hx
    · exact ⟨b', hb⟩
    · exact ih hl x hx

theorem keepShape_getD (axes shape : List Nat) (a : Nat) (ha : a < shape.length) :
    (keepShape axes shape).getD a 0 = if a ∈ axes then 1 else shape.getD a 0 := by
  unfold keepShape
  rw [List.getD_eq_getElem _ _ (by simpa using ha), List.getD_eq_getElem _ _ ha]
  simp

theorem applyOp_shape {op : List Char} {axes : List Int} {x y : NdArray ℝ} (h : applyOp op (some axes) x = .ok y) :
    y.shape.length = x.shape.length ∧ ∀ a < x.shape.length,
      (((a : Int) ∈ axes ∨ (a : Int) - x.shape.length ∈ axes) → y.shape.getD a 0 = 1) ∧
      (¬((a : Int) ∈ axes ∨ (a : Int) - x.shape.length ∈ axes) → y.shape.getD a 0 = x.shape.getD a 0) := by
  unfold applyOp at h
  cases ho : opOf op with
  | none => rw [ho] at h; cases h
  | some f =>
    rw [ho] at h
    obtain ⟨l, hl, h⟩ := ebind h
    split at h
    · cases h
    · cases h
      obtain ⟨l', hl', hl⟩ := ebind hl
      split at hl
      · cases hl
        refine ⟨by simp [keepShape], ?_⟩
        intro a ha
        have hmem : a ∈ l ↔ ((a : Int) ∈ axes ∨ (a : Int) - x.shape.length ∈ axes) := by
          rw [mapM_mem hl']
          constructor
          · rintro ⟨b, hb, he⟩
            rcases (resolveAxis_iff he).2 with h | h
            · exact .inl (h ▸ hb)
            · exact .inr (h ▸ hb)
          · rintro (hb | hb)
            · exact ⟨_, hb, by unfold resolveAxis; rw [if_pos (by omega)]; rfl⟩
            · refine ⟨_, hb, ?_⟩
              unfold resolveAxis
              rw [if_neg (by omega), if_pos (by omega)]
              congr 1
              omega
        dsimp only
        rw [keepShape_getD _ _ _ ha]
        constructor
        · intro h; rw [if_pos (hmem.2 h)]
        · intro h; rw [if_neg (fun h' => h (hmem.1 h'))]
      · cases hl

theorem keepShape_all (shape : List Nat) : (keepShape (List.range shape.length) shape).prod = 1 := by
  have : keepShape (List.range shape.length) shape = List.replicate shape.length 1 := by
    apply List.ext_getElem
    · simp [keepShape]
    · intro i h1 h2
      simp only [List.length_replicate] at h2
      simp [keepShape, h2]
  rw [this]
  simp

theorem groupAt_all (x : NdArray ℝ) (idx : List Nat) :
    groupAt (List.range x.shape.length) x idx = (product x.shape).map x.get := by
  unfold groupAt
  rw [List.filter_eq_self.2]
  intro j _
  simp only [decide_eq_true_eq]
  intro a ha hn
  exact absurd (List.mem_range.2 ha) hn

end Verif.Summarizer
