import Verif.Proofs.CkptPath

namespace Verif.CkptPath

open Verif PyStr CkptNames

theorem groupRuns_key_mem {l : List (Nat × Option (List Char))} {s xs}
    (h : (s, xs) ∈ groupRuns l) : ∃ x, (s, x) ∈ l := by
  induction l generalizing s xs with
  | nil => cases h
  | cons a l ih =>
    obtain ⟨t, x⟩ := a
    unfold groupRuns at h
    split at h
    · rename_i s' ys rest hr
      split at h
      · rename_i hts
        subst hts
        rcases List.mem_cons.1 h with h | h
        · cases h; exact ⟨x, by simp⟩
        · obtain ⟨y, hy⟩ := ih (s := s) (xs := xs) (by rw [hr]; simp [h])
          exact ⟨y, by simp [hy]⟩
      · rcases List.mem_cons.1 h with h | h
        · cases h; exact ⟨x, by simp⟩
        · obtain ⟨y, hy⟩ := ih (s := s) (xs := xs) (by rw [hr]; exact h)
          exact ⟨y, by simp [hy]⟩
    · simp only [List.mem_singleton] at h
      cases h; exact ⟨x, by simp⟩

/-- On a list ordered by step, the runs are the groups. -/
theorem groupRuns_spec (le : Nat → Nat → Prop) (hanti : ∀ a b, le a b → le b a → a = b)
    (l : List (Nat × Option (List Char))) (hl : l.Pairwise fun a b => le a.1 b.1) :
    ((groupRuns l).Pairwise fun a b => le a.1 b.1 ∧ a.1 ≠ b.1) ∧
      (∀ s xs, (s, xs) ∈ groupRuns l → ∀ x, x ∈ xs ↔ (s, x) ∈ l) ∧
      (∀ s x, (s, x) ∈ l → ∃ xs, (s, xs) ∈ groupRuns l) := by
  induction l with
  | nil => exact ⟨List.Pairwise.nil, by simp [groupRuns], by simp⟩
  | cons a l ih =>
    obtain ⟨t, x⟩ := a
    obtain ⟨h1, h2, h3⟩ := ih (List.pairwise_cons.1 hl).2
    have hle := (List.pairwise_cons.1 hl).1
    unfold groupRuns
    cases hr : groupRuns l with
    | nil =>
      have hl0 : l = [] := by
        rw [List.eq_nil_iff_forall_not_mem]
        rintro ⟨s, y⟩ hy
        obtain ⟨xs, hxs⟩ := h3 s y hy
        rw [hr] at hxs; cases hxs
      subst hl0
      refine ⟨by simp, ?_, ?_⟩
      · intro s xs h y
        simp only [List.mem_singleton] at h
        cases h; simp
      · intro s y h
        simp only [List.mem_singleton] at h
        cases h; exact ⟨[x], by simp⟩
    | cons b rest =>
      obtain ⟨s', ys⟩ := b
      rw [hr] at h1 h2 h3
      obtain ⟨h11, h12⟩ := List.pairwise_cons.1 h1
      simp only []
      have hrest : ∀ s xs, (s, xs) ∈ rest → s ≠ t := by
        rintro s xs hm rfl
        obtain ⟨y, hy⟩ := groupRuns_key_mem (l := l) (s := s) (xs := xs) (by rw [hr]; simp [hm])
        obtain ⟨z, hz⟩ := groupRuns_key_mem (l := l) (s := s') (xs := ys) (by rw [hr]; simp)
        have a1 := (h11 _ hm).1
        have a2 := hle _ hz
        exact (h11 _ hm).2 (hanti _ _ a1 a2)
      by_cases hts : t = s'
      · subst hts
        rw [if_pos rfl]
        refine ⟨List.pairwise_cons.2 ⟨h11, h12⟩, ?_, ?_⟩
        · intro s xs hm y
          rcases List.mem_cons.1 hm with hm | hm
          · cases hm
            rw [List.mem_cons, List.mem_cons, h2 t ys (by simp) y]
            simp
          · rw [h2 s xs (by simp [hm]) y]
            simp [hrest s xs hm]
        · intro s y hm
          rcases List.mem_cons.1 hm with hm | hm
          · cases hm; exact ⟨_, by simp; exact .inl rfl⟩
          · obtain ⟨xs, hxs⟩ := h3 s y hm
            rcases List.mem_cons.1 hxs with hxs | hxs
            · cases hxs; exact ⟨_, by simp; exact .inl rfl⟩
            · exact ⟨xs, by simp [hxs]⟩
      · rw [if_neg hts]
        obtain ⟨z, hz⟩ := groupRuns_key_mem (l := l) (s := s') (xs := ys) (by rw [hr]; simp)
        have hts' : le t s' := hle _ hz
        refine ⟨List.pairwise_cons.2 ⟨?_, h1⟩, ?_, ?_⟩
        · rintro ⟨s, xs⟩ hm
          obtain ⟨y, hy⟩ := groupRuns_key_mem (l := l) (s := s) (xs := xs) (by rw [hr]; exact hm)
          refine ⟨hle _ hy, ?_⟩
          rintro rfl
          rcases List.mem_cons.1 hm with hm | hm
          · cases hm; exact hts rfl
          · exact hrest _ xs hm rfl
        · intro s xs hm y
          rcases List.mem_cons.1 hm with hm | hm
          · cases hm
            simp only [List.mem_cons, Prod.mk.injEq, true_and, List.not_mem_nil, or_false]
            constructor
            · exact .inl
            · rintro (h | h)
              · exact h
              · exfalso
                obtain ⟨xs, hxs⟩ := h3 _ _ h
                rcases List.mem_cons.1 hxs with hxs | hxs
                · cases hxs; exact hts rfl
                · exact hrest _ xs hxs rfl
          · rw [h2 s xs hm y]
            have : s ≠ t := by
              rcases List.mem_cons.1 hm with hm | hm
              · cases hm; exact Ne.symm hts
              · exact hrest _ xs hm
            simp [this]
        · intro s y hm
          rcases List.mem_cons.1 hm with hm | hm
          · cases hm; exact ⟨[x], by simp⟩
          · obtain ⟨xs, hxs⟩ := h3 s y hm
            exact ⟨xs, by simp only [List.mem_cons] at hxs ⊢; exact .inr hxs⟩

theorem pairLe_total (a b : Nat × Option (List Char)) : pairLe a b ∨ pairLe b a := by
  unfold pairLe
  rcases lt_trichotomy a.1 b.1 with h | h | h
  · exact .inl (.inl h)
  · rcases List.le_total (a.2.getD []) (b.2.getD []) with h' | h'
    · exact .inl (.inr ⟨h, h'⟩)
    · exact .inr (.inr ⟨h.symm, h'⟩)
  · exact .inr (.inl h)

theorem pairLe_trans {a b c : Nat × Option (List Char)} (h : pairLe a b) (h' : pairLe b c) :
    pairLe a c := by
  unfold pairLe at *
  rcases h with h | ⟨h, h1⟩ <;> rcases h' with h' | ⟨h', h1'⟩
  · exact .inl (h.trans h')
  · exact .inl (by omega)
  · exact .inl (by omega)
  · exact .inr ⟨h.trans h', List.le_trans h1 h1'⟩

theorem pairLe_fst {a b : Nat × Option (List Char)} (h : pairLe a b) : a.1 ≤ b.1 := by
  unfold pairLe at h
  rcases h with h | h <;> omega

instance : Std.Total pairLe := ⟨pairLe_total⟩
instance : IsTrans _ pairLe := ⟨fun _ _ _ => pairLe_trans⟩
instance : Std.Total (fun a b => pairLe b a) := ⟨fun a b => pairLe_total b a⟩
instance : IsTrans _ (fun a b => pairLe b a) := ⟨fun _ _ _ h h' => pairLe_trans h' h⟩

theorem mapM_ok_mem {α β ε : Type} {f : α → Except ε β} {l : List α} {r : List β}
    (h : l.mapM f = .ok r) (y : β) : y ∈ r ↔ ∃ x ∈ l, f x = .ok y := by
  induction l generalizing r with
  | nil =>
    rw [List.mapM_nil] at h
    cases h; simp
  | cons a l ih =>
    rw [List.mapM_cons] at h
    cases hf : f a with
    | error e => rw [hf] at h; cases h
    | ok b =>
      rw [hf] at h
      cases hl : l.mapM f with
      | error e => rw [hl] at h; cases h
      | ok bs =>
        rw [hl] at h
        cases h
        simp only [List.mem_cons, exists_eq_or_imp, hf, ih hl, Except.ok.injEq]
        constructor
        · rintro (rfl | h)
          · exact .inl rfl
          · exact .inr h
        · rintro (rfl | h)
          · exact .inl rfl
          · exact .inr h

theorem mapM_ok_iff {α β ε : Type} {f : α → Except ε β} {l : List α} :
    (∃ r, l.mapM f = .ok r) ↔ ∀ x ∈ l, ∃ y, f x = .ok y := by
  induction l with
  | nil => simp [List.mapM_nil, pure, Except.pure]
  | cons a l ih =>
    rw [List.mapM_cons]
    cases hf : f a with
    | error e =>
      simp [bind, Except.bind, hf]
    | ok b =>
      cases hl : l.mapM f with
      | error e =>
        simp only [hl, reduceCtorEq, exists_const, false_iff] at ih
        simp only [bind, Except.bind, reduceCtorEq, exists_const, false_iff]
        intro h; exact ih fun x hx => h x (by simp [hx])
      | ok bs =>
        have := ih.1 ⟨bs, hl⟩
        simp only [bind, Except.bind, pure, Except.pure, List.mem_cons, forall_eq_or_imp]
        exact ⟨fun _ => ⟨⟨b, hf⟩, this⟩, fun _ => ⟨_, rfl⟩⟩

theorem mem_globPrefix {files : List (List Char)} {pre f : List Char} :
    f ∈ globPrefix files pre ↔ f ∈ files ∧ Extends f pre := by
  unfold globPrefix Extends startsWith
  rw [List.mem_filter, Bool.and_eq_true, List.isPrefixOf_iff_prefix, List.all_eq_true]
  refine and_congr_right fun _ => ?_
  constructor
  · rintro ⟨⟨t, rfl⟩, h⟩
    refine ⟨t, fun hm => ?_, rfl⟩
    simpa using h '/' (by simpa using hm)
  · rintro ⟨t, ht, rfl⟩
    refine ⟨⟨t, rfl⟩, fun x hx => ?_⟩
    simp only [List.drop_left] at hx
    simp only [ne_eq, decide_not, Bool.not_eq_eq_eq_not, Bool.not_true, decide_eq_false_iff_not]
    rintro rfl; exact ht hx

theorem mixedSuffixes_iff {l : List (Nat × Option (List Char))} :
    mixedSuffixes l = true ↔ ∃ n y, (n, none) ∈ l ∧ (n, some y) ∈ l := by
  unfold mixedSuffixes
  rw [List.any_eq_true]
  constructor
  · rintro ⟨⟨n, x⟩, ha, h⟩
    rw [Bool.and_eq_true, List.any_eq_true] at h
    obtain ⟨h1, ⟨m, y⟩, hb, h2⟩ := h
    simp only [Option.isNone_iff_eq_none, Bool.and_eq_true, decide_eq_true_eq] at h1 h2
    obtain ⟨rfl, h2⟩ := h2
    obtain ⟨z, rfl⟩ := Option.isSome_iff_exists.1 h2
    subst h1
    exact ⟨n, z, ha, hb⟩
  · rintro ⟨n, y, h1, h2⟩
    refine ⟨_, h1, ?_⟩
    rw [Bool.and_eq_true, List.any_eq_true]
    exact ⟨rfl, _, h2, by simp⟩

/-- The suffixes asked for; no suffix at all stands for the file without suffix. -/
def requiredOf (suffixes : Option (List (List Char))) : List (Option (List Char)) :=
  match suffixes with
  | none => [none]
  | some [] => [none]
  | some l => l.map some

theorem requiredOf_ne_nil (s) : requiredOf s ≠ [] := by
  unfold requiredOf
  split <;> simp_all

/-- A step and suffix present in final form and not as temporary file. -/
def Present (files : List (List Char)) (pre : List Char) (n : Nat) (x : Option (List Char)) : Prop :=
  (∃ f ∈ files, Extends f pre ∧ Names f n x) ∧
    ¬ ∃ f ∈ files, Extends f (tmpPath pre) ∧ Names f n x

theorem iterate_spec {files : List (List Char)} (hnl : ∀ f ∈ files, '\n' ∉ f) {pre suffixes dec steps}
    (h : iterateCompleteSteps files pre suffixes dec = .ok steps) :
    (steps.Pairwise fun a b => if dec then b < a else a < b) ∧
      (∀ n, n ∈ steps ↔ ∀ x ∈ requiredOf suffixes, Present files pre n x) ∧
      (∀ f ∈ files, Extends f pre → ∃ n x, Names f n x) ∧
      (∀ f ∈ files, Extends f (tmpPath pre) → ∃ n x, Names f n x) ∧
      ¬ ∃ n y, Present files pre n none ∧ Present files pre n (some y) := by
  unfold iterateCompleteSteps at h
  simp only [] at h
  split at h
  · cases h
  rename_i found hfound
  split at h
  · cases h
  rename_i inc hinc
  split at h
  · cases h
  rename_i hmix
  change _ = Except.ok steps at h
  have hA : ∀ n x, (n, x) ∈ found ↔ ∃ f ∈ files, Extends f pre ∧ Names f n x := by
    intro n x
    rw [mapM_ok_mem hfound]
    constructor
    · rintro ⟨f, hf, hp⟩
      rw [mem_globPrefix] at hf
      exact ⟨f, hf.1, hf.2, (parse_ok_iff (hnl f hf.1) n x).1 hp⟩
    · rintro ⟨f, hf, he, hn⟩
      exact ⟨f, mem_globPrefix.2 ⟨hf, he⟩, (parse_ok_iff (hnl f hf) n x).2 hn⟩
  have hB : ∀ n x, (n, x) ∈ inc ↔ ∃ f ∈ files, Extends f (tmpPath pre) ∧ Names f n x := by
    intro n x
    rw [mapM_ok_mem hinc]
    constructor
    · rintro ⟨f, hf, hp⟩
      rw [mem_globPrefix] at hf
      exact ⟨f, hf.1, hf.2, (parse_ok_iff (hnl f hf.1) n x).1 hp⟩
    · rintro ⟨f, hf, he, hn⟩
      exact ⟨f, mem_globPrefix.2 ⟨hf, he⟩, (parse_ok_iff (hnl f hf) n x).2 hn⟩
  set diff := (found.filter (fun p => p ∉ inc)).dedup with hdiff
  have hD : ∀ n x, (n, x) ∈ diff ↔ Present files pre n x := by
    intro n x
    rw [hdiff, List.mem_dedup, List.mem_filter, decide_eq_true_eq, hA, hB]
    rfl
  have hval : ∀ (g : List Char → Except PyErr (Nat × Option (List Char))) q r,
      g = parseStepAndSuffix → (globPrefix files q).mapM g = .ok r →
      ∀ f ∈ files, Extends f q → ∃ n x, Names f n x := by
    rintro g q r rfl hr f hf he
    obtain ⟨⟨n, x⟩, hy⟩ := mapM_ok_iff.1 ⟨r, hr⟩ f (mem_globPrefix.2 ⟨hf, he⟩)
    exact ⟨n, x, (parse_ok_iff (hnl f hf) n x).1 hy⟩
  have main : ∀ (le : Nat → Nat → Prop), (∀ a b, le a b → le b a → a = b) →
      ∀ l : List (Nat × Option (List Char)), (l.Pairwise fun a b => le a.1 b.1) → l.Perm diff →
      ∀ st, st = ((groupRuns l).filter
        fun g => (requiredOf suffixes).all (fun x => decide (x ∈ g.2))).map Prod.fst →
      (st.Pairwise fun a b => le a b ∧ a ≠ b) ∧
        ∀ n, n ∈ st ↔ ∀ x ∈ requiredOf suffixes, Present files pre n x := by
    rintro le hanti l hl hperm st rfl
    obtain ⟨g1, g2, g3⟩ := groupRuns_spec le hanti l hl
    refine ⟨?_, ?_⟩
    · rw [List.pairwise_map]
      exact g1.filter _
    · intro n
      rw [List.mem_map]
      constructor
      · rintro ⟨⟨s, xs⟩, hg, rfl⟩ x hx
        rw [List.mem_filter, List.all_eq_true] at hg
        have := hg.2 x hx
        rw [decide_eq_true_eq, g2 s xs hg.1 x, hperm.mem_iff, hD] at this
        exact this
      · intro hall
        obtain ⟨x0, hx0⟩ := List.exists_mem_of_ne_nil _ (requiredOf_ne_nil suffixes)
        have h0 : (n, x0) ∈ l := by rw [hperm.mem_iff, hD]; exact hall x0 hx0
        obtain ⟨xs, hxs⟩ := g3 n x0 h0
        refine ⟨(n, xs), ?_, rfl⟩
        rw [List.mem_filter, List.all_eq_true]
        refine ⟨hxs, fun x hx => ?_⟩
        rw [decide_eq_true_eq, g2 n xs hxs x, hperm.mem_iff, hD]
        exact hall x hx
  refine ⟨?_, ?_, hval _ _ _ rfl hfound, hval _ _ _ rfl hinc, ?_⟩
  · cases dec with
    | true =>
      refine ((main (fun a b => b ≤ a) (fun a b h h' => le_antisymm h' h)
        (diff.insertionSort fun a b => pairLe b a) ?_ (List.perm_insertionSort _ _) _
        (Except.ok.inj h).symm).1).imp ?_
      · exact (List.pairwise_insertionSort _ _).imp pairLe_fst
      · intro a b h; simp only [if_true]; omega
    | false =>
      refine ((main (fun a b => a ≤ b) (fun a b h h' => le_antisymm h h')
        (diff.insertionSort pairLe) ?_ (List.perm_insertionSort _ _) _
        (Except.ok.inj h).symm).1).imp ?_
      · exact (List.pairwise_insertionSort _ _).imp pairLe_fst
      · intro a b h; simp only [Bool.false_eq_true, if_false]; omega
  · cases dec with
    | true =>
      refine (main (fun a b => b ≤ a) (fun a b h h' => le_antisymm h' h)
        (diff.insertionSort fun a b => pairLe b a) ?_ (List.perm_insertionSort _ _) _
        (Except.ok.inj h).symm).2
      exact (List.pairwise_insertionSort _ _).imp pairLe_fst
    | false =>
      refine (main (fun a b => a ≤ b) (fun a b h h' => le_antisymm h h')
        (diff.insertionSort pairLe) ?_ (List.perm_insertionSort _ _) _
        (Except.ok.inj h).symm).2
      exact (List.pairwise_insertionSort _ _).imp pairLe_fst
  · rintro ⟨n, y, h1, h2⟩
    exact hmix (mixedSuffixes_iff.2 ⟨n, y, (hD _ _).2 h1, (hD _ _).2 h2⟩)

theorem iterate_ok {files : List (List Char)} (hnl : ∀ f ∈ files, '\n' ∉ f) {pre suffixes dec}
    (h1 : ∀ f ∈ files, Extends f pre → ∃ n x, Names f n x)
    (h2 : ∀ f ∈ files, Extends f (tmpPath pre) → ∃ n x, Names f n x)
    (h3 : ¬ ∃ n y, Present files pre n none ∧ Present files pre n (some y)) :
    ∃ steps, iterateCompleteSteps files pre suffixes dec = .ok steps := by
  have ok : ∀ q, (∀ f ∈ files, Extends f q → ∃ n x, Names f n x) →
      ∃ r, (globPrefix files q).mapM parseStepAndSuffix = .ok r := by
    intro q hq
    rw [mapM_ok_iff]
    intro f hf
    rw [mem_globPrefix] at hf
    obtain ⟨n, x, hn⟩ := hq f hf.1 hf.2
    exact ⟨_, (parse_ok_iff (hnl f hf.1) n x).2 hn⟩
  obtain ⟨found, hfound⟩ := ok pre h1
  obtain ⟨inc, hinc⟩ := ok (tmpPath pre) h2
  have hm : ∀ q r, (globPrefix files q).mapM parseStepAndSuffix = .ok r → ∀ n x,
      (n, x) ∈ r ↔ ∃ f ∈ files, Extends f q ∧ Names f n x := by
    intro q r hr n x
    rw [mapM_ok_mem hr]
    constructor
    · rintro ⟨f, hf, hp⟩
      rw [mem_globPrefix] at hf
      exact ⟨f, hf.1, hf.2, (parse_ok_iff (hnl f hf.1) n x).1 hp⟩
    · rintro ⟨f, hf, he, hn⟩
      exact ⟨f, mem_globPrefix.2 ⟨hf, he⟩, (parse_ok_iff (hnl f hf) n x).2 hn⟩
  unfold iterateCompleteSteps
  rw [hfound]
  unfold tmpPath at hinc
  simp only []
  rw [hinc]
  simp only []
  rw [if_neg]
  · exact ⟨_, rfl⟩
  · intro hmix
    rw [mixedSuffixes_iff] at hmix
    obtain ⟨n, y, ha, hb⟩ := hmix
    have hD : ∀ n x, (n, x) ∈ (found.filter (fun p => p ∉ inc)).dedup → Present files pre n x := by
      intro n x hx
      rw [List.mem_dedup, List.mem_filter, decide_eq_true_eq, hm _ _ hfound, hm _ _ hinc] at hx
      exact hx
    exact h3 ⟨n, y, hD _ _ ha, hD _ _ hb⟩

end Verif.CkptPath
